import Verif.Utils.Model

/-!
`isostatic_moho_airy` for xarray.DataArrays, whose elements are matched by the labels of their coordinates and not
by their positions.
-/

namespace Verif.Utils

/-- A Python number (`array = false`, no dimensions) or a DataArray: kind of its dtype, the names of its dimensions
with their labels (every dimension has a coordinate; other coordinates are not modelled), and the element at each
point, a label for every dimension. Operands of _isostasy.py 138-151. -/
structure XVal where
  array : Bool
  kind : Kind
  dims : List (String × List ℝ)
  val : (String → ℝ) → ℝ

/-- The labels of a dimension of the first operand in the result of an operation of two DataArrays of _isostasy.py
142-151 (xarray, external): the labels of a common dimension are kept when they are equal, otherwise `join` gives the
ones that are in both (`arithmetic_join = "inner"`, the default of xarray). -/
noncomputable def joinDim (join : List ℝ → List ℝ → List ℝ) (b : List (String × List ℝ)) (d : String × List ℝ) :
    String × List ℝ :=
  match b.lookup d.1 with
  | none => d
  | some l => (d.1, if d.2 = l then d.2 else join d.2 l)

/-- The dimensions of the result of an operation of two DataArrays of _isostasy.py 142-151 (xarray, external): the
ones of the first, then the other ones of the second. -/
noncomputable def joinDims (join : List ℝ → List ℝ → List ℝ) (a b : List (String × List ℝ)) :
    List (String × List ℝ) :=
  a.map (joinDim join b) ++ b.filter fun d => (a.lookup d.1).isNone

/-- A binary operation that makes a new number or DataArray. _isostasy.py 142, 146, 149-150. -/
noncomputable def XVal.op (join : List ℝ → List ℝ → List ℝ) (f : ℝ → ℝ → ℝ) (k : Kind) (a b : XVal) : XVal :=
  ⟨a.array || b.array, k, joinDims join a.dims b.dims, fun p => f (a.val p) (b.val p)⟩

/-- An augmented assignment `a op= b`. Numbers are immutable: it is the plain operation. A DataArray is not aligned:
MergeError, a ValueError, when the labels of a common dimension differ; ValueError when `b` has other dimensions;
the result must be castable to the dtype of `a` (else UFuncTypeError). _isostasy.py 142-143. -/
noncomputable def XVal.inplace (join : List ℝ → List ℝ → List ℝ) (f : ℝ → ℝ → ℝ) (k : Kind) (a b : XVal) :
    Py XVal :=
  if a.array = false then .ok (XVal.op join f k a b)
  else if b.dims.any fun d => (a.dims.lookup d.1).any (· ≠ d.2) then .error .ValueError
  else if b.dims.any fun d => (a.dims.lookup d.1).isNone then .error .ValueError
  else if k = .float ∧ a.kind = .int then .error .UFuncTypeError
  else .ok ⟨true, a.kind, a.dims, fun p => f (a.val p) (b.val p)⟩

/-- Python int 0. _isostasy.py 139. -/
def XVal.zero : XVal := ⟨false, .int, [], fun _ => 0⟩

/-- _isostasy.py 141-142: loop over the layers (thickness, density). -/
noncomputable def airyLoopX (join : List ℝ → List ℝ → List ℝ) : List (XVal × XVal) → XVal → Py XVal
  | [], acc => .ok acc
  | (thickness, density) :: rest, acc => do
    let p := XVal.op join (· * ·) (thickness.kind.join density.kind) thickness density
    let acc ← XVal.inplace join (· + ·) (acc.kind.join p.kind) acc p
    airyLoopX join rest acc

/-- _isostasy.py 138-143: equivalent topography of the layers. -/
noncomputable def layersEquivalentTopographyX (join : List ℝ → List ℝ → List ℝ)
    (layers : Option (List (XVal × XVal))) (density_crust : XVal) : Py XVal :=
  match layers with
  | none => .ok XVal.zero
  | some layers => do
    let acc ← airyLoopX join layers XVal.zero
    XVal.inplace join (· / ·) .float acc density_crust

/-- _isostasy.py 14-161 `isostatic_moho_airy` for numbers and DataArrays (layers are the values of the dictionary, in
order; name and attributes of the result are in `isostaticMohoAiryFull`). Divisions by zero are not modelled. -/
noncomputable def isostaticMohoAiryX (join : List ℝ → List ℝ → List ℝ) (basement : XVal)
    (layers : Option (List (XVal × XVal))) (density_crust density_mantle reference_depth : XVal) : Py XVal := do
  let layers_equivalent_topography ← layersEquivalentTopographyX join layers density_crust
  let rock_equivalent_topography := XVal.op join (· + ·)
    (basement.kind.join layers_equivalent_topography.kind) basement layers_equivalent_topography
  let diff := XVal.op join (· - ·) (density_mantle.kind.join density_crust.kind) density_mantle density_crust
  let scale := XVal.op join (· / ·) .float density_crust diff
  let scaled := XVal.op join (· * ·) .float rock_equivalent_topography scale
  return XVal.op join (· + ·) .float scaled reference_depth

end Verif.Utils
