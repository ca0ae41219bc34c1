import Verif.Forward.Model
import Mathlib.Analysis.SpecialFunctions.Complex.Arg

/-!
Model of src/harmonica/_utils.py (magnetic vectors), _gravity_corrections.py, _isostasy.py and
visualization/_prism.py.
-/

namespace Verif.Utils
open Real Verif.Forward

/-! ### Magnetic vectors (_utils.py). The functions act elementwise on arrays; the model is the
function of one element. -/

/-- `np.arctan2(y, x)`: the angle in (-π, π] of the point (x, y), 0 at the origin. The sign of a
floating point zero, which numpy also looks at, does not exist in the reals.
Used at _utils.py 152-153 and _transformations.py 588. -/
noncomputable def arctan2 (y x : ℝ) : ℝ := Complex.arg ⟨x, y⟩

/-- _utils.py 28-74 `magnetic_angles_to_vec`. -/
noncomputable def magneticAnglesToVec (intensity inclination declination : ℝ) : ℝ × ℝ × ℝ :=
  let inc_rad := radians inclination
  let dec_rad := radians declination
  let magnetic_e := intensity * cos inc_rad * sin dec_rad
  let magnetic_n := intensity * cos inc_rad * cos dec_rad
  let magnetic_u := -intensity * sin inc_rad
  (magnetic_e, magnetic_n, magnetic_u)

/-- _utils.py 77-158 `magnetic_vec_to_angles`; the argument `degrees` defaults to True. -/
noncomputable def magneticVecToAngles (magnetic_e magnetic_n magnetic_u : ℝ)
    (inDegrees : Bool := true) : ℝ × ℝ × ℝ :=
  let intensity := sqrt (magnetic_e ^ 2 + magnetic_n ^ 2 + magnetic_u ^ 2)
  let horizontal_component := sqrt (magnetic_e ^ 2 + magnetic_n ^ 2)
  let inclination := arctan2 (-magnetic_u) horizontal_component
  let declination := arctan2 magnetic_e magnetic_n
  if inDegrees then (intensity, degrees inclination, degrees declination)
  else (intensity, inclination, declination)

/-- _utils.py 161-211 `total_field_anomaly`. -/
noncomputable def totalFieldAnomaly (b : ℝ × ℝ × ℝ) (inclination declination : ℝ) : ℝ :=
  let f := magneticAnglesToVec 1 inclination declination
  b.1 * f.1 + b.2.1 * f.2.1 + b.2.2 * f.2.2

/-! ### Bouguer correction (_gravity_corrections.py) -/

/-- `a[mask] = value`. _gravity_corrections.py 72, 76. -/
def maskAssign (a : List (Option ℝ)) (mask : List Bool) (value : ℝ) : List (Option ℝ) :=
  a.zipWith (fun x m => if m then some value else x) mask

open Classical in
/-- _gravity_corrections.py 16-78 `bouguer_correction`. The elements of the topography in C order;
NaN is `none` (`nan < 0` is False, nan times anything is nan). -/
noncomputable def bouguerCorrection (topography : List (Option ℝ))
    (density_crust : ℝ := 2670) (density_water : ℝ := 1040) : List (Option ℝ) :=
  let oceans := topography.map fun h => decide (∃ x ∈ h, x < 0)
  let continent := oceans.map (!·)
  let density : List (Option ℝ) := List.replicate topography.length none
  let density := maskAssign density continent density_crust
  let density := maskAssign density oceans (-1 * (density_water - density_crust))
  density.zipWith (fun d h => d.bind fun d => h.map fun h =>
    10 ^ 5 * 2 * π * gravitationalConst * d * h) topography

/-! ### Airy isostasy (_isostasy.py) -/

/-- Numeric kinds of numpy that matter for in-place operations. For _isostasy.py 138-151. -/
inductive Kind where
  | int
  | float
  deriving DecidableEq

/-- A scalar or an array: kind of its dtype, shape with the LAST axis first (`[]` for scalars and
0-d arrays), and the element at each multi-index (last axis first). DataArrays are treated as
their arrays (their alignment by coordinates is in Utils/ModelB.lean), name and attributes do not
change the values. For _isostasy.py 138-151. -/
structure Val where
  kind : Kind
  shape : List ℕ
  data : List ℕ → ℝ

/-- The element of `v` that numpy broadcasting pairs with the multi-index `idx` of the result.
For _isostasy.py 138-151. -/
def bidx : List ℕ → List ℕ → List ℕ
  | [], _ => []
  | _ :: _, [] => []
  | s :: ss, i :: is => (if s = 1 then 0 else i) :: bidx ss is

/-- Value of `v` broadcast at a multi-index. For _isostasy.py 138-151. -/
def Val.at (v : Val) (idx : List ℕ) : ℝ := v.data (bidx v.shape idx)

/-- dtype of the result of `+`, `-`, `*`. For _isostasy.py 138-151. -/
def Kind.join : Kind → Kind → Kind
  | .int, .int => .int
  | _, _ => .float

/-- A numpy binary operation that makes a new array (ValueError if the shapes do not broadcast).
For _isostasy.py 138-151. -/
def Val.op (f : ℝ → ℝ → ℝ) (k : Kind) (a b : Val) : Py Val :=
  match broadcastRev a.shape b.shape with
  | none => .error .ValueError
  | some s => .ok ⟨k, s, fun idx => f (a.at idx) (b.at idx)⟩

/-- `a + b`: _isostasy.py 146. -/
def Val.add (a b : Val) : Py Val := Val.op (· + ·) (a.kind.join b.kind) a b
/-- `a * b`: _isostasy.py 142, 150. -/
def Val.mul (a b : Val) : Py Val := Val.op (· * ·) (a.kind.join b.kind) a b
/-- `a - b`: _isostasy.py 149. -/
def Val.sub (a b : Val) : Py Val := Val.op (· - ·) (a.kind.join b.kind) a b
/-- True division: always a float. Division by zero (ZeroDivisionError for Python numbers, inf or nan
for numpy) is not modelled: the theorems assume nonzero divisors. _isostasy.py 143, 149. -/
noncomputable def Val.div (a b : Val) : Py Val := Val.op (· / ·) .float a b

/-- An augmented assignment `a op= b`: scalars are immutable, so it is the plain operation; for
arrays numpy writes into `a`, so the result must have the shape of `a` (else ValueError) and its
dtype must be castable to the one of `a` with same_kind (else UFuncTypeError).
_isostasy.py 142-143. -/
def Val.inplace (op : Val → Val → Py Val) (a b : Val) : Py Val := do
  let r ← op a b
  if a.shape = [] then pure r
  else if r.shape ≠ a.shape then throw .ValueError
  else if r.kind = .float ∧ a.kind = .int then throw .UFuncTypeError
  else pure { r with kind := a.kind }

/-- Python int 0. _isostasy.py 139. -/
def Val.zero : Val := ⟨.int, [], fun _ => 0⟩

/-- _isostasy.py 141-142: loop over the layers (thickness, density). -/
def airyLoop : List (Val × Val) → Val → Py Val
  | [], acc => .ok acc
  | (thickness, density) :: rest, acc => do
    let p ← thickness.mul density
    let acc ← Val.inplace Val.add acc p
    airyLoop rest acc

/-- _isostasy.py 138-143: equivalent topography of the layers. -/
noncomputable def layersEquivalentTopography (layers : Option (List (Val × Val)))
    (density_crust : Val) : Py Val :=
  match layers with
  | none => .ok Val.zero
  | some layers => do
    let acc ← airyLoop layers Val.zero
    Val.inplace Val.div acc density_crust

/-- _isostasy.py 14-161 `isostatic_moho_airy` (layers are the values of the dictionary, in order). -/
noncomputable def isostaticMohoAiry (basement : Val) (layers : Option (List (Val × Val)))
    (density_crust density_mantle reference_depth : Val) : Py Val := do
  let layers_equivalent_topography ← layersEquivalentTopography layers density_crust
  let rock_equivalent_topography ← basement.add layers_equivalent_topography
  let diff ← density_mantle.sub density_crust
  let scale ← density_crust.div diff
  let scaled ← rock_equivalent_topography.mul scale
  scaled.add reference_depth

/-! ### Prisms to pyvista (visualization/_prism.py) -/

/-- visualization/_prism.py 192-199: the vertices that contain each boundary, in the order of
`enumerate(indices)`. -/
def vertexIndices : List (List ℕ) :=
  [[0, 3, 4, 7], [1, 2, 5, 6], [0, 1, 4, 5], [2, 3, 6, 7], [0, 1, 2, 3], [4, 5, 6, 7]]

/-- visualization/_prism.py 185-211: the array `vertices` as a function of (prism, vertex,
component); its initial content `junk` is whatever `np.empty` finds. `α` are the numbers (reals, or
reals with NaN). -/
def vertexArray {α : Type} (junk : ℕ → ℕ → ℕ → α) (prisms : List (Fin 6 → α)) :
    ℕ → ℕ → ℕ → α :=
  vertexIndices.zipIdx.foldl (fun vertices bi =>
    bi.1.foldl (fun vertices vertex => fun p v c =>
      if v = vertex ∧ c = bi.2 / 2 then
        match prisms[p]? with
        | some prism => prism (Fin.ofNat 6 bi.2)
        | none => vertices p v c
      else vertices p v c) vertices) junk

/-- visualization/_prism.py 102-215 `_prisms_boundaries_to_vertices`; line 215 reshapes to
(n_prisms * 8, 3) in C order. -/
def prismsBoundariesToVertices {α : Type} (junk : ℕ → ℕ → ℕ → α) (prisms : List (Fin 6 → α)) :
    List (List α) :=
  let n_prisms := prisms.length
  let vertices := vertexArray junk prisms
  (List.range (n_prisms * 8)).map fun m =>
    (List.range 3).map fun c => vertices (m / 8) (m % 8) c

/-- The `pyvista.UnstructuredGrid`: hexahedral cells (lists of vertex numbers), vertices and
cell data. The checks of pyvista itself are not modelled. visualization/_prism.py 79-99. -/
structure PvGrid (α : Type) where
  cells : List (List ℕ)
  points : List (List α)
  cellData : List (String × List α)

/-- visualization/_prism.py 14-99 `prism_to_pyvista`, with the prisms as the rows of the 2d array
and each property as the shape and the elements of an array. A later property with the same key cannot occur in a
dictionary. -/
def prismToPyvista {α : Type} (junk : ℕ → ℕ → ℕ → α) (prisms : List (Fin 6 → α))
    (properties : Option (List (String × List ℕ × List α))) : Py (PvGrid α) := do
  let n_prisms := prisms.length
  let vertices := prismsBoundariesToVertices junk prisms
  let cells := (List.range n_prisms).map fun k => (List.range 8).map fun j => k * 8 + j
  let grid : PvGrid α := ⟨cells, vertices, []⟩
  match properties with
  | none => pure grid
  | some props =>
    props.foldlM (fun grid p =>
      if p.2.1.length > 1 then throw .ValueError
      else pure { grid with cellData := grid.cellData ++ [(p.1, p.2.2)] }) grid

end Verif.Utils
