import Verif.Utils.Model
import Verif.Tesseroid.Model
import Mathlib.Algebra.Order.Round

/-!
Model of the layers of prisms and tesseroids: src/harmonica/_forward/prisms/layer.py and
_forward/tesseroid_layer.py. In both, axis 0 of the 2d arrays is northing (latitude) and axis 1 is
easting (longitude); 2d arrays are stored flat in C order: element `(k, j)` at `k * n_east + j`.

The two files have the same code for the regular grid check, spacing, boundaries, update_top_bottom,
conversion to elements and access to one element; these are modelled once and both places are cited.

Not modelled: xarray alignment and attributes; data variables whose dimensions are not in the order
of `dims`; warnings.
-/

namespace Verif.Layers
open Verif.Forward Verif.Engine Verif.Distance Verif.Utils

/-! ### arrays in memory -/

/-- A numpy array: kind of dtype, shape (first axis first) and elements in C order; NaN is `none`.
The arrays of _forward/prisms/layer.py 290-312. -/
structure Arr where
  kind : Kind
  shape : List ℕ
  data : List (Option ℝ)

/-- Memory: the address of an array is its position.
Aliasing of the arrays of _forward/prisms/layer.py 290-312. -/
abbrev Heap := List Arr

/-- Truncation towards zero: conversion of a float to an integer dtype.
Stores in integer arrays at _forward/prisms/layer.py 308-310. -/
noncomputable def truncZ (x : ℝ) : ℝ := if 0 ≤ x then ⌊x⌋ else ⌈x⌉

/-- Conversion of a value when it is written into an array of the given kind. (NaN into integers is
undefined in numpy; it never happens below because masks are false at NaN.).
_forward/prisms/layer.py 308-310. -/
noncomputable def castTo (k : Kind) (x : Option ℝ) : Option ℝ :=
  match k with
  | .float => x
  | .int => x.map truncZ

/-- `dst[mask] = src[mask]` for arrays of the same shape.
_forward/prisms/layer.py 306-310, _forward/tesseroid_layer.py 314-318. -/
noncomputable def maskedCopy (dst src : Arr) (mask : List Bool) : Arr :=
  { dst with data := List.zipWith (fun d (sm : Option ℝ × Bool) =>
      if sm.2 then castTo dst.kind sm.1 else d) dst.data (src.data.zip mask) }

open Classical in
/-- `a < b` with NaN: false. _forward/prisms/layer.py 308-310. -/
noncomputable def nanLt (a b : Option ℝ) : Bool :=
  match a, b with
  | some x, some y => decide (x < y)
  | _, _ => false

/-- `update_top_bottom`, prisms/layer.py 264-312 and tesseroid_layer.py 273-320. The arguments are
the addresses of the two arrays (a scalar reference is a 0-d array, shape `[]`); returns the memory
after the call and the addresses of the new `top` and `bottom` coordinates. -/
noncomputable def updateTopBottom (shape : List ℕ) (heap : Heap) (surface reference : ℕ) :
    Py (Heap × ℕ × ℕ) :=
  match heap[surface]?, heap[reference]? with
  | some s, some r =>
    if s.shape ≠ shape then .error .ValueError
    else if r.shape ≠ [] ∧ r.shape ≠ shape then .error .ValueError
    else
      -- `reference * np.ones(self.shape)` allocates a float array
      let heap1 := if r.shape ≠ [] then heap else
        heap ++ [⟨.float, shape, List.replicate shape.prod (r.data.headD none)⟩]
      let reference1 := if r.shape ≠ [] then reference else heap.length
      match heap1[reference1]? with
      | none => .error .IndexError
      | some r1 =>
        let top := heap1.length
        let heap2 := heap1 ++ [s]          -- top = surface.copy()
        let bottom := heap2.length
        let heap3 := heap2 ++ [r1]         -- bottom = reference.copy()
        let reverse := List.zipWith nanLt s.data r1.data
        let heap4 := heap3.set top (maskedCopy s r1 reverse)
        let heap5 := heap4.set bottom (maskedCopy r1 s reverse)
        .ok (heap5, top, bottom)
  | _, _ => .error .TypeError

/-! ### the grid -/

open Classical in
/-- `np.allclose(c[1] - c[0], c[1:] - c[:-1])` (rtol=1e-5, atol=1e-8); IndexError for arrays with
fewer than two elements. _forward/prisms/layer.py 149-152, _forward/tesseroid_layer.py 162-165. -/
noncomputable def evenlySpaced (c : List ℝ) : Py Bool :=
  match c with
  | c0 :: c1 :: _ =>
    .ok (decide (∀ i, ∀ a ∈ c[i]?, ∀ b ∈ c[i + 1]?,
      |(c1 - c0) - (b - a)| ≤ 1 / 10 ^ 8 + 1 / 10 ^ 5 * |b - a|))
  | _ => .error .IndexError

/-- `_check_regular_grid`, prisms/layer.py 141-154 and tesseroid_layer.py 153-167. -/
noncomputable def checkRegularGrid (easting northing : List ℝ) : Py Unit := do
  if !(← evenlySpaced easting) then throw .ValueError
  if !(← evenlySpaced northing) then throw .ValueError
  return ()

/-- `_check_overlap`, tesseroid_layer.py 170-180. -/
noncomputable def checkOverlap (longitude : List ℝ) : Py Unit :=
  match longitude with
  | l0 :: l1 :: _ =>
    let spacing := l1 - l0
    if longitude.foldl max l0 - longitude.foldl min l0 ≥ 360 - spacing then .error .ValueError
    else .ok ()
  | _ => .error .IndexError

/-- A layer: the xarray.Dataset with its coordinates (`easting` and `northing` are longitude and
latitude for tesseroids) and data variables.
_forward/prisms/layer.py 120-138, _forward/tesseroid_layer.py 125-150. -/
structure Layer where
  easting : List ℝ
  northing : List ℝ
  top : List (Option ℝ)
  bottom : List (Option ℝ)
  vars : List (String × List (Option ℝ))

/-- Accessor property `shape`, prisms/layer.py 233-244 and tesseroid_layer.py 240-252. -/
def layerShape (easting northing : List ℝ) : List ℕ := [northing.length, easting.length]

/-- `prism_layer`, prisms/layer.py 23-138 (`overlapCheck = false`), and `tesseroid_layer`,
tesseroid_layer.py 20-150 (`overlapCheck = true`). Coordinates are 1d arrays. `verde.make_xarray_grid`
(external) raises ValueError when the shape of a property is not (n_north, n_east). -/
noncomputable def makeLayer (overlapCheck : Bool) (heap : Heap) (easting northing : List ℝ)
    (surface reference : ℕ) (properties : List (String × Arr)) : Py (Heap × Layer) := do
  if properties.any (fun p => p.2.shape ≠ layerShape easting northing) then throw .ValueError
  checkRegularGrid easting northing
  if overlapCheck then checkOverlap easting
  let r ← updateTopBottom (layerShape easting northing) heap surface reference
  match r.1[r.2.1]?, r.1[r.2.2]? with
  | some top, some bottom =>
    return (r.1, ⟨easting, northing, top.data, bottom.data, properties.map fun p => (p.1, p.2.data)⟩)
  | _, _ => throw .IndexError

/-- Accessor property `spacing`, prisms/layer.py 186-200 and tesseroid_layer.py 211-227: (s_north,
s_east). -/
noncomputable def spacing (easting northing : List ℝ) : Py (ℝ × ℝ) := do
  checkRegularGrid easting northing
  match northing, easting with
  | n0 :: n1 :: _, e0 :: e1 :: _ => return (n1 - n0, e1 - e0)
  | _, _ => throw .IndexError

/-- Accessor property `boundaries`, prisms/layer.py 202-218 and tesseroid_layer.py 254-271: (west,
east, south, north). -/
noncomputable def boundaries (easting northing : List ℝ) : Py (ℝ × ℝ × ℝ × ℝ) := do
  let s ← spacing easting northing
  match northing, easting with
  | n0 :: _, e0 :: _ =>
    return (easting.foldl min e0 - s.2 / 2, easting.foldl max e0 + s.2 / 2,
      northing.foldl min n0 - s.1 / 2, northing.foldl max n0 + s.1 / 2)
  | _, _ => throw .ValueError

/-- Boundaries of an element; the vertical ones can be NaN.
_forward/prisms/layer.py 455, _forward/tesseroid_layer.py 468-470. -/
structure Row where
  west : ℝ
  east : ℝ
  south : ℝ
  north : ℝ
  bottom : Option ℝ
  top : Option ℝ

/-- `_get_prism_horizontal_boundaries`, prisms/layer.py 246-262 and
`_get_tesseroid_horizontal_boundaries`, tesseroid_layer.py 473-489, given the spacing. -/
noncomputable def horizontalBoundaries (s : ℝ × ℝ) (easting northing : ℝ) : ℝ × ℝ × ℝ × ℝ :=
  (easting - s.2 / 2, easting + s.2 / 2, northing - s.1 / 2, northing + s.1 / 2)

/-- `_to_prisms`, prisms/layer.py 435-456, and `_to_tesseroids`, tesseroid_layer.py 443-471:
`np.meshgrid` repeats the eastings for every northing. -/
noncomputable def toRows (layer : Layer) : Py (List Row) := do
  let mesh := layer.northing.flatMap fun n => layer.easting.map fun e => (e, n)
  let s ← spacing layer.easting layer.northing
  return List.zipWith (fun en (bt : Option ℝ × Option ℝ) =>
    let h := horizontalBoundaries s en.1 en.2
    ⟨h.1, h.2.1, h.2.2.1, h.2.2.2, bt.1, bt.2⟩) mesh (layer.bottom.zip layer.top)

/-- Python indexing of an axis of length `n`, negative indices count from the end.
_forward/prisms/layer.py 475-482. -/
def pyIndex (n : ℕ) (i : ℤ) : Py ℕ :=
  if 0 ≤ i ∧ i < n then .ok i.toNat
  else if -n ≤ i ∧ i < 0 then .ok (i + n).toNat
  else .error .IndexError

/-- `get_prism`, prisms/layer.py 458-483, and `get_tesseroid`, tesseroid_layer.py 491-520. -/
noncomputable def getElement (layer : Layer) (index_northing index_easting : ℤ) : Py Row := do
  let j ← pyIndex layer.easting.length index_easting
  let k ← pyIndex layer.northing.length index_northing
  match layer.easting[j]?, layer.northing[k]?,
      layer.bottom[k * layer.easting.length + j]?, layer.top[k * layer.easting.length + j]? with
  | some e, some n, some bottom, some top =>
    let s ← spacing layer.easting layer.northing
    let h := horizontalBoundaries s e n
    return ⟨h.1, h.2.1, h.2.2.1, h.2.2.2, bottom, top⟩
  | _, _, _, _ => throw .IndexError

/-! ### gravity of a layer of prisms -/

open Classical in
/-- Iteration `i` of `_forward_gravity_prism_layer`, prisms/layer.py 522-625. The 2d arrays have the
shape of the layer (guaranteed by xarray), so that their elements are read inside bounds. -/
noncomputable def layerLoop (junk : Junk) (kernel : P3 → Prism → ℝ → ℝ) (e n u : List ℝ)
    (prisms_easting prisms_northing : List ℝ) (bottoms tops densities : List (Option ℝ))
    (half_spacing_east half_spacing_north thickness_threshold : ℝ) (i : ℕ) : List (Op ℕ ℝ) :=
  prisms_easting.zipIdx.flatMap fun ej =>
    let west := ej.1 - half_spacing_east
    let east := ej.1 + half_spacing_east
    prisms_northing.zipIdx.flatMap fun nk =>
      let at_ (a : List (Option ℝ)) : Option ℝ := (a[nk.2 * prisms_easting.length + ej.2]?).getD none
      match at_ densities with
      | none => []
      | some density =>
        if density = 0 then []
        else
          match at_ bottoms, at_ tops with
          | some bottom, some top =>
            if top - bottom < thickness_threshold then []
            else
              let south := nk.1 - half_spacing_north
              let north := nk.1 + half_spacing_north
              accum i (kernel
                ⟨rd junk "easting" e i, rd junk "northing" n i, rd junk "upward" u i⟩
                ⟨west, east, south, north, bottom, top⟩ density)
          | _, _ => []

/-- `prism_layer.gravity`, prisms/layer.py 314-433. `density_name` is looked up among the data variables (xarray
would also find coordinates by that name). -/
noncomputable def layerGravity (junk : Junk) (mode : Mode) (K : PrismKernels) (layer : Layer)
    (coordinates : NdArray × NdArray × NdArray) (field : String)
    (density_name : String := "density") (thickness_threshold : Option ℝ := none) : Py NdArray :=
  match (prismFields K).lookup field with
  | none => .error .ValueError
  | some kernel => do
    checkRegularGrid layer.easting layer.northing
    let shape ← npBroadcast coordinates.1 coordinates.2.1 coordinates.2.2
    let size := shape.prod
    let e := coordinates.1.data
    let n := coordinates.2.1.data
    let u := coordinates.2.2.data
    let threshold := thickness_threshold.getD 0
    match layer.vars.lookup density_name, layer.easting, layer.northing with
    | none, _, _ => throw .KeyError
    | some density, e0 :: e1 :: _, n0 :: n1 :: _ =>
      let out := run mode e.length (layerLoop junk kernel e n u layer.easting layer.northing
        layer.bottom layer.top density ((e1 - e0) / 2) ((n1 - n0) / 2) threshold) 0 (fun _ => 0)
      let result := (List.range size).map out
      let result := scaleIf field ["g_z", "g_ez", "g_nz"] (-1) result
      let result := scaleIf field ["g_e", "g_n", "g_z"] 1e5 result
      let result := scaleIf field ["g_ee", "g_nn", "g_zz", "g_en", "g_ez", "g_nz"] 1e9 result
      return { shape := shape, data := result }
    | _, _, _ => throw .IndexError

/-! ### gravity of a layer of tesseroids -/

/-- `_get_nonans_mask`, tesseroid_layer.py 406-441 (flat). -/
def nonansMask (top bottom property : List (Option ℝ)) : List Bool :=
  let mask := List.zipWith (· && ·) (top.map Option.isSome) (bottom.map Option.isSome)
  List.zipWith (· && ·) mask (property.map Option.isSome)

open Classical in
/-- `(top - bottom) < thickness_threshold` for one row (`nan < x` is False).
_forward/tesseroid_layer.py 523-560. -/
noncomputable def rowThin (threshold : ℝ) (r : Row) : Bool :=
  match r.top, r.bottom with
  | some t, some b => decide (t - b < threshold)
  | _, _ => false

/-- `_discard_thin_tesseroids`, tesseroid_layer.py 523-560. -/
noncomputable def discardThin (rows : List Row) (density : List (Option ℝ)) (threshold : ℝ) :
    Py (List Row × List (Option ℝ)) := do
  let null := rows.map (rowThin threshold)
  let rows ← maskIndex rows (null.map (!·))
  let density ← maskIndex density (null.map (!·))
  return (rows, density)

/-- `tesseroid_layer.gravity`, tesseroid_layer.py 322-404. The final call to `tesseroid_gravity`,
with the rows of boundaries and the densities, is the parameter `forward`. -/
noncomputable def tessLayerGravity {α : Type} (forward : List Row → List (Option ℝ) → Py α)
    (layer : Layer) (density_name : String := "density")
    (thickness_threshold : Option ℝ := none) : Py α := do
  let boundaries ← toRows layer
  match layer.vars.lookup density_name with
  | none => throw .KeyError
  | some density =>
    let mask := nonansMask layer.top layer.bottom density
    let boundaries ← maskIndex boundaries mask
    let density ← maskIndex density mask
    let (boundaries, density) ←
      match thickness_threshold with
      | none => pure (boundaries, density)
      | some t => discardThin boundaries density t
    forward boundaries density

/-! ### conversion to pyvista -/

/-- The six columns of a row of `_to_prisms`. _forward/prisms/layer.py 455. -/
def Row.cols (r : Row) : Fin 6 → Option ℝ :=
  ![some r.west, some r.east, some r.south, some r.north, r.bottom, r.top]

open Classical in
/-- `to_pyvista`, prisms/layer.py 485-519. -/
noncomputable def layerToPyvista (junk : ℕ → ℕ → ℕ → Option ℝ) (layer : Layer)
    (drop_null_prisms : Bool := true) : Py (PvGrid (Option ℝ)) := do
  let prisms ← toRows layer
  let null := prisms.map fun r =>
    drop_null_prisms && (decide (r.top = r.bottom) || r.top.isNone || r.bottom.isNone)
  let prisms ← maskIndex prisms (null.map (!·))
  let properties ←
    if layer.vars.isEmpty then pure none
    else do
      let vars ← layer.vars.mapM fun v => do
        let data ← maskIndex v.2 (null.map (!·))
        pure (v.1, [data.length], data)
      pure (some vars)
  prismToPyvista junk (prisms.map Row.cols) properties

end Verif.Layers
