import Verif.Engine.Model
import Verif.Distance.Model

/-!
Model of the forward modelling functions of point masses, dipoles and prisms:
src/harmonica/_forward/point.py, dipole.py, prisms/gravity.py, prisms/magnetic.py, prisms/utils.py.

The analytical kernels live in the external library `choclo` and are parameters.
-/

namespace Verif.Forward
open Verif.Engine Verif.Distance

/-! ### numpy arrays -/

/-- A numpy array of floats: shape and elements in C (row-major) order.
The coordinates of _forward/point.py 235-240 and of the other forward models. -/
structure NdArray where
  shape : List ℕ
  data : List ℝ

/-- number of elements agrees with the shape. (For arrays as in _forward/point.py 235-240.) -/
def NdArray.Wf (a : NdArray) : Prop := a.data.length = a.shape.prod

/-- numpy broadcasting of two shapes, last axis first.
Used by `np.broadcast` at _forward/point.py 235. -/
def broadcastRev : List ℕ → List ℕ → Option (List ℕ)
  | [], b => some b
  | a, [] => some a
  | x :: a, y :: b =>
    (broadcastRev a b).bind fun r =>
      if x = y then some (x :: r)
      else if x = 1 then some (y :: r)
      else if y = 1 then some (x :: r)
      else none

/-- Shape of `np.broadcast(*coordinates[:3])`, which raises ValueError on incompatible shapes.
_forward/point.py 235, _forward/dipole.py 106, _forward/prisms/gravity.py 200, _forward/prisms/magnetic.py 109. -/
def npBroadcast (a b c : NdArray) : Py (List ℕ) :=
  match (broadcastRev a.shape.reverse b.shape.reverse).bind
      (fun r => broadcastRev r c.shape.reverse) with
  | none => .error .ValueError
  | some r => .ok r.reverse

/-- Contents of the memory found past the end of an array: numba nopython code has no bounds
checks, so an out-of-range read yields whatever is there.
Reads in _forward/point.py 388-398 and the other jitted loops. -/
abbrev Junk := String → ℕ → ℝ

/-- `a[i]` inside a jitted function (`name` identifies the array).
Reads in _forward/point.py 388-398 and the other jitted loops. -/
def rd (junk : Junk) (name : String) (a : List ℝ) (i : ℕ) : ℝ := (a[i]?).getD (junk name i)

/-! ### Point masses (point.py) -/

/-- The kernels of `choclo.point`: observation point, source, mass.
Used at _forward/point.py 13-24, 281-316. -/
structure PointKernels where
  pot : P3 → P3 → ℝ → ℝ
  e : P3 → P3 → ℝ → ℝ
  n : P3 → P3 → ℝ → ℝ
  u : P3 → P3 → ℝ → ℝ
  ee : P3 → P3 → ℝ → ℝ
  nn : P3 → P3 → ℝ → ℝ
  uu : P3 → P3 → ℝ → ℝ
  en : P3 → P3 → ℝ → ℝ
  eu : P3 → P3 → ℝ → ℝ
  nu : P3 → P3 → ℝ → ℝ

/-- GRAVITATIONAL_CONST, constants.py 12 (imported from choclo.constants in point.py 12). -/
noncomputable def gravitationalConst : ℝ := 66743 / 10 ^ 15

/-- point.py 325-334 `potential_spherical`. -/
noncomputable def potentialSpherical
    (longitude cosphi sinphi radius longitude_p cosphi_p sinphi_p radius_p : ℝ) : ℝ :=
  let distance := (distanceSphericalCore longitude cosphi sinphi radius
    longitude_p cosphi_p sinphi_p radius_p).1
  1 / distance * gravitationalConst

/-- point.py 342-354 `gravity_u_spherical`. -/
noncomputable def gravityUSpherical
    (longitude cosphi sinphi radius longitude_p cosphi_p sinphi_p radius_p : ℝ) : ℝ :=
  let r := distanceSphericalCore longitude cosphi sinphi radius
    longitude_p cosphi_p sinphi_p radius_p
  let distance := r.1
  let cospsi := r.2.1
  let delta_z := radius - radius_p * cospsi;
  (-gravitationalConst) * delta_z / distance ^ 3

/-- Type of the spherical kernels. Signature of _forward/point.py 325-355. -/
abbrev SphKernel := ℝ → ℝ → ℝ → ℝ → ℝ → ℝ → ℝ → ℝ → ℝ

/-- A kernel together with the loop that uses it (point.py 264-278 `dispatcher`). -/
inductive PointKernel where
  | cartesian (f : P3 → P3 → ℝ → ℝ)
  | spherical (f : SphKernel)

/-- point.py 286-302: dictionary of Cartesian kernels. -/
def cartesianKernels (K : PointKernels) : List (String × (P3 → P3 → ℝ → ℝ)) :=
  [("potential", K.pot), ("g_e", K.e), ("g_n", K.n), ("g_z", K.u),
   ("g_ee", K.ee), ("g_nn", K.nn), ("g_zz", K.uu),
   ("g_en", K.en), ("g_ez", K.eu), ("g_nz", K.nu),
   ("g_ne", K.en), ("g_ze", K.eu), ("g_zn", K.nu)]

/-- point.py 303-308: dictionary of spherical kernels (`None` is not implemented). -/
noncomputable def sphericalKernels : List (String × Option SphKernel) :=
  [("potential", some potentialSpherical), ("g_z", some gravityUSpherical),
   ("g_n", none), ("g_e", none)]

/-- point.py 281-316 `get_kernel` (the coordinate system was already checked). -/
noncomputable def getKernel (K : PointKernels) (system field : String) : Py PointKernel :=
  if system = "cartesian" then
    match (cartesianKernels K).lookup field with
    | none => .error .ValueError
    | some f => .ok (.cartesian f)
  else
    match sphericalKernels.lookup field with
    | none => .error .ValueError
    | some none => .error .NotImplementedError
    | some (some f) => .ok (.spherical f)

/-- The body of the `prange` loops of point.py: 357-399 `point_mass_cartesian` and 402-447
`point_mass_spherical`. Iteration `i`: `for j in range(n_points): out[i] += ...`. -/
noncomputable def pointLoop (junk : Junk) (kernel : PointKernel)
    (e n u ep np up masses : List ℝ) (i : ℕ) : List (Op ℕ ℝ) :=
  (List.range ep.length).flatMap fun j =>
    match kernel with
    | .cartesian f =>
      accum i (f ⟨rd junk "easting" e i, rd junk "northing" n i, rd junk "upward" u i⟩
        ⟨rd junk "easting_p" ep j, rd junk "northing_p" np j, rd junk "upward_p" up j⟩
        (rd junk "masses" masses j))
    | .spherical f =>
      let longitude := radians (rd junk "easting" e i)
      let latitude := radians (rd junk "northing" n i)
      let longitude_p := radians (rd junk "easting_p" ep j)
      let latitude_p := radians (rd junk "northing_p" np j)
      accum i (rd junk "masses" masses j *
        f longitude (Real.cos latitude) (Real.sin latitude) (rd junk "upward" u i)
          longitude_p (Real.cos latitude_p) (Real.sin latitude_p) (rd junk "upward_p" up j))

/-- `result *= factor` when `field in fields`.
_forward/point.py 252-260, _forward/prisms/gravity.py 227-235. -/
def scaleIf (field : String) (fields : List String) (factor : ℝ) (result : List ℝ) : List ℝ :=
  if field ∈ fields then result.map (· * factor) else result

/-- point.py 30-261 `point_gravity`. Coordinates and points are triples of arrays. -/
noncomputable def pointGravity (junk : Junk) (mode : Mode) (K : PointKernels)
    (coordinates points : NdArray × NdArray × NdArray) (masses : NdArray)
    (field system : String) : Py NdArray := do
  checkCoordinateSystem system ["cartesian", "spherical"]
  let shape ← npBroadcast coordinates.1 coordinates.2.1 coordinates.2.2
  let size := shape.prod
  let e := coordinates.1.data
  let n := coordinates.2.1.data
  let u := coordinates.2.2.data
  let ep := points.1.data
  let np := points.2.1.data
  let up := points.2.2.data
  let m := masses.data
  if m.length ≠ ep.length then throw .ValueError
  let kernel ← getKernel K system field
  let out := run mode e.length (pointLoop junk kernel e n u ep np up m) 0 (fun _ => 0)
  let result := (List.range size).map out
  let result := scaleIf field ["g_z", "g_ez", "g_ze", "g_nz", "g_zn"] (-1) result
  let result := scaleIf field ["g_e", "g_n", "g_z"] 1e5 result
  let result := scaleIf field
    ["g_ee", "g_nn", "g_zz", "g_en", "g_ez", "g_nz", "g_ne", "g_ze", "g_zn"] 1e9 result
  return { shape := shape, data := result }

/-! ### Prisms -/

/-- A prism (row of the `prisms` array). _forward/prisms/gravity.py 204. -/
structure Prism where
  west : ℝ
  east : ℝ
  south : ℝ
  north : ℝ
  bottom : ℝ
  top : ℝ

open Classical in
/-- prisms/utils.py 12-43 `check_prisms`. -/
noncomputable def checkPrisms (prisms : List Prism) : Py Unit := do
  if ∃ p ∈ prisms, p.west > p.east then throw .ValueError
  if ∃ p ∈ prisms, p.south > p.north then throw .ValueError
  if ∃ p ∈ prisms, p.bottom > p.top then throw .ValueError
  return ()

/-- The kernels of `choclo.prism` for gravity: observation point, prism, density.
Used at _forward/prisms/gravity.py 14-48. -/
structure PrismKernels where
  pot : P3 → Prism → ℝ → ℝ
  e : P3 → Prism → ℝ → ℝ
  n : P3 → Prism → ℝ → ℝ
  u : P3 → Prism → ℝ → ℝ
  ee : P3 → Prism → ℝ → ℝ
  nn : P3 → Prism → ℝ → ℝ
  uu : P3 → Prism → ℝ → ℝ
  en : P3 → Prism → ℝ → ℝ
  eu : P3 → Prism → ℝ → ℝ
  nu : P3 → Prism → ℝ → ℝ

/-- prisms/gravity.py 37-48 `FIELDS`. -/
def prismFields (K : PrismKernels) : List (String × (P3 → Prism → ℝ → ℝ)) :=
  [("potential", K.pot), ("g_e", K.e), ("g_n", K.n), ("g_z", K.u),
   ("g_ee", K.ee), ("g_nn", K.nn), ("g_zz", K.uu),
   ("g_en", K.en), ("g_ez", K.eu), ("g_nz", K.nu)]

/-- `choclo.prism._utils.is_point_on_easting_edge` (external, modelled by its documentation:
the point is on an edge parallel to easting, end points included).
Used at _forward/prisms/gravity.py 317, 352, 437. -/
def onEastingEdge (q : P3) (p : Prism) : Prop :=
  (p.west ≤ q.x ∧ q.x ≤ p.east) ∧ (q.y = p.south ∨ q.y = p.north) ∧ (q.z = p.bottom ∨ q.z = p.top)

/-- `choclo.prism._utils.is_point_on_northing_edge`. Used at _forward/prisms/gravity.py 282, 362, 412. -/
def onNorthingEdge (q : P3) (p : Prism) : Prop :=
  (q.x = p.west ∨ q.x = p.east) ∧ (p.south ≤ q.y ∧ q.y ≤ p.north) ∧ (q.z = p.bottom ∨ q.z = p.top)

/-- `choclo.prism._utils.is_point_on_upward_edge`. Used at _forward/prisms/gravity.py 292, 327, 387. -/
def onUpwardEdge (q : P3) (p : Prism) : Prop :=
  (q.x = p.west ∨ q.x = p.east) ∧ (q.y = p.south ∨ q.y = p.north) ∧ (p.bottom ≤ q.z ∧ q.z ≤ p.top)

/-- prisms/gravity.py 239-449 `_check_singular_points`: the dictionary of functions and the tests
each of them performs for one point and one prism. -/
def singularTests : List (String × (P3 → Prism → Prop)) :=
  [("g_ee", fun q p => onNorthingEdge q p ∨ onUpwardEdge q p),
   ("g_nn", fun q p => onEastingEdge q p ∨ onUpwardEdge q p),
   ("g_zz", fun q p => onEastingEdge q p ∨ onNorthingEdge q p),
   ("g_en", fun q p => onUpwardEdge q p),
   ("g_ez", fun q p => onNorthingEdge q p),
   ("g_nz", fun q p => onEastingEdge q p)]

open Classical in
/-- prisms/gravity.py 239-269 `_check_singular_points`: `true` when the UserWarning is emitted.
The points are read by index as in the double loops 278-449. -/
noncomputable def checkSingularPoints (junk : Junk) (e n u : List ℝ) (prisms : List Prism)
    (field : String) : Bool :=
  match singularTests.lookup field with
  | none => false
  | some test =>
    decide (∃ i < e.length, ∃ p ∈ prisms,
      test ⟨rd junk "easting" e i, rd junk "northing" n i, rd junk "upward" u i⟩ p)

/-- numpy boolean mask indexing `a[mask]`: IndexError when the sizes differ.
_forward/prisms/gravity.py 452-486, _forward/prisms/magnetic.py 436-439. -/
def maskIndex {α : Type} (a : List α) (mask : List Bool) : Py (List α) :=
  if a.length = mask.length then
    .ok ((a.zip mask).filterMap fun x => if x.2 then some x.1 else none)
  else .error .IndexError

/-- `null[mask] = True`: IndexError when the sizes differ.
_forward/prisms/gravity.py 452-486, _forward/prisms/magnetic.py 436-439. -/
def maskSetTrue (null mask : List Bool) : Py (List Bool) :=
  if null.length = mask.length then .ok ((null.zip mask).map fun x => x.1 || x.2)
  else .error .IndexError

open Classical in
/-- zero volume test of prisms/gravity.py 479 and prisms/magnetic.py 431 -/
noncomputable def zeroVolume (p : Prism) : Bool :=
  decide (p.west = p.east) || decide (p.south = p.north) || decide (p.bottom = p.top)

open Classical in
/-- prisms/gravity.py 452-486 `_discard_null_prisms`. -/
noncomputable def discardNullPrisms (prisms : List Prism) (density : List ℝ) :
    Py (List Prism × List ℝ) := do
  let null := prisms.map zeroVolume
  let null ← maskSetTrue null (density.map fun d => decide (d = 0))
  let keep := null.map (!·)
  let prisms ← maskIndex prisms keep
  let density ← maskIndex density keep
  return (prisms, density)

/-- prisms/gravity.py 489-540 `jit_prism_gravity`, iteration `i`. -/
noncomputable def prismLoop (junk : Junk) (kernel : P3 → Prism → ℝ → ℝ)
    (e n u : List ℝ) (prisms : List Prism) (density : List ℝ) (i : ℕ) : List (Op ℕ ℝ) :=
  prisms.zipIdx.flatMap fun pj =>
    accum i (kernel ⟨rd junk "easting" e i, rd junk "northing" n i, rd junk "upward" u i⟩
      pj.1 (rd junk "density" density pj.2))

/-- prisms/gravity.py 51-236 `prism_gravity`. Returns whether the singular point warning was
emitted and the field. -/
noncomputable def prismGravity (junk : Junk) (mode : Mode) (K : PrismKernels)
    (coordinates : NdArray × NdArray × NdArray) (prisms : List Prism) (density : List ℝ)
    (field : String) (disableChecks : Bool) : Py (Bool × NdArray) :=
  match (prismFields K).lookup field with
  | none => .error .ValueError
  | some kernel => do
    let shape ← npBroadcast coordinates.1 coordinates.2.1 coordinates.2.2
    let size := shape.prod
    let e := coordinates.1.data
    let n := coordinates.2.1.data
    let u := coordinates.2.2.data
    if !disableChecks && density.length ≠ prisms.length then throw .ValueError
    if !disableChecks then checkPrisms prisms
    let warn := !disableChecks && checkSingularPoints junk e n u prisms field
    let (prisms, density) ← discardNullPrisms prisms density
    let out := run mode e.length (prismLoop junk kernel e n u prisms density) 0 (fun _ => 0)
    let result := (List.range size).map out
    let result := scaleIf field ["g_z", "g_ez", "g_nz"] (-1) result
    let result := scaleIf field ["g_e", "g_n", "g_z"] 1e5 result
    let result := scaleIf field ["g_ee", "g_nn", "g_zz", "g_en", "g_ez", "g_nz"] 1e9 result
    return (warn, { shape := shape, data := result })

/-! ### Magnetic dipoles and prisms -/

/-- A vector with easting, northing and upward components. _forward/dipole.py 324-344. -/
abbrev V3 := P3

/-- choclo's magnetic kernels for a kind of source `S` (a point for dipoles, a prism): the vector
kernel `magnetic_field` and the three single component kernels.
Used at _forward/dipole.py 14 and _forward/prisms/magnetic.py 14. -/
structure MagKernels (S : Type) where
  field : P3 → S → V3 → ℝ × ℝ × ℝ
  e : P3 → S → V3 → ℝ
  n : P3 → S → V3 → ℝ
  u : P3 → S → V3 → ℝ

/-- Output of the magnetic forward models: a single array, or the tuple for `field="b"`.
_forward/dipole.py 194-200, 269-271. -/
inductive MagResult where
  | single (a : NdArray)
  | vector (b_e b_n b_u : NdArray)

/-- dipole.py VALID_FIELDS, FORWARD_FUNCTIONS (20-24) and prisms/magnetic.py 21-25. -/
def magComponents {S : Type} (K : MagKernels S) : List (String × (P3 → S → V3 → ℝ)) :=
  [("b_e", K.e), ("b_n", K.n), ("b_u", K.u)]

/-- dipole.py 292-346 / prisms/magnetic.py 275-337, iteration `i` of the vector loops: cells
`(0,i)`, `(1,i)`, `(2,i)` are `b_e[i]`, `b_n[i]`, `b_u[i]`. `src j` is the j-th source. -/
noncomputable def magVectorLoop {S : Type} (junk : Junk) (kernel : P3 → S → V3 → ℝ × ℝ × ℝ)
    (e n u : List ℝ) (nsrc : ℕ) (src : ℕ → S) (me mn mu : List ℝ) (i : ℕ) :
    List (Op (Fin 3 × ℕ) ℝ) :=
  (List.range nsrc).flatMap fun j =>
    accum3 i (kernel ⟨rd junk "easting" e i, rd junk "northing" n i, rd junk "upward" u i⟩ (src j)
      ⟨rd junk "mag_e" me j, rd junk "mag_n" mn j, rd junk "mag_u" mu j⟩)

/-- dipole.py 349-401 / prisms/magnetic.py 340-400, iteration `i` of the component loops. -/
noncomputable def magComponentLoop {S : Type} (junk : Junk) (kernel : P3 → S → V3 → ℝ)
    (e n u : List ℝ) (nsrc : ℕ) (src : ℕ → S) (me mn mu : List ℝ) (i : ℕ) :
    List (Op ℕ ℝ) :=
  (List.range nsrc).flatMap fun j =>
    accum i (kernel ⟨rd junk "easting" e i, rd junk "northing" n i, rd junk "upward" u i⟩ (src j)
      ⟨rd junk "mag_e" me j, rd junk "mag_n" mn j, rd junk "mag_u" mu j⟩)

/-- Common tail of dipole_magnetic and prism_magnetic: run the chosen loop and convert to nT
(dipole.py 140-271, prisms/magnetic.py 139-272). -/
noncomputable def magCompute {S : Type} (junk : Junk) (mode : Mode) (K : MagKernels S)
    (shape : List ℕ) (e n u : List ℝ) (nsrc : ℕ) (src : ℕ → S) (me mn mu : List ℝ)
    (field : String) : Py MagResult :=
  let size := shape.prod
  if field = "b" then
    let out := run mode e.length
      (magVectorLoop junk K.field e n u nsrc src me mn mu) 0 (fun _ => 0)
    let comp (c : Fin 3) : NdArray :=
      { shape := shape, data := (List.range size).map fun i => out (c, i) * 1e9 }
    .ok (.vector (comp 0) (comp 1) (comp 2))
  else
    match (magComponents K).lookup field with
    | none => .error .KeyError
    | some kernel =>
      let out := run mode e.length
        (magComponentLoop junk kernel e n u nsrc src me mn mu) 0 (fun _ => 0)
      .ok (.single { shape := shape, data := (List.range size).map fun i => out i * 1e9 })

/-- dipole.py 27-137 `dipole_magnetic`; `moments` is the tuple of magnetic moment arrays, of any
length. -/
noncomputable def dipoleMagnetic (junk : Junk) (mode : Mode) (K : MagKernels P3)
    (coordinates dipoles : NdArray × NdArray × NdArray) (moments : List (List ℝ))
    (field : String) (disableChecks : Bool) : Py MagResult := do
  if field ∉ ["b", "b_e", "b_n", "b_u"] then throw .ValueError
  let shape ← npBroadcast coordinates.1 coordinates.2.1 coordinates.2.2
  let ep := dipoles.1.data
  let np := dipoles.2.1.data
  let up := dipoles.2.2.data
  -- dipole.py 274-289 `_check_dipoles_and_magnetic_moments`
  if !disableChecks && moments.length ≠ 3 then throw .ValueError
  if !disableChecks && (moments.headD []).length ≠ ep.length then throw .ValueError
  match moments with
  | [me, mn, mu] =>
    magCompute junk mode K shape coordinates.1.data coordinates.2.1.data coordinates.2.2.data
      ep.length
      (fun j => ⟨rd junk "easting_p" ep j, rd junk "northing_p" np j, rd junk "upward_p" up j⟩)
      me mn mu field
  | _ => throw .ValueError  -- `mag_e, mag_n, mag_u = magnetic_moments` cannot unpack

/-- elementwise `a & b` of two boolean arrays with numpy broadcasting of 1d arrays.
_forward/prisms/magnetic.py 435. -/
def andBroadcast (a b : List Bool) : Py (List Bool) :=
  if a.length = b.length then .ok ((a.zip b).map fun x => x.1 && x.2)
  else if a.length = 1 then .ok (b.map fun y => a.headD false && y)
  else if b.length = 1 then .ok (a.map fun x => x && b.headD false)
  else .error .ValueError

open Classical in
/-- prisms/magnetic.py 403-440 `_discard_null_prisms`. -/
noncomputable def discardNullPrismsMag (prisms : List Prism) (me mn mu : List ℝ) :
    Py (List Prism × List ℝ × List ℝ × List ℝ) := do
  let null := prisms.map zeroVolume
  let zero (m : List ℝ) := m.map fun x => decide (x = 0)
  let a ← andBroadcast (zero me) (zero mn)
  let nullMag ← andBroadcast a (zero mu)
  let null ← maskSetTrue null nullMag
  let keep := null.map (!·)
  let prisms ← maskIndex prisms keep
  let me ← maskIndex me keep
  let mn ← maskIndex mn keep
  let mu ← maskIndex mu keep
  return (prisms, me, mn, mu)

/-- An arbitrary prism, only used for out-of-range positions of a list.
(For reads as in _forward/prisms/gravity.py 524-540.) -/
def nullPrism : Prism := ⟨0, 0, 0, 0, 0, 0⟩

/-- prisms/magnetic.py 28-136 `prism_magnetic`. -/
noncomputable def prismMagnetic (junk : Junk) (mode : Mode) (K : MagKernels Prism)
    (coordinates : NdArray × NdArray × NdArray) (prisms : List Prism)
    (magnetization : List (List ℝ)) (field : String) (disableChecks : Bool) : Py MagResult := do
  if field ∉ ["b", "b_e", "b_n", "b_u"] then throw .ValueError
  let shape ← npBroadcast coordinates.1 coordinates.2.1 coordinates.2.2
  -- prisms/magnetic.py 443-457 `_run_sanity_checks`
  if !disableChecks && magnetization.length ≠ 3 then throw .ValueError
  if !disableChecks && (magnetization.headD []).length ≠ prisms.length then throw .ValueError
  if !disableChecks then checkPrisms prisms
  match magnetization with
  | [me, mn, mu] =>
    let (prisms, me, mn, mu) ← discardNullPrismsMag prisms me mn mu
    magCompute junk mode K shape coordinates.1.data coordinates.2.1.data coordinates.2.2.data
      prisms.length (fun j => prisms.getD j nullPrism) me mn mu field
  | _ => throw .ValueError  -- `mag_e, mag_n, mag_u = magnetization` cannot unpack

end Verif.Forward
