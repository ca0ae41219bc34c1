import Verif.Forward.Model
import Mathlib.Analysis.SpecialFunctions.Trigonometric.Inverse

/-!
Model of the forward modelling of tesseroids:
src/harmonica/_forward/_tesseroid_utils.py, _tesseroid_variable_density.py, tesseroid_gravity.py.

External: `numpy.polynomial.legendre.leggauss` (parameter `nodes`), `scipy.optimize.minimize_scalar`
(parameter `Minimizer`).
-/

namespace Verif.Tesseroid
open Verif.Engine Verif.Distance Verif.Forward

/-- A tesseroid: a row `w, e, s, n, bottom, top` of the array (degrees, metres).
_tesseroid_utils.py 244, 267, 284. -/
@[ext] structure Tess where
  w : ℝ
  e : ℝ
  s : ℝ
  n : ℝ
  bottom : ℝ
  top : ℝ

/-- Python/numpy `a % m` on floats (result has the sign of `m`).
_tesseroid_utils.py 463-464, 502-503. -/
noncomputable def pymod (a m : ℝ) : ℝ := a - m * ⌊a / m⌋

/-! ### Validation (_tesseroid_utils.py 293-538) -/

/-- `((x + 180) % 360) - 180`. _tesseroid_utils.py 464, 502-503. -/
noncomputable def to180 (x : ℝ) : ℝ := pymod (x + 180) 360 - 180

open Classical in
/-- _tesseroid_utils.py 475-504 `_longitude_continuity`. -/
noncomputable def longitudeContinuity (ts : List Tess) : List Tess :=
  ts.map fun t => if t.w > t.e then { t with e := to180 t.e, w := to180 t.w } else t

open Classical in
/-- _tesseroid_utils.py 293-404 `_check_tesseroids` (error messages are not modelled). -/
noncomputable def checkTesseroids (ts : List Tess) : Py (List Tess) := do
  if ∃ t ∈ ts, (t.s < -90 ∨ t.s > 90) ∨ (t.n < -90 ∨ t.n > 90) then throw .ValueError
  if ∃ t ∈ ts, t.s > t.n then throw .ValueError
  if ∃ t ∈ ts, t.bottom < 0 ∨ t.top < 0 then throw .ValueError
  if ∃ t ∈ ts, t.bottom > t.top then throw .ValueError
  if ∃ t ∈ ts, (t.w < -180 ∨ t.w > 360) ∨ (t.e < -180 ∨ t.e > 360) then throw .ValueError
  let ts := if ∃ t ∈ ts, t.w > t.e then longitudeContinuity ts else ts
  if ∃ t ∈ ts, t.w > t.e then throw .ValueError
  if ∃ t ∈ ts, t.e - t.w > 360 then throw .ValueError
  return ts

/-- _tesseroid_utils.py 463-470: the test of one point against one tesseroid. -/
def conflict (q : P3) (t : Tess) : Prop :=
  let longitude_360 := pymod q.x 360
  let longitude_180 := pymod (q.x + 180) 360 - 180
  ((t.w < longitude_180 ∧ longitude_180 < t.e) ∨ (t.w < longitude_360 ∧ longitude_360 < t.e)) ∧
    (t.s < q.y ∧ q.y < t.n) ∧ (t.bottom < q.z ∧ q.z < t.top)

open Classical in
/-- _tesseroid_utils.py 407-472 `check_points_outside_tesseroids` and its jitted loop: raises when
the list of conflicting pairs is not empty. -/
noncomputable def checkPointsOutside (junk : Junk) (lon lat rad : List ℝ) (ts : List Tess) :
    Py Unit :=
  if ∃ i < lon.length, ∃ t ∈ ts,
      conflict ⟨rd junk "longitude" lon i, rd junk "latitude" lat i, rd junk "radius" rad i⟩ t
  then .error .ValueError else .ok ()

open Classical in
/-- `(west == east) | (south == north) | (bottom == top)`. _tesseroid_utils.py 530-534. -/
noncomputable def nullTess (t : Tess) : Bool :=
  decide (t.w = t.e ∨ t.s = t.n ∨ t.bottom = t.top)

open Classical in
/-- _tesseroid_utils.py 507-538 `_discard_null_tesseroids`. -/
noncomputable def discardNullTess (ts : List Tess) (density : List ℝ) :
    Py (List Tess × List ℝ) := do
  let null := ts.map nullTess
  let null ← maskSetTrue null (density.map fun d => decide (d = 0))
  let keep := null.map (!·)
  let ts ← maskIndex ts keep
  let density ← maskIndex density keep
  return (ts, density)

/-! ### Adaptive discretization (_tesseroid_utils.py 149-290) -/

/-- _tesseroid_utils.py 262-275 `_tesseroid_dimensions`: `(l_lon, l_lat, l_rad)`. -/
noncomputable def dimensions (t : Tess) : ℝ × ℝ × ℝ :=
  let w := radians t.w
  let e := radians t.e
  let s := radians t.s
  let n := radians t.n
  let latitude_center := (n + s) / 2
  let l_lat := t.top * Real.arccos (Real.sin n * Real.sin s + Real.cos n * Real.cos s)
  let l_lon := t.top * Real.arccos
    (Real.sin latitude_center ^ 2 + Real.cos latitude_center ^ 2 * Real.cos (e - w))
  let l_rad := t.top - t.bottom
  (l_lon, l_lat, l_rad)

/-- _tesseroid_utils.py 278-290 `_distance_tesseroid_point`. -/
noncomputable def distanceTessPoint (q : P3) (t : Tess) : ℝ :=
  let longitude_p := (t.w + t.e) / 2
  let latitude_p := (t.s + t.n) / 2
  let radius_p := (t.bottom + t.top) / 2
  distanceSpherical q ⟨longitude_p, latitude_p, radius_p⟩

/-- The small tesseroids computed by the triple loop of `_split_tesseroid`
(_tesseroid_utils.py 244-258), in the order in which they are pushed. -/
noncomputable def splitPieces (t : Tess) (n_lon n_lat n_rad : ℕ) : List Tess :=
  let d_lon := (t.e - t.w) / n_lon
  let d_lat := (t.n - t.s) / n_lat
  let d_rad := (t.top - t.bottom) / n_rad
  (List.range n_lon).flatMap fun (i : ℕ) => (List.range n_lat).flatMap fun (j : ℕ) =>
    (List.range n_rad).map fun (k : ℕ) =>
      { w := t.w + d_lon * i, e := t.w + d_lon * (i + 1)
        s := t.s + d_lat * j, n := t.s + d_lat * (j + 1)
        bottom := t.bottom + d_rad * k, top := t.bottom + d_rad * (k + 1) }

/-- A write `a[i] = v` of a jitted function to an array of a given size. Numba does not check
bounds: a write outside of the array corrupts memory, which is represented by `none`.
Writes at _tesseroid_utils.py 198, 234, 253-258. -/
def wr (size : ℕ) (a : ℕ → Tess) (i : ℕ) (v : Tess) : Option (ℕ → Tess) :=
  if i < size then some fun j => if j = i then v else a j else none

/-- _tesseroid_utils.py 249-259: push the pieces on the stack. `count` is `stack_top + 1`, the
number of tesseroids in the stack. -/
def pushAll (size : ℕ) : (ℕ → Tess) → ℕ → List Tess → Option ((ℕ → Tess) × ℕ)
  | stack, count, [] => some (stack, count)
  | stack, count, p :: ps =>
    match wr size stack count p with
    | none => none
    | some stack => pushAll size stack (count + 1) ps

/-- `a / b < r` in jitted code (division by zero raises ZeroDivisionError).
_tesseroid_utils.py 211, 213, 215. -/
noncomputable def divLt (a b r : ℝ) : Py Bool :=
  open Classical in if b = 0 then .error .ZeroDivisionError else .ok (decide (a / b < r))

/-- How the adaptive discretization ends. _tesseroid_utils.py 219-236. -/
inductive Halt where
  /-- returned `n_splits`, with the `small_tesseroids` array -/
  | ok (n_splits : ℕ) (small : ℕ → Tess)
  /-- raised an exception -/
  | raised (e : PyErr)
  /-- wrote outside of an array -/
  | fault

/-- State of the while loop. `count` is `stack_top + 1`. _tesseroid_utils.py 197-201. -/
structure AState where
  stack : ℕ → Tess
  count : ℕ
  small : ℕ → Tess
  n_splits : ℕ

/-- The parameters of `_adaptive_discretization` that the loop does not modify.
_tesseroid_utils.py 150-157. -/
structure AParams where
  point : P3
  ratio : ℝ
  stackSize : ℕ
  smallSize : ℕ
  radial : Bool

/-- _tesseroid_utils.py 205-216: number of divisions along each direction. -/
noncomputable def divisions (P : AParams) (t : Tess) : Py (ℕ × ℕ × ℕ) := do
  let l := dimensions t
  let distance := distanceTessPoint P.point t
  let a ← divLt distance l.1 P.ratio
  let b ← divLt distance l.2.1 P.ratio
  let c ← divLt distance l.2.2 P.ratio
  return (if a then 2 else 1, if b then 2 else 1, if c && P.radial then 2 else 1)

/-- _tesseroid_utils.py 201-236: one turn of the while loop, or the end of the function.
In the code `tesseroid` is a view of its row of the stack, and splitting overwrites that row;
`_split_tesseroid` copies the six boundaries before its first write, so that the value is the one
read here. -/
noncomputable def astep (P : AParams) (st : AState) : AState ⊕ Halt :=
  if st.count = 0 then .inr (.ok st.n_splits st.small)
  else
    let t := st.stack (st.count - 1)
    let count := st.count - 1
    match divisions P t with
    | .error e => .inr (.raised e)
    | .ok (n_lon, n_lat, n_rad) =>
      if n_lon * n_lat * n_rad > 1 then
        if count + n_lon * n_lat * n_rad > P.stackSize then .inr (.raised .OverflowError)
        else
          match pushAll P.stackSize st.stack count (splitPieces t n_lon n_lat n_rad) with
          | none => .inr .fault
          | some (stack, count) => .inl { st with stack := stack, count := count }
      else if st.n_splits + 1 > P.smallSize then .inr (.raised .OverflowError)
      else
        match wr P.smallSize st.small st.n_splits t with
        | none => .inr .fault
        | some small => .inl { st with count := count, small := small, n_splits := st.n_splits + 1 }

/-- Run at most `fuel` turns of the loop; `none` when it has not ended by then.
_tesseroid_utils.py 201-236. -/
noncomputable def aloop (P : AParams) : ℕ → AState → Option Halt
  | 0, _ => none
  | fuel + 1, st =>
    match astep P st with
    | .inr h => some h
    | .inl st => aloop P fuel st

/-- _tesseroid_utils.py 149-236 `_adaptive_discretization` (`stack0` and `small0` are the previous
contents of the two arrays). -/
noncomputable def adaptive (P : AParams) (stack0 small0 : ℕ → Tess) (fuel : ℕ) (t : Tess) :
    Option Halt :=
  match wr P.stackSize stack0 0 t with
  | none => some .fault
  | some stack => aloop P fuel { stack := stack, count := 1, small := small0, n_splits := 0 }

/-! ### Gauss-Legendre quadrature -/

/-- Nodes and weights in the three directions (`glq_nodes_weights`,
_tesseroid_utils.py 118-146), as pairs (node, weight). -/
structure Glq where
  lon : List (ℝ × ℝ)
  lat : List (ℝ × ℝ)
  rad : List (ℝ × ℝ)

/-- _tesseroid_utils.py 18-115 `gauss_legendre_quadrature` (`longitude` in radians). -/
noncomputable def glq (longitude cosphi sinphi radius : ℝ) (t : Tess) (density : ℝ) (g : Glq)
    (kernel : SphKernel) : ℝ :=
  let a_factor := 1 / 8 * radians (t.e - t.w) * radians (t.n - t.s) * (t.top - t.bottom)
  g.lat.foldl (fun result lat =>
    let latitude_p := radians (0.5 * (t.n - t.s) * lat.1 + 0.5 * (t.n + t.s))
    let cosphi_p := Real.cos latitude_p
    let sinphi_p := Real.sin latitude_p
    g.rad.foldl (fun result rad =>
      let radius_p := 0.5 * (t.top - t.bottom) * rad.1 + 0.5 * (t.top + t.bottom)
      let kappa := radius_p ^ 2 * cosphi_p
      g.lon.foldl (fun result lon =>
        let longitude_p := radians (0.5 * (t.e - t.w) * lon.1 + 0.5 * (t.e + t.w))
        let mass := density * a_factor * kappa * lon.2 * lat.2 * rad.2
        result + mass * kernel longitude cosphi sinphi radius
          longitude_p cosphi_p sinphi_p radius_p) result) result) 0

/-- _tesseroid_variable_density.py 18-116 `gauss_legendre_quadrature_variable_density`. -/
noncomputable def glqVariable (longitude cosphi sinphi radius : ℝ) (t : Tess) (density : ℝ → ℝ)
    (g : Glq) (kernel : SphKernel) : ℝ :=
  let a_factor := 1 / 8 * radians (t.e - t.w) * radians (t.n - t.s) * (t.top - t.bottom)
  g.lat.foldl (fun result lat =>
    let latitude_p := radians (0.5 * (t.n - t.s) * lat.1 + 0.5 * (t.n + t.s))
    let cosphi_p := Real.cos latitude_p
    let sinphi_p := Real.sin latitude_p
    g.rad.foldl (fun result rad =>
      let radius_p := 0.5 * (t.top - t.bottom) * rad.1 + 0.5 * (t.top + t.bottom)
      let density_p := density radius_p
      let kappa := radius_p ^ 2 * cosphi_p
      g.lon.foldl (fun result lon =>
        let longitude_p := radians (0.5 * (t.e - t.w) * lon.1 + 0.5 * (t.e + t.w))
        let mass := density_p * a_factor * kappa * lon.2 * lat.2 * rad.2
        result + mass * kernel longitude cosphi sinphi radius
          longitude_p cosphi_p sinphi_p radius_p) result) result) 0

/-- _tesseroid_utils.py 138-146 for `GLQ_DEGREES = (2, 2, 2)` (tesseroid_gravity.py 31): the
documented values of `leggauss(2)`. -/
noncomputable def glq2 : Glq :=
  let nw := [(-1 / Real.sqrt 3, 1), (1 / Real.sqrt 3, 1)]
  ⟨nw, nw, nw⟩

/-! ### Density based discretization (_tesseroid_variable_density.py 119-259) -/

/-- `scipy.optimize.minimize_scalar(f, bounds=[a, b], method="bounded")`: its `(x, fun)`.
_tesseroid_variable_density.py 209, 216, 241. -/
abbrev Minimizer := (ℝ → ℝ) → ℝ → ℝ → ℝ × ℝ

/-- _tesseroid_variable_density.py 252-259 `straight_line`. The division is by `top - bottom`, which
is positive wherever the function is reached with valid boundaries. -/
noncomputable def straightLine (radius : ℝ) (nd : ℝ → ℝ) (bottom top : ℝ) : ℝ :=
  let slope := (nd top - nd bottom) / (top - bottom)
  slope * (radius - bottom) + nd bottom

/-- _tesseroid_variable_density.py 223-249 `maximum_absolute_diff`: `(radius_split, max_diff)`. -/
noncomputable def maximumAbsoluteDiff (M : Minimizer) (nd : ℝ → ℝ) (bottom top : ℝ) : ℝ × ℝ :=
  let r := M (fun radius => -|nd radius - straightLine radius nd bottom top|) bottom top
  (r.1, -r.2)

/-- _tesseroid_variable_density.py 199-220 `density_minmax`. -/
noncomputable def densityMinmax (M : Minimizer) (density : ℝ → ℝ) (bottom top : ℝ) : ℝ × ℝ :=
  let bounds_min := min (density bottom) (density top)
  let bounds_max := max (density bottom) (density top)
  (min (M density bottom top).2 bounds_min,
   max (-(M (fun radius => -density radius) bottom top).2) bounds_max)

/-- `np.isclose(a, b)` with the default tolerances. _tesseroid_variable_density.py 179. -/
def isclose (a b : ℝ) : Prop := |a - b| ≤ 1e-8 + 1e-5 * |b|

/-- _tesseroid_variable_density.py 186-196: the while loop. `pending` is consumed from the front
and extended at the back; `none` when `fuel` turns are not enough. -/
noncomputable def densityLoop (M : Minimizer) (nd : ℝ → ℝ) (size : ℝ) (w e s n : ℝ) :
    ℕ → List Tess → List Tess → Option (List Tess)
  | _, [], out => some out
  | 0, _ :: _, _ => none
  | fuel + 1, t :: pending, out =>
    let r := maximumAbsoluteDiff M nd t.bottom t.top
    let size_ratio := (t.top - t.bottom) / size
    open Classical in
    if r.2 * size_ratio > 0.1 then
      densityLoop M nd size w e s n fuel
        (pending ++ [⟨w, e, s, n, r.1, t.top⟩, ⟨w, e, s, n, t.bottom, r.1⟩]) out
    else
      densityLoop M nd size w e s n fuel pending (out ++ [⟨w, e, s, n, t.bottom, t.top⟩])

open Classical in
/-- _tesseroid_variable_density.py 148-196 `_density_based_discretization`. -/
noncomputable def densityDiscretization1 (M : Minimizer) (density : ℝ → ℝ) (fuel : ℕ) (t : Tess) :
    Option (List Tess) :=
  let mm := densityMinmax M density t.bottom t.top
  let nd := fun radius => (density radius - mm.1) / (mm.2 - mm.1)
  if isclose mm.1 mm.2 then some [t]
  else densityLoop M nd (t.top - t.bottom) t.w t.e t.s t.n fuel [t] []

/-- _tesseroid_variable_density.py 121-145 `density_based_discretization`. -/
noncomputable def densityDiscretization (M : Minimizer) (density : ℝ → ℝ) (fuel : ℕ) :
    List Tess → Option (List Tess)
  | [] => some []
  | t :: ts => do
    let a ← densityDiscretization1 M density fuel t
    let b ← densityDiscretization M density fuel ts
    return a ++ b

/-! ### tesseroid_gravity (tesseroid_gravity.py) -/

/-- `density` argument: an array of values or a function of the radius.
tesseroid_gravity.py 177-188. -/
inductive Density where
  | values (d : List ℝ)
  | func (f : ℝ → ℝ)

/-- tesseroid_gravity.py 159-165: the kernels. -/
noncomputable def tessKernels : List (String × SphKernel) :=
  [("potential", potentialSpherical), ("g_z", gravityUSpherical)]

/-- tesseroid_gravity.py 32 `DISTANCE_SIZE_RATII[field]`. -/
noncomputable def distanceSizeRatio (field : String) : ℝ := if field = "potential" then 1 else 2.5

/-- tesseroid_gravity.py 29 -/
def STACK_SIZE : ℕ := 100

/-- tesseroid_gravity.py 30 -/
def MAX_DISCRETIZATIONS : ℕ := 100000

/-- Enough turns for any run of the adaptive discretization (proved in `Lemmas`).
(A bound for the loop of _tesseroid_utils.py 201-236.) -/
def adaptiveFuel (stackSize smallSize : ℕ) : ℕ := (smallSize + 1) * (stackSize + 2) + 1

/-- tesseroid_gravity.py 310-333 (and 413-436): the values added to `result[i]`, in order.
The two arrays are reused between tesseroids: `small` is its current content; the content left in
the stack is not modelled (`stack` stands for an arbitrary one; the result does not depend on it,
see `adaptive_eq`). `effect j t` is the call to the quadrature for a piece `t` of tesseroid `j`. -/
noncomputable def tessValues (P : AParams) (effect : ℕ → Tess → ℝ) :
    (ℕ → Tess) → (ℕ → Tess) → List (Tess × ℕ) → Py (List ℝ)
  | _, _, [] => .ok []
  | stack, small, (t, j) :: ts =>
    match adaptive P stack small (adaptiveFuel P.stackSize P.smallSize) t with
    | some (.ok n_splits small) =>
      match tessValues P effect stack small ts with
      | .error e => .error e
      | .ok rest => .ok ((List.range n_splits).map (fun k => effect j (small k)) ++ rest)
    | some (.raised e) => .error e
    | _ => .error .AttributeError

/-- An error raised in a loop iteration ends the call: the first iteration that fails, in the order
in which the iterations start. (Simplification: with several failing iterations of a parallel run
any of their exceptions may be the one raised.).
The loops of tesseroid_gravity.py 305-333, 408-436. -/
def firstError (vals : ℕ → Py (List ℝ)) : List ℕ → Py Unit
  | [] => .ok ()
  | i :: is =>
    match vals i with
    | .error e => .error e
    | .ok _ => firstError vals is

/-- order in which the iterations start. The loops of tesseroid_gravity.py 305-333, 408-436. -/
def Mode.order (n : ℕ) : Mode → List ℕ
  | .serial => List.range n
  | .parallel sched => sched ++ List.range n

/-- the values of an iteration that does not fail.
The loops of tesseroid_gravity.py 305-333, 408-436. -/
def okValues (vals : ℕ → Py (List ℝ)) (i : ℕ) : List ℝ :=
  match vals i with
  | .error _ => []
  | .ok l => l

/-- tesseroid_gravity.py 35-213 `tesseroid_gravity`. `fuel` bounds the turns of the density based
discretization; `none` means that this was not enough (not observable when it terminates).
`stack0` and `small0` are the uninitialised arrays of `np.empty`. -/
noncomputable def tesseroidGravity (junk : Junk) (mode : Mode) (M : Minimizer) (fuel : ℕ)
    (stack0 small0 : ℕ → Tess) (coordinates : NdArray × NdArray × NdArray) (ts : List Tess)
    (density : Density) (field : String) (radial disableChecks : Bool) : Option (Py NdArray) :=
  match tessKernels.lookup field with
  | none => some (.error .ValueError)
  | some kernel =>
    let lon := coordinates.1.data
    let lat := coordinates.2.1.data
    let rad := coordinates.2.2.data
    match (do
        let shape ← npBroadcast coordinates.1 coordinates.2.1 coordinates.2.2
        let ts ← (if disableChecks then .ok ts else checkTesseroids ts)
        (if disableChecks then .ok () else checkPointsOutside junk lon lat rad ts)
        return (shape, ts) : Py (List ℕ × List Tess)) with
    | .error e => some (.error e)
    | .ok (shape, ts) =>
      let compute (ts : List Tess) (quad : ℝ → ℝ → ℝ → ℝ → ℕ → Tess → ℝ) : Py NdArray := do
        let vals := fun i =>
          let lonr := radians (rd junk "longitude" lon i)
          let latr := radians (rd junk "latitude" lat i)
          let r := rd junk "radius" rad i
          tessValues
            ⟨⟨rd junk "longitude" lon i, rd junk "latitude" lat i, r⟩,
              distanceSizeRatio field, STACK_SIZE, MAX_DISCRETIZATIONS, radial⟩
            (quad lonr (Real.cos latr) (Real.sin latr) r) stack0 small0 ts.zipIdx
        firstError vals (Mode.order lon.length mode)
        let out := run mode lon.length (fun i => (okValues vals i).flatMap (accum i)) 0 (fun _ => 0)
        let result := (List.range shape.prod).map out
        let result := scaleIf field ["g_z"] (-1) result
        let result := scaleIf field ["g_z"] 1e5 result
        return ⟨shape, result⟩
      match density with
      | .func f =>
        match densityDiscretization M f fuel ts with
        | none => none
        | some ts => some (do
          -- `np.atleast_2d([])` has shape (1, 0): its row cannot be copied to the stack
          if ts.length = 0 ∧ lon.length ≠ 0 then throw .ValueError
          compute ts fun lonr cosphi sinphi r _ t =>
            glqVariable lonr cosphi sinphi r t f glq2 kernel)
      | .values d => some (do
        if !disableChecks && d.length ≠ ts.length then throw .ValueError
        let r ← discardNullTess ts d
        compute r.1 fun lonr cosphi sinphi radius j t =>
          glq lonr cosphi sinphi radius t (rd junk "density" r.2 j) glq2 kernel)

end Verif.Tesseroid
