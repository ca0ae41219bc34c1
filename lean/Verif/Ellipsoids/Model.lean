import Verif.Forward.Model
import Mathlib.LinearAlgebra.Matrix.NonsingularInverse
import Mathlib.LinearAlgebra.Matrix.Notation
import Mathlib.Analysis.SpecialFunctions.Trigonometric.Inverse
import Mathlib.Analysis.SpecialFunctions.Trigonometric.Arctan
import Mathlib.Analysis.SpecialFunctions.Pow.Real
import Mathlib.MeasureTheory.Integral.IntervalIntegral.Basic
import Mathlib.Data.List.Sort

/-!
Model of src/harmonica/_forward/ellipsoids/{utils,gravity,magnetic}.py, of `get_rotation_matrix` of
src/harmonica/_forward/utils.py and of `Ellipsoid.get_surface` of ellipsoids.py.

* The numpy operations on arrays of observation points are elementwise: they are modelled point by
  point, and a boolean mask (`gx[internal] = ...`) is a test at each point.
* Divisions, square roots, logarithms, inverse sines and real powers whose argument is not a
  constant are partial here: outside of their domain numpy returns inf or nan with a warning, which is
  the error FloatingPointError of the model.
* `scipy.special.ellipkinc` and `ellipeinc` are the integrals that define them. scipy's
  `Rotation.from_euler` is the product of elementary rotations. `np.linalg.solve` is the solution of
  the linear system, LinAlgError when its matrix is singular.
-/

namespace Verif.Ellipsoids
open Verif.Forward

noncomputable section

/-- A vector of three components.
Model of the rows of coordinates in ellipsoids/gravity.py 98-131 and ellipsoids/magnetic.py 151-200. -/
abbrev V3 := Fin 3 → ℝ

/-- A (3, 3) array.
Rotation matrices and tensors: ellipsoids/utils.py 78-97, ellipsoids/ellipsoids.py 195-217, ellipsoids/magnetic.py 169-183, 285-291. -/
abbrev M3 := Matrix (Fin 3) (Fin 3) ℝ

/-! ### Partial operations on numbers -/

/-- `a / b` in the formulas of ellipsoids/utils.py 130-677 and ellipsoids/magnetic.py 300-628; a null divisor is an error of the model. -/
def pdiv (x y : ℝ) : Py ℝ := if y = 0 then .error .FloatingPointError else .ok (x / y)
/-- `np.sqrt` in the same formulas (e.g. ellipsoids/utils.py 256-294, 462-486, 565-567); a negative argument is an error of the model. -/
def psqrt (x : ℝ) : Py ℝ := if x < 0 then .error .FloatingPointError else .ok (√x)
/-- `np.log` in the same formulas (ellipsoids/utils.py 568, ellipsoids/magnetic.py 453). -/
def plog (x : ℝ) : Py ℝ := if x ≤ 0 then .error .FloatingPointError else .ok (Real.log x)
/-- `np.arcsin` in the same formulas (ellipsoids/utils.py 463). -/
def parcsin (x : ℝ) : Py ℝ :=
  if -1 ≤ x ∧ x ≤ 1 then .ok (Real.arcsin x) else .error .FloatingPointError
/-- `np.arccos` in the same formulas (ellipsoids/utils.py 293, ellipsoids/magnetic.py 415, 476). -/
def parccos (x : ℝ) : Py ℝ :=
  if -1 ≤ x ∧ x ≤ 1 then .ok (Real.arccos x) else .error .FloatingPointError
/-- `x ** p` with a real exponent in the same formulas (ellipsoids/utils.py 471, 642, 647). -/
def ppow (x y : ℝ) : Py ℝ := if x < 0 then .error .FloatingPointError else .ok (x ^ y)

/-- `scipy.special.ellipkinc(phi, m)`.
Used at ellipsoids/utils.py 467 and ellipsoids/magnetic.py 417; modelled by the integral that defines it. -/
def ellipkinc (phi m : ℝ) : ℝ := ∫ t in (0 : ℝ)..phi, 1 / √(1 - m * Real.sin t ^ 2)

/-- `scipy.special.ellipeinc(phi, m)`.
Used at ellipsoids/utils.py 468 and ellipsoids/magnetic.py 418; modelled by the integral that defines it. -/
def ellipeinc (phi m : ℝ) : ℝ := ∫ t in (0 : ℝ)..phi, √(1 - m * Real.sin t ^ 2)

/-! ### Rotations -/

/-- Rotations about the third, second and first axis by an angle in radians (scipy).
Used through scipy by _forward/utils.py 431. -/
def rotZ (t : ℝ) : M3 :=
  !![Real.cos t, -Real.sin t, 0; Real.sin t, Real.cos t, 0; 0, 0, 1]
/-- Rotation about the second axis, used through scipy by _forward/utils.py 431. -/
def rotY (t : ℝ) : M3 :=
  !![Real.cos t, 0, Real.sin t; 0, 1, 0; -Real.sin t, 0, Real.cos t]
/-- Rotation about the first axis, used through scipy by _forward/utils.py 431. -/
def rotX (t : ℝ) : M3 :=
  !![1, 0, 0; 0, Real.cos t, -Real.sin t; 0, Real.sin t, Real.cos t]

/-- `Rotation.from_euler("ZYX", [z, y, x], degrees=True).as_matrix()` (scipy, intrinsic rotations).
Used at _forward/utils.py 431. -/
def fromEulerZYX (z y x : ℝ) : M3 := rotZ (radians z) * rotY (radians y) * rotX (radians x)

/-- _forward/utils.py 395-434 `get_rotation_matrix` -/
def getRotationMatrix (yaw pitch roll : ℝ) : M3 := fromEulerZYX yaw (-pitch) roll

/-- `.astype(int)`: truncation towards zero. Used at ellipsoids/utils.py 96. -/
def truncate (x : ℝ) : ℝ := if 0 ≤ x then (⌊x⌋ : ℝ) else (⌈x⌉ : ℝ)

/-! ### Ellipsoids -/

/-- A susceptibility: a number or a (3, 3) array. The setter at ellipsoids/ellipsoids.py 147-169. -/
inductive Susceptibility where
  | scalar (s : ℝ)
  | tensor (t : M3)

/-- The attributes of an `Ellipsoid` object (ellipsoids.py 71-203) that the forward models read; how an
object gets them is in Object.lean. `None` is `none`. -/
structure Ellipsoid where
  a : ℝ
  b : ℝ
  c : ℝ
  yaw : ℝ
  pitch : ℝ
  roll : ℝ
  center : V3
  density : Option ℝ
  susceptibility : Option Susceptibility
  remanent_mag : Option V3

/-- ellipsoids.py 205-228 `rotation_matrix` -/
def Ellipsoid.rotationMatrix (e : Ellipsoid) : M3 := getRotationMatrix e.yaw e.pitch e.roll

/-- utils.py 19-36 `check_semiaxes_sorted` -/
def checkSemiaxesSorted (a b c : ℝ) : Py Unit :=
  if ¬(a ≥ b ∧ b ≥ c) then .error .ValueError else .ok ()

/-- utils.py 39-97 `get_semiaxes_rotation_matrix` -/
def getSemiaxesRotationMatrix (e : Ellipsoid) : Py M3 :=
  let a := e.a
  let b := e.b
  let c := e.c
  if a ≥ b ∧ b ≥ c then .ok 1
  else if b ≥ a ∧ a ≥ c then .ok ((getRotationMatrix 90 0 0).map truncate)
  else if c ≥ b ∧ b ≥ a then .ok ((getRotationMatrix 0 90 0).map truncate)
  else if a ≥ c ∧ c ≥ b then .ok ((getRotationMatrix 0 0 90).map truncate)
  else if b ≥ c ∧ c ≥ a then .ok ((getRotationMatrix 90 0 90).map truncate)
  else if c ≥ a ∧ a ≥ b then .ok ((getRotationMatrix 90 90 0).map truncate)
  else .error .ValueError

/-- `a, b, c = sorted((ellipsoid.a, ellipsoid.b, ellipsoid.c), reverse=True)`.
ellipsoids/gravity.py 103, ellipsoids/magnetic.py 157, ellipsoids/utils.py 60. -/
def sortedSemiaxes (e : Ellipsoid) : ℝ × ℝ × ℝ :=
  let l := [e.a, e.b, e.c].insertionSort (· ≥ ·)
  (l.getD 0 0, l.getD 1 0, l.getD 2 0)

/-- utils.py 100-115 `is_internal` -/
def isInternal (p : V3) (a b c : ℝ) : Bool :=
  decide (p 0 ^ 2 / a ^ 2 + p 1 ^ 2 / b ^ 2 + p 2 ^ 2 / c ^ 2 < 1)

/-- utils.py 16 `SEMIAXES_RTOL` -/
def semiaxesRtol : ℝ := 1e-5

/-- utils.py 118-160 `is_almost_a_sphere` (`a != b != c` is `a != b and b != c`) -/
def isAlmostASphere (a b c : ℝ) : Py Bool := do
  checkSemiaxesSorted a b c
  if a = b ∧ b = c then return true
  else if b = c ∧ |a - b| < semiaxesRtol * max a b then return true
  else if a = b ∧ |b - c| < semiaxesRtol * max b c then return true
  else if (a ≠ b ∧ b ≠ c) ∧ |a - b| < semiaxesRtol * max a b
      ∧ |b - c| < semiaxesRtol * max b c then return true
  else return false

/-- utils.py 163-193 `is_almost_prolate` -/
def isAlmostProlate (a b c : ℝ) : Py Bool := do
  checkSemiaxesSorted a b c
  if a > b ∧ b = c then return true
  else if |b - c| < semiaxesRtol * max b c then return true
  else return false

/-- utils.py 196-226 `is_almost_oblate` -/
def isAlmostOblate (a b c : ℝ) : Py Bool := do
  checkSemiaxesSorted a b c
  if a = b ∧ b > c then return true
  else if |a - b| < semiaxesRtol * max a b then return true
  else return false

/-! ### The ellipsoidal coordinate -/

/-- utils.py 255-258: prolate ellipsoids -/
def lambdaProlate (p : V3) (a b : ℝ) : Py ℝ := do
  let p0 := a ^ 2 * b ^ 2 - b ^ 2 * p 0 ^ 2 - a ^ 2 * (p 1 ^ 2 + p 2 ^ 2)
  let p1 := a ^ 2 + b ^ 2 - p 0 ^ 2 - p 1 ^ 2 - p 2 ^ 2
  let s ← psqrt (p1 ^ 2 - 4 * p0)
  return 0.5 * (s - p1)

/-- utils.py 261-264: oblate ellipsoids -/
def lambdaOblate (p : V3) (a c : ℝ) : Py ℝ := do
  let p0 := a ^ 2 * c ^ 2 - c ^ 2 * (p 0 ^ 2 + p 1 ^ 2) - a ^ 2 * p 2 ^ 2
  let p1 := a ^ 2 + c ^ 2 - p 0 ^ 2 - p 1 ^ 2 - p 2 ^ 2
  let s ← psqrt (p1 ^ 2 - 4 * p0)
  return 0.5 * (s - p1)

/-- utils.py 267-294: triaxial ellipsoids -/
def lambdaTriaxial (v : V3) (a b c : ℝ) : Py ℝ := do
  let p0 := a ^ 2 * b ^ 2 * c ^ 2 - b ^ 2 * c ^ 2 * v 0 ^ 2 - c ^ 2 * a ^ 2 * v 1 ^ 2
    - a ^ 2 * b ^ 2 * v 2 ^ 2
  let p1 := a ^ 2 * b ^ 2 + b ^ 2 * c ^ 2 + c ^ 2 * a ^ 2 - (b ^ 2 + c ^ 2) * v 0 ^ 2
    - (c ^ 2 + a ^ 2) * v 1 ^ 2 - (a ^ 2 + b ^ 2) * v 2 ^ 2
  let p2 := a ^ 2 + b ^ 2 + c ^ 2 - v 0 ^ 2 - v 1 ^ 2 - v 2 ^ 2
  let p := p1 - p2 ^ 2 / 3
  let q := p0 - p1 * p2 / 3 + 2 * (p2 / 3) ^ 3
  let s ← psqrt ((-p / 3) ^ 3)
  let cos_theta ← pdiv (-q) (2 * s)
  let cos_theta := min (max cos_theta (-1)) 1
  let theta ← parccos cos_theta
  let r ← psqrt (-p / 3)
  return 2 * r * Real.cos (theta / 3) - p2 / 3

/-- utils.py 229-296 `calculate_lambda` -/
def calculateLambda (p : V3) (a b c : ℝ) : Py ℝ := do
  checkSemiaxesSorted a b c
  if b = c then lambdaProlate p a b
  else if a = b then lambdaOblate p a c
  else lambdaTriaxial p a b c

/-! ### The elliptic integrals -/

/-- utils.py 457-459 -/
def checkTriaxial (a b c : ℝ) : Py Unit :=
  if ¬(a > b ∧ b > c) then .error .ValueError else .ok ()

/-- utils.py 559-561, magnetic.py 448-450 -/
def checkGreater (a b : ℝ) : Py Unit :=
  if ¬(a > b) then .error .ValueError else .ok ()

/-- utils.py 385-490 `_get_elliptical_integrals_triaxial` -/
def integralsTriaxial (a b c lambda : ℝ) : Py V3 := do
  checkTriaxial a b c
  let quotient ← pdiv (a ^ 2 - c ^ 2) (a ^ 2 + lambda)
  let int_arcsin ← psqrt quotient
  let phi ← parcsin int_arcsin
  let k ← pdiv (a ^ 2 - b ^ 2) (a ^ 2 - c ^ 2)
  let ellipk := ellipkinc phi k
  let ellipe := ellipeinc phi k
  let half ← ppow (a ^ 2 - c ^ 2) 0.5
  let g1_factor ← pdiv 2 ((a ^ 2 - b ^ 2) * half)
  let g1 := g1_factor * (ellipk - ellipe)
  let root ← psqrt (a ^ 2 - c ^ 2)
  let g2_multiplier ← pdiv (2 * root) ((a ^ 2 - b ^ 2) * (b ^ 2 - c ^ 2))
  let ratio ← pdiv (b ^ 2 - c ^ 2) (a ^ 2 - c ^ 2)
  let g2_elliptics := ellipe - ratio * ellipk
  let last ← pdiv (a ^ 2 - b ^ 2) root
  let under ← pdiv (c ^ 2 + lambda) ((a ^ 2 + lambda) * (b ^ 2 + lambda))
  let sqrt_under ← psqrt under
  let g2_last_term := last * sqrt_under
  let g2 := g2_multiplier * (g2_elliptics - g2_last_term)
  let g3_factor_1 ← pdiv 2 ((b ^ 2 - c ^ 2) * root)
  let g3_term_1 := (-g3_factor_1) * ellipe
  let g3_factor_2 ← pdiv 2 (b ^ 2 - c ^ 2)
  let under ← pdiv (b ^ 2 + lambda) ((a ^ 2 + lambda) * (c ^ 2 + lambda))
  let sqrt_under ← psqrt under
  let g3_term_2 := g3_factor_2 * sqrt_under
  let g3 := g3_term_1 + g3_term_2
  return ![g1, g2, g3]

/-- utils.py 493-572 `_get_elliptical_integrals_prolate` -/
def integralsProlate (a b lambda : ℝ) : Py V3 := do
  checkGreater a b
  let e2 := a ^ 2 - b ^ 2
  let sqrt_e ← psqrt e2
  let sqrt_l1 ← psqrt (a ^ 2 + lambda)
  let sqrt_l2 ← psqrt (b ^ 2 + lambda)
  let quotient ← pdiv (sqrt_e + sqrt_l1) sqrt_l2
  let log ← plog quotient
  let f1 ← pdiv 2 (sqrt_e ^ 3)
  let d1 ← pdiv sqrt_e sqrt_l1
  let g1 := f1 * (log - d1)
  let f2 ← pdiv 1 (sqrt_e ^ 3)
  let d2 ← pdiv (sqrt_e * sqrt_l1) (b ^ 2 + lambda)
  let g2 := f2 * (d2 - log)
  return ![g1, g2, g2]

/-- utils.py 575-650 `_get_elliptical_integrals_oblate` -/
def integralsOblate (b c lambda : ℝ) : Py V3 := do
  checkGreater b c
  let quotient ← pdiv (b ^ 2 - c ^ 2) (c ^ 2 + lambda)
  let root ← psqrt quotient
  let arctan := Real.arctan root
  let power ← ppow (b ^ 2 - c ^ 2) (3 / 2)
  let f1 ← pdiv 1 power
  let root1 ← psqrt ((b ^ 2 - c ^ 2) * (c ^ 2 + lambda))
  let d1 ← pdiv root1 (b ^ 2 + lambda)
  let g1 := f1 * (arctan - d1)
  let f3 ← pdiv 2 power
  let g3 := f3 * (root - arctan)
  return ![g1, g1, g3]

/-- utils.py 299-382 `get_elliptical_integrals` -/
def getEllipticalIntegrals (a b c lambda : ℝ) : Py V3 := do
  checkSemiaxesSorted a b c
  let sphere ← isAlmostASphere a b c
  if sphere then throw .ValueError
  else
    let prolate ← isAlmostProlate a b c
    if prolate then integralsProlate a b lambda
    else
      let oblate ← isAlmostOblate a b c
      if oblate then integralsOblate b c lambda
      else if a > b ∧ b > c then integralsTriaxial a b c lambda
      else throw .ValueError

/-- utils.py 653-677 `get_derivatives_of_elliptical_integrals` -/
def getDerivativesOfEllipticalIntegrals (a b c lambda : ℝ) : Py V3 := do
  checkSemiaxesSorted a b c
  let r ← psqrt ((a ^ 2 + lambda) * (b ^ 2 + lambda) * (c ^ 2 + lambda))
  let tx ← pdiv (-1) (a ^ 2 + lambda)
  let hx ← pdiv tx r
  let ty ← pdiv (-1) (b ^ 2 + lambda)
  let hy ← pdiv ty r
  let tz ← pdiv (-1) (c ^ 2 + lambda)
  let hz ← pdiv tz r
  return ![hx, hy, hz]

/-! ### Gravity -/

/-- gravity.py 170-184: the sphere -/
def gravitySphere (p : V3) (a b c density : ℝ) : Py V3 := do
  let factor := -4 / 3 * Real.pi * a ^ 3 * gravitationalConst * density
  if isInternal p a b c then
    let gx ← pdiv (factor * p 0) (a ^ 3)
    let gy ← pdiv (factor * p 1) (a ^ 3)
    let gz ← pdiv (factor * p 2) (a ^ 3)
    return ![gx, gy, gz]
  else
    let r ← psqrt (p 0 ^ 2 + p 1 ^ 2 + p 2 ^ 2)
    let gx ← pdiv (factor * p 0) (r ^ 3)
    let gy ← pdiv (factor * p 1) (r ^ 3)
    let gz ← pdiv (factor * p 2) (r ^ 3)
    return ![gx, gy, gz]

/-- gravity.py 188-191: lambda is zero on internal points -/
def lambdaOrZero (p : V3) (a b c : ℝ) : Py ℝ :=
  if isInternal p a b c then .ok 0 else calculateLambda p a b c

/-- gravity.py 135-199 `_compute_gravity_ellipsoid` at one point -/
def computeGravityEllipsoid (p : V3) (a b c density : ℝ) : Py V3 := do
  checkSemiaxesSorted a b c
  let sphere ← isAlmostASphere a b c
  if sphere then gravitySphere p a b c density
  else
    let lambda ← lambdaOrZero p a b c
    let factor := -2 * Real.pi * a * b * c * gravitationalConst * density
    let g ← getEllipticalIntegrals a b c lambda
    return ![factor * p 0 * g 0, factor * p 1 * g 1, factor * p 2 * g 2]

/-- `np.vstack` of three 1d arrays: the list of the columns.
ellipsoids/gravity.py 112, 120; ellipsoids/magnetic.py 166. -/
def vstack (x y z : List ℝ) : Py (List V3) :=
  if x.length = y.length ∧ x.length = z.length then
    .ok ((x.zip (y.zip z)).map fun t => ![t.1, t.2.1, t.2.2])
  else .error .ValueError

/-- `array.reshape(shape)`. ellipsoids/gravity.py 131, ellipsoids/magnetic.py 113. -/
def reshape (data : List ℝ) (shape : List ℕ) : Py NdArray :=
  if data.length = shape.prod then .ok ⟨shape, data⟩ else .error .ValueError

/-- One ellipsoid or several of them. ellipsoids/gravity.py 84-96, ellipsoids/magnetic.py 90-99. -/
inductive Bodies where
  | one (e : Ellipsoid)
  | many (es : List Ellipsoid)

/-- gravity.py 87-88, magnetic.py 77-78 -/
def Bodies.toList : Bodies → List Ellipsoid
  | .one e => [e]
  | .many es => es

/-- gravity.py 101-122: contribution of one ellipsoid on all the points -/
def gravityOne (points : Py (List V3)) (e : Ellipsoid) (density : ℝ) : Py (List V3) := do
  let s := sortedSemiaxes e
  let semiaxes_rotation ← getSemiaxesRotationMatrix e
  let rotation := semiaxes_rotation.transpose * e.rotationMatrix.transpose
  let pts ← points
  pts.mapM fun p => do
    let g ← computeGravityEllipsoid (rotation.mulVec (p - e.center)) s.1 s.2.1 s.2.2 density
    return rotation.transpose.mulVec g

/-- elementwise `g += g_i`. ellipsoids/gravity.py 122-125, ellipsoids/magnetic.py 108-110. -/
def addV (x y : List V3) : List V3 := List.zipWith (· + ·) x y

/-- gravity.py 90-127: the loop over the ellipsoids. The state is the accumulated field and the number
of warnings. -/
def gravityLoop (points : Py (List V3)) (es : List Ellipsoid) (init : List V3 × ℕ) :
    Py (List V3 × ℕ) :=
  es.foldlM (fun s e =>
    match e.density with
    | none => .ok (s.1, s.2 + 1)
    | some density => do
      let g ← gravityOne points e density
      return (addV s.1 g, s.2)) init

/-- gravity.py 31-132 `ellipsoid_gravity`: the three components and the number of warnings -/
def ellipsoidGravity (coordinates : NdArray × NdArray × NdArray) (ellipsoids : Bodies) :
    Py ((NdArray × NdArray × NdArray) × ℕ) := do
  let shape ← npBroadcast coordinates.1 coordinates.2.1 coordinates.2.2
  let easting := coordinates.1.data
  let northing := coordinates.2.1.data
  let upward := coordinates.2.2.data
  let g ← gravityLoop (vstack easting northing upward) ellipsoids.toList
    (List.replicate easting.length 0, 0)
  let ge ← reshape (g.1.map fun v => v 0 * 1e5) shape
  let gn ← reshape (g.1.map fun v => v 1 * 1e5) shape
  let gz ← reshape (g.1.map fun v => -v 2 * 1e5) shape
  return ((ge, gn, gz), g.2)

/-! ### Magnetics -/

/-- magnetic.py 396-431 `_demag_tensor_triaxial_internal` -/
def demagTriaxialInternal (a b c : ℝ) : Py V3 := do
  checkTriaxial a b c
  let quotient ← pdiv c a
  let phi ← parccos quotient
  let k ← pdiv (a ^ 2 - b ^ 2) (a ^ 2 - c ^ 2)
  let ellipk := ellipkinc phi k
  let ellipe := ellipeinc phi k
  let a_c_sqrt ← psqrt (a ^ 2 - c ^ 2)
  let fx ← pdiv (a * b * c) (a_c_sqrt * (a ^ 2 - b ^ 2))
  let nxx := fx * (ellipk - ellipe)
  let fy ← pdiv (a * b * c) (a_c_sqrt * (b ^ 2 - c ^ 2))
  let ty ← pdiv (c ^ 2) (b ^ 2 - c ^ 2)
  let nyy := -1 * nxx + fy * ellipe - ty
  let tz ← pdiv (b ^ 2) (b ^ 2 - c ^ 2)
  let nzz := -1 * fy * ellipe + tz
  return ![nxx, nyy, nzz]

/-- magnetic.py 434-455 `_demag_tensor_prolate_internal` -/
def demagProlateInternal (a b : ℝ) : Py V3 := do
  checkGreater a b
  let m ← pdiv a b
  let sqrt ← psqrt (m ^ 2 - 1)
  let f ← pdiv 1 (m ^ 2 - 1)
  let t ← pdiv m sqrt
  let log ← plog (m + sqrt)
  let nxx := f * (t * log - 1)
  let nyy := 0.5 * (1 - nxx)
  return ![nxx, nyy, nyy]

/-- magnetic.py 458-478 `_demag_tensor_oblate_internal` -/
def demagOblateInternal (b c : ℝ) : Py V3 := do
  checkGreater b c
  let m ← pdiv c b
  let f ← pdiv 1 (1 - m ^ 2)
  let sqrt ← psqrt (1 - m ^ 2)
  let t ← pdiv m sqrt
  let arccos ← parccos m
  let nzz := f * (1 - t * arccos)
  let nxx := 0.5 * (1 - nzz)
  return ![nxx, nxx, nzz]

/-- magnetic.py 351-393 `get_demagnetization_tensor_internal` -/
def getDemagnetizationTensorInternal (a b c : ℝ) : Py M3 := do
  checkSemiaxesSorted a b c
  let sphere ← isAlmostASphere a b c
  if sphere then return Matrix.diagonal (fun _ => 1 / 3 * 1)
  else
    let prolate ← isAlmostProlate a b c
    if prolate then
      let n ← demagProlateInternal a b
      return Matrix.diagonal n
    else
      let oblate ← isAlmostOblate a b c
      if oblate then
        let n ← demagOblateInternal b c
        return Matrix.diagonal n
      else if a > b ∧ b > c then
        let n ← demagTriaxialInternal a b c
        return Matrix.diagonal n
      else throw .ValueError

/-- magnetic.py 591-628 `_spatial_deriv_lambda` -/
def spatialDerivLambda (p : V3) (a b c lambda : ℝ) : Py V3 := do
  let ux ← pdiv (p 0) (a ^ 2 + lambda)
  let uy ← pdiv (p 1) (b ^ 2 + lambda)
  let uz ← pdiv (p 2) (c ^ 2 + lambda)
  let denom := ux ^ 2 + uy ^ 2 + uz ^ 2
  let tx ← pdiv (2 * p 0) (a ^ 2 + lambda)
  let dx ← pdiv tx denom
  let ty ← pdiv (2 * p 1) (b ^ 2 + lambda)
  let dy ← pdiv ty denom
  let tz ← pdiv (2 * p 2) (c ^ 2 + lambda)
  let dz ← pdiv tz denom
  return ![dx, dy, dz]

/-- magnetic.py 557-566: the sphere (`x / r5` is written `x * (1 / r5)`) -/
def demagSphereExternal (p : V3) (a : ℝ) : Py M3 := do
  let r ← psqrt (p 0 ^ 2 + p 1 ^ 2 + p 2 ^ 2)
  let r5 := r ^ 5
  let r3 := r ^ 3
  let factor := -(a ^ 3 / 3)
  let inv3 ← pdiv 1 r3
  let inv5 ← pdiv 1 r5
  return Matrix.of fun i j =>
    if i = j then factor * (3 * p i ^ 2 * inv5 - inv3) else factor * (3 * p i * p j * inv5)

/-- magnetic.py 481-588 `get_demagnetization_tensor_external` at one point -/
def getDemagnetizationTensorExternal (p : V3) (a b c : ℝ) : Py M3 := do
  let sphere ← isAlmostASphere a b c
  if sphere then demagSphereExternal p a
  else
    let lambda ← calculateLambda p a b c
    let integrals ← getEllipticalIntegrals a b c lambda
    let derivs ← getDerivativesOfEllipticalIntegrals a b c lambda
    let dl ← spatialDerivLambda p a b c lambda
    return Matrix.of fun i j =>
      if i = j then a * b * c / 2 * (dl i * derivs i * p i + integrals i)
      else a * b * c / 2 * (dl i * derivs j * p j)

/-- `np.linalg.solve`. ellipsoids/magnetic.py 290. -/
def solve (A : M3) (y : V3) : Py V3 :=
  if A.det = 0 then .error .LinAlgError else .ok (A⁻¹.mulVec y)

/-- magnetic.py 219-291 `get_magnetisation` (`n_tensor` is always given by the callers) -/
def getMagnetisation (a b c : ℝ) (susceptibility : M3) (h0_field remnant_mag : V3) (n_tensor : M3) :
    Py V3 := do
  checkSemiaxesSorted a b c
  let lhs := 1 + n_tensor * susceptibility
  let rhs := remnant_mag + susceptibility.mulVec h0_field
  solve lhs rhs

/-- magnetic.py 294-326 `cast_susceptibility`. The values held by an `Ellipsoid` are of these kinds. -/
def castSusceptibility : Option Susceptibility → M3
  | none => 0
  | some (.scalar s) => s • (1 : M3)
  | some (.tensor t) => t

/-- magnetic.py 329-348 `cast_remanent_magnetization` -/
def castRemanentMagnetization : Option V3 → V3
  | none => 0
  | some m => m

/-- magnetic.py 155-193: magnetization of an ellipsoid in its local system, with the rotation from
the easting, northing, upward system and the internal demagnetization tensor -/
def magnetizationOne (e : Ellipsoid) (h0_field : V3) : Py (M3 × M3 × V3) := do
  let s := sortedSemiaxes e
  let semiaxes_rotation ← getSemiaxesRotationMatrix e
  let rotation := semiaxes_rotation.transpose * e.rotationMatrix.transpose
  let n_tensor ← getDemagnetizationTensorInternal s.1 s.2.1 s.2.2
  let susceptibility := castSusceptibility e.susceptibility
  let remanent_mag := castRemanentMagnetization e.remanent_mag
  let h0_rotated := rotation.mulVec h0_field
  let remanent_rotated := rotation.mulVec remanent_mag
  let susceptibility := semiaxes_rotation.transpose * susceptibility * semiaxes_rotation
  let magnetization ← getMagnetisation s.1 s.2.1 s.2.2 susceptibility h0_rotated remanent_rotated
    n_tensor
  return (rotation, n_tensor, magnetization)

/-- magnetic.py 195-216: field at one point from the quantities of `magnetizationOne` -/
def magneticAt (mu0 : ℝ) (e : Ellipsoid) (m : M3 × M3 × V3) (p : V3) : Py V3 := do
  let s := sortedSemiaxes e
  let x := m.1.mulVec (p - e.center)
  if isInternal x s.1 s.2.1 s.2.2 then
    return m.1.transpose.mulVec (mu0 • ((-m.2.1).mulVec m.2.2 + m.2.2))
  else
    let n ← getDemagnetizationTensorExternal x s.1 s.2.1 s.2.2
    return m.1.transpose.mulVec (mu0 • (-n).mulVec m.2.2)

/-- magnetic.py 117-216 `_single_ellipsoid_magnetic` -/
def singleEllipsoidMagnetic (mu0 : ℝ) (points : Py (List V3)) (e : Ellipsoid) (h0_field : V3) :
    Py (List V3) := do
  let pts ← points
  let m ← magnetizationOne e h0_field
  pts.mapM (magneticAt mu0 e m)

/-- magnetic.py 92-110: the loop over the ellipsoids -/
def magneticLoop (mu0 : ℝ) (points : Py (List V3)) (h0_field : V3) (es : List Ellipsoid)
    (init : List V3 × ℕ) : Py (List V3 × ℕ) :=
  es.foldlM (fun s e =>
    match e.susceptibility, e.remanent_mag with
    | none, none => .ok (s.1, s.2 + 1)
    | _, _ => do
      let b ← singleEllipsoidMagnetic mu0 points e h0_field
      return (addV s.1 b, s.2)) init

/-- magnetic.py 37-114 `ellipsoid_magnetic`: the three components and the number of warnings. `mu0` is
`scipy.constants.mu_0`. -/
def ellipsoidMagnetic (mu0 : ℝ) (coordinates : NdArray × NdArray × NdArray) (ellipsoids : Bodies)
    (inducing_field : V3) : Py ((NdArray × NdArray × NdArray) × ℕ) := do
  let shape ← npBroadcast coordinates.1 coordinates.2.1 coordinates.2.2
  let easting := coordinates.1.data
  let northing := coordinates.2.1.data
  let upward := coordinates.2.2.data
  let b0_field := inducing_field * fun _ => 1e-9
  let h0_field := b0_field / fun _ => mu0
  let b ← magneticLoop mu0 (vstack easting northing upward) h0_field ellipsoids.toList
    (List.replicate easting.length 0, 0)
  let be ← reshape (b.1.map fun v => 1e9 * v 0) shape
  let bn ← reshape (b.1.map fun v => 1e9 * v 1) shape
  let bu ← reshape (b.1.map fun v => 1e9 * v 2) shape
  return ((be, bn, bu), b.2)

/-! ### Surface -/

/-- `np.linspace(start, stop, n)`. ellipsoids/ellipsoids.py 367-368. -/
def linspace (start stop : ℝ) (n : ℕ) : List ℝ :=
  if n = 1 then [start]
  else (List.range n).map fun i : ℕ => start + (i : ℝ) * ((stop - start) / ((n : ℝ) - 1))

/-- ellipsoids.py 325-391 `get_surface`: rows of points (the three arrays have one row for each latitude
and one column for each longitude) -/
def getSurface (e : Ellipsoid) (lon_size lat_size : ℕ) : List (List V3) :=
  let lon_rad := linspace 0 (2 * Real.pi) lon_size
  let lat_rad := linspace (-Real.pi / 2) (Real.pi / 2) lat_size
  lat_rad.map fun lat => lon_rad.map fun lon =>
    let x := e.a * Real.cos lon * Real.cos lat
    let y := e.b * Real.sin lon * Real.cos lat
    let z := e.c * Real.sin lat
    e.rotationMatrix.mulVec ![x, y, z] + e.center

end

end Verif.Ellipsoids
