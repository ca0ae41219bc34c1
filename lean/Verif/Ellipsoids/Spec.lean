import Verif.Ellipsoids.Model
import Verif.Forward.Spec
import Mathlib.MeasureTheory.Integral.IntegralEqImproper

/-!
Specification of the ellipsoids, independent of the formulas of the code: bodies as sets of points,
confocal ellipsoids, the integrals of the confocal family, almost equal semiaxes.
-/

namespace Verif.Ellipsoids
open Verif.Forward (NdArray)

noncomputable section

/-- Unit vectors of the easting, northing and upward axes. -/
def east : V3 := ![1, 0, 0]
def north : V3 := ![0, 1, 0]
def up : V3 := ![0, 0, 1]

/-- A proper rotation: orthogonal with determinant one. -/
def ProperRotation (R : M3) : Prop := R * R.transpose = 1 ∧ R.transpose * R = 1 ∧ R.det = 1

/-- Left-hand side of the equation of an ellipsoid with semiaxes along the axes. -/
def quadric (a b c : ℝ) (v : V3) : ℝ := v 0 ^ 2 / a ^ 2 + v 1 ^ 2 / b ^ 2 + v 2 ^ 2 / c ^ 2

/-- The documented constraint on the semiaxes. -/
def Ellipsoid.Valid (e : Ellipsoid) : Prop := 0 < e.a ∧ 0 < e.b ∧ 0 < e.c

/-- The point `p` of space is inside the body: it is the image, by the rotation of the body and the
translation to its center, of a point inside the ellipsoid with semiaxes `a`, `b` and `c` along the
easting, northing and upward axes. -/
def Ellipsoid.Inside (e : Ellipsoid) (p : V3) : Prop :=
  ∃ v : V3, p = e.rotationMatrix.mulVec v + e.center ∧ quadric e.a e.b e.c v < 1

/-- The point is on the surface of the body. -/
def Ellipsoid.OnSurface (e : Ellipsoid) (p : V3) : Prop :=
  ∃ v : V3, p = e.rotationMatrix.mulVec v + e.center ∧ quadric e.a e.b e.c v = 1

/-- The point is on the ellipsoid confocal with the one of semiaxes `a`, `b`, `c` whose squared
semiaxes are larger by `l`. -/
def OnConfocal (a b c : ℝ) (v : V3) (l : ℝ) : Prop :=
  v 0 ^ 2 / (a ^ 2 + l) + v 1 ^ 2 / (b ^ 2 + l) + v 2 ^ 2 / (c ^ 2 + l) = 1

/-- `R(u)` of the documentation -/
def rootProduct (a b c u : ℝ) : ℝ := √((a ^ 2 + u) * (b ^ 2 + u) * (c ^ 2 + u))

/-- The documented elliptic integrals, one for each semiaxis `e`:
the integral of `du / ((e² + u) R(u))` from `l` to infinity. -/
def ellipticIntegral (a b c e l : ℝ) : ℝ :=
  ∫ u in Set.Ioi l, 1 / ((e ^ 2 + u) * rootProduct a b c u)

/-- Documented meaning of almost equal semiaxes: the relative difference is under 1e-5. -/
def Close (x y : ℝ) : Prop := |x - y| < 1e-5 * max x y

/-- Semiaxes that are almost equal are equal: the ellipsoid is not approximated. -/
def Resolved (a b c : ℝ) : Prop := (Close a b → a = b) ∧ (Close b c → b = c)

open Classical in
/-- The semiaxes of the ellipsoid by which the elliptic integrals are computed: one whose two smaller
semiaxes are almost equal is taken as prolate, one whose two larger semiaxes are almost equal as oblate
(with the middle semiaxis in both cases). -/
def effective (a b c : ℝ) : V3 :=
  if Close b c then ![a, b, b] else if Close a b then ![b, b, c] else ![a, b, c]

/-- The three semiaxes as a vector. -/
def Ellipsoid.axes (e : Ellipsoid) : V3 := ![e.a, e.b, e.c]

/-- Parameter of the smallest ellipsoid that contains the point, among the ellipsoid with semiaxes `s`
and the larger ones confocal with it: zero inside of the ellipsoid. -/
def confocalParameter (s v : V3) : ℝ := sInf {l | 0 ≤ l ∧ ∑ i, v i ^ 2 / (s i ^ 2 + l) ≤ 1}

/-- Attraction (m/s², pointing to the mass) of a homogeneous ellipsoid with semiaxes `s` along the axes
(Dirichlet's formula). -/
def dirichletAttraction (s : V3) (density : ℝ) (v : V3) : V3 := fun i =>
  -2 * Real.pi * 6.6743e-11 * density * (s 0 * s 1 * s 2) * v i *
    ellipticIntegral (s 0) (s 1) (s 2) (s i) (confocalParameter s v)

/-- Attraction of a body at a point of space. -/
def Ellipsoid.attraction (e : Ellipsoid) (density : ℝ) (p : V3) : V3 :=
  e.rotationMatrix.mulVec
    (dirichletAttraction e.axes density (e.rotationMatrix.transpose.mulVec (p - e.center)))

/-- Semiaxes that are almost equal are equal, in whatever order they are given. -/
def Ellipsoid.Exact (e : Ellipsoid) : Prop := ∀ i j, Close (e.axes i) (e.axes j) → e.axes i = e.axes j

/-- A point of the coordinate arrays as a vector. -/
def vec (q : Verif.Distance.P3) : V3 := ![q.x, q.y, q.z]

/-- Attraction of a body, zero when it has no density. -/
def Ellipsoid.gravity (e : Ellipsoid) (p : V3) : V3 :=
  match e.density with
  | none => 0
  | some density => e.attraction density p

/-- The documented result: easting, northing and downward components in mGal, with the shape of the
coordinates. -/
def gravityResult (shape : List ℕ) (pts : List Verif.Distance.P3) (field : V3 → V3) :
    NdArray × NdArray × NdArray :=
  (⟨shape, pts.map fun q => field (vec q) 0 * 10 ^ 5⟩, ⟨shape, pts.map fun q => field (vec q) 1 * 10 ^ 5⟩,
    ⟨shape, pts.map fun q => -field (vec q) 2 * 10 ^ 5⟩)

/-- Elementwise sum of two results. -/
def addResults (x y : NdArray × NdArray × NdArray) : NdArray × NdArray × NdArray :=
  let add (a b : NdArray) : NdArray := ⟨a.shape, List.zipWith (· + ·) a.data b.data⟩
  (add x.1 y.1, add x.2.1 y.2.1, add x.2.2 y.2.2)

/-- Result multiplied by a number. -/
def scaleResult (k : ℝ) (x : NdArray × NdArray × NdArray) : NdArray × NdArray × NdArray :=
  let mul (a : NdArray) : NdArray := ⟨a.shape, a.data.map (k * ·)⟩
  (mul x.1, mul x.2.1, mul x.2.2)

/-! ### Magnetics -/

/-- Demagnetization tensor inside of an ellipsoid with semiaxes `s` along the axes. -/
def demagInside (s : V3) : M3 := Matrix.diagonal fun i =>
  s 0 * s 1 * s 2 / 2 * ellipticIntegral (s 0) (s 1) (s 2) (s i) 0

/-- Gradient of the confocal parameter outside of the ellipsoid. -/
def confocalGradient (s v : V3) : V3 := fun i =>
  2 * v i / (s i ^ 2 + confocalParameter s v) /
    ∑ j, (v j / (s j ^ 2 + confocalParameter s v)) ^ 2

/-- Demagnetization tensor at a point outside: the derivatives of the components of
`s 0 s 1 s 2 / 2 v i A i (λ(v))`, where `A i` is the integral of the i-th semiaxis (that it is this
derivative is a theorem, see C78). -/
def demagOutside (s v : V3) : M3 := fun i j =>
  s 0 * s 1 * s 2 / 2 * (confocalGradient s v i *
    (-(1 / ((s j ^ 2 + confocalParameter s v) *
      rootProduct (s 0) (s 1) (s 2) (confocalParameter s v)))) * v j +
    if i = j then ellipticIntegral (s 0) (s 1) (s 2) (s i) (confocalParameter s v) else 0)

/-- Coordinates of a point in the frame of the body. -/
def Ellipsoid.local (e : Ellipsoid) (p : V3) : V3 := e.rotationMatrix.transpose.mulVec (p - e.center)

/-- A tensor given in the frame of the body, in the frame of easting, northing and upward. -/
def Ellipsoid.toSpace (e : Ellipsoid) (A : M3) : M3 :=
  e.rotationMatrix * A * e.rotationMatrix.transpose

/-- Susceptibility tensor in the frame of the body. -/
def Ellipsoid.chi (e : Ellipsoid) : M3 :=
  match e.susceptibility with
  | none => 0
  | some (.scalar x) => x • (1 : M3)
  | some (.tensor t) => t

/-- Susceptibilities of physical bodies: a number over -1, or a tensor whose quadratic form is not
negative (diamagnetic bodies are close to zero, perfect diamagnets have -1). -/
def Ellipsoid.Passive (e : Ellipsoid) : Prop :=
  match e.susceptibility with
  | none => True
  | some (.scalar x) => -1 < x
  | some (.tensor t) => ∀ v : V3, 0 ≤ dotProduct v (t.mulVec v)

/-- Remanent magnetization, in the frame of easting, northing and upward. -/
def Ellipsoid.remanence (e : Ellipsoid) : V3 := e.remanent_mag.getD 0

/-- `M = χ (H0 - N M) + M_r`: the induced magnetization is the susceptibility times the field inside
of the body. -/
def SelfConsistent (chi N : M3) (H0 Mr M : V3) : Prop := M = chi.mulVec (H0 - N.mulVec M) + Mr

open Classical in
/-- Magnetic field (T) at a point of a body with magnetization `M`: `μ0 (M - N M)` inside, `-μ0 N M`
outside, with the demagnetization tensor `N` of the point. -/
def Ellipsoid.magneticField (mu0 : ℝ) (e : Ellipsoid) (M p : V3) : V3 :=
  if e.Inside p then mu0 • (M - (e.toSpace (demagInside e.axes)).mulVec M)
  else -(mu0 • (e.toSpace (demagOutside e.axes (e.local p))).mulVec M)

/-- The documented result: easting, northing and upward components in nT. -/
def magneticResult (shape : List ℕ) (pts : List Verif.Distance.P3) (field : V3 → V3) :
    NdArray × NdArray × NdArray :=
  (⟨shape, pts.map fun q => 10 ^ 9 * field (vec q) 0⟩, ⟨shape, pts.map fun q => 10 ^ 9 * field (vec q) 1⟩,
    ⟨shape, pts.map fun q => 10 ^ 9 * field (vec q) 2⟩)

end

end Verif.Ellipsoids
