import Verif.Tesseroid.Model
import Verif.Forward.Spec
import Mathlib.Analysis.SpecialFunctions.Integrals.Basic
import Mathlib.Geometry.Euclidean.Angle.Unoriented.Basic

/-!
Specification of tesseroids: the body described by the boundaries, documented validity conditions,
partitions, volume, sizes. Independent of the code's loops.
-/

namespace Verif.Tesseroid
open Verif.Distance Verif.Forward

/-- Half-open membership in the box of boundaries. -/
def Tess.Mem (t : Tess) (x y z : ℝ) : Prop :=
  (t.w ≤ x ∧ x < t.e) ∧ (t.s ≤ y ∧ y < t.n) ∧ (t.bottom ≤ z ∧ z < t.top)

open Classical in
/-- Every point of `t` is in exactly one piece and no piece leaves `t`. -/
def IsPartition (pieces : List Tess) (t : Tess) : Prop :=
  ∀ x y z, pieces.countP (fun p => decide (p.Mem x y z)) = if t.Mem x y z then 1 else 0

/-- boundaries in order -/
def Tess.Ordered (t : Tess) : Prop := t.w ≤ t.e ∧ t.s ≤ t.n ∧ t.bottom ≤ t.top

/-- Volume of a tesseroid: the integral of `r² cos φ` over the box. -/
noncomputable def Tess.volume (t : Tess) : ℝ :=
  (∫ r in t.bottom..t.top, r ^ 2) * (∫ φ in radians t.s..radians t.n, Real.cos φ)
    * (radians t.e - radians t.w)

/-- Point of the unit sphere -/
noncomputable def unitPos (lon lat : ℝ) : E3 := sphPos ⟨lon, lat, 1⟩

/-- Longitudinal size: length of the great circle arc between the west and east sides at the
central latitude, on the top sphere. -/
noncomputable def Tess.sizeLon (t : Tess) : ℝ :=
  t.top * InnerProductGeometry.angle (unitPos t.w ((t.s + t.n) / 2)) (unitPos t.e ((t.s + t.n) / 2))

/-- Latitudinal size: length of the arc of meridian on the top sphere. -/
noncomputable def Tess.sizeLat (t : Tess) : ℝ := t.top * (radians t.n - radians t.s)

/-- Radial size -/
noncomputable def Tess.sizeRad (t : Tess) : ℝ := t.top - t.bottom

/-- Distance between a computation point and the centre of the tesseroid. -/
noncomputable def Tess.centreDistance (t : Tess) (q : P3) : ℝ :=
  dist (sphPos q) (sphPos ⟨(t.w + t.e) / 2, (t.s + t.n) / 2, (t.bottom + t.top) / 2⟩)

/-- A valid tesseroid of positive volume that is not a full turn. -/
structure Tess.Proper (t : Tess) : Prop where
  we : t.w < t.e
  width : t.e - t.w < 360
  south : -90 ≤ t.s
  sn : t.s < t.n
  north : t.n ≤ 90
  bottom : 0 ≤ t.bottom
  bt : t.bottom < t.top

/-- Eastern end of the arc that starts at `w` and goes eastwards to `e`, unwrapped so that it is
not below `w`. -/
noncomputable def eastEnd (w e : ℝ) : ℝ := if w ≤ e then e else e + 360 * ⌈(w - e) / 360⌉

/-- `x` is on the arc that goes eastwards from `w` to `e`, modulo complete turns. -/
def OnArc (w e x : ℝ) : Prop := ∃ k : ℤ, w ≤ x + 360 * k ∧ x + 360 * k ≤ eastEnd w e

/-- The body described by the boundaries (closed), longitudes modulo 360 degrees. -/
def Tess.Body (t : Tess) (q : P3) : Prop :=
  OnArc t.w t.e q.x ∧ (t.s ≤ q.y ∧ q.y ≤ t.n) ∧ (t.bottom ≤ q.z ∧ q.z ≤ t.top)

/-- Documented conditions of a valid tesseroid (docstring of `_check_tesseroids`), apart from the
order of the longitudinal boundaries. -/
structure Tess.ValidRange (t : Tess) : Prop where
  lat_s : -90 ≤ t.s ∧ t.s ≤ 90
  lat_n : -90 ≤ t.n ∧ t.n ≤ 90
  sn : t.s ≤ t.n
  radii : 0 ≤ t.bottom ∧ 0 ≤ t.top
  bt : t.bottom ≤ t.top
  lon_w : -180 ≤ t.w ∧ t.w ≤ 360
  lon_e : -180 ≤ t.e ∧ t.e ≤ 360

/-- `r` is the longitude `x` moved to the interval [-180, 180) -/
def IsRep180 (x r : ℝ) : Prop := -180 ≤ r ∧ r < 180 ∧ ∃ k : ℤ, r = x + 360 * k

/-- Documented condition on the longitudinal boundaries: in order, either as given or (when they
are not) after moving them to [-180, 180); not wider than one turn. -/
def Tess.ValidLon (t : Tess) : Prop :=
  (t.w ≤ t.e ∧ t.e - t.w ≤ 360) ∨
    (t.w > t.e ∧ ∃ w' e', IsRep180 t.w w' ∧ IsRep180 t.e e' ∧ w' ≤ e')

/-- `q` is strictly inside of the body: strictly between the boundaries; a body of width 360
surrounds the globe, so that every longitude is inside. Boundaries in order. -/
def Tess.Inside (t : Tess) (q : P3) : Prop :=
  (t.e - t.w = 360 ∨ ∃ k : ℤ, t.w < q.x + 360 * k ∧ q.x + 360 * k < t.e) ∧
    (t.s < q.y ∧ q.y < t.n) ∧ (t.bottom < q.z ∧ q.z < t.top)

/-- Node of the two point Gauss-Legendre rule on `[a, b]` (`σ = ±1`). -/
noncomputable def gaussNode (a b σ : ℝ) : ℝ := (a + b) / 2 + σ * ((b - a) / 2 / Real.sqrt 3)

/-- The eight point masses equivalent to a tesseroid of density `ρ(r)`: position (longitude,
latitude, radius) and mass `ρ r² cos φ ΔrΔφΔλ / 8`. -/
noncomputable def pointMasses (t : Tess) (ρ : ℝ → ℝ) : List (P3 × ℝ) :=
  [(-1 : ℝ), 1].flatMap fun σφ => [(-1 : ℝ), 1].flatMap fun σr => [(-1 : ℝ), 1].map fun σl =>
    let p : P3 := ⟨gaussNode t.w t.e σl, gaussNode t.s t.n σφ, gaussNode t.bottom t.top σr⟩
    (p, ρ p.z * p.z ^ 2 * Real.cos (radians p.y) *
      ((t.top - t.bottom) * (radians t.n - radians t.s) * (radians t.e - radians t.w)) / 8)

/-- Documented fields of `tesseroid_gravity`: kernel (per unit mass, positive upwards) and the
factor that gives the sign and the units (mGal). -/
noncomputable def tessFieldTable (field : String) : Option (SphKernel × ℝ) :=
  if field = "potential" then some (potentialSpherical, 1)
  else if field = "g_z" then some (gravityUSpherical, -10 ^ 5)
  else none

/-- The same longitude, modulo complete turns. -/
def SameLon (a b : ℝ) : Prop := ∃ k : ℤ, a = b + 360 * k

/-- The point `q` moved `α` degrees towards the east. -/
def RotatedPoint (α : ℝ) (q q' : P3) : Prop := SameLon q'.x (q.x + α) ∧ q'.y = q.y ∧ q'.z = q.z

/-- The body `t` moved `α` degrees towards the east: the boundaries move, modulo complete turns, and
the width stays. -/
structure Rotated (α : ℝ) (t t' : Tess) : Prop where
  west : SameLon t'.w (t.w + α)
  east : SameLon t'.e (t.e + α)
  width : eastEnd t'.w t'.e - t'.w = eastEnd t.w t.e - t.w
  same : t'.s = t.s ∧ t'.n = t.n ∧ t'.bottom = t.bottom ∧ t'.top = t.top

/-- The point `q` mirrored in the meridian of longitude `α / 2`. -/
def MirroredPoint (α : ℝ) (q q' : P3) : Prop := SameLon q'.x (α - q.x) ∧ q'.y = q.y ∧ q'.z = q.z

/-- The body `t` mirrored in the meridian of longitude `α / 2`: west and east change places. -/
structure Mirrored (α : ℝ) (t t' : Tess) : Prop where
  west : SameLon t'.w (α - t.e)
  east : SameLon t'.e (α - t.w)
  width : eastEnd t'.w t'.e - t'.w = eastEnd t.w t.e - t.w
  same : t'.s = t.s ∧ t'.n = t.n ∧ t'.bottom = t.bottom ∧ t'.top = t.top

end Verif.Tesseroid
