import Verif.Distance.Model
import Mathlib.Analysis.InnerProductSpace.PiL2
import Mathlib.Tactic.LinearCombination

/-!
C10: `distance` is the Euclidean distance in every coordinate system.

Specification: the position in space of a point given in each coordinate system, as an element of
Mathlib's Euclidean space `ℝ³`, and Mathlib's `dist` on it.
-/

namespace Verif.Distance
open Real

/-- Three dimensional Euclidean space. -/
abbrev E3 := EuclideanSpace ℝ (Fin 3)

/-- Position of a point given in Cartesian coordinates. -/
noncomputable def cartPos (p : P3) : E3 := !₂[p.x, p.y, p.z]

/-- Position of a point given by (longitude, latitude, radius), angles in degrees. -/
noncomputable def sphPos (p : P3) : E3 :=
  !₂[p.z * cos (radians p.y) * cos (radians p.x),
     p.z * cos (radians p.y) * sin (radians p.x),
     p.z * sin (radians p.y)]

/-- Position of a point given by geodetic (longitude, latitude, height) on an ellipsoid. -/
noncomputable def geoPos (ell : BouleEllipsoid) (p : P3) : E3 :=
  let N := ell.primeVerticalRadius (sin (radians p.y))
  !₂[(N + p.z) * cos (radians p.y) * cos (radians p.x),
     (N + p.z) * cos (radians p.y) * sin (radians p.x),
     (N * (1 - ell.firstEccentricity ^ 2) + p.z) * sin (radians p.y)]

theorem dist3 (a b c a' b' c' : ℝ) :
    dist (!₂[a, b, c] : E3) !₂[a', b', c'] =
      sqrt ((a - a') ^ 2 + (b - b') ^ 2 + (c - c') ^ 2) := by
  rw [EuclideanSpace.dist_eq]
  simp [Fin.sum_univ_three, Real.dist_eq, sq_abs]

theorem C10_distance_cartesian (p q : P3) :
    distanceCartesian p q = dist (cartPos p) (cartPos q) := by
  unfold cartPos; rw [dist3]; rfl

theorem C10_distance_spherical (p q : P3) :
    distanceSpherical p q = dist (sphPos p) (sphPos q) := by
  unfold sphPos; rw [dist3]
  unfold distanceSpherical distanceSphericalCore
  simp only
  congr 1
  rw [cos_sub]
  generalize radians p.x = a
  generalize radians p.y = b
  generalize radians q.x = c
  generalize radians q.y = d
  have h1 := sin_sq_add_cos_sq a
  have h2 := sin_sq_add_cos_sq b
  have h3 := sin_sq_add_cos_sq c
  have h4 := sin_sq_add_cos_sq d
  linear_combination (-(p.z ^ 2 * cos b ^ 2)) * h1 - p.z ^ 2 * h2
    - (q.z ^ 2 * cos d ^ 2) * h3 - q.z ^ 2 * h4

theorem C10_distance_geodetic (ell : BouleEllipsoid) (p q : P3) :
    distanceGeodetic p q ell = dist (geoPos ell p) (geoPos ell q) := by
  unfold geoPos; simp only; rw [dist3]
  unfold distanceGeodetic geodeticDistanceCore
  simp only
  congr 1
  rw [cos_sub]
  generalize radians p.x = a
  generalize radians p.y = b
  generalize radians q.x = c
  generalize radians q.y = d
  generalize ell.primeVerticalRadius (sin b) = N
  generalize ell.primeVerticalRadius (sin d) = M
  generalize ell.firstEccentricity ^ 2 = e
  have h1 := sin_sq_add_cos_sq a
  have h3 := sin_sq_add_cos_sq c
  linear_combination (-((N + p.z) ^ 2 * cos b ^ 2)) * h1 - ((M + q.z) ^ 2 * cos d ^ 2) * h3

/-- Position of a point in any of the three coordinate systems. -/
noncomputable def pos (system : String) (ell : BouleEllipsoid) (p : P3) : E3 :=
  if system = "cartesian" then cartPos p
  else if system = "spherical" then sphPos p
  else geoPos ell p

/-- C10: for every coordinate system name, `distance` raises ValueError on an unknown name and
otherwise returns the Euclidean distance between the two points in space. -/
theorem C10_distance (system : String) (ell : BouleEllipsoid) (p q : P3) :
    distance p q system (some ell) =
      if system = "cartesian" ∨ system = "spherical" ∨ system = "geodetic" then
        .ok (dist (pos system ell p) (pos system ell q))
      else .error .ValueError := by
  unfold distance checkCoordinateSystem pos
  by_cases h1 : system = "cartesian"
  · subst h1; simp [C10_distance_cartesian]
  by_cases h2 : system = "spherical"
  · subst h2; simp [C10_distance_spherical]
  by_cases h3 : system = "geodetic"
  · subst h3; simp [C10_distance_geodetic]
  simp [h1, h2, h3]

/-- C10: consequences a user relies on: symmetry, non negativity, triangle inequality. -/
theorem C10_metric (system : String) (ell : BouleEllipsoid) (p q r : P3) (a b c : ℝ)
    (hpq : distance p q system (some ell) = .ok a) (hqr : distance q r system (some ell) = .ok b)
    (hpr : distance p r system (some ell) = .ok c) :
    distance q p system (some ell) = .ok a ∧ 0 ≤ a ∧ c ≤ a + b ∧
      (a = 0 ↔ pos system ell p = pos system ell q) := by
  rw [C10_distance] at hpq hqr hpr ⊢
  by_cases h : system = "cartesian" ∨ system = "spherical" ∨ system = "geodetic"
  · simp only [h, if_true, Except.ok.injEq] at hpq hqr hpr ⊢
    subst hpq hqr hpr
    exact ⟨dist_comm _ _, dist_nonneg, dist_triangle _ _ _, dist_eq_zero⟩
  · simp [h] at hpq

/-- C10: longitudes are only meaningful modulo whole turns. -/
theorem C10_distance_longitude_periodic (p q : P3) (k : ℤ) :
    distanceSpherical { p with x := p.x + 360 * k } q = distanceSpherical p q := by
  rw [C10_distance_spherical, C10_distance_spherical]
  congr 1
  unfold sphPos
  have : radians (p.x + 360 * k) = radians p.x + k * (2 * π) := by unfold radians; ring
  simp [this, cos_add_int_mul_two_pi, sin_add_int_mul_two_pi]

/-- non-vacuity: a concrete pair of points with a known distance -/
example : distance ⟨0, 0, 0⟩ ⟨3, 4, 0⟩ "cartesian" none = .ok 5 := by
  unfold distance checkCoordinateSystem distanceCartesian
  have : √((3:ℝ) ^ 2 + 4 ^ 2) = 5 := by
    rw [show (3:ℝ) ^ 2 + 4 ^ 2 = 5 ^ 2 by norm_num]
    exact sqrt_sq (by norm_num)
  simp [this]

end Verif.Distance
