import Verif.Ellipsoids.SpecB
import Mathlib.MeasureTheory.Constructions.BorelSpace.Basic
import Mathlib.MeasureTheory.Measure.Haar.OfBasis

/-! Specification of the gravity of bodies by Newton's law, without any formula for ellipsoids. -/

namespace Verif.Ellipsoids

/-- Newton's law: component `i` of the attraction (m/s²) at the point `p` of a unit of volume at the point `x`,
where the density is `ρ`. -/
noncomputable def newtonElement (ρ : V3 → ℝ) (p : V3) (i : Fin 3) (x : V3) : ℝ :=
  6.6743e-11 * ρ x * ((x i - p i) / magnitude (x - p) ^ 3)

/-- Attraction (m/s²) at the point `p` of matter with density `ρ`: the integral of that of its elements. -/
noncomputable def newtonField (ρ : V3 → ℝ) (p : V3) : V3 := fun i => ∫ x, newtonElement ρ p i x

open Classical in
/-- Density of a body at a point: that of the body inside of it, zero outside and without a density. -/
noncomputable def Ellipsoid.densityAt (e : Ellipsoid) (x : V3) : ℝ :=
  if e.Inside x then e.density.getD 0 else 0

/-- Density of a list of bodies at a point: the sum of those of the bodies (they may overlap). -/
noncomputable def densityOf (es : List Ellipsoid) (x : V3) : ℝ := (es.map fun e => e.densityAt x).sum

/-! ### Magnetics -/

/-- Magnetic scalar potential (A) at the point `p` of a unit of volume at the point `x`, a dipole with moment `M x`. -/
noncomputable def potentialElement (M : V3 → V3) (p x : V3) : ℝ :=
  dotProduct (M x) (p - x) / (4 * Real.pi * magnitude (p - x) ^ 3)

/-- Magnetic scalar potential (A) of a distribution of dipoles with the moment `M` by unit of volume. -/
noncomputable def magneticPotential (M : V3 → V3) (p : V3) : ℝ := ∫ x, potentialElement M p x

/-- Component `i` of the magnetic field (T) at the point `p` of a unit of volume at the point `x`, a dipole with
moment `M x`. -/
noncomputable def dipoleElement (mu0 : ℝ) (M : V3 → V3) (p : V3) (i : Fin 3) (x : V3) : ℝ :=
  mu0 / (4 * Real.pi) * (3 * dotProduct (M x) (p - x) * (p i - x i) / magnitude (p - x) ^ 5 -
    M x i / magnitude (p - x) ^ 3)

/-- Magnetic field (T) at the point `p` of a distribution of dipoles. -/
noncomputable def dipolesField (mu0 : ℝ) (M : V3 → V3) (p : V3) : V3 := fun i => ∫ x, dipoleElement mu0 M p i x

open Classical in
/-- Magnetization at the point `x` of bodies with the magnetizations `M`: the sum of those of the bodies that contain
the point. -/
noncomputable def magnetizationOf (es : List Ellipsoid) (M : Ellipsoid → V3) (x : V3) : V3 :=
  (es.map fun e => if e.Inside x then M e else 0).sum

/-- `g` is the gradient of `f` at `p`. -/
def HasGradient (f : V3 → ℝ) (g p : V3) : Prop :=
  ∃ L : V3 →L[ℝ] ℝ, HasFDerivAt f L p ∧ ∀ v, L v = dotProduct g v

end Verif.Ellipsoids
