import Verif.Ellipsoids.Spec

/-! Lengths of vectors, to state how far results are from each other. -/

namespace Verif.Ellipsoids

/-- Length of a vector. -/
noncomputable def magnitude (v : V3) : ℝ := √(∑ i, v i ^ 2)

/-- No susceptibility, or a number that is not negative. -/
def Ellipsoid.Isotropic (e : Ellipsoid) : Prop :=
  e.susceptibility = none ∨ ∃ x : ℝ, 0 ≤ x ∧ e.susceptibility = some (.scalar x)

end Verif.Ellipsoids
