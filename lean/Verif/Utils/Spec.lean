import Verif.Utils.Model

/-! Specification vocabulary for C40-C43 and C72. -/

namespace Verif.Utils
open Real

/-- Euclidean norm and dot product of (east, north, up) vectors. -/
noncomputable def norm3 (v : ℝ × ℝ × ℝ) : ℝ := sqrt (v.1 ^ 2 + v.2.1 ^ 2 + v.2.2 ^ 2)
def dot3 (v w : ℝ × ℝ × ℝ) : ℝ := v.1 * w.1 + v.2.1 * w.2.1 + v.2.2 * w.2.2

/-- Attraction in mGal of an infinite slab of thickness `t` (m) and density `rho` (kg/m³), with
Newton's constant 6.6743e-11. -/
noncomputable def slab (rho t : ℝ) : ℝ := 2 * π * (66743 / 10 ^ 15) * rho * t * 10 ^ 5

/-- What the correction must be at a point of height `h`: the slab of crust above the ellipsoid on
land; at sea the slab of thickness |h| with the density contrast of water and crust. -/
noncomputable def bouguerSpec (rho_c rho_w h : ℝ) : ℝ :=
  if 0 ≤ h then slab rho_c h else slab (rho_w - rho_c) |h|

/-- Mass per unit area of a column from the top down to the depth `D` (below the Moho): layers on
top of the basement, crust between the basement height `h` and the Moho depth `M`, mantle between
the Moho and `D`. -/
def columnMass (layers : List (ℝ × ℝ)) (rho_c rho_m h M D : ℝ) : ℝ :=
  (layers.map fun l => l.1 * l.2).sum + rho_c * (h + M) + rho_m * (D - M)

/-- The eight corners of a prism in the order of the VTK hexahedron: the bottom face
counter-clockwise seen from above, starting at the south-west corner, then the top face. -/
def corners {α : Type} (w e s n b t : α) : List (List α) :=
  [[w, s, b], [e, s, b], [e, n, b], [w, n, b], [w, s, t], [e, s, t], [e, n, t], [w, n, t]]

end Verif.Utils
