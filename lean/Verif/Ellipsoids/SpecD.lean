import Verif.Ellipsoids.SpecC
import Verif.Forward.PrismBody

/-! Specification: models of ellipsoids made of prisms. -/

namespace Verif.Ellipsoids
open MeasureTheory
open Verif.Forward (Prism PrismKernels prismGravity Junk arrays)
open Verif.Distance Verif.Engine

/-- Density of a list of prisms at a point of space. -/
noncomputable def prismDensity (srcs : List (Prism × ℝ)) (x : V3) : ℝ := Verif.Forward.densityAt srcs (x 0, x 1, x 2)

/-- The prisms are a model of the bodies with samples at most `η` (m) away: the density of the prisms at almost every
point is that of the bodies at some point whose distance is at most `η`. -/
def SampledBy (η : ℝ) (es : List Ellipsoid) (srcs : List (Prism × ℝ)) : Prop :=
  ∀ᵐ x : V3, ∃ y : V3, magnitude (x - y) ≤ η ∧ prismDensity srcs x = densityOf es y

/-- The smallest semiaxis. -/
noncomputable def Ellipsoid.thin (e : Ellipsoid) : ℝ := min e.a (min e.b e.c)

/-- Bound (m/s²) for the error of the attraction of a model of the bodies with samples at most `η` away, for a length
`R`. -/
noncomputable def samplingError (es : List Ellipsoid) (η R : ℝ) : ℝ :=
  6.6743e-11 * (es.map fun e => |e.density.getD 0| * (24 * R +
    4 / 3 * Real.pi * (e.a * e.b * e.c) * (6 * (η / e.thin) + 2 * (η / e.thin) ^ 3) / R ^ 2)).sum

/-- `prism_gravity` for these prisms returns this field (m/s²), in mGal with the last component downward. -/
def ReturnsPrisms (K : PrismKernels) (srcs : List (Prism × ℝ)) (field : V3 → V3) : Prop :=
  ∀ (junk : Junk) (mode : Mode) (shape : List ℕ) (pts : List P3) (dis : Bool), pts.length = shape.prod →
    mode.Full pts.length (2 * srcs.length) →
    (prismGravity junk mode K (arrays shape pts) (srcs.map (·.1)) (srcs.map (·.2)) "g_e" dis).map (·.2) =
        .ok (gravityResult shape pts field).1 ∧
      (prismGravity junk mode K (arrays shape pts) (srcs.map (·.1)) (srcs.map (·.2)) "g_n" dis).map (·.2) =
        .ok (gravityResult shape pts field).2.1 ∧
      (prismGravity junk mode K (arrays shape pts) (srcs.map (·.1)) (srcs.map (·.2)) "g_z" dis).map (·.2) =
        .ok (gravityResult shape pts field).2.2

/-- A cell of a grid of cubes of side `w`. -/
noncomputable def voxel (w : ℝ) (c : ℤ × ℤ × ℤ) : Prism :=
  ⟨c.1 * w, (c.1 + 1) * w, c.2.1 * w, (c.2.1 + 1) * w, c.2.2 * w, (c.2.2 + 1) * w⟩

/-- The center of a cell. -/
noncomputable def voxelCenter (w : ℝ) (c : ℤ × ℤ × ℤ) : V3 :=
  ![(c.1 + 1 / 2) * w, (c.2.1 + 1 / 2) * w, (c.2.2 + 1 / 2) * w]

/-- The model of the bodies with cubes of side `w`, `2 n` along each axis: each has the density of the bodies at its
center. -/
noncomputable def voxels (es : List Ellipsoid) (w : ℝ) (n : ℕ) : List (Prism × ℝ) :=
  (Finset.Ico (-n : ℤ) n ×ˢ Finset.Ico (-n : ℤ) n ×ˢ Finset.Ico (-n : ℤ) n).toList.map fun c =>
    (voxel w c, densityOf es (voxelCenter w c))

end Verif.Ellipsoids
