import Verif.Ellipsoids.SpecD
import Verif.Forward.PropsE

/-! Specification: models of magnetized ellipsoids made of prisms. -/

namespace Verif.Ellipsoids
open MeasureTheory
open Verif.Forward (Prism MagKernels prismMagnetic Junk arrays coords)
open Verif.Distance Verif.Engine

open Classical in
/-- Magnetization of a list of prisms at a point of space: the sum of those of the prisms that contain the point. -/
noncomputable def prismMagnetization (srcs : List (Prism × P3)) (x : V3) : V3 :=
  (srcs.map fun s => if (x 0, x 1, x 2) ∈ s.1.body then vec s.2 else 0).sum

/-- The prisms are a model of the magnetization `M` with samples at most `η` (m) away: each component of the
magnetization of the prisms at almost every point is that of `M` at some point whose distance is at most `η`. -/
def MagSampledBy (η : ℝ) (M : V3 → V3) (srcs : List (Prism × P3)) : Prop :=
  ∀ j, ∀ᵐ x : V3, ∃ y : V3, magnitude (x - y) ≤ η ∧ prismMagnetization srcs x j = M y j

/-- `prism_magnetic` for these prisms returns this field (T), in nT, at points outside of the prisms. -/
def ReturnsPrismsMag (K : MagKernels Prism) (srcs : List (Prism × P3)) (field : V3 → V3) : Prop :=
  ∀ (junk : Junk) (mode : Mode) (shape : List ℕ) (pts : List P3) (dis : Bool), pts.length = shape.prod →
    mode.Full pts.length (6 * srcs.length) → (∀ q ∈ pts, ∀ s ∈ srcs, coords q ∉ s.1.body) →
    prismMagnetic junk mode K (arrays shape pts) (srcs.map (·.1))
      [(srcs.map (·.2)).map (·.x), (srcs.map (·.2)).map (·.y), (srcs.map (·.2)).map (·.z)] "b" dis =
    .ok (.vector (magneticResult shape pts field).1 (magneticResult shape pts field).2.1
      (magneticResult shape pts field).2.2)

/-- Bound (T) for the error of the field of a model of bodies with magnetizations `M`, with samples at most `η` away, at
distances not less than `r`. -/
noncomputable def magSamplingError (mu0 : ℝ) (es : List Ellipsoid) (M : Ellipsoid → V3) (η r : ℝ) : ℝ :=
  |mu0| / (Real.pi * r ^ 3) * (es.map fun e => (|M e 0| + |M e 1| + |M e 2|) *
    (4 / 3 * Real.pi * (e.a * e.b * e.c) * (6 * (η / e.thin) + 2 * (η / e.thin) ^ 3))).sum

/-- The point is not nearer than `r` to any point of the bodies. -/
def Away (r : ℝ) (es : List Ellipsoid) (p : V3) : Prop :=
  ∀ e ∈ es, ∀ x, e.Inside x ∨ e.OnSurface x → r ≤ magnitude (x - p)

/-- The point is not nearer than `r` to any point of the prisms. -/
def AwayPrisms (r : ℝ) (srcs : List (Prism × P3)) (p : V3) : Prop :=
  ∀ s ∈ srcs, ∀ x : V3, (x 0, x 1, x 2) ∈ s.1.body → r ≤ magnitude (x - p)

open Classical in
/-- The model of bodies with magnetizations `M` with cubes of side `w`, `2 n` along each axis: each has the magnetization
of the bodies at its center; those without magnetization are left out. -/
noncomputable def magVoxels (es : List Ellipsoid) (M : Ellipsoid → V3) (w : ℝ) (n : ℕ) : List (Prism × P3) :=
  ((Finset.Ico (-n : ℤ) n ×ˢ Finset.Ico (-n : ℤ) n ×ˢ Finset.Ico (-n : ℤ) n).toList.map fun c =>
    (voxel w c, (⟨magnetizationOf es M (voxelCenter w c) 0, magnetizationOf es M (voxelCenter w c) 1,
      magnetizationOf es M (voxelCenter w c) 2⟩ : P3))).filter fun s => s.2 ≠ ⟨0, 0, 0⟩

end Verif.Ellipsoids
