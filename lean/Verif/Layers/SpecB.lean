import Verif.Layers.Spec
import Verif.Ellipsoids.SpecC

/-! Specification: the gravity of terrain, and what it means that a layer of prisms has a field. -/

namespace Verif.Layers
open Verif.Forward (PrismKernels Junk arrays)
open Verif.Ellipsoids (V3 newtonField gravityResult)
open Verif.Distance Verif.Engine

/-- Terrain: heights of its surface and of its reference and density, at each horizontal position. -/
structure Terrain where
  surface : ℝ → ℝ → ℝ
  reference : ℝ → ℝ → ℝ
  density : ℝ → ℝ → ℝ

open Classical in
/-- Density at a point of space of the terrain between its surface and its reference, inside of the region. -/
noncomputable def Terrain.densityAt (T : Terrain) (west east south north : ℝ) (x : V3) : ℝ :=
  if (west ≤ x 0 ∧ x 0 ≤ east) ∧ (south ≤ x 1 ∧ x 1 ≤ north) ∧
      min (T.surface (x 0) (x 1)) (T.reference (x 0) (x 1)) ≤ x 2 ∧
      x 2 ≤ max (T.surface (x 0) (x 1)) (T.reference (x 0) (x 1)) then T.density (x 0) (x 1) else 0

/-- `layer.prism_layer.gravity` returns this field (m/s²), in mGal with the last component downward. `total` is the
number of elements of the layer. -/
def ReturnsLayer (K : PrismKernels) (layer : Layer) (total : ℕ) (name : String) (field : V3 → V3) : Prop :=
  ∀ (junk : Junk) (mode : Mode) (shape : List ℕ) (pts : List P3), shape.prod = pts.length →
    mode.Full pts.length (2 * total) →
    layerGravity junk mode K layer (arrays shape pts) "g_e" name none = .ok (gravityResult shape pts field).1 ∧
    layerGravity junk mode K layer (arrays shape pts) "g_n" name none = .ok (gravityResult shape pts field).2.1 ∧
    layerGravity junk mode K layer (arrays shape pts) "g_z" name none = .ok (gravityResult shape pts field).2.2

/-- Bound (m/s²) for the error of a layer: `area` of the region (m²), `D` and `H` the largest density and thickness of
the terrain, `δs`, `δr` and `δd` how much surface, reference and density change inside of a cell, for a length `R`. -/
noncomputable def layerError (area D H δs δr δd R : ℝ) : ℝ :=
  6.6743e-11 * (D * (24 * R + 2 * δs * area / R ^ 2) + D * (24 * R + 2 * δr * area / R ^ 2) +
    δd * (24 * R + H * area / R ^ 2))

/-- The arrays of the values of the terrain at the nodes. -/
noncomputable def sampled (f : ℝ → ℝ → ℝ) (e0 se n0 sn : ℝ) (nn ne : ℕ) : List (Option ℝ) :=
  grid nn ne fun k j => some (f (e0 + j * se) (n0 + k * sn))

end Verif.Layers
