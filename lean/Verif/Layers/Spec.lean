import Verif.Layers.Model
import Verif.Utils.Spec
import Verif.Forward.PropsB

/-! Specification vocabulary for the layers (C19-C23 and the layer part of C72). -/

namespace Verif.Layers
open Verif.Forward

/-- Top of an element: the higher of surface and reference; where one of them is NaN, the surface. -/
noncomputable def topSpec : Option ℝ → Option ℝ → Option ℝ
  | some s, some r => some (max s r)
  | s, _ => s

/-- Bottom of an element: the lower of surface and reference; where one of them is NaN, the
reference. -/
noncomputable def bottomSpec : Option ℝ → Option ℝ → Option ℝ
  | some s, some r => some (min s r)
  | _, r => r

/-- The elements that a numpy array of integers can hold. -/
def IntVal (x : Option ℝ) : Prop := ∀ v ∈ x, ∃ z : ℤ, v = z

/-- Element of the reference paired with element `i` of the layer (scalars are broadcast). -/
def refAt (r : Arr) (i : ℕ) : Option (Option ℝ) := if r.shape = [] then r.data.head? else r.data[i]?

/-- Index pairs (northing, easting) in C order. -/
def cells (nn ne : ℕ) : List (ℕ × ℕ) :=
  (List.range nn).flatMap fun k => (List.range ne).map fun j => (k, j)

/-- The flat 2d array of a function of the index pair. -/
def grid {α : Type} (nn ne : ℕ) (f : ℕ → ℕ → α) : List α := (cells nn ne).map fun p => f p.1 p.2

/-- A regular axis: first coordinate, spacing (negative if descending), number of nodes. -/
noncomputable def axis (c0 s : ℝ) (n : ℕ) : List ℝ := (List.range n).map fun (j : ℕ) => c0 + j * s

/-- Half-open horizontal membership in an element and in a region (west, east, south, north). -/
def Row.Has (r : Row) (x y : ℝ) : Prop := (r.west ≤ x ∧ x < r.east) ∧ (r.south ≤ y ∧ y < r.north)
def InRegion (b : ℝ × ℝ × ℝ × ℝ) (x y : ℝ) : Prop := (b.1 ≤ x ∧ x < b.2.1) ∧ (b.2.2.1 ≤ y ∧ y < b.2.2.2)

/-- Two different tesseroids of width `|s|` centred on the nodes of the axis share points of their
interior, around the globe. -/
def Overlap (c0 s : ℝ) (n : ℕ) : Prop :=
  ∃ i j : ℕ, i < j ∧ j < n ∧ ∃ (k : ℤ) (x : ℝ),
    |x - (c0 + i * s)| < |s| / 2 ∧ |x + 360 * k - (c0 + j * s)| < |s| / 2

/-- Element of a layer with nodes `E j`, `N k`: boundaries half a spacing away from the node. -/
noncomputable def elementRow (E N : ℕ → ℝ) (B T : ℕ → ℕ → Option ℝ) (k j : ℕ) : Row :=
  ⟨E j - (E 1 - E 0) / 2, E j + (E 1 - E 0) / 2, N k - (N 1 - N 0) / 2, N k + (N 1 - N 0) / 2,
    B k j, T k j⟩

open Classical in
/-- The prisms that count for the gravity of a layer, with their densities: density, top and bottom
are not NaN, the density is not zero, the thickness is not below the threshold. -/
noncomputable def gravityElements (E N : ℕ → ℝ) (B T D : ℕ → ℕ → Option ℝ) (threshold : ℝ)
    (nn ne : ℕ) : List (Prism × ℝ) :=
  (cells nn ne).filterMap fun p =>
    match D p.1 p.2, B p.1 p.2, T p.1 p.2 with
    | some d, some b, some t =>
      if d ≠ 0 ∧ threshold ≤ t - b then
        some (⟨E p.2 - (E 1 - E 0) / 2, E p.2 + (E 1 - E 0) / 2,
          N p.1 - (N 1 - N 0) / 2, N p.1 + (N 1 - N 0) / 2, b, t⟩, d)
      else none
    | _, _, _ => none

open Classical in
/-- The index pairs of the tesseroids that count for the gravity of a layer: top, bottom and
density are not NaN and the thickness is not below the threshold, if there is one. -/
noncomputable def tessCells (B T D : ℕ → ℕ → Option ℝ) (threshold : Option ℝ) (nn ne : ℕ) :
    List (ℕ × ℕ) :=
  (cells nn ne).filter fun p =>
    (T p.1 p.2 ≠ none ∧ B p.1 p.2 ≠ none ∧ D p.1 p.2 ≠ none) ∧
      ∀ h ∈ threshold, ∀ t ∈ T p.1 p.2, ∀ b ∈ B p.1 p.2, h ≤ t - b

end Verif.Layers
