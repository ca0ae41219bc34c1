import Verif.Layers.PropsG
import Verif.Ellipsoids.PropsU

/-! C157: how much the gravity of layers changes between two points. -/

namespace Verif.Layers
open MeasureTheory Set Verif.Distance Verif.Engine
open Verif.Forward (Prism PrismKernels bodyKernels bodyKernels_newtonian)
open Verif.Ellipsoids (V3 newtonField prismDensity ChangesAtMost prisms_change changes_continuous)

section
variable {e0 se n0 sn : ℝ} {nn ne : ℕ} {B T D : ℕ → ℕ → Option ℝ}

theorem layer_bounded (hse : 0 < se) (hsn : 0 < sn) {h d : ℝ} (hd0 : 0 ≤ d)
    (hd : ∀ k < nn, ∀ j < ne, ∀ x ∈ D k j, |x| ≤ d) :
    ∀ᵐ x : V3, |prismDensity (gravityElements (fun j => e0 + j * se) (fun k => n0 + k * sn) B T D h nn ne) x| ≤ d := by
  have b1 := layerBody_exists (e0 := e0) (n0 := n0) hse hsn nn ne B T D h
  filter_upwards [faces_null (w := e0 - se / 2) (se := se) (s := n0 - sn / 2) (sn := sn)] with x hx
  unfold prismDensity
  rw [densityAt_elements]
  rcases terrain_cell hse ne hx.1 with ⟨-, j, hj, hjx⟩ | ⟨-, h1'⟩
  · rcases terrain_cell hsn nn hx.2 with ⟨-, k, hk, hky⟩ | ⟨-, h2'⟩
    · rw [sub_add_cancel] at hjx hky
      rw [b1.inside k hk j hj _ _ _ hjx hky]
      unfold columnDensity
      split
      · next r b t z hD hB hT =>
        split_ifs
        · exact hd k hk j hj _ hD
        · rwa [abs_zero]
      · rwa [abs_zero]
    · rw [sub_add_cancel] at h2'
      rwa [b1.outside _ _ _ (.inr h2'), abs_zero]
  · rw [sub_add_cancel] at h1'
    rwa [b1.outside _ _ _ (.inl h1'), abs_zero]

theorem elements_ordered (hse : 0 < se) (hsn : 0 < sn) {h : ℝ} (hh : 0 ≤ h) :
    ∀ s ∈ gravityElements (fun j => e0 + j * se) (fun k => n0 + k * sn) B T D h nn ne, s.1.Ordered := by
  intro s hs
  obtain ⟨k, -, j, -, d, b, t, -, -, -, hbt, rfl⟩ := mem_elements hs
  refine ⟨?_, ?_, ?_⟩
  · simp only [Nat.cast_one, Nat.cast_zero]; linarith
  · simp only [Nat.cast_one, Nat.cast_zero]; linarith
  · simp only; linarith

end

/-- C157: how much the components of the gravity of a layer change between two points, wherever they are, with any
threshold: with the largest absolute density of the layer and the volume of the elements that count. -/
theorem C157_layer {K : PrismKernels} (hK : K.Newtonian) {e0 se n0 sn : ℝ} (hse : 0 < se) (hsn : 0 < sn)
    {nn ne : ℕ} (hn : 2 ≤ nn) (he : 2 ≤ ne) (B T D : ℕ → ℕ → Option ℝ) (vars : List (String × List (Option ℝ)))
    (name : String) (hD : vars.lookup name = some (grid nn ne D)) (threshold : Option ℝ) (hth : ∀ t ∈ threshold, 0 ≤ t)
    {d : ℝ} (hd0 : 0 ≤ d) (hd : ∀ k < nn, ∀ j < ne, ∀ x ∈ D k j, |x| ≤ d) :
    ∃ field : V3 → V3,
      ReturnsAbove K ⟨axis e0 se ne, axis n0 sn nn, grid nn ne T, grid nn ne B, vars⟩ (nn * ne) name threshold field ∧
      ChangesAtMost d ((gravityElements (fun j => e0 + j * se) (fun k => n0 + k * sn) B T D (threshold.getD 0) nn
        ne).map fun s => s.1.volume).sum field ∧ Continuous field := by
  have h0 : 0 ≤ threshold.getD 0 := by
    cases threshold with
    | none => exact le_rfl
    | some t => exact hth t rfl
  have h := prisms_change (elements_ordered (e0 := e0) (n0 := n0) (nn := nn) (ne := ne) (B := B) (T := T) (D := D) hse hsn
    h0) hd0 (layer_bounded hse hsn hd0 hd)
  exact ⟨_, returns_above hK hse hsn hn he vars name hD threshold hth, h, changes_continuous hd0 h⟩

/-- The layer with an element that is NaN and another that is thin. -/
example : ∃ field : V3 → V3,
    ReturnsAbove bodyKernels ⟨axis 0 1 2, axis 0 1 2, grid 2 2 thinTop, grid 2 2 fun _ _ => some 0,
      [("density", grid 2 2 fun _ _ => some 2670)]⟩ (2 * 2) "density" (some 0.01) field ∧ Continuous field := by
  obtain ⟨field, h1, -, h3⟩ := C157_layer bodyKernels_newtonian (e0 := 0) (n0 := 0) one_pos one_pos (nn := 2) (ne := 2)
    le_rfl le_rfl (fun _ _ => some 0) thinTop (fun _ _ => some 2670) [("density", grid 2 2 fun _ _ => some 2670)]
    "density" rfl (some 0.01) (by simp; norm_num) (d := 2670) (by norm_num) (by simp)
  exact ⟨field, h1, h3⟩

end Verif.Layers
