import Verif.Layers.PropsF

/-! C155: what `thickness_threshold` neglects. -/

namespace Verif.Layers
open MeasureTheory Set Verif.Distance Verif.Engine
open Verif.Forward (Prism PrismKernels Junk arrays pointAt newtonKernels everywhere prismFieldNames pointFieldTable
  prismFieldTable bodyKernels bodyKernels_newtonian)
open Verif.Ellipsoids (V3 newtonField newtonElement gravityResult vec prismDensity prism_newton massKernel newton_close)

/-! ### Specification -/

/-- `layer.prism_layer.gravity` with this threshold returns this field (m/s²), in mGal with the last component
downward. `total` is the number of elements of the layer. -/
def ReturnsAbove (K : PrismKernels) (layer : Layer) (total : ℕ) (name : String) (threshold : Option ℝ)
    (field : V3 → V3) : Prop :=
  ∀ (junk : Junk) (mode : Mode) (shape : List ℕ) (pts : List P3), shape.prod = pts.length →
    mode.Full pts.length (2 * total) →
    layerGravity junk mode K layer (arrays shape pts) "g_e" name threshold = .ok (gravityResult shape pts field).1 ∧
    layerGravity junk mode K layer (arrays shape pts) "g_n" name threshold = .ok (gravityResult shape pts field).2.1 ∧
    layerGravity junk mode K layer (arrays shape pts) "g_z" name threshold = .ok (gravityResult shape pts field).2.2

open Classical in
/-- The elements of a layer that are neglected: their density, bottom and top are numbers and they are thinner than the
threshold. -/
noncomputable def thinCells (nn ne : ℕ) (B T D : ℕ → ℕ → Option ℝ) (threshold : ℝ) : Finset (ℕ × ℕ) :=
  (Finset.range nn ×ˢ Finset.range ne).filter fun c => ∃ d ∈ D c.1 c.2, ∃ b ∈ B c.1 c.2, ∃ t ∈ T c.1 c.2,
    d ≠ 0 ∧ b ≤ t ∧ t - b < threshold

/-! ### Lemmas -/

section
variable {e0 se n0 sn : ℝ} {nn ne : ℕ} {B T D : ℕ → ℕ → Option ℝ}

theorem returns_above {K : PrismKernels} (hK : K.Newtonian) (hse : 0 < se) (hsn : 0 < sn) (hn : 2 ≤ nn) (he : 2 ≤ ne)
    (vars : List (String × List (Option ℝ))) (name : String) (hD : vars.lookup name = some (grid nn ne D))
    (threshold : Option ℝ) (hth : ∀ t ∈ threshold, 0 ≤ t) :
    ReturnsAbove K ⟨axis e0 se ne, axis n0 sn nn, grid nn ne T, grid nn ne B, vars⟩ (nn * ne) name threshold
      (newtonField (prismDensity
        (gravityElements (fun j => e0 + j * se) (fun k => n0 + k * sn) B T D (threshold.getD 0) nn ne))) := by
  intro junk mode shape pts hs hm
  set srcs := gravityElements (fun j => e0 + j * se) (fun k => n0 + k * sn) B T D (threshold.getD 0) nn ne with hsrc
  have hint : ∀ q i, ∫ r, Verif.Forward.densityAt srcs r * massKernel i q (pointAt r) 1 =
      newtonField (prismDensity srcs) (vec q) i := fun q i => (prism_newton _ q i).2.symm
  have h := fun field (hf : field ∈ everywhere) =>
    (layerGravity_density junk mode hK shape pts hs (e0 := e0) (n0 := n0) hse hsn hn he B T D vars name hD threshold hth
      hm field (.inl hf)).2.2
  have hc : ∀ t : ℝ, -10 ^ 5 * t = -t * 10 ^ 5 := fun t => by ring
  refine ⟨(h "g_e" (by simp [everywhere])).trans ?_, (h "g_n" (by simp [everywhere])).trans ?_,
    (h "g_z" (by simp [everywhere])).trans ?_⟩
  · obtain ⟨k, f, ht⟩ : ∃ k f, prismFieldTable K "g_e" = some (k, f) := ⟨_, _, by simp [prismFieldTable]; exact ⟨rfl, rfl⟩⟩
    have hk' : pointFieldTable newtonKernels "g_e" = some (massKernel 0, 10 ^ 5) := rfl
    rw [ht, hk']
    simp only
    rw [← hsrc]
    simp only [hint, mul_comm (10 ^ 5 : ℝ)]
    rfl
  · obtain ⟨k, f, ht⟩ : ∃ k f, prismFieldTable K "g_n" = some (k, f) := ⟨_, _, by simp [prismFieldTable]; exact ⟨rfl, rfl⟩⟩
    have hk' : pointFieldTable newtonKernels "g_n" = some (massKernel 1, 10 ^ 5) := rfl
    rw [ht, hk']
    simp only
    rw [← hsrc]
    simp only [hint, mul_comm (10 ^ 5 : ℝ)]
    rfl
  · obtain ⟨k, f, ht⟩ : ∃ k f, prismFieldTable K "g_z" = some (k, f) := ⟨_, _, by simp [prismFieldTable]; exact ⟨rfl, rfl⟩⟩
    have hk' : pointFieldTable newtonKernels "g_z" = some (massKernel 2, -10 ^ 5) := rfl
    rw [ht, hk']
    simp only
    rw [← hsrc]
    simp only [hint, hc]
    rfl

/-- The space of a cell. -/
def cellBox (e0 se n0 sn : ℝ) (B T : ℕ → ℕ → Option ℝ) (c : ℕ × ℕ) : Set V3 :=
  columns (fun _ _ => (B c.1 c.2).getD 0) (fun _ _ => (T c.1 c.2).getD 0)
    (e0 + c.2 * se - se / 2) (e0 + c.2 * se + se / 2) (n0 + c.1 * sn - sn / 2) (n0 + c.1 * sn + sn / 2)

theorem thin_volume (hse : 0 < se) (hsn : 0 < sn) {h : ℝ} (hh : 0 ≤ h) :
    MeasurableSet (⋃ c ∈ thinCells nn ne B T D h, cellBox e0 se n0 sn B T c) ∧
      volume (⋃ c ∈ thinCells nn ne B T D h, cellBox e0 se n0 sn B T c) < ⊤ ∧
      volume.real (⋃ c ∈ thinCells nn ne B T D h, cellBox e0 se n0 sn B T c) ≤
        (thinCells nn ne B T D h).card * (se * sn) * h := by
  have hbox : ∀ c ∈ thinCells nn ne B T D h, MeasurableSet (cellBox e0 se n0 sn B T c) ∧
      volume (cellBox e0 se n0 sn B T c) < ⊤ ∧ volume.real (cellBox e0 se n0 sn B T c) ≤ h * (se * sn) := by
    intro c hc
    obtain ⟨-, d, -, b, hb, t, ht, -, -, hbt⟩ := Finset.mem_filter.1 hc
    have := columns_volume (lo := fun _ _ => (B c.1 c.2).getD 0) (hi := fun _ _ => (T c.1 c.2).getD 0)
      measurable_const measurable_const (w := e0 + c.2 * se - se / 2) (e := e0 + c.2 * se + se / 2)
      (s := n0 + c.1 * sn - sn / 2) (n := n0 + c.1 * sn + sn / 2) (by linarith) (by linarith) hh
      (fun _ _ _ _ _ _ => by rw [Option.mem_def.1 hb, Option.mem_def.1 ht]; exact hbt.le)
    refine ⟨this.1, this.2.1, this.2.2.trans (le_of_eq ?_)⟩
    ring
  refine ⟨Finset.measurableSet_biUnion _ fun c hc => (hbox c hc).1, ?_, ?_⟩
  · exact (measure_biUnion_finset_le _ _).trans_lt (ENNReal.sum_lt_top.2 fun c hc => (hbox c hc).2.1)
  · refine (measureReal_biUnion_finset_le _ _).trans ((Finset.sum_le_card_nsmul _ _ _ fun c hc => (hbox c hc).2.2).trans
      (le_of_eq ?_))
    rw [nsmul_eq_mul]
    ring

theorem thin_diff (hse : 0 < se) (hsn : 0 < sn) {h d : ℝ}
    (hd : ∀ c ∈ thinCells nn ne B T D h, ∀ x ∈ D c.1 c.2, |x| ≤ d) (hd0 : 0 ≤ d) :
    ∀ᵐ x : V3, |prismDensity (gravityElements (fun j => e0 + j * se) (fun k => n0 + k * sn) B T D h nn ne) x -
        prismDensity (gravityElements (fun j => e0 + j * se) (fun k => n0 + k * sn) B T D 0 nn ne) x| ≤
      (([(d, ⋃ c ∈ thinCells nn ne B T D h, cellBox e0 se n0 sn B T c)] : List (ℝ × Set V3)).map
        fun t => t.2.indicator (fun _ => t.1) x).sum := by
  classical
  have b1 := layerBody_exists (e0 := e0) (n0 := n0) hse hsn nn ne B T D h
  have b0 := layerBody_exists (e0 := e0) (n0 := n0) hse hsn nn ne B T D 0
  filter_upwards [faces_null (w := e0 - se / 2) (se := se) (s := n0 - sn / 2) (sn := sn)] with x hx
  simp only [List.map_cons, List.map_nil, List.sum_cons, List.sum_nil, add_zero]
  unfold prismDensity
  rw [densityAt_elements, densityAt_elements]
  have hnn : 0 ≤ (⋃ c ∈ thinCells nn ne B T D h, cellBox e0 se n0 sn B T c).indicator (fun _ => d) x :=
    indicator_nonneg (fun _ _ => hd0) x
  rcases terrain_cell hse ne hx.1 with ⟨-, j, hj, hjx⟩ | ⟨-, h1'⟩
  · rcases terrain_cell hsn nn hx.2 with ⟨-, k, hk, hky⟩ | ⟨-, h2'⟩
    · rw [sub_add_cancel] at hjx hky
      rw [b1.inside k hk j hj _ _ _ hjx hky, b0.inside k hk j hj _ _ _ hjx hky]
      cases hD : D k j with
      | none => simpa [columnDensity] using hnn
      | some r =>
        cases hB : B k j with
        | none => simpa [columnDensity] using hnn
        | some b =>
          cases hT : T k j with
          | none => simpa [columnDensity] using hnn
          | some t =>
            simp only [columnDensity]
            by_cases hz : b ≤ x 2 ∧ x 2 ≤ t
            · have hbt : b ≤ t := hz.1.trans hz.2
              by_cases hth : h ≤ t - b
              · rw [if_pos ⟨hth, hz⟩, if_pos ⟨sub_nonneg.2 hbt, hz⟩, sub_self, abs_zero]
                exact hnn
              · rw [if_neg fun h0 => hth h0.1, if_pos ⟨sub_nonneg.2 hbt, hz⟩, zero_sub, abs_neg]
                by_cases hr : r = 0
                · rw [hr, abs_zero]
                  exact hnn
                · have hc : (k, j) ∈ thinCells nn ne B T D h :=
                    Finset.mem_filter.2 ⟨by simp [hk, hj], r, hD, b, hB, t, hT, hr, hbt, not_le.1 hth⟩
                  have hmem : x ∈ ⋃ c ∈ thinCells nn ne B T D h, cellBox e0 se n0 sn B T c := by
                    refine mem_biUnion hc ?_
                    have hjx' := abs_lt.1 hjx
                    have hky' := abs_lt.1 hky
                    refine mem_columns.2 ⟨⟨?_, ?_⟩, ⟨?_, ?_⟩, ?_, ?_⟩
                    · simp only; linarith
                    · simp only; linarith
                    · simp only; linarith
                    · simp only; linarith
                    · simp only [hB, Option.getD_some]; exact hz.1
                    · simp only [hT, Option.getD_some]; exact hz.2
                  rw [indicator_of_mem hmem]
                  exact hd _ hc r hD
            · rw [if_neg fun h0 => hz h0.2, if_neg fun h0 => hz h0.2, sub_self, abs_zero]
              exact hnn
    · rw [sub_add_cancel] at h2'
      rw [b1.outside _ _ _ (.inr h2'), b0.outside _ _ _ (.inr h2'), sub_self, abs_zero]
      exact hnn
  · rw [sub_add_cancel] at h1'
    rw [b1.outside _ _ _ (.inl h1'), b0.outside _ _ _ (.inl h1'), sub_self, abs_zero]
    exact hnn

end

/-! ### C155 -/

/-- C155: what `thickness_threshold` changes in the gravity of a layer, at any point: at most `25 G d r`, with the
largest density `d` of the neglected elements and the side `r` of the cube with the volume that the threshold times their area is. Without the threshold the layer returns the field of all its elements. -/
theorem C155_threshold {K : PrismKernels} (hK : K.Newtonian) {e0 se n0 sn : ℝ} (hse : 0 < se) (hsn : 0 < sn)
    {nn ne : ℕ} (hn : 2 ≤ nn) (he : 2 ≤ ne) (B T D : ℕ → ℕ → Option ℝ) (vars : List (String × List (Option ℝ)))
    (name : String) (hD : vars.lookup name = some (grid nn ne D)) {threshold d r : ℝ} (hth : 0 ≤ threshold)
    (hd : ∀ c ∈ thinCells nn ne B T D threshold, ∀ x ∈ D c.1 c.2, |x| ≤ d) (hd0 : 0 ≤ d) (hr0 : 0 ≤ r)
    (hr : r ^ 3 = (thinCells nn ne B T D threshold).card * (se * sn) * threshold) :
    ∃ all above : V3 → V3,
      ReturnsAbove K ⟨axis e0 se ne, axis n0 sn nn, grid nn ne T, grid nn ne B, vars⟩ (nn * ne) name none all ∧
      ReturnsAbove K ⟨axis e0 se ne, axis n0 sn nn, grid nn ne T, grid nn ne B, vars⟩ (nn * ne) name (some threshold)
        above ∧
      ∀ p i, |above p i - all p i| ≤ 25 * 6.6743e-11 * d * r := by
  refine ⟨_, _, returns_above hK hse hsn hn he vars name hD none (by simp),
    returns_above hK hse hsn hn he vars name hD (some threshold) (by simpa using hth), fun p i => ?_⟩
  obtain ⟨v1, v2, v3⟩ := thin_volume (e0 := e0) (n0 := n0) (nn := nn) (ne := ne) (B := B) (T := T) (D := D) hse hsn hth
  have key : ∀ R > 0, |newtonField (prismDensity (gravityElements (fun j => e0 + j * se) (fun k => n0 + k * sn) B T D
      threshold nn ne)) p i - newtonField (prismDensity (gravityElements (fun j => e0 + j * se) (fun k => n0 + k * sn)
      B T D 0 nn ne)) p i| ≤ 6.6743e-11 * (d * (24 * R + r ^ 3 / R ^ 2)) := by
    intro R hR
    have hv : vec ⟨p 0, p 1, p 2⟩ = p := by
      funext i
      fin_cases i <;> rfl
    have h1 := (prism_newton (gravityElements (fun j => e0 + j * se) (fun k => n0 + k * sn) B T D threshold nn ne)
      ⟨p 0, p 1, p 2⟩ i).1
    have h2 := (prism_newton (gravityElements (fun j => e0 + j * se) (fun k => n0 + k * sn) B T D 0 nn ne)
      ⟨p 0, p 1, p 2⟩ i).1
    rw [hv] at h1 h2
    refine (newton_close h1 h2 (fun t ht => ?_) (thin_diff hse hsn hd hd0) hR).trans ?_
    · simp only [List.mem_cons, List.not_mem_nil, or_false] at ht
      subst ht
      exact ⟨hd0, v1, v2⟩
    · simp only [List.map_cons, List.map_nil, List.sum_cons, List.sum_nil, add_zero]
      rw [hr]
      gcongr
  rcases hr0.eq_or_lt with rfl | hrp
  · refine le_of_forall_pos_le_add fun ε hε => ?_
    refine (key (ε / (6.6743e-11 * d * 24 + 1)) (by positivity)).trans ?_
    rw [mul_zero, zero_add, zero_pow (by norm_num), zero_div, add_zero]
    calc 6.6743e-11 * (d * (24 * (ε / (6.6743e-11 * d * 24 + 1))))
        = (6.6743e-11 * d * 24) * ε / (6.6743e-11 * d * 24 + 1) := by ring
      _ ≤ ε := by
          rw [div_le_iff₀ (by positivity)]
          nlinarith
  · refine (key r hrp).trans (le_of_eq ?_)
    field_simp
    ring

/-- A layer of 2 by 2 elements of one square metre: one of them is thin, one is NaN. -/
noncomputable def thinTop (k j : ℕ) : Option ℝ := if k = 0 ∧ j = 0 then some 0.001 else if k = 1 ∧ j = 1 then none else some 5

theorem thin_example : thinCells 2 2 (fun _ _ => some 0) thinTop (fun _ _ => some 2670) 0.01 = {(0, 0)} := by
  classical
  ext ⟨k, j⟩
  simp only [thinCells, Finset.mem_filter, Finset.mem_product, Finset.mem_range, Finset.mem_singleton, Prod.mk.injEq,
    Option.mem_def, Option.some.injEq]
  constructor
  · rintro ⟨⟨hk, hj⟩, d, -, b, rfl, t, ht, -, -, h⟩
    by_contra h0
    rw [thinTop, if_neg h0] at ht
    split_ifs at ht
    cases ht
    norm_num at h
  · rintro ⟨rfl, rfl⟩
    exact ⟨by decide, 2670, rfl, 0, rfl, 0.001, by simp [thinTop], by norm_num, by norm_num, by norm_num⟩

/-- Neglecting the thin element of that layer changes its gravity at most by 25 G times the density times the side of
a cube of 0.01 m³. -/
example (r : ℝ) (hr0 : 0 ≤ r) (hr : r ^ 3 = 0.01) : ∃ all above : V3 → V3,
    ReturnsAbove bodyKernels ⟨axis 0 1 2, axis 0 1 2, grid 2 2 thinTop, grid 2 2 fun _ _ => some 0,
      [("density", grid 2 2 fun _ _ => some 2670)]⟩ (2 * 2) "density" none all ∧
    ReturnsAbove bodyKernels ⟨axis 0 1 2, axis 0 1 2, grid 2 2 thinTop, grid 2 2 fun _ _ => some 0,
      [("density", grid 2 2 fun _ _ => some 2670)]⟩ (2 * 2) "density" (some 0.01) above ∧
    ∀ p i, |above p i - all p i| ≤ 25 * 6.6743e-11 * 2670 * r := by
  refine C155_threshold bodyKernels_newtonian one_pos one_pos le_rfl le_rfl (fun _ _ => some 0) thinTop
    (fun _ _ => some 2670) _ "density" rfl (by norm_num) (fun c _ x hx => ?_) (by norm_num) hr0 ?_
  · cases hx
    norm_num
  · rw [thin_example, hr]
    norm_num

end Verif.Layers
