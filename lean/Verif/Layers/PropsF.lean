import Verif.Layers.PropsC
import Verif.Layers.SpecB
import Verif.Ellipsoids.PropsR
import Mathlib.Topology.UniformSpace.HeineCantor

/-! C152: layers of prisms made from terrain. -/

namespace Verif.Layers
open MeasureTheory Set Verif.Distance Verif.Engine
open Verif.Forward (Prism PrismKernels Junk arrays pointAt newtonKernels everywhere prismFieldNames pointFieldTable
  bodyKernels bodyKernels_newtonian plane_x plane_y)
open Verif.Utils (Kind)
open Verif.Ellipsoids (V3 newtonField newtonElement gravityResult vec triple triple_apply triple_preserving prismDensity
  prism_newton massKernel newton_close region_sum pull measurable_pull abs_pull_le)

/-! ### Sets of columns -/

/-- The points between two surfaces, inside of a region. -/
def columns (lo hi : ℝ → ℝ → ℝ) (w e s n : ℝ) : Set V3 :=
  {x | (w ≤ x 0 ∧ x 0 ≤ e) ∧ (s ≤ x 1 ∧ x 1 ≤ n) ∧ lo (x 0) (x 1) ≤ x 2 ∧ x 2 ≤ hi (x 0) (x 1)}

theorem mem_columns {lo hi : ℝ → ℝ → ℝ} {w e s n : ℝ} {x : V3} : x ∈ columns lo hi w e s n ↔
    (w ≤ x 0 ∧ x 0 ≤ e) ∧ (s ≤ x 1 ∧ x 1 ≤ n) ∧ lo (x 0) (x 1) ≤ x 2 ∧ x 2 ≤ hi (x 0) (x 1) := Iff.rfl

theorem columns_volume {lo hi : ℝ → ℝ → ℝ} (hlo : Measurable (Function.uncurry lo))
    (hhi : Measurable (Function.uncurry hi)) {w e s n H : ℝ} (hwe : w ≤ e) (hsn : s ≤ n) (hH : 0 ≤ H)
    (h : ∀ x y, w ≤ x → x ≤ e → s ≤ y → y ≤ n → hi x y - lo x y ≤ H) :
    MeasurableSet (columns lo hi w e s n) ∧ volume (columns lo hi w e s n) < ⊤ ∧
      volume.real (columns lo hi w e s n) ≤ H * ((e - w) * (n - s)) := by
  set S : Set (ℝ × ℝ × ℝ) := {r | (w ≤ r.1 ∧ r.1 ≤ e) ∧ (s ≤ r.2.1 ∧ r.2.1 ≤ n) ∧
    Function.uncurry lo (r.1, r.2.1) ≤ r.2.2 ∧ r.2.2 ≤ Function.uncurry hi (r.1, r.2.1)} with hS
  have m1 : Measurable fun r : ℝ × ℝ × ℝ => Function.uncurry lo (r.1, r.2.1) := hlo.comp (by fun_prop)
  have m2 : Measurable fun r : ℝ × ℝ × ℝ => Function.uncurry hi (r.1, r.2.1) := hhi.comp (by fun_prop)
  have hm : MeasurableSet S := by
    refine MeasurableSet.inter ?_ (MeasurableSet.inter ?_ (MeasurableSet.inter ?_ ?_))
    · exact (measurableSet_le measurable_const measurable_fst).inter (measurableSet_le measurable_fst measurable_const)
    · exact (measurableSet_le measurable_const measurable_snd.fst).inter (measurableSet_le measurable_snd.fst measurable_const)
    · exact measurableSet_le m1 (by fun_prop)
    · exact measurableSet_le (by fun_prop) m2
  have hpre : columns lo hi w e s n = triple ⁻¹' S := rfl
  have hv : volume S ≤ ENNReal.ofReal (H * ((e - w) * (n - s))) := by
    rw [Measure.volume_eq_prod, Measure.prod_apply hm]
    calc ∫⁻ x, volume (Prod.mk x ⁻¹' S)
        ≤ ∫⁻ x, (Icc w e).indicator (fun _ => ENNReal.ofReal (H * (n - s))) x := by
          refine lintegral_mono fun x => ?_
          by_cases hx : x ∈ Icc w e
          · rw [indicator_of_mem hx, Measure.volume_eq_prod, Measure.prod_apply (measurable_prodMk_left hm)]
            calc ∫⁻ y, volume (Prod.mk y ⁻¹' (Prod.mk x ⁻¹' S))
                ≤ ∫⁻ y, (Icc s n).indicator (fun _ => ENNReal.ofReal H) y := by
                  refine lintegral_mono fun y => ?_
                  by_cases hy : y ∈ Icc s n
                  · rw [indicator_of_mem hy]
                    refine (measure_mono (t := Icc (lo x y) (hi x y)) fun z hz => hz.2.2).trans ?_
                    rw [Real.volume_Icc]
                    exact ENNReal.ofReal_le_ofReal (h x y hx.1 hx.2 hy.1 hy.2)
                  · rw [indicator_of_notMem hy]
                    refine le_of_eq (measure_mono_null (t := ∅) (fun z hz => ?_) measure_empty)
                    exact hy hz.2.1
              _ = ENNReal.ofReal (H * (n - s)) := by
                  rw [lintegral_indicator measurableSet_Icc, setLIntegral_const, Real.volume_Icc,
                    ENNReal.ofReal_mul hH]
          · rw [indicator_of_notMem hx]
            refine le_of_eq (measure_mono_null (t := ∅) (fun z hz => ?_) measure_empty)
            exact hx hz.1
      _ = ENNReal.ofReal (H * ((e - w) * (n - s))) := by
          rw [lintegral_indicator measurableSet_Icc, setLIntegral_const, Real.volume_Icc,
            ← ENNReal.ofReal_mul (mul_nonneg hH (by linarith))]
          congr 1
          ring
  have hv' : volume (columns lo hi w e s n) ≤ ENNReal.ofReal (H * ((e - w) * (n - s))) := by
    rw [hpre, triple_preserving.measure_preimage hm.nullMeasurableSet]
    exact hv
  refine ⟨triple.measurable hm, hv'.trans_lt ENNReal.ofReal_lt_top, ?_⟩
  refine ENNReal.toReal_le_of_le_ofReal ?_ hv'
  exact mul_nonneg hH (mul_nonneg (by linarith) (by linarith))

/-! ### Densities -/

theorem density_integrable {ρ : V3 → ℝ} (hρ : Measurable ρ) {D : ℝ} (hD : 0 ≤ D) {S : Set V3} (hS : MeasurableSet S)
    (hv : volume S < ⊤) (h : ∀ x, |ρ x| ≤ S.indicator (fun _ => D) x) (p : V3) (i : Fin 3) :
    Integrable (newtonElement ρ p i) := by
  obtain ⟨h1, -⟩ := region_sum [(D, S)] (by simp [hD, hS, hv]) p one_pos
  have e1 : newtonElement ρ p i = fun x => 6.6743e-11 * (ρ x * pull i (x - p)) := by
    funext x
    unfold newtonElement pull
    rw [Pi.sub_apply]
    ring
  rw [e1]
  refine Integrable.const_mul (h1.mono' ?_ (Filter.Eventually.of_forall fun x => ?_)) _
  · exact (hρ.mul ((measurable_pull i).comp (measurable_id.sub_const p))).aestronglyMeasurable
  · rw [Real.norm_eq_abs, abs_mul]
    simp only [List.map_cons, List.map_nil, List.sum_cons, List.sum_nil, add_zero]
    exact mul_le_mul (h x) (abs_pull_le i _) (abs_nonneg _) ((abs_nonneg _).trans (h x))

/-- The density of a column at a height, for two columns. -/
theorem column_diff {s r d s' r' d' z δs δr δd D : ℝ} (hs : |s - s'| ≤ δs) (hr : |r - r'| ≤ δr) (hd : |d - d'| ≤ δd)
    (hD : |d| ≤ D) (hD' : |d'| ≤ D) :
    |(if min s' r' ≤ z ∧ z ≤ max s' r' then d' else 0) - (if min s r ≤ z ∧ z ≤ max s r then d else 0)| ≤
      (if s - δs ≤ z ∧ z ≤ s + δs then D else 0) + (if r - δr ≤ z ∧ z ≤ r + δr then D else 0) +
        (if min s r ≤ z ∧ z ≤ max s r then δd else 0) := by
  have hD0 : 0 ≤ D := (abs_nonneg _).trans hD
  have hd0 : 0 ≤ δd := (abs_nonneg _).trans hd
  have hs0 : 0 ≤ δs := (abs_nonneg _).trans hs
  have hr0 : 0 ≤ δr := (abs_nonneg _).trans hr
  rw [abs_le] at hs hr
  have key : ∀ P Q : Prop, [Decidable P] → [Decidable Q] → P ∨ Q →
      D ≤ (if P then D else 0) + (if Q then D else 0) := by
    intro P Q _ _ h
    split_ifs with h1 h2 h2
    · linarith
    · linarith
    · linarith
    · exact absurd h (by tauto)
  have nn : ∀ P Q : Prop, [Decidable P] → [Decidable Q] → 0 ≤ (if P then D else 0) + (if Q then D else 0) := by
    intro P Q _ _
    split_ifs <;> linarith
  by_cases h' : min s' r' ≤ z ∧ z ≤ max s' r' <;> by_cases h : min s r ≤ z ∧ z ≤ max s r
  · rw [if_pos h', if_pos h, if_pos h, abs_sub_comm]
    have := nn (s - δs ≤ z ∧ z ≤ s + δs) (r - δr ≤ z ∧ z ≤ r + δr)
    linarith
  · rw [if_pos h', if_neg h, if_neg h, sub_zero, add_zero]
    refine hD'.trans (key _ _ ?_)
    rcases not_and_or.1 h with h0 | h0
    · rw [min_le_iff, not_or, not_le, not_le] at h0
      rcases min_le_iff.1 h'.1 with h1 | h1
      · exact .inl ⟨by linarith, by linarith⟩
      · exact .inr ⟨by linarith, by linarith⟩
    · rw [le_max_iff, not_or, not_le, not_le] at h0
      rcases le_max_iff.1 h'.2 with h1 | h1
      · exact .inl ⟨by linarith, by linarith⟩
      · exact .inr ⟨by linarith, by linarith⟩
  · rw [if_neg h', if_pos h, if_pos h, zero_sub, abs_neg]
    refine hD.trans ((key (s - δs ≤ z ∧ z ≤ s + δs) (r - δr ≤ z ∧ z ≤ r + δr) ?_).trans (by linarith))
    rcases not_and_or.1 h' with h0 | h0
    · rw [min_le_iff, not_or, not_le, not_le] at h0
      rcases min_le_iff.1 h.1 with h1 | h1
      · exact .inl ⟨by linarith, by linarith⟩
      · exact .inr ⟨by linarith, by linarith⟩
    · rw [le_max_iff, not_or, not_le, not_le] at h0
      rcases le_max_iff.1 h.2 with h1 | h1
      · exact .inl ⟨by linarith, by linarith⟩
      · exact .inr ⟨by linarith, by linarith⟩
  · rw [if_neg h', if_neg h, if_neg h, sub_zero, abs_zero, add_zero]
    exact nn _ _

/-- A coordinate that is not on a face is in a cell or outside of the region. -/
theorem terrain_cell {w s : ℝ} (hs : 0 < s) (n : ℕ) {x : ℝ} (hx : ∀ m : ℕ, x ≠ w + m * s) :
    ((w ≤ x ∧ x ≤ w + n * s) ∧ ∃ j < n, |x - (w + s / 2 + (j : ℕ) * s)| < s / 2) ∨
      (¬ (w ≤ x ∧ x ≤ w + n * s) ∧ ∀ j < n, s / 2 < |x - (w + s / 2 + (j : ℕ) * s)|) := by
  by_cases h : w ≤ x ∧ x ≤ w + n * s
  · refine .inl ⟨h, ⌊(x - w) / s⌋₊, ?_, ?_⟩
    · rw [Nat.floor_lt (div_nonneg (by linarith [h.1]) hs.le), div_lt_iff₀ hs]
      have := lt_of_le_of_ne h.2 (hx n)
      linarith
    · have h1 := Nat.floor_le (div_nonneg (sub_nonneg.2 h.1) hs.le)
      have h2 := Nat.lt_floor_add_one ((x - w) / s)
      rw [le_div_iff₀ hs] at h1
      rw [div_lt_iff₀ hs] at h2
      have h3 := lt_of_le_of_ne h1 fun h0 => hx ⌊(x - w) / s⌋₊ (by linarith)
      rw [abs_lt]
      constructor <;> nlinarith
  · refine .inr ⟨h, fun j hj => ?_⟩
    have hj' : ((j : ℕ) : ℝ) + 1 ≤ n := by exact_mod_cast hj
    have hj0 : (0 : ℝ) ≤ j := Nat.cast_nonneg j
    rw [lt_abs]
    rcases not_and_or.1 h with h | h
    · right
      nlinarith
    · left
      nlinarith

section
variable (T : Terrain) (w se s sn : ℝ) (nn ne : ℕ)

/-- The prisms of the layer of a terrain. -/
noncomputable def terrainPrisms : List (Prism × ℝ) :=
  gravityElements (fun j => w + se / 2 + j * se) (fun k => s + sn / 2 + k * sn)
    (fun k j => some (min (T.surface (w + se / 2 + j * se) (s + sn / 2 + k * sn))
      (T.reference (w + se / 2 + j * se) (s + sn / 2 + k * sn))))
    (fun k j => some (max (T.surface (w + se / 2 + j * se) (s + sn / 2 + k * sn))
      (T.reference (w + se / 2 + j * se) (s + sn / 2 + k * sn))))
    (fun k j => some (T.density (w + se / 2 + j * se) (s + sn / 2 + k * sn))) 0 nn ne

variable {T w se s sn nn ne}

theorem terrain_body (hse : 0 < se) (hsn : 0 < sn) :
    (∀ k < nn, ∀ j < ne, ∀ x y z : ℝ, |x - (w + se / 2 + j * se)| < se / 2 → |y - (s + sn / 2 + k * sn)| < sn / 2 →
      Verif.Forward.densityAt (terrainPrisms T w se s sn nn ne) (x, y, z) =
        if min (T.surface (w + se / 2 + j * se) (s + sn / 2 + k * sn))
              (T.reference (w + se / 2 + j * se) (s + sn / 2 + k * sn)) ≤ z ∧
            z ≤ max (T.surface (w + se / 2 + j * se) (s + sn / 2 + k * sn))
              (T.reference (w + se / 2 + j * se) (s + sn / 2 + k * sn)) then
          T.density (w + se / 2 + j * se) (s + sn / 2 + k * sn) else 0) ∧
    (∀ x y z : ℝ, (∀ j < ne, se / 2 < |x - (w + se / 2 + j * se)|) ∨
        (∀ k < nn, sn / 2 < |y - (s + sn / 2 + k * sn)|) →
      Verif.Forward.densityAt (terrainPrisms T w se s sn nn ne) (x, y, z) = 0) := by
  have h := layerBody_exists (e0 := w + se / 2) (n0 := s + sn / 2) hse hsn nn ne
    (fun k j => some (min (T.surface (w + se / 2 + j * se) (s + sn / 2 + k * sn))
      (T.reference (w + se / 2 + j * se) (s + sn / 2 + k * sn))))
    (fun k j => some (max (T.surface (w + se / 2 + j * se) (s + sn / 2 + k * sn))
      (T.reference (w + se / 2 + j * se) (s + sn / 2 + k * sn))))
    (fun k j => some (T.density (w + se / 2 + j * se) (s + sn / 2 + k * sn))) 0
  constructor
  · intro k hk j hj x y z hx hy
    have h1 := h.inside k hk j hj x y z hx hy
    rw [terrainPrisms, densityAt_elements, h1]
    simp only [columnDensity, sub_nonneg, min_le_max, true_and]
  · intro x y z ho
    have h1 := h.outside x y z ho
    rw [terrainPrisms, densityAt_elements, h1]

theorem faces_null : ∀ᵐ x : V3, (∀ m : ℕ, x 0 ≠ w + m * se) ∧ ∀ m : ℕ, x 1 ≠ s + m * sn := by
  have h1 : ∀ᵐ r : ℝ × ℝ × ℝ, (∀ m : ℕ, r.1 ≠ w + m * se) ∧ ∀ m : ℕ, r.2.1 ≠ s + m * sn :=
    (ae_all_iff.2 fun m => plane_x _).and (ae_all_iff.2 fun m => plane_y _)
  exact triple_preserving.quasiMeasurePreserving.ae h1

/-- How different the densities of the layer and of the terrain are. -/
theorem terrain_diff (hse : 0 < se) (hsn : 0 < sn) {δs δr δd D : ℝ}
    (hD : ∀ x y, w ≤ x → x ≤ w + ne * se → s ≤ y → y ≤ s + nn * sn → |T.density x y| ≤ D)
    (hδ : ∀ k < nn, ∀ j < ne, ∀ x y, |x - (w + se / 2 + (j : ℕ) * se)| ≤ se / 2 →
      |y - (s + sn / 2 + (k : ℕ) * sn)| ≤ sn / 2 →
      |T.surface x y - T.surface (w + se / 2 + j * se) (s + sn / 2 + k * sn)| ≤ δs ∧
      |T.reference x y - T.reference (w + se / 2 + j * se) (s + sn / 2 + k * sn)| ≤ δr ∧
      |T.density x y - T.density (w + se / 2 + j * se) (s + sn / 2 + k * sn)| ≤ δd) :
    ∀ᵐ x : V3, |prismDensity (terrainPrisms T w se s sn nn ne) x -
        T.densityAt w (w + ne * se) s (s + nn * sn) x| ≤
      (([(D, columns (fun x y => T.surface x y - δs) (fun x y => T.surface x y + δs) w (w + ne * se) s (s + nn * sn)),
        (D, columns (fun x y => T.reference x y - δr) (fun x y => T.reference x y + δr) w (w + ne * se) s (s + nn * sn)),
        (δd, columns (fun x y => min (T.surface x y) (T.reference x y)) (fun x y => max (T.surface x y) (T.reference x y))
          w (w + ne * se) s (s + nn * sn))] : List (ℝ × Set V3)).map fun t => t.2.indicator (fun _ => t.1) x).sum := by
  classical
  obtain ⟨b1, b2⟩ := terrain_body (T := T) (w := w) (s := s) (nn := nn) (ne := ne) hse hsn
  filter_upwards [faces_null (w := w) (se := se) (s := s) (sn := sn)] with x hx
  simp only [List.map_cons, List.map_nil, List.sum_cons, List.sum_nil, add_zero, indicator_apply, mem_columns]
  unfold prismDensity Terrain.densityAt
  rcases terrain_cell hse ne hx.1 with ⟨h1, j, hj, hjx⟩ | ⟨h1, h1'⟩
  · rcases terrain_cell hsn nn hx.2 with ⟨h2, k, hk, hky⟩ | ⟨h2, h2'⟩
    · rw [b1 k hk j hj _ _ _ hjx hky]
      simp only [h1, h2, and_self, true_and]
      obtain ⟨d1, d2, d3⟩ := hδ k hk j hj _ _ hjx.le hky.le
      rw [← add_assoc]
      refine column_diff d1 d2 d3 (hD _ _ h1.1 h1.2 h2.1 h2.2) (hD _ _ ?_ ?_ ?_ ?_)
      · have : (0 : ℝ) ≤ j * se := by positivity
        linarith
      · have : ((j : ℕ) : ℝ) + 1 ≤ ne := by exact_mod_cast hj
        nlinarith
      · have : (0 : ℝ) ≤ k * sn := by positivity
        linarith
      · have : ((k : ℕ) : ℝ) + 1 ≤ nn := by exact_mod_cast hk
        nlinarith
    · rw [b2 _ _ _ (.inr h2')]
      simp [h2]
  · rw [b2 _ _ _ (.inl h1')]
    simp [h1]

theorem terrain_close (hse : 0 < se) (hsn : 0 < sn) (hms : Measurable (Function.uncurry T.surface))
    (hmr : Measurable (Function.uncurry T.reference)) (hmd : Measurable (Function.uncurry T.density))
    {δs δr δd D H : ℝ} (hδs : 0 ≤ δs) (hδr : 0 ≤ δr) (hδd : 0 ≤ δd) (hD0 : 0 ≤ D) (hH0 : 0 ≤ H)
    (hD : ∀ x y, w ≤ x → x ≤ w + ne * se → s ≤ y → y ≤ s + nn * sn →
      |T.density x y| ≤ D ∧ |T.surface x y - T.reference x y| ≤ H)
    (hδ : ∀ k < nn, ∀ j < ne, ∀ x y, |x - (w + se / 2 + (j : ℕ) * se)| ≤ se / 2 →
      |y - (s + sn / 2 + (k : ℕ) * sn)| ≤ sn / 2 →
      |T.surface x y - T.surface (w + se / 2 + j * se) (s + sn / 2 + k * sn)| ≤ δs ∧
      |T.reference x y - T.reference (w + se / 2 + j * se) (s + sn / 2 + k * sn)| ≤ δr ∧
      |T.density x y - T.density (w + se / 2 + j * se) (s + sn / 2 + k * sn)| ≤ δd)
    {R : ℝ} (hR : 0 < R) (q : P3) (i : Fin 3) :
    |newtonField (prismDensity (terrainPrisms T w se s sn nn ne)) (vec q) i -
      newtonField (T.densityAt w (w + ne * se) s (s + nn * sn)) (vec q) i| ≤
      layerError (ne * se * (nn * sn)) D H δs δr δd R := by
  classical
  have hwe : w ≤ w + ne * se := by
    have : (0 : ℝ) ≤ ne * se := by positivity
    linarith
  have hsn' : s ≤ s + nn * sn := by
    have : (0 : ℝ) ≤ nn * sn := by positivity
    linarith
  obtain ⟨a1, a2, a3⟩ := columns_volume (lo := fun x y => T.surface x y - δs) (hi := fun x y => T.surface x y + δs)
    (hms.sub_const δs) (hms.add_const δs) (H := 2 * δs) hwe hsn' (by linarith) (fun x y _ _ _ _ => by linarith)
  obtain ⟨b1, b2, b3⟩ := columns_volume (lo := fun x y => T.reference x y - δr) (hi := fun x y => T.reference x y + δr)
    (hmr.sub_const δr) (hmr.add_const δr) (H := 2 * δr) hwe hsn' (by linarith) (fun x y _ _ _ _ => by linarith)
  obtain ⟨c1, c2, c3⟩ := columns_volume (lo := fun x y => min (T.surface x y) (T.reference x y))
    (hi := fun x y => max (T.surface x y) (T.reference x y)) (hms.min hmr) (hms.max hmr) hwe hsn' hH0
    (fun x y h1 h2 h3 h4 => by
      rw [max_sub_min_eq_abs, abs_sub_comm]
      exact (hD x y h1 h2 h3 h4).2)
  have hint : Integrable (newtonElement (T.densityAt w (w + ne * se) s (s + nn * sn)) (vec q) i) := by
    refine density_integrable (S := columns (fun x y => min (T.surface x y) (T.reference x y))
      (fun x y => max (T.surface x y) (T.reference x y)) w (w + ne * se) s (s + nn * sn)) ?_ hD0 c1 c2 (fun x => ?_) _ _
    · have md : Measurable fun x : V3 => T.density (x 0) (x 1) :=
        hmd.comp (f := fun x : V3 => (x 0, x 1)) (by fun_prop)
      exact Measurable.ite c1 md measurable_const
    · by_cases hx : x ∈ columns (fun x y => min (T.surface x y) (T.reference x y))
          (fun x y => max (T.surface x y) (T.reference x y)) w (w + ne * se) s (s + nn * sn)
      · rw [indicator_of_mem hx, Terrain.densityAt, if_pos (mem_columns.1 hx)]
        exact (hD _ _ hx.1.1 hx.1.2 hx.2.1.1 hx.2.1.2).1
      · rw [indicator_of_notMem hx, Terrain.densityAt, if_neg fun h => hx (mem_columns.2 h), abs_zero]
  refine (newton_close (prism_newton _ q i).1 hint (fun t ht => ?_)
    (terrain_diff hse hsn (fun x y h1 h2 h3 h4 => (hD x y h1 h2 h3 h4).1) hδ) hR).trans ?_
  · simp only [List.mem_cons, List.not_mem_nil, or_false] at ht
    rcases ht with rfl | rfl | rfl
    · exact ⟨hD0, a1, a2⟩
    · exact ⟨hD0, b1, b2⟩
    · exact ⟨hδd, c1, c2⟩
  · simp only [List.map_cons, List.map_nil, List.sum_cons, List.sum_nil, add_zero]
    rw [add_sub_cancel_left, add_sub_cancel_left] at a3 b3 c3
    unfold layerError
    rw [← add_assoc]
    gcongr

end

/-! ### C152 -/

/-- C152: the gravity of a layer made with `prism_layer` from the values of the surface, the reference and the density
of a terrain at the nodes of a regular grid is that of the terrain by Newton's law, at every point, inside or outside,
with an error that is bounded by how much the surface, the reference and the density change inside of the cells. -/
theorem C152_layer (T : Terrain) (hms : Measurable (Function.uncurry T.surface))
    (hmr : Measurable (Function.uncurry T.reference)) (hmd : Measurable (Function.uncurry T.density))
    (heap : Heap) {west east south north se sn : ℝ} (hse : 0 < se) (hsn : 0 < sn) {nn ne : ℕ}
    (hn : 2 ≤ nn) (he : 2 ≤ ne) (heast : east = west + ne * se) (hnorth : north = south + nn * sn) (a b : ℕ) (R : Arr)
    (hS : heap[a]? = some ⟨.float, [nn, ne], sampled T.surface (west + se / 2) se (south + sn / 2) sn nn ne⟩)
    (hR : heap[b]? = some R)
    (hr : (∃ r, (∀ x y, T.reference x y = r) ∧ R.shape = [] ∧ R.data = [some r]) ∨
      R = ⟨.float, [nn, ne], sampled T.reference (west + se / 2) se (south + sn / 2) sn nn ne⟩)
    (props : List (String × Arr)) (hp : ∀ p ∈ props, p.2.shape = [nn, ne]) (name : String) (kind : Kind)
    (hD : props.lookup name =
      some ⟨kind, [nn, ne], sampled T.density (west + se / 2) se (south + sn / 2) sn nn ne⟩)
    {δs δr δd D H : ℝ}
    (hb : ∀ x y, west ≤ x → x ≤ east → south ≤ y → y ≤ north →
      |T.density x y| ≤ D ∧ |T.surface x y - T.reference x y| ≤ H)
    (hδ : ∀ k < nn, ∀ j < ne, ∀ x y, |x - (west + se / 2 + (j : ℕ) * se)| ≤ se / 2 →
      |y - (south + sn / 2 + (k : ℕ) * sn)| ≤ sn / 2 →
      |T.surface x y - T.surface (west + se / 2 + j * se) (south + sn / 2 + k * sn)| ≤ δs ∧
      |T.reference x y - T.reference (west + se / 2 + j * se) (south + sn / 2 + k * sn)| ≤ δr ∧
      |T.density x y - T.density (west + se / 2 + j * se) (south + sn / 2 + k * sn)| ≤ δd) :
    ∃ heap' layer,
      makeLayer false heap (axis (west + se / 2) se ne) (axis (south + sn / 2) sn nn) a b props = .ok (heap', layer) ∧
      ∀ K : PrismKernels, K.Newtonian → ∃ field : V3 → V3, ReturnsLayer K layer (nn * ne) name field ∧
        ∀ R > 0, ∀ p i, |field p i - newtonField (T.densityAt west east south north) p i| ≤
          layerError ((east - west) * (north - south)) D H δs δr δd R := by
  subst heast hnorth
  obtain ⟨b1, b2⟩ := terrain_body (T := T) (w := west) (s := south) (nn := nn) (ne := ne) hse hsn
  obtain ⟨heap', layer, h1, h2⟩ := C115_prism_layer heap (e0 := west + se / 2) (n0 := south + sn / 2) hse hsn hn he a b
    (fun k j => T.surface (west + se / 2 + j * se) (south + sn / 2 + k * sn))
    (fun k j => T.reference (west + se / 2 + j * se) (south + sn / 2 + k * sn)) R hS hR
    (hr.imp (fun ⟨r, r1, r2⟩ => ⟨r, fun _ _ => r1 _ _, r2⟩) id) props hp name
    (fun k j => T.density (west + se / 2 + j * se) (south + sn / 2 + k * sn)) kind hD
    (Verif.Forward.densityAt (terrainPrisms T west se south sn nn ne))
    (fun k hk j hj x y z hx hy => by
      rw [b1 k hk j hj x y z hx hy]
      refine ⟨fun h => if_pos h, fun h => if_neg fun h' => ?_⟩
      rcases h with h | h
      · exact absurd h'.1 (not_le.2 h)
      · exact absurd h'.2 (not_le.2 h))
    b2
  refine ⟨heap', layer, h1, fun K hK => ⟨newtonField (prismDensity (terrainPrisms T west se south sn nn ne)), ?_, ?_⟩⟩
  · intro junk mode shape pts hs hm
    have hint : ∀ q i, ∫ r, Verif.Forward.densityAt (terrainPrisms T west se south sn nn ne) r *
        massKernel i q (pointAt r) 1 = newtonField (prismDensity (terrainPrisms T west se south sn nn ne)) (vec q) i :=
      fun q i => (prism_newton _ q i).2.symm
    refine ⟨?_, ?_, ?_⟩
    · obtain ⟨k, f, hk, hv⟩ := h2 junk mode K hK shape pts hs hm "g_e" (by simp [prismFieldNames])
        (.inl (by simp [everywhere]))
      have hk' : pointFieldTable newtonKernels "g_e" = some (massKernel 0, 10 ^ 5) := rfl
      rw [hk'] at hk
      cases hk
      rw [hv]
      simp only [hint, mul_comm (10 ^ 5 : ℝ)]
      rfl
    · obtain ⟨k, f, hk, hv⟩ := h2 junk mode K hK shape pts hs hm "g_n" (by simp [prismFieldNames])
        (.inl (by simp [everywhere]))
      have hk' : pointFieldTable newtonKernels "g_n" = some (massKernel 1, 10 ^ 5) := rfl
      rw [hk'] at hk
      cases hk
      rw [hv]
      simp only [hint, mul_comm (10 ^ 5 : ℝ)]
      rfl
    · obtain ⟨k, f, hk, hv⟩ := h2 junk mode K hK shape pts hs hm "g_z" (by simp [prismFieldNames])
        (.inl (by simp [everywhere]))
      have hk' : pointFieldTable newtonKernels "g_z" = some (massKernel 2, -10 ^ 5) := rfl
      rw [hk'] at hk
      cases hk
      rw [hv]
      have hc : ∀ t : ℝ, -10 ^ 5 * t = -t * 10 ^ 5 := fun t => by ring
      simp only [hint, hc]
      rfl
  · intro R hR p i
    have hj0 : (0 : ℕ) < ne := by omega
    have hk0 : (0 : ℕ) < nn := by omega
    obtain ⟨d1, d2, d3⟩ := hδ 0 hk0 0 hj0 (west + se / 2 + (0 : ℕ) * se) (south + sn / 2 + (0 : ℕ) * sn)
      (by rw [sub_self, abs_zero]; linarith) (by rw [sub_self, abs_zero]; linarith)
    obtain ⟨c1, c2⟩ := hb west south le_rfl (by
      have : (0 : ℝ) ≤ ne * se := by positivity
      linarith) le_rfl (by
      have : (0 : ℝ) ≤ nn * sn := by positivity
      linarith)
    have := terrain_close hse hsn hms hmr hmd ((abs_nonneg _).trans d1) ((abs_nonneg _).trans d2)
      ((abs_nonneg _).trans d3) ((abs_nonneg _).trans c1) ((abs_nonneg _).trans c2) hb hδ hR ⟨p 0, p 1, p 2⟩ i
    have hv : vec ⟨p 0, p 1, p 2⟩ = p := by
      funext i
      fin_cases i <;> rfl
    rw [hv] at this
    rw [add_sub_cancel_left, add_sub_cancel_left]
    exact this

theorem layerError_continuous (A D H R : ℝ) : Continuous fun η => layerError A D H η η η R := by
  unfold layerError
  fun_prop

/-- C152: layers converge. For every terrain that is continuous, region and tolerance there is a number such that the
gravity of every layer made with `prism_layer` with this number of cells or more along each axis is that of the terrain
by Newton's law within the tolerance, at all points. -/
theorem C152_converges (T : Terrain) (hms : Continuous (Function.uncurry T.surface))
    (hmr : Continuous (Function.uncurry T.reference)) (hmd : Continuous (Function.uncurry T.density))
    {west east south north : ℝ} (hwe : west < east) (hsn : south < north) {ε : ℝ} (hε : 0 < ε) :
    ∃ N : ℕ, ∀ nn ≥ N, ∀ ne ≥ N, ∀ se sn : ℝ, se = (east - west) / ne → sn = (north - south) / nn →
      ∀ (heap : Heap) (a b : ℕ) (R : Arr),
      heap[a]? = some ⟨.float, [nn, ne], sampled T.surface (west + se / 2) se (south + sn / 2) sn nn ne⟩ →
      heap[b]? = some R →
      ((∃ r, (∀ x y, T.reference x y = r) ∧ R.shape = [] ∧ R.data = [some r]) ∨
        R = ⟨.float, [nn, ne], sampled T.reference (west + se / 2) se (south + sn / 2) sn nn ne⟩) →
      ∀ props : List (String × Arr), (∀ p ∈ props, p.2.shape = [nn, ne]) → ∀ (name : String) (kind : Kind),
      props.lookup name = some ⟨kind, [nn, ne], sampled T.density (west + se / 2) se (south + sn / 2) sn nn ne⟩ →
      ∃ heap' layer,
        makeLayer false heap (axis (west + se / 2) se ne) (axis (south + sn / 2) sn nn) a b props = .ok (heap', layer) ∧
        ∀ K : PrismKernels, K.Newtonian → ∃ field : V3 → V3, ReturnsLayer K layer (nn * ne) name field ∧
          ∀ p i, |field p i - newtonField (T.densityAt west east south north) p i| ≤ ε := by
  have hc : IsCompact (Icc west east ×ˢ Icc south north) := isCompact_Icc.prod isCompact_Icc
  obtain ⟨D, hD⟩ := hc.exists_bound_of_continuousOn hmd.continuousOn
  obtain ⟨H, hH⟩ := hc.exists_bound_of_continuousOn (hms.sub hmr).continuousOn
  have hD0 : 0 ≤ D := (norm_nonneg _).trans (hD (west, south) ⟨⟨le_rfl, hwe.le⟩, le_rfl, hsn.le⟩)
  set A : ℝ := 6.6743e-11 * (48 * D) with hA
  have hA0 : 0 ≤ A := by positivity
  set R₀ : ℝ := ε / (A + 1) with hR
  have hR0 : 0 < R₀ := by positivity
  have h0 : layerError ((east - west) * (north - south)) D H 0 0 0 R₀ < ε := by
    have e1 : layerError ((east - west) * (north - south)) D H 0 0 0 R₀ = A * R₀ := by
      unfold layerError
      rw [hA]
      ring
    rw [e1, hR, mul_div_assoc', div_lt_iff₀ (by positivity)]
    nlinarith
  obtain ⟨d, d0, hd⟩ := Metric.eventually_nhds_iff.1
    (((layerError_continuous ((east - west) * (north - south)) D H R₀).tendsto 0).eventually (gt_mem_nhds h0))
  have u1 := Metric.uniformContinuousOn_iff.1 (hc.uniformContinuousOn_of_continuous hms.continuousOn) (d / 2) (half_pos d0)
  have u2 := Metric.uniformContinuousOn_iff.1 (hc.uniformContinuousOn_of_continuous hmr.continuousOn) (d / 2) (half_pos d0)
  have u3 := Metric.uniformContinuousOn_iff.1 (hc.uniformContinuousOn_of_continuous hmd.continuousOn) (d / 2) (half_pos d0)
  obtain ⟨r1, r10, u1⟩ := u1
  obtain ⟨r2, r20, u2⟩ := u2
  obtain ⟨r3, r30, u3⟩ := u3
  set r := min r1 (min r2 r3) with hr
  have r0 : 0 < r := lt_min r10 (lt_min r20 r30)
  obtain ⟨N, hN⟩ := exists_nat_gt (max ((east - west) / r) ((north - south) / r))
  refine ⟨N + 2, fun nn hnn ne hne se sn hse hsn' heap a b R hS hRb hrr props hp name kind hDn => ?_⟩
  have nn0 : (0 : ℝ) < nn := by exact_mod_cast (by omega : 0 < nn)
  have ne0 : (0 : ℝ) < ne := by exact_mod_cast (by omega : 0 < ne)
  have se0 : 0 < se := by rw [hse]; exact div_pos (by linarith) ne0
  have sn0 : 0 < sn := by rw [hsn']; exact div_pos (by linarith) nn0
  have he : east = west + ne * se := by rw [hse]; field_simp; ring
  have hn : north = south + nn * sn := by rw [hsn']; field_simp; ring
  have hser : se < r := by
    have h1 := (le_max_left _ _).trans_lt hN
    have h2 : (N : ℝ) ≤ ne := by exact_mod_cast (by omega : N ≤ ne)
    rw [div_lt_iff₀ r0] at h1
    rw [hse, div_lt_iff₀ ne0]
    nlinarith
  have hsnr : sn < r := by
    have h1 := (le_max_right _ _).trans_lt hN
    have h2 : (N : ℝ) ≤ nn := by exact_mod_cast (by omega : N ≤ nn)
    rw [div_lt_iff₀ r0] at h1
    rw [hsn', div_lt_iff₀ nn0]
    nlinarith
  obtain ⟨heap', layer, h1, h2⟩ := C152_layer T hms.measurable hmr.measurable hmd.measurable heap se0 sn0
    (by omega : 2 ≤ nn) (by omega : 2 ≤ ne) he hn a b R hS hRb hrr props hp name kind hDn (δs := d / 2) (δr := d / 2)
    (δd := d / 2) (D := D) (H := H)
    (fun x y a1 a2 a3 a4 => ⟨hD (x, y) ⟨⟨a1, a2⟩, a3, a4⟩, hH (x, y) ⟨⟨a1, a2⟩, a3, a4⟩⟩)
    (fun k hk j hj x y hx hy => by
      have hj' : ((j : ℕ) : ℝ) + 1 ≤ ne := by exact_mod_cast hj
      have hk' : ((k : ℕ) : ℝ) + 1 ≤ nn := by exact_mod_cast hk
      have hj0 : (0 : ℝ) ≤ j * se := by positivity
      have hk0 : (0 : ℝ) ≤ k * sn := by positivity
      have hje : (j : ℝ) * se + se ≤ ne * se := by nlinarith
      have hke : (k : ℝ) * sn + sn ≤ nn * sn := by nlinarith
      have m2 : (west + se / 2 + (j : ℕ) * se, south + sn / 2 + (k : ℕ) * sn) ∈ Icc west east ×ˢ Icc south north :=
        ⟨⟨by simp only; linarith, by simp only; linarith⟩, by simp only; linarith, by simp only; linarith⟩
      have hx' := abs_le.1 hx
      have hy' := abs_le.1 hy
      have m1 : (x, y) ∈ Icc west east ×ˢ Icc south north :=
        ⟨⟨by simp only; linarith, by simp only; linarith⟩, by simp only; linarith, by simp only; linarith⟩
      have hdist : dist (x, y) (west + se / 2 + (j : ℕ) * se, south + sn / 2 + (k : ℕ) * sn) < r := by
        rw [Prod.dist_eq, max_lt_iff, Real.dist_eq, Real.dist_eq]
        exact ⟨by simp only; linarith, by simp only; linarith⟩
      have v1 := u1 _ m1 _ m2 (hdist.trans_le (min_le_left _ _))
      have v2 := u2 _ m1 _ m2 (hdist.trans_le ((min_le_right _ _).trans (min_le_left _ _)))
      have v3 := u3 _ m1 _ m2 (hdist.trans_le ((min_le_right _ _).trans (min_le_right _ _)))
      exact ⟨v1.le, v2.le, v3.le⟩)
  refine ⟨heap', layer, h1, fun K hK => ?_⟩
  obtain ⟨field, f1, f2⟩ := h2 K hK
  refine ⟨field, f1, fun p i => (f2 R₀ hR0 p i).trans (hd ?_).le⟩
  rw [Real.dist_eq, sub_zero, abs_of_pos (half_pos d0)]
  linarith

/-! ### The hypotheses can be met -/

/-- A slope over the sea level, 4 by 4 metres. -/
def slope : Terrain := ⟨fun x _ => x, fun _ _ => 0, fun _ _ => 2670⟩

/-- The layer of 2 by 2 prisms of the slope. -/
example : ∃ heap' layer, makeLayer false
      [⟨.float, [2, 2], sampled slope.surface (0 + 2 / 2) 2 (0 + 2 / 2) 2 2 2⟩, ⟨.float, [], [some 0]⟩]
      (axis (0 + 2 / 2) 2 2) (axis (0 + 2 / 2) 2 2) 0 1
      [("density", ⟨.float, [2, 2], sampled slope.density (0 + 2 / 2) 2 (0 + 2 / 2) 2 2 2⟩)] = .ok (heap', layer) ∧
    ∀ K : PrismKernels, K.Newtonian → ∃ field : V3 → V3, ReturnsLayer K layer (2 * 2) "density" field ∧
      ∀ R > 0, ∀ p i, |field p i - newtonField (slope.densityAt 0 4 0 4) p i| ≤
        layerError ((4 - 0) * (4 - 0)) 2670 4 1 0 0 R := by
  refine C152_layer slope measurable_fst measurable_const measurable_const _ (by norm_num) (by norm_num) le_rfl le_rfl
    (by norm_num) (by norm_num) 0 1 ⟨.float, [], [some 0]⟩ rfl rfl (.inl ⟨0, fun _ _ => rfl, rfl, rfl⟩) _
    (by simp) "density" .float rfl ?_ ?_
  · intro x y h1 h2 h3 h4
    simp only [slope, sub_zero]
    exact ⟨by norm_num, by rwa [abs_of_nonneg h1]⟩
  · intro k _ j _ x y hx hy
    simp only [slope, sub_self, abs_zero, le_refl, and_self, and_true]
    linarith

/-- The layers of the slope converge. -/
example : ∃ N : ℕ, ∀ nn ≥ N, ∀ ne ≥ N, ∀ se sn : ℝ, se = (4 - 0) / ne → sn = (4 - 0) / nn → ∃ heap' layer,
    makeLayer false
      [⟨.float, [nn, ne], sampled slope.surface (0 + se / 2) se (0 + sn / 2) sn nn ne⟩, ⟨.float, [], [some 0]⟩]
      (axis (0 + se / 2) se ne) (axis (0 + sn / 2) sn nn) 0 1
      [("density", ⟨.float, [nn, ne], sampled slope.density (0 + se / 2) se (0 + sn / 2) sn nn ne⟩)] =
        .ok (heap', layer) ∧
    ∃ field : V3 → V3, ReturnsLayer bodyKernels layer (nn * ne) "density" field ∧
      ∀ p i, |field p i - newtonField (slope.densityAt 0 4 0 4) p i| ≤ 1e-8 := by
  obtain ⟨N, h⟩ := C152_converges slope continuous_fst continuous_const continuous_const (west := 0) (east := 4)
    (south := 0) (north := 4) (by norm_num) (by norm_num) (ε := 1e-8) (by norm_num)
  refine ⟨N, fun nn hn ne he se sn hse hsn => ?_⟩
  obtain ⟨heap', layer, h1, h2⟩ := h nn hn ne he se sn hse hsn
    [⟨.float, [nn, ne], sampled slope.surface (0 + se / 2) se (0 + sn / 2) sn nn ne⟩, ⟨.float, [], [some 0]⟩] 0 1
    ⟨.float, [], [some 0]⟩ rfl rfl
    (.inl ⟨0, fun _ _ => rfl, rfl, rfl⟩) [("density", _)] (by simp) "density" .float rfl
  exact ⟨heap', layer, h1, h2 bodyKernels bodyKernels_newtonian⟩

end Verif.Layers
