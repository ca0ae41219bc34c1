import Verif.Ellipsoids.NewtonInside
import Verif.Ellipsoids.PropsN

/-! Newton's integral over an ellipsoid at the points outside, by Ivory's theorem. -/

open MeasureTheory Set Metric

namespace Verif.Ellipsoids

/-- Integrals after a change of scale along each axis. -/
theorem integral_scale {s : V3} (hs : ∀ i, 0 < s i) (F : V3 → ℝ) :
    ∫ x, F x = s 0 * s 1 * s 2 * ∫ y : V3, F fun k => s k * y k := by
  have hdet : (Matrix.diagonal s).det = s 0 * s 1 * s 2 := by
    rw [Matrix.det_diagonal, Fin.prod_univ_three]
  have hpos : 0 < s 0 * s 1 * s 2 := by have := hs 0; have := hs 1; have := hs 2; positivity
  have hT : ∀ y : V3, Matrix.toLin' (Matrix.diagonal s) y = fun k => s k * y k := fun y => by
    funext k
    rw [Matrix.toLin'_apply, Matrix.mulVec_diagonal]
  have hemb : MeasurableEmbedding (Matrix.toLin' (Matrix.diagonal s)) := by
    refine Continuous.measurableEmbedding (LinearMap.continuous_on_pi _) fun y z h => ?_
    rw [hT, hT] at h
    funext k
    exact mul_left_cancel₀ (hs k).ne' (congrFun h k)
  have h1 := hemb.integral_map (μ := volume) F
  rw [Real.map_matrix_volume_pi_eq_smul_volume_pi (by rw [hdet]; exact hpos.ne'), integral_smul_measure, hdet,
    abs_of_pos (by positivity), ENNReal.toReal_ofReal (by positivity), smul_eq_mul] at h1
  simp only [hT] at h1
  rw [← h1, ← mul_assoc, mul_inv_cancel₀ hpos.ne', one_mul]

theorem integrable_scale {s : V3} (hs : ∀ i, 0 < s i) {F : V3 → ℝ} (hF : Integrable F) :
    Integrable fun y : V3 => F fun k => s k * y k := by
  have hdet : (Matrix.diagonal s).det ≠ 0 := by
    rw [Matrix.det_diagonal]
    exact Finset.prod_ne_zero_iff.2 fun i _ => (hs i).ne'
  have hT : ∀ y : V3, Matrix.toLin' (Matrix.diagonal s) y = fun k => s k * y k := fun y => by
    funext k
    rw [Matrix.toLin'_apply, Matrix.mulVec_diagonal]
  have hemb : MeasurableEmbedding (Matrix.toLin' (Matrix.diagonal s)) := by
    refine Continuous.measurableEmbedding (LinearMap.continuous_on_pi _) fun y z h => ?_
    rw [hT, hT] at h
    funext k
    exact mul_left_cancel₀ (hs k).ne' (congrFun h k)
  have h1 : Integrable F (Measure.map (Matrix.toLin' (Matrix.diagonal s)) volume) := by
    rw [Real.map_matrix_volume_pi_eq_smul_volume_pi hdet]
    exact hF.smul_measure ENNReal.ofReal_ne_top
  have h2 := hemb.integrable_map_iff.1 h1
  simpa only [Function.comp_def, hT] using h2

/-- Integrals along the lines parallel to an axis. -/
theorem integral_lines {g : V3 → ℝ} (hg : Integrable g) (i : Fin 3) :
    ∫ y, g y = ∫ w : Fin 2 → ℝ, ∫ t : ℝ, g (i.insertNth t w) := by
  have hmp := (volume_preserving_piFinSuccAbove (fun _ : Fin 3 => ℝ) i).symm
  have h1 := hmp.integral_comp (MeasurableEquiv.measurableEmbedding _) g
  have h2 := (hmp.integrable_comp_emb (MeasurableEquiv.measurableEmbedding _)).2 hg
  rw [← h1]
  exact integral_prod_symm _ h2

/-- The attraction along a segment parallel to an axis. -/
theorem chord_integral {c W : ℝ} (hc : 0 < c) (hW : 0 < W) (q : ℝ) {h : ℝ} (hh : 0 ≤ h) :
    ∫ t in Ioo (-h) h, (c * t - q) / √((c * t - q) ^ 2 + W) ^ 3 =
      -(1 / c) * (1 / √((c * h - q) ^ 2 + W) - 1 / √((c * (-h) - q) ^ 2 + W)) := by
  have hpos : ∀ t : ℝ, 0 < (c * t - q) ^ 2 + W := fun t => by positivity
  have hd : ∀ t : ℝ, HasDerivAt (fun t => -(1 / c) * (√((c * t - q) ^ 2 + W))⁻¹)
      ((c * t - q) / √((c * t - q) ^ 2 + W) ^ 3) t := by
    intro t
    have h1 : HasDerivAt (fun t => (c * t - q) ^ 2 + W) (2 * (c * t - q) * c) t := by
      have := ((((hasDerivAt_id t).const_mul c).sub_const q).pow 2).add_const W
      simpa using this
    have h2 := ((h1.sqrt (hpos t).ne').inv (Real.sqrt_pos.2 (hpos t)).ne').const_mul (-(1 / c))
    refine h2.congr_deriv ?_
    have := Real.sqrt_pos.2 (hpos t)
    field_simp
  have hcont : Continuous fun t : ℝ => (c * t - q) / √((c * t - q) ^ 2 + W) ^ 3 := by
    refine Continuous.div (by fun_prop) (by fun_prop) fun t => ?_
    have := Real.sqrt_pos.2 (hpos t)
    positivity
  rw [← integral_Ioc_eq_integral_Ioo, ← intervalIntegral.integral_of_le (by linarith),
    intervalIntegral.integral_eq_sub_of_hasDerivAt (fun t _ => hd t) (hcont.intervalIntegrable _ _)]
  simp only [one_div]
  ring

theorem sum_insertNth (i : Fin 3) (t : ℝ) (w : Fin 2 → ℝ) (f : Fin 3 → ℝ → ℝ) :
    ∑ k, f k ((i.insertNth t w : V3) k) = f i t + ∑ j, f (i.succAbove j) (w j) := by
  rw [Fin.sum_univ_succAbove _ i]
  simp

/-- Newton's integral as an integral over the chords parallel to an axis. -/
theorem newton_chords {s : V3} (hs : ∀ i, 0 < s i) (p : V3) (i : Fin 3) :
    ∫ x in solid s, pull i (x - p) = -(s 0 * s 1 * s 2 / s i) * ∫ w in {w : Fin 2 → ℝ | ∑ j, w j ^ 2 < 1},
      (1 / magnitude ((fun k => s k * (i.insertNth (√(1 - ∑ j, w j ^ 2)) w : V3) k) - p) -
        1 / magnitude ((fun k => s k * (i.insertNth (-√(1 - ∑ j, w j ^ 2)) w : V3) k) - p)) := by
  have hSm : MeasurableSet (solid s) := (solid_open s).measurableSet
  have hemb : MeasurePreserving (fun x : V3 => x - p) volume volume := measurePreserving_sub_right _ p
  have hint : Integrable ((solid s).indicator fun x => pull i (x - p)) := by
    rw [integrable_indicator_iff hSm]
    have hb : Bornology.IsBounded ((fun x : V3 => x - p) '' solid s) := by
      obtain ⟨R, hR⟩ := isBounded_iff_forall_norm_le.1 (solid_bounded hs)
      refine isBounded_iff_forall_norm_le.2 ⟨R + ‖p‖, ?_⟩
      rintro _ ⟨x, hx, rfl⟩
      exact (norm_sub_le _ _).trans (by linarith [hR _ hx])
    have := (hemb.integrableOn_comp_preimage (MeasurableEquiv.subRight p).measurableEmbedding).2
      (pull_integrableOn i hb)
    exact this.mono_set (subset_preimage_image _ _)
  rw [← integral_indicator hSm, integral_scale hs]
  rw [integral_lines (integrable_scale hs hint) i]
  have hDm : MeasurableSet {w : Fin 2 → ℝ | ∑ j, w j ^ 2 < 1} :=
    measurableSet_lt (by fun_prop) measurable_const
  have hmag : ∀ (t : ℝ) (w : Fin 2 → ℝ), magnitude ((fun k => s k * (i.insertNth t w : V3) k) - p) =
      √((s i * t - p i) ^ 2 + ∑ j, (s (i.succAbove j) * w j - p (i.succAbove j)) ^ 2) := fun t w => by
    unfold magnitude
    simp only [Pi.sub_apply]
    rw [sum_insertNth i t w fun k x => (s k * x - p k) ^ 2]
  have hmem : ∀ (t : ℝ) (w : Fin 2 → ℝ), (fun k => s k * (i.insertNth t w : V3) k) ∈ solid s ↔
      t ^ 2 < 1 - ∑ j, w j ^ 2 := fun t w => by
    unfold solid
    rw [Set.mem_ofPred_eq, sum_insertNth i t w fun k x => (s k * x) ^ 2 / s k ^ 2]
    have e : ∀ (k : Fin 3) (x : ℝ), (s k * x) ^ 2 / s k ^ 2 = x ^ 2 := fun k x => by
      have := hs k; field_simp
    simp only [e]
    constructor <;> intro h <;> linarith
  have hne : ∀ᵐ w : Fin 2 → ℝ, w ≠ fun j => p (i.succAbove j) / s (i.succAbove j) := by
    rw [ae_iff]; simp
  have key : ∀ᵐ w : Fin 2 → ℝ, ∫ t : ℝ, (solid s).indicator (fun x => pull i (x - p))
        (fun k => s k * (i.insertNth t w : V3) k) = {w : Fin 2 → ℝ | ∑ j, w j ^ 2 < 1}.indicator (fun w =>
      -(1 / s i) * (1 / magnitude ((fun k => s k * (i.insertNth (√(1 - ∑ j, w j ^ 2)) w : V3) k) - p) -
        1 / magnitude ((fun k => s k * (i.insertNth (-√(1 - ∑ j, w j ^ 2)) w : V3) k) - p))) w := by
    filter_upwards [hne] with w hw
    have hW : 0 < ∑ j, (s (i.succAbove j) * w j - p (i.succAbove j)) ^ 2 := by
      obtain ⟨j, hj⟩ := Function.ne_iff.1 hw
      refine Finset.sum_pos' (fun k _ => sq_nonneg _) ⟨j, Finset.mem_univ _, ?_⟩
      have : s (i.succAbove j) * w j - p (i.succAbove j) ≠ 0 := fun h => hj (by
        rw [eq_div_iff (hs _).ne']; linarith)
      positivity
    by_cases hin : ∑ j, w j ^ 2 < 1
    · rw [indicator_of_mem (show w ∈ {w : Fin 2 → ℝ | ∑ j, w j ^ 2 < 1} from hin), hmag, hmag,
        ← chord_integral (hs i) hW (p i) (Real.sqrt_nonneg _), ← integral_indicator measurableSet_Ioo]
      congr 1
      funext t
      by_cases ht : t ^ 2 < 1 - ∑ j, w j ^ 2
      · rw [indicator_of_mem ((hmem t w).2 ht), indicator_of_mem (show t ∈ Ioo _ _ from Real.sq_lt.1 ht)]
        unfold pull
        rw [hmag]
        simp
      · rw [indicator_of_notMem fun h => ht ((hmem t w).1 h), indicator_of_notMem (show t ∉ Ioo _ _ from fun h => ht (Real.sq_lt.2 h))]
    · rw [indicator_of_notMem (show w ∉ {w : Fin 2 → ℝ | ∑ j, w j ^ 2 < 1} from hin)]
      refine integral_eq_zero_of_ae (Filter.Eventually.of_forall fun t => ?_)
      exact indicator_of_notMem (fun h => by
        have := (hmem t w).1 h
        nlinarith [sq_nonneg t]) _
  rw [integral_congr_ae key, integral_indicator hDm, integral_const_mul]
  ring

/-- Ivory's lemma: corresponding points of confocal ellipsoids. -/
theorem ivory {s s' p p' y : V3} {l : ℝ} (hs' : ∀ i, 0 < s' i)
    (hss : ∀ k, s' k ^ 2 = s k ^ 2 + l) (hp : ∑ k, p k ^ 2 / (s k ^ 2 + l) = 1)
    (hp' : ∀ k, p' k = s k / s' k * p k) (hy : ∑ k, y k ^ 2 = 1) :
    magnitude ((fun k => s k * y k) - p) = magnitude ((fun k => s' k * y k) - p') := by
  unfold magnitude
  congr 1
  have e : ∀ k, ((fun k => s k * y k) - p) k ^ 2 - ((fun k => s' k * y k) - p') k ^ 2 =
      l * (p k ^ 2 / (s k ^ 2 + l)) - l * y k ^ 2 := fun k => by
    have h1 := hs' k
    simp only [Pi.sub_apply, hp']
    rw [← hss]
    have h2 : l = s' k ^ 2 - s k ^ 2 := by linarith [hss k]
    rw [h2]
    field_simp
    ring
  have : ∑ k, ((fun k => s k * y k) - p) k ^ 2 - ∑ k, ((fun k => s' k * y k) - p') k ^ 2 = 0 := by
    rw [← Finset.sum_sub_distrib, Finset.sum_congr rfl fun k _ => e k, Finset.sum_sub_distrib, ← Finset.mul_sum,
      ← Finset.mul_sum, hp, hy, sub_self]
  linarith

/-- Newton's integral at a point outside of an ellipsoid. -/
theorem newton_outside {s : V3} (hs : ∀ i, 0 < s i) {p : V3} {l : ℝ} (hl : 0 ≤ l)
    (hp : ∑ k, p k ^ 2 / (s k ^ 2 + l) = 1) (i : Fin 3) :
    ∫ x in solid s, pull i (x - p) =
      -(2 * Real.pi * (s 0 * s 1 * s 2) * p i * ellipticIntegral (s 0) (s 1) (s 2) (s i) l) := by
  let s' : V3 := fun k => √(s k ^ 2 + l)
  have hs' : ∀ k, 0 < s' k := fun k => Real.sqrt_pos.2 (by have := hs k; positivity)
  have hss : ∀ k, s' k ^ 2 = s k ^ 2 + l := fun k => Real.sq_sqrt (by have := hs k; positivity)
  let p' : V3 := fun k => s k / s' k * p k
  have hp' : ∑ k, p' k ^ 2 / s' k ^ 2 ≤ 1 := by
    rw [← hp]
    refine Finset.sum_le_sum fun k _ => ?_
    simp only [p']
    rw [hss, mul_pow, div_pow, hss]
    refine div_le_div_of_nonneg_right ?_ (by have := hs k; positivity)
    refine mul_le_of_le_one_left (sq_nonneg _) ?_
    rw [div_le_one (by have := hs k; positivity)]
    linarith
  have h1 := newton_chords hs p i
  have h2 := newton_chords hs' p' i
  rw [newton_inside hs' hp' i] at h2
  have hsum : ∀ (t : ℝ) (w : Fin 2 → ℝ), t ^ 2 = 1 - ∑ j, w j ^ 2 →
      ∑ k, (i.insertNth t w : V3) k ^ 2 = 1 := fun t w h => by
    rw [sum_insertNth i t w fun _ x => x ^ 2, h]; ring
  have e : ∀ w ∈ {w : Fin 2 → ℝ | ∑ j, w j ^ 2 < 1},
      1 / magnitude ((fun k => s k * (i.insertNth (√(1 - ∑ j, w j ^ 2)) w : V3) k) - p) -
        1 / magnitude ((fun k => s k * (i.insertNth (-√(1 - ∑ j, w j ^ 2)) w : V3) k) - p) =
      1 / magnitude ((fun k => s' k * (i.insertNth (√(1 - ∑ j, w j ^ 2)) w : V3) k) - p') -
        1 / magnitude ((fun k => s' k * (i.insertNth (-√(1 - ∑ j, w j ^ 2)) w : V3) k) - p') := by
    intro w hw
    have hw' : ∑ j, w j ^ 2 < 1 := hw
    have hq : √(1 - ∑ j, w j ^ 2) ^ 2 = 1 - ∑ j, w j ^ 2 := Real.sq_sqrt (by linarith)
    rw [ivory hs' hss hp (fun _ => rfl) (hsum _ w hq),
      ivory hs' hss hp (fun _ => rfl) (hsum _ w (by rw [neg_sq]; exact hq))]
  have hDm : MeasurableSet {w : Fin 2 → ℝ | ∑ j, w j ^ 2 < 1} :=
    measurableSet_lt (by fun_prop) measurable_const
  rw [setIntegral_congr_fun hDm e] at h1
  rw [h1, ← zero_add l, ← ellipticIntegral_shift (hss 0) (hss 1) (hss 2) (hss i) 0]
  generalize ∫ w in {w : Fin 2 → ℝ | ∑ j, w j ^ 2 < 1},
    (1 / magnitude ((fun k => s' k * (i.insertNth (√(1 - ∑ j, w j ^ 2)) w : V3) k) - p') -
        1 / magnitude ((fun k => s' k * (i.insertNth (-√(1 - ∑ j, w j ^ 2)) w : V3) k) - p')) = J at h2 ⊢
  have q0 := hs' 0
  have q1 := hs' 1
  have q2 := hs' 2
  have qi := hs' i
  have := hs i
  have h3 : J = 2 * Real.pi * s' i * p' i * ellipticIntegral (s' 0) (s' 1) (s' 2) (s' i) 0 := by
    field_simp at h2
    linarith
  rw [h3]
  simp only [p']
  field_simp

/-- Newton's integral over an ellipsoid, at any point, is given by Dirichlet's formula. -/
theorem newton_dirichlet {s : V3} (hs : Positive s) (p : V3) (i : Fin 3) :
    ∫ x in solid s, pull i (x - p) = -(2 * Real.pi * (s 0 * s 1 * s 2) * p i *
      ellipticIntegral (s 0) (s 1) (s 2) (s i) (confocalParameter s p)) := by
  rcases le_total (confocalSum s p 0) 1 with h | h
  · rw [confocalParameter_inside h]
    exact newton_inside hs (by simpa [confocalSum] using h) i
  · exact newton_outside hs (confocalParameter_nonneg s p) (confocalParameter_root hs h) i

end Verif.Ellipsoids
