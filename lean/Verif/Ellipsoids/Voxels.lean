import Verif.Ellipsoids.PropsP
import Verif.Forward.PropsF

/-! Volumes of ellipsoids and of the shells about their surfaces, and a bound of the attraction of the matter of a
region by its volume. -/

namespace Verif.Ellipsoids
open MeasureTheory Set Metric

/-! ### Volumes -/

theorem unit_volume : volume.real (solid 1) = 4 / 3 * Real.pi := by
  have h := (PiLp.volume_preserving_ofLp (Fin 3)).measure_preimage (solid_open 1).measurableSet.nullMeasurableSet
  have hb : (WithLp.ofLp : EuclideanSpace ℝ (Fin 3) → Fin 3 → ℝ) ⁻¹' solid 1 = Metric.ball 0 1 := by
    ext x
    rw [mem_preimage, mem_ball_zero_iff, EuclideanSpace.norm_eq, Real.sqrt_lt' one_pos]
    simp [solid]
  rw [hb, EuclideanSpace.volume_ball_fin_three] at h
  unfold Measure.real
  rw [← h, ENNReal.ofReal_one, one_pow, one_mul, ENNReal.toReal_ofReal (by positivity)]
  ring

theorem solid_volume {s : V3} (hs : ∀ i, 0 < s i) : volume.real (solid s) = 4 / 3 * Real.pi * (s 0 * s 1 * s 2) := by
  have h := integral_scale hs ((solid s).indicator fun _ => 1)
  rw [integral_indicator_const _ (solid_open s).measurableSet, smul_eq_mul, mul_one] at h
  have e : (fun y : V3 => (solid s).indicator (fun _ => (1 : ℝ)) fun k => s k * y k) =
      (solid 1).indicator fun _ => 1 := by
    funext y
    refine indicator_eq_indicator ?_ rfl
    simp only [solid, mem_ofPred_eq]
    have : ∀ k, (s k * y k) ^ 2 / s k ^ 2 = y k ^ 2 / (1 : V3) k ^ 2 := fun k => by
      have := hs k
      rw [Pi.one_apply]
      field_simp
    simp only [this]
  rw [e, integral_indicator_const _ (solid_open 1).measurableSet, smul_eq_mul, mul_one, unit_volume] at h
  rw [h]
  ring

/-- The size of the ellipsoid through a point with the shape of the body: one on the surface. -/
noncomputable def Ellipsoid.level (e : Ellipsoid) (x : V3) : ℝ := magnitude fun k => e.local x k / e.axes k

theorem level_sq (e : Ellipsoid) (x : V3) : e.level x ^ 2 = ∑ k, e.local x k ^ 2 / e.axes k ^ 2 := by
  unfold Ellipsoid.level
  rw [magnitude_sq_sum]
  exact Finset.sum_congr rfl fun k _ => by rw [div_pow]

theorem level_lt {e : Ellipsoid} {t : ℝ} (ht : 0 < t) (x : V3) :
    e.level x < t ↔ e.local x ∈ solid (t • e.axes) := by
  unfold solid
  rw [mem_ofPred_eq]
  have h1 : ∀ k, e.local x k ^ 2 / (t • e.axes) k ^ 2 = e.local x k ^ 2 / e.axes k ^ 2 / t ^ 2 := fun k => by
    rw [Pi.smul_apply, smul_eq_mul, mul_pow, div_div, mul_comm (t ^ 2)]
  simp only [h1]
  rw [← Finset.sum_div, div_lt_one (by positivity), ← level_sq]
  exact ⟨fun h => pow_lt_pow_left₀ h (magnitude_nonneg _) two_ne_zero, fun h => lt_of_pow_lt_pow_left₀ 2 ht.le h⟩

theorem inside_level (e : Ellipsoid) (x : V3) : e.Inside x ↔ e.level x < 1 := by
  rw [level_lt one_pos, one_smul]
  conv_lhs => rw [← toWorld_local e x]
  exact inside_toWorld e _

theorem level_dist {e : Ellipsoid} {m : ℝ} (hm : 0 < m) (ha : ∀ k, m ≤ e.axes k) (x y : V3) :
    e.level x ≤ e.level y + magnitude (x - y) / m := by
  have hR := body_proper e
  unfold Ellipsoid.level
  have h1 : (fun k => e.local x k / e.axes k) = (fun k => e.local y k / e.axes k) +
      fun k => (e.local x - e.local y) k / e.axes k := by
    funext k
    simp only [Pi.add_apply, Pi.sub_apply]
    ring
  have h2 : e.local x - e.local y = e.rotationMatrix.transpose.mulVec (x - y) := by
    unfold Ellipsoid.local
    rw [← Matrix.mulVec_sub]
    congr 1
    abel
  rw [h1]
  refine (magnitude_add _ _).trans (add_le_add le_rfl ?_)
  have h3 : magnitude (e.local x - e.local y) = magnitude (x - y) := by
    rw [h2]
    exact magnitude_rotate (by rw [Matrix.transpose_transpose]; exact hR.1) _
  rw [← h3, div_eq_inv_mul]
  refine magnitude_mono (by positivity) fun k => ?_
  rw [abs_div, abs_of_pos (hm.trans_le (ha k)), div_eq_inv_mul]
  have := ha k
  gcongr

/-- The points at most at about the part `d` of the size of the body from its surface. -/
def Ellipsoid.shell (e : Ellipsoid) (d : ℝ) : Set V3 := {x | 1 - d ≤ e.level x ∧ e.level x < 1 + d}

theorem measurable_level (e : Ellipsoid) : Measurable e.level := by
  unfold Ellipsoid.level
  refine measurable_magnitude.comp ?_
  unfold Ellipsoid.local Matrix.mulVec dotProduct
  fun_prop

theorem level_volume {e : Ellipsoid} (h : e.Valid) {t : ℝ} (ht : 0 < t) :
    volume {x | e.level x < t} < ⊤ ∧ volume.real {x | e.level x < t} = e.volume * t ^ 3 := by
  have hs : ∀ i, 0 < (t • e.axes) i := fun i => mul_pos ht (valid_positive h i)
  have hm : MeasurableSet {x | e.level x < t} := measurableSet_lt (measurable_level e) measurable_const
  have h1 := (toWorld_preserves e).measure_preimage hm.nullMeasurableSet
  have h2 : (fun v : V3 => e.rotationMatrix.mulVec v + e.center) ⁻¹' {x | e.level x < t} = solid (t • e.axes) := by
    ext v
    show e.level _ < t ↔ _
    rw [level_lt ht, local_toWorld]
  rw [h2] at h1
  refine ⟨by rw [← h1]; exact (solid_bounded hs).measure_lt_top, ?_⟩
  unfold Measure.real
  rw [← h1]
  show volume.real _ = _
  rw [solid_volume hs]
  unfold Ellipsoid.volume
  simp only [Pi.smul_apply, smul_eq_mul]
  show _ * (t * e.a * (t * e.b) * (t * e.c)) = _
  ring

theorem shell_volume {e : Ellipsoid} (h : e.Valid) {d : ℝ} (hd : 0 ≤ d) :
    MeasurableSet (e.shell d) ∧ volume (e.shell d) < ⊤ ∧ volume.real (e.shell d) ≤ e.volume * (6 * d + 2 * d ^ 3) := by
  have hV : 0 ≤ e.volume := by
    obtain ⟨h1, h2, h3⟩ := h
    unfold Ellipsoid.volume
    have := Real.pi_pos
    positivity
  have hm := measurable_level e
  have hsub : e.shell d ⊆ {x | e.level x < 1 + d} := fun x hx => hx.2
  obtain ⟨f1, v1⟩ := level_volume h (show 0 < 1 + d by linarith)
  refine ⟨(measurableSet_le measurable_const hm).inter (measurableSet_lt hm measurable_const),
    (measure_mono hsub).trans_lt f1, ?_⟩
  rcases lt_or_ge d 1 with h1 | h1
  · obtain ⟨f2, v2⟩ := level_volume h (show 0 < 1 - d by linarith)
    have e1 : e.shell d = {x | e.level x < 1 + d} \ {x | e.level x < 1 - d} := by
      ext x
      rw [mem_sdiff]
      unfold Ellipsoid.shell
      simp only [mem_ofPred_eq, not_lt]
      exact and_comm
    rw [e1, measureReal_sdiff (fun x hx => by
      have : e.level x < 1 - d := hx
      show e.level x < 1 + d
      linarith) (measurableSet_lt hm measurable_const) f1.ne, v1, v2]
    apply le_of_eq
    ring
  · refine (measureReal_mono hsub f1.ne).trans ?_
    rw [v1]
    refine mul_le_mul_of_nonneg_left ?_ hV
    nlinarith [pow_nonneg (sub_nonneg.2 h1) 3]

/-! ### Attraction of a region -/

theorem inv_sq_ball {R : ℝ} (hR : 0 < R) : ∫ y : V3 in Metric.ball 0 R, (‖y‖ ^ 2)⁻¹ = 24 * R := by
  have h1 := integral_fun_norm_addHaar (volume : Measure V3) (Iio R |>.indicator fun r : ℝ => (r ^ 2)⁻¹)
  have hd : Module.finrank ℝ V3 = 3 := by simp [V3]
  have hv : volume.real (Metric.ball (0 : V3) 1) = 8 := by
    unfold Measure.real
    rw [Real.volume_pi_ball _ one_pos]
    norm_num
  have e1 : (fun x : V3 => (Iio R).indicator (fun r : ℝ => (r ^ 2)⁻¹) ‖x‖) =
      (Metric.ball 0 R).indicator fun x => (‖x‖ ^ 2)⁻¹ := by
    funext x
    by_cases hx : ‖x‖ < R
    · rw [indicator_of_mem (show ‖x‖ ∈ Iio R from hx), indicator_of_mem (mem_ball_zero_iff.2 hx)]
    · rw [indicator_of_notMem (show ‖x‖ ∉ Iio R from hx), indicator_of_notMem fun h => hx (mem_ball_zero_iff.1 h)]
  have e2 : ∫ y in Ioi (0 : ℝ), y ^ (3 - 1) • (Iio R).indicator (fun r : ℝ => (r ^ 2)⁻¹) y = R := by
    have : ∀ y ∈ Ioi (0 : ℝ), y ^ (3 - 1) • (Iio R).indicator (fun r : ℝ => (r ^ 2)⁻¹) y =
        (Iio R).indicator (fun _ => 1) y := by
      intro y hy
      have hy0 : y ≠ 0 := (mem_Ioi.1 hy).ne'
      by_cases h : y < R
      · rw [indicator_of_mem (show y ∈ Iio R from h), indicator_of_mem (show y ∈ Iio R from h), smul_eq_mul]
        field_simp
      · rw [indicator_of_notMem (show y ∉ Iio R from h), indicator_of_notMem (show y ∉ Iio R from h), smul_zero]
    rw [setIntegral_congr_fun measurableSet_Ioi this, setIntegral_indicator measurableSet_Iio, Ioi_inter_Iio,
      setIntegral_const, Measure.real, Real.volume_Ioo, sub_zero, ENNReal.toReal_ofReal hR.le, smul_eq_mul, mul_one]
  rw [e1, integral_indicator measurableSet_ball, hd, hv, e2] at h1
  rw [h1]
  simp only [nsmul_eq_mul, smul_eq_mul]
  push_cast
  ring

theorem inv_sq_region {S : Set V3} (hv : volume S < ⊤) (p : V3) {R : ℝ} (hR : 0 < R) :
    IntegrableOn (fun x => (‖x - p‖ ^ 2)⁻¹) S ∧
      ∫ x in S, (‖x - p‖ ^ 2)⁻¹ ≤ 24 * R + volume.real S / R ^ 2 := by
  have hmp := measurePreserving_sub_right (volume : Measure V3) p
  have hemb := (MeasurableEquiv.subRight p).measurableEmbedding
  have hpre : (fun x : V3 => x - p) ⁻¹' Metric.ball 0 R = Metric.ball p R := by
    ext x
    simp [mem_ball, dist_eq_norm]
  have i1 : IntegrableOn (fun x => (‖x - p‖ ^ 2)⁻¹) (Metric.ball p R) := by
    have := (hmp.integrableOn_comp_preimage hemb).2 (norm_inv_integrableOn R)
    rwa [hpre] at this
  have v1 : ∫ x in Metric.ball p R, (‖x - p‖ ^ 2)⁻¹ = 24 * R := by
    have := hmp.setIntegral_preimage_emb hemb (fun y : V3 => (‖y‖ ^ 2)⁻¹) (Metric.ball 0 R)
    rw [hpre] at this
    rw [this, inv_sq_ball hR]
  set F : V3 → ℝ := (Metric.ball p R).indicator fun x => (‖x - p‖ ^ 2)⁻¹ with hF
  have iF : Integrable F := i1.integrable_indicator measurableSet_ball
  have hle : ∀ x, (‖x - p‖ ^ 2)⁻¹ ≤ F x + (R ^ 2)⁻¹ := by
    intro x
    by_cases hx : x ∈ Metric.ball p R
    · rw [hF, indicator_of_mem hx]
      have : 0 ≤ (R ^ 2)⁻¹ := by positivity
      linarith
    · rw [hF, indicator_of_notMem hx, zero_add]
      rw [mem_ball, dist_eq_norm, not_lt] at hx
      exact inv_anti₀ (by positivity) (pow_le_pow_left₀ hR.le hx 2)
  have iG : IntegrableOn (fun x => F x + (R ^ 2)⁻¹) S := iF.integrableOn.add (integrableOn_const hv.ne)
  have iS : IntegrableOn (fun x => (‖x - p‖ ^ 2)⁻¹) S := by
    refine iG.mono' (by fun_prop) (Filter.Eventually.of_forall fun x => ?_)
    rw [Real.norm_eq_abs, abs_of_nonneg (by positivity)]
    exact hle x
  refine ⟨iS, ?_⟩
  calc _ ≤ ∫ x in S, (F x + (R ^ 2)⁻¹) := integral_mono iS iG hle
    _ = (∫ x in S, F x) + volume.real S / R ^ 2 := by
        rw [integral_add iF.integrableOn (integrableOn_const hv.ne), setIntegral_const, smul_eq_mul, div_eq_mul_inv]
    _ ≤ (∫ x, F x) + volume.real S / R ^ 2 := by
        refine add_le_add (setIntegral_le_integral iF (Filter.Eventually.of_forall fun x => ?_)) le_rfl
        exact indicator_nonneg (s := Metric.ball p R) (f := fun x => (‖x - p‖ ^ 2)⁻¹) (fun x _ => by positivity) x
    _ = _ := by rw [integral_indicator measurableSet_ball, v1]

end Verif.Ellipsoids
