import Verif.Ellipsoids.Polar

/-! Newton's integral over an ellipsoid at the points inside and on its surface. -/

open MeasureTheory Set Metric

namespace Verif.Ellipsoids

/-- The points of the ellipsoid with semiaxes `s` along the axes. -/
def solid (s : V3) : Set V3 := {x | ∑ k, x k ^ 2 / s k ^ 2 < 1}

theorem solid_open (s : V3) : IsOpen (solid s) := by
  unfold solid
  refine isOpen_lt ?_ continuous_const
  fun_prop

theorem solid_bounded {s : V3} (hs : ∀ i, 0 < s i) : Bornology.IsBounded (solid s) := by
  refine isBounded_iff_forall_norm_le.2 ⟨∑ k, s k, fun x hx => ?_⟩
  refine (pi_norm_le_iff_of_nonneg (Finset.sum_nonneg fun k _ => (hs k).le)).2 fun i => ?_
  have h1 : x i ^ 2 / s i ^ 2 ≤ ∑ k, x k ^ 2 / s k ^ 2 :=
    Finset.single_le_sum (f := fun k => x k ^ 2 / s k ^ 2) (fun k _ => by positivity) (Finset.mem_univ i)
  have h2 : x i ^ 2 / s i ^ 2 < 1 := h1.trans_lt hx
  have hsi := hs i
  rw [div_lt_one (by positivity)] at h2
  have h3 : |x i| ≤ s i := abs_le_of_sq_le_sq h2.le hsi.le
  exact h3.trans (Finset.single_le_sum (f := s) (fun k _ => (hs k).le) (Finset.mem_univ i))

/-- A ray from a point of an ellipsoid leaves it once. -/
theorem ray_leaves {A B C r : ℝ} (hA : 0 < A) (hC : 0 ≤ C) (hr : 0 < r) :
    A * r ^ 2 + 2 * B * r < C ↔ r < (-B + √(B ^ 2 + A * C)) / A := by
  have hq : 0 ≤ B ^ 2 + A * C := by positivity
  have hB : -√(B ^ 2 + A * C) ≤ B := by
    have : |B| ≤ √(B ^ 2 + A * C) := Real.abs_le_sqrt (by nlinarith)
    exact (abs_le.1 this).1
  have hAr : 0 < A * r := mul_pos hA hr
  rw [lt_div_iff₀ hA]
  constructor
  · intro h
    have : A * r + B < √(B ^ 2 + A * C) := Real.lt_sqrt_of_sq_lt (by nlinarith)
    linarith
  · intro h
    have h1 : (A * r + B) ^ 2 < √(B ^ 2 + A * C) ^ 2 := sq_lt_sq' (by linarith) (by linarith)
    rw [Real.sq_sqrt hq] at h1
    nlinarith

theorem integral_below {l k : ℝ} (hl : 0 ≤ l) (f : ℝ → ℝ) (hf : ∀ r, 0 < r → f r = if r < l then k else 0) :
    IntegrableOn f (Ioi 0) ∧ ∫ r in Ioi (0 : ℝ), f r = l * k := by
  have e : ∀ r ∈ Ioi (0 : ℝ), f r = (Ioo (0 : ℝ) l).indicator (fun _ => k) r := by
    intro r hr
    rw [hf r hr]
    by_cases h : r < l
    · rw [if_pos h, indicator_of_mem (show r ∈ Ioo 0 l from ⟨hr, h⟩)]
    · rw [if_neg h, indicator_of_notMem fun hm => h hm.2]
  have hi : IntegrableOn ((Ioo (0 : ℝ) l).indicator (fun _ => k)) (Ioi 0) := by
    refine (IntegrableOn.integrable_indicator ?_ measurableSet_Ioo).integrableOn
    exact integrableOn_const (by simp)
  refine ⟨hi.congr_fun (fun r hr => (e r hr).symm) measurableSet_Ioi, ?_⟩
  rw [setIntegral_congr_fun measurableSet_Ioi e, setIntegral_indicator measurableSet_Ioo,
    inter_eq_right.2 fun r hr => hr.1]
  simp [hl]

theorem pull_smul {r : ℝ} (hr : 0 < r) (i : Fin 3) (u : V3) :
    r ^ 2 * pull i (r • u) = u i / magnitude u ^ 3 := by
  unfold pull
  rw [magnitude_smul_pos hr, Pi.smul_apply, smul_eq_mul, mul_pow]
  by_cases h : magnitude u = 0
  · simp [h]
  field_simp

theorem pull_neg (i : Fin 3) (y : V3) : pull i (-y) = -pull i y := by
  unfold pull
  rw [magnitude_neg', Pi.neg_apply, neg_div]

theorem exp_ray {A : ℝ} (hA : 0 < A) : ∫ r in Ioi (0 : ℝ), r * Real.exp (-(A * r ^ 2)) = 1 / (2 * A) := by
  have := integral_rpow_mul_exp_neg_mul_rpow (p := 2) (q := 1) (b := A) (by norm_num) (by norm_num) hA
  rw [show ((1 : ℝ) + 1) / 2 = 1 by norm_num, show -((1 : ℝ) + 1) / 2 = -1 by norm_num, Real.Gamma_one,
    Real.rpow_neg_one] at this
  simp only [Real.rpow_one, Real.rpow_two, neg_mul] at this
  rw [this]
  field_simp

/-- Newton's integral at a point of an ellipsoid or of its surface. -/
theorem newton_inside {s : V3} (hs : ∀ i, 0 < s i) {p : V3} (hp : ∑ k, p k ^ 2 / s k ^ 2 ≤ 1) (i : Fin 3) :
    ∫ x in solid s, pull i (x - p) =
      -(2 * Real.pi * (s 0 * s 1 * s 2) * p i * ellipticIntegral (s 0) (s 1) (s 2) (s i) 0) := by
  let B : Set V3 := (fun y => y + p) ⁻¹' solid s
  have hBm : MeasurableSet B := ((solid_open s).preimage (by fun_prop)).measurableSet
  have hBb : Bornology.IsBounded B := by
    obtain ⟨R, hR⟩ := isBounded_iff_forall_norm_le.1 (solid_bounded hs)
    refine isBounded_iff_forall_norm_le.2 ⟨R + ‖p‖, fun y hy => ?_⟩
    calc ‖y‖ = ‖(y + p) - p‖ := by rw [add_sub_cancel_right]
      _ ≤ ‖y + p‖ + ‖p‖ := norm_sub_le _ _
      _ ≤ _ := by linarith [hR _ hy]
  let F : V3 → ℝ := B.indicator (pull i)
  have hF : Integrable F := (pull_integrableOn i hBb).integrable_indicator hBm
  have h1 : ∫ x in solid s, pull i (x - p) = ∫ y, F y := by
    rw [integral_indicator hBm]
    have := (measurePreserving_add_right (volume : Measure V3) p).setIntegral_preimage_emb
      (measurableEmbedding_addRight p) (fun x => pull i (x - p)) (solid s)
    simp only [add_sub_cancel_right] at this
    exact this.symm
  have hF' : Integrable (fun y => F (-y)) := hF.comp_neg
  have h2 : ∫ y, F y = ∫ y, 1 / 2 * (F y + F (-y)) := by
    rw [integral_const_mul, integral_add hF hF', integral_neg_eq_self F volume]
    ring
  let H : V3 → ℝ := fun y => ∑ j, -2 * (p j / s j ^ 2) * gauss (fun k => 1 / s k ^ 2) i j y
  have hb : ∀ k, 0 < 1 / s k ^ 2 := fun k => by have := hs k; positivity
  have hHj : ∀ j, Integrable (fun y => -2 * (p j / s j ^ 2) * gauss (fun k => 1 / s k ^ 2) i j y) := fun j =>
    (gauss_integrable hb i j).const_mul _
  have hH : Integrable H := integrable_finsetSum _ fun j _ => hHj j
  have h3 : ∫ y, 1 / 2 * (F y + F (-y)) = ∫ y, H y := by
    refine integral_rays ((hF.add hF').const_mul _) hH fun u hu => ?_
    set A := ∑ k, u k ^ 2 / s k ^ 2 with hAdef
    set b := ∑ k, p k * u k / s k ^ 2 with hbdef
    have hA : 0 < A := by
      obtain ⟨k, hk⟩ := Function.ne_iff.1 hu
      refine Finset.sum_pos' (fun j _ => by positivity) ⟨k, Finset.mem_univ _, ?_⟩
      have := hs k
      have : u k ≠ 0 := hk
      positivity
    have hm := magnitude_pos hu
    set C := 1 - ∑ k, p k ^ 2 / s k ^ 2 with hCdef
    have hC : 0 ≤ C := by linarith
    have hmem : ∀ r : ℝ, r • u ∈ B ↔ A * r ^ 2 + 2 * b * r < C := by
      intro r
      have e : ∑ k, (r • u + p) k ^ 2 / s k ^ 2 = A * r ^ 2 + 2 * b * r + ∑ k, p k ^ 2 / s k ^ 2 := by
        rw [hAdef, hbdef, Finset.sum_mul, Finset.mul_sum, Finset.sum_mul, ← Finset.sum_add_distrib,
          ← Finset.sum_add_distrib]
        refine Finset.sum_congr rfl fun k _ => ?_
        simp only [Pi.add_apply, Pi.smul_apply, smul_eq_mul]
        ring
      show ∑ k, (r • u + p) k ^ 2 / s k ^ 2 < 1 ↔ _
      rw [e, hCdef]
      constructor <;> intro h <;> linarith
    have hq : ∀ x : ℝ, 0 ≤ (-x + √(x ^ 2 + A * C)) / A := fun x => by
      have : |x| ≤ √(x ^ 2 + A * C) := Real.abs_le_sqrt (by nlinarith [mul_nonneg hA.le hC])
      exact div_nonneg (by linarith [(abs_le.1 this).2]) hA.le
    obtain ⟨i1, v1⟩ := integral_below (hq b) (k := u i / magnitude u ^ 3) (fun r => r ^ 2 * F (r • u))
      (fun r hr => by
        by_cases h : r < (-b + √(b ^ 2 + A * C)) / A
        · rw [if_pos h, ← pull_smul hr]
          have : r • u ∈ B := (hmem r).2 ((ray_leaves hA hC hr).2 h)
          simp only [F, indicator_of_mem this]
        · rw [if_neg h]
          have : r • u ∉ B := fun hm => h ((ray_leaves hA hC hr).1 ((hmem r).1 hm))
          simp only [F, indicator_of_notMem this, mul_zero])
    obtain ⟨i2, v2⟩ := integral_below (hq (-b)) (k := -(u i / magnitude u ^ 3)) (fun r => r ^ 2 * F (-(r • u)))
      (fun r hr => by
        have hm' : -(r • u) ∈ B ↔ A * r ^ 2 + 2 * (-b) * r < C := by
          rw [← neg_smul, hmem (-r)]
          ring_nf
        by_cases h : r < (-(-b) + √((-b) ^ 2 + A * C)) / A
        · rw [if_pos h, ← pull_smul hr]
          have : -(r • u) ∈ B := hm'.2 ((ray_leaves hA hC hr).2 h)
          simp only [F, indicator_of_mem this, pull_neg, mul_neg]
        · rw [if_neg h]
          have : -(r • u) ∉ B := fun hm => h ((ray_leaves hA hC hr).1 (hm'.1 hm))
          simp only [F, indicator_of_notMem this, mul_zero])
    have lhs : ∫ r in Ioi (0 : ℝ), r ^ 2 * (1 / 2 * (F (r • u) + F (-(r • u)))) =
        -(u i * b / (A * magnitude u ^ 3)) := by
      have e : ∀ r : ℝ, r ^ 2 * (1 / 2 * (F (r • u) + F (-(r • u)))) =
          1 / 2 * (r ^ 2 * F (r • u) + r ^ 2 * F (-(r • u))) := fun r => by ring
      simp only [e]
      rw [integral_const_mul, integral_add i1 i2, v1, v2]
      simp only [neg_neg, neg_sq]
      field_simp
      ring
    rw [lhs]
    clear_value A b C
    have e : ∀ r ∈ Ioi (0 : ℝ), r ^ 2 * H (r • u) =
        (-2 * u i * b / magnitude u ^ 3) * (r * Real.exp (-(A * r ^ 2))) := by
      intro r hr
      have hr0 : 0 < r := hr
      have hexp : ∑ k, 1 / s k ^ 2 * (r * u k) ^ 2 = A * r ^ 2 := by
        rw [hAdef, Finset.sum_mul]
        refine Finset.sum_congr rfl fun k _ => ?_
        ring
      simp only [H, gauss, magnitude_smul_pos hr0, Pi.smul_apply, smul_eq_mul, hexp]
      rw [hbdef, Finset.mul_sum, Finset.mul_sum, Finset.sum_div, Finset.sum_mul]
      refine Finset.sum_congr rfl fun k _ => ?_
      field_simp
    rw [setIntegral_congr_fun measurableSet_Ioi e, integral_const_mul, exp_ray hA]
    field_simp
  rw [h1, h2, h3]
  simp only [H]
  rw [integral_finsetSum _ fun j _ => hHj j, Finset.sum_eq_single i]
  · rw [integral_const_mul, gauss_elliptic hs]
    have := hs i
    field_simp
  · intro j _ hj
    rw [integral_const_mul, gauss_off _ (Ne.symm hj), mul_zero]
  · simp

end Verif.Ellipsoids
