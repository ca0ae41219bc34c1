import Verif.Ellipsoids.SpecB
import Verif.Ellipsoids.LemmasD
import Mathlib.MeasureTheory.Constructions.HaarToSphere
import Mathlib.MeasureTheory.Integral.Gamma
import Mathlib.MeasureTheory.Integral.Pi
import Mathlib.Analysis.SpecialFunctions.Gaussian.GaussianIntegral

/-! Integrals of space: along the rays from the origin, and of the Gaussian functions that give the
elliptic integrals. -/

open MeasureTheory Set Metric

namespace Verif.Ellipsoids

theorem integral_polar {F : (Fin 3 → ℝ) → ℝ} (hF : Integrable F) :
    ∫ y, F y = ∫ u : sphere (0 : Fin 3 → ℝ) 1, ∫ r in Ioi (0 : ℝ), r ^ 2 * F (r • (u : Fin 3 → ℝ))
      ∂volume ∂(volume : Measure (Fin 3 → ℝ)).toSphere := by
  have hmp := (volume : Measure (Fin 3 → ℝ)).measurePreserving_homeomorphUnitSphereProd
  have hd : Module.finrank ℝ (Fin 3 → ℝ) = 3 := by simp
  rw [hd] at hmp
  have hemb := (homeomorphUnitSphereProd (Fin 3 → ℝ)).measurableEmbedding
  have e1 : ∀ x : ({(0 : Fin 3 → ℝ)}ᶜ : Set (Fin 3 → ℝ)),
      F x.1 = (fun q : sphere (0 : Fin 3 → ℝ) 1 × Ioi (0 : ℝ) => F (q.2.1 • q.1.1))
        (homeomorphUnitSphereProd (Fin 3 → ℝ) x) := by
    intro x
    have hx : ‖x.1‖ ≠ 0 := norm_ne_zero_iff.2 x.2
    simp [smul_smul, hx]
  have hF' : Integrable (fun x : ({(0 : Fin 3 → ℝ)}ᶜ : Set (Fin 3 → ℝ)) => F x.1)
      ((volume : Measure (Fin 3 → ℝ)).comap (↑)) := by
    have : IntegrableOn F ({0}ᶜ : Set (Fin 3 → ℝ)) := hF.integrableOn
    exact (integrableOn_iff_comap_subtypeVal (by measurability)).1 this
  have hP : Integrable (fun q : sphere (0 : Fin 3 → ℝ) 1 × Ioi (0 : ℝ) => F (q.2.1 • q.1.1))
      ((volume : Measure (Fin 3 → ℝ)).toSphere.prod (Measure.volumeIoiPow (3 - 1))) := by
    refine (hmp.integrable_comp_emb hemb).1 (hF'.congr ?_)
    exact Filter.Eventually.of_forall e1
  calc ∫ y, F y = ∫ x : ({(0 : Fin 3 → ℝ)}ᶜ : Set (Fin 3 → ℝ)), F x.1
        ∂((volume : Measure (Fin 3 → ℝ)).comap (↑)) := by
        rw [integral_subtype_comap (measurableSet_singleton _).compl F, restrict_compl_singleton]
    _ = ∫ q, F (q.2.1 • q.1.1) ∂((volume : Measure (Fin 3 → ℝ)).toSphere.prod
          (Measure.volumeIoiPow (3 - 1))) := by
        rw [← hmp.integral_comp hemb]
        exact integral_congr_ae (Filter.Eventually.of_forall e1)
    _ = _ := by
        rw [integral_prod _ hP]
        refine integral_congr_ae (Filter.Eventually.of_forall fun u => ?_)
        simp only [Measure.volumeIoiPow, ENNReal.ofReal]
        rw [integral_withDensity_eq_integral_smul,
          integral_subtype_comap measurableSet_Ioi fun a => Real.toNNReal (a ^ (3 - 1)) • F (a • u.1),
          setIntegral_congr_fun measurableSet_Ioi fun x hx => ?_]
        · simp only [NNReal.smul_def, Real.coe_toNNReal _ (pow_nonneg (le_of_lt (mem_Ioi.1 hx)) _), smul_eq_mul]
        · exact (measurable_subtype_coe.pow_const _).real_toNNReal

/-- Two functions with the same integrals along the rays have the same integral. -/
theorem integral_rays {F H : (Fin 3 → ℝ) → ℝ} (hF : Integrable F) (hH : Integrable H)
    (h : ∀ u : Fin 3 → ℝ, u ≠ 0 → ∫ r in Ioi (0 : ℝ), r ^ 2 * F (r • u) = ∫ r in Ioi (0 : ℝ), r ^ 2 * H (r • u)) :
    ∫ y, F y = ∫ y, H y := by
  rw [integral_polar hF, integral_polar hH]
  refine integral_congr_ae (Filter.Eventually.of_forall fun u => h _ ?_)
  have := u.2
  rw [mem_sphere_zero_iff_norm] at this
  intro h0
  rw [h0, norm_zero] at this
  exact zero_ne_one this

/-! ### Lengths -/

theorem abs_le_magnitude (v : V3) (i : Fin 3) : |v i| ≤ magnitude v := by
  unfold magnitude
  refine Real.abs_le_sqrt ?_
  exact Finset.single_le_sum (f := fun j => v j ^ 2) (fun j _ => sq_nonneg _) (Finset.mem_univ i)

theorem norm_le_magnitude (v : V3) : ‖v‖ ≤ magnitude v :=
  (pi_norm_le_iff_of_nonneg (Real.sqrt_nonneg _)).2 fun i => abs_le_magnitude v i

theorem magnitude_sq_sum (v : V3) : magnitude v ^ 2 = ∑ i, v i ^ 2 :=
  Real.sq_sqrt (Finset.sum_nonneg fun _ _ => sq_nonneg _)

theorem magnitude_pos {v : V3} (h : v ≠ 0) : 0 < magnitude v :=
  (norm_pos_iff.2 h).trans_le (norm_le_magnitude v)

theorem magnitude_smul_pos {r : ℝ} (hr : 0 < r) (v : V3) : magnitude (r • v) = r * magnitude v := by
  unfold magnitude
  rw [← Real.sqrt_sq hr.le, ← Real.sqrt_mul (sq_nonneg r), Finset.mul_sum, Real.sqrt_sq hr.le]
  simp only [Pi.smul_apply, smul_eq_mul, mul_pow]

theorem magnitude_neg' (v : V3) : magnitude (-v) = magnitude v := by
  unfold magnitude; simp

theorem measurable_magnitude : Measurable magnitude := by
  unfold magnitude; fun_prop

/-- Attraction of a unit mass over the gravitational constant. -/
noncomputable def pull (i : Fin 3) (y : V3) : ℝ := y i / magnitude y ^ 3

theorem measurable_pull (i : Fin 3) : Measurable (pull i) := by
  unfold pull
  have := measurable_magnitude
  fun_prop

theorem abs_pull_le (i : Fin 3) (y : V3) : |pull i y| ≤ (‖y‖ ^ 2)⁻¹ := by
  by_cases h : y = 0
  · subst h; simp [pull]
  have hm := magnitude_pos h
  have hn : 0 < ‖y‖ := norm_pos_iff.2 h
  unfold pull
  rw [abs_div, abs_of_pos (pow_pos hm 3)]
  calc |y i| / magnitude y ^ 3 ≤ magnitude y / magnitude y ^ 3 :=
        div_le_div_of_nonneg_right (abs_le_magnitude y i) (by positivity)
    _ = (magnitude y ^ 2)⁻¹ := by field_simp
    _ ≤ _ := inv_anti₀ (by positivity) (pow_le_pow_left₀ hn.le (norm_le_magnitude y) 2)

theorem norm_inv_integrableOn (R : ℝ) : IntegrableOn (fun y : V3 => (‖y‖ ^ 2)⁻¹) (ball 0 R) := by
  refine (integrableOn_fun_norm_addHaar (volume : Measure V3) (f := fun y : ℝ => (y ^ 2)⁻¹)).2 ?_
  have hd : Module.finrank ℝ V3 = 3 := by simp [V3]
  rw [hd]
  refine Measure.integrableOn_of_bounded (M := 1) measure_Ioo_lt_top.ne (by fun_prop) ?_
  refine (ae_restrict_iff' measurableSet_Ioo).2 (Filter.Eventually.of_forall fun y hy => ?_)
  have : y ^ 2 ≠ 0 := (pow_pos hy.1 2).ne'
  simp [this]

theorem pull_integrableOn_ball (i : Fin 3) (R : ℝ) : IntegrableOn (pull i) (ball 0 R) :=
  (norm_inv_integrableOn R).mono' (measurable_pull i).aestronglyMeasurable
    (Filter.Eventually.of_forall fun y => abs_pull_le i y)

theorem pull_integrableOn (i : Fin 3) {S : Set V3} (hS : Bornology.IsBounded S) : IntegrableOn (pull i) S := by
  obtain ⟨R, hR⟩ := hS.subset_ball 0
  exact (pull_integrableOn_ball i R).mono_set hR

/-! ### Gaussian functions -/

/-- Moments of a Gaussian function over the cube of the distance. -/
noncomputable def gauss (b : V3) (i j : Fin 3) (y : V3) : ℝ :=
  y i * y j / magnitude y ^ 3 * Real.exp (-∑ k, b k * y k ^ 2)

theorem measurable_gauss (b : V3) (i j : Fin 3) : Measurable (gauss b i j) := by
  unfold gauss
  have := measurable_magnitude
  fun_prop

theorem gauss_integrable {b : V3} (hb : ∀ k, 0 < b k) (i j : Fin 3) : Integrable (gauss b i j) := by
  obtain ⟨k0, hk0⟩ := Finite.exists_min b
  have h0 : Integrable (fun y : V3 => (fun r : ℝ => r⁻¹ * Real.exp (-b k0 * r ^ 2)) ‖y‖) := by
    refine (integrable_fun_norm_addHaar (volume : Measure V3)
      (f := fun r : ℝ => r⁻¹ * Real.exp (-b k0 * r ^ 2))).2 ?_
    have hd : Module.finrank ℝ V3 = 3 := by simp [V3]
    rw [hd]
    refine (integrable_mul_exp_neg_mul_sq (hb k0)).integrableOn.congr_fun (fun r hr => ?_) measurableSet_Ioi
    have : r ≠ 0 := (mem_Ioi.1 hr).ne'
    simp only [smul_eq_mul]
    field_simp
  refine h0.mono' (measurable_gauss b i j).aestronglyMeasurable (Filter.Eventually.of_forall fun y => ?_)
  by_cases h : y = 0
  · subst h; simp [gauss]
  have hm := magnitude_pos h
  have hn : 0 < ‖y‖ := norm_pos_iff.2 h
  unfold gauss
  rw [Real.norm_eq_abs, abs_mul, abs_div, abs_mul, abs_of_pos (pow_pos hm 3), Real.abs_exp]
  refine mul_le_mul ?_ ?_ (Real.exp_pos _).le (by positivity)
  · calc |y i| * |y j| / magnitude y ^ 3 ≤ magnitude y * magnitude y / magnitude y ^ 3 :=
          div_le_div_of_nonneg_right (mul_le_mul (abs_le_magnitude y i) (abs_le_magnitude y j)
            (abs_nonneg _) hm.le) (by positivity)
      _ = (magnitude y)⁻¹ := by field_simp
      _ ≤ _ := inv_anti₀ hn (norm_le_magnitude y)
  · rw [Real.exp_le_exp, neg_mul, neg_le_neg_iff]
    calc b k0 * ‖y‖ ^ 2 ≤ b k0 * magnitude y ^ 2 :=
          mul_le_mul_of_nonneg_left (pow_le_pow_left₀ hn.le (norm_le_magnitude y) 2) (hb k0).le
      _ = ∑ k, b k0 * y k ^ 2 := by rw [magnitude_sq_sum, Finset.mul_sum]
      _ ≤ _ := Finset.sum_le_sum fun k _ => mul_le_mul_of_nonneg_right (hk0 k) (sq_nonneg _)

/-- The moments of two different coordinates vanish. -/
theorem gauss_off (b : V3) {i j : Fin 3} (h : i ≠ j) : ∫ y, gauss b i j y = 0 := by
  have hmp : MeasurePreserving (fun (y : V3) (k : Fin 3) => (if k = j then -1 else 1) * y k) volume volume := by
    refine volume_preserving_pi (f := fun (k : Fin 3) (x : ℝ) => (if k = j then -1 else 1) * x) fun k => ?_
    by_cases hk : k = j
    · simpa [hk] using Measure.measurePreserving_neg (volume : Measure ℝ)
    · simp only [hk, if_false, one_mul]
      exact MeasurePreserving.id (volume : Measure ℝ)
  have hodd : ∀ y : V3, gauss b i j (fun k => (if k = j then -1 else 1) * y k) = -gauss b i j y := by
    intro y
    have hs : ∀ k, ((if k = j then (-1 : ℝ) else 1) * y k) ^ 2 = y k ^ 2 := fun k => by
      split_ifs <;> ring
    unfold gauss magnitude
    simp only [hs, h, if_false, if_true]
    ring
  have h1 : ∫ y : V3, gauss b i j (fun k => (if k = j then -1 else 1) * y k) = ∫ y, gauss b i j y := by
    have hinv : Function.Involutive (fun (y : V3) (k : Fin 3) => (if k = j then (-1 : ℝ) else 1) * y k) := by
      intro y; funext k
      by_cases hk : k = j <;> simp [hk]
    exact hmp.integral_comp (MeasurableEquiv.ofInvolutive _ hinv hmp.measurable).measurableEmbedding _
  simp only [hodd, integral_neg] at h1
  linarith

/-! ### Moments of Gaussian functions -/

theorem gaussian_second {β : ℝ} (hβ : 0 < β) :
    ∫ x : ℝ, x ^ 2 * Real.exp (-β * x ^ 2) = 1 / (2 * β) * √(Real.pi / β) := by
  have h1 : ∫ x in Ioi (0 : ℝ), x ^ (2 : ℝ) * Real.exp (-β * x ^ (2 : ℝ)) = 1 / (4 * β) * √(Real.pi / β) := by
    rw [integral_rpow_mul_exp_neg_mul_rpow (by norm_num) (by norm_num) hβ]
    have e1 : ((2 : ℝ) + 1) / 2 = 1 / 2 + 1 := by norm_num
    rw [e1, Real.Gamma_add_one (by norm_num), Real.Gamma_one_half_eq, Real.sqrt_div Real.pi_pos.le,
      show -((2 : ℝ) + 1) / 2 = -(1 + 1 / 2) by norm_num, Real.rpow_neg hβ.le, Real.rpow_add hβ, Real.rpow_one,
      ← Real.sqrt_eq_rpow]
    have := Real.sqrt_pos.2 hβ
    field_simp
    norm_num
  have h2 : ∫ x : ℝ, (fun t : ℝ => t ^ 2 * Real.exp (-β * t ^ 2)) |x| =
      2 * ∫ x in Ioi (0 : ℝ), (fun t : ℝ => t ^ 2 * Real.exp (-β * t ^ 2)) x :=
    integral_comp_abs (f := fun t : ℝ => t ^ 2 * Real.exp (-β * t ^ 2))
  simp only [sq_abs] at h2
  rw [h2]
  have h3 : ∫ x in Ioi (0 : ℝ), x ^ 2 * Real.exp (-β * x ^ 2) = 1 / (4 * β) * √(Real.pi / β) := by
    rw [← h1]; simp
  rw [h3]
  field_simp
  norm_num

theorem gaussian_moment {β : V3} (hβ : ∀ k, 0 < β k) (i : Fin 3) :
    ∫ y : V3, y i ^ 2 * Real.exp (-∑ k, β k * y k ^ 2) =
      1 / (2 * β i) * (√(Real.pi / β 0) * √(Real.pi / β 1) * √(Real.pi / β 2)) := by
  have h := integral_fintype_prod_volume_eq_prod (ι := Fin 3) (𝕜 := ℝ) (E := fun _ => ℝ)
    (fun k x => (if k = i then x ^ 2 else 1) * Real.exp (-β k * x ^ 2))
  have e : ∀ y : V3, ∏ k, ((if k = i then y k ^ 2 else 1) * Real.exp (-β k * y k ^ 2)) =
      y i ^ 2 * Real.exp (-∑ k, β k * y k ^ 2) := by
    intro y
    rw [Finset.prod_mul_distrib, Finset.prod_ite_eq' Finset.univ i, ← Real.exp_sum]
    simp [Finset.sum_neg_distrib]
  simp only [e] at h
  rw [h]
  have e2 : ∀ k, ∫ x : ℝ, (if k = i then x ^ 2 else 1) * Real.exp (-β k * x ^ 2) =
      (if k = i then 1 / (2 * β k) else 1) * √(Real.pi / β k) := by
    intro k
    by_cases hk : k = i
    · simp only [hk, if_true]
      exact gaussian_second (hβ i)
    · simp only [hk, if_false, one_mul]
      exact integral_gaussian (β k)
  simp only [e2]
  rw [Finset.prod_mul_distrib, Finset.prod_ite_eq' Finset.univ i]
  simp [Fin.prod_univ_three]

theorem sqrt_mul_exp_integral {m : ℝ} (hm : 0 < m) :
    IntegrableOn (fun s : ℝ => √s * Real.exp (-(m ^ 2 * s))) (Ioi 0) ∧
    ∫ s in Ioi (0 : ℝ), √s * Real.exp (-(m ^ 2 * s)) = √Real.pi / 2 / m ^ 3 := by
  have hm2 : 0 < m ^ 2 := by positivity
  constructor
  · have := integrableOn_rpow_mul_exp_neg_mul_rpow (p := 1) (s := 1 / 2) (b := m ^ 2) (by norm_num)
      (by norm_num) hm2
    refine this.congr_fun (fun s hs => ?_) measurableSet_Ioi
    simp only [Real.rpow_one, ← Real.sqrt_eq_rpow, neg_mul]
  · have := Real.integral_rpow_mul_exp_neg_mul_Ioi (a := 3 / 2) (r := m ^ 2) (by norm_num) hm2
    rw [show (3 : ℝ) / 2 - 1 = 1 / 2 by norm_num] at this
    simp only [← Real.sqrt_eq_rpow] at this
    rw [this, show (3 : ℝ) / 2 = 1 / 2 + 1 by norm_num, Real.Gamma_add_one (by norm_num), Real.Gamma_one_half_eq,
      Real.rpow_add (by positivity), Real.rpow_one, ← Real.sqrt_eq_rpow, Real.sqrt_div zero_le_one,
      Real.sqrt_sq hm.le, Real.sqrt_one]
    field_simp

/-- The integral of the Gaussian function over the cube of the distance, by Fubini. -/
theorem gauss_diag {b : V3} (hb : ∀ k, 0 < b k) (i : Fin 3) : ∫ y, gauss b i i y =
    Real.pi * ∫ s in Ioi (0 : ℝ), √s / ((b i + s) * (√(b 0 + s) * √(b 1 + s) * √(b 2 + s))) := by
  let K : V3 → ℝ → ℝ := fun y s => y i ^ 2 * Real.exp (-∑ k, b k * y k ^ 2) * (√s * Real.exp (-(magnitude y ^ 2 * s)))
  have hmeas : Measurable (Function.uncurry K) := by
    have := measurable_magnitude
    unfold Function.uncurry
    simp only [K]
    fun_prop
  have hpi : 0 < √Real.pi := Real.sqrt_pos.2 Real.pi_pos
  have hne : ∀ᵐ y : V3, y ≠ 0 := by
    rw [ae_iff]; simp
  have hin : ∀ y : V3, y ≠ 0 → ∫ s in Ioi (0 : ℝ), K y s = √Real.pi / 2 * gauss b i i y := by
    intro y hy
    simp only [K]
    rw [integral_const_mul, (sqrt_mul_exp_integral (magnitude_pos hy)).2]
    unfold gauss
    ring
  have hint : Integrable (Function.uncurry K) ((volume : Measure V3).prod (volume.restrict (Ioi (0 : ℝ)))) := by
    rw [integrable_prod_iff hmeas.aestronglyMeasurable]
    constructor
    · filter_upwards [hne] with y hy
      exact ((sqrt_mul_exp_integral (magnitude_pos hy)).1).const_mul (y i ^ 2 * Real.exp (-∑ k, b k * y k ^ 2))
    · refine ((gauss_integrable hb i i).const_mul (√Real.pi / 2)).congr ?_
      filter_upwards [hne] with y hy
      rw [← hin y hy]
      refine setIntegral_congr_fun measurableSet_Ioi fun s hs => ?_
      simp only [Function.uncurry, K]
      rw [Real.norm_of_nonneg (by positivity)]
  have h1 : ∫ y, ∫ s in Ioi (0 : ℝ), K y s = √Real.pi / 2 * ∫ y, gauss b i i y := by
    rw [← integral_const_mul]
    refine integral_congr_ae ?_
    filter_upwards [hne] with y hy using hin y hy
  have h2 : ∀ s ∈ Ioi (0 : ℝ), ∫ y, K y s = √Real.pi / 2 * Real.pi *
      (√s / ((b i + s) * (√(b 0 + s) * √(b 1 + s) * √(b 2 + s)))) := by
    intro s hs
    have hs0 : 0 < s := hs
    have hβ : ∀ k, 0 < b k + s := fun k => add_pos (hb k) hs0
    have e : ∀ y : V3, K y s = √s * (y i ^ 2 * Real.exp (-∑ k, (b k + s) * y k ^ 2)) := by
      intro y
      simp only [K]
      rw [magnitude_sq_sum, mul_left_comm, mul_assoc, ← Real.exp_add, ← mul_assoc, mul_assoc]
      congr 3
      simp only [add_mul, Finset.sum_add_distrib, Finset.sum_mul]
      simp only [mul_comm]
      ring
    simp only [e]
    rw [integral_const_mul, gaussian_moment (β := fun k => b k + s) hβ i]
    simp only [Real.sqrt_div Real.pi_pos.le]
    have q0 := Real.sqrt_pos.2 (hβ 0)
    have q1 := Real.sqrt_pos.2 (hβ 1)
    have q2 := Real.sqrt_pos.2 (hβ 2)
    have := hβ i
    have hpp : √Real.pi * √Real.pi = Real.pi := Real.mul_self_sqrt Real.pi_pos.le
    field_simp
    rw [show √Real.pi ^ 2 = Real.pi from Real.sq_sqrt Real.pi_pos.le]
  have h3 := integral_integral_swap hint
  rw [h1, setIntegral_congr_fun measurableSet_Ioi h2, integral_const_mul] at h3
  have : √Real.pi / 2 ≠ 0 := by positivity
  rw [mul_assoc] at h3
  exact mul_left_cancel₀ this h3

/-- The same with the elliptic integral. -/
theorem gauss_elliptic {s : V3} (hs : ∀ i, 0 < s i) (i : Fin 3) :
    ∫ y, gauss (fun k => 1 / s k ^ 2) i i y =
      Real.pi * (s i ^ 2 * (s 0 * s 1 * s 2) * ellipticIntegral (s 0) (s 1) (s 2) (s i) 0) := by
  rw [gauss_diag (fun k => by have := hs k; positivity) i]
  congr 1
  rw [← integral_comp_rpow_Ioi _ (show (-1 : ℝ) ≠ 0 by norm_num), ellipticIntegral, ← integral_const_mul]
  refine setIntegral_congr_fun measurableSet_Ioi fun l hl => ?_
  have hl0 : 0 < l := hl
  simp only [abs_neg, abs_one, one_mul, smul_eq_mul]
  rw [show (-1 : ℝ) - 1 = -2 by norm_num, Real.rpow_neg hl0.le, Real.rpow_neg_one, Real.rpow_two]
  have hk : ∀ k, 1 / s k ^ 2 + l⁻¹ = (s k ^ 2 + l) / (s k ^ 2 * l) := fun k => by
    have := hs k; field_simp; ring
  have hq : ∀ k, √((s k ^ 2 + l) / (s k ^ 2 * l)) = √(s k ^ 2 + l) / (s k * √l) := fun k => by
    have := hs k
    rw [Real.sqrt_div (by positivity), Real.sqrt_mul (by positivity), Real.sqrt_sq this.le]
  have hp : ∀ k, 0 < √(s k ^ 2 + l) := fun k => Real.sqrt_pos.2 (by have := hs k; positivity)
  have p0 := hp 0
  have p1 := hp 1
  have p2 := hp 2
  have s0 := hs 0
  have s1 := hs 1
  have s2 := hs 2
  have si := hs i
  have ql := Real.sqrt_pos.2 hl0
  have hll : √l ^ 2 = l := Real.sq_sqrt hl0.le
  simp only [hk, hq, rootProduct, Real.sqrt_inv]
  rw [Real.sqrt_mul (by positivity), Real.sqrt_mul (by positivity)]
  have e4 : √l ^ 4 = l ^ 2 := by rw [show (4 : ℕ) = 2 * 2 from rfl, pow_mul, hll]
  field_simp
  rw [hll]

end Verif.Ellipsoids
