import Mathlib.Analysis.SpecialFunctions.Gaussian.GaussianIntegral
import Mathlib.Analysis.InnerProductSpace.PiL2
import Mathlib.LinearAlgebra.Matrix.NonsingularInverse
import Mathlib.MeasureTheory.Measure.OpenPos

/-! The matrix `1/√(h² + |xᵢ - xⱼ|²)` of different points (inverse multiquadric) is not singular. -/

namespace Verif.EqSources
open Real MeasureTheory Filter Topology

/-- Euclidean space of any dimension -/
abbrev EN (N : ℕ) := EuclideanSpace ℝ (Fin N)

/-- Powers of inner products are positive semidefinite. -/
theorem inner_pow_nonneg {n N : ℕ} (x : Fin n → EN N) (a : Fin n → ℝ) (k : ℕ) :
    0 ≤ ∑ i, ∑ j, a i * a j * (inner ℝ (x i) (x j)) ^ k := by
  have h : ∀ i j, (inner ℝ (x i) (x j)) ^ k =
      ∑ p : Fin k → Fin N, (∏ m, x i (p m)) * ∏ m, x j (p m) := by
    intro i j
    rw [PiLp.inner_apply, Fintype.sum_pow]
    refine Finset.sum_congr rfl fun p _ => ?_
    rw [← Finset.prod_mul_distrib]
    refine Finset.prod_congr rfl fun m _ => ?_
    simp [mul_comm]
  have e : ∑ i, ∑ j, a i * a j * (inner ℝ (x i) (x j)) ^ k =
      ∑ p : Fin k → Fin N, (∑ i, a i * ∏ m, x i (p m)) ^ 2 := by
    simp only [sq, Finset.sum_mul_sum]
    simp only [h, Finset.mul_sum]
    rw [show (∑ i, ∑ j, ∑ p : Fin k → Fin N, a i * a j * ((∏ m, x i (p m)) * ∏ m, x j (p m))) =
      ∑ i, ∑ p : Fin k → Fin N, ∑ j, a i * a j * ((∏ m, x i (p m)) * ∏ m, x j (p m)) from
      Finset.sum_congr rfl fun i _ => Finset.sum_comm, Finset.sum_comm]
    refine Finset.sum_congr rfl fun p _ => Finset.sum_congr rfl fun i _ => Finset.sum_congr rfl fun j _ => ?_
    ring
  rw [e]
  exact Finset.sum_nonneg fun p _ => sq_nonneg _

/-- The Gaussian kernel is positive semidefinite. -/
theorem gauss_nonneg {n N : ℕ} (x : Fin n → EN N) (c : Fin n → ℝ) (t : ℝ) (ht : 0 ≤ t) :
    0 ≤ ∑ i, ∑ j, c i * c j * exp (-t * ‖x i - x j‖ ^ 2) := by
  have h : ∀ i j, c i * c j * exp (-t * ‖x i - x j‖ ^ 2) =
      (c i * exp (-t * ‖x i‖ ^ 2)) * (c j * exp (-t * ‖x j‖ ^ 2)) * exp (2 * t * inner ℝ (x i) (x j)) := by
    intro i j
    rw [norm_sub_sq_real, show -t * (‖x i‖ ^ 2 - 2 * inner ℝ (x i) (x j) + ‖x j‖ ^ 2) =
      -t * ‖x i‖ ^ 2 + -t * ‖x j‖ ^ 2 + 2 * t * inner ℝ (x i) (x j) by ring, exp_add, exp_add]
    ring
  simp only [h]
  set a : Fin n → ℝ := fun i => c i * exp (-t * ‖x i‖ ^ 2)
  have hs : HasSum (fun k : ℕ => ∑ i, ∑ j, a i * a j * ((2 * t * inner ℝ (x i) (x j)) ^ k / k.factorial))
      (∑ i, ∑ j, a i * a j * exp (2 * t * inner ℝ (x i) (x j))) := by
    refine hasSum_sum fun i _ => hasSum_sum fun j _ => ?_
    refine HasSum.mul_left _ ?_
    rw [Real.exp_eq_exp_ℝ]
    exact NormedSpace.expSeries_div_hasSum_exp _
  refine hs.nonneg fun k => ?_
  have e : ∑ i, ∑ j, a i * a j * ((2 * t * inner ℝ (x i) (x j)) ^ k / k.factorial) =
      (2 * t) ^ k / k.factorial * ∑ i, ∑ j, a i * a j * (inner ℝ (x i) (x j)) ^ k := by
    simp only [Finset.mul_sum]
    refine Finset.sum_congr rfl fun i _ => Finset.sum_congr rfl fun j _ => ?_
    rw [mul_pow]
    ring
  rw [e]
  exact mul_nonneg (by positivity) (inner_pow_nonneg x a k)

theorem inv_sqrt_integral (s : ℝ) (hs : 0 < s) : 1 / √s = (1 / √π) * ∫ u : ℝ, exp (-s * u ^ 2) := by
  rw [integral_gaussian, sqrt_div pi_pos.le]
  have : √π ≠ 0 := by positivity
  field_simp

/-- The inverse multiquadric of different points is positive definite. -/
theorem multiquadric_pos {n N : ℕ} (x : Fin n → EN N) (hx : Function.Injective x) (h : ℝ) (hh : h ≠ 0)
    (c : Fin n → ℝ) (hc : ∑ i, ∑ j, c i * c j * (1 / √(h ^ 2 + ‖x i - x j‖ ^ 2)) = 0) : c = 0 := by
  have hpos : ∀ i j, 0 < h ^ 2 + ‖x i - x j‖ ^ 2 := fun i j => by positivity
  have hint : ∀ i j, Integrable fun u : ℝ => c i * c j * exp (-(h ^ 2 + ‖x i - x j‖ ^ 2) * u ^ 2) :=
    fun i j => (integrable_exp_neg_mul_sq (hpos i j)).const_mul _
  set F : ℝ → ℝ := fun u => ∑ i, ∑ j, c i * c j * exp (-(h ^ 2 + ‖x i - x j‖ ^ 2) * u ^ 2) with hF
  have hFe : ∀ u, F u = exp (-h ^ 2 * u ^ 2) * ∑ i, ∑ j, c i * c j * exp (-(u ^ 2) * ‖x i - x j‖ ^ 2) := by
    intro u
    simp only [hF, Finset.mul_sum]
    refine Finset.sum_congr rfl fun i _ => Finset.sum_congr rfl fun j _ => ?_
    rw [show -(h ^ 2 + ‖x i - x j‖ ^ 2) * u ^ 2 = -h ^ 2 * u ^ 2 + -(u ^ 2) * ‖x i - x j‖ ^ 2 by ring, exp_add]
    ring
  have hF0 : 0 ≤ F := fun u => by
    rw [hFe]
    exact mul_nonneg (exp_pos _).le (gauss_nonneg x c _ (sq_nonneg u))
  have hFi : Integrable F := integrable_finsetSum _ fun i _ => integrable_finsetSum _ fun j _ => hint i j
  have hFc : Continuous F := by
    rw [hF]
    fun_prop
  have hI : ∫ u, F u = 0 := by
    rw [hF, integral_finsetSum _ fun i _ => integrable_finsetSum _ fun j _ => hint i j]
    have e : ∀ i, ∫ u : ℝ, ∑ j, c i * c j * exp (-(h ^ 2 + ‖x i - x j‖ ^ 2) * u ^ 2) =
        √π * ∑ j, c i * c j * (1 / √(h ^ 2 + ‖x i - x j‖ ^ 2)) := by
      intro i
      rw [integral_finsetSum _ fun j _ => hint i j, Finset.mul_sum]
      refine Finset.sum_congr rfl fun j _ => ?_
      rw [integral_const_mul, inv_sqrt_integral _ (hpos i j)]
      have : √π ≠ 0 := by positivity
      field_simp
    simp only [e, ← Finset.mul_sum, hc, mul_zero]
  have hF1 : F = 0 := by
    have := (integral_eq_zero_iff_of_nonneg hF0 hFi).1 hI
    exact (Continuous.ae_eq_iff_eq volume hFc continuous_const).1 this
  have hQ : ∀ u : ℝ, ∑ i, ∑ j, c i * c j * exp (-(u ^ 2) * ‖x i - x j‖ ^ 2) = 0 := by
    intro u
    have := congrFun hF1 u
    rw [hFe] at this
    exact (mul_eq_zero.1 this).resolve_left (exp_pos _).ne'
  have hlim : Tendsto (fun u : ℝ => ∑ i, ∑ j, c i * c j * exp (-(u ^ 2) * ‖x i - x j‖ ^ 2)) atTop
      (𝓝 (∑ i, ∑ j, c i * c j * if i = j then 1 else 0)) := by
    refine tendsto_finsetSum _ fun i _ => tendsto_finsetSum _ fun j _ => Tendsto.const_mul _ ?_
    by_cases hij : i = j
    · subst hij
      simp
    · rw [if_neg hij]
      have hd : 0 < ‖x i - x j‖ ^ 2 := by
        have : x i - x j ≠ 0 := sub_ne_zero.2 fun e => hij (hx e)
        positivity
      refine tendsto_exp_atBot.comp ?_
      have h1 : Tendsto (fun u : ℝ => u ^ 2 * ‖x i - x j‖ ^ 2) atTop atTop :=
        (tendsto_pow_atTop two_ne_zero).atTop_mul_const hd
      refine (tendsto_neg_atTop_atBot.comp h1).congr fun u => ?_
      simp
  simp only [hQ] at hlim
  have hz := tendsto_nhds_unique hlim tendsto_const_nhds
  simp only [mul_ite, mul_one, mul_zero, Finset.sum_ite_eq, Finset.mem_univ, if_true] at hz
  have := (Finset.sum_eq_zero_iff_of_nonneg fun i _ => mul_self_nonneg (c i)).1 hz
  funext i
  exact mul_self_eq_zero.1 (this i (Finset.mem_univ i))

/-- The matrix of the inverse multiquadric of different points is not singular. -/
theorem multiquadric_det {n N : ℕ} (x : Fin n → EN N) (hx : Function.Injective x) (h : ℝ) (hh : h ≠ 0) :
    (Matrix.of fun i j => 1 / √(h ^ 2 + ‖x i - x j‖ ^ 2) : Matrix (Fin n) (Fin n) ℝ).det ≠ 0 := by
  intro h0
  obtain ⟨v, hv, hm⟩ := Matrix.exists_mulVec_eq_zero_iff.2 h0
  refine hv (multiquadric_pos x hx h hh v ?_)
  have e : ∀ i, ∑ j, v i * v j * (1 / √(h ^ 2 + ‖x i - x j‖ ^ 2)) = 0 := by
    intro i
    have := congrFun hm i
    simp only [Matrix.mulVec, dotProduct, Matrix.of_apply, Pi.zero_apply] at this
    calc _ = v i * ∑ j, 1 / √(h ^ 2 + ‖x i - x j‖ ^ 2) * v j := by
          rw [Finset.mul_sum]
          exact Finset.sum_congr rfl fun j _ => by ring
      _ = 0 := by rw [this, mul_zero]
  simp only [e, Finset.sum_const_zero]

end Verif.EqSources
