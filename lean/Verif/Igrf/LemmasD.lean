import Verif.Igrf.PropsC
import Verif.Igrf.ModelB
import Mathlib.Algebra.Polynomial.Sequence
import Mathlib.Algebra.Polynomial.Roots
import Mathlib.Analysis.SpecialFunctions.Complex.Circle

/-!
Helper lemmas for C119: trigonometric polynomials and sums of Legendre functions are determined by their values
at enough points.
-/

namespace Verif.Igrf

open Verif.Legendre Verif.Engine Real Polynomial

noncomputable section

/-! ### longitudes -/

/-- Σ a cos mλ + b sin mλ, m ≤ N. -/
def trig (N : ℕ) (a b : ℕ → ℝ) (lon : ℝ) : ℝ :=
  ∑ m ∈ Finset.range (N + 1), (a m * cos (m * lon) + b m * sin (m * lon))

/-- The polynomial of e^{iλ} that is e^{iNλ} times the sum. -/
def trigPoly (N : ℕ) (a b : ℕ → ℝ) : ℂ[X] :=
  ∑ m ∈ Finset.range (N + 1), (C (((a m : ℂ) - b m * Complex.I) / 2) * X ^ (N + m) +
    C (((a m : ℂ) + b m * Complex.I) / 2) * X ^ (N - m))

theorem trigPoly_eval (N : ℕ) (a b : ℕ → ℝ) (lon : ℝ) :
    (trigPoly N a b).eval (Complex.exp (lon * Complex.I)) =
      Complex.exp (N * (lon * Complex.I)) * (trig N a b lon : ℝ) := by
  unfold trigPoly trig
  rw [eval_finsetSum, Complex.ofReal_sum, Finset.mul_sum]
  refine Finset.sum_congr rfl fun m hm => ?_
  have hm : m ≤ N := by simpa [Nat.lt_succ_iff] using hm
  simp only [eval_add, eval_mul, eval_C, eval_pow, eval_X, ← Complex.exp_nat_mul]
  push_cast [Nat.cast_sub hm]
  rw [show ((N : ℂ) + m) * (lon * Complex.I) = N * (lon * Complex.I) + m * lon * Complex.I by ring,
    show ((N : ℂ) - m) * (lon * Complex.I) = N * (lon * Complex.I) + -(m * lon * Complex.I) by ring,
    Complex.exp_add, Complex.exp_add, Complex.cos, Complex.sin,
    show -((m : ℂ) * lon) * Complex.I = -(m * lon * Complex.I) by ring]
  generalize Complex.exp (m * lon * Complex.I) = u
  generalize Complex.exp (-(m * lon * Complex.I)) = v
  ring

theorem trigPoly_natDegree (N : ℕ) (a b : ℕ → ℝ) : (trigPoly N a b).natDegree ≤ 2 * N := by
  unfold trigPoly
  refine natDegree_sum_le_of_forall_le _ _ fun m hm => ?_
  have hm : m ≤ N := by simpa [Nat.lt_succ_iff] using hm
  refine natDegree_add_le_of_degree_le ?_ ?_
  · exact (natDegree_C_mul_X_pow_le _ _).trans (by omega)
  · exact (natDegree_C_mul_X_pow_le _ _).trans (by omega)

/-- A sum that vanishes at more than 2N longitudes is zero: so are its coefficients. -/
theorem trig_determined {N : ℕ} {a b : ℕ → ℝ} {K : ℕ} (hK : 2 * N < K) (lon : ℕ → ℝ)
    (hinj : Set.InjOn (fun k => Complex.exp (lon k * Complex.I)) (Finset.range K))
    (h0 : ∀ k < K, trig N a b (lon k) = 0) :
    (∀ x, trig N a b x = 0) ∧ ∀ m ≤ N, a m = 0 ∧ (1 ≤ m → b m = 0) := by
  have hp : trigPoly N a b = 0 := by
    refine eq_zero_of_natDegree_lt_card_of_eval_eq_zero' _
      ((Finset.range K).image fun k => Complex.exp (lon k * Complex.I)) ?_ ?_
    · intro z hz
      obtain ⟨k, hk, rfl⟩ := Finset.mem_image.1 hz
      rw [trigPoly_eval, h0 k (by simpa using hk)]
      simp
    · rw [Finset.card_image_of_injOn hinj, Finset.card_range]
      exact (trigPoly_natDegree N a b).trans_lt hK
  refine ⟨fun x => ?_, fun m hm => ?_⟩
  · have := trigPoly_eval N a b x
    rw [hp, eval_zero] at this
    have h := mul_eq_zero.1 this.symm
    rcases h with h | h
    · exact absurd h (Complex.exp_ne_zero _)
    · exact_mod_cast h
  · have hc : (trigPoly N a b).coeff (N + m) = 0 := by rw [hp, coeff_zero]
    unfold trigPoly at hc
    rw [finsetSum_coeff] at hc
    simp only [coeff_add, coeff_C_mul_X_pow] at hc
    rw [Finset.sum_eq_single m] at hc
    · rw [if_pos rfl] at hc
      by_cases h1 : 1 ≤ m
      · rw [if_neg (by omega), add_zero] at hc
        have h2 : (a m : ℂ) - b m * Complex.I = 0 := by
          rcases div_eq_zero_iff.1 hc with h | h
          · exact h
          · norm_num at h
        have hr := congrArg Complex.re h2
        have hi := congrArg Complex.im h2
        simp at hr hi
        exact ⟨hr, fun _ => hi⟩
      · have : m = 0 := by omega
        subst this
        rw [if_pos (by simp)] at hc
        refine ⟨?_, fun h => absurd h h1⟩
        have hr := congrArg Complex.re hc
        simp at hr
        linarith
    · intro k hk' hk
      have hk' : k ≤ N := by simpa [Nat.lt_succ_iff] using hk'
      rw [if_neg (by omega), zero_add]
      split
      · exfalso; omega
      · rfl
    · intro h
      simp at h
      omega

/-! ### Legendre functions -/

theorem L_diag_ne (n : ℕ) : L n n ≠ 0 := by
  induction n with
  | zero => rw [L_zero_zero]; exact one_ne_zero
  | succ n ih =>
    rw [L_diag]
    refine mul_ne_zero ?_ ih
    have : (2 * (n : ℝ[X]) + 1) = ((2 * n + 1 : ℕ) : ℝ[X]) := by push_cast; ring
    rw [this]
    exact Nat.cast_ne_zero.2 (by omega)

theorem iterate_L_add (n m k : ℕ) : derivative^[k] (L n m) = L n (m + k) := by
  induction k with
  | zero => rfl
  | succ k ih => rw [Function.iterate_succ_apply', ih, L_succ]; rfl

theorem L_degree (m i : ℕ) : (L (i + m) m).degree = i := by
  have hne : L (i + m) m ≠ 0 := by
    intro h
    have := iterate_L_add (i + m) m i
    rw [h, show m + i = i + m by omega] at this
    simp at this
    exact L_diag_ne _ this.symm
  rw [degree_eq_natDegree hne]
  congr 1
  refine le_antisymm ?_ ?_
  · unfold L W
    refine (natDegree_C_mul_le _ _).trans ((natDegree_iterate_derivative _ _).trans ?_)
    have h1 : ((X ^ 2 - 1 : ℝ[X]) ^ (i + m)).natDegree ≤ (i + m) * 2 := by
      refine natDegree_pow_le.trans (Nat.mul_le_mul_left _ ?_)
      have : (X ^ 2 - 1 : ℝ[X]).natDegree ≤ max (X ^ 2 : ℝ[X]).natDegree (1 : ℝ[X]).natDegree :=
        natDegree_sub_le _ _
      simpa using this
    omega
  · by_contra hlt
    have := iterate_L_add (i + m) m i
    rw [iterate_derivative_eq_zero (by omega), show m + i = i + m by omega] at this
    exact L_diag_ne _ this.symm

/-- A combination of the functions of order m that vanishes at more than N colatitudes outside the poles has no
coefficients. -/
theorem legendre_determined {N m : ℕ} (c : ℕ → ℝ) (θ : ℕ → ℝ) {K : ℕ} (hK : N < K)
    (hθ : ∀ k < K, θ k ∈ Set.Ioo 0 π) (hinj : Set.InjOn θ (Finset.range K))
    (h0 : ∀ k < K, ∑ i ∈ Finset.range (N + 1 - m), c i * schmidtP (i + m) m (θ k) = 0) :
    ∀ i < N + 1 - m, c i = 0 := by
  set S : Polynomial.Sequence ℝ := ⟨fun i => L (i + m) m, L_degree m⟩ with hS
  have hp : ∑ i ∈ Finset.range (N + 1 - m), (c i * schmidt (i + m) m) • S i = 0 := by
    refine eq_zero_of_natDegree_lt_card_of_eval_eq_zero' _
      ((Finset.range K).image fun k => cos (θ k)) ?_ ?_
    · intro x hx
      obtain ⟨k, hk, rfl⟩ := Finset.mem_image.1 hx
      have hk : k < K := by simpa using hk
      have h := h0 k hk
      have hs : sin (θ k) ≠ 0 := (sin_pos_of_mem_Ioo (hθ k hk)).ne'
      rw [eval_finsetSum]
      have e : ∀ i, c i * schmidtP (i + m) m (θ k) =
          sin (θ k) ^ m * (c i * schmidt (i + m) m * (L (i + m) m).eval (cos (θ k))) := by
        intro i
        unfold schmidtP
        rw [legendreNM_eq, ← abs_sin_eq_sqrt_one_sub_cos_sq, abs_of_pos (sin_pos_of_mem_Ioo (hθ k hk))]
        ring
      simp only [e, ← Finset.mul_sum] at h
      rcases mul_eq_zero.1 h with h | h
      · exact absurd h (pow_ne_zero _ hs)
      · simpa [smul_eq_C_mul, hS] using h
    · rw [Finset.card_image_of_injOn, Finset.card_range]
      · refine lt_of_le_of_lt (natDegree_sum_le_of_forall_le (n := N) _ _ fun i hi => ?_) hK
        have hi : i < N + 1 - m := by simpa using hi
        refine (natDegree_smul_le _ _).trans ?_
        rw [S.natDegree_eq]
        omega
      · intro k hk k' hk' h
        have hk1 : k < K := by simpa using hk
        have hk2 : k' < K := by simpa using hk'
        exact hinj hk hk' (injOn_cos ⟨(hθ k hk1).1.le, (hθ k hk1).2.le⟩ ⟨(hθ k' hk2).1.le, (hθ k' hk2).2.le⟩ h)
  intro i hi
  have := linearIndependent_iff'.1 S.linearIndependent (Finset.range (N + 1 - m)) _ hp i (by simpa using hi)
  exact (mul_eq_zero.1 this).resolve_right (schmidt_pos _ _).ne'

end

end Verif.Igrf
