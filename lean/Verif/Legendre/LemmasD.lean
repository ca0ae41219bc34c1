import Verif.Legendre.LemmasC
import Mathlib.Analysis.SpecialFunctions.Trigonometric.Deriv
import Mathlib.Analysis.Calculus.Deriv.Pow

/-! Helper lemmas for C62: derivatives with respect to the colatitude. -/

namespace Verif.Legendre

open Real

noncomputable section

/-- The functions of the colatitude. -/
def hv (n m : ℕ) (t : ℝ) : ℝ := sin t ^ m * ev n m (cos t)

theorem hv_gt {n m : ℕ} (h : n < m) (t : ℝ) : hv n m t = 0 := by simp [hv, ev_gt h]

theorem hv_deriv_zero (n : ℕ) (t : ℝ) : HasDerivAt (hv n 0) (-hv n 1 t) t := by
  unfold hv
  have := ((ev_deriv n 0 (cos t)).comp t (hasDerivAt_cos t))
  simp only [pow_zero, one_mul, pow_one]
  rw [show -(sin t * ev n 1 (cos t)) = ev n (0 + 1) (cos t) * -sin t by ring]
  exact this

theorem hv_deriv_succ (n m : ℕ) (t : ℝ) : HasDerivAt (hv n (m + 1))
    (0.5 * ((n : ℝ) + (m + 1)) * ((n : ℝ) - (m + 1) + 1) * hv n m t + -0.5 * hv n (m + 2) t) t := by
  have h1 := ((ev_deriv n (m + 1) (cos t)).comp t (hasDerivAt_cos t))
  have h2 := (hasDerivAt_sin t).pow (m + 1)
  have h3 := h2.mul h1
  have e : hv n (m + 1) = (sin ^ (m + 1)) * (ev n (m + 1) ∘ cos) := by
    funext s; simp [hv]
  rw [e]
  refine h3.congr_deriv ?_
  have ho := ev_ode n m (cos t)
  have hs := sin_sq_add_cos_sq t
  unfold hv
  simp only [Function.comp, Pi.pow_apply]
  have hc : cos t ^ 2 - 1 = -sin t ^ 2 := by linarith
  rw [hc] at ho
  push_cast
  linear_combination ((1 / 2) * sin t ^ m) * ho

theorem legendreNM_cos (n m : ℕ) (t : ℝ) (ht : t ∈ Set.Icc 0 π) : legendreNM n m (cos t) = hv n m t := by
  rw [legendreNM_eq]
  unfold hv ev
  congr 2
  rw [show 1 - cos t ^ 2 = sin t ^ 2 by linarith [sin_sq_add_cos_sq t], Real.sqrt_sq (sin_nonneg_of_mem_Icc ht)]

/-- Iteration of the derivatives. -/
theorem iterate_derivative (N : ℕ) (f : ℕ → ℕ → ℝ → ℝ) (T : Arr → Arr) (s : Set ℝ)
    (hs : UniqueDiffOn ℝ s) (q : ℕ → ℝ → Arr)
    (h0 : ∀ t ∈ s, ∀ n ≤ N, ∀ m ≤ n, q 0 t n m = f n m t)
    (hk : ∀ k t, ∀ n ≤ N, ∀ m ≤ n, q (k + 1) t n m = T (q k t) n m)
    (hcongr : ∀ p p' : Arr, ∀ n, (∀ j ≤ n, p n j = p' n j) → ∀ m ≤ n, T p n m = T p' n m)
    (hlin : ∀ (p : ℝ → Arr) (p' : Arr) (n : ℕ) (θ : ℝ), n ≤ N →
      (∀ j ≤ n, HasDerivWithinAt (fun t => p t n j) (p' n j) s θ) →
      ∀ m ≤ n, HasDerivWithinAt (fun t => T (p t) n m) (T p' n m) s θ)
    (hbase : ∀ θ ∈ s, ∀ n ≤ N, ∀ m ≤ n, HasDerivWithinAt (f n m) (T (fun i j => f i j θ) n m) s θ)
    (k n m : ℕ) (hn : n ≤ N) (hm : m ≤ n) (θ : ℝ) (hθ : θ ∈ s) :
    q k θ n m = iteratedDerivWithin k (f n m) s θ ∧
    HasDerivWithinAt (iteratedDerivWithin k (f n m) s) (q (k + 1) θ n m) s θ := by
  have main : ∀ k, (∀ θ ∈ s, ∀ n ≤ N, ∀ m ≤ n,
      HasDerivWithinAt (fun t => q k t n m) (q (k + 1) θ n m) s θ) ∧
      ∀ θ ∈ s, ∀ n ≤ N, ∀ m ≤ n, q k θ n m = iteratedDerivWithin k (f n m) s θ := by
    intro k
    induction k with
    | zero =>
      refine ⟨?_, fun θ hθ n hn m hm => by rw [iteratedDerivWithin_zero]; exact h0 θ hθ n hn m hm⟩
      intro θ hθ n hn m hm
      rw [hk 0 θ n hn m hm, hcongr (q 0 θ) (fun i j => f i j θ) n (fun j hj => h0 θ hθ n hn j hj) m hm]
      exact (hbase θ hθ n hn m hm).congr (fun t ht => h0 t ht n hn m hm) (h0 θ hθ n hn m hm)
    | succ k ih =>
      refine ⟨?_, ?_⟩
      · intro θ hθ n hn m hm
        rw [hk (k + 1) θ n hn m hm]
        have := hlin (fun t => q k t) (q (k + 1) θ) n θ hn (fun j hj => ih.1 θ hθ n hn j hj) m hm
        exact this.congr (fun t _ => hk k t n hn m hm) (hk k θ n hn m hm)
      · intro θ hθ n hn m hm
        rw [iteratedDerivWithin_succ]
        have := (ih.1 θ hθ n hn m hm).congr (f := fun t => q k t n m)
          (f₁ := iteratedDerivWithin k (f n m) s)
          (fun t ht => (ih.2 t ht n hn m hm).symm) (ih.2 θ hθ n hn m hm).symm
        exact (this.derivWithin (hs θ hθ)).symm
  refine ⟨(main k).2 θ hθ n hn m hm, ?_⟩
  exact ((main k).1 θ hθ n hn m hm).congr (fun t ht => ((main k).2 t ht n hn m hm).symm)
    ((main k).2 θ hθ n hn m hm).symm

theorem deriv1_congr (p p' : Arr) (n : ℕ) (h : ∀ j ≤ n, p n j = p' n j) (m : ℕ) (hm : m ≤ n) :
    deriv1 p n m = deriv1 p' n m := by
  unfold deriv1
  split
  · rfl
  · split
    · rw [h 1 (by omega)]
    · split
      · rw [h (n - 1) (by omega)]
      · rw [h (m - 1) (by omega), h (m + 1) (by omega)]

theorem deriv1_lin (p : ℝ → Arr) (p' : Arr) (n : ℕ) (s : Set ℝ) (θ : ℝ)
    (h : ∀ j ≤ n, HasDerivWithinAt (fun t => p t n j) (p' n j) s θ) (m : ℕ) (hm : m ≤ n) :
    HasDerivWithinAt (fun t => deriv1 (p t) n m) (deriv1 p' n m) s θ := by
  unfold deriv1
  split
  · exact hasDerivWithinAt_const _ _ _
  · split
    · exact (h 1 (by omega)).const_mul _
    · split
      · exact (h (n - 1) (by omega)).const_mul _
      · exact ((h (m - 1) (by omega)).const_mul _).add ((h (m + 1) (by omega)).const_mul _)

theorem deriv1_base (n m : ℕ) (hm : m ≤ n) (θ : ℝ) :
    HasDerivAt (hv n m) (deriv1 (fun i j => hv i j θ) n m) θ := by
  unfold deriv1
  cases m with
  | zero =>
    have := hv_deriv_zero n θ
    split
    · rename_i h
      subst h
      rwa [hv_gt (by norm_num), neg_zero] at this
    · rw [if_pos rfl, neg_one_mul]
      exact this
  | succ m =>
    have := hv_deriv_succ n m θ
    rw [if_neg (by omega), if_neg (by omega)]
    split
    · rename_i h
      subst h
      rw [hv_gt (n := m + 1) (m := m + 2) (by omega)] at this
      simp only [Nat.add_sub_cancel]
      convert this using 1
      push_cast
      ring
    · simp only [Nat.add_sub_cancel]
      convert this using 1
      push_cast
      ring

/-- Coefficients of the derivatives of the normalized functions. -/
def derivS (p : Arr) : Arr :=
  deriv3 0 (-p 1 1) (p 1 0) (fun n => -sq n * sq (n + 1) / sq 2) (fun n => 0.5 * sq n * sq (n + 1) * sq 2)
    (fun n => -0.5 * sq (n + 2) * sq (n - 1)) (fun n m => 0.5 * sq (n + m) * sq (n - m + 1))
    (fun n m => -0.5 * sq (n + m + 1) * sq (n - m)) (fun n => 0.5 * sq 2 * sq n) p

theorem derivS_congr (p p' : Arr) (n : ℕ) (h : ∀ j ≤ n, p n j = p' n j) (m : ℕ) (hm : m ≤ n) :
    derivS p n m = derivS p' n m := by
  unfold derivS deriv3
  split
  · rfl
  · split
    · rename_i h1
      subst h1
      rw [h 0 (by omega), h 1 (by omega)]
    · split
      · rw [h 1 (by omega)]
      · split
        · rw [h (n - 1) (by omega)]
        · split
          · rw [h 0 (by omega), h 2 (by omega)]
          · rw [h (m - 1) (by omega), h (m + 1) (by omega)]

theorem derivS_lin (p : ℝ → Arr) (p' : Arr) (n : ℕ) (s : Set ℝ) (θ : ℝ)
    (h : ∀ j ≤ n, HasDerivWithinAt (fun t => p t n j) (p' n j) s θ) (m : ℕ) (hm : m ≤ n) :
    HasDerivWithinAt (fun t => derivS (p t) n m) (derivS p' n m) s θ := by
  unfold derivS deriv3
  split
  · exact hasDerivWithinAt_const _ _ _
  · split
    · rename_i h1
      subst h1
      split
      · exact (h 1 (by omega)).neg
      · exact h 0 (by omega)
    · split
      · exact (h 1 (by omega)).const_mul _
      · split
        · exact (h (n - 1) (by omega)).const_mul _
        · split
          · exact ((h 0 (by omega)).const_mul _).add ((h 2 (by omega)).const_mul _)
          · exact ((h (m - 1) (by omega)).const_mul _).add ((h (m + 1) (by omega)).const_mul _)

/-- Neighbouring Schmidt factors. -/
theorem schmidt_step (n m : ℕ) (h : m + 1 ≤ n) :
    kf m * schmidt n (m + 1) * (sq (n + m + 1) * sq (n - m)) = kf (m + 1) * schmidt n m := by
  obtain ⟨e, rfl⟩ : ∃ e, n = e + m + 1 := ⟨n - m - 1, by omega⟩
  simp only [schmidt_eq]
  rw [show e + m + 1 - (m + 1) = e by omega, show e + m + 1 + (m + 1) = e + m + 1 + m + 1 by omega,
    show e + m + 1 - m = e + 1 by omega]
  simp only [F_succ]
  have p1 := (sq_pos (k := e + m + 1 + m + 1) (by omega)).ne'
  have p2 := (F_pos (e + m + 1 + m)).ne'
  field_simp

theorem schmidt_step_pos (n m : ℕ) (h : m + 1 ≤ n) (hm : 1 ≤ m) :
    schmidt n (m + 1) * (sq (n + m + 1) * sq (n - m)) = schmidt n m := by
  have := schmidt_step n m h
  rw [show kf (m + 1) = kf m by unfold kf; rw [if_neg (by omega), if_neg (by omega)]] at this
  exact mul_left_cancel₀ (kf_pos m).ne' (by linarith)

theorem schmidt_step_zero (n : ℕ) (h : 1 ≤ n) : schmidt n 1 * (sq (n + 1) * sq n) = sq 2 := by
  have := schmidt_step n 0 h
  rw [schmidt_zero, show kf 0 = 1 by simp [kf], show kf (0 + 1) = sq 2 by simp [kf]] at this
  simpa using this

/-- The derivatives of the normalized functions. -/
theorem derivS_base (c : ℕ → ℝ) (n m : ℕ) (hm : m ≤ n) (θ : ℝ) :
    HasDerivAt (fun t => c n * (schmidt n m * hv n m t))
      (derivS (fun i j => c i * (schmidt i j * hv i j θ)) n m) θ := by
  have key : c n * (schmidt n m * deriv1 (fun i j => hv i j θ) n m) =
      derivS (fun i j => c i * (schmidt i j * hv i j θ)) n m := by
    have s2 := (sq_pos (k := 2) (by norm_num)).ne'
    have s22 := sq_mul_self 2
    push_cast at s22
    have h05 : (0.5 : ℝ) = 1 / 2 := by norm_num
    unfold derivS deriv3 deriv1
    simp only [h05]
    by_cases h0 : n = 0
    · rw [if_pos h0, if_pos h0]; simp
    · rw [if_neg h0, if_neg h0]
      have z := schmidt_step_zero n (by omega)
      by_cases h1 : n = 1
      · rw [if_pos h1]
        subst h1
        have e1 : schmidt 1 1 = 1 := by
          have e : sq 1 = 1 := by simp [sq]
          simp only [Nat.reduceAdd, e, mul_one] at z
          exact mul_right_cancel₀ s2 (by linarith)
        by_cases hm0 : m = 0
        · rw [if_pos hm0, if_pos hm0, hm0, schmidt_zero, e1]; ring
        · have : m = 1 := by omega
          subst this
          rw [if_neg hm0, if_neg hm0, if_pos rfl, schmidt_zero, e1]
          simp only [Nat.sub_self]
          push_cast
          ring
      · rw [if_neg h1]
        by_cases hm0 : m = 0
        · rw [if_pos hm0, if_pos hm0, hm0, schmidt_zero]
          field_simp
          linear_combination (c n * hv n 1 θ) * z
        · rw [if_neg hm0, if_neg hm0]
          by_cases hmn : m = n
          · rw [if_pos hmn, if_pos hmn]
            subst hmn
            have st := schmidt_step_pos m (m - 1) (by omega) (by omega)
            rw [show m - 1 + 1 = m by omega, show m + (m - 1) + 1 = 2 * m by omega,
              show m - (m - 1) = 1 by omega] at st
            have e : sq 1 = 1 := by simp [sq]
            have e2 : sq (2 * m) = sq 2 * sq m := by
              unfold sq; rw [Nat.cast_mul, Real.sqrt_mul (by positivity)]
            have e3 := sq_mul_self m
            rw [e, e2, mul_one] at st
            rw [← st]
            linear_combination (-(c m) * schmidt m m * hv m (m - 1) θ) * e3 -
              (1 / 2 * c m * schmidt m m * sq m * sq m * hv m (m - 1) θ) * s22
          · rw [if_neg hmn, if_neg hmn]
            by_cases hm1 : m = 1
            · rw [if_pos hm1]
              subst hm1
              have st := schmidt_step_pos n 1 (by omega) (by omega)
              simp only [Nat.reduceAdd, Nat.sub_self] at st ⊢
              rw [schmidt_zero]
              have e1 := sq_mul_self n
              have e2 := sq_mul_self (n + 1)
              rw [show n + 1 + 1 = n + 2 by omega] at st
              push_cast at e2 ⊢
              linear_combination (c n / 2 * hv n 0 θ) * (sq n * sq (n + 1) * z -
                schmidt n 1 * sq (n + 1) * sq (n + 1) * e1 - schmidt n 1 * n * e2) +
                (1 / 2 * c n * hv n 2 θ) * st
            · rw [if_neg hm1]
              have st := schmidt_step_pos n m (by omega) (by omega)
              have st' := schmidt_step_pos n (m - 1) (by omega) (by omega)
              rw [show m - 1 + 1 = m by omega, show n + (m - 1) + 1 = n + m by omega,
                show n - (m - 1) = n - m + 1 by omega] at st'
              have e1 := sq_mul_self (n + m)
              have e2 := sq_mul_self (n - m + 1)
              have : ((n - m + 1 : ℕ) : ℝ) = (n : ℝ) - m + 1 := by
                rw [Nat.cast_add, Nat.cast_sub hm]; simp
              rw [this] at e2
              push_cast at e1
              rw [← st']
              linear_combination (-(1 / 2) * c n * schmidt n m * hv n (m - 1) θ) *
                (sq (n - m + 1) * sq (n - m + 1) * e1 + ((n : ℝ) + m) * e2) +
                (1 / 2 * c n * hv n (m + 1) θ) * st
  rw [← key]
  exact ((deriv1_base n m hm θ).const_mul _).const_mul _

end

end Verif.Legendre
