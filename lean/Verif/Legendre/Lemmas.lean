import Verif.Legendre.Model
import Verif.Legendre.Spec
import Mathlib.Algebra.Polynomial.Derivative
import Mathlib.Analysis.Calculus.Deriv.Polynomial
import Mathlib.Analysis.Calculus.IteratedDeriv.Lemmas
import Mathlib.Tactic.LinearCombination
import Mathlib.Tactic.FieldSimp
import Mathlib.Tactic.Ring

/-! Helper lemmas for C60: recurrences of the Legendre polynomials. -/

namespace Verif.Legendre

open Polynomial

noncomputable section

/-- k-th derivative of (X² - 1)^n. -/
def W (n k : ℕ) : ℝ[X] := derivative^[k] ((X ^ 2 - 1) ^ n)

theorem W_succ (n k : ℕ) : derivative (W n k) = W n (k + 1) := by
  unfold W
  rw [Function.iterate_succ_apply']

theorem dw (n : ℕ) : derivative ((X ^ 2 - 1 : ℝ[X]) ^ (n + 1)) =
    2 * ((n : ℝ[X]) + 1) * X * (X ^ 2 - 1) ^ n := by
  rw [derivative_pow]
  simp
  ring

/-- The equation of the derivatives. -/
theorem W_ode (n k : ℕ) : (X ^ 2 - 1) * W n (k + 2) + (2 * ((k : ℝ[X]) + 1) - 2 * (n : ℝ[X])) * X * W n (k + 1) +
    (((k : ℝ[X]) + 1) * (k : ℝ[X]) - 2 * (n : ℝ[X]) * ((k : ℝ[X]) + 1)) * W n k = 0 := by
  induction k with
  | zero =>
    have h0 : (X ^ 2 - 1) * W n 1 - 2 * (n : ℝ[X]) * X * W n 0 = 0 := by
      cases n with
      | zero => simp [W]
      | succ n =>
        have : W (n + 1) 1 = 2 * ((n : ℝ[X]) + 1) * X * (X ^ 2 - 1) ^ n := by
          rw [← dw]; rfl
        rw [this]
        simp only [W, Function.iterate_zero, id]
        push_cast
        ring
    have := congrArg derivative h0
    simp only [derivative_sub, derivative_mul, derivative_zero, W_succ] at this
    simp at this
    push_cast
    linear_combination this
  | succ k ih =>
    have := congrArg derivative ih
    simp only [derivative_add, derivative_sub, derivative_mul, derivative_zero, W_succ] at this
    simp at this
    push_cast
    linear_combination this

/-- From n to n + 1: derivative of the power. -/
theorem W_next (n k : ℕ) : W (n + 1) (k + 2) = 2 * ((n : ℝ[X]) + 1) * (X * W n (k + 1) + ((k : ℝ[X]) + 1) * W n k) := by
  induction k with
  | zero =>
    have h1 : W (n + 1) 1 = 2 * ((n : ℝ[X]) + 1) * X * W n 0 := by
      show derivative ((X ^ 2 - 1 : ℝ[X]) ^ (n + 1)) = _
      rw [dw]; rfl
    have := congrArg derivative h1
    rw [W_succ] at this
    rw [this]
    simp only [derivative_mul, derivative_add, W_succ]
    simp
    ring
  | succ k ih =>
    have := congrArg derivative ih
    rw [W_succ] at this
    rw [show k + 1 + 2 = k + 2 + 1 by ring, this]
    simp only [derivative_mul, derivative_add, W_succ, derivative_natCast, derivative_X, derivative_one,
      derivative_ofNat]
    push_cast
    ring

/-- From n to n + 1: the product with X² - 1. -/
theorem W_mul (n k : ℕ) : W (n + 1) (k + 2) = (X ^ 2 - 1) * W n (k + 2) +
    2 * ((k : ℝ[X]) + 2) * X * W n (k + 1) + ((k : ℝ[X]) + 2) * ((k : ℝ[X]) + 1) * W n k := by
  induction k with
  | zero =>
    have h0 : W (n + 1) 0 = (X ^ 2 - 1) * W n 0 := by
      simp only [W, Function.iterate_zero, id]; ring
    have h1 := congrArg derivative h0
    have h2 := congrArg derivative h1
    simp only [derivative_mul, derivative_add, derivative_sub, W_succ] at h2
    simp at h2
    push_cast
    linear_combination h2
  | succ k ih =>
    have := congrArg derivative ih
    rw [W_succ] at this
    rw [show k + 1 + 2 = k + 2 + 1 by ring, this]
    simp only [derivative_mul, derivative_add, derivative_sub, W_succ]
    simp
    ring

/-- m-th derivative of the Legendre polynomial. -/
def L (n m : ℕ) : ℝ[X] := C (1 / (2 ^ n * (n.factorial : ℝ))) * W n (n + m)

theorem L_succ (n m : ℕ) : derivative (L n m) = L n (m + 1) := by
  unfold L
  rw [derivative_C_mul, W_succ]
  rfl

theorem L_zero {n m : ℕ} (h : n < m) : L n m = 0 := by
  unfold L W
  rw [iterate_derivative_eq_zero, mul_zero]
  have h1 : ((X ^ 2 - 1 : ℝ[X]) ^ n).natDegree ≤ n * 2 := by
    refine natDegree_pow_le.trans (Nat.mul_le_mul_left n ?_)
    have : (X ^ 2 - 1 : ℝ[X]).natDegree ≤ max (X ^ 2 : ℝ[X]).natDegree (1 : ℝ[X]).natDegree :=
      natDegree_sub_le _ _
    simpa using this
  omega

theorem L_zero_zero : L 0 0 = 1 := by simp [L, W]

theorem factor_succ (n : ℕ) : (C (1 / (2 ^ (n + 1) * ((n + 1).factorial : ℝ))) : ℝ[X]) *
    (2 * ((n : ℝ[X]) + 1)) = C (1 / (2 ^ n * (n.factorial : ℝ))) := by
  have : (2 * ((n : ℝ[X]) + 1)) = C (2 * ((n : ℝ) + 1)) := by
    rw [C_mul, C_add, C_1, show (C (2 : ℝ)) = 2 from rfl]; simp
  rw [this, ← C_mul]
  congr 1
  rw [Nat.factorial_succ]
  have h1 : (n.factorial : ℝ) ≠ 0 := by positivity
  have h2 : (n : ℝ) + 1 ≠ 0 := by positivity
  push_cast
  field_simp
  ring

theorem factor_ne (n : ℕ) : (1 / (2 ^ n * (n.factorial : ℝ)) : ℝ) ≠ 0 := by positivity

/-- A: L_{n+1}^(m+1) = X L_n^(m+1) + (n + m + 1) L_n^(m) -/
theorem L_A (n m : ℕ) : L (n + 1) (m + 1) = X * L n (m + 1) + ((n : ℝ[X]) + (m : ℝ[X]) + 1) * L n m := by
  unfold L
  rw [show n + 1 + (m + 1) = n + m + 2 by ring, W_next, ← mul_assoc, factor_succ,
    show n + (m + 1) = n + m + 1 by ring]
  push_cast
  ring

/-- Legendre's equation, differentiated. -/
theorem L_ode (n m : ℕ) : (X ^ 2 - 1) * L n (m + 2) + 2 * ((m : ℝ[X]) + 1) * X * L n (m + 1) -
    ((n : ℝ[X]) + (m : ℝ[X]) + 1) * ((n : ℝ[X]) - (m : ℝ[X])) * L n m = 0 := by
  have := W_ode n (n + m)
  unfold L
  rw [show n + (m + 2) = n + m + 2 by ring, show n + (m + 1) = n + m + 1 by ring]
  push_cast at this
  linear_combination C (1 / (2 ^ n * (n.factorial : ℝ))) * this

/-- (n + 1) L_{n+1} = (X² - 1) L_n' + (n + 1) X L_n -/
theorem L_C (n : ℕ) : ((n : ℝ[X]) + 1) * L (n + 1) 0 = (X ^ 2 - 1) * L n 1 +
    ((n : ℝ[X]) + 1) * X * L n 0 := by
  cases n with
  | zero =>
    have h1 : W 1 1 = 2 * X := by
      have := dw 0
      simp at this
      simp only [W, pow_one, Function.iterate_one]
      simpa using this
    have h2 : L 0 1 = 0 := L_zero (by norm_num)
    rw [h2, L_zero_zero]
    unfold L
    simp only [Nat.zero_add, Nat.add_zero, h1]
    have := factor_succ 0
    simp only [Nat.zero_add, Nat.cast_zero, zero_add, mul_one, pow_one, pow_zero] at this
    rw [← mul_assoc] 
    simp only [Nat.cast_zero, zero_add, one_mul, mul_zero, mul_one]
    rw [show C (1 / (2 ^ 1 * ((Nat.factorial 1 : ℕ) : ℝ))) * (2 * X) =
      (C (1 / (2 ^ 1 * ((Nat.factorial 1 : ℕ) : ℝ))) * 2) * X by ring]
    simp only [pow_one]
    rw [this]
    simp
  | succ k =>
    have e1 := W_mul (k + 1) k
    have e2 := W_ode (k + 1) k
    have e3 := factor_succ (k + 1)
    set F := C (1 / (2 ^ (k + 1 + 1) * ((k + 1 + 1).factorial : ℝ))) with hF
    have hL2 : L (k + 1 + 1) 0 = F * W (k + 2) (k + 2) := rfl
    have hL1 : L (k + 1) 1 = F * (2 * (((k + 1 : ℕ) : ℝ[X]) + 1)) * W (k + 1) (k + 2) := by
      rw [e3]; rfl
    have hL0 : L (k + 1) 0 = F * (2 * (((k + 1 : ℕ) : ℝ[X]) + 1)) * W (k + 1) (k + 1) := by
      rw [e3]; rfl
    rw [hL2, hL1, hL0]
    push_cast at e1 e2 ⊢
    linear_combination F * ((k : ℝ[X]) + 2) * e1 - F * ((k : ℝ[X]) + 2) * e2

/-- B: L_n^(m+1) = X L_{n+1}^(m+1) - (n + 1 - m) L_{n+1}^(m) -/
theorem L_B (n m : ℕ) : L n (m + 1) = X * L (n + 1) (m + 1) - ((n : ℝ[X]) + 1 - (m : ℝ[X])) * L (n + 1) m := by
  induction m with
  | zero =>
    have a := L_A n 0
    have c := L_C n
    push_cast at a ⊢
    linear_combination (-X) * a + c
  | succ m ih =>
    have := congrArg derivative ih
    simp only [derivative_sub, derivative_mul, derivative_add, L_succ] at this
    simp at this
    push_cast
    linear_combination this

/-- The recurrence in the degree. -/
theorem L_rec (n m : ℕ) : ((n : ℝ[X]) + 2 - (m : ℝ[X])) * L (n + 2) m = (2 * (n : ℝ[X]) + 3) * X * L (n + 1) m -
    ((n : ℝ[X]) + (m : ℝ[X]) + 1) * L n m := by
  cases m with
  | zero =>
    have a := L_A n 0
    have b := L_B n 0
    have c := L_C (n + 1)
    push_cast at a b c ⊢
    linear_combination c - a - X * b
  | succ m =>
    have a := L_A (n + 1) m
    have b := L_B n m
    push_cast at a b ⊢
    linear_combination ((n : ℝ[X]) + 1 - (m : ℝ[X])) * a + ((n : ℝ[X]) + (m : ℝ[X]) + 2) * b

/-- The last two orders of each degree. -/
theorem L_diag (n : ℕ) : L (n + 1) (n + 1) = (2 * (n : ℝ[X]) + 1) * L n n := by
  have a := L_A n n
  rw [L_zero (n := n) (m := n + 1) (by omega)] at a
  linear_combination a

theorem L_sub (n : ℕ) : L (n + 1) n = (2 * (n : ℝ[X]) + 1) * X * L n n := by
  cases n with
  | zero =>
    have c := L_C 0
    rw [L_zero (n := 0) (m := 1) (by omega)] at c
    push_cast at c ⊢
    linear_combination c
  | succ n =>
    have r := L_rec n (n + 1)
    rw [L_zero (n := n) (m := n + 1) (by omega)] at r
    push_cast at r ⊢
    linear_combination r

/-! ### the specification -/

theorem iteratedDeriv_eval (p : ℝ[X]) (k : ℕ) :
    iteratedDeriv k (fun t => p.eval t) = fun t => (derivative^[k] p).eval t := by
  induction k with
  | zero => simp
  | succ k ih =>
    rw [iteratedDeriv_succ, ih]
    funext t
    rw [Polynomial.deriv, Function.iterate_succ_apply']

theorem legendreP_eq (n : ℕ) : legendreP n = fun x => (L n 0).eval x := by
  funext x
  unfold legendreP L W
  have : (fun t : ℝ => (t ^ 2 - 1) ^ n) = fun t => ((X ^ 2 - 1 : ℝ[X]) ^ n).eval t := by
    funext t; simp
  rw [this, iteratedDeriv_eval]
  simp

theorem iterate_L (n m : ℕ) : derivative^[m] (L n 0) = L n m := by
  induction m with
  | zero => rfl
  | succ m ih => rw [Function.iterate_succ_apply', ih, L_succ]

theorem legendreNM_eq (n m : ℕ) (x : ℝ) : legendreNM n m x = √(1 - x ^ 2) ^ m * (L n m).eval x := by
  unfold legendreNM
  rw [legendreP_eq, iteratedDeriv_eval, iterate_L]

/-- Values of the derivatives of the polynomials. -/
def ev (n m : ℕ) (x : ℝ) : ℝ := (L n m).eval x

theorem ev_zero_zero (x : ℝ) : ev 0 0 x = 1 := by simp [ev, L_zero_zero]

theorem ev_gt {n m : ℕ} (h : n < m) (x : ℝ) : ev n m x = 0 := by simp [ev, L_zero h]

theorem ev_rec (n m : ℕ) (x : ℝ) : ((n : ℝ) + 2 - m) * ev (n + 2) m x =
    (2 * (n : ℝ) + 3) * x * ev (n + 1) m x - ((n : ℝ) + m + 1) * ev n m x := by
  have := congrArg (Polynomial.eval x) (L_rec n m)
  simp at this
  exact this

theorem ev_diag (n : ℕ) (x : ℝ) : ev (n + 1) (n + 1) x = (2 * (n : ℝ) + 1) * ev n n x := by
  have := congrArg (Polynomial.eval x) (L_diag n)
  simp at this
  exact this

theorem ev_sub (n : ℕ) (x : ℝ) : ev (n + 1) n x = (2 * (n : ℝ) + 1) * x * ev n n x := by
  have := congrArg (Polynomial.eval x) (L_sub n)
  simp at this
  exact this

theorem ev_ode (n m : ℕ) (x : ℝ) : (x ^ 2 - 1) * ev n (m + 2) x + 2 * ((m : ℝ) + 1) * x * ev n (m + 1) x -
    ((n : ℝ) + m + 1) * ((n : ℝ) - m) * ev n m x = 0 := by
  have := congrArg (Polynomial.eval x) (L_ode n m)
  simp at this
  exact this

theorem ev_deriv (n m : ℕ) (x : ℝ) : HasDerivAt (ev n m) (ev n (m + 1) x) x := by
  have := (L n m).hasDerivAt x
  rwa [L_succ] at this

end

end Verif.Legendre
