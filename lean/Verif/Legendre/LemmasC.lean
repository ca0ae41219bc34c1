import Verif.Legendre.LemmasB
import Mathlib.Tactic.NormNum
import Mathlib.Tactic.Positivity

/-! Helper lemmas for C60 and C61: the normalization factors. -/

namespace Verif.Legendre

noncomputable section

theorem sq_pos {k : ℕ} (h : 0 < k) : 0 < sq k := by
  unfold sq
  exact Real.sqrt_pos.2 (by exact_mod_cast h)

theorem sq_sq (k : ℕ) : sq k ^ 2 = k := by
  unfold sq
  exact Real.sq_sqrt (by positivity)

theorem sq_mul_self (k : ℕ) : sq k * sq k = k := by rw [← pow_two, sq_sq]

/-- Square root of the factorial. -/
def F (k : ℕ) : ℝ := √(k.factorial : ℝ)

theorem F_pos (k : ℕ) : 0 < F k := Real.sqrt_pos.2 (by exact_mod_cast k.factorial_pos)

theorem F_zero : F 0 = 1 := by simp [F]

theorem F_succ (k : ℕ) : F (k + 1) = sq (k + 1) * F k := by
  unfold F sq
  rw [Nat.factorial_succ, Nat.cast_mul, Real.sqrt_mul (by positivity)]

/-- 1 for order zero, the square root of 2 for the rest. -/
def kf (m : ℕ) : ℝ := if m = 0 then 1 else sq 2

theorem kf_pos (m : ℕ) : 0 < kf m := by
  unfold kf
  split
  · norm_num
  · exact sq_pos (by norm_num)

theorem schmidt_eq (n m : ℕ) : schmidt n m = kf m * F (n - m) / F (n + m) := by
  unfold schmidt kf F sq
  rw [Real.sqrt_div (by split <;> positivity), Real.sqrt_mul (by split <;> norm_num)]
  congr 2
  split <;> simp

theorem full_eq (n m : ℕ) : full n m = sq (2 * n + 1) * schmidt n m := by
  unfold full schmidt sq
  rw [← Real.sqrt_mul (by positivity)]
  congr 1
  push_cast
  ring

theorem schmidt_pos (n m : ℕ) : 0 < schmidt n m := by
  rw [schmidt_eq]
  exact div_pos (mul_pos (kf_pos m) (F_pos _)) (F_pos _)

theorem schmidt_zero (n : ℕ) : schmidt n 0 = 1 := by
  rw [schmidt_eq]
  simp [kf, (F_pos n).ne']

/-- Schmidt semi-normalized values without the power of the sine. -/
def sv (x : ℝ) (n m : ℕ) : ℝ := schmidt n m * ev n m x

theorem sv_rec (x : ℝ) (n m : ℕ) (h : m < n - 1) :
    sv x n m = (2 * (n : ℝ) - 1) / (sq (n + m) * sq (n - m)) * x * sv x (n - 1) m +
      -sq (n + m - 1) * sq (n - m - 1) / (sq (n + m) * sq (n - m)) * sv x (n - 2) m := by
  obtain ⟨e, rfl⟩ : ∃ e, n = e + m + 2 := ⟨n - m - 2, by omega⟩
  unfold sv
  simp only [schmidt_eq]
  rw [show e + m + 2 - m = e + 1 + 1 by omega, show e + m + 2 + m = e + 2 * m + 1 + 1 by omega,
    show e + m + 2 - 1 = e + m + 1 by omega, show e + m + 2 - 2 = e + m by omega,
    show e + m + 1 - m = e + 1 by omega, show e + m + 1 + m = e + 2 * m + 1 by omega,
    show e + m - m = e by omega, show e + m + m = e + 2 * m by omega,
    show e + 2 * m + 1 + 1 - 1 = e + 2 * m + 1 by omega, show e + 1 + 1 - 1 = e + 1 by omega]
  simp only [F_succ]
  have hr := ev_rec (e + m) m x
  have h1 := sq_mul_self (e + 1 + 1)
  have h2 := sq_mul_self (e + 2 * m + 1)
  have p1 := (sq_pos (k := e + 1 + 1) (by omega)).ne'
  have p2 := (sq_pos (k := e + 2 * m + 1) (by omega)).ne'
  have p3 := (sq_pos (k := e + 2 * m + 1 + 1) (by omega)).ne'
  have p4 := (sq_pos (k := e + 1) (by omega)).ne'
  have p5 := (F_pos (e + 2 * m)).ne'
  push_cast at hr h1 h2
  generalize sq (e + 1 + 1) = s2 at *
  generalize sq (e + 2 * m + 1) = t1 at *
  generalize sq (e + 2 * m + 1 + 1) = t2 at *
  generalize sq (e + 1) = s1 at *
  generalize F (e + 2 * m) = G at *
  field_simp
  push_cast
  linear_combination kf m * F e * (hr + ev (e + m + 2) m x * h1 + ev (e + m) m x * h2)

theorem sv_sub (x : ℝ) (n : ℕ) (h : 2 ≤ n) :
    sv x n (n - 1) = sq (2 * n - 1) * x * sv x (n - 1) (n - 1) := by
  obtain ⟨e, rfl⟩ : ∃ e, n = e + 1 := ⟨n - 1, by omega⟩
  unfold sv
  simp only [schmidt_eq, Nat.add_sub_cancel]
  rw [show e + 1 - e = 0 + 1 by omega, show e + 1 + e = 2 * e + 1 by omega, show e - e = 0 by omega,
    show e + e = 2 * e by omega, show 2 * (e + 1) - 1 = 2 * e + 1 by omega, ev_sub]
  simp only [F_succ, F_zero]
  have h1 := sq_mul_self (2 * e + 1)
  have p2 := (sq_pos (k := 2 * e + 1) (by omega)).ne'
  have p5 := (F_pos (2 * e)).ne'
  have h3 : sq (0 + 1) = 1 := by simp [sq]
  rw [h3]
  push_cast at h1
  generalize sq (2 * e + 1) = s at *
  field_simp
  linear_combination (-kf e * x * ev e e x) * h1

theorem sv_diag (x : ℝ) (n : ℕ) (h : 2 ≤ n) :
    sv x n n = sq (2 * n - 1) / sq (2 * n) * sv x (n - 1) (n - 1) := by
  obtain ⟨e, rfl⟩ : ∃ e, n = e + 1 := ⟨n - 1, by omega⟩
  unfold sv
  simp only [schmidt_eq, Nat.add_sub_cancel, Nat.sub_self]
  rw [show e + 1 + (e + 1) = 2 * e + 1 + 1 by omega, show e + e = 2 * e by omega,
    show 2 * (e + 1) - 1 = 2 * e + 1 by omega, show 2 * (e + 1) = 2 * e + 1 + 1 by omega, ev_diag]
  simp only [F_succ, F_zero]
  have h1 := sq_mul_self (2 * e + 1)
  have p1 := (sq_pos (k := 2 * e + 1) (by omega)).ne'
  have p2 := (sq_pos (k := 2 * e + 1 + 1) (by omega)).ne'
  have p5 := (F_pos (2 * e)).ne'
  have hk : kf (e + 1) = kf e := by
    unfold kf
    rw [if_neg (by omega), if_neg (by omega)]
  rw [hk]
  push_cast at h1
  generalize sq (2 * e + 1) = s at *
  field_simp
  linear_combination (-kf e * ev e e x) * h1

theorem sv_zero (x : ℝ) (n : ℕ) (h : 2 ≤ n) :
    sv x n 0 = (2 * (n : ℝ) - 1) / (sq n ^ 2) * x * sv x (n - 1) 0 +
      -((sq (n - 1) / sq n) ^ 2) * sv x (n - 2) 0 := by
  obtain ⟨e, rfl⟩ : ∃ e, n = e + 2 := ⟨n - 2, by omega⟩
  unfold sv
  simp only [schmidt_zero, div_pow, sq_sq]
  have hr := ev_rec e 0 x
  rw [show e + 2 - 1 = e + 1 by omega, show e + 2 - 2 = e by omega]
  push_cast at hr ⊢
  field_simp
  linear_combination hr

/-- Values with the full normalization, without the power of the sine. -/
def fv (x : ℝ) (n m : ℕ) : ℝ := full n m * ev n m x

theorem fv_eq (x : ℝ) (n m : ℕ) : fv x n m = sq (2 * n + 1) * sv x n m := by
  unfold fv sv
  rw [full_eq, mul_assoc]

theorem fv_rec (x : ℝ) (n m : ℕ) (h : m < n - 1) :
    fv x n m = sq (2 * n + 1) * sq (2 * n - 1) / (sq (n + m) * sq (n - m)) * x * fv x (n - 1) m +
      -sq (n + m - 1) * sq (n - m - 1) * sq (2 * n + 1) /
        (sq (n + m) * sq (n - m) * sq (2 * n - 3)) * fv x (n - 2) m := by
  simp only [fv_eq]
  rw [sv_rec x n m h, show 2 * (n - 1) + 1 = 2 * n - 1 by omega, show 2 * (n - 2) + 1 = 2 * n - 3 by omega]
  have h1 : sq (2 * n - 1) * sq (2 * n - 1) = 2 * (n : ℝ) - 1 := by
    rw [sq_mul_self, Nat.cast_sub (by omega)]; push_cast; ring
  have p1 := (sq_pos (k := 2 * n - 3) (by omega)).ne'
  have p2 := (sq_pos (k := n + m) (by omega)).ne'
  have p3 := (sq_pos (k := n - m) (by omega)).ne'
  generalize sq (2 * n - 1) = s at *
  field_simp
  linear_combination (-sq (2 * n + 1) * x * sv x (n - 1) m) * h1

theorem fv_sub (x : ℝ) (n : ℕ) (h : 2 ≤ n) :
    fv x n (n - 1) = sq (2 * n + 1) * x * fv x (n - 1) (n - 1) := by
  simp only [fv_eq]
  rw [sv_sub x n h, show 2 * (n - 1) + 1 = 2 * n - 1 by omega]
  ring

theorem fv_diag (x : ℝ) (n : ℕ) (h : 2 ≤ n) :
    fv x n n = sq (2 * n + 1) / sq (2 * n) * fv x (n - 1) (n - 1) := by
  simp only [fv_eq]
  rw [sv_diag x n h, show 2 * (n - 1) + 1 = 2 * n - 1 by omega]
  ring

theorem fv_zero (x : ℝ) (n : ℕ) (h : 2 ≤ n) :
    fv x n 0 = sq (2 * n - 1) * sq (2 * n + 1) / n * x * fv x (n - 1) 0 +
      -((n : ℝ) - 1) * sq (2 * n + 1) / (n * sq (2 * n - 3)) * fv x (n - 2) 0 := by
  simp only [fv_eq]
  rw [sv_zero x n h, show 2 * (n - 1) + 1 = 2 * n - 1 by omega, show 2 * (n - 2) + 1 = 2 * n - 3 by omega]
  have h1 : sq (2 * n - 1) * sq (2 * n - 1) = 2 * (n : ℝ) - 1 := by
    rw [sq_mul_self, Nat.cast_sub (by omega)]; push_cast; ring
  have p1 := (sq_pos (k := 2 * n - 3) (by omega)).ne'
  have h3 : sq (n - 1) ^ 2 = (n : ℝ) - 1 := by
    rw [sq_sq, Nat.cast_sub (by omega)]; push_cast; ring
  have h4 : (n : ℝ) ≠ 0 := by positivity
  simp only [div_pow, sq_sq, h3]
  generalize sq (2 * n - 1) = s at *
  field_simp
  linear_combination (-sq (2 * n + 1) * x * sv x (n - 1) 0) * h1

theorem sv_one (x : ℝ) : sv x 0 0 = 1 ∧ sv x 1 0 = x ∧ sv x 1 1 = 1 := by
  have h1 := ev_sub 0 x
  have h2 := ev_diag 0 x
  simp only [ev_zero_zero] at h1 h2
  have : schmidt 1 1 = 1 := by
    rw [schmidt_eq]
    simp only [kf, F, sq]
    norm_num [Nat.factorial]
  refine ⟨by simp [sv, schmidt_zero, ev_zero_zero], ?_, ?_⟩
  · simp only [sv, schmidt_zero, h1]
    norm_num
  · simp only [sv, this, h2]
    norm_num

set_option exponentiation.threshold 500 in
theorem scaling : (1e-280 : ℝ) * 1e280 = 1 := by norm_num

theorem sin_eq (x : ℝ) : √((1 - x) * (1 + x)) = √(1 - x ^ 2) := by congr 1; ring

end

end Verif.Legendre
