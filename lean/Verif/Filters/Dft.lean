import Verif.Filters.Spec

/-!
The discrete Fourier transform on two axes.
-/

namespace Verif.Filters
open Complex Finset
open scoped ComplexConjugate

/-- Harmonic number `p` (in shifted order) at position `i`. -/
noncomputable def wave (n p i : ℕ) : ℂ :=
  exp (2 * Real.pi * I * ((((p : ℝ) - (n / 2 : ℕ)) * i / n : ℝ)))

theorem conj_wave (n p i : ℕ) : conj (wave n p i) =
    exp (-(2 * Real.pi * I * ((((p : ℝ) - (n / 2 : ℕ)) * i / n : ℝ)))) := by
  unfold wave
  rw [← Complex.exp_conj]
  congr 1
  simp only [map_mul, conj_ofReal, conj_I, map_ofNat]
  ring

theorem wave_mul_conj (n p i : ℕ) : wave n p i * conj (wave n p i) = 1 := by
  rw [conj_wave, wave, ← Complex.exp_add]; simp

/-- Sum of the powers of a root of unity. -/
theorem sum_exp (n : ℕ) (hn : 0 < n) (a : ℤ) :
    ∑ p ∈ range n, exp (2 * Real.pi * I * ((p : ℂ) * a / n)) =
      if (n : ℤ) ∣ a then (n : ℂ) else 0 := by
  have hn0 : (n : ℂ) ≠ 0 := by exact_mod_cast hn.ne'
  set z : ℂ := exp (2 * Real.pi * I * (a / n)) with hz
  have hp : ∀ p : ℕ, exp (2 * Real.pi * I * ((p : ℂ) * a / n)) = z ^ p := by
    intro p
    rw [hz, ← Complex.exp_nat_mul]
    congr 1; ring
  simp only [hp]
  have hzn : z ^ n = 1 := by
    rw [hz, ← Complex.exp_nat_mul, Complex.exp_eq_one_iff]
    exact ⟨a, by field_simp⟩
  by_cases h : (n : ℤ) ∣ a
  · rw [if_pos h]
    obtain ⟨b, rfl⟩ := h
    have : z = 1 := by
      rw [hz, Complex.exp_eq_one_iff]
      exact ⟨b, by push_cast; field_simp⟩
    simp [this]
  · rw [if_neg h]
    have : z ≠ 1 := by
      rw [hz, Ne, Complex.exp_eq_one_iff]
      rintro ⟨b, hb⟩
      apply h
      refine ⟨b, ?_⟩
      have h2 : (2 * Real.pi * I : ℂ) ≠ 0 := by simp [Real.pi_ne_zero]
      have : (a / n : ℂ) = b := by
        apply mul_left_cancel₀ h2
        rw [hb]; ring
      rw [div_eq_iff hn0] at this
      have : ((a : ℤ) : ℂ) = ((n * b : ℤ) : ℂ) := by push_cast; rw [this]; ring
      exact_mod_cast this
    rw [geom_sum_eq this, hzn]; simp

/-- Orthogonality over the frequencies. -/
theorem sum_wave_freq (n : ℕ) (hn : 0 < n) (i i' : ℕ) (hi : i < n) (hi' : i' < n) :
    ∑ p ∈ range n, wave n p i * conj (wave n p i') = if i = i' then (n : ℂ) else 0 := by
  have hn0 : (n : ℂ) ≠ 0 := by exact_mod_cast hn.ne'
  have : ∀ p : ℕ, wave n p i * conj (wave n p i') =
      exp (2 * Real.pi * I * (-(n / 2 : ℕ) * ((i : ℂ) - i') / n)) *
        exp (2 * Real.pi * I * ((p : ℂ) * ((i - i' : ℤ) : ℂ) / n)) := by
    intro p
    rw [conj_wave, wave, ← Complex.exp_add, ← Complex.exp_add]
    congr 1; push_cast; field_simp; ring
  simp only [this, ← Finset.mul_sum, sum_exp n hn]
  by_cases h : i = i'
  · subst h; simp
  · rw [if_neg h, if_neg, mul_zero]
    intro hd
    have := Int.le_of_dvd (abs_pos.mpr (by omega) : (0 : ℤ) < |(i - i' : ℤ)|)
      ((dvd_abs _ _).mpr hd)
    have h3 : |(i - i' : ℤ)| < n := by rw [abs_lt]; constructor <;> omega
    omega

/-- Orthogonality over the positions. -/
theorem sum_wave_pos (n : ℕ) (hn : 0 < n) (p p' : ℕ) (hp : p < n) (hp' : p' < n) :
    ∑ i ∈ range n, wave n p i * conj (wave n p' i) = if p = p' then (n : ℂ) else 0 := by
  have hn0 : (n : ℂ) ≠ 0 := by exact_mod_cast hn.ne'
  have : ∀ i : ℕ, wave n p i * conj (wave n p' i) =
        exp (2 * Real.pi * I * ((i : ℂ) * ((p - p' : ℤ) : ℂ) / n)) := by
    intro p
    rw [conj_wave, wave, ← Complex.exp_add]
    congr 1; push_cast; field_simp; ring
  simp only [this, sum_exp n hn]
  by_cases h : p = p'
  · subst h; simp
  · rw [if_neg h, if_neg]
    intro hd
    have := Int.le_of_dvd (abs_pos.mpr (by omega) : (0 : ℤ) < |(p - p' : ℤ)|)
      ((dvd_abs _ _).mpr hd)
    have h3 : |(p - p' : ℤ)| < n := by rw [abs_lt]; constructor <;> omega
    omega

/-- Discrete Fourier transform. -/
noncomputable def dft (n m : ℕ) (v : ℕ → ℕ → ℂ) (p q : ℕ) : ℂ :=
  ∑ i ∈ range n, ∑ j ∈ range m, v i j * (conj (wave n p i) * conj (wave m q j))

/-- Inverse. -/
noncomputable def idft (n m : ℕ) (F : ℕ → ℕ → ℂ) (i j : ℕ) : ℂ :=
  1 / (n * m) * ∑ p ∈ range n, ∑ q ∈ range m, F p q * (wave n p i * wave m q j)

theorem dft_congr {n m : ℕ} {v w : ℕ → ℕ → ℂ} (h : ∀ i < n, ∀ j < m, v i j = w i j) (p q : ℕ) :
    dft n m v p q = dft n m w p q := by
  unfold dft
  refine sum_congr rfl fun i hi => sum_congr rfl fun j hj => ?_
  rw [h i (mem_range.1 hi) j (mem_range.1 hj)]

theorem idft_congr {n m : ℕ} {v w : ℕ → ℕ → ℂ} (h : ∀ i < n, ∀ j < m, v i j = w i j) (p q : ℕ) :
    idft n m v p q = idft n m w p q := by
  unfold idft
  congr 1
  refine sum_congr rfl fun i hi => sum_congr rfl fun j hj => ?_
  rw [h i (mem_range.1 hi) j (mem_range.1 hj)]

theorem sum_sum_single {n m : ℕ} {i j : ℕ} (hi : i < n) (hj : j < m) (v : ℕ → ℕ → ℂ) :
    ∑ i' ∈ range n, ∑ j' ∈ range m,
      v i' j' * ((if i = i' then (n : ℂ) else 0) * (if j = j' then (m : ℂ) else 0)) =
        v i j * (n * m) := by
  rw [sum_eq_single i]
  · rw [sum_eq_single j]
    · simp
    · intro j' _ h; simp [Ne.symm h]
    · intro h; exact absurd (mem_range.2 hj) h
  · intro i' _ h; simp [Ne.symm h]
  · intro h; exact absurd (mem_range.2 hi) h

theorem idft_dft {n m : ℕ} (v : ℕ → ℕ → ℂ) {i j : ℕ} (hi : i < n) (hj : j < m) :
    idft n m (dft n m v) i j = v i j := by
  have hn : 0 < n := by omega
  have hm : 0 < m := by omega
  have hn0 : (n : ℂ) ≠ 0 := by exact_mod_cast hn.ne'
  have hm0 : (m : ℂ) ≠ 0 := by exact_mod_cast hm.ne'
  have : ∑ p ∈ range n, ∑ q ∈ range m, dft n m v p q * (wave n p i * wave m q j) =
      ∑ i' ∈ range n, ∑ j' ∈ range m,
        v i' j' * ((if i = i' then (n : ℂ) else 0) * (if j = j' then (m : ℂ) else 0)) := by
    simp only [dft, sum_mul]
    have e : ∀ p ∈ range n, ∑ q ∈ range m, ∑ i' ∈ range n, ∑ j' ∈ range m,
        v i' j' * (conj (wave n p i') * conj (wave m q j')) * (wave n p i * wave m q j) =
        ∑ i' ∈ range n, ∑ j' ∈ range m, ∑ q ∈ range m,
        v i' j' * (conj (wave n p i') * conj (wave m q j')) * (wave n p i * wave m q j) := by
      intro p _
      rw [sum_comm]
      exact sum_congr rfl fun i' _ => sum_comm
    rw [sum_congr rfl e, sum_comm]
    refine sum_congr rfl fun i' hi' => ?_
    rw [sum_comm]
    refine sum_congr rfl fun j' hj' => ?_
    rw [← sum_wave_freq n hn i i' hi (mem_range.1 hi'), ← sum_wave_freq m hm j j' hj (mem_range.1 hj'),
      sum_mul_sum, mul_sum]
    refine sum_congr rfl fun p _ => ?_
    rw [mul_sum]
    exact sum_congr rfl fun q _ => by ring
  rw [idft, this, sum_sum_single hi hj]
  field_simp

theorem dft_idft {n m : ℕ} (F : ℕ → ℕ → ℂ) {p q : ℕ} (hp : p < n) (hq : q < m) :
    dft n m (idft n m F) p q = F p q := by
  have hn : 0 < n := by omega
  have hm : 0 < m := by omega
  have hn0 : (n : ℂ) ≠ 0 := by exact_mod_cast hn.ne'
  have hm0 : (m : ℂ) ≠ 0 := by exact_mod_cast hm.ne'
  have : ∑ i ∈ range n, ∑ j ∈ range m, (∑ p' ∈ range n, ∑ q' ∈ range m,
      F p' q' * (wave n p' i * wave m q' j)) * (conj (wave n p i) * conj (wave m q j)) =
      ∑ p' ∈ range n, ∑ q' ∈ range m,
        F p' q' * ((if p = p' then (n : ℂ) else 0) * (if q = q' then (m : ℂ) else 0)) := by
    simp only [sum_mul]
    have e : ∀ i ∈ range n, ∑ j ∈ range m, ∑ p' ∈ range n, ∑ q' ∈ range m,
        F p' q' * (wave n p' i * wave m q' j) * (conj (wave n p i) * conj (wave m q j)) =
        ∑ p' ∈ range n, ∑ q' ∈ range m, ∑ j ∈ range m,
        F p' q' * (wave n p' i * wave m q' j) * (conj (wave n p i) * conj (wave m q j)) := by
      intro p _
      rw [sum_comm]
      exact sum_congr rfl fun i' _ => sum_comm
    rw [sum_congr rfl e, sum_comm]
    refine sum_congr rfl fun p' hp' => ?_
    rw [sum_comm]
    refine sum_congr rfl fun q' hq' => ?_
    have h1 := sum_wave_pos n hn p' p (mem_range.1 hp') hp
    have h2 := sum_wave_pos m hm q' q (mem_range.1 hq') hq
    rw [if_congr (eq_comm (a := p)) rfl rfl, if_congr (eq_comm (a := q)) rfl rfl, ← h1, ← h2,
      sum_mul_sum, mul_sum]
    refine sum_congr rfl fun p _ => ?_
    rw [mul_sum]
    exact sum_congr rfl fun q _ => by ring
  unfold dft idft
  simp only [mul_assoc (1 / ((n : ℂ) * m)), ← mul_sum] at this ⊢
  rw [this, sum_sum_single hp hq]
  field_simp

theorem dft_linear (n m : ℕ) (v w : ℕ → ℕ → ℂ) (a b : ℂ) (p q : ℕ) :
    dft n m (fun i j => a * v i j + b * w i j) p q = a * dft n m v p q + b * dft n m w p q := by
  unfold dft
  simp only [mul_sum, ← sum_add_distrib]
  exact sum_congr rfl fun i _ => sum_congr rfl fun j _ => by ring

theorem idft_linear (n m : ℕ) (v w : ℕ → ℕ → ℂ) (a b : ℂ) (p q : ℕ) :
    idft n m (fun i j => a * v i j + b * w i j) p q = a * idft n m v p q + b * idft n m w p q := by
  unfold idft
  have : ∀ c x y : ℂ, a * (c * x) + b * (c * y) = c * (a * x + b * y) := by intros; ring
  rw [this]
  congr 1
  simp only [mul_sum, ← sum_add_distrib]
  exact sum_congr rfl fun i _ => sum_congr rfl fun j _ => by ring

/-! ### symmetry -/

/-- The opposite frequency (the Nyquist frequency is opposite to itself). -/
def opp (n p : ℕ) : ℕ := if 2 * (n / 2) < n then n - 1 - p else if p = 0 then 0 else n - p

theorem opp_lt {n p : ℕ} (h : p < n) : opp n p < n := by
  unfold opp; split_ifs <;> omega

theorem opp_opp {n p : ℕ} (h : p < n) : opp n (opp n p) = p := by
  unfold opp; split_ifs <;> omega

/-- The frequency of the opposite is the negative one, or the same. -/
theorem opp_freq {n p : ℕ} (h : p < n) :
    ((opp n p : ℝ) - (n / 2 : ℕ) = -((p : ℝ) - (n / 2 : ℕ))) ∨ (2 * (n / 2) = n ∧ p = 0 ∧ opp n p = 0) := by
  unfold opp
  split_ifs with h1 h2
  · left
    have : n = 2 * (n / 2) + 1 := by omega
    rw [show n - 1 - p = 2 * (n / 2) - p by omega, Nat.cast_sub (by omega)]
    push_cast; ring
  · right; omega
  · left
    have : n = 2 * (n / 2) := by omega
    rw [show n - p = 2 * (n / 2) - p by omega, Nat.cast_sub (by omega)]
    push_cast; ring

theorem wave_opp {n p : ℕ} (h : p < n) (i : ℕ) : wave n (opp n p) i = conj (wave n p i) := by
  rw [conj_wave]
  rcases opp_freq h with h1 | ⟨h1, rfl, h2⟩
  · rw [wave, h1]; congr 1; push_cast; ring
  · rw [h2, wave, Complex.exp_eq_exp_iff_exists_int]
    have hn : (n : ℂ) ≠ 0 := by
      have : 0 < n := h
      exact_mod_cast this.ne'
    have h3 : ((n / 2 : ℕ) : ℂ) = n / 2 := by
      rw [eq_div_iff two_ne_zero]; exact_mod_cast (by omega : n / 2 * 2 = n)
    refine ⟨-i, ?_⟩
    push_cast
    rw [h3]
    field_simp
    ring

theorem sum_opp (n : ℕ) (f : ℕ → ℂ) : ∑ p ∈ range n, f (opp n p) = ∑ p ∈ range n, f p :=
  sum_nbij' (opp n) (opp n) (fun p hp => mem_range.2 (opp_lt (mem_range.1 hp)))
    (fun p hp => mem_range.2 (opp_lt (mem_range.1 hp))) (fun p hp => opp_opp (mem_range.1 hp))
    (fun p hp => opp_opp (mem_range.1 hp)) (fun p hp => by simp)

/-- Transform of real values. -/
theorem conj_dft {n m : ℕ} (v : ℕ → ℕ → ℂ) (hv : ∀ i < n, ∀ j < m, conj (v i j) = v i j) {p q : ℕ}
    (hp : p < n) (hq : q < m) : conj (dft n m v p q) = dft n m v (opp n p) (opp m q) := by
  unfold dft
  simp only [map_sum, map_mul]
  refine sum_congr rfl fun i hi => sum_congr rfl fun j hj => ?_
  rw [hv i (mem_range.1 hi) j (mem_range.1 hj), wave_opp hp, wave_opp hq]

/-- Spectra with Hermitian symmetry come from real values. -/
theorem conj_idft {n m : ℕ} (F : ℕ → ℕ → ℂ)
    (hF : ∀ p < n, ∀ q < m, conj (F p q) = F (opp n p) (opp m q)) (i j : ℕ) :
    conj (idft n m F i j) = idft n m F i j := by
  unfold idft
  simp only [map_mul, map_sum, map_div₀, map_one, map_natCast]
  congr 1
  rw [← sum_opp n]
  refine sum_congr rfl fun p hp => ?_
  rw [← sum_opp m]
  refine sum_congr rfl fun q hq => ?_
  have hp' := mem_range.1 hp
  have hq' := mem_range.1 hq
  rw [hF _ (opp_lt hp') _ (opp_lt hq'), opp_opp hp', opp_opp hq', wave_opp hp', wave_opp hq']
  simp

/-- Parseval -/
theorem parseval {n m : ℕ} (F : ℕ → ℕ → ℂ) (hn : 0 < n) (hm : 0 < m) :
    ∑ i ∈ range n, ∑ j ∈ range m, normSq (idft n m F i j) =
      1 / (n * m) * ∑ p ∈ range n, ∑ q ∈ range m, normSq (F p q) := by
  have hn0 : (n : ℂ) ≠ 0 := by exact_mod_cast hn.ne'
  have hm0 : (m : ℂ) ≠ 0 := by exact_mod_cast hm.ne'
  have key : ∑ i ∈ range n, ∑ j ∈ range m, idft n m F i j * conj (idft n m F i j) =
      1 / (n * m) * ∑ p ∈ range n, ∑ q ∈ range m, F p q * conj (F p q) := by
    have e : ∀ i j, idft n m F i j * conj (idft n m F i j) =
        1 / (n * m) * ∑ p ∈ range n, ∑ q ∈ range m,
          conj (F p q) * (idft n m F i j * (conj (wave n p i) * conj (wave m q j))) := by
      intro i j
      have : conj (idft n m F i j) = 1 / (n * m) * ∑ p ∈ range n, ∑ q ∈ range m,
          conj (F p q) * (conj (wave n p i) * conj (wave m q j)) := by
        unfold idft
        simp only [map_mul, map_sum, map_div₀, map_one, map_natCast]
      rw [this, mul_left_comm]
      congr 1
      rw [mul_sum]
      refine sum_congr rfl fun p _ => ?_
      rw [mul_sum]
      exact sum_congr rfl fun q _ => by ring
    simp only [e, ← mul_sum]
    congr 1
    have e2 : ∀ i ∈ range n, ∑ j ∈ range m, ∑ p ∈ range n, ∑ q ∈ range m,
        conj (F p q) * (idft n m F i j * (conj (wave n p i) * conj (wave m q j))) =
        ∑ p ∈ range n, ∑ q ∈ range m, ∑ j ∈ range m,
        conj (F p q) * (idft n m F i j * (conj (wave n p i) * conj (wave m q j))) := by
      intro i _
      rw [sum_comm]
      exact sum_congr rfl fun _ _ => sum_comm
    rw [sum_congr rfl e2, sum_comm]
    refine sum_congr rfl fun p hp => ?_
    rw [sum_comm]
    refine sum_congr rfl fun q hq => ?_
    simp only [← mul_sum]
    have := dft_idft F (mem_range.1 hp) (mem_range.1 hq)
    unfold dft at this
    rw [this, mul_comm]
  have hR : ((∑ i ∈ range n, ∑ j ∈ range m, normSq (idft n m F i j) : ℝ) : ℂ) =
      ((1 / (n * m) * ∑ p ∈ range n, ∑ q ∈ range m, normSq (F p q) : ℝ) : ℂ) := by
    push_cast
    simp only [normSq_eq_conj_mul_self, mul_comm (conj _)]
    exact key
  exact_mod_cast hR

end Verif.Filters
