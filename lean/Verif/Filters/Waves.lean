import Verif.Filters.Lemmas
import Mathlib.Analysis.Calculus.IteratedDeriv.Lemmas

/-!
Lemmas on filtered values: finite kernels, unit kernels, symmetric kernels and harmonics.
-/

namespace Verif.Filters
open Complex Finset Verif.Utils
open scoped ComplexConjugate

theorem out_finite {n m : ℕ} {dy dx : ℝ} {K : Kernel} (h : KFinite n m dy dx K) (v : ℕ → ℕ → ℝ) (i j : ℕ) :
    out n m dy dx K v i j =
      some (idft n m (fun p q => dft n m (fun i j => v i j) p q * kval n m dy dx K p q) i j).re := by
  unfold out; rw [if_pos h]

theorem kfinite_of {K : Kernel} (h : ∀ fe fn, ∃ z, K fe fn = some z) (n m : ℕ) (dy dx : ℝ) :
    KFinite n m dy dx K := by
  intro p _ q _
  obtain ⟨z, hz⟩ := h (freq m dx q) (freq n dy p)
  rw [hz]; rfl

/-- A kernel equal to one returns the values. -/
theorem out_unit {n m : ℕ} {dy dx : ℝ} {K : Kernel} (h : ∀ fe fn, K fe fn = some 1) (v : ℕ → ℕ → ℝ)
    {i j : ℕ} (hi : i < n) (hj : j < m) : out n m dy dx K v i j = some (v i j) := by
  rw [out_finite (kfinite_of (fun fe fn => ⟨1, h fe fn⟩) _ _ _ _)]
  have : (fun p q => dft n m (fun i j => (v i j : ℂ)) p q * kval n m dy dx K p q) =
      dft n m (fun i j => (v i j : ℂ)) := by
    funext p q; simp [kval, h]
  rw [this, idft_dft _ hi hj, ofReal_re]

/-- Kernels that take conjugate values at opposite frequencies of the grid. -/
def Hermitian (n m : ℕ) (dy dx : ℝ) (K : Kernel) : Prop :=
  ∀ p < n, ∀ q < m, conj (kval n m dy dx K p q) = kval n m dy dx K (opp n p) (opp m q)

/-- For them the inverse transform is real. -/
theorem out_real {n m : ℕ} {dy dx : ℝ} {K : Kernel} (h : KFinite n m dy dx K)
    (hh : Hermitian n m dy dx K) (v : ℕ → ℕ → ℝ) (i j : ℕ) :
    ((out n m dy dx K v i j).getD 0 : ℂ) =
      idft n m (fun p q => dft n m (fun i j => v i j) p q * kval n m dy dx K p q) i j := by
  rw [out_finite h, Option.getD_some]
  rw [← Complex.conj_eq_iff_re]
  apply conj_idft
  intro p hp q hq
  rw [map_mul, hh p hp q hq, conj_dft _ (fun i _ j _ => conj_ofReal _) hp hq]

/-- Kernels that are real and even functions of both frequencies. -/
theorem hermitian_of_even {K : Kernel} (h : ∀ fe fn, ∃ r : ℝ, K fe fn = some (r : ℂ))
    (he : ∀ fe fn, K (-fe) fn = K fe fn) (hn : ∀ fe fn, K fe (-fn) = K fe fn)
    (n m : ℕ) (dy dx : ℝ) : Hermitian n m dy dx K := by
  have key : ∀ (n : ℕ) (d : ℝ) (p : ℕ), p < n →
      freq n d (opp n p) = -freq n d p ∨ freq n d (opp n p) = freq n d p := by
    intro n d p hp
    rcases opp_freq hp with h1 | ⟨_, h1, h2⟩
    · left; unfold freq; rw [h1]; ring
    · right; rw [h2, h1]
  intro p hp q hq
  unfold kval
  have e : K (freq m dx (opp m q)) (freq n dy (opp n p)) = K (freq m dx q) (freq n dy p) := by
    rcases key n dy p hp with h1 | h1 <;> rcases key m dx q hq with h2 | h2 <;>
      rw [h1, h2] <;> simp [he, hn]
  rw [e]
  obtain ⟨r, hr⟩ := h (freq m dx q) (freq n dy p)
  rw [hr, Option.getD_some, conj_ofReal]

/-- Composition of two filters, the first of which gives real values. -/
theorem out_out {n m : ℕ} {dy dx : ℝ} {K L : Kernel} (hK : KFinite n m dy dx K)
    (hh : Hermitian n m dy dx K) (hL : KFinite n m dy dx L) (v w : ℕ → ℕ → ℝ)
    (hw : ∀ i < n, ∀ j < m, out n m dy dx K v i j = some (w i j)) (i j : ℕ) :
    out n m dy dx L w i j = some (idft n m (fun p q => dft n m (fun i j => v i j) p q *
      (kval n m dy dx K p q * kval n m dy dx L p q)) i j).re := by
  rw [out_finite hL]
  congr 2
  apply idft_congr
  intro p hp q hq
  have : dft n m (fun i j => (w i j : ℂ)) p q = dft n m (idft n m
      (fun p q => dft n m (fun i j => v i j) p q * kval n m dy dx K p q)) p q := by
    apply dft_congr
    intro i hi j hj
    rw [← out_real hK hh, hw i hi j hj]; rfl
  rw [this, dft_idft _ hp hq]
  ring

/-- Filters act linearly on the values. -/
theorem out_linear {n m : ℕ} {dy dx : ℝ} {K : Kernel} (h : KFinite n m dy dx K) (u v w : ℕ → ℕ → ℝ)
    (a b : ℝ) (hu : ∀ i j, u i j = a * v i j + b * w i j) (i j : ℕ) :
    (out n m dy dx K u i j).getD 0 =
      a * (out n m dy dx K v i j).getD 0 + b * (out n m dy dx K w i j).getD 0 := by
  simp only [out_finite h, Option.getD_some]
  have e : (fun p q => dft n m (fun i j => (u i j : ℂ)) p q * kval n m dy dx K p q) =
      fun p q => (a : ℂ) * (dft n m (fun i j => (v i j : ℂ)) p q * kval n m dy dx K p q) +
        b * (dft n m (fun i j => (w i j : ℂ)) p q * kval n m dy dx K p q) := by
    funext p q
    have : (fun i j => (u i j : ℂ)) = fun i j => (a : ℂ) * (v i j : ℂ) + b * (w i j : ℂ) := by
      funext i j; rw [hu]; push_cast; ring
    rw [this, dft_linear]; ring
  rw [e, idft_linear]
  simp

/-- Filters act linearly on the kernel. -/
theorem out_kernel_add {n m : ℕ} {dy dx : ℝ} {K L M : Kernel} (hK : KFinite n m dy dx K)
    (hL : KFinite n m dy dx L) (hM : KFinite n m dy dx M)
    (h : ∀ p q, kval n m dy dx M p q = kval n m dy dx K p q + kval n m dy dx L p q)
    (v : ℕ → ℕ → ℝ) (i j : ℕ) :
    (out n m dy dx M v i j).getD 0 =
      (out n m dy dx K v i j).getD 0 + (out n m dy dx L v i j).getD 0 := by
  simp only [out_finite hK, out_finite hL, out_finite hM, Option.getD_some]
  have e : (fun p q => dft n m (fun i j => (v i j : ℂ)) p q * kval n m dy dx M p q) =
      fun p q => (1 : ℂ) * (dft n m (fun i j => (v i j : ℂ)) p q * kval n m dy dx K p q) +
        1 * (dft n m (fun i j => (v i j : ℂ)) p q * kval n m dy dx L p q) := by
    funext p q; rw [h]; ring
  rw [e, idft_linear]
  simp

/-! ### harmonics -/

theorem idft_wave {n m p0 q0 : ℕ} (hp : p0 < n) (hq : q0 < m) (c : ℂ) (K : ℕ → ℕ → ℂ) (i j : ℕ) :
    idft n m (fun p q => dft n m (fun i j => c * (wave n p0 i * wave m q0 j)) p q * K p q) i j =
      c * K p0 q0 * (wave n p0 i * wave m q0 j) := by
  have hn0 : (n : ℂ) ≠ 0 := by
    have : 0 < n := by omega
    exact_mod_cast this.ne'
  have hm0 : (m : ℂ) ≠ 0 := by
    have : 0 < m := by omega
    exact_mod_cast this.ne'
  have single : ∀ (F : ℂ) (i j : ℕ), idft n m (fun p q => if p = p0 ∧ q = q0 then F else 0) i j =
      1 / (n * m) * (F * (wave n p0 i * wave m q0 j)) := by
    intro F i j
    unfold idft
    congr 1
    rw [sum_eq_single p0, sum_eq_single q0]
    · simp
    · intro q _ h; simp [h]
    · intro h; exact absurd (mem_range.2 hq) h
    · intro p _ h; simp [h]
    · intro h; exact absurd (mem_range.2 hp) h
  have e : (fun i j => c * (wave n p0 i * wave m q0 j)) =
      idft n m (fun p q => if p = p0 ∧ q = q0 then c * (n * m) else 0) := by
    funext i j
    rw [single]; field_simp
  rw [e]
  have e2 : idft n m (fun p q => dft n m (idft n m fun p q => if p = p0 ∧ q = q0 then c * (n * m) else 0)
        p q * K p q) i j =
      idft n m (fun p q => if p = p0 ∧ q = q0 then c * (n * m) * K p0 q0 else 0) i j := by
    apply idft_congr
    intro p hp q hq
    rw [dft_idft _ hp hq]
    by_cases h : p = p0 ∧ q = q0
    · rw [if_pos h, if_pos h, h.1, h.2]
    · rw [if_neg h, if_neg h, zero_mul]
  rw [e2, single]
  field_simp

/-- A frequency of the grid below the Nyquist frequency: `P` cycles over `n` nodes. -/
theorem freq_index {n : ℕ} {P : ℤ} (h : 2 * |P| < n) {d : ℝ} :
    ∃ p < n, (p : ℝ) - (n / 2 : ℕ) = P ∧ freq n d p = P / (n * d) ∧
      freq n d (opp n p) = -(P / (n * d)) := by
  have hb := abs_lt.1 (show |P| < (n : ℤ) / 2 + 1 by omega)
  have h' := h
  rw [show 2 * |P| = |2 * P| by rw [abs_mul]; norm_num] at h'
  have h2 := abs_lt.1 h'
  obtain ⟨p, hp⟩ : ∃ p : ℕ, (p : ℤ) = P + (n / 2 : ℕ) :=
    ⟨(P + (n / 2 : ℕ)).toNat, Int.toNat_of_nonneg (by omega)⟩
  have h4 : (p : ℝ) - (n / 2 : ℕ) = P := by
    have h3 : ((p : ℤ) : ℝ) = ((P + (n / 2 : ℕ) : ℤ) : ℝ) := by rw [hp]
    rw [Int.cast_add, Int.cast_natCast, Int.cast_natCast] at h3
    rw [h3]; ring
  refine ⟨p, by omega, h4, by unfold freq; rw [h4], ?_⟩
  unfold freq
  rcases opp_freq (show p < n by omega) with h5 | ⟨h5, h6, h7⟩
  · rw [h5, h4]; ring
  · omega

/-- The response to a harmonic. -/
theorem out_harmonic {n m : ℕ} {y0 dy x0 dx : ℝ} (hdy : dy ≠ 0) (hdx : dx ≠ 0) {K : Kernel}
    (hK : KFinite n m dy dx K) {P Q : ℤ} (hP : 2 * |P| < n) (hQ : 2 * |Q| < m) (a : ℂ)
    (hc : K (-(Q / (m * dx))) (-(P / (n * dy))) = (K (Q / (m * dx)) (P / (n * dy))).map conj)
    (v : ℕ → ℕ → ℝ)
    (hv : ∀ i < n, ∀ j < m, v i j = (a * exp (2 * Real.pi * I * ((Q / (m * dx) : ℝ) * (x0 + j * dx : ℝ) +
      (P / (n * dy) : ℝ) * (y0 + i * dy : ℝ)))).re) (i j : ℕ) :
    out n m dy dx K v i j = some (a * (K (Q / (m * dx)) (P / (n * dy))).getD 0 *
      exp (2 * Real.pi * I * ((Q / (m * dx) : ℝ) * (x0 + j * dx : ℝ) +
        (P / (n * dy) : ℝ) * (y0 + i * dy : ℝ)))).re := by
  obtain ⟨p, hp, hp1, hp2, hp3⟩ := freq_index (d := dy) hP
  obtain ⟨q, hq, hq1, hq2, hq3⟩ := freq_index (d := dx) hQ
  have hn0 : 0 < n := by omega
  have hm0 : 0 < m := by omega
  set c : ℂ := exp (2 * Real.pi * I * ((Q / (m * dx) : ℝ) * x0 + (P / (n * dy) : ℝ) * y0)) with hcdef
  have hwave : ∀ i j : ℕ, exp (2 * Real.pi * I * ((Q / (m * dx) : ℝ) * (x0 + j * dx : ℝ) +
      (P / (n * dy) : ℝ) * (y0 + i * dy : ℝ))) = c * (wave n p i * wave m q j) := by
    intro i j
    rw [wave, wave, ← freq_phase hn0 hdy, ← freq_phase hm0 hdx, hp2, hq2, hcdef, ← Complex.exp_add,
      ← Complex.exp_add]
    congr 1; push_cast; ring
  rw [out_finite hK, hwave]
  congr 1
  have hvv : ∀ p' q', dft n m (fun i j => (v i j : ℂ)) p' q' = dft n m (fun i j =>
      (1 / 2 : ℂ) * (a * c * (wave n p i * wave m q j)) +
        (1 / 2) * (conj (a * c) * (wave n (opp n p) i * wave m (opp m q) j))) p' q' := by
    intro p' q'
    apply dft_congr
    intro i hi j hj
    rw [hv i hi j hj, hwave, wave_opp hp, wave_opp hq, ← mul_assoc a, Complex.re_eq_add_conj]
    simp only [map_mul]; ring
  have e : (fun p' q' => dft n m (fun i j => (v i j : ℂ)) p' q' * kval n m dy dx K p' q') =
      fun p' q' => (1 / 2 : ℂ) * (dft n m (fun i j => a * c * (wave n p i * wave m q j)) p' q' *
          kval n m dy dx K p' q') +
        1 / 2 * (dft n m (fun i j => conj (a * c) * (wave n (opp n p) i * wave m (opp m q) j)) p' q' *
          kval n m dy dx K p' q') := by
    funext p' q'
    rw [hvv, dft_linear]; ring
  rw [e, idft_linear, idft_wave hp hq, idft_wave (opp_lt hp) (opp_lt hq)]
  have hk : kval n m dy dx K (opp n p) (opp m q) = conj (kval n m dy dx K p q) := by
    unfold kval
    rw [hp3, hq3, hp2, hq2, hc]
    cases K (Q / (m * dx)) (P / (n * dy)) <;> simp
  have hk0 : kval n m dy dx K p q = (K (Q / (m * dx)) (P / (n * dy))).getD 0 := by
    unfold kval; rw [hp2, hq2]
  rw [hk, wave_opp hp, wave_opp hq, ← hk0]
  have : ((1 / 2 : ℂ) * (a * c * kval n m dy dx K p q * (wave n p i * wave m q j)) +
      1 / 2 * (conj (a * c) * conj (kval n m dy dx K p q) * (conj (wave n p i) * conj (wave m q j)))) =
      (((a * kval n m dy dx K p q * (c * (wave n p i * wave m q j))).re : ℝ) : ℂ) := by
    rw [Complex.re_eq_add_conj]
    simp only [map_mul]; ring
  rw [this, ofReal_re]

/-! ### derivatives of harmonics -/

theorem iteratedDeriv_exp_re (c w e : ℂ) (k : ℕ) (x : ℝ) :
    iteratedDeriv k (fun x : ℝ => (c * exp (w * x + e)).re) x = (c * w ^ k * exp (w * x + e)).re := by
  induction k generalizing c x with
  | zero => simp
  | succ k ih =>
    rw [iteratedDeriv_succ']
    have : deriv (fun x : ℝ => (c * exp (w * x + e)).re) = fun x : ℝ => (c * w * exp (w * x + e)).re := by
      funext x
      apply HasDerivAt.deriv
      have h1 : HasDerivAt (fun x : ℝ => w * (x : ℂ) + e) w x := by
        have := ((hasDerivAt_id x).ofReal_comp.const_mul w).add_const e
        simpa using this
      have h2 := (h1.cexp).const_mul c
      have h3 := (Complex.reCLM.hasFDerivAt.comp_hasDerivAt x h2)
      have : (c * w * exp (w * x + e)).re = Complex.reCLM (c * (exp (w * x + e) * w)) := by
        simp only [Complex.reCLM_apply]; congr 1; ring
      rw [this]
      exact h3
    rw [this, ih]
    congr 1; ring

theorem iteratedDeriv_exp (c w : ℝ) (k : ℕ) (x : ℝ) :
    iteratedDeriv k (fun x : ℝ => c * Real.exp (w * x)) x = c * w ^ k * Real.exp (w * x) := by
  have h := iteratedDeriv_exp_re c w 0 k x
  have e : ∀ (c : ℝ) (x : ℝ), ((c : ℂ) * exp ((w : ℂ) * (x : ℂ) + 0)).re = c * Real.exp (w * x) := by
    intro c x
    rw [add_zero, ← ofReal_mul w, ← ofReal_exp, ← ofReal_mul, ofReal_re]
  simp only [e] at h
  rw [h]
  have : ((c : ℂ) * (w : ℂ) ^ k) = ((c * w ^ k : ℝ) : ℂ) := by push_cast; ring
  rw [this, e]

end Verif.Filters
