import Verif.Filters.PropsJ

/-!
C143: the energy (the sum of squares) of transformed grids, without padding.
-/

namespace Verif.Filters
open Complex Finset Verif.Utils
open scoped ComplexConjugate

/-! ### specification -/

/-- The sum of the squares of the values of a grid. -/
noncomputable def energy (G : Geo) (v : ℕ → ℕ → ℝ) : ℝ := ∑ i ∈ range G.n, ∑ j ∈ range G.m, v i j ^ 2

/-- The transformation of a grid without padding returns a grid with the values `w`. -/
def Gives (fill : Fill) (A : Grid) (G : Geo) (t : Transformation) (w : ℕ → ℕ → ℝ) : Prop :=
  ∃ B, (t.call fill A false none).2 = .ok B ∧ IsGrid B G w

/-! ### energy in the frequency domain -/

/-- Energy of the frequency number `p`, `q` of a grid. -/
noncomputable def power (G : Geo) (v : ℕ → ℕ → ℝ) (p q : ℕ) : ℝ :=
  1 / (G.n * G.m) * normSq (dft G.n G.m (fun i j => (v i j : ℂ)) p q)

theorem power_nonneg (G : Geo) (v : ℕ → ℕ → ℝ) (p q : ℕ) : 0 ≤ power G v p q :=
  mul_nonneg (by positivity) (normSq_nonneg _)

theorem energy_power {G : Geo} (hG : G.Increasing) (v : ℕ → ℕ → ℝ) :
    energy G v = ∑ p ∈ range G.n, ∑ q ∈ range G.m, power G v p q := by
  have hn := hG.n2
  have hm := hG.m2
  have h := parseval (dft G.n G.m (fun i j => (v i j : ℂ))) (show 0 < G.n by omega) (show 0 < G.m by omega)
  unfold power
  simp only [← mul_sum]
  rw [← h]
  refine sum_congr rfl fun i hi => sum_congr rfl fun j hj => ?_
  rw [idft_dft _ (mem_range.1 hi) (mem_range.1 hj), normSq_ofReal]; ring

theorem energy_out_power {G : Geo} (hG : G.Increasing) {K : Kernel} (hK : KFinite G.n G.m G.dy G.dx K)
    {v w : ℕ → ℕ → ℝ} (hw : ∀ i < G.n, ∀ j < G.m, out G.n G.m G.dy G.dx K v i j = some (w i j)) :
    energy G w = ∑ p ∈ range G.n, ∑ q ∈ range G.m, power G v p q * normSq (herm G.n G.m G.dy G.dx K p q) := by
  have hn := hG.n2
  have hm := hG.m2
  have h := parseval (fun p q => dft G.n G.m (fun i j => (v i j : ℂ)) p q * herm G.n G.m G.dy G.dx K p q)
    (show 0 < G.n by omega) (show 0 < G.m by omega)
  have e : ∑ p ∈ range G.n, ∑ q ∈ range G.m, power G v p q * normSq (herm G.n G.m G.dy G.dx K p q) =
      1 / (G.n * G.m) * ∑ p ∈ range G.n, ∑ q ∈ range G.m,
        normSq (dft G.n G.m (fun i j => (v i j : ℂ)) p q * herm G.n G.m G.dy G.dx K p q) := by
    simp only [mul_sum, power, normSq_mul, mul_assoc]
  rw [e, ← h]
  refine sum_congr rfl fun i hi => sum_congr rfl fun j hj => ?_
  have h1 := out_herm hK v i j
  rw [hw i (mem_range.1 hi) j (mem_range.1 hj), Option.getD_some] at h1
  rw [← h1, normSq_ofReal]; ring

/-- The filter of a transformation whose kernel is finite. -/
theorem gives {A : Grid} {G : Geo} {v : ℕ → ℕ → ℝ} (hA : IsGrid A G v) (hG : G.Increasing) (fill : Fill)
    (t : Transformation) (ht : t.IsFilter) {K : Kernel} (hK : t.filter.1 = .ok K)
    (hf : ∀ fe fn, ∃ z, K fe fn = some z) : ∃ w, Gives fill A G t w ∧
      energy G w = ∑ p ∈ range G.n, ∑ q ∈ range G.m, power G v p q * normSq (herm G.n G.m G.dy G.dx K p q) := by
  have hk := kfinite_of hf G.n G.m G.dy G.dx
  obtain ⟨B, w, h1, h2, h3⟩ := filter_run hA hG fill hk t.filter.2
  refine ⟨w, ⟨B, ?_, h2⟩, energy_out_power hG hk h3⟩
  rw [call_filter ht, hK]
  exact h1

/-- Kernels that are real and even. -/
theorem herm_even {n m : ℕ} {dy dx : ℝ} {K : Kernel} {f : ℝ → ℝ → ℝ} (hK : ∀ fe fn, K fe fn = some (f fe fn : ℂ))
    (he : ∀ fe fn, f (-fe) fn = f fe fn) (hn : ∀ fe fn, f fe (-fn) = f fe fn) {p q : ℕ} (hp : p < n) (hq : q < m) :
    herm n m dy dx K p q = f (freq m dx q) (freq n dy p) := by
  have e : f (freq m dx (opp m q)) (freq n dy (opp n p)) = f (freq m dx q) (freq n dy p) := by
    rcases freq_opp hq dx with h1 | ⟨-, -, h1⟩ <;> rcases freq_opp hp dy with h2 | ⟨-, -, h2⟩ <;>
      simp only [h1, h2, he, hn]
  unfold herm kval
  rw [hK, hK, Option.getD_some, Option.getD_some, e, conj_ofReal]
  ring

/-- The Hermitian part is not larger than the kernel. -/
theorem herm_le {n m : ℕ} {dy dx : ℝ} {K : Kernel} {c : ℝ}
    (h : ∀ p < n, ∀ q < m, ‖kval n m dy dx K p q‖ ≤ c) {p q : ℕ} (hp : p < n) (hq : q < m) :
    normSq (herm n m dy dx K p q) ≤ c ^ 2 := by
  have h1 := h p hp q hq
  have h2 := h _ (opp_lt hp) _ (opp_lt hq)
  rw [normSq_eq_norm_sq]
  refine pow_le_pow_left₀ (norm_nonneg _) ?_ 2
  unfold herm
  rw [norm_div, show ‖(2 : ℂ)‖ = 2 by simp, div_le_iff₀ (by norm_num)]
  refine (norm_add_le _ _).trans ?_
  rw [RCLike.norm_conj]
  linarith

/-- Wavenumbers are at most the one of Nyquist. -/
theorem freq_le {n p : ℕ} {d : ℝ} (hd : 0 < d) (hp : p < n) : (2 * Real.pi * freq n d p) ^ 2 ≤ (Real.pi / d) ^ 2 := by
  have hn : (0 : ℝ) < n := by exact_mod_cast (by omega : 0 < n)
  have h1 : |(p : ℝ) - (n / 2 : ℕ)| ≤ n / 2 := by
    have a1 : (p : ℝ) + 1 ≤ n := by exact_mod_cast hp
    have a2 : (2 : ℝ) * (n / 2 : ℕ) ≤ n := by exact_mod_cast Nat.mul_div_le n 2
    have a3 : (n : ℝ) ≤ 2 * (n / 2 : ℕ) + 1 := by exact_mod_cast (by omega : n ≤ 2 * (n / 2) + 1)
    have a4 : (0 : ℝ) ≤ p := Nat.cast_nonneg p
    rw [abs_le]; constructor <;> linarith
  rw [← sq_abs, ← sq_abs (Real.pi / d)]
  refine pow_le_pow_left₀ (abs_nonneg _) ?_ 2
  unfold freq
  rw [abs_mul, abs_mul, abs_div, abs_div, abs_of_pos Real.pi_pos, abs_of_pos hd, abs_of_pos (mul_pos hn hd),
    abs_of_pos (by norm_num : (0 : ℝ) < 2)]
  calc _ ≤ 2 * Real.pi * ((n / 2) / (n * d)) := by
        refine mul_le_mul_of_nonneg_left (div_le_div_of_nonneg_right h1 (by positivity)) (by positivity)
    _ = _ := by field_simp

theorem sum_power_le {G : Geo} (v : ℕ → ℕ → ℝ) {f g : ℕ → ℕ → ℝ}
    (h : ∀ p < G.n, ∀ q < G.m, f p q ≤ g p q) :
    ∑ p ∈ range G.n, ∑ q ∈ range G.m, power G v p q * f p q ≤
      ∑ p ∈ range G.n, ∑ q ∈ range G.m, power G v p q * g p q :=
  sum_le_sum fun p hp => sum_le_sum fun q hq =>
    mul_le_mul_of_nonneg_left (h p (mem_range.1 hp) q (mem_range.1 hq)) (power_nonneg _ _ _ _)

theorem herm_upward {n m : ℕ} {dy dx : ℝ} (order : ℕ) {p q : ℕ} (hp : p < n) (hq : q < m) :
    normSq (herm n m dy dx (derivativeUpwardKernel order) p q) =
      ((2 * Real.pi * freq m dx q) ^ 2 + (2 * Real.pi * freq n dy p) ^ 2) ^ order := by
  rw [herm_even (K := derivativeUpwardKernel order)
    (f := fun fe fn => (-Real.sqrt ((2 * Real.pi * fe) ^ 2 + (2 * Real.pi * fn) ^ 2)) ^ order)
    (fun _ _ => rfl) (fun _ _ => by simp) (fun _ _ => by simp) hp hq, normSq_ofReal, ← mul_pow, neg_mul_neg,
    Real.mul_self_sqrt (by positivity)]

theorem herm_imaginary {x y : ℝ} (h : y = -x ∨ y = x) :
    normSq (((x : ℂ) * I + conj ((y : ℂ) * I)) / 2) ≤ x ^ 2 ∧
    (y = -x → normSq (((x : ℂ) * I + conj ((y : ℂ) * I)) / 2) = x ^ 2) := by
  have h1 : y = -x → normSq (((x : ℂ) * I + conj ((y : ℂ) * I)) / 2) = x ^ 2 := by
    rintro rfl
    have : ((x : ℂ) * I + conj (((-x : ℝ) : ℂ) * I)) / 2 = (x : ℂ) * I := by
      rw [map_mul, conj_I, conj_ofReal]; push_cast; ring
    rw [this, normSq_mul, normSq_ofReal, normSq_I]; ring
  refine ⟨?_, h1⟩
  rcases h with h | h
  · exact (h1 h).le
  · subst h
    have : ((y : ℂ) * I + conj ((y : ℂ) * I)) / 2 = 0 := by
      rw [map_mul, conj_I, conj_ofReal]; ring
    rw [this, map_zero]; positivity

theorem herm_easting {n m : ℕ} {dy dx : ℝ} {p q : ℕ} (hq : q < m) :
    normSq (herm n m dy dx (derivativeEastingKernel 1) p q) ≤ (2 * Real.pi * freq m dx q) ^ 2 ∧
    (Odd m → normSq (herm n m dy dx (derivativeEastingKernel 1) p q) = (2 * Real.pi * freq m dx q) ^ 2) := by
  have key := herm_imaginary (x := 2 * Real.pi * freq m dx q) (y := 2 * Real.pi * freq m dx (opp m q)) (by
    rcases freq_opp hq dx with h | ⟨-, -, h⟩ <;> rw [h]
    · left; ring
    · right; rfl)
  have e : herm n m dy dx (derivativeEastingKernel 1) p q =
      (((2 * Real.pi * freq m dx q : ℝ) : ℂ) * I + conj (((2 * Real.pi * freq m dx (opp m q) : ℝ) : ℂ) * I)) / 2 := by
    simp only [herm, kval, derivativeEastingKernel, Option.getD_some, pow_one]
  rw [e]
  refine ⟨key.1, fun hm => key.2 ?_⟩
  rcases freq_opp hq dx with h | ⟨h, -⟩
  · rw [h]; ring
  · exact absurd h (Nat.not_even_iff_odd.2 hm)

theorem herm_northing {n m : ℕ} {dy dx : ℝ} {p q : ℕ} (hp : p < n) :
    normSq (herm n m dy dx (derivativeNorthingKernel 1) p q) ≤ (2 * Real.pi * freq n dy p) ^ 2 ∧
    (Odd n → normSq (herm n m dy dx (derivativeNorthingKernel 1) p q) = (2 * Real.pi * freq n dy p) ^ 2) := by
  have key := herm_imaginary (x := 2 * Real.pi * freq n dy p) (y := 2 * Real.pi * freq n dy (opp n p)) (by
    rcases freq_opp hp dy with h | ⟨-, -, h⟩ <;> rw [h]
    · left; ring
    · right; rfl)
  have e : herm n m dy dx (derivativeNorthingKernel 1) p q =
      (((2 * Real.pi * freq n dy p : ℝ) : ℂ) * I + conj (((2 * Real.pi * freq n dy (opp n p) : ℝ) : ℂ) * I)) / 2 := by
    simp only [herm, kval, derivativeNorthingKernel, Option.getD_some, pow_one]
  rw [e]
  refine ⟨key.1, fun hm => key.2 ?_⟩
  rcases freq_opp hp dy with h | ⟨h, -⟩
  · rw [h]; ring
  · exact absurd h (Nat.not_even_iff_odd.2 hm)

/-- Values of a filter of the grid of alternating columns. -/
theorem gives_alternating {A : Grid} {G : Geo} (hA : IsGrid A G fun _ j => (-1) ^ j) (hG : G.Increasing)
    (hm : Even G.m) (fill : Fill) (t : Transformation) (ht : t.IsFilter) {K : Kernel} (hK : t.filter.1 = .ok K)
    (hf : ∀ fe fn, ∃ z, K fe fn = some z) {w : ℕ → ℕ → ℝ} (hw : Gives fill A G t w) :
    ∀ i < G.n, ∀ j < G.m, w i j = (kval G.n G.m G.dy G.dx K (G.n / 2) 0).re * (-1) ^ j := by
  have hk := kfinite_of hf G.n G.m G.dy G.dx
  obtain ⟨B, h1, h2⟩ := hw
  obtain ⟨B', w', h1', h2', h3'⟩ := filter_run hA hG fill hk t.filter.2
  rw [call_filter ht, hK] at h1
  obtain rfl : B = B' := Except.ok.inj (h1.symm.trans h1')
  intro i hi j hj
  have e1 : w i j = w' i j := Option.some.inj ((h2.data i hi j hj).symm.trans (h2'.data i hi j hj))
  have e2 := h3' i hi j hj
  have hn2 := hG.n2
  have hm2 := hG.m2
  rw [out_alternating (by omega) (by omega) hm hk _ (fun _ _ _ _ => rfl)] at e2
  rw [e1]; exact (Option.some.inj e2).symm

theorem freq_zero {m : ℕ} {d : ℝ} (hm : Even m) (h0 : 0 < m) (hd : 0 < d) : freq m d 0 = -1 / (2 * d) := by
  obtain ⟨r, hr⟩ := hm
  have h2 : m / 2 = r := by omega
  have hr0 : (r : ℝ) ≠ 0 := by exact_mod_cast (by omega : r ≠ 0)
  unfold freq
  rw [h2, hr]
  push_cast
  field_simp
  ring

/-! ### the properties -/

/-- C143: the horizontal derivatives (with the FFT) together do not have more energy than the upward derivative,
and exactly the same if the grid has an odd number of nodes along both dimensions. -/
theorem C143_gradient {A : Grid} {G : Geo} {v : ℕ → ℕ → ℝ} (hA : IsGrid A G v) (hG : G.Increasing) (fill : Fill) :
    ∃ e n u, Gives fill A G (.derivativeEasting 1 "fft") e ∧ Gives fill A G (.derivativeNorthing 1 "fft") n ∧
      Gives fill A G (.derivativeUpward 1) u ∧ energy G e + energy G n ≤ energy G u ∧
      (Odd G.n → Odd G.m → energy G e + energy G n = energy G u) := by
  obtain ⟨e, he, ee⟩ := gives hA hG fill (.derivativeEasting 1 "fft") rfl rfl (fun _ _ => ⟨_, rfl⟩)
  obtain ⟨n, hn, en⟩ := gives hA hG fill (.derivativeNorthing 1 "fft") rfl rfl (fun _ _ => ⟨_, rfl⟩)
  obtain ⟨u, hu, eu⟩ := gives hA hG fill (.derivativeUpward 1) trivial rfl (fun _ _ => ⟨_, rfl⟩)
  refine ⟨e, n, u, he, hn, hu, ?_, ?_⟩
  · rw [ee, en, eu]
    simp only [← sum_add_distrib, ← mul_add]
    refine sum_power_le v fun p hp q hq => ?_
    rw [herm_upward 1 hp hq, pow_one]
    exact add_le_add (herm_easting hq).1 (herm_northing hp).1
  · intro o1 o2
    rw [ee, en, eu]
    simp only [← sum_add_distrib, ← mul_add]
    refine sum_congr rfl fun p hp => sum_congr rfl fun q hq => ?_
    rw [herm_upward 1 (mem_range.1 hp) (mem_range.1 hq), pow_one, (herm_easting (mem_range.1 hq)).2 o2,
      (herm_northing (mem_range.1 hp)).2 o1]

/-- C143: the equality fails with an even number of columns: the columns of alternating sign have horizontal
derivatives equal to zero and an upward derivative that is not zero. It also shows that the bound π over the spacing
of `C143_derivative_bounds` is attained. -/
theorem C143_gradient_even {A : Grid} {G : Geo} (hA : IsGrid A G fun _ j => (-1) ^ j) (hG : G.Increasing)
    (hm : Even G.m) (fill : Fill) :
    ∃ e n u, Gives fill A G (.derivativeEasting 1 "fft") e ∧ Gives fill A G (.derivativeNorthing 1 "fft") n ∧
      Gives fill A G (.derivativeUpward 1) u ∧ energy G e = 0 ∧ energy G n = 0 ∧
      energy G u = (Real.pi / G.dx) ^ 2 * (G.n * G.m) := by
  have hm2 := hG.m2
  have hf := freq_zero hm (by omega) hG.dx
  have hn0 : freq G.n G.dy (G.n / 2) = 0 := by simp [freq]
  obtain ⟨e, he, -⟩ := gives hA hG fill (.derivativeEasting 1 "fft") rfl rfl (fun _ _ => ⟨_, rfl⟩)
  obtain ⟨n, hn, -⟩ := gives hA hG fill (.derivativeNorthing 1 "fft") rfl rfl (fun _ _ => ⟨_, rfl⟩)
  obtain ⟨u, hu, -⟩ := gives hA hG fill (.derivativeUpward 1) trivial rfl (fun _ _ => ⟨_, rfl⟩)
  have ve := gives_alternating hA hG hm fill (.derivativeEasting 1 "fft") rfl rfl (fun _ _ => ⟨_, rfl⟩) he
  have vn := gives_alternating hA hG hm fill (.derivativeNorthing 1 "fft") rfl rfl (fun _ _ => ⟨_, rfl⟩) hn
  have vu := gives_alternating hA hG hm fill (.derivativeUpward 1) trivial rfl (fun _ _ => ⟨_, rfl⟩) hu
  have hu' : ∀ j : ℕ, ((kval G.n G.m G.dy G.dx (derivativeUpwardKernel 1) (G.n / 2) 0).re * (-1) ^ j) ^ 2 =
      (Real.pi / G.dx) ^ 2 := by
    intro j
    have hx := hG.dx.ne'
    have hs : ((-1 : ℝ) ^ j) ^ 2 = 1 := by rw [← pow_mul, mul_comm, pow_mul]; simp
    simp only [kval, derivativeUpwardKernel, Option.getD_some, ofReal_re, hf, hn0]
    rw [mul_pow, hs, pow_one, neg_sq, Real.sq_sqrt (by positivity)]
    field_simp
    ring
  refine ⟨e, n, u, he, hn, hu, ?_, ?_, ?_⟩
  · refine sum_eq_zero fun i hi => sum_eq_zero fun j hj => ?_
    rw [ve i (mem_range.1 hi) j (mem_range.1 hj)]
    simp [kval, derivativeEastingKernel]
  · refine sum_eq_zero fun i hi => sum_eq_zero fun j hj => ?_
    rw [vn i (mem_range.1 hi) j (mem_range.1 hj)]
    simp [kval, derivativeNorthingKernel]
  · have : energy G u = ∑ i ∈ range G.n, ∑ j ∈ range G.m, (Real.pi / G.dx) ^ 2 :=
      sum_congr rfl fun i hi => sum_congr rfl fun j hj => by
        rw [vu i (mem_range.1 hi) j (mem_range.1 hj)]; exact hu' j
    rw [this]
    simp only [sum_const, card_range, nsmul_eq_mul]
    ring

/-- C143: the energy of a derivative of any order (with the FFT) is at most the one of the grid times the square of
the largest wavenumber (π over the spacing, along each dimension) to the order. -/
theorem C143_derivative_bounds {A : Grid} {G : Geo} {v : ℕ → ℕ → ℝ} (hA : IsGrid A G v) (hG : G.Increasing)
    (fill : Fill) (order : ℕ) :
    ∃ e n u, Gives fill A G (.derivativeEasting order "fft") e ∧ Gives fill A G (.derivativeNorthing order "fft") n ∧
      Gives fill A G (.derivativeUpward order) u ∧
      energy G e ≤ ((Real.pi / G.dx) ^ 2) ^ order * energy G v ∧
      energy G n ≤ ((Real.pi / G.dy) ^ 2) ^ order * energy G v ∧
      energy G u ≤ ((Real.pi / G.dx) ^ 2 + (Real.pi / G.dy) ^ 2) ^ order * energy G v := by
  obtain ⟨e, he, ee⟩ := gives hA hG fill (.derivativeEasting order "fft") rfl rfl (fun _ _ => ⟨_, rfl⟩)
  obtain ⟨n, hn, en⟩ := gives hA hG fill (.derivativeNorthing order "fft") rfl rfl (fun _ _ => ⟨_, rfl⟩)
  obtain ⟨u, hu, eu⟩ := gives hA hG fill (.derivativeUpward order) trivial rfl (fun _ _ => ⟨_, rfl⟩)
  have hbound : ∀ c : ℝ, c * energy G v = ∑ p ∈ range G.n, ∑ q ∈ range G.m, power G v p q * c := by
    intro c
    rw [energy_power hG, mul_sum]
    refine sum_congr rfl fun p _ => ?_
    rw [mul_sum]
    exact sum_congr rfl fun q _ => mul_comm _ _
  have hone : ∀ (x : ℝ) (d : ℝ), 0 < d → x ^ 2 ≤ (Real.pi / d) ^ 2 →
      ‖((x : ℂ) * I) ^ order‖ ≤ (Real.pi / d) ^ order := by
    intro x d hd hx
    rw [norm_pow, norm_mul, norm_I, mul_one, Complex.norm_real, Real.norm_eq_abs]
    refine pow_le_pow_left₀ (abs_nonneg _) ?_ order
    exact abs_le_of_sq_le_sq hx (div_pos Real.pi_pos hd).le
  refine ⟨e, n, u, he, hn, hu, ?_, ?_, ?_⟩
  · rw [ee, hbound]
    refine sum_power_le v fun p hp q hq => ?_
    rw [← pow_mul, mul_comm 2, pow_mul]
    refine herm_le (fun p _ q hq => ?_) hp hq
    exact hone _ _ hG.dx (freq_le hG.dx hq)
  · rw [en, hbound]
    refine sum_power_le v fun p hp q hq => ?_
    rw [← pow_mul, mul_comm 2, pow_mul]
    refine herm_le (fun p hp q _ => ?_) hp hq
    exact hone _ _ hG.dy (freq_le hG.dy hp)
  · rw [eu, hbound]
    refine sum_power_le v fun p hp q hq => ?_
    rw [herm_upward order hp hq]
    exact pow_le_pow_left₀ (by positivity) (add_le_add (freq_le hG.dx hq) (freq_le hG.dy hp)) order

/-- C143: the low-pass and the high-pass filtered grids together do not have more energy than the grid. -/
theorem C143_gaussian {A : Grid} {G : Geo} {v : ℕ → ℕ → ℝ} (hA : IsGrid A G v) (hG : G.Increasing) (fill : Fill)
    (wavelength : ℝ) (hw : wavelength ≠ 0) :
    ∃ l h, Gives fill A G (.gaussianLowpass wavelength) l ∧ Gives fill A G (.gaussianHighpass wavelength) h ∧
      energy G l + energy G h ≤ energy G v := by
  obtain ⟨l, hl, el⟩ := gives hA hG fill (.gaussianLowpass wavelength) trivial
    (show gaussianLowpassKernel wavelength = .ok _ from if_neg hw) (fun _ _ => ⟨_, rfl⟩)
  obtain ⟨h, hh, eh⟩ := gives hA hG fill (.gaussianHighpass wavelength) trivial
    (show gaussianHighpassKernel wavelength = .ok _ from if_neg hw) (fun _ _ => ⟨_, rfl⟩)
  refine ⟨l, h, hl, hh, ?_⟩
  rw [el, eh, energy_power hG v]
  simp only [← sum_add_distrib, ← mul_add]
  refine sum_le_sum fun p hp => sum_le_sum fun q hq => mul_le_of_le_one_right (power_nonneg _ _ _ _) ?_
  rw [herm_even (f := fun fe fn => Real.exp (-((2 * Real.pi * fe) ^ 2 + (2 * Real.pi * fn) ^ 2) /
      (2 * (2 * Real.pi / wavelength) ^ 2))) (fun _ _ => rfl) (fun _ _ => by simp) (fun _ _ => by simp)
      (mem_range.1 hp) (mem_range.1 hq),
    herm_even (f := fun fe fn => 1 - Real.exp (-((2 * Real.pi * fe) ^ 2 + (2 * Real.pi * fn) ^ 2) /
      (2 * (2 * Real.pi / wavelength) ^ 2))) (fun _ _ => by push_cast; rfl) (fun _ _ => by simp) (fun _ _ => by simp)
      (mem_range.1 hp) (mem_range.1 hq), normSq_ofReal, normSq_ofReal]
  set x := Real.exp (-((2 * Real.pi * freq G.m G.dx q) ^ 2 + (2 * Real.pi * freq G.n G.dy p) ^ 2) /
      (2 * (2 * Real.pi / wavelength) ^ 2)) with hx
  have h0 : 0 < x := Real.exp_pos _
  have h1 : x ≤ 1 := by
    rw [hx, Real.exp_le_one_iff]
    exact div_nonpos_of_nonpos_of_nonneg (neg_nonpos.2 (by positivity)) (by positivity)
  nlinarith

/-- C143: the energy decreases with the height of the upward continuation (and increases downwards). -/
theorem C143_continuation {A : Grid} {G : Geo} {v : ℕ → ℕ → ℝ} (hA : IsGrid A G v) (hG : G.Increasing) (fill : Fill)
    (h1 h2 : ℝ) (h : h1 ≤ h2) :
    ∃ w1 w2, Gives fill A G (.upwardContinuation h1) w1 ∧ Gives fill A G (.upwardContinuation h2) w2 ∧
      energy G w2 ≤ energy G w1 := by
  obtain ⟨w1, g1, e1⟩ := gives hA hG fill (.upwardContinuation h1) trivial rfl (fun _ _ => ⟨_, rfl⟩)
  obtain ⟨w2, g2, e2⟩ := gives hA hG fill (.upwardContinuation h2) trivial rfl (fun _ _ => ⟨_, rfl⟩)
  refine ⟨w1, w2, g1, g2, ?_⟩
  rw [e1, e2]
  refine sum_power_le v fun p hp q hq => ?_
  have e : ∀ h : ℝ, herm G.n G.m G.dy G.dx (upwardContinuationKernel h) p q =
      ((Real.exp (-Real.sqrt ((2 * Real.pi * freq G.m G.dx q) ^ 2 + (2 * Real.pi * freq G.n G.dy p) ^ 2) * h) : ℝ) : ℂ) :=
    fun h => herm_even (f := fun fe fn =>
      Real.exp (-Real.sqrt ((2 * Real.pi * fe) ^ 2 + (2 * Real.pi * fn) ^ 2) * h))
      (fun _ _ => rfl) (fun _ _ => by simp) (fun _ _ => by simp) hp hq
  rw [e, e, normSq_ofReal, normSq_ofReal]
  have hk := Real.sqrt_nonneg ((2 * Real.pi * freq G.m G.dx q) ^ 2 + (2 * Real.pi * freq G.n G.dy p) ^ 2)
  have := Real.exp_le_exp.2 (show -Real.sqrt ((2 * Real.pi * freq G.m G.dx q) ^ 2 +
    (2 * Real.pi * freq G.n G.dy p) ^ 2) * h2 ≤ -Real.sqrt ((2 * Real.pi * freq G.m G.dx q) ^ 2 +
    (2 * Real.pi * freq G.n G.dy p) ^ 2) * h1 by nlinarith)
  exact mul_le_mul this this (Real.exp_pos _).le (Real.exp_pos _).le

/-! ### the hypotheses are met -/

/-- A grid with odd sizes. -/
noncomputable def oddGeo : Geo := ⟨"northing", "easting", 5, 7, -1, 2, 10, 3⟩

theorem oddGeo_increasing : oddGeo.Increasing :=
  ⟨⟨by decide, by decide, by decide, by norm_num [oddGeo], by norm_num [oddGeo]⟩, by norm_num [oddGeo],
    by norm_num [oddGeo]⟩

/-- Five rows and seven columns of any values. -/
example (v : ℕ → ℕ → ℝ) : IsGrid (gridOf oddGeo v) oddGeo v ∧ oddGeo.Increasing ∧ Odd oddGeo.n ∧ Odd oddGeo.m :=
  ⟨gridOf_isGrid oddGeo (by decide) v, oddGeo_increasing, ⟨2, rfl⟩, ⟨3, rfl⟩⟩

/-- Five rows and eight columns of alternating sign, with an upward derivative that is not zero. -/
example : ∃ u, Gives edgeFill (gridOf toyGeo fun _ j => (-1) ^ j) toyGeo (.derivativeUpward 1) u ∧
    0 < energy toyGeo u := by
  obtain ⟨-, -, u, -, -, h, -, -, hu⟩ := C143_gradient_even (gridOf_isGrid toyGeo (by decide) _) toyGeo_increasing
    ⟨4, rfl⟩ edgeFill
  refine ⟨u, h, ?_⟩
  rw [hu]
  have := Real.pi_pos
  have hx := toyGeo_increasing.dx
  simp only [toyGeo]
  positivity

/-- The filters and the continuation of the grid of alternating columns. -/
example : (∃ l h, Gives edgeFill (gridOf toyGeo fun _ j => (-1) ^ j) toyGeo (.gaussianLowpass 6) l ∧
      Gives edgeFill (gridOf toyGeo fun _ j => (-1) ^ j) toyGeo (.gaussianHighpass 6) h ∧
      energy toyGeo l + energy toyGeo h ≤ energy toyGeo fun _ j => (-1) ^ j) ∧
    ∃ a b, Gives edgeFill (gridOf toyGeo fun _ j => (-1) ^ j) toyGeo (.upwardContinuation (-1)) a ∧
      Gives edgeFill (gridOf toyGeo fun _ j => (-1) ^ j) toyGeo (.upwardContinuation 2) b ∧
      energy toyGeo b ≤ energy toyGeo a :=
  ⟨C143_gaussian (gridOf_isGrid toyGeo (by decide) _) toyGeo_increasing edgeFill 6 (by norm_num),
    C143_continuation (gridOf_isGrid toyGeo (by decide) _) toyGeo_increasing edgeFill (-1) 2 (by norm_num)⟩

end Verif.Filters
