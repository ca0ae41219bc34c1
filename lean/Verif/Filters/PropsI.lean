import Verif.Filters.PropsH

/-!
C128: without padding the filters are convolutions. They do not depend on where an anomaly is in the grid, and
the effect of a node on another is the same as the one of the second on the first.
-/

namespace Verif.Filters
open Complex Finset Verif.Utils
open scoped ComplexConjugate

/-! ### specification -/

/-- The transformation that acts backwards: the same one, besides the direction of the reduction to the
pole. -/
noncomputable def Transformation.reciprocal : Transformation → Transformation
  | .reductionToPole i d mi md => .reductionToPole i (d + 180) mi (md.map (· + 180))
  | t => t

/-- Odd horizontal derivatives change sign. -/
noncomputable def Transformation.reciprocalSign : Transformation → ℝ
  | .derivativeEasting order _ => (-1) ^ order
  | .derivativeNorthing order _ => (-1) ^ order
  | _ => 1

/-! ### shifts -/

theorem wave_periodic {n : ℕ} (hn : 0 < n) (p i : ℕ) : wave n p (i % n) = wave n p i := by
  have h1 : ∀ k, wave n p (n * k) = 1 := by
    intro k
    rw [wave, Complex.exp_eq_one_iff]
    have : (n : ℂ) ≠ 0 := by exact_mod_cast hn.ne'
    refine ⟨((p : ℤ) - (n / 2 : ℕ)) * k, ?_⟩
    rw [Int.cast_mul, Int.cast_sub, Int.cast_natCast, Int.cast_natCast, Int.cast_natCast]
    push_cast
    field_simp
  conv_rhs => rw [← Nat.mod_add_div i n]
  rw [wave_add, h1, mul_one]

/-- Sum over a period, from any start. -/
theorem sum_shift {n : ℕ} (hn : 0 < n) (a : ℕ) (f : ℕ → ℂ) :
    ∑ i ∈ range n, f ((i + a) % n) = ∑ i ∈ range n, f i := by
  refine sum_nbij' (fun i => (i + a) % n) (fun i => (i + (n - a % n)) % n)
    (fun i _ => mem_range.2 (Nat.mod_lt _ hn)) (fun i _ => mem_range.2 (Nat.mod_lt _ hn)) ?_ ?_ (fun _ _ => rfl)
  · intro i hi
    have hi := mem_range.1 hi
    have ha := Nat.mod_lt a hn
    have h : (i + a + (n - a % n)) % n = i := by
      have : i + a + (n - a % n) = i + n * (a / n + 1) := by
        have := Nat.mod_add_div a n
        rw [Nat.mul_add, mul_one]; omega
      rw [this, Nat.add_mul_mod_self_left, Nat.mod_eq_of_lt hi]
    simpa [Nat.add_mod] using h
  · intro i hi
    have hi := mem_range.1 hi
    have ha := Nat.mod_lt a hn
    have h : (i + (n - a % n) + a) % n = i := by
      have : i + (n - a % n) + a = i + n * (a / n + 1) := by
        have := Nat.mod_add_div a n
        rw [Nat.mul_add, mul_one]; omega
      rw [this, Nat.add_mul_mod_self_left, Nat.mod_eq_of_lt hi]
    simpa [Nat.add_mod] using h

theorem dft_shift {n m : ℕ} (hn : 0 < n) (hm : 0 < m) (a b : ℕ) (v v' : ℕ → ℕ → ℂ)
    (h : ∀ i < n, ∀ j < m, v' i j = v ((i + a) % n) ((j + b) % m)) (p q : ℕ) :
    dft n m v' p q = wave n p a * wave m q b * dft n m v p q := by
  have e : dft n m v p q = ∑ i ∈ range n, ∑ j ∈ range m, v ((i + a) % n) ((j + b) % m) *
      (conj (wave n p ((i + a) % n)) * conj (wave m q ((j + b) % m))) := by
    unfold dft
    rw [← sum_shift hn a]
    exact sum_congr rfl fun i _ => (sum_shift hm b _).symm
  rw [e]
  unfold dft
  rw [mul_sum]
  refine sum_congr rfl fun i hi => ?_
  rw [mul_sum]
  refine sum_congr rfl fun j hj => ?_
  rw [h i (mem_range.1 hi) j (mem_range.1 hj), wave_periodic hn, wave_periodic hm, wave_add, wave_add,
    map_mul, map_mul]
  have e1 := wave_mul_conj n p a
  have e2 := wave_mul_conj m q b
  linear_combination (v ((i + a) % n) ((j + b) % m) * conj (wave n p i) * conj (wave m q j)) *
    (-(e1 * (wave m q b * conj (wave m q b))) - e2)

theorem out_shift {n m : ℕ} (hn : 0 < n) (hm : 0 < m) {dy dx : ℝ} (K : Kernel) (a b : ℕ)
    (v v' : ℕ → ℕ → ℝ) (h : ∀ i < n, ∀ j < m, v' i j = v ((i + a) % n) ((j + b) % m)) (i j : ℕ) :
    out n m dy dx K v' i j = out n m dy dx K v ((i + a) % n) ((j + b) % m) := by
  unfold out
  split_ifs with hK
  · congr 2
    unfold idft
    congr 1
    refine sum_congr rfl fun p _ => sum_congr rfl fun q _ => ?_
    beta_reduce
    rw [dft_shift hn hm a b (fun i j => (v i j : ℂ)) (fun i j => v' i j) (fun i hi j hj => by rw [h i hi j hj]),
      wave_periodic hn, wave_periodic hm, wave_add, wave_add]
    ring
  · rfl

/-- C128: without padding, moving the values around the grid (what leaves through one side enters through the
opposite one) moves the result, for every filter and all arguments, including the ones that raise. -/
theorem C128_shift {A B : Grid} {G : Geo} {v : ℕ → ℕ → ℝ} (hG : G.Increasing) (a b : ℕ) (hA : IsGrid A G v)
    (hB : IsGrid B G fun i j => v ((i + a) % G.n) ((j + b) % G.m)) (fill : Fill) (t : Transformation)
    (ht : t.IsFilter) :
    Corresponding G.n G.m G.n G.m (fun i j => [(i + a) % G.n, (j + b) % G.m]) 1 (t.call fill A false none).2
      (t.call fill B false none).2 := by
  rw [call_filter ht, call_filter ht, applyFilter_eq hA hG fill _ false none (widths_none G),
    applyFilter_eq hB hG fill _ false none (widths_none G)]
  cases t.filter.1 with
  | error e => rfl
  | ok K =>
    refine ⟨hA.sizes, hB.sizes, ?_⟩
    intro i _ j _
    have hn := hG.n2
    have hm := hG.m2
    show G.filtered fill K false _ _ i j = (G.filtered fill K false _ v ((i + a) % G.n) ((j + b) % G.m)).map _
    rw [filtered_nopad, filtered_nopad, out_trunc, out_trunc,
      out_shift (by omega) (by omega) K a b v _ (fun _ _ _ _ => rfl)]
    simp

/-! ### reciprocity -/

theorem sum_idft_mul (n m : ℕ) (F v : ℕ → ℕ → ℂ) :
    ∑ i ∈ range n, ∑ j ∈ range m, idft n m F i j * conj (v i j) =
      1 / (n * m) * ∑ p ∈ range n, ∑ q ∈ range m, F p q * conj (dft n m v p q) := by
  have e1 : ∀ i j, idft n m F i j * conj (v i j) =
      ∑ p ∈ range n, ∑ q ∈ range m, 1 / (n * m) * (F p q * (wave n p i * wave m q j)) * conj (v i j) := by
    intro i j
    unfold idft
    simp only [mul_sum, sum_mul]
  have e2 : ∀ p q, F p q * conj (dft n m v p q) =
      ∑ i ∈ range n, ∑ j ∈ range m, F p q * (wave n p i * wave m q j) * conj (v i j) := by
    intro p q
    unfold dft
    simp only [mul_sum, map_sum, map_mul, conj_conj]
    exact sum_congr rfl fun i _ => sum_congr rfl fun j _ => by ring
  simp only [e1, e2]
  calc ∑ i ∈ range n, ∑ j ∈ range m, ∑ p ∈ range n, ∑ q ∈ range m,
        1 / ((n : ℂ) * m) * (F p q * (wave n p i * wave m q j)) * conj (v i j)
      = ∑ i ∈ range n, ∑ p ∈ range n, ∑ j ∈ range m, ∑ q ∈ range m,
        1 / ((n : ℂ) * m) * (F p q * (wave n p i * wave m q j)) * conj (v i j) :=
        sum_congr rfl fun i _ => sum_comm
    _ = ∑ p ∈ range n, ∑ i ∈ range n, ∑ j ∈ range m, ∑ q ∈ range m,
        1 / ((n : ℂ) * m) * (F p q * (wave n p i * wave m q j)) * conj (v i j) := sum_comm
    _ = ∑ p ∈ range n, ∑ i ∈ range n, ∑ q ∈ range m, ∑ j ∈ range m,
        1 / ((n : ℂ) * m) * (F p q * (wave n p i * wave m q j)) * conj (v i j) :=
        sum_congr rfl fun p _ => sum_congr rfl fun i _ => sum_comm
    _ = ∑ p ∈ range n, ∑ q ∈ range m, ∑ i ∈ range n, ∑ j ∈ range m,
        1 / ((n : ℂ) * m) * (F p q * (wave n p i * wave m q j)) * conj (v i j) :=
        sum_congr rfl fun p _ => sum_comm
    _ = _ := by simp only [mul_sum, mul_assoc]

theorem theta_reciprocal (i d fe fn : ℝ) : theta i (d + 180) fe fn = conj (theta i d fe fn) := by
  rw [← theta_neg]
  unfold theta
  rw [show (d + 180) * Real.pi / 180 = d * Real.pi / 180 + Real.pi by ring, Real.sin_add_pi, Real.cos_add_pi,
    neg_sq, neg_sq, neg_mul, neg_mul, mul_neg, mul_neg]

theorem reciprocal_kernel (t : Transformation) (ht : t.IsFilter) {K K' : Kernel} (h : t.filter.1 = .ok K)
    (h' : t.reciprocal.filter.1 = .ok K') (fe fn : ℝ) :
    (K fe fn).getD 0 = (t.reciprocalSign : ℂ) * conj ((K' fe fn).getD 0) := by
  have hI : ∀ (x : ℝ) (k : ℕ), (((-1 : ℝ) ^ k : ℝ) : ℂ) * conj ((((2 * Real.pi * x : ℝ) : ℂ) * I) ^ k) =
      (((2 * Real.pi * x : ℝ) : ℂ) * I) ^ k := by
    intro x k
    rw [map_pow, map_mul, conj_I, conj_ofReal, ofReal_pow, ← mul_pow]
    congr 1; push_cast; ring
  cases t with
  | derivativeUpward order =>
    cases h; cases h'
    simp only [derivativeUpwardKernel, Transformation.reciprocalSign, Option.getD_some, conj_ofReal, ofReal_one,
      one_mul]
  | derivativeEasting order =>
    cases h; cases h'
    simp only [derivativeEastingKernel, Transformation.reciprocalSign, Option.getD_some, hI]
  | derivativeNorthing order =>
    cases h; cases h'
    simp only [derivativeNorthingKernel, Transformation.reciprocalSign, Option.getD_some, hI]
  | upwardContinuation height =>
    cases h; cases h'
    simp only [upwardContinuationKernel, Transformation.reciprocalSign, Option.getD_some, conj_ofReal, ofReal_one,
      one_mul]
  | gaussianLowpass a =>
    simp only [Transformation.reciprocal, Transformation.filter, gaussianLowpassKernel] at h h'
    split_ifs at h h'
    cases h; cases h'
    simp only [Transformation.reciprocalSign, Option.getD_some, conj_ofReal, ofReal_one, one_mul]
  | gaussianHighpass a =>
    simp only [Transformation.reciprocal, Transformation.filter, gaussianHighpassKernel] at h h'
    split_ifs at h h'
    cases h; cases h'
    simp only [Transformation.reciprocalSign, Option.getD_some, conj_ofReal, ofReal_one, one_mul]
  | reductionToPole i d mi md =>
    rcases mi with _ | mi
    · cases h
    rcases md with _ | md
    · cases h
    obtain ⟨K₀, hK₀, h0, hk⟩ := C36_kernel_partial i d mi md
    obtain ⟨K₁, hK₁, h0', hk'⟩ := C36_kernel_partial i (d + 180) mi (md + 180)
    have e : K = K₀ := Except.ok.inj (h.symm.trans hK₀)
    have e' : K' = K₁ := Except.ok.inj (h'.symm.trans hK₁)
    subst e; subst e'
    simp only [Transformation.reciprocalSign, ofReal_one, one_mul]
    by_cases hf : fe = 0 ∧ fn = 0
    · rw [hf.1, hf.2, h0, h0']; simp
    · obtain ⟨a, b⟩ := hk fe fn hf
      obtain ⟨a', b'⟩ := hk' fe fn hf
      rw [theta_reciprocal, theta_reciprocal, ← map_mul] at a' b'
      by_cases hz : theta mi md fe fn * theta i d fe fn = 0
      · rw [b hz, b' (by rw [hz, map_zero])]; simp
      · rw [a hz, a' ((map_ne_zero _).2 hz)]; simp
  | totalGradientAmplitude => exact ht.elim
  | tiltAngle => exact ht.elim

/-- C128: without padding, the sum of the product of a filtered grid with a second grid is the one of the
first grid with the second one filtered backwards: the same filter, with the opposite sign for odd horizontal
derivatives and opposite declinations for the reduction to the pole. -/
theorem C128_reciprocal {A A' B B' : Grid} {G : Geo} {v v' w w' : ℕ → ℕ → ℝ} (hG : G.Increasing)
    (hA : IsGrid A G v) (hA' : IsGrid A' G v') (fill : Fill) (t : Transformation) (ht : t.IsFilter)
    (hB : (t.call fill A false none).2 = .ok B) (hBw : IsGrid B G w)
    (hB' : (t.reciprocal.call fill A' false none).2 = .ok B') (hBw' : IsGrid B' G w') :
    total G (fun i j => w i j * v' i j) = t.reciprocalSign * total G fun i j => v i j * w' i j := by
  have ht' : t.reciprocal.IsFilter := by cases t <;> exact ht
  rw [call_filter ht] at hB
  rw [call_filter ht'] at hB'
  obtain ⟨K, hK, fK, oB⟩ := filter_ok hA hG hB hBw
  obtain ⟨K', hK', fK', oB'⟩ := filter_ok hA' hG hB' hBw'
  have hw : ∀ i < G.n, ∀ j < G.m, (w i j : ℂ) = idft G.n G.m (fun p q => dft G.n G.m (fun i j => v i j) p q *
      herm G.n G.m G.dy G.dx K p q) i j := by
    intro i hi j hj; rw [← out_herm fK, oB i hi j hj]; rfl
  have hw' : ∀ i < G.n, ∀ j < G.m, (w' i j : ℂ) = idft G.n G.m (fun p q => dft G.n G.m (fun i j => v' i j) p q *
      herm G.n G.m G.dy G.dx K' p q) i j := by
    intro i hi j hj; rw [← out_herm fK', oB' i hi j hj]; rfl
  have hh : ∀ p q, herm G.n G.m G.dy G.dx K p q = t.reciprocalSign * conj (herm G.n G.m G.dy G.dx K' p q) := by
    intro p q
    unfold herm kval
    rw [reciprocal_kernel t ht hK hK', reciprocal_kernel t ht hK hK', map_div₀, map_add, map_mul, conj_conj,
      conj_ofReal, show conj (2 : ℂ) = 2 from map_ofNat _ 2]
    ring
  have s1 : ((total G fun i j => w i j * v' i j : ℝ) : ℂ) = 1 / (G.n * G.m) * ∑ p ∈ range G.n, ∑ q ∈ range G.m,
      dft G.n G.m (fun i j => v i j) p q * herm G.n G.m G.dy G.dx K p q *
        conj (dft G.n G.m (fun i j => v' i j) p q) := by
    rw [← sum_idft_mul]
    unfold total
    push_cast
    refine sum_congr rfl fun i hi => sum_congr rfl fun j hj => ?_
    rw [hw i (mem_range.1 hi) j (mem_range.1 hj), conj_ofReal]
  have s2 : ((total G fun i j => v i j * w' i j : ℝ) : ℂ) = 1 / (G.n * G.m) * ∑ p ∈ range G.n, ∑ q ∈ range G.m,
      conj (dft G.n G.m (fun i j => v' i j) p q * herm G.n G.m G.dy G.dx K' p q) *
        dft G.n G.m (fun i j => v i j) p q := by
    have e : ((total G fun i j => v i j * w' i j : ℝ) : ℂ) = conj (1 / (G.n * G.m) * ∑ p ∈ range G.n,
        ∑ q ∈ range G.m, dft G.n G.m (fun i j => v' i j) p q * herm G.n G.m G.dy G.dx K' p q *
          conj (dft G.n G.m (fun i j => v i j) p q)) := by
      rw [← sum_idft_mul, ← conj_ofReal]
      congr 1
      unfold total
      push_cast
      refine sum_congr rfl fun i hi => sum_congr rfl fun j hj => ?_
      rw [hw' i (mem_range.1 hi) j (mem_range.1 hj), conj_ofReal, mul_comm]
    rw [e]
    simp only [map_mul, map_sum, map_div₀, map_one, map_natCast, conj_conj]
  have : ((total G fun i j => w i j * v' i j : ℝ) : ℂ) =
      t.reciprocalSign * ((total G fun i j => v i j * w' i j : ℝ) : ℂ) := by
    rw [s1, s2, mul_left_comm]
    congr 1
    simp only [mul_sum]
    refine sum_congr rfl fun p _ => sum_congr rfl fun q _ => ?_
    rw [hh, map_mul]
    ring
  exact_mod_cast this

/-- C128: the easting derivative and the reduction to the pole of the toy grid, which has NaN in no
result. -/
example (v v' : ℕ → ℕ → ℝ) (t : Transformation)
    (ht : t = .derivativeEasting 1 "fft" ∨ t = .reductionToPole 45 (-20) (some 60) (some 3)) :
    ∃ B w B' w', t.IsFilter ∧ (t.call edgeFill (gridOf toyGeo v) false none).2 = .ok B ∧ IsGrid B toyGeo w ∧
      (t.reciprocal.call edgeFill (gridOf toyGeo v') false none).2 = .ok B' ∧ IsGrid B' toyGeo w' := by
  have hf : ∀ s : Transformation, s.IsFilter → ∀ v, (∃ K, s.filter.1 = .ok K ∧ ∀ fe fn, ∃ z, K fe fn = some z) →
      ∃ B w, (s.call edgeFill (gridOf toyGeo v) false none).2 = .ok B ∧ IsGrid B toyGeo w := by
    rintro s hs v ⟨K, hK, fK⟩
    rw [call_filter hs, hK]
    obtain ⟨B, w, h1, h2, -⟩ := filter_run (gridOf_isGrid toyGeo (by decide) v) toyGeo_increasing edgeFill
      (kfinite_of fK _ _ _ _) s.filter.2
    exact ⟨B, w, h1, h2⟩
  have h60 : ∀ d, 0 < d → d < 180 → Real.sin (d * Real.pi / 180) ≠ 0 := by
    intro d h1 h2
    have := Real.pi_pos
    refine (Real.sin_pos_of_pos_of_lt_pi (by positivity) ?_).ne'
    rw [div_lt_iff₀ (by norm_num)]
    nlinarith
  rcases ht with rfl | rfl
  · obtain ⟨B, w, h1, h2⟩ := hf (.derivativeEasting 1 "fft") rfl v ⟨_, rfl, fun _ _ => ⟨_, rfl⟩⟩
    obtain ⟨B', w', h3, h4⟩ := hf (.derivativeEasting 1 "fft") rfl v' ⟨_, rfl, fun _ _ => ⟨_, rfl⟩⟩
    exact ⟨B, w, B', w', rfl, h1, h2, h3, h4⟩
  · obtain ⟨B, w, h1, h2⟩ := hf (.reductionToPole 45 (-20) (some 60) (some 3)) trivial v
      (C36_finite_partial _ _ _ _ (h60 _ (by norm_num) (by norm_num)) (h60 _ (by norm_num) (by norm_num)))
    obtain ⟨B', w', h3, h4⟩ := hf (.reductionToPole 45 (-20 + 180) (some 60) (some (3 + 180))) trivial v'
      (C36_finite_partial _ _ _ _ (h60 _ (by norm_num) (by norm_num)) (h60 _ (by norm_num) (by norm_num)))
    exact ⟨B, w, B', w', trivial, h1, h2, h3, h4⟩

end Verif.Filters
