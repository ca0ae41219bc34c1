import Verif.Filters.PropsD

/-!
C104: sequences of grid transformations without padding.
-/

namespace Verif.Filters
open Complex Finset Verif.Utils
open scoped ComplexConjugate

/-! ### specification -/

/-- The transformations that multiply the transform of the grid by a function: all but the horizontal
derivatives with finite differences, the total gradient amplitude and the tilt angle. -/
def Transformation.IsFilter : Transformation → Prop
  | .derivativeEasting _ method => method = "fft"
  | .derivativeNorthing _ method => method = "fft"
  | .totalGradientAmplitude => False
  | .tiltAngle => False
  | _ => True

/-- What happens to the mean of the grid: kept by the upward continuation and by the low-pass filter
(and by derivatives of order zero), lost in the others. -/
def Transformation.meanFactor : Transformation → ℝ
  | .derivativeUpward order => if order = 0 then 1 else 0
  | .derivativeEasting order _ => if order = 0 then 1 else 0
  | .derivativeNorthing order _ => if order = 0 then 1 else 0
  | .upwardContinuation _ => 1
  | .gaussianLowpass _ => 1
  | _ => 0

/-- The sum of the values of a grid. -/
noncomputable def total (G : Geo) (v : ℕ → ℕ → ℝ) : ℝ := ∑ i ∈ range G.n, ∑ j ∈ range G.m, v i j

/-! ### the real part of a filtered grid -/

/-- The Hermitian part of a kernel: what acts on real grids. -/
noncomputable def herm (n m : ℕ) (dy dx : ℝ) (K : Kernel) (p q : ℕ) : ℂ :=
  (kval n m dy dx K p q + conj (kval n m dy dx K (opp n p) (opp m q))) / 2

theorem conj_idft' {n m : ℕ} (F : ℕ → ℕ → ℂ) (i j : ℕ) :
    conj (idft n m F i j) = idft n m (fun p q => conj (F (opp n p) (opp m q))) i j := by
  unfold idft
  simp only [map_mul, map_sum, map_div₀, map_one, map_natCast]
  congr 1
  rw [← sum_opp n]
  refine sum_congr rfl fun p hp => ?_
  rw [← sum_opp m]
  refine sum_congr rfl fun q hq => ?_
  rw [wave_opp (mem_range.1 hp), wave_opp (mem_range.1 hq)]
  simp

theorem out_herm {n m : ℕ} {dy dx : ℝ} {K : Kernel} (h : KFinite n m dy dx K) (v : ℕ → ℕ → ℝ) (i j : ℕ) :
    ((out n m dy dx K v i j).getD 0 : ℂ) =
      idft n m (fun p q => dft n m (fun i j => v i j) p q * herm n m dy dx K p q) i j := by
  rw [out_finite h, Option.getD_some, Complex.re_eq_add_conj, conj_idft']
  have e := idft_linear n m (fun p q => dft n m (fun i j => (v i j : ℂ)) p q * kval n m dy dx K p q)
    (fun p q => conj (dft n m (fun i j => (v i j : ℂ)) (opp n p) (opp m q) *
      kval n m dy dx K (opp n p) (opp m q))) (1 / 2) (1 / 2) i j
  rw [show ∀ a b : ℂ, (a + b) / 2 = 1 / 2 * a + 1 / 2 * b by intros; ring, ← e]
  apply idft_congr
  intro p hp q hq
  rw [map_mul, conj_dft _ (fun i _ j _ => conj_ofReal _) (opp_lt hp) (opp_lt hq), opp_opp hp, opp_opp hq, herm]
  ring

/-- Two filters, one after the other. -/
theorem out_out_herm {n m : ℕ} {dy dx : ℝ} {K L : Kernel} (hK : KFinite n m dy dx K)
    (hL : KFinite n m dy dx L) (v w : ℕ → ℕ → ℝ)
    (hw : ∀ i < n, ∀ j < m, out n m dy dx K v i j = some (w i j)) (i j : ℕ) :
    (((out n m dy dx L w i j).getD 0 : ℝ) : ℂ) = idft n m (fun p q => dft n m (fun i j => v i j) p q *
      (herm n m dy dx K p q * herm n m dy dx L p q)) i j := by
  rw [out_herm hL]
  apply idft_congr
  intro p hp q hq
  have : dft n m (fun i j => (w i j : ℂ)) p q = dft n m (idft n m
      (fun p q => dft n m (fun i j => v i j) p q * herm n m dy dx K p q)) p q := by
    apply dft_congr
    intro i hi j hj
    rw [← out_herm hK, hw i hi j hj]; rfl
  rw [this, dft_idft _ hp hq]
  ring

/-! ### transformations as filters -/

/-- The kernel of a transformation and whether it drops coordinates. -/
noncomputable def Transformation.filter : Transformation → Py Kernel × Bool
  | .derivativeUpward order => (.ok (derivativeUpwardKernel order), false)
  | .derivativeEasting order _ => (.ok (derivativeEastingKernel order), false)
  | .derivativeNorthing order _ => (.ok (derivativeNorthingKernel order), false)
  | .upwardContinuation h => (.ok (upwardContinuationKernel h), true)
  | .gaussianLowpass w => (gaussianLowpassKernel w, false)
  | .gaussianHighpass w => (gaussianHighpassKernel w, false)
  | .reductionToPole i d mi md => (reductionToPoleKernel (some i) (some d) mi md, false)
  | _ => (.error .ValueError, false)

theorem call_filter {t : Transformation} (ht : t.IsFilter) (fill : Fill) (A : Grid) (pad : Bool)
    (kw : Option PadKwargs) :
    t.call fill A pad kw = applyFilter fill A t.filter.1 pad kw t.filter.2 := by
  cases t with
  | derivativeEasting order method =>
    have : method = "fft" := ht
    subst this
    simp [Transformation.call, derivativeEasting, Transformation.filter]
  | derivativeNorthing order method =>
    have : method = "fft" := ht
    subst this
    simp [Transformation.call, derivativeNorthing, Transformation.filter]
  | totalGradientAmplitude => exact ht.elim
  | tiltAngle => exact ht.elim
  | _ => rfl

theorem widths_none (G : Geo) : WidthsFor G none := by intro k hk; cases hk

/-- A filter that returned a grid without NaN is finite. -/
theorem filter_ok {A B : Grid} {G : Geo} {v w : ℕ → ℕ → ℝ} (hA : IsGrid A G v) (hG : G.Increasing)
    {fill : Fill} {K : Py Kernel} {drop : Bool} (h : (applyFilter fill A K false none drop).2 = .ok B)
    (hB : IsGrid B G w) : ∃ k, K = .ok k ∧ KFinite G.n G.m G.dy G.dx k ∧
      ∀ i < G.n, ∀ j < G.m, out G.n G.m G.dy G.dx k v i j = some (w i j) := by
  rw [applyFilter_eq hA hG fill K false none (widths_none G) drop] at h
  cases K with
  | error e => cases h
  | ok k =>
    simp only [Except.map, Except.ok.injEq] at h
    have hw : ∀ i < G.n, ∀ j < G.m, out G.n G.m G.dy G.dx k v i j = some (w i j) := by
      intro i hi j hj
      rw [← hB.data i hi j hj, ← h, ← out_trunc, ← filtered_nopad (fill := fill) (kw := effective G none)]
      rfl
    refine ⟨k, rfl, ?_, hw⟩
    by_contra hk
    have := hw 0 (by have := hG.n2; omega) 0 (by have := hG.m2; omega)
    unfold out at this
    rw [if_neg hk] at this
    cases this

theorem filter_run {A : Grid} {G : Geo} {v : ℕ → ℕ → ℝ} (hA : IsGrid A G v) (hG : G.Increasing)
    (fill : Fill) {k : Kernel} (hk : KFinite G.n G.m G.dy G.dx k) (drop : Bool) :
    ∃ B w, (applyFilter fill A (.ok k) false none drop).2 = .ok B ∧ IsGrid B G w ∧
      ∀ i < G.n, ∀ j < G.m, out G.n G.m G.dy G.dx k v i j = some (w i j) := by
  obtain ⟨B, h1, h2, -⟩ := applyFilter_values hA hG fill k false none (widths_none G) drop
    (fun i j => (out G.n G.m G.dy G.dx k v i j).getD 0) (by
      intro i _ j _
      rw [filtered_nopad, out_trunc, out_finite hk]; rfl)
  exact ⟨B, _, h1, h2, fun i _ j _ => by rw [out_finite hk]; rfl⟩

/-- Grids that come out of two pairs of filters. -/
theorem same_of_pairs {A B C B' C' : Grid} {G : Geo} {x x' : ℕ → ℕ → ℝ} {fill : Fill}
    {K K' L L' : Py Kernel} {d d' e e' : Bool}
    (hB : (applyFilter fill A K false none d).2 = .ok B)
    (hC : (applyFilter fill B L false none e).2 = .ok C) (hCx : IsGrid C G x)
    (hB' : (applyFilter fill A K' false none d').2 = .ok B')
    (hC' : (applyFilter fill B' L' false none e').2 = .ok C') (hCx' : IsGrid C' G x')
    (hd : (d || e) = (d' || e')) (h : ∀ i < G.n, ∀ j < G.m, x' i j = x i j) : SameGrid C C' := by
  refine hCx.same hCx' h ?_
  intro name
  obtain ⟨dB, -, gB, gB0⟩ := C32_geometry _ _ _ _ _ _ _ hB
  obtain ⟨-, -, gC, gC0⟩ := C32_geometry _ _ _ _ _ _ _ hC
  obtain ⟨dB', -, gB', gB0'⟩ := C32_geometry _ _ _ _ _ _ _ hB'
  obtain ⟨-, -, gC', gC0'⟩ := C32_geometry _ _ _ _ _ _ _ hC'
  rw [dB] at gC gC0
  rw [dB'] at gC' gC0'
  by_cases hm : name ∈ A.dims
  · rw [gC' name hm, gB' name hm, gC name hm, gB name hm]
  · rw [gC0' _ hm, gB0' _ hm, gC0 _ hm, gB0 _ hm]
    revert hd
    cases d <;> cases e <;> cases d' <;> cases e' <;> simp

/-! ### C104 -/

/-- C104: without padding, two transformations that filter with the FFT give the same grid in either order
(values and coordinates), for every grid, whenever the results have no NaN. -/
theorem C104_commute {A B C : Grid} {G : Geo} {v w x : ℕ → ℕ → ℝ} (hA : IsGrid A G v) (hG : G.Increasing)
    (fill : Fill) (s t : Transformation) (hs : s.IsFilter) (ht : t.IsFilter)
    (hB : (s.call fill A false none).2 = .ok B) (hBw : IsGrid B G w)
    (hC : (t.call fill B false none).2 = .ok C) (hCx : IsGrid C G x) :
    ∃ B' C', (t.call fill A false none).2 = .ok B' ∧ (s.call fill B' false none).2 = .ok C' ∧
      SameGrid C C' := by
  simp only [call_filter hs, call_filter ht] at hB hC ⊢
  obtain ⟨K, hK, fK, oB⟩ := filter_ok hA hG hB hBw
  obtain ⟨L, hL, fL, oC⟩ := filter_ok hBw hG hC hCx
  rw [hK] at hB
  rw [hL] at hC
  rw [hK, hL]
  obtain ⟨B', w', hB', hBw', oB'⟩ := filter_run hA hG fill fL t.filter.2
  obtain ⟨C', x', hC', hCx', oC'⟩ := filter_run hBw' hG fill fK s.filter.2
  refine ⟨B', C', hB', hC', same_of_pairs hB hC hCx hB' hC' hCx' (Bool.or_comm _ _) ?_⟩
  intro i hi j hj
  have h1 := out_out_herm fK fL v w oB i j
  have h2 := out_out_herm fL fK v w' oB' i j
  rw [oC i hi j hj, Option.getD_some] at h1
  rw [oC' i hi j hj, Option.getD_some] at h2
  have : (x' i j : ℂ) = x i j := by
    rw [h1, h2]
    congr 1
    funext p q
    ring
  exact_mod_cast this

/-- Two filters that make a third one. -/
theorem cascade {A : Grid} {G : Geo} {v : ℕ → ℕ → ℝ} (hA : IsGrid A G v) (hG : G.Increasing)
    (fill : Fill) {K L M : Kernel} (fK : KFinite G.n G.m G.dy G.dx K) (fL : KFinite G.n G.m G.dy G.dx L)
    (fM : KFinite G.n G.m G.dy G.dx M)
    (h : ∀ p < G.n, ∀ q < G.m, herm G.n G.m G.dy G.dx K p q * herm G.n G.m G.dy G.dx L p q =
      herm G.n G.m G.dy G.dx M p q) :
    ∃ B C D, (applyFilter fill A (.ok K) false none).2 = .ok B ∧
      (applyFilter fill B (.ok L) false none).2 = .ok C ∧
      (applyFilter fill A (.ok M) false none).2 = .ok D ∧ SameGrid D C := by
  obtain ⟨B, w, hB, hBw, oB⟩ := filter_run hA hG fill fK false
  obtain ⟨C, x, hC, hCx, oC⟩ := filter_run hBw hG fill fL false
  obtain ⟨D, y, hD, hDy, oD⟩ := filter_run hA hG fill fM false
  refine ⟨B, C, D, hB, hC, hD, hDy.same hCx ?_ ?_⟩
  · intro i hi j hj
    have h1 := out_out_herm fK fL v w oB i j
    have h2 := out_herm fM v i j
    rw [oC i hi j hj, Option.getD_some] at h1
    rw [oD i hi j hj, Option.getD_some] at h2
    have : (x i j : ℂ) = y i j := by
      rw [h1, h2]
      apply idft_congr
      intro p hp q hq
      rw [h p hp q hq]
    exact_mod_cast this
  · intro name
    obtain ⟨dB, -, gB, gB0⟩ := C32_geometry _ _ _ _ _ _ _ hB
    obtain ⟨-, -, gC, gC0⟩ := C32_geometry _ _ _ _ _ _ _ hC
    obtain ⟨-, -, gD, gD0⟩ := C32_geometry _ _ _ _ _ _ _ hD
    rw [dB] at gC gC0
    by_cases hm : name ∈ A.dims
    · rw [gC name hm, gB name hm, gD name hm]
    · rw [gC0 name hm, gB0 name hm, gD0 name hm]; rfl

theorem herm_of_hermitian {n m : ℕ} {dy dx : ℝ} {K : Kernel} (h : Hermitian n m dy dx K) {p q : ℕ}
    (hp : p < n) (hq : q < m) : herm n m dy dx K p q = kval n m dy dx K p q := by
  rw [herm, ← h p hp q hq, Complex.conj_conj]; ring

theorem up_hermitian (k : ℕ) (n m : ℕ) (dy dx : ℝ) : Hermitian n m dy dx (derivativeUpwardKernel k) :=
  hermitian_of_even (fun _ _ => ⟨_, rfl⟩) (by intros; simp [derivativeUpwardKernel])
    (by intros; simp [derivativeUpwardKernel]) n m dy dx

/-- C104: upward derivatives of orders `j` and `k`, one after the other, are the derivative of order
`j + k`. -/
theorem C104_upward_orders {A : Grid} {G : Geo} {v : ℕ → ℕ → ℝ} (hA : IsGrid A G v) (hG : G.Increasing)
    (fill : Fill) (j k : ℕ) :
    ∃ B C D, (derivativeUpward fill A j (pad := false)).2 = .ok B ∧
      (derivativeUpward fill B k (pad := false)).2 = .ok C ∧
      (derivativeUpward fill A (j + k) (pad := false)).2 = .ok D ∧ SameGrid D C := by
  have f : ∀ k, KFinite G.n G.m G.dy G.dx (derivativeUpwardKernel k) :=
    fun k => kfinite_of (fun _ _ => ⟨_, rfl⟩) _ _ _ _
  refine cascade hA hG fill (f j) (f k) (f (j + k)) ?_
  intro p hp q hq
  simp only [herm_of_hermitian (up_hermitian _ _ _ _ _) hp hq, kval, derivativeUpwardKernel, Option.getD_some]
  rw [← ofReal_mul, ← pow_add]

/-- C104: gaussian low-pass filters with wavelengths `a` and `b`, one after the other, are the filter with
wavelength √(a² + b²). -/
theorem C104_lowpass_cascade {A : Grid} {G : Geo} {v : ℕ → ℕ → ℝ} (hA : IsGrid A G v) (hG : G.Increasing)
    (fill : Fill) (a b : ℝ) (ha : a ≠ 0) (hb : b ≠ 0) :
    ∃ B C D, (gaussianLowpass fill A a (pad := false)).2 = .ok B ∧
      (gaussianLowpass fill B b (pad := false)).2 = .ok C ∧
      (gaussianLowpass fill A (Real.sqrt (a ^ 2 + b ^ 2)) (pad := false)).2 = .ok D ∧ SameGrid D C := by
  have hc : 0 < a ^ 2 + b ^ 2 := by positivity
  have hc' : Real.sqrt (a ^ 2 + b ^ 2) ≠ 0 := (Real.sqrt_pos.2 hc).ne'
  unfold gaussianLowpass gaussianLowpassKernel
  rw [if_neg ha, if_neg hb, if_neg hc']
  refine cascade hA hG fill (kfinite_of (fun _ _ => ⟨_, rfl⟩) _ _ _ _)
    (kfinite_of (fun _ _ => ⟨_, rfl⟩) _ _ _ _) (kfinite_of (fun _ _ => ⟨_, rfl⟩) _ _ _ _) ?_
  intro p hp q hq
  have hh : ∀ w : ℝ, Hermitian G.n G.m G.dy G.dx (fun fe fn => some ((Real.exp (-((2 * Real.pi * fe) ^ 2 +
      (2 * Real.pi * fn) ^ 2) / (2 * (2 * Real.pi / w) ^ 2)) : ℝ) : ℂ)) := fun w =>
    hermitian_of_even (fun _ _ => ⟨_, rfl⟩) (by intros; congr 5; ring) (by intros; congr 5; ring) _ _ _ _
  rw [herm_of_hermitian (hh a) hp hq, herm_of_hermitian (hh b) hp hq, herm_of_hermitian (hh _) hp hq]
  simp only [kval, Option.getD_some]
  rw [← ofReal_mul, ← Real.exp_add]
  congr 2
  have key : ∀ w x : ℝ, w ≠ 0 → x / (2 * (2 * Real.pi / w) ^ 2) = x * w ^ 2 / (8 * Real.pi ^ 2) := by
    intro w x hw
    have := Real.pi_ne_zero
    field_simp; norm_num
  rw [key a _ ha, key b _ hb, key _ _ hc', Real.sq_sqrt hc.le]
  ring

/-! ### horizontal derivatives -/

theorem freq_opp {n p : ℕ} (h : p < n) (d : ℝ) :
    freq n d (opp n p) = -freq n d p ∨ (Even n ∧ p = 0 ∧ freq n d (opp n p) = freq n d p) := by
  rcases opp_freq h with h1 | ⟨h0, h1, h2⟩
  · left; unfold freq; rw [h1]; ring
  · right; exact ⟨⟨n / 2, by omega⟩, h1, by rw [h2, h1]⟩

/-- The Hermitian part of the kernel of a horizontal derivative. -/
noncomputable def hpow (x y : ℝ) (k : ℕ) : ℂ :=
  (((2 * Real.pi * x : ℝ) : ℂ) * I) ^ k / 2 + conj ((((2 * Real.pi * y : ℝ) : ℂ) * I) ^ k) / 2

theorem hpow_neg (x : ℝ) (k : ℕ) : hpow x (-x) k = (((2 * Real.pi * x : ℝ) : ℂ) * I) ^ k := by
  have : conj ((((2 * Real.pi * -x : ℝ) : ℂ) * I) ^ k) = (((2 * Real.pi * x : ℝ) : ℂ) * I) ^ k := by
    rw [map_pow, map_mul, conj_I, conj_ofReal]
    congr 1; push_cast; ring
  rw [hpow, this]; ring

theorem hpow_self (x : ℝ) (k : ℕ) :
    hpow x x k = if Even k then (((2 * Real.pi * x : ℝ) : ℂ) * I) ^ k else 0 := by
  have : conj ((((2 * Real.pi * x : ℝ) : ℂ) * I) ^ k) = (-(((2 * Real.pi * x : ℝ) : ℂ) * I)) ^ k := by
    rw [map_pow, map_mul, conj_I, conj_ofReal]
    congr 1; ring
  rw [hpow, this]
  split_ifs with h
  · rw [h.neg_pow]; ring
  · rw [(Nat.not_even_iff_odd.1 h).neg_pow]; ring

theorem hpow_add {n p : ℕ} (hp : p < n) (d : ℝ) {j k : ℕ} (h : Odd n ∨ Even j ∨ Even k) :
    hpow (freq n d p) (freq n d (opp n p)) j * hpow (freq n d p) (freq n d (opp n p)) k =
      hpow (freq n d p) (freq n d (opp n p)) (j + k) := by
  rcases freq_opp hp d with h1 | ⟨h0, -, h1⟩
  · rw [h1, hpow_neg, hpow_neg, hpow_neg, pow_add]
  · rw [h1, hpow_self, hpow_self, hpow_self]
    have hn : ¬ Odd n := Nat.not_odd_iff_even.2 h0
    simp only [hn, false_or] at h
    by_cases hj : Even j <;> by_cases hk : Even k
    · rw [if_pos hj, if_pos hk, if_pos (hj.add hk), pow_add]
    · rw [if_pos hj, if_neg hk, if_neg (by simp [Nat.even_add, hj, hk])]; ring
    · rw [if_neg hj, if_pos hk, if_neg (by simp [Nat.even_add, hj, hk])]; ring
    · tauto

/-- C104: horizontal derivatives of orders `j` and `k` computed with the FFT, one after the other, are the
derivative of order `j + k` when the grid has an odd number of nodes along the axis or one of the orders
is even. (See `C104_not_full` for the other case.) -/
theorem C104_horizontal_orders_partial {A : Grid} {G : Geo} {v : ℕ → ℕ → ℝ} (hA : IsGrid A G v)
    (hG : G.Increasing) (fill : Fill) (j k : ℕ) :
    ((Odd G.m ∨ Even j ∨ Even k) → ∃ B C D, (derivativeEasting fill A j "fft" (pad := false)).2 = .ok B ∧
      (derivativeEasting fill B k "fft" (pad := false)).2 = .ok C ∧
      (derivativeEasting fill A (j + k) "fft" (pad := false)).2 = .ok D ∧ SameGrid D C) ∧
    ((Odd G.n ∨ Even j ∨ Even k) → ∃ B C D, (derivativeNorthing fill A j "fft" (pad := false)).2 = .ok B ∧
      (derivativeNorthing fill B k "fft" (pad := false)).2 = .ok C ∧
      (derivativeNorthing fill A (j + k) "fft" (pad := false)).2 = .ok D ∧ SameGrid D C) := by
  constructor
  · intro h
    have e : ∀ A k, derivativeEasting fill A k "fft" (pad := false) =
        applyFilter fill A (.ok (derivativeEastingKernel k)) false none := by
      intro A k; simp [derivativeEasting]
    simp only [e]
    refine cascade hA hG fill (kfinite_of (fun _ _ => ⟨_, rfl⟩) _ _ _ _)
      (kfinite_of (fun _ _ => ⟨_, rfl⟩) _ _ _ _) (kfinite_of (fun _ _ => ⟨_, rfl⟩) _ _ _ _) ?_
    intro p hp q hq
    have := hpow_add hq G.dx h
    simp only [hpow, ← add_div] at this
    exact this
  · intro h
    have e : ∀ A k, derivativeNorthing fill A k "fft" (pad := false) =
        applyFilter fill A (.ok (derivativeNorthingKernel k)) false none := by
      intro A k; simp [derivativeNorthing]
    simp only [e]
    refine cascade hA hG fill (kfinite_of (fun _ _ => ⟨_, rfl⟩) _ _ _ _)
      (kfinite_of (fun _ _ => ⟨_, rfl⟩) _ _ _ _) (kfinite_of (fun _ _ => ⟨_, rfl⟩) _ _ _ _) ?_
    intro p hp q hq
    have := hpow_add hp G.dy h
    simp only [hpow, ← add_div] at this
    exact this

theorem wave_nyquist {m : ℕ} (hm : Even m) (h0 : 0 < m) (j : ℕ) : wave m 0 j = ((-1 : ℝ) ^ j : ℝ) := by
  obtain ⟨r, rfl⟩ := hm
  have hr : (r : ℂ) ≠ 0 := by exact_mod_cast (by omega : r ≠ 0)
  have h2 : (r + r) / 2 = r := by omega
  have : wave (r + r) 0 j = exp (-(Real.pi * I)) ^ j := by
    rw [wave, h2, ← Complex.exp_nat_mul]
    congr 1
    push_cast
    field_simp
    ring
  rw [this, Complex.exp_neg, Complex.exp_pi_mul_I]
  push_cast
  norm_num

/-- Filter of the grid of alternating columns. -/
theorem out_alternating {n m : ℕ} {dy dx : ℝ} (hn : 0 < n) (h0 : 0 < m) (hm : Even m) {K : Kernel}
    (hK : KFinite n m dy dx K) (v : ℕ → ℕ → ℝ) (hv : ∀ i < n, ∀ j < m, v i j = (-1) ^ j) (i j : ℕ) :
    out n m dy dx K v i j = some ((kval n m dy dx K (n / 2) 0).re * (-1) ^ j) := by
  rw [out_finite hK]
  have hw : ∀ i, wave n (n / 2) i = 1 := by intro i; simp [wave]
  have e : (fun p q => dft n m (fun i j => (v i j : ℂ)) p q * kval n m dy dx K p q) =
      fun p q => dft n m (fun i j => 1 * (wave n (n / 2) i * wave m 0 j)) p q * kval n m dy dx K p q := by
    funext p q
    congr 1
    apply dft_congr
    intro i hi j hj
    rw [hv i hi j hj, hw, wave_nyquist hm h0]; ring
  rw [e, idft_wave (by omega) h0, hw, wave_nyquist hm h0, one_mul, one_mul, re_mul_ofReal]

/-- C104 fails for odd orders and an even number of columns: the first derivative of a grid with columns
of alternating sign is zero, so the first derivative of the first derivative is zero, and the second
derivative is not. -/
theorem C104_not_full {A : Grid} {G : Geo} (hA : IsGrid A G fun _ j => (-1) ^ j) (hG : G.Increasing)
    (hm : Even G.m) (fill : Fill) :
    ∃ B C D, (derivativeEasting fill A 1 "fft" (pad := false)).2 = .ok B ∧
      (derivativeEasting fill B 1 "fft" (pad := false)).2 = .ok C ∧
      (derivativeEasting fill A 2 "fft" (pad := false)).2 = .ok D ∧
      IsGrid C G (fun _ _ => 0) ∧ IsGrid D G (fun _ j => -(Real.pi / G.dx) ^ 2 * (-1) ^ j) := by
  have e : ∀ A k, derivativeEasting fill A k "fft" (pad := false) =
      applyFilter fill A (.ok (derivativeEastingKernel k)) false none := by
    intro A k; simp [derivativeEasting]
  simp only [e]
  have f : ∀ k, KFinite G.n G.m G.dy G.dx (derivativeEastingKernel k) :=
    fun k => kfinite_of (fun _ _ => ⟨_, rfl⟩) _ _ _ _
  have hn2 := hG.n2
  have hm2 := hG.m2
  have hfreq : freq G.m G.dx 0 = -1 / (2 * G.dx) := by
    obtain ⟨r, hr⟩ := hm
    have h2 : G.m / 2 = r := by omega
    have hr0 : (r : ℝ) ≠ 0 := by exact_mod_cast (by omega : r ≠ 0)
    have := hG.dx0
    unfold freq
    rw [h2, hr]
    push_cast
    field_simp
    ring
  obtain ⟨B, hB, hB', -⟩ := applyFilter_values hA hG fill (derivativeEastingKernel 1) false none
    (widths_none G) false (fun _ _ => 0) (by
      intro i _ j _
      rw [filtered_nopad, out_trunc, out_alternating (by omega) (by omega) hm (f 1) _ (fun _ _ _ _ => rfl)]
      simp [kval, derivativeEastingKernel])
  obtain ⟨C, hC, hC', -⟩ := applyFilter_values hB' hG fill (derivativeEastingKernel 1) false none
    (widths_none G) false (fun _ _ => 0) (by
      intro i _ j _
      rw [filtered_nopad, out_trunc, out_finite (f 1)]
      simp [dft, idft])
  obtain ⟨D, hD, hD', -⟩ := applyFilter_values hA hG fill (derivativeEastingKernel 2) false none
    (widths_none G) false (fun _ j => -(Real.pi / G.dx) ^ 2 * (-1) ^ j) (by
      intro i _ j _
      rw [filtered_nopad, out_trunc, out_alternating (by omega) (by omega) hm (f 2) _ (fun _ _ _ _ => rfl)]
      simp only [kval, derivativeEastingKernel, Option.getD_some, hfreq, mul_pow, I_sq]
      congr 2
      rw [← ofReal_pow, mul_neg_one, ← ofReal_neg, ofReal_re]
      ring)
  exact ⟨B, C, D, hB, hC, hD, hC', hD'⟩

/-! ### means -/

/-- C104: without padding, the upward continuation and the low-pass filter keep the mean of the grid, and
the other filters (derivatives, high-pass, reduction to the pole) return grids with zero mean. -/
theorem C104_mean {A B : Grid} {G : Geo} {v w : ℕ → ℕ → ℝ} (hA : IsGrid A G v) (hG : G.Increasing)
    (fill : Fill) (t : Transformation) (ht : t.IsFilter) (hB : (t.call fill A false none).2 = .ok B)
    (hBw : IsGrid B G w) : total G w = t.meanFactor * total G v := by
  rw [call_filter ht] at hB
  obtain ⟨K, hK, fK, oB⟩ := filter_ok hA hG hB hBw
  have hn2 := hG.n2
  have hm2 := hG.m2
  have h0 : K 0 0 = some ((t.meanFactor : ℝ) : ℂ) := by
    cases t with
    | derivativeUpward order =>
      cases hK
      simp only [derivativeUpwardKernel, Transformation.meanFactor]
      cases order <;> simp
    | derivativeEasting order =>
      cases hK
      simp only [derivativeEastingKernel, Transformation.meanFactor]
      cases order <;> simp
    | derivativeNorthing order =>
      cases hK
      simp only [derivativeNorthingKernel, Transformation.meanFactor]
      cases order <;> simp
    | upwardContinuation h =>
      cases hK
      simp [upwardContinuationKernel, Transformation.meanFactor]
    | gaussianLowpass a =>
      simp only [Transformation.filter, gaussianLowpassKernel] at hK
      split_ifs at hK
      cases hK
      simp [Transformation.meanFactor]
    | gaussianHighpass a =>
      simp only [Transformation.filter, gaussianHighpassKernel] at hK
      split_ifs at hK
      cases hK
      simp [Transformation.meanFactor]
    | reductionToPole i d mi md =>
      simp only [Transformation.filter, reductionToPoleKernel] at hK
      cases h1 : versor mi md with
      | error e => rw [h1] at hK; cases hK
      | ok mv =>
        rw [h1] at hK
        cases h2 : versor (some i) (some d) with
        | error e => rw [h2] at hK; cases hK
        | ok fv =>
          rw [h2] at hK
          cases hK
          simp [Transformation.meanFactor]
    | totalGradientAmplitude => exact ht.elim
    | tiltAngle => exact ht.elim
  have := sum_out (by omega) (by omega) fK v _ h0
  rw [total, total, ← this]
  refine sum_congr rfl fun i hi => sum_congr rfl fun j hj => ?_
  rw [oB i (mem_range.1 hi) j (mem_range.1 hj)]; rfl

/-- C104: the gaussian filters do not increase the energy of the grid. -/
theorem C104_gaussian_energy {A : Grid} {G : Geo} {v : ℕ → ℕ → ℝ} (hA : IsGrid A G v) (hG : G.Increasing)
    (fill : Fill) (a : ℝ) (ha : a ≠ 0) :
    ∃ L H l h, (gaussianLowpass fill A a (pad := false)).2 = .ok L ∧
      (gaussianHighpass fill A a (pad := false)).2 = .ok H ∧ IsGrid L G l ∧ IsGrid H G h ∧
      total G (fun i j => l i j ^ 2) ≤ total G (fun i j => v i j ^ 2) ∧
      total G (fun i j => h i j ^ 2) ≤ total G (fun i j => v i j ^ 2) := by
  unfold gaussianLowpass gaussianHighpass gaussianLowpassKernel gaussianHighpassKernel
  rw [if_neg ha, if_neg ha]
  have hn2 := hG.n2
  have hm2 := hG.m2
  have hr : ∀ fe fn : ℝ, 0 < Real.exp (-((2 * Real.pi * fe) ^ 2 + (2 * Real.pi * fn) ^ 2) /
      (2 * (2 * Real.pi / a) ^ 2)) ∧ Real.exp (-((2 * Real.pi * fe) ^ 2 + (2 * Real.pi * fn) ^ 2) /
      (2 * (2 * Real.pi / a) ^ 2)) ≤ 1 := by
    intro fe fn
    refine ⟨Real.exp_pos _, Real.exp_le_one_iff.2 ?_⟩
    apply div_nonpos_of_nonpos_of_nonneg
    · have : 0 ≤ (2 * Real.pi * fe) ^ 2 + (2 * Real.pi * fn) ^ 2 := by positivity
      linarith
    · positivity
  obtain ⟨L, l, hL, hLl, oL⟩ := filter_run hA hG fill (k := fun fe fn => some ((Real.exp (-((2 * Real.pi * fe) ^ 2 +
      (2 * Real.pi * fn) ^ 2) / (2 * (2 * Real.pi / a) ^ 2)) : ℝ) : ℂ))
    (kfinite_of (fun _ _ => ⟨_, rfl⟩) _ _ _ _) false
  obtain ⟨H, h, hH, hHh, oH⟩ := filter_run hA hG fill (k := fun fe fn => some ((1 - Real.exp (-((2 * Real.pi * fe) ^ 2 +
      (2 * Real.pi * fn) ^ 2) / (2 * (2 * Real.pi / a) ^ 2)) : ℝ) : ℂ))
    (kfinite_of (fun _ _ => ⟨_, rfl⟩) _ _ _ _) false
  refine ⟨L, H, l, h, hL, hH, hLl, hHh, ?_, ?_⟩
  · refine le_trans (le_of_eq ?_) (energy_out (dy := G.dy) (dx := G.dx) (K := fun fe fn => some ((Real.exp
      (-((2 * Real.pi * fe) ^ 2 + (2 * Real.pi * fn) ^ 2) / (2 * (2 * Real.pi / a) ^ 2)) : ℝ) : ℂ))
      (by omega) (by omega) (kfinite_of (fun _ _ => ⟨_, rfl⟩) _ _ _ _) ?_ v)
    · refine sum_congr rfl fun i hi => sum_congr rfl fun j hj => ?_
      rw [oL i (mem_range.1 hi) j (mem_range.1 hj)]; rfl
    · intro fe fn z hz
      cases hz
      rw [Complex.norm_real, Real.norm_eq_abs, abs_of_pos (hr fe fn).1]
      exact (hr fe fn).2
  · refine le_trans (le_of_eq ?_) (energy_out (dy := G.dy) (dx := G.dx) (K := fun fe fn => some ((1 - Real.exp
      (-((2 * Real.pi * fe) ^ 2 + (2 * Real.pi * fn) ^ 2) / (2 * (2 * Real.pi / a) ^ 2)) : ℝ) : ℂ))
      (by omega) (by omega) (kfinite_of (fun _ _ => ⟨_, rfl⟩) _ _ _ _) ?_ v)
    · refine sum_congr rfl fun i hi => sum_congr rfl fun j hj => ?_
      rw [oH i (mem_range.1 hi) j (mem_range.1 hj)]; rfl
    · intro fe fn z hz
      cases hz
      rw [Complex.norm_real, Real.norm_eq_abs, abs_le]
      have := hr fe fn
      constructor <;> linarith

end Verif.Filters
