import Verif.Filters.Props

/-!
Properties of the FFT filters, continued: harmonics (C33, C35), gaussian filters (C34), derivatives
(C35) and reduction to the pole (C36).
-/

namespace Verif.Filters
open Complex Finset Verif.Utils
open scoped ComplexConjugate

/-! ### harmonics -/

/-- The grid has the values of a harmonic with `Q` cycles along the easting and `P` cycles along the
northing, below the Nyquist frequencies. -/
structure IsHarmonic (A : Grid) (G : Geo) (a : ℂ) (P Q : ℤ) : Prop where
  grid : IsGrid A G fun i j => harmonic a (Q / (G.m * G.dx)) (P / (G.n * G.dy)) (G.easting j) (G.northing i) 0
  hP : 2 * |P| < G.n
  hQ : 2 * |Q| < G.m

theorem harmonic_zero (a : ℂ) (fe fn x y : ℝ) :
    harmonic a fe fn x y 0 = (a * exp (2 * Real.pi * I * (fe * x + fn * y))).re := by
  simp [harmonic]

/-- A filter of a harmonic. -/
theorem filter_harmonic {A : Grid} {G : Geo} {a : ℂ} {P Q : ℤ} (hA : IsHarmonic A G a P Q)
    (hG : G.Increasing) (fill : Fill) (K : Kernel) (hK : FiniteOn G false none K)
    (hc : K (-(Q / (G.m * G.dx))) (-(P / (G.n * G.dy))) =
      (K (Q / (G.m * G.dx)) (P / (G.n * G.dy))).map conj) (drop : Bool) :
    ∃ B, (applyFilter fill A (.ok K) false none drop).2 = .ok B ∧ IsGrid B G fun i j =>
      harmonic (a * (K (Q / (G.m * G.dx)) (P / (G.n * G.dy))).getD 0) (Q / (G.m * G.dx))
        (P / (G.n * G.dy)) (G.easting j) (G.northing i) 0 := by
  obtain ⟨B, h1, h2, -⟩ := applyFilter_values hA.grid hG fill K false none
    (by intro k hk; cases hk) drop (fun i j =>
      harmonic (a * (K (Q / (G.m * G.dx)) (P / (G.n * G.dy))).getD 0) (Q / (G.m * G.dx))
        (P / (G.n * G.dy)) (G.easting j) (G.northing i) 0) (by
    intro i hi j hj
    rw [filtered_nopad, out_trunc]
    rw [out_harmonic (n := G.n) (m := G.m) (y0 := G.y0) (x0 := G.x0) hG.dy0 hG.dx0 hK hA.hP hA.hQ a hc _ (by
      intro i _ j _
      simp only [harmonic_zero]; rfl)]
    simp only [harmonic_zero]; rfl)
  exact ⟨B, h1, h2⟩

/-- C33: the upward continuation of a harmonic that decays upwards is the harmonic at the new
height (without padding). -/
theorem C33_harmonic {A : Grid} {G : Geo} {a : ℂ} {P Q : ℤ} (hA : IsHarmonic A G a P Q)
    (hG : G.Increasing) (fill : Fill) (h : ℝ) :
    ∃ B, (upwardContinuation fill A h (pad := false)).2 = .ok B ∧ IsGrid B G fun i j =>
      harmonic a (Q / (G.m * G.dx)) (P / (G.n * G.dy)) (G.easting j) (G.northing i) h := by
  obtain ⟨B, h1, h2⟩ := filter_harmonic hA hG fill (upwardContinuationKernel h)
    (FiniteOn.of (upward_finite h) _ _ _) (by
      simp only [upwardContinuationKernel, Option.map_some, conj_ofReal]
      congr 5; ring) true
  refine ⟨B, h1, ?_⟩
  convert h2 using 3 with i j
  rw [harmonic_zero]
  simp only [upwardContinuationKernel, Option.getD_some, harmonic]
  rw [mul_right_comm a, re_mul_ofReal]
  congr 3
  rw [show ∀ u w : ℝ, (2 * Real.pi * u) ^ 2 + (2 * Real.pi * w) ^ 2 =
    (2 * Real.pi) ^ 2 * (u ^ 2 + w ^ 2) by intros; ring, Real.sqrt_mul (by positivity),
    Real.sqrt_sq (by positivity)]

/-! ### C34 -/

/-- C34: the low-pass and the high-pass filtered grids add up to the grid, for any padding. -/
theorem C34_complementary {A : Grid} {G : Geo} {v : ℕ → ℕ → ℝ} (hA : IsGrid A G v)
    (hG : G.Increasing) (fill : Fill) (w : ℝ) (hw : w ≠ 0) (pad : Bool) (kw : Option PadKwargs)
    (hkw : WidthsFor G kw) :
    ∃ L H l h, (gaussianLowpass fill A w pad kw).2 = .ok L ∧ (gaussianHighpass fill A w pad kw).2 = .ok H ∧
      IsGrid L G l ∧ IsGrid H G h ∧ ∀ i < G.n, ∀ j < G.m, l i j + h i j = v i j := by
  unfold gaussianLowpass gaussianHighpass gaussianLowpassKernel gaussianHighpassKernel
  simp only [hw, if_false]
  have f1 : FiniteOn G pad kw (fun fe fn => some ((Real.exp (-((2 * Real.pi * fe) ^ 2 + (2 * Real.pi * fn) ^ 2) /
    (2 * (2 * Real.pi / w) ^ 2)) : ℝ) : ℂ)) := FiniteOn.of (fun _ _ => ⟨_, rfl⟩) _ _ _
  have f2 : FiniteOn G pad kw (fun fe fn => some ((1 - Real.exp (-((2 * Real.pi * fe) ^ 2 +
    (2 * Real.pi * fn) ^ 2) / (2 * (2 * Real.pi / w) ^ 2)) : ℝ) : ℂ)) := FiniteOn.of (fun _ _ => ⟨_, rfl⟩) _ _ _
  have f3 : FiniteOn G pad kw (fun _ _ => some 1) := FiniteOn.of (fun _ _ => ⟨_, rfl⟩) _ _ _
  obtain ⟨L, hL1, hL2, -⟩ := applyFilter_values hA hG fill _ pad kw hkw false _
    fun i _ j _ => filtered_some (fill := fill) f1 v i j
  obtain ⟨H, hH1, hH2, -⟩ := applyFilter_values hA hG fill _ pad kw hkw false _
    fun i _ j _ => filtered_some (fill := fill) f2 v i j
  refine ⟨L, H, _, _, hL1, hH1, hL2, hH2, ?_⟩
  intro i hi j hj
  unfold Geo.filtered
  rw [← out_kernel_add f1 f2 f3 (by
    intro p q
    simp only [kval, Option.getD_some]
    push_cast; ring), out_unit (fun _ _ => rfl) _ (G.nn_le _ _ hi) (G.mm_le _ _ hj),
    G.vv_inside _ _ _ _ hi hj]
  rfl

/-- C34: the response of the low-pass filter is a number in (0, 1] that is one at zero wavenumber,
exp(-1/2) at the cutoff wavelength, and decreasing in the size of the wavenumber. -/
theorem C34_response (w : ℝ) (hw : 0 < w) :
    ∃ (K : Kernel) (R : ℝ → ℝ → ℝ), gaussianLowpassKernel w = .ok K ∧
      (∀ fe fn, K fe fn = some ((R fe fn : ℝ) : ℂ)) ∧
      (∀ fe fn, 0 < R fe fn ∧ R fe fn ≤ 1) ∧ R 0 0 = 1 ∧
      (∀ fe fn, Real.sqrt (fe ^ 2 + fn ^ 2) = 1 / w → R fe fn = Real.exp (-1 / 2)) ∧
      ∀ fe fn fe' fn', fe ^ 2 + fn ^ 2 < fe' ^ 2 + fn' ^ 2 → R fe' fn' < R fe fn := by
  unfold gaussianLowpassKernel
  simp only [hw.ne', if_false]
  have hpi := Real.pi_pos
  have key : ∀ fe fn : ℝ, -((2 * Real.pi * fe) ^ 2 + (2 * Real.pi * fn) ^ 2) / (2 * (2 * Real.pi / w) ^ 2) =
      -(w ^ 2 / 2) * (fe ^ 2 + fn ^ 2) := by intro fe fn; field_simp
  refine ⟨_, fun fe fn => Real.exp (-(w ^ 2 / 2) * (fe ^ 2 + fn ^ 2)), rfl, ?_, ?_, ?_, ?_, ?_⟩
  · intro fe fn; simp only [key]
  · intro fe fn
    refine ⟨Real.exp_pos _, Real.exp_le_one_iff.2 ?_⟩
    have : 0 ≤ w ^ 2 / 2 * (fe ^ 2 + fn ^ 2) := by positivity
    linarith
  · simp
  · intro fe fn h
    have : fe ^ 2 + fn ^ 2 = (1 / w) ^ 2 := by rw [← h, Real.sq_sqrt (by positivity)]
    simp only [this]
    congr 1; field_simp
  · intro fe fn fe' fn' h
    apply Real.exp_lt_exp.2
    have : 0 < w ^ 2 / 2 := by positivity
    nlinarith

/-- C34: a harmonic with the cutoff wavelength is multiplied by exp(-1/2) (without padding). -/
theorem C34_cutoff {A : Grid} {G : Geo} {a : ℂ} {P Q : ℤ} (hA : IsHarmonic A G a P Q)
    (hG : G.Increasing) (fill : Fill) (w : ℝ) (hw : 0 < w)
    (hc : Real.sqrt ((Q / (G.m * G.dx)) ^ 2 + (P / (G.n * G.dy)) ^ 2) = 1 / w) :
    ∃ B, (gaussianLowpass fill A w (pad := false)).2 = .ok B ∧ IsGrid B G fun i j =>
      Real.exp (-1 / 2) *
        harmonic a (Q / (G.m * G.dx)) (P / (G.n * G.dy)) (G.easting j) (G.northing i) 0 := by
  obtain ⟨K, R, h1, h2, h3, h4, h5, h6⟩ := C34_response w hw
  have he : ∀ fe fn, R (-fe) (-fn) = R fe fn := by
    intro fe fn
    unfold gaussianLowpassKernel at h1
    rw [if_neg hw.ne'] at h1
    cases h1
    have a := h2 fe fn
    have b := h2 (-fe) (-fn)
    simp only [Option.some.injEq, ofReal_inj] at a b
    rw [← a, ← b]
    congr 3; ring
  obtain ⟨B, b1, b2⟩ := filter_harmonic hA hG fill K (FiniteOn.of (fun fe fn => ⟨_, h2 fe fn⟩) _ _ _) (by
    rw [h2, h2, he]; simp) false
  refine ⟨B, ?_, ?_⟩
  · unfold gaussianLowpass; rw [h1]; exact b1
  · convert b2 using 3 with i j
    rw [h2, h5 _ _ hc]
    simp only [harmonic_zero, Option.getD_some]
    rw [mul_right_comm a, re_mul_ofReal, mul_comm]

/-! ### C35 -/

/-- C35: the order `n` kernels are the `n`-th powers of the first order ones. -/
theorem C35_powers (n : ℕ) (fe fn : ℝ) :
    derivativeUpwardKernel n fe fn = (derivativeUpwardKernel 1 fe fn).map (· ^ n) ∧
    derivativeEastingKernel n fe fn = (derivativeEastingKernel 1 fe fn).map (· ^ n) ∧
    derivativeNorthingKernel n fe fn = (derivativeNorthingKernel 1 fe fn).map (· ^ n) := by
  simp [derivativeUpwardKernel, derivativeEastingKernel, derivativeNorthingKernel]

/-- C35: second derivatives computed with the FFT add up to zero at every node of every grid, for any
padding. -/
theorem C35_laplace {A : Grid} {G : Geo} {v : ℕ → ℕ → ℝ} (hA : IsGrid A G v) (hG : G.Increasing)
    (fill : Fill) (pad : Bool) (kw : Option PadKwargs) (hkw : WidthsFor G kw) :
    ∃ E N U e n u, (derivativeEasting fill A 2 "fft" pad kw).2 = .ok E ∧
      (derivativeNorthing fill A 2 "fft" pad kw).2 = .ok N ∧ (derivativeUpward fill A 2 pad kw).2 = .ok U ∧
      IsGrid E G e ∧ IsGrid N G n ∧ IsGrid U G u ∧
      ∀ i < G.n, ∀ j < G.m, e i j + n i j + u i j = 0 := by
  have fe : FiniteOn G pad kw (derivativeEastingKernel 2) := FiniteOn.of (fun _ _ => ⟨_, rfl⟩) _ _ _
  have fn : FiniteOn G pad kw (derivativeNorthingKernel 2) := FiniteOn.of (fun _ _ => ⟨_, rfl⟩) _ _ _
  have fu : FiniteOn G pad kw (derivativeUpwardKernel 2) := FiniteOn.of (fun _ _ => ⟨_, rfl⟩) _ _ _
  obtain ⟨E, hE1, hE2, -⟩ := applyFilter_values hA hG fill _ pad kw hkw false _
    fun i _ j _ => filtered_some (fill := fill) fe v i j
  obtain ⟨N, hN1, hN2, -⟩ := applyFilter_values hA hG fill _ pad kw hkw false _
    fun i _ j _ => filtered_some (fill := fill) fn v i j
  obtain ⟨U, hU1, hU2, -⟩ := applyFilter_values hA hG fill _ pad kw hkw false _
    fun i _ j _ => filtered_some (fill := fill) fu v i j
  refine ⟨E, N, U, _, _, _, by simpa [derivativeEasting] using hE1, by simpa [derivativeNorthing] using hN1,
    hU1, hE2, hN2, hU2, ?_⟩
  intro i hi j hj
  unfold Geo.filtered
  let S : Kernel := fun fe fn => some ((derivativeEastingKernel 2 fe fn).getD 0 + (derivativeNorthingKernel 2 fe fn).getD 0)
  have fs : FiniteOn G pad kw S := FiniteOn.of (fun _ _ => ⟨_, rfl⟩) _ _ _
  have fz : FiniteOn G pad kw (fun _ _ => some 0) := FiniteOn.of (fun _ _ => ⟨_, rfl⟩) _ _ _
  rw [← out_kernel_add fe fn fs (fun p q => rfl), ← out_kernel_add fs fu fz (by
    intro p q
    simp only [kval, S, derivativeEastingKernel, derivativeNorthingKernel, derivativeUpwardKernel,
      Option.getD_some, mul_pow, I_sq]
    rw [neg_sq, Real.sq_sqrt (by positivity)]
    push_cast; ring), out_finite fz]
  simp [kval, idft]

/-- C35: at every node, the derivative of the upward continuation with respect to the height (at
height zero) is the upward derivative, for any padding. -/
theorem C35_height_derivative {A : Grid} {G : Geo} {v : ℕ → ℕ → ℝ} (hA : IsGrid A G v)
    (hG : G.Increasing) (fill : Fill) (pad : Bool) (kw : Option PadKwargs) (hkw : WidthsFor G kw) :
    ∃ (W : ℝ → ℕ → ℕ → ℝ) (D : ℕ → ℕ → ℝ),
      (∀ h, ∃ B, (upwardContinuation fill A h pad kw).2 = .ok B ∧ IsGrid B G (W h)) ∧
      (∃ U, (derivativeUpward fill A 1 pad kw).2 = .ok U ∧ IsGrid U G D) ∧
      ∀ i < G.n, ∀ j < G.m, HasDerivAt (fun h => W h i j) (D i j) 0 := by
  have fu : FiniteOn G pad kw (derivativeUpwardKernel 1) := FiniteOn.of (fun _ _ => ⟨_, rfl⟩) _ _ _
  have fc : ∀ h, FiniteOn G pad kw (upwardContinuationKernel h) := fun h =>
    FiniteOn.of (upward_finite h) _ _ _
  refine ⟨fun h i j => (G.filtered fill (upwardContinuationKernel h) pad (effective G kw) v i j).getD 0,
    fun i j => (G.filtered fill (derivativeUpwardKernel 1) pad (effective G kw) v i j).getD 0, ?_, ?_, ?_⟩
  · intro h
    obtain ⟨B, h1, h2, -⟩ := applyFilter_values hA hG fill _ pad kw hkw true _
      fun i _ j _ => filtered_some (fill := fill) (fc h) v i j
    exact ⟨B, h1, h2⟩
  · obtain ⟨B, h1, h2, -⟩ := applyFilter_values hA hG fill _ pad kw hkw false _
      fun i _ j _ => filtered_some (fill := fill) fu v i j
    exact ⟨B, h1, h2⟩
  · intro i hi j hj
    unfold Geo.filtered
    simp only [out_finite fu, fun h => out_finite (fc h), Option.getD_some]
    unfold idft
    have hre : ∀ (f : ℝ → ℂ) (f' : ℂ), HasDerivAt f f' 0 → HasDerivAt (fun h => (f h).re) f'.re 0 := by
      intro f f' hf
      have := (Complex.reCLM.hasFDerivAt (x := f 0)).comp_hasDerivAt 0 hf
      exact this
    apply hre
    apply HasDerivAt.const_mul
    apply HasDerivAt.fun_sum
    intro p _
    apply HasDerivAt.fun_sum
    intro q _
    apply HasDerivAt.mul_const
    apply HasDerivAt.const_mul
    simp only [kval, upwardContinuationKernel, derivativeUpwardKernel, Option.getD_some, pow_one]
    have h0 := ((hasDerivAt_id (0 : ℝ)).const_mul
      (-Real.sqrt ((2 * Real.pi * freq (G.mm pad (effective G kw)) G.dx q) ^ 2 +
        (2 * Real.pi * freq (G.nn pad (effective G kw)) G.dy p) ^ 2))).exp
    have h1 := h0.ofReal_comp
    simpa using h1

/-- C35: the upward derivative of the continuation of a grid is the derivative of the continuation
with respect to the height, at each wavenumber and height. -/
theorem C35_height_derivative_kernel (fe fn h : ℝ) :
    ∃ (R : ℝ → ℝ) (D : ℝ), (∀ h, upwardContinuationKernel h fe fn = some ((R h : ℝ) : ℂ)) ∧
      derivativeUpwardKernel 1 fe fn = some ((D : ℝ) : ℂ) ∧ HasDerivAt R (D * R h) h := by
  refine ⟨_, _, fun h => rfl, rfl, ?_⟩
  have h0 := ((hasDerivAt_id h).const_mul
      (-Real.sqrt ((2 * Real.pi * fe) ^ 2 + (2 * Real.pi * fn) ^ 2))).exp
  simpa [mul_comm] using h0

/-- C35: for harmonics (below Nyquist, without padding) the derivatives of order `k` computed with
the FFT are the exact ones at every node. -/
theorem C35_harmonic {A : Grid} {G : Geo} {a : ℂ} {P Q : ℤ} (hA : IsHarmonic A G a P Q)
    (hG : G.Increasing) (fill : Fill) (k : ℕ) :
    ∃ E N U, (derivativeEasting fill A k "fft" (pad := false)).2 = .ok E ∧
      (derivativeNorthing fill A k "fft" (pad := false)).2 = .ok N ∧
      (derivativeUpward fill A k (pad := false)).2 = .ok U ∧
      IsGrid E G (fun i j => iteratedDeriv k (fun x => harmonic a (Q / (G.m * G.dx)) (P / (G.n * G.dy)) x
        (G.northing i) 0) (G.easting j)) ∧
      IsGrid N G (fun i j => iteratedDeriv k (fun y => harmonic a (Q / (G.m * G.dx)) (P / (G.n * G.dy))
        (G.easting j) y 0) (G.northing i)) ∧
      IsGrid U G (fun i j => iteratedDeriv k (fun z => harmonic a (Q / (G.m * G.dx)) (P / (G.n * G.dy))
        (G.easting j) (G.northing i) z) 0) := by
  obtain ⟨E, hE1, hE2⟩ := filter_harmonic hA hG fill (derivativeEastingKernel k)
    (FiniteOn.of (fun _ _ => ⟨_, rfl⟩) _ _ _) (by
      simp only [derivativeEastingKernel, Option.map_some, map_pow, map_mul, conj_I, conj_ofReal]
      congr 2; push_cast; ring) false
  obtain ⟨N, hN1, hN2⟩ := filter_harmonic hA hG fill (derivativeNorthingKernel k)
    (FiniteOn.of (fun _ _ => ⟨_, rfl⟩) _ _ _) (by
      simp only [derivativeNorthingKernel, Option.map_some, map_pow, map_mul, conj_I, conj_ofReal]
      congr 2; push_cast; ring) false
  obtain ⟨U, hU1, hU2⟩ := filter_harmonic hA hG fill (derivativeUpwardKernel k)
    (FiniteOn.of (fun _ _ => ⟨_, rfl⟩) _ _ _) (by
      simp only [derivativeUpwardKernel, Option.map_some, conj_ofReal]
      congr 6 <;> ring) false
  refine ⟨E, N, U, by simpa [derivativeEasting] using hE1, by simpa [derivativeNorthing] using hN1, hU1,
    ?_, ?_, ?_⟩
  · convert hE2 using 3 with i j
    simp only [harmonic_zero]
    have h := iteratedDeriv_exp_re a (2 * Real.pi * I * (Q / (G.m * G.dx) : ℝ))
      (2 * Real.pi * I * ((P / (G.n * G.dy) : ℝ) * G.northing i)) k (G.easting j)
    have e : ∀ x : ℝ, 2 * Real.pi * I * ((Q / (G.m * G.dx) : ℝ) : ℂ) * x + 2 * Real.pi * I *
        ((P / (G.n * G.dy) : ℝ) * (G.northing i : ℂ)) = 2 * Real.pi * I *
        (((Q / (G.m * G.dx) : ℝ) : ℂ) * x + (P / (G.n * G.dy) : ℝ) * G.northing i) := by intro x; ring
    simp only [e] at h
    rw [h]
    simp only [derivativeEastingKernel, Option.getD_some]
    congr 4; push_cast; ring
  · convert hN2 using 3 with i j
    simp only [harmonic_zero]
    have h := iteratedDeriv_exp_re a (2 * Real.pi * I * (P / (G.n * G.dy) : ℝ))
      (2 * Real.pi * I * ((Q / (G.m * G.dx) : ℝ) * G.easting j)) k (G.northing i)
    have e : ∀ x : ℝ, 2 * Real.pi * I * ((P / (G.n * G.dy) : ℝ) : ℂ) * x + 2 * Real.pi * I *
        ((Q / (G.m * G.dx) : ℝ) * (G.easting j : ℂ)) = 2 * Real.pi * I *
        (((Q / (G.m * G.dx) : ℝ) : ℂ) * G.easting j + (P / (G.n * G.dy) : ℝ) * x) := by intro x; ring
    simp only [e] at h
    rw [h]
    simp only [derivativeNorthingKernel, Option.getD_some]
    congr 4; push_cast; ring
  · convert hU2 using 3 with i j
    rw [harmonic_zero]
    unfold harmonic
    rw [iteratedDeriv_exp]
    simp only [derivativeUpwardKernel, Option.getD_some, mul_zero, Real.exp_zero, mul_one]
    rw [mul_right_comm a, re_mul_ofReal]
    congr 2
    rw [show ∀ u w : ℝ, (2 * Real.pi * u) ^ 2 + (2 * Real.pi * w) ^ 2 =
      (2 * Real.pi) ^ 2 * (u ^ 2 + w ^ 2) by intros; ring, Real.sqrt_mul (by positivity),
      Real.sqrt_sq (by positivity)]

/-! ### C36 -/

theorem theta_neg (i d fe fn : ℝ) : theta i d (-fe) (-fn) = conj (theta i d fe fn) := by
  unfold theta
  simp only [map_add, conj_ofReal, map_mul, conj_I, neg_sq]
  rw [show Real.cos (i * Real.pi / 180) * (Real.sin (d * Real.pi / 180) * -fe + Real.cos (d * Real.pi / 180) * -fn) /
    Real.sqrt (fe ^ 2 + fn ^ 2) = -(Real.cos (i * Real.pi / 180) * (Real.sin (d * Real.pi / 180) * fe +
      Real.cos (d * Real.pi / 180) * fn) / Real.sqrt (fe ^ 2 + fn ^ 2)) by ring]
  push_cast; ring

theorem theta_factor (i d fe fn : ℝ) (h : ¬ (fn = 0 ∧ fe = 0)) :
    ((-(magneticAnglesToVec 1 i d).2.2 : ℝ) : ℂ) *
        (Real.sqrt ((2 * Real.pi * fn) ^ 2 + (2 * Real.pi * fe) ^ 2) : ℝ) + I *
      ((magneticAnglesToVec 1 i d).1 * (2 * Real.pi * fe : ℝ) + (magneticAnglesToVec 1 i d).2.1 *
        (2 * Real.pi * fn : ℝ)) = theta i d fe fn *
      (Real.sqrt ((2 * Real.pi * fn) ^ 2 + (2 * Real.pi * fe) ^ 2) : ℝ) := by
  have hpi := Real.pi_pos
  have hs : Real.sqrt ((2 * Real.pi * fn) ^ 2 + (2 * Real.pi * fe) ^ 2) =
      2 * Real.pi * Real.sqrt (fe ^ 2 + fn ^ 2) := by
    rw [show (2 * Real.pi * fn) ^ 2 + (2 * Real.pi * fe) ^ 2 = (2 * Real.pi) ^ 2 * (fe ^ 2 + fn ^ 2) by ring,
      Real.sqrt_mul (by positivity), Real.sqrt_sq (by positivity)]
  have hpos : Real.sqrt (fe ^ 2 + fn ^ 2) ≠ 0 := by
    apply (Real.sqrt_pos.2 _).ne'
    rcases not_and_or.1 h with h | h
    · have := sq_pos_of_ne_zero h; nlinarith [sq_nonneg fe]
    · have := sq_pos_of_ne_zero h; nlinarith [sq_nonneg fn]
  have hc : ((Real.sqrt (fe ^ 2 + fn ^ 2) : ℝ) : ℂ) ≠ 0 := by exact_mod_cast hpos
  rw [hs]
  unfold theta magneticAnglesToVec radians
  push_cast
  field_simp

/-- C36: the filter of the reduction to the pole is zero at zero wavenumber and 1/(Θm Θf) elsewhere,
for all angles; it is not finite exactly where a factor is zero.
Missing, here and in the other theorems of C36: calls without magnetization angles, which raise
(C36_not_full_default). -/
theorem C36_kernel_partial (inc dec minc mdec : ℝ) :
    ∃ K, reductionToPoleKernel (some inc) (some dec) (some minc) (some mdec) = .ok K ∧
      K 0 0 = some 0 ∧
      ∀ fe fn, ¬ (fe = 0 ∧ fn = 0) →
        (theta minc mdec fe fn * theta inc dec fe fn ≠ 0 →
          K fe fn = some (1 / (theta minc mdec fe fn * theta inc dec fe fn))) ∧
        (theta minc mdec fe fn * theta inc dec fe fn = 0 → K fe fn = none) := by
  refine ⟨_, rfl, by simp, ?_⟩
  intro fe fn h
  have h' : ¬ (fn = 0 ∧ fe = 0) := fun hh => h ⟨hh.2, hh.1⟩
  have hpi := Real.pi_pos
  have hpos : 0 < (2 * Real.pi * fn) ^ 2 + (2 * Real.pi * fe) ^ 2 := by
    rcases not_and_or.1 h with h | h
    · have := sq_pos_of_ne_zero (mul_ne_zero (by positivity : 2 * Real.pi ≠ 0) h); nlinarith [sq_nonneg (2 * Real.pi * fn)]
    · have := sq_pos_of_ne_zero (mul_ne_zero (by positivity : 2 * Real.pi ≠ 0) h); nlinarith [sq_nonneg (2 * Real.pi * fe)]
  have hs := Real.sqrt_pos.2 hpos
  have hsc : ((Real.sqrt ((2 * Real.pi * fn) ^ 2 + (2 * Real.pi * fe) ^ 2) : ℝ) : ℂ) ≠ 0 := by
    exact_mod_cast hs.ne'
  simp only [if_neg h']
  rw [theta_factor inc dec fe fn h', theta_factor minc mdec fe fn h']
  unfold inverse
  constructor
  · intro hne
    have h1 := left_ne_zero_of_mul hne
    have h2 := right_ne_zero_of_mul hne
    rw [if_neg (mul_ne_zero h2 hsc), if_neg (mul_ne_zero h1 hsc)]
    simp only [Option.bind_some, Option.map_some, Option.some.injEq]
    have : (((2 * Real.pi * fn) ^ 2 + (2 * Real.pi * fe) ^ 2 : ℝ) : ℂ) =
        (Real.sqrt ((2 * Real.pi * fn) ^ 2 + (2 * Real.pi * fe) ^ 2) : ℝ) *
        (Real.sqrt ((2 * Real.pi * fn) ^ 2 + (2 * Real.pi * fe) ^ 2) : ℝ) := by
      rw [← ofReal_mul, Real.mul_self_sqrt hpos.le]
    rw [this]
    generalize ((Real.sqrt ((2 * Real.pi * fn) ^ 2 + (2 * Real.pi * fe) ^ 2) : ℝ) : ℂ) = r at hsc ⊢
    field_simp
  · intro hz
    rcases mul_eq_zero.1 hz with h0 | h0
    · rw [h0, zero_mul, if_pos rfl]
      split_ifs <;> simp
    · rw [h0, zero_mul, if_pos rfl]; rfl

theorem theta_re (i d fe fn : ℝ) : (theta i d fe fn).re = Real.sin (i * Real.pi / 180) := by
  simp only [theta, add_re, ofReal_re, mul_re, I_re, I_im, ofReal_im]; ring

/-- C36: the filter is finite whenever both inclinations have a nonzero sine. -/
theorem C36_finite_partial (inc dec minc mdec : ℝ) (h1 : Real.sin (inc * Real.pi / 180) ≠ 0)
    (h2 : Real.sin (minc * Real.pi / 180) ≠ 0) :
    ∃ K, reductionToPoleKernel (some inc) (some dec) (some minc) (some mdec) = .ok K ∧
      ∀ fe fn, ∃ z, K fe fn = some z := by
  obtain ⟨K, hK, h0, hk⟩ := C36_kernel_partial inc dec minc mdec
  refine ⟨K, hK, fun fe fn => ?_⟩
  by_cases h : fe = 0 ∧ fn = 0
  · rw [h.1, h.2]; exact ⟨_, h0⟩
  · refine ⟨_, (hk fe fn h).1 (mul_ne_zero ?_ ?_)⟩ <;>
    · intro hz
      have := congrArg Complex.re hz
      rw [theta_re] at this
      simp_all

/-- C36: at the pole (vertical field and magnetization, both up or both down) every nonzero wavenumber
is passed unchanged, so without padding the result is the grid minus its mean. -/
theorem C36_pole_partial {A : Grid} {G : Geo} {v : ℕ → ℕ → ℝ} (hA : IsGrid A G v) (hG : G.Increasing)
    (fill : Fill) (inc dec mdec : ℝ) (hinc : inc = 90 ∨ inc = -90) :
    ∃ K B, reductionToPoleKernel (some inc) (some dec) (some inc) (some mdec) = .ok K ∧
      (∀ fe fn, ¬ (fe = 0 ∧ fn = 0) → K fe fn = some 1) ∧
      (reductionToPole fill A inc dec (some inc) (some mdec) (pad := false)).2 = .ok B ∧
      IsGrid B G fun i j => v i j - (∑ i ∈ range G.n, ∑ j ∈ range G.m, v i j) / (G.n * G.m) := by
  obtain ⟨K, hK, h0, hk⟩ := C36_kernel_partial inc dec inc mdec
  have ht : ∀ d fe fn, theta inc d fe fn = Real.sin (inc * Real.pi / 180) := by
    intro d fe fn
    have hc : Real.cos (inc * Real.pi / 180) = 0 := by
      rcases hinc with rfl | rfl
      · rw [show (90 : ℝ) * Real.pi / 180 = Real.pi / 2 by ring, Real.cos_pi_div_two]
      · rw [show (-90 : ℝ) * Real.pi / 180 = -(Real.pi / 2) by ring, Real.cos_neg, Real.cos_pi_div_two]
    simp [theta, hc]
  have hs : ((Real.sin (inc * Real.pi / 180) : ℝ) : ℂ) * (Real.sin (inc * Real.pi / 180) : ℝ) = 1 := by
    rw [← ofReal_mul]
    rcases hinc with rfl | rfl
    · rw [show (90 : ℝ) * Real.pi / 180 = Real.pi / 2 by ring, Real.sin_pi_div_two]; norm_num
    · rw [show (-90 : ℝ) * Real.pi / 180 = -(Real.pi / 2) by ring, Real.sin_neg, Real.sin_pi_div_two]; norm_num
  have hk1 : ∀ fe fn, ¬ (fe = 0 ∧ fn = 0) → K fe fn = some 1 := by
    intro fe fn h
    rw [(hk fe fn h).1 (by rw [ht, ht, hs]; exact one_ne_zero), ht, ht, hs]; norm_num
  have hfin : ∀ fe fn, ∃ z, K fe fn = some z := by
    intro fe fn
    by_cases h : fe = 0 ∧ fn = 0
    · rw [h.1, h.2]; exact ⟨_, h0⟩
    · exact ⟨_, hk1 fe fn h⟩
  have hn := hG.n2
  have hm := hG.m2
  obtain ⟨B, hB1, hB2, -⟩ := applyFilter_values hA hG fill K false none (by intro k hk; cases hk) false
    (fun i j => v i j - (∑ i ∈ range G.n, ∑ j ∈ range G.m, v i j) / (G.n * G.m)) (by
    intro i hi j hj
    rw [filtered_nopad, out_trunc, out_finite (kfinite_of hfin _ _ _ _)]
    congr 1
    have hfz : ∀ (n : ℕ) (d : ℝ) (p : ℕ), 2 ≤ n → d ≠ 0 → (freq n d p = 0 ↔ p = n / 2) := by
      intro n d p hn hd
      unfold freq
      have : (n : ℝ) * d ≠ 0 := mul_ne_zero (by exact_mod_cast (by omega : n ≠ 0)) hd
      rw [div_eq_zero_iff, or_iff_left this, sub_eq_zero]
      exact_mod_cast Iff.rfl
    have e : (fun p q => dft G.n G.m (fun i j => (v i j : ℂ)) p q * kval G.n G.m G.dy G.dx K p q) =
        fun p q => (1 : ℂ) * dft G.n G.m (fun i j => (v i j : ℂ)) p q + (-1) *
          (if p = G.n / 2 ∧ q = G.m / 2 then dft G.n G.m (fun i j => (v i j : ℂ)) p q else 0) := by
      funext p q
      by_cases h : p = G.n / 2 ∧ q = G.m / 2
      · have hq := (hfz G.m G.dx q hm hG.dx0).2 h.2
        have hp := (hfz G.n G.dy p hn hG.dy0).2 h.1
        rw [if_pos h, kval, hq, hp, h0]; simp
      · rw [if_neg h, kval, hk1 _ _ (fun hh => h ⟨(hfz _ _ _ hn hG.dy0).1 hh.2, (hfz _ _ _ hm hG.dx0).1 hh.1⟩)]
        simp
    rw [e, idft_linear, idft_dft _ hi hj]
    have e2 : idft G.n G.m (fun p q => if p = G.n / 2 ∧ q = G.m / 2 then
        dft G.n G.m (fun i j => (v i j : ℂ)) p q else 0) i j =
        (((∑ i ∈ range G.n, ∑ j ∈ range G.m, v i j) / (G.n * G.m) : ℝ) : ℂ) := by
      have hw : ∀ (n : ℕ) i, wave n (n / 2) i = 1 := by intro n i; simp [wave]
      unfold idft
      rw [sum_eq_single (G.n / 2), sum_eq_single (G.m / 2)]
      · simp [dft, hw]; ring
      · intro b _ hb; simp only; rw [if_neg (fun h => hb h.2), zero_mul]
      · intro h; exact absurd (mem_range.2 (by omega)) h
      · intro b _ hb
        apply sum_eq_zero
        intro c _
        simp only
        rw [if_neg (fun h => hb h.1), zero_mul]
      · intro h; exact absurd (mem_range.2 (by omega)) h
    rw [e2, one_mul, neg_one_mul, ← ofReal_neg, ← ofReal_add, ofReal_re]; ring)
  refine ⟨K, B, hK, hk1, ?_, hB2⟩
  unfold reductionToPole
  rw [hK]; exact hB1

/-- C36: without padding, the harmonic of a magnetic anomaly with amplitude `a Θm Θf` becomes the
harmonic with amplitude `a`: the directions of the field and of the magnetization are removed. -/
theorem C36_harmonic_partial {A : Grid} {G : Geo} {a : ℂ} {P Q : ℤ} (hPQ : ¬ (P = 0 ∧ Q = 0))
    (inc dec minc mdec : ℝ) (h1 : Real.sin (inc * Real.pi / 180) ≠ 0)
    (h2 : Real.sin (minc * Real.pi / 180) ≠ 0)
    (hA : IsHarmonic A G (a * (theta minc mdec (Q / (G.m * G.dx)) (P / (G.n * G.dy)) *
      theta inc dec (Q / (G.m * G.dx)) (P / (G.n * G.dy)))) P Q)
    (hG : G.Increasing) (fill : Fill) :
    ∃ B, (reductionToPole fill A inc dec (some minc) (some mdec) (pad := false)).2 = .ok B ∧
      IsGrid B G fun i j =>
        harmonic a (Q / (G.m * G.dx)) (P / (G.n * G.dy)) (G.easting j) (G.northing i) 0 := by
  obtain ⟨K, hK, h0, hk⟩ := C36_kernel_partial inc dec minc mdec
  obtain ⟨K', hK', hfin⟩ := C36_finite_partial inc dec minc mdec h1 h2
  rw [hK] at hK'
  cases hK'
  have hn := hG.n2
  have hm := hG.m2
  have hn0 : (G.n : ℝ) * G.dy ≠ 0 := mul_ne_zero (by exact_mod_cast (by omega : G.n ≠ 0)) hG.dy0
  have hm0 : (G.m : ℝ) * G.dx ≠ 0 := mul_ne_zero (by exact_mod_cast (by omega : G.m ≠ 0)) hG.dx0
  set fe : ℝ := Q / (G.m * G.dx) with hfe
  set fn : ℝ := P / (G.n * G.dy) with hfn
  have hne : ¬ (fe = 0 ∧ fn = 0) := by
    rintro ⟨e1, e2⟩
    apply hPQ
    rw [hfe, div_eq_zero_iff, or_iff_left hm0] at e1
    rw [hfn, div_eq_zero_iff, or_iff_left hn0] at e2
    exact ⟨by exact_mod_cast e2, by exact_mod_cast e1⟩
  have hne' : ¬ (-fe = 0 ∧ -fn = 0) := by simpa [neg_eq_zero] using hne
  have ht : ∀ fe fn, theta minc mdec fe fn * theta inc dec fe fn ≠ 0 := by
    intro fe fn
    apply mul_ne_zero <;>
    · intro hz
      have := congrArg Complex.re hz
      rw [theta_re] at this
      simp_all
  obtain ⟨B, b1, b2⟩ := filter_harmonic hA hG fill K (FiniteOn.of hfin _ _ _) (by
    rw [(hk _ _ hne').1 (ht _ _), (hk _ _ hne).1 (ht _ _), theta_neg, theta_neg]
    simp) false
  refine ⟨B, ?_, ?_⟩
  · unfold reductionToPole; rw [hK]; exact b1
  · convert b2 using 4 with i j
    rw [(hk _ _ hne).1 (ht _ _), Option.getD_some, mul_assoc, mul_one_div_cancel (ht _ _), mul_one]

/-- C36 does not hold as stated: the angles of the magnetization are documented as optional (equal to
the ones of the field by default), but leaving out either of them raises TypeError for every regular
grid. -/
theorem C36_not_full_default {A : Grid} {G : Geo} {v : ℕ → ℕ → ℝ} (hA : IsGrid A G v)
    (hG : G.Increasing) (fill : Fill) (inc dec : ℝ) (minc mdec : Option ℝ)
    (h : minc = none ∨ mdec = none) (pad : Bool) (kw : Option PadKwargs) (hkw : WidthsFor G kw) :
    (reductionToPole fill A inc dec minc mdec pad kw).2 = .error .TypeError := by
  unfold reductionToPole
  rw [applyFilter_eq hA hG fill _ pad kw hkw]
  have : reductionToPoleKernel (some inc) (some dec) minc mdec = .error .TypeError := by
    rcases h with rfl | rfl
    · cases mdec <;> rfl
    · cases minc <;> rfl
  rw [this]; rfl

/-- C36: a horizontal field that points north makes every value of the result NaN, for every grid (the
wavenumbers to the east have Θf = 0). -/
theorem C36_horizontal {A : Grid} {G : Geo} {v : ℕ → ℕ → ℝ} (hA : IsGrid A G v) (hG : G.Increasing)
    (fill : Fill) (minc mdec : ℝ) :
    ∃ B, (reductionToPole fill A 0 0 (some minc) (some mdec) (pad := false)).2 = .ok B ∧
      ∀ i < G.n, ∀ j < G.m, B.data [i, j] = none := by
  obtain ⟨K, hK, h0, hk⟩ := C36_kernel_partial 0 0 minc mdec
  unfold reductionToPole
  rw [hK, applyFilter_eq hA hG fill _ false none (by intro k hk; cases hk)]
  refine ⟨_, rfl, ?_⟩
  intro i hi j hj
  show G.filtered fill K false _ v i j = none
  rw [filtered_nopad]
  unfold out
  rw [if_neg]
  intro hf
  have hn := hG.n2
  have hm := hG.m2
  have := hf (G.n / 2) (by omega) 0 (by omega)
  have e1 : freq G.n G.dy (G.n / 2) = 0 := by simp [freq]
  have e2 : freq G.m G.dx 0 ≠ 0 := by
    unfold freq
    have : (G.m : ℝ) * G.dx ≠ 0 := mul_ne_zero (by exact_mod_cast (by omega : G.m ≠ 0)) hG.dx0
    apply div_ne_zero _ this
    have : (0 : ℝ) < (G.m / 2 : ℕ) := by exact_mod_cast (by omega : 0 < G.m / 2)
    push_cast
    push_cast at this
    linarith
  rw [e1, (hk _ _ (fun h => e2 h.1)).2 (by simp [theta])] at this
  cases this

end Verif.Filters
