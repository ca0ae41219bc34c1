import Verif.Filters.Examples
import Mathlib.Analysis.Calculus.IteratedDeriv.Lemmas

/-!
Properties of the FFT filters, continued: they are operations on one harmonic function above the grid
(C108), and the reduction to the pole is the vertical derivative of the potential of the anomaly (C109).
-/

namespace Verif.Filters
open Complex Finset Verif.Utils
open scoped ContDiff

/-! ### specification -/

/-- A quantity in space: easting, northing, upward. -/
abbrev Field := ℝ → ℝ → ℝ → ℝ

/-- A potential field of sources below the level of the grid: smooth, harmonic, and bounded above that
level (`upward = 0`). -/
structure Field.Potential (U : Field) : Prop where
  smooth : ContDiff ℝ ∞ fun p : ℝ × ℝ × ℝ => U p.1 p.2.1 p.2.2
  laplace : ∀ x y z, iteratedDeriv 2 (fun s => U s y z) x + iteratedDeriv 2 (fun s => U x s z) y +
    iteratedDeriv 2 (fun s => U x y s) z = 0
  bounded : ∃ B, ∀ x y z, 0 ≤ z → |U x y z| ≤ B

/-- Rate of change of a field along a vector (easting, northing, upward). -/
noncomputable def Field.along (u : ℝ × ℝ × ℝ) (U : Field) : Field := fun x y z =>
  deriv (fun t => U (x + t * u.1) (y + t * u.2.1) (z + t * u.2.2)) 0

/-- Unit vector (easting, northing, upward) with inclination (positive down) and declination in
degrees. -/
noncomputable def direction (inclination declination : ℝ) : ℝ × ℝ × ℝ :=
  (Real.cos (inclination * Real.pi / 180) * Real.sin (declination * Real.pi / 180),
    Real.cos (inclination * Real.pi / 180) * Real.cos (declination * Real.pi / 180),
    -Real.sin (inclination * Real.pi / 180))

/-- The call succeeds and returns a grid with geometry `G` and the values of the field at the nodes, at
height `z` above the grid. -/
def Samples (r : Option PadKwargs × Py Grid) (G : Geo) (U : Field) (z : ℝ) : Prop :=
  ∃ B, r.2 = .ok B ∧ IsGrid B G fun i j => U (G.easting j) (G.northing i) z

/-! ### sums of exponentials -/

/-- Real part of a sum of exponentials. -/
noncomputable def waves {ι : Type} (S : Finset ι) (wx wy wz c : ι → ℂ) : Field := fun x y z =>
  (∑ s ∈ S, c s * exp (wx s * x + wy s * y + wz s * z)).re

theorem iteratedDeriv_sum_exp {ι : Type} (S : Finset ι) (c w e : ι → ℂ) (k : ℕ) (x : ℝ) :
    iteratedDeriv k (fun x : ℝ => (∑ s ∈ S, c s * exp (w s * x + e s)).re) x =
      (∑ s ∈ S, c s * w s ^ k * exp (w s * x + e s)).re := by
  have h : (fun x : ℝ => (∑ s ∈ S, c s * exp (w s * x + e s)).re) =
      fun x : ℝ => ∑ s ∈ S, (c s * exp (w s * x + e s)).re := by
    funext x; exact re_sum _ _
  rw [h, iteratedDeriv_fun_sum, re_sum]
  · exact sum_congr rfl fun s _ => iteratedDeriv_exp_re _ _ _ _ _
  · intro s _
    have : ContDiff ℝ k fun x : ℝ => (c s * exp (w s * (x : ℂ) + e s)).re := by
      have h1 : ContDiff ℝ k fun x : ℝ => w s * (x : ℂ) + e s :=
        (contDiff_const.mul ofRealCLM.contDiff).add contDiff_const
      have h2 : ContDiff ℝ k fun x : ℝ => c s * exp (w s * (x : ℂ) + e s) := contDiff_const.mul h1.cexp
      exact reCLM.contDiff.comp h2
    exact this.contDiffAt

section
variable {ι : Type} (S : Finset ι) (wx wy wz c : ι → ℂ)

theorem waves_east (k : ℕ) (x y z : ℝ) : iteratedDeriv k (fun s => waves S wx wy wz c s y z) x =
    waves S wx wy wz (fun s => c s * wx s ^ k) x y z := by
  have h := iteratedDeriv_sum_exp S c wx (fun s => wy s * y + wz s * z) k x
  simpa only [waves, add_assoc] using h

theorem waves_north (k : ℕ) (x y z : ℝ) : iteratedDeriv k (fun s => waves S wx wy wz c x s z) y =
    waves S wx wy wz (fun s => c s * wy s ^ k) x y z := by
  have h := iteratedDeriv_sum_exp S c wy (fun s => wx s * x + wz s * z) k y
  have e : ∀ (s : ι) (y : ℝ), wy s * (y : ℂ) + (wx s * x + wz s * z) = wx s * x + wy s * y + wz s * z := by
    intros; ring
  simpa only [waves, e] using h

theorem waves_up (k : ℕ) (x y z : ℝ) : iteratedDeriv k (fun s => waves S wx wy wz c x y s) z =
    waves S wx wy wz (fun s => c s * wz s ^ k) x y z := by
  have h := iteratedDeriv_sum_exp S c wz (fun s => wx s * x + wy s * y) k z
  have e : ∀ (s : ι) (z : ℝ), wz s * (z : ℂ) + (wx s * x + wy s * y) = wx s * x + wy s * y + wz s * z := by
    intros; ring
  simpa only [waves, e] using h

theorem waves_along (u : ℝ × ℝ × ℝ) : (waves S wx wy wz c).along u =
    waves S wx wy wz (fun s => c s * (u.1 * wx s + u.2.1 * wy s + u.2.2 * wz s)) := by
  funext x y z
  have h := iteratedDeriv_sum_exp S c (fun s => u.1 * wx s + u.2.1 * wy s + u.2.2 * wz s)
    (fun s => wx s * x + wy s * y + wz s * z) 1 0
  have e : ∀ (s : ι) (t : ℝ), (u.1 * wx s + u.2.1 * wy s + u.2.2 * wz s) * (t : ℂ) +
      (wx s * x + wy s * y + wz s * z) =
      wx s * ((x + t * u.1 : ℝ) : ℂ) + wy s * ((y + t * u.2.1 : ℝ) : ℂ) + wz s * ((z + t * u.2.2 : ℝ) : ℂ) := by
    intros; push_cast; ring
  simp only [e, iteratedDeriv_one, pow_one] at h
  simp only [Field.along, waves]
  rw [h]
  simp

theorem waves_smooth : ContDiff ℝ ∞ fun p : ℝ × ℝ × ℝ => waves S wx wy wz c p.1 p.2.1 p.2.2 := by
  unfold waves
  refine reCLM.contDiff.comp ?_
  refine ContDiff.sum fun s _ => contDiff_const.mul (ContDiff.cexp ?_)
  refine ((contDiff_const.mul (ofRealCLM.contDiff.comp contDiff_fst)).add
    (contDiff_const.mul (ofRealCLM.contDiff.comp (contDiff_fst.comp contDiff_snd)))).add
    (contDiff_const.mul (ofRealCLM.contDiff.comp (contDiff_snd.comp contDiff_snd)))

theorem waves_congr {c' : ι → ℂ} (h : ∀ s ∈ S, c s = c' s) :
    waves S wx wy wz c = waves S wx wy wz c' := by
  funext x y z
  unfold waves
  rw [sum_congr rfl fun s hs => by rw [h s hs]]

theorem waves_add (c' : ι → ℂ) (x y z : ℝ) : waves S wx wy wz c x y z + waves S wx wy wz c' x y z =
    waves S wx wy wz (fun s => c s + c' s) x y z := by
  unfold waves
  rw [← add_re, ← sum_add_distrib]
  simp only [add_mul]

theorem waves_potential (hx : ∀ s ∈ S, (wx s).re = 0) (hy : ∀ s ∈ S, (wy s).re = 0)
    (hz : ∀ s ∈ S, (wz s).re ≤ 0) (hl : ∀ s ∈ S, wx s ^ 2 + wy s ^ 2 + wz s ^ 2 = 0) :
    (waves S wx wy wz c).Potential := by
  refine ⟨waves_smooth S wx wy wz c, ?_, ∑ s ∈ S, ‖c s‖, ?_⟩
  · intro x y z
    rw [waves_east, waves_north, waves_up, waves_add, waves_add,
      waves_congr S wx wy wz _ (c' := fun _ => 0)]
    · simp [waves]
    · intro s hs
      rw [← mul_add, ← mul_add, hl s hs, mul_zero]
  · intro x y z h0
    unfold waves
    refine (abs_re_le_norm _).trans ((norm_sum_le _ _).trans (sum_le_sum fun s hs => ?_))
    rw [norm_mul, norm_exp]
    refine mul_le_of_le_one_right (norm_nonneg _) (Real.exp_le_one_iff.2 ?_)
    simp only [add_re, mul_re, ofReal_re, ofReal_im, mul_zero, sub_zero, hx s hs, hy s hs, zero_mul, zero_add]
    exact mul_nonpos_of_nonpos_of_nonneg (hz s hs) h0

end

/-! ### the field of a grid -/

/-- Wavenumbers times the imaginary unit, easting. -/
noncomputable def kEast (M : ℕ) (dx : ℝ) (s : ℕ × ℕ) : ℂ := (2 * Real.pi * freq M dx s.2 : ℝ) * I

/-- Wavenumbers times the imaginary unit, northing. -/
noncomputable def kNorth (N : ℕ) (dy : ℝ) (s : ℕ × ℕ) : ℂ := (2 * Real.pi * freq N dy s.1 : ℝ) * I

/-- Decay upwards. -/
noncomputable def kUp (N M : ℕ) (dy dx : ℝ) (s : ℕ × ℕ) : ℂ :=
  (-Real.sqrt ((2 * Real.pi * freq M dx s.2) ^ 2 + (2 * Real.pi * freq N dy s.1) ^ 2) : ℝ)

theorem k_laplace (N M : ℕ) (dy dx : ℝ) (s : ℕ × ℕ) :
    kEast M dx s ^ 2 + kNorth N dy s ^ 2 + kUp N M dy dx s ^ 2 = 0 := by
  have h : (kUp N M dy dx s) ^ 2 =
      (((2 * Real.pi * freq M dx s.2) ^ 2 + (2 * Real.pi * freq N dy s.1) ^ 2 : ℝ) : ℂ) := by
    unfold kUp
    rw [← ofReal_pow, neg_sq, Real.sq_sqrt (by positivity)]
  rw [h, kEast, kNorth, mul_pow, mul_pow, I_sq]
  push_cast; ring

/-- The field of a grid filtered by `K`, from the values `v` on `N` rows and `M` columns that start at
`y0` and `x0`. -/
noncomputable def gridWaves (N M : ℕ) (y0 dy x0 dx : ℝ) (v : ℕ → ℕ → ℝ) (K : ℕ × ℕ → ℂ) : Field :=
  waves (range N ×ˢ range M) (kEast M dx) (kNorth N dy) (kUp N M dy dx) fun s =>
    1 / (N * M) * dft N M (fun i j => v i j) s.1 s.2 *
      exp (-(kEast M dx s * x0 + kNorth N dy s * y0)) * K s

theorem gridWaves_potential (N M : ℕ) (y0 dy x0 dx : ℝ) (v : ℕ → ℕ → ℝ) (K : ℕ × ℕ → ℂ) :
    (gridWaves N M y0 dy x0 dx v K).Potential := by
  refine waves_potential _ _ _ _ _ ?_ ?_ ?_ fun s _ => k_laplace N M dy dx s
  · intro s _; simp [kEast]
  · intro s _; simp [kNorth]
  · intro s _; rw [kUp, ofReal_re, neg_nonpos]; exact Real.sqrt_nonneg _

/-- Its values at the nodes, at height `z`. -/
theorem gridWaves_node {N M : ℕ} (hN : 0 < N) (hM : 0 < M) {y0 dy x0 dx : ℝ} (hdy : dy ≠ 0) (hdx : dx ≠ 0)
    (v : ℕ → ℕ → ℝ) (K : ℕ × ℕ → ℂ) (i j : ℕ) (z : ℝ) :
    gridWaves N M y0 dy x0 dx v K (x0 + j * dx) (y0 + i * dy) z =
      (idft N M (fun p q => dft N M (fun i j => v i j) p q *
        (K (p, q) * exp (kUp N M dy dx (p, q) * z))) i j).re := by
  unfold gridWaves waves idft
  rw [sum_product, mul_sum]
  congr 1
  refine sum_congr rfl fun p _ => ?_
  rw [mul_sum]
  refine sum_congr rfl fun q _ => ?_
  have e : exp (-(kEast M dx (p, q) * x0 + kNorth N dy (p, q) * y0)) *
      exp (kEast M dx (p, q) * ((x0 + j * dx : ℝ) : ℂ) + kNorth N dy (p, q) * ((y0 + i * dy : ℝ) : ℂ) +
        kUp N M dy dx (p, q) * z) =
      wave N p i * wave M q j * exp (kUp N M dy dx (p, q) * z) := by
    rw [wave, wave, ← freq_phase hN hdy, ← freq_phase hM hdx, ← Complex.exp_add, ← Complex.exp_add,
      ← Complex.exp_add]
    congr 1
    unfold kEast kNorth
    push_cast; ring
  have r : ∀ a b c d e' f : ℂ, a * b * c * d * f = a * b * d * (c * f) := by intros; ring
  simp only
  rw [r _ _ _ _ 0, e]
  ring

theorem gridWaves_periodic {N M : ℕ} (hN : 0 < N) (hM : 0 < M) {y0 dy x0 dx : ℝ} (hdy : dy ≠ 0)
    (hdx : dx ≠ 0) (v : ℕ → ℕ → ℝ) (K : ℕ × ℕ → ℂ) (x y z : ℝ) :
    gridWaves N M y0 dy x0 dx v K (x + M * dx) y z = gridWaves N M y0 dy x0 dx v K x y z ∧
    gridWaves N M y0 dy x0 dx v K x (y + N * dy) z = gridWaves N M y0 dy x0 dx v K x y z := by
  have key : ∀ (n : ℕ) (d : ℝ) (p : ℕ), 0 < n → d ≠ 0 →
      exp (((2 * Real.pi * freq n d p : ℝ) : ℂ) * I * ((n * d : ℝ) : ℂ)) = 1 := by
    intro n d p hn hd
    rw [exp_eq_one_iff]
    refine ⟨(p : ℤ) - (n / 2 : ℕ), ?_⟩
    have : freq n d p * (n * d) = (p : ℝ) - (n / 2 : ℕ) := by
      unfold freq
      have : (n : ℝ) ≠ 0 := by exact_mod_cast hn.ne'
      field_simp
    have h2 : ((freq n d p : ℝ) : ℂ) * ((n * d : ℝ) : ℂ) = (p : ℂ) - ((n / 2 : ℕ) : ℂ) := by
      rw [← ofReal_mul, this]; push_cast; rfl
    rw [ofReal_mul, show ∀ a b c d : ℂ, a * b * c * d = a * c * (b * d) by intros; ring, h2,
      Int.cast_sub, Int.cast_natCast, Int.cast_natCast]
    push_cast; ring
  constructor
  · unfold gridWaves waves
    congr 1
    refine sum_congr rfl fun s _ => ?_
    rw [show kEast M dx s * ((x + M * dx : ℝ) : ℂ) + kNorth N dy s * y + kUp N M dy dx s * z =
      (kEast M dx s * x + kNorth N dy s * y + kUp N M dy dx s * z) + kEast M dx s * ((M * dx : ℝ) : ℂ) by
        push_cast; ring, Complex.exp_add, kEast, key M dx s.2 hM hdx, mul_one]
  · unfold gridWaves waves
    congr 1
    refine sum_congr rfl fun s _ => ?_
    rw [show kEast M dx s * x + kNorth N dy s * ((y + N * dy : ℝ) : ℂ) + kUp N M dy dx s * z =
      (kEast M dx s * x + kNorth N dy s * y + kUp N M dy dx s * z) + kNorth N dy s * ((N * dy : ℝ) : ℂ) by
        push_cast; ring, Complex.exp_add, kNorth, key N dy s.1 hN hdy, mul_one]

/-- The field of the (padded) grid that a transformation works on, filtered by `K`. -/
noncomputable def Geo.field (G : Geo) (fill : Fill) (pad : Bool) (kw : Option PadKwargs) (v : ℕ → ℕ → ℝ)
    (K : ℕ × ℕ → ℂ) : Field :=
  gridWaves (G.nn pad (effective G kw)) (G.mm pad (effective G kw))
    (G.y0 - G.oy pad (effective G kw) * G.dy) G.dy (G.x0 - G.ox pad (effective G kw) * G.dx) G.dx
    (G.vv fill pad (effective G kw) v) K

theorem Geo.field_node {G : Geo} (hG : G.Increasing) (fill : Fill) (pad : Bool) (kw : Option PadKwargs)
    (v : ℕ → ℕ → ℝ) (K : ℕ × ℕ → ℂ) {i j : ℕ} (hi : i < G.n) (hj : j < G.m) (z : ℝ) :
    G.field fill pad kw v K (G.easting j) (G.northing i) z =
      (idft (G.nn pad (effective G kw)) (G.mm pad (effective G kw)) (fun p q =>
        dft (G.nn pad (effective G kw)) (G.mm pad (effective G kw))
          (fun i j => G.vv fill pad (effective G kw) v i j) p q *
        (K (p, q) * exp (kUp (G.nn pad (effective G kw)) (G.mm pad (effective G kw)) G.dy G.dx (p, q) * z)))
        (i + G.oy pad (effective G kw)) (j + G.ox pad (effective G kw))).re := by
  have h1 := G.nn_le pad (effective G kw) hi
  have h2 := G.mm_le pad (effective G kw) hj
  rw [← gridWaves_node (y0 := G.y0 - G.oy pad (effective G kw) * G.dy)
    (x0 := G.x0 - G.ox pad (effective G kw) * G.dx) (by omega) (by omega) hG.dy0 hG.dx0]
  unfold Geo.field Geo.easting Geo.northing
  congr 1 <;> (push_cast; ring)

/-- A filter samples the field multiplied by its kernel. -/
theorem filter_samples {A : Grid} {G : Geo} {v : ℕ → ℕ → ℝ} (hA : IsGrid A G v) (hG : G.Increasing)
    (fill : Fill) (K : Kernel) (pad : Bool) (kw : Option PadKwargs) (hkw : WidthsFor G kw)
    (hK : FiniteOn G pad kw K) (drop : Bool) (L : ℕ × ℕ → ℂ) (z : ℝ)
    (hL : ∀ p q, kval (G.nn pad (effective G kw)) (G.mm pad (effective G kw)) G.dy G.dx K p q =
      L (p, q) * exp (kUp (G.nn pad (effective G kw)) (G.mm pad (effective G kw)) G.dy G.dx (p, q) * z)) :
    Samples (applyFilter fill A (.ok K) pad kw drop) G (G.field fill pad kw v L) z := by
  obtain ⟨B, h1, h2, -⟩ := applyFilter_values hA hG fill K pad kw hkw drop
    (fun i j => G.field fill pad kw v L (G.easting j) (G.northing i) z) (by
      intro i hi j hj
      rw [Geo.field_node hG fill pad kw v L hi hj]
      unfold Geo.filtered
      rw [out_finite hK]
      simp only [hL])
  exact ⟨B, h1, h2⟩

theorem field_east (G : Geo) (fill : Fill) (pad : Bool) (kw : Option PadKwargs) (v : ℕ → ℕ → ℝ)
    (K : ℕ × ℕ → ℂ) (k : ℕ) : (fun x y z => iteratedDeriv k (fun s => G.field fill pad kw v K s y z) x) =
      G.field fill pad kw v fun s => K s * kEast (G.mm pad (effective G kw)) G.dx s ^ k := by
  funext x y z
  unfold Geo.field gridWaves
  rw [waves_east]
  simp only [mul_assoc]

theorem field_north (G : Geo) (fill : Fill) (pad : Bool) (kw : Option PadKwargs) (v : ℕ → ℕ → ℝ)
    (K : ℕ × ℕ → ℂ) (k : ℕ) : (fun x y z => iteratedDeriv k (fun s => G.field fill pad kw v K x s z) y) =
      G.field fill pad kw v fun s => K s * kNorth (G.nn pad (effective G kw)) G.dy s ^ k := by
  funext x y z
  unfold Geo.field gridWaves
  rw [waves_north]
  simp only [mul_assoc]

theorem field_up (G : Geo) (fill : Fill) (pad : Bool) (kw : Option PadKwargs) (v : ℕ → ℕ → ℝ)
    (K : ℕ × ℕ → ℂ) (k : ℕ) : (fun x y z => iteratedDeriv k (fun s => G.field fill pad kw v K x y s) z) =
      G.field fill pad kw v fun s =>
        K s * kUp (G.nn pad (effective G kw)) (G.mm pad (effective G kw)) G.dy G.dx s ^ k := by
  funext x y z
  unfold Geo.field gridWaves
  rw [waves_up]
  simp only [mul_assoc]

theorem field_along (G : Geo) (fill : Fill) (pad : Bool) (kw : Option PadKwargs) (v : ℕ → ℕ → ℝ)
    (K : ℕ × ℕ → ℂ) (u : ℝ × ℝ × ℝ) : (G.field fill pad kw v K).along u =
      G.field fill pad kw v fun s => K s * (u.1 * kEast (G.mm pad (effective G kw)) G.dx s +
        u.2.1 * kNorth (G.nn pad (effective G kw)) G.dy s +
        u.2.2 * kUp (G.nn pad (effective G kw)) (G.mm pad (effective G kw)) G.dy G.dx s) := by
  unfold Geo.field gridWaves
  rw [waves_along]
  simp only [mul_assoc]

/-! ### C108 -/

/-- C108: for every grid and padding there is one potential field of sources below the grid, periodic in
both directions, with the values of the grid at its nodes, of which the transformations return the exact
values at the nodes: the upward continuation returns the field at the new height, and the derivatives (the
horizontal ones with `method="fft"`) of any order return the derivatives of the field. Without padding the
periods are the ones of the grid. -/
theorem C108_one_field {A : Grid} {G : Geo} {v : ℕ → ℕ → ℝ} (hA : IsGrid A G v) (hG : G.Increasing)
    (fill : Fill) (pad : Bool) (kw : Option PadKwargs) (hkw : WidthsFor G kw) :
    ∃ (U : Field) (N M : ℕ), U.Potential ∧
      (∀ i < G.n, ∀ j < G.m, U (G.easting j) (G.northing i) 0 = v i j) ∧
      (∀ x y z, U (x + M * G.dx) y z = U x y z ∧ U x (y + N * G.dy) z = U x y z) ∧
      G.n ≤ N ∧ G.m ≤ M ∧ (pad = false → N = G.n ∧ M = G.m) ∧
      (∀ height, Samples (upwardContinuation fill A height pad kw) G U height) ∧
      ∀ order,
        Samples (derivativeEasting fill A order "fft" pad kw) G
          (fun x y z => iteratedDeriv order (fun s => U s y z) x) 0 ∧
        Samples (derivativeNorthing fill A order "fft" pad kw) G
          (fun x y z => iteratedDeriv order (fun s => U x s z) y) 0 ∧
        Samples (derivativeUpward fill A order pad kw) G
          (fun x y z => iteratedDeriv order (fun s => U x y s) z) 0 := by
  have hn := hG.n2
  have hm := hG.m2
  have h1 := G.nn_le pad (effective G kw) (i := G.n - 1) (by omega)
  have h2 := G.mm_le pad (effective G kw) (j := G.m - 1) (by omega)
  refine ⟨G.field fill pad kw v fun _ => 1, G.nn pad (effective G kw), G.mm pad (effective G kw),
    gridWaves_potential _ _ _ _ _ _ _ _, ?_, ?_, by omega, by omega, ?_, ?_, ?_⟩
  · intro i hi j hj
    rw [Geo.field_node hG fill pad kw v _ hi hj]
    simp only [ofReal_zero, mul_zero, Complex.exp_zero, mul_one]
    rw [idft_dft _ (G.nn_le _ _ hi) (G.mm_le _ _ hj), ofReal_re, G.vv_inside _ _ _ _ hi hj]
  · intro x y z
    exact gridWaves_periodic (by omega) (by omega) hG.dy0 hG.dx0 _ _ x y z
  · rintro rfl; exact ⟨rfl, rfl⟩
  · intro height
    refine filter_samples hA hG fill _ pad kw hkw (FiniteOn.of (upward_finite height) _ _ _) true _ _ ?_
    intro p q
    simp only [kval, upwardContinuationKernel, Option.getD_some, one_mul, kUp]
    push_cast; rfl
  · intro order
    refine ⟨?_, ?_, ?_⟩
    · rw [field_east]
      have e : derivativeEasting fill A order "fft" pad kw =
        applyFilter fill A (.ok (derivativeEastingKernel order)) pad kw := rfl
      rw [e]
      refine filter_samples hA hG fill _ pad kw hkw (FiniteOn.of (fun _ _ => ⟨_, rfl⟩) _ _ _) false _ _ ?_
      intro p q
      simp [kval, kEast]
    · rw [field_north]
      have e : derivativeNorthing fill A order "fft" pad kw =
        applyFilter fill A (.ok (derivativeNorthingKernel order)) pad kw := rfl
      rw [e]
      refine filter_samples hA hG fill _ pad kw hkw (FiniteOn.of (fun _ _ => ⟨_, rfl⟩) _ _ _) false _ _ ?_
      intro p q
      simp [kval, kNorth]
    · rw [field_up]
      refine filter_samples hA hG fill _ pad kw hkw (FiniteOn.of (fun _ _ => ⟨_, rfl⟩) _ _ _) false _ _ ?_
      intro p q
      simp [kval, kUp]

/-! ### the mean -/

/-- Position of the zero frequency. -/
def atZero (N M : ℕ) (s : ℕ × ℕ) : Prop := s = (N / 2, M / 2)

theorem freq_eq_zero {n : ℕ} (hn : 0 < n) {d : ℝ} (hd : d ≠ 0) (p : ℕ) : freq n d p = 0 ↔ p = n / 2 := by
  have : (n : ℝ) * d ≠ 0 := mul_ne_zero (by exact_mod_cast hn.ne') hd
  unfold freq
  rw [div_eq_zero_iff, or_iff_left this, sub_eq_zero]
  exact_mod_cast Iff.rfl

/-- Mean of an array. -/
noncomputable def mean (N M : ℕ) (v : ℕ → ℕ → ℝ) : ℝ :=
  (∑ i ∈ range N, ∑ j ∈ range M, v i j) / (N * M)

open Classical in
/-- The wave of zero frequency is the mean. -/
theorem gridWaves_zero {N M : ℕ} (hN : 0 < N) (hM : 0 < M) (y0 dy x0 dx : ℝ) (v : ℕ → ℕ → ℝ) (x y z : ℝ) :
    gridWaves N M y0 dy x0 dx v (fun s => if atZero N M s then 1 else 0) x y z = mean N M v := by
  have hf : ∀ (n : ℕ) (d : ℝ), freq n d (n / 2) = 0 := by intro n d; simp [freq]
  have hw : ∀ (n : ℕ) i, wave n (n / 2) i = 1 := by intro n i; simp [wave]
  unfold gridWaves waves
  rw [sum_eq_single (N / 2, M / 2)]
  · simp only [atZero, if_true, kEast, kNorth, kUp, hf]
    have e : dft N M (fun i j => (v i j : ℂ)) (N / 2) (M / 2) =
        ((∑ i ∈ range N, ∑ j ∈ range M, v i j : ℝ) : ℂ) := by
      simp [dft, hw]
    rw [e]
    have e2 : (1 / (N * M) : ℂ) = ((1 / (N * M) : ℝ) : ℂ) := by push_cast; rfl
    rw [e2]
    simp only [mul_zero, ofReal_zero, zero_mul, add_zero, neg_zero, Complex.exp_zero, mul_one, ne_eq,
      OfNat.ofNat_ne_zero, not_false_eq_true, zero_pow, Real.sqrt_zero]
    rw [← ofReal_mul, ofReal_re, mean]
    ring
  · intro s _ hs
    simp [atZero, hs]
  · intro h
    exact absurd (mem_product.2 ⟨mem_range.2 (by simp only; omega), mem_range.2 (by simp only; omega)⟩) h

open Classical in
theorem field_split (G : Geo) (fill : Fill) (pad : Bool) (kw : Option PadKwargs) (v : ℕ → ℕ → ℝ)
    (hN : 0 < G.nn pad (effective G kw)) (hM : 0 < G.mm pad (effective G kw)) (x y z : ℝ) :
    G.field fill pad kw v (fun s =>
        if atZero (G.nn pad (effective G kw)) (G.mm pad (effective G kw)) s then 0 else 1) x y z +
      mean (G.nn pad (effective G kw)) (G.mm pad (effective G kw)) (G.vv fill pad (effective G kw) v) =
    G.field fill pad kw v (fun _ => 1) x y z := by
  rw [← gridWaves_zero hN hM (G.y0 - G.oy pad (effective G kw) * G.dy) G.dy
    (G.x0 - G.ox pad (effective G kw) * G.dx) G.dx _ x y z]
  unfold Geo.field gridWaves
  rw [waves_add]
  refine congrFun (congrFun (congrFun (waves_congr _ _ _ _ _ fun s _ => ?_) x) y) z
  simp only
  split_ifs <;> ring

theorem mean_vv (G : Geo) (fill : Fill) (kw : PadKwargs) (v : ℕ → ℕ → ℝ) :
    mean (G.nn false kw) (G.mm false kw) (G.vv fill false kw v) = mean G.n G.m v := by
  unfold mean
  congr 1
  refine sum_congr rfl fun i hi => sum_congr rfl fun j hj => ?_
  exact if_pos ⟨mem_range.1 hi, mem_range.1 hj⟩

open Classical in
/-- The other waves vanish with the height. -/
theorem field_vanishes {G : Geo} (hG : G.Increasing) (fill : Fill) (pad : Bool) (kw : Option PadKwargs)
    (v : ℕ → ℕ → ℝ) (hN : 0 < G.nn pad (effective G kw)) (hM : 0 < G.mm pad (effective G kw)) (x y : ℝ) :
    Filter.Tendsto (fun z => G.field fill pad kw v (fun s =>
        if atZero (G.nn pad (effective G kw)) (G.mm pad (effective G kw)) s then 0 else 1) x y z)
      Filter.atTop (nhds 0) := by
  unfold Geo.field gridWaves waves
  generalize G.nn pad (effective G kw) = N at *
  generalize G.mm pad (effective G kw) = M at *
  rw [show (0 : ℝ) = (∑ s ∈ range N ×ˢ range M, (0 : ℂ)).re by simp]
  refine (continuous_re.tendsto _).comp (tendsto_finsetSum _ fun s _ => ?_)
  by_cases h : atZero N M s
  · simp [h]
  simp only [h, if_false, Complex.exp_add, ← mul_assoc]
  have hpos : 0 < Real.sqrt ((2 * Real.pi * freq M G.dx s.2) ^ 2 + (2 * Real.pi * freq N G.dy s.1) ^ 2) := by
    apply Real.sqrt_pos.2
    have hpi := Real.pi_pos
    have : ¬ (freq N G.dy s.1 = 0 ∧ freq M G.dx s.2 = 0) := by
      rw [freq_eq_zero hN hG.dy0, freq_eq_zero hM hG.dx0]
      rintro ⟨h1, h2⟩
      exact h (Prod.ext h1 h2)
    rcases not_and_or.1 this with h | h
    · have h3 : 2 * Real.pi * freq N G.dy s.1 ≠ 0 := mul_ne_zero (by positivity) h
      have := sq_pos_of_ne_zero h3
      positivity
    · have h3 : 2 * Real.pi * freq M G.dx s.2 ≠ 0 := mul_ne_zero (by positivity) h
      have := sq_pos_of_ne_zero h3
      positivity
  have hexp : Filter.Tendsto (fun z : ℝ => exp (kUp N M G.dy G.dx s * z)) Filter.atTop (nhds 0) := by
    apply tendsto_zero_iff_norm_tendsto_zero.2
    have e : (fun z : ℝ => ‖exp (kUp N M G.dy G.dx s * z)‖) = fun z : ℝ => Real.exp (-(
        Real.sqrt ((2 * Real.pi * freq M G.dx s.2) ^ 2 + (2 * Real.pi * freq N G.dy s.1) ^ 2) * z)) := by
      funext z
      rw [norm_exp, kUp, ← ofReal_mul, ofReal_re, neg_mul]
    rw [e]
    exact Real.tendsto_exp_neg_atTop_nhds_zero.comp (Filter.tendsto_id.const_mul_atTop hpos)
  simpa using hexp.const_mul _

/-- C108: the upward continuation approaches one number everywhere as the height grows; without padding it
is the mean of the grid. -/
theorem C108_far {A : Grid} {G : Geo} {v : ℕ → ℕ → ℝ} (hA : IsGrid A G v) (hG : G.Increasing)
    (fill : Fill) (pad : Bool) (kw : Option PadKwargs) (hkw : WidthsFor G kw) :
    ∃ (w : ℝ → ℕ → ℕ → ℝ) (level : ℝ),
      (∀ height, ∃ B, (upwardContinuation fill A height pad kw).2 = .ok B ∧ IsGrid B G (w height)) ∧
      (∀ i < G.n, ∀ j < G.m, Filter.Tendsto (fun height => w height i j) Filter.atTop (nhds level)) ∧
      (pad = false → level = (∑ i ∈ range G.n, ∑ j ∈ range G.m, v i j) / (G.n * G.m)) := by
  have hn := hG.n2
  have hm := hG.m2
  have h1 := G.nn_le pad (effective G kw) (i := G.n - 1) (by omega)
  have h2 := G.mm_le pad (effective G kw) (j := G.m - 1) (by omega)
  refine ⟨fun height i j => G.field fill pad kw v (fun _ => 1) (G.easting j) (G.northing i) height,
    mean (G.nn pad (effective G kw)) (G.mm pad (effective G kw)) (G.vv fill pad (effective G kw) v), ?_, ?_, ?_⟩
  · intro height
    refine filter_samples hA hG fill _ pad kw hkw (FiniteOn.of (upward_finite height) _ _ _) true _ _ ?_
    intro p q
    simp only [kval, upwardContinuationKernel, Option.getD_some, one_mul, kUp]
    push_cast; rfl
  · intro i _ j _
    simp only [← field_split G fill pad kw v (by omega : 0 < G.nn pad (effective G kw)) (by omega)]
    simpa using (field_vanishes hG fill pad kw v (by omega) (by omega) (G.easting j) (G.northing i)).add_const
      (mean (G.nn pad (effective G kw)) (G.mm pad (effective G kw)) (G.vv fill pad (effective G kw) v))
  · rintro rfl
    exact mean_vv G fill _ v

/-! ### C109 -/

theorem direction_eq (i d : ℝ) : magneticAnglesToVec 1 i d = direction i d := by
  unfold magneticAnglesToVec direction radians
  simp [mul_div_assoc]

/-- Response of a derivative along a direction. -/
noncomputable def response (N M : ℕ) (dy dx : ℝ) (u : ℝ × ℝ × ℝ) (s : ℕ × ℕ) : ℂ :=
  u.1 * kEast M dx s + u.2.1 * kNorth N dy s + u.2.2 * kUp N M dy dx s

theorem response_eq (N M : ℕ) (dy dx : ℝ) (u : ℝ × ℝ × ℝ) (p q : ℕ) :
    ((-u.2.2 : ℝ) : ℂ) * (Real.sqrt ((2 * Real.pi * freq N dy p) ^ 2 + (2 * Real.pi * freq M dx q) ^ 2) : ℝ) +
      I * (u.1 * (2 * Real.pi * freq M dx q : ℝ) + u.2.1 * (2 * Real.pi * freq N dy p : ℝ)) =
    response N M dy dx u (p, q) := by
  unfold response kEast kNorth kUp
  rw [add_comm ((2 * Real.pi * freq N dy p) ^ 2)]
  push_cast; ring

theorem response_ne {N M : ℕ} (hN : 0 < N) (hM : 0 < M) {dy dx : ℝ} (hdy : dy ≠ 0) (hdx : dx ≠ 0)
    {u : ℝ × ℝ × ℝ} (hu : u.2.2 ≠ 0) {s : ℕ × ℕ} (hs : ¬ atZero N M s) : response N M dy dx u s ≠ 0 := by
  intro h
  have := congrArg Complex.re h
  simp [response, kEast, kNorth, kUp, hu] at this
  have h0 := (Real.sqrt_eq_zero (by positivity)).1 this
  have hpi := Real.pi_pos
  have h1 : freq N dy s.1 = 0 := by
    have : (2 * Real.pi * freq N dy s.1) ^ 2 = 0 := by nlinarith [sq_nonneg (2 * Real.pi * freq M dx s.2), sq_nonneg (2 * Real.pi * freq N dy s.1)]
    simpa [hpi.ne'] using this
  have h2 : freq M dx s.2 = 0 := by
    have : (2 * Real.pi * freq M dx s.2) ^ 2 = 0 := by nlinarith [sq_nonneg (2 * Real.pi * freq M dx s.2), sq_nonneg (2 * Real.pi * freq N dy s.1)]
    simpa [hpi.ne'] using this
  exact hs (Prod.ext ((freq_eq_zero hN hdy _).1 h1) ((freq_eq_zero hM hdx _).1 h2))

open Classical in
/-- C109: the reduction to the pole of a grid of the magnetic anomaly of sources magnetized along the
given direction is the anomaly they would have at the pole. There is a potential field `W` of sources below
the grid whose derivative along the directions of the magnetization and of the geomagnetic field is the grid,
besides a level (without padding: the mean of the grid), and the transformation returns its second vertical
derivative, which is what the grid would be if both directions were vertical. For inclinations with nonzero
sine and any padding. -/
theorem C109_potential {A : Grid} {G : Geo} {v : ℕ → ℕ → ℝ} (hA : IsGrid A G v) (hG : G.Increasing)
    (inc dec minc mdec : ℝ) (h1 : Real.sin (inc * Real.pi / 180) ≠ 0)
    (h2 : Real.sin (minc * Real.pi / 180) ≠ 0)
    (fill : Fill) (pad : Bool) (kw : Option PadKwargs) (hkw : WidthsFor G kw) :
    ∃ (W : Field) (level : ℝ), W.Potential ∧
      (∀ i < G.n, ∀ j < G.m,
        ((W.along (direction minc mdec)).along (direction inc dec)) (G.easting j) (G.northing i) 0 + level =
          v i j) ∧
      (pad = false → level = (∑ i ∈ range G.n, ∑ j ∈ range G.m, v i j) / (G.n * G.m)) ∧
      Samples (reductionToPole fill A inc dec (some minc) (some mdec) pad kw) G
        ((W.along (direction 90 0)).along (direction 90 0)) 0 := by
  have hn := hG.n2
  have hm := hG.m2
  have g1 := G.nn_le pad (effective G kw) (i := G.n - 1) (by omega)
  have g2 := G.mm_le pad (effective G kw) (j := G.m - 1) (by omega)
  have hN : 0 < G.nn pad (effective G kw) := by omega
  have hM : 0 < G.mm pad (effective G kw) := by omega
  have u1 : (direction inc dec).2.2 ≠ 0 := by simpa [direction] using h1
  have u2 : (direction minc mdec).2.2 ≠ 0 := by simpa [direction] using h2
  obtain ⟨K, hK, hfin⟩ := C36_finite_partial inc dec minc mdec h1 h2
  set N := G.nn pad (effective G kw) with hNdef
  set M := G.mm pad (effective G kw) with hMdef
  set L : ℕ × ℕ → ℂ := fun s => if atZero N M s then 0 else
    (response N M G.dy G.dx (direction minc mdec) s)⁻¹ * (response N M G.dy G.dx (direction inc dec) s)⁻¹ with hL
  have hfield := field_split G fill pad kw v hN hM
  refine ⟨G.field fill pad kw v L, mean N M (G.vv fill pad (effective G kw) v),
    gridWaves_potential _ _ _ _ _ _ _ _, ?_, ?_, ?_⟩
  · intro i hi j hj
    rw [field_along, field_along]
    have e : (fun s => L s * ((direction minc mdec).1 * kEast M G.dx s + (direction minc mdec).2.1 *
        kNorth N G.dy s + (direction minc mdec).2.2 * kUp N M G.dy G.dx s) * ((direction inc dec).1 *
        kEast M G.dx s + (direction inc dec).2.1 * kNorth N G.dy s +
        (direction inc dec).2.2 * kUp N M G.dy G.dx s)) = fun s => if atZero N M s then 0 else 1 := by
      funext s
      have r1 := response_ne hN hM hG.dy0 hG.dx0 u1 (s := s)
      have r2 := response_ne hN hM hG.dy0 hG.dx0 u2 (s := s)
      show L s * response N M G.dy G.dx (direction minc mdec) s *
        response N M G.dy G.dx (direction inc dec) s = _
      by_cases hs : atZero N M s
      · simp [hL, hs]
      · have r1 := r1 hs
        have r2 := r2 hs
        simp only [hL, hs, if_false]
        field_simp
    rw [e, hfield, Geo.field_node hG fill pad kw v _ hi hj]
    simp only [ofReal_zero, mul_zero, Complex.exp_zero, mul_one]
    rw [idft_dft _ (G.nn_le _ _ hi) (G.mm_le _ _ hj), ofReal_re, G.vv_inside _ _ _ _ hi hj]
  · rintro rfl
    exact mean_vv G fill _ v
  · rw [field_along, field_along]
    unfold reductionToPole
    rw [hK]
    refine filter_samples hA hG fill K pad kw hkw (FiniteOn.of hfin _ _ _) false _ _ ?_
    intro p q
    have d90 : direction 90 0 = (0, 0, -1) := by
      have : (90 : ℝ) * Real.pi / 180 = Real.pi / 2 := by ring
      simp [direction, this]
    rw [d90]
    simp only [reductionToPoleKernel, versor, Py.bind_ok, Py.pure_eq, Except.ok.injEq] at hK
    simp only [kval, ← hK]
    rw [← hNdef, ← hMdef]
    simp only [freq_eq_zero hN hG.dy0, freq_eq_zero hM hG.dx0, direction_eq]
    by_cases hs : p = N / 2 ∧ q = M / 2
    · have : atZero N M (p, q) := Prod.ext hs.1 hs.2
      rw [if_pos hs]
      simp [hL, this]
    · have ha : ¬ atZero N M (p, q) := fun h => hs ⟨congrArg Prod.fst h, congrArg Prod.snd h⟩
      have r1 := response_ne hN hM hG.dy0 hG.dx0 u1 ha
      have r2 := response_ne hN hM hG.dy0 hG.dx0 u2 ha
      rw [if_neg hs, response_eq, response_eq]
      simp only [inverse, r1, r2, if_false, Option.bind_some, Option.map_some, Option.getD_some, hL, ha]
      have hk : kUp N M G.dy G.dx (p, q) ^ 2 =
          (((2 * Real.pi * freq N G.dy p) ^ 2 + (2 * Real.pi * freq M G.dx q) ^ 2 : ℝ) : ℂ) := by
        unfold kUp
        rw [← ofReal_pow, neg_sq, Real.sq_sqrt (by positivity), add_comm]
      rw [← hk]
      simp
      ring

/-! ### concrete cases -/

/-- The toy grid with widths in the dictionary for C108. -/
example : ∃ (U : Field) (N M : ℕ), U.Potential ∧
    (∀ i < 5, ∀ j < 8, U (toyGeo.easting j) (toyGeo.northing i) 0 = (i : ℝ) * j - 3) ∧
    5 ≤ N ∧ 8 ≤ M ∧
    Samples (upwardContinuation edgeFill (gridOf toyGeo fun i j => i * j - 3) 10 true
      (some { pad_width := some [("easting", (2, 3))] })) toyGeo U 10 := by
  obtain ⟨U, N, M, h1, h2, -, h3, h4, -, h5, -⟩ := C108_one_field
    (gridOf_isGrid toyGeo (by decide) fun i j => (i : ℝ) * j - 3) toyGeo_increasing edgeFill true
    (some { pad_width := some [("easting", (2, 3))] }) (by
      intro k hk w hw
      cases hk
      simp at hw
      subst hw
      right; rfl)
  exact ⟨U, N, M, h1, h2, h3, h4, h5 10⟩

/-- ... and for C109, with a field with inclination 30 and sources with reversed magnetization. -/
example : ∃ (W : Field) (level : ℝ), W.Potential ∧
    (∀ i < 5, ∀ j < 8, ((W.along (direction (-30) 5)).along (direction 30 10)) (toyGeo.easting j)
      (toyGeo.northing i) 0 + level = (i : ℝ) * j - 3) := by
  have s30 : Real.sin (30 * Real.pi / 180) = 1 / 2 := by
    rw [show (30 : ℝ) * Real.pi / 180 = Real.pi / 6 by ring, Real.sin_pi_div_six]
  obtain ⟨W, level, h1, h2, -⟩ := C109_potential
    (gridOf_isGrid toyGeo (by decide) fun i j => (i : ℝ) * j - 3) toyGeo_increasing 30 10 (-30) 5
    (by rw [s30]; norm_num)
    (by rw [show -30 * Real.pi / 180 = -(30 * Real.pi / 180) by ring, Real.sin_neg, s30]; norm_num)
    edgeFill true none (by intro k hk; cases hk)
  exact ⟨W, level, h1, h2⟩

end Verif.Filters
