import Verif.Filters.PropsC

/-!
C95: the grid transformations do not depend on the origin of the coordinates and follow their units.
-/

namespace Verif.Filters
open Verif.Utils

/-! ### specification -/

/-- The geometry after a change of coordinates: northing to `c * northing + b`, easting to
`c * easting + a`. -/
noncomputable def Geo.moved (G : Geo) (c a b : ℝ) : Geo :=
  { G with y0 := c * G.y0 + b, dy := c * G.dy, x0 := c * G.x0 + a, dx := c * G.dx }

/-- Two grids with the same values; the coordinates of the second one are the ones of the first after
the change of coordinates. Both coordinates increase. -/
structure MovedGrid (A B : Grid) (G : Geo) (v : ℕ → ℕ → ℝ) (c a b : ℝ) : Prop where
  increasing : G.Increasing
  pos : 0 < c
  fst : IsGrid A G v
  fst' : IsGridXY A G.d0 G.d1 G.n G.m G.northing G.easting v
  snd : IsGrid B (G.moved c a b) v
  snd' : IsGridXY B G.d0 G.d1 G.n G.m (fun i => c * G.northing i + b) (fun j => c * G.easting j + a) v

/-- The same transformation with its lengths (height, wavelength) in the new units. -/
def Transformation.rescaled (c : ℝ) : Transformation → Transformation
  | .upwardContinuation height => .upwardContinuation (c * height)
  | .gaussianLowpass wavelength => .gaussianLowpass (c * wavelength)
  | .gaussianHighpass wavelength => .gaussianHighpass (c * wavelength)
  | t => t

/-- Order of the derivative: the values of the result have the units of the grid over length to this
power. -/
def Transformation.order : Transformation → ℕ
  | .derivativeUpward order => order
  | .derivativeEasting order _ => order
  | .derivativeNorthing order _ => order
  | .totalGradientAmplitude => 1
  | _ => 0

/-- Two calls with the same outcome up to a factor: the same exception, or grids of the same shape where
each value (NaN included) of the second is the one of the first times `f`. -/
def SameUpTo (G : Geo) (f : ℝ) : Py Grid → Py Grid → Prop
  | .ok A, .ok B => A.sizes = [G.n, G.m] ∧ B.sizes = [G.n, G.m] ∧
      ∀ i < G.n, ∀ j < G.m, B.data [i, j] = (A.data [i, j]).map (f * ·)
  | .error e, .error e' => e = e'
  | _, _ => False

/-- The values that `np.pad` writes depend on the array and not on the coordinates (numpy does not see
the coordinates). -/
def CoordFreeFill (fill : Fill) : Prop :=
  ∀ mode c wy wx (n m : ℕ) (y x y' x' : List ℝ) (v : ℕ → ℕ → ℝ) i j,
    fill mode c wy wx ⟨n, m, y, x, v⟩ i j = fill mode c wy wx ⟨n, m, y', x', v⟩ i j

/-! ### proof -/

theorem freq_scale (n : ℕ) (d c : ℝ) (p : ℕ) : freq n (c * d) p = freq n d p / c := by
  unfold freq
  rw [div_div]; congr 1; ring

/-- A kernel in the new units. -/
def KernelScales (c f : ℝ) (K K' : Kernel) : Prop :=
  ∀ fe fn, K' (fe / c) (fn / c) = (K fe fn).map ((f : ℂ) * ·)

theorem out_scale {n m : ℕ} {dy dx c f : ℝ} {K K' : Kernel} (h : KernelScales c f K K')
    (v : ℕ → ℕ → ℝ) (i j : ℕ) :
    out n m (c * dy) (c * dx) K' v i j = (out n m dy dx K v i j).map (f * ·) := by
  unfold out
  have hf : KFinite n m (c * dy) (c * dx) K' ↔ KFinite n m dy dx K := by
    unfold KFinite
    simp only [freq_scale, h _ _, Option.isSome_map]
  by_cases hK : KFinite n m dy dx K
  · rw [if_pos hK, if_pos (hf.2 hK), Option.map_some]
    congr 1
    rw [← Complex.re_ofReal_mul]
    congr 1
    have : ∀ p q, kval n m (c * dy) (c * dx) K' p q = f * kval n m dy dx K p q := by
      intro p q
      unfold kval
      rw [freq_scale, freq_scale, h]
      cases K (freq m dx q) (freq n dy p) <;> simp
    simp only [this]
    rw [show (fun p q => dft n m (fun i j => (v i j : ℂ)) p q * (f * kval n m dy dx K p q)) =
      fun p q => (f : ℂ) * (dft n m (fun i j => (v i j : ℂ)) p q * kval n m dy dx K p q) + 0 * 0 by
      funext p q; ring]
    rw [idft_linear n m (fun p q => dft n m (fun i j => (v i j : ℂ)) p q * kval n m dy dx K p q)
      (fun _ _ => 0)]
    ring
  · rw [if_neg hK, if_neg (fun h => hK (hf.1 h))]; rfl

theorem vv_moved {fill : Fill} (hf : CoordFreeFill fill) (G : Geo) (c a b : ℝ) (pad : Bool)
    (kw : PadKwargs) (v : ℕ → ℕ → ℝ) :
    (G.moved c a b).vv fill pad kw v = G.vv fill pad kw v := by
  unfold Geo.vv
  cases pad
  · rfl
  · simp only [if_true]
    unfold Geo.paddedValues padded
    funext i j
    simp only [Geo.moved, regular]
    rw [hf _ _ _ _ _ _ _ _ (coordList G.n G.y0 G.dy) (coordList G.m G.x0 G.dx)]
    rfl

theorem filter_moved {A B : Grid} {G : Geo} {v : ℕ → ℕ → ℝ} {c a b : ℝ} (h : MovedGrid A B G v c a b)
    {fill : Fill} (hf : CoordFreeFill fill) {f : ℝ} {K K' : Kernel} (hK : KernelScales c f K K')
    (pad : Bool) (kw : Option PadKwargs) (hkw : WidthsFor G kw) (drop : Bool) :
    SameUpTo G f (applyFilter fill A (.ok K) pad kw drop).2 (applyFilter fill B (.ok K') pad kw drop).2 := by
  have hinc : (G.moved c a b).Increasing :=
    ⟨⟨h.increasing.ne, h.increasing.n2, h.increasing.m2, (mul_pos h.pos h.increasing.dy).ne',
      (mul_pos h.pos h.increasing.dx).ne'⟩, mul_pos h.pos h.increasing.dy, mul_pos h.pos h.increasing.dx⟩
  rw [applyFilter_eq h.fst h.increasing fill _ pad kw hkw, applyFilter_eq h.snd hinc fill _ pad kw hkw]
  refine ⟨h.fst.sizes, h.snd.sizes, ?_⟩
  intro i _ j _
  show (G.moved c a b).filtered fill K' pad (effective G kw) v i j = _
  unfold Geo.filtered
  rw [vv_moved hf]
  exact out_scale hK _ _ _

theorem npGradient_scale {n : ℕ} (hn : 2 ≤ n) {x x' : List ℝ} {c t f : ℝ} (hc : c ≠ 0)
    (hx : ∀ k < n, x'.getD k 0 = c * x.getD k 0 + t) {u u' : ℕ → Option ℝ}
    (hu : ∀ k < n, u' k = (u k).map (f * ·)) {i : ℕ} (hi : i < n) :
    npGradient u' x' n i = (npGradient u x n i).map (f / c * ·) := by
  have sub : ∀ k l, k < n → l < n → x'.getD k 0 - x'.getD l 0 = c * (x.getD k 0 - x.getD l 0) := by
    intro k l hk hl; rw [hx k hk, hx l hl]; ring
  have od : ∀ (p : Option ℝ) (r s d d' : ℝ), d' = s * d → s ≠ 0 → 
      odiv (p.map (r * ·)) d' = (odiv p d).map (r / s * ·) := by
    intro p r s d d' hd hs
    subst hd
    unfold odiv
    by_cases h0 : d = 0
    · rw [if_pos (by rw [h0, mul_zero]), if_pos h0]; rfl
    · rw [if_neg (mul_ne_zero hs h0), if_neg h0]
      cases p with
      | none => rfl
      | some p => simp only [Option.map_some, Option.some.injEq]; field_simp
  have l2 : ∀ k l, k < n → l < n → lift2 (· - ·) (u' k) (u' l) = (lift2 (· - ·) (u k) (u l)).map (f * ·) := by
    intro k l hk hl
    rw [hu k hk, hu l hl]
    cases u k <;> cases u l <;> simp [lift2, mul_sub]
  have la : ∀ (p q : Option ℝ) (r : ℝ), lift2 (· + ·) (p.map (r * ·)) (q.map (r * ·)) =
      (lift2 (· + ·) p q).map (r * ·) := by
    intro p q r
    cases p <;> cases q <;> simp [lift2, mul_add]
  have lm : ∀ (k : ℕ) (r : ℝ), k < n → (u' k).map (c * r * ·) = ((u k).map (r * ·)).map (c * f * ·) := by
    intro k r hk
    rw [hu k hk]
    cases u k
    · rfl
    · simp only [Option.map_some, Option.some.injEq]; ring
  unfold npGradient
  simp only
  by_cases h0 : i = 0
  · rw [if_pos h0, if_pos h0, l2 _ _ (by omega) (by omega)]
    exact od _ _ _ _ _ (sub _ _ (by omega) (by omega)) hc
  rw [if_neg h0, if_neg h0]
  by_cases h1 : i + 1 = n
  · rw [if_pos h1, if_pos h1, l2 _ _ (by omega) (by omega)]
    exact od _ _ _ _ _ (sub _ _ (by omega) (by omega)) hc
  rw [if_neg h1, if_neg h1]
  have hiff : (∀ k, k + 1 < n → x'.getD (k + 1) 0 - x'.getD k 0 = x'.getD 1 0 - x'.getD 0 0) ↔
      (∀ k, k + 1 < n → x.getD (k + 1) 0 - x.getD k 0 = x.getD 1 0 - x.getD 0 0) := by
    refine forall_congr' fun k => ⟨fun h hk => ?_, fun h hk => ?_⟩
    · have := h hk
      rw [sub _ _ hk (by omega), sub _ _ (by omega) (by omega)] at this
      exact mul_left_cancel₀ hc this
    · rw [sub _ _ hk (by omega), sub _ _ (by omega) (by omega), h hk]
  by_cases he : ∀ k, k + 1 < n → x.getD (k + 1) 0 - x.getD k 0 = x.getD 1 0 - x.getD 0 0
  · rw [if_pos he, if_pos (hiff.2 he), l2 _ _ (by omega) (by omega)]
    exact od _ _ _ _ _ (by rw [sub _ _ (by omega) (by omega)]; ring) hc
  · rw [if_neg he, if_neg (fun h => he (hiff.1 h))]
    rw [sub i (i - 1) (by omega) (by omega), sub (i + 1) i (by omega) (by omega)]
    generalize x.getD i 0 - x.getD (i - 1) 0 = d1
    generalize x.getD (i + 1) 0 - x.getD i 0 = d2
    have hcc : c * c ≠ 0 := mul_ne_zero hc hc
    rw [show -(c * d2) = c * -d2 by ring, show c * d2 - c * d1 = c * (d2 - d1) by ring,
      lm _ _ (by omega), lm _ _ (by omega), lm _ _ (by omega),
      od _ _ (c * c) (d1 * (d1 + d2)) (c * d1 * (c * d1 + c * d2)) (by ring) hcc,
      od _ _ (c * c) (d1 * d2) (c * d1 * (c * d2)) (by ring) hcc,
      od _ _ (c * c) (d2 * (d1 + d2)) (c * d2 * (c * d1 + c * d2)) (by ring) hcc, la, la]
    rw [show c * f / (c * c) = f / c by field_simp]

theorem times_scale {n m : ℕ} (axis : ℕ) (c t : ℝ) (hc : c ≠ 0) (x x' : Coord)
    (hax : (axis = 0 ∧ 2 ≤ n ∧ ∀ k < n, x'.values.getD k 0 = c * x.values.getD k 0 + t) ∨
      (axis = 1 ∧ 2 ≤ m ∧ ∀ k < m, x'.values.getD k 0 = c * x.values.getD k 0 + t)) :
    ∀ (k : ℕ) (f : ℝ) (A B : Grid), A.sizes = [n, m] → B.sizes = [n, m] →
      (∀ i < n, ∀ j < m, B.data [i, j] = (A.data [i, j]).map (f * ·)) →
      ∃ A' B', differentiateTimes axis x k A = .ok A' ∧ differentiateTimes axis x' k B = .ok B' ∧
        A'.sizes = [n, m] ∧ B'.sizes = [n, m] ∧
        ∀ i < n, ∀ j < m, B'.data [i, j] = (A'.data [i, j]).map (f / c ^ k * ·) := by
  intro k
  induction k with
  | zero =>
    intro f A B hA hB hd
    exact ⟨A, B, rfl, rfl, hA, hB, by simpa using hd⟩
  | succ k ih =>
    intro f A B hA hB hd
    have hsz : 2 ≤ [n, m].getD axis 0 := by
      rcases hax with ⟨rfl, h2, _⟩ | ⟨rfl, h2, _⟩ <;> simpa using h2
    have hdA := differentiate_eq A axis x (by rw [hA]; exact hsz)
    have hdB := differentiate_eq B axis x' (by rw [hB]; exact hsz)
    obtain ⟨A', B', h1, h2, h3, h4, h5⟩ := ih (f / c) (gradGrid A axis x) (gradGrid B axis x') hA hB (by
        intro i hi j hj
        simp only [gradGrid, hA, hB]
        rcases hax with ⟨rfl, h2, hx⟩ | ⟨rfl, h2, hx⟩
        · exact npGradient_scale h2 hc hx (fun k hk => hd k hk j hj) hi
        · exact npGradient_scale h2 hc hx (fun k hk => hd i hi k hk) hj)
    refine ⟨A', B', ?_, ?_, h3, h4, ?_⟩
    · simp only [differentiateTimes, hdA, Py.bind_ok]; exact h1
    · simp only [differentiateTimes, hdB, Py.bind_ok]; exact h2
    · intro i hi j hj
      rw [h5 i hi j hj]
      congr 1
      funext z
      congr 1
      rw [pow_succ']
      field_simp

theorem east_moved {A B : Grid} {G : Geo} {v : ℕ → ℕ → ℝ} {c a b : ℝ} (h : MovedGrid A B G v c a b)
    (fill : Fill) (order : ℕ) (pad : Bool) (kw : Option PadKwargs) :
    SameUpTo G (1 / c ^ order) (derivativeEasting fill A order "finite-diff" pad kw).2
      (derivativeEasting fill B order "finite-diff" pad kw).2 := by
  obtain ⟨A', B', h1, h2, h3, h4, h5⟩ := times_scale (n := G.n) (m := G.m) 1 c a h.pos.ne'
    ⟨[G.d1], (List.range G.m).map G.easting⟩ ⟨[G.d1], (List.range G.m).map fun j => c * G.easting j + a⟩
    (.inr ⟨rfl, h.increasing.m2, fun k hk => by
      rw [coord_getD hk, coord_getD hk]⟩) order 1 A B h.fst.sizes h.snd.sizes (by
        intro i hi j hj
        rw [h.fst.data i hi j hj, h.snd.data i hi j hj]; simp)
  simp only [derivativeEasting, if_true, getCoord_easting h.fst', getCoord_easting h.snd', Py.bind_ok,
    h1, h2]
  exact ⟨h3, h4, h5⟩

theorem north_moved {A B : Grid} {G : Geo} {v : ℕ → ℕ → ℝ} {c a b : ℝ} (h : MovedGrid A B G v c a b)
    (fill : Fill) (order : ℕ) (pad : Bool) (kw : Option PadKwargs) :
    SameUpTo G (1 / c ^ order) (derivativeNorthing fill A order "finite-diff" pad kw).2
      (derivativeNorthing fill B order "finite-diff" pad kw).2 := by
  obtain ⟨A', B', h1, h2, h3, h4, h5⟩ := times_scale (n := G.n) (m := G.m) 0 c b h.pos.ne'
    ⟨[G.d0], (List.range G.n).map G.northing⟩ ⟨[G.d0], (List.range G.n).map fun j => c * G.northing j + b⟩
    (.inl ⟨rfl, h.increasing.n2, fun k hk => by
      rw [coord_getD hk, coord_getD hk]⟩) order 1 A B h.fst.sizes h.snd.sizes (by
        intro i hi j hj
        rw [h.fst.data i hi j hj, h.snd.data i hi j hj]; simp)
  simp only [derivativeNorthing, if_true, getCoord_northing h.fst', getCoord_northing h.snd', Py.bind_ok,
    h1, h2]
  exact ⟨h3, h4, h5⟩

theorem sqrt_scale {c : ℝ} (hc : 0 < c) (x y : ℝ) :
    Real.sqrt ((2 * Real.pi * (x / c)) ^ 2 + (2 * Real.pi * (y / c)) ^ 2) =
      Real.sqrt ((2 * Real.pi * x) ^ 2 + (2 * Real.pi * y) ^ 2) / c := by
  rw [show (2 * Real.pi * (x / c)) ^ 2 + (2 * Real.pi * (y / c)) ^ 2 =
    ((2 * Real.pi * x) ^ 2 + (2 * Real.pi * y) ^ 2) / c ^ 2 by ring, Real.sqrt_div' _ (sq_nonneg c),
    Real.sqrt_sq hc.le]

theorem SameUpTo.ok {G : Geo} {f : ℝ} {A : Py Grid} {B : Py Grid} (h : SameUpTo G f A B) {a : Grid}
    (ha : A = .ok a) : ∃ b, B = .ok b ∧ a.sizes = [G.n, G.m] ∧ b.sizes = [G.n, G.m] ∧
      ∀ i < G.n, ∀ j < G.m, b.data [i, j] = (a.data [i, j]).map (f * ·) := by
  subst ha
  cases B with
  | error e => exact h.elim
  | ok b => exact ⟨b, rfl, h⟩

theorem up_scales {c : ℝ} (hc : 0 < c) (order : ℕ) :
    KernelScales c (1 / c ^ order) (derivativeUpwardKernel order) (derivativeUpwardKernel order) := by
  intro fe fn
  simp only [derivativeUpwardKernel, sqrt_scale hc, Option.map_some, Option.some.injEq]
  rw [← Complex.ofReal_mul]
  congr 1
  rw [← neg_div, div_pow]; ring

theorem gradient_moved {A B : Grid} {G : Geo} {v : ℕ → ℕ → ℝ} {c a b : ℝ} (h : MovedGrid A B G v c a b)
    {fill : Fill} (hf : CoordFreeFill fill) (pad : Bool) (kw : Option PadKwargs) (hkw : WidthsFor G kw) :
    ∃ E N U E' N' U', (gradient fill A pad kw).2 = .ok (E, N, U) ∧
      (gradient fill B pad kw).2 = .ok (E', N', U') ∧ E.sizes = [G.n, G.m] ∧ E'.sizes = [G.n, G.m] ∧
      ∀ i < G.n, ∀ j < G.m, E'.data [i, j] = (E.data [i, j]).map (1 / c * ·) ∧
        N'.data [i, j] = (N.data [i, j]).map (1 / c * ·) ∧
        U'.data [i, j] = (U.data [i, j]).map (1 / c * ·) := by
  have hE := east_moved h fill 1 pad kw
  have hN := north_moved h fill 1 pad kw
  have hU := filter_moved h hf (up_scales h.pos 1) pad kw hkw false
  obtain ⟨E, hE0⟩ := C39_accepts fill h.fst h.fst' h.increasing pad kw hkw
    (.derivativeEasting 1 "finite-diff") (.inl rfl)
  obtain ⟨N, hN0⟩ := C39_accepts fill h.fst h.fst' h.increasing pad kw hkw
    (.derivativeNorthing 1 "finite-diff") (.inl rfl)
  obtain ⟨U, hU0⟩ := C39_accepts fill h.fst h.fst' h.increasing pad kw hkw (.derivativeUpward 1) trivial
  obtain ⟨E', hE1, hE2, hE3, hE4⟩ := hE.ok hE0
  obtain ⟨N', hN1, -, -, hN4⟩ := hN.ok hN0
  obtain ⟨U', hU1, -, -, hU4⟩ := hU.ok hU0
  refine ⟨E, N, U, E', N', U', Derivatives.gradient ⟨hE0, hN0, hU0⟩, Derivatives.gradient ⟨hE1, hN1, hU1⟩,
    hE2, hE3, ?_⟩
  intro i hi j hj
  have := hE4 i hi j hj
  have := hN4 i hi j hj
  have := hU4 i hi j hj
  simp only [pow_one] at *
  exact ⟨by assumption, by assumption, by assumption⟩

theorem upCont_scales {c : ℝ} (hc : 0 < c) (height : ℝ) :
    KernelScales c 1 (upwardContinuationKernel height) (upwardContinuationKernel (c * height)) := by
  intro fe fn
  simp only [upwardContinuationKernel, sqrt_scale hc, Option.map_some, Option.some.injEq, Complex.ofReal_one,
    one_mul]
  congr 2
  field_simp

theorem gauss_arg {c : ℝ} (hc : 0 < c) {w : ℝ} (hw : w ≠ 0) (x y : ℝ) :
    -((2 * Real.pi * (x / c)) ^ 2 + (2 * Real.pi * (y / c)) ^ 2) / (2 * (2 * Real.pi / (c * w)) ^ 2) =
      -((2 * Real.pi * x) ^ 2 + (2 * Real.pi * y) ^ 2) / (2 * (2 * Real.pi / w) ^ 2) := by
  have := Real.pi_ne_zero
  field_simp

theorem rtp_scales {c : ℝ} (hc : 0 < c) (i d mi md : ℝ) : ∃ K,
    reductionToPoleKernel (some i) (some d) (some mi) (some md) = .ok K ∧ KernelScales c 1 K K := by
  refine ⟨_, rfl, ?_⟩
  intro fe fn
  have hcc : (c : ℂ) ≠ 0 := by exact_mod_cast hc.ne'
  have hinv : ∀ z : ℂ, inverse (z / c) = (inverse z).map ((c : ℂ) * ·) := by
    intro z
    unfold inverse
    by_cases hz : z = 0
    · rw [if_pos hz, if_pos (by rw [hz, zero_div])]; rfl
    · rw [if_neg hz, if_neg (div_ne_zero hz hcc)]
      simp only [Option.map_some, Option.some.injEq]
      field_simp
  have hz : (fn / c = 0 ∧ fe / c = 0) ↔ (fn = 0 ∧ fe = 0) := by
    simp [div_eq_zero_iff, hc.ne']
  dsimp only
  by_cases h0 : fn = 0 ∧ fe = 0
  · rw [if_pos h0, if_pos (hz.2 h0)]; simp
  · rw [if_neg h0, if_neg (fun h => h0 (hz.1 h))]
    have hs : Real.sqrt ((2 * Real.pi * (fn / c)) ^ 2 + (2 * Real.pi * (fe / c)) ^ 2) =
      Real.sqrt ((2 * Real.pi * fn) ^ 2 + (2 * Real.pi * fe) ^ 2) / c := sqrt_scale hc fn fe
    have harg : ∀ p q r : ℝ, ((p : ℂ) * (Real.sqrt ((2 * Real.pi * (fn / c)) ^ 2 + (2 * Real.pi * (fe / c)) ^ 2) : ℝ) +
        Complex.I * (q * (2 * Real.pi * (fe / c) : ℝ) + r * (2 * Real.pi * (fn / c) : ℝ))) =
        ((p : ℂ) * (Real.sqrt ((2 * Real.pi * fn) ^ 2 + (2 * Real.pi * fe) ^ 2) : ℝ) +
        Complex.I * (q * (2 * Real.pi * fe : ℝ) + r * (2 * Real.pi * fn : ℝ))) / c := by
      intro p q r
      rw [hs]; push_cast; ring
    simp only [harg, hinv]
    rcases inverse _ with _ | a
    · rfl
    rcases inverse _ with _ | b
    · rfl
    simp only [Option.map_some, Option.bind_some, Option.some.injEq]
    push_cast
    field_simp

/-- C95: changing the origin of the coordinates does not change the values that a transformation
returns, and changing their units (with the height of the continuation and the wavelengths in the new
units) divides them by the scale to the power of the derivative. For every transformation, every padding
and all arguments, including the ones that raise. -/
theorem C95_units {A B : Grid} {G : Geo} {v : ℕ → ℕ → ℝ} {c a b : ℝ} (h : MovedGrid A B G v c a b)
    {fill : Fill} (hf : CoordFreeFill fill) (pad : Bool) (kw : Option PadKwargs) (hkw : WidthsFor G kw)
    (t : Transformation) :
    SameUpTo G (1 / c ^ t.order) (t.call fill A pad kw).2 ((t.rescaled c).call fill B pad kw).2 := by
  have hc := h.pos
  have hcc : (c : ℂ) ≠ 0 := by exact_mod_cast hc.ne'
  have herr : ∀ (e : PyErr) drop, SameUpTo G 1 (applyFilter fill A (.error e) pad kw drop).2
      (applyFilter fill B (.error e) pad kw drop).2 := by
    intro e drop
    have hinc : (G.moved c a b).Increasing :=
      ⟨⟨h.increasing.ne, h.increasing.n2, h.increasing.m2, (mul_pos h.pos h.increasing.dy).ne',
        (mul_pos h.pos h.increasing.dx).ne'⟩, mul_pos h.pos h.increasing.dy, mul_pos h.pos h.increasing.dx⟩
    rw [applyFilter_eq h.fst h.increasing fill _ pad kw hkw, applyFilter_eq h.snd hinc fill _ pad kw hkw]
    rfl
  cases t with
  | derivativeUpward order => exact filter_moved h hf (up_scales hc order) pad kw hkw false
  | derivativeEasting order method =>
    by_cases h1 : method = "finite-diff"
    · subst h1; exact east_moved h fill order pad kw
    by_cases h2 : method = "fft"
    · subst h2
      have : KernelScales c (1 / c ^ order) (derivativeEastingKernel order) (derivativeEastingKernel order) := by
        intro fe fn
        simp only [derivativeEastingKernel, Option.map_some, Option.some.injEq]
        rw [show (((2 * Real.pi * (fe / c) : ℝ) : ℂ) * Complex.I) = ((2 * Real.pi * fe : ℝ) : ℂ) * Complex.I / c by
          push_cast; ring, div_pow]
        push_cast; ring
      simpa [Transformation.call, Transformation.rescaled, derivativeEasting, Transformation.order] using
        filter_moved h hf this pad kw hkw false
    · simp [Transformation.call, Transformation.rescaled, derivativeEasting, h1, h2, SameUpTo]
  | derivativeNorthing order method =>
    by_cases h1 : method = "finite-diff"
    · subst h1; exact north_moved h fill order pad kw
    by_cases h2 : method = "fft"
    · subst h2
      have : KernelScales c (1 / c ^ order) (derivativeNorthingKernel order) (derivativeNorthingKernel order) := by
        intro fe fn
        simp only [derivativeNorthingKernel, Option.map_some, Option.some.injEq]
        rw [show (((2 * Real.pi * (fn / c) : ℝ) : ℂ) * Complex.I) = ((2 * Real.pi * fn : ℝ) : ℂ) * Complex.I / c by
          push_cast; ring, div_pow]
        push_cast; ring
      simpa [Transformation.call, Transformation.rescaled, derivativeNorthing, Transformation.order] using
        filter_moved h hf this pad kw hkw false
    · simp [Transformation.call, Transformation.rescaled, derivativeNorthing, h1, h2, SameUpTo]
  | upwardContinuation height =>
    simpa [Transformation.order] using! filter_moved h hf (upCont_scales hc height) pad kw hkw true
  | gaussianLowpass w =>
    simp only [Transformation.call, Transformation.rescaled, Transformation.order, gaussianLowpass,
      gaussianLowpassKernel, pow_zero, div_one]
    by_cases hw : w = 0
    · rw [if_pos hw, if_pos (by rw [hw, mul_zero])]; exact herr _ _
    · rw [if_neg hw, if_neg (mul_ne_zero hc.ne' hw)]
      refine filter_moved h hf ?_ pad kw hkw false
      intro fe fn
      simp only [gauss_arg hc hw, Option.map_some, Complex.ofReal_one, one_mul]
  | gaussianHighpass w =>
    simp only [Transformation.call, Transformation.rescaled, Transformation.order, gaussianHighpass,
      gaussianHighpassKernel, pow_zero, div_one]
    by_cases hw : w = 0
    · rw [if_pos hw, if_pos (by rw [hw, mul_zero])]; exact herr _ _
    · rw [if_neg hw, if_neg (mul_ne_zero hc.ne' hw)]
      refine filter_moved h hf ?_ pad kw hkw false
      intro fe fn
      simp only [gauss_arg hc hw, Option.map_some, Complex.ofReal_one, one_mul]
  | reductionToPole i d mi md =>
    simp only [Transformation.call, Transformation.rescaled, Transformation.order, reductionToPole,
      pow_zero, div_one]
    rcases mi with _ | mi
    · exact herr .TypeError _
    rcases md with _ | md
    · exact herr .TypeError _
    obtain ⟨K, hK, hs⟩ := rtp_scales hc i d mi md
    rw [hK]
    exact filter_moved h hf hs pad kw hkw false
  | totalGradientAmplitude =>
    obtain ⟨E, N, U, E', N', U', g1, g2, s1, s2, hd⟩ := gradient_moved h hf pad kw hkw
    simp only [Transformation.call, Transformation.rescaled, Transformation.order, totalGradientAmplitude,
      g1, g2, pow_one, Except.map]
    refine ⟨s1, s2, ?_⟩
    intro i hi j hj
    obtain ⟨e1, e2, e3⟩ := hd i hi j hj
    simp only [zip3, e1, e2, e3]
    rcases E.data [i, j] with _ | e
    · rfl
    rcases N.data [i, j] with _ | n
    · rfl
    rcases U.data [i, j] with _ | u
    · rfl
    simp only [Option.map_some, Option.bind_some, Option.some.injEq]
    rw [show (1 / c * e) ^ 2 + (1 / c * n) ^ 2 + (1 / c * u) ^ 2 = (1 / c) ^ 2 * (e ^ 2 + n ^ 2 + u ^ 2) by ring,
      Real.sqrt_mul (sq_nonneg _), Real.sqrt_sq (by positivity)]
  | tiltAngle =>
    obtain ⟨E, N, U, E', N', U', g1, g2, s1, s2, hd⟩ := gradient_moved h hf pad kw hkw
    simp only [Transformation.call, Transformation.rescaled, Transformation.order, tiltAngle,
      g1, g2, pow_zero, div_one, Except.map]
    refine ⟨s1, s2, ?_⟩
    intro i hi j hj
    obtain ⟨e1, e2, e3⟩ := hd i hi j hj
    simp only [zip3, e1, e2, e3]
    rcases E.data [i, j] with _ | e
    · rfl
    rcases N.data [i, j] with _ | n
    · rfl
    rcases U.data [i, j] with _ | u
    · rfl
    simp only [Option.map_some, Option.bind_some, Option.some.injEq, one_mul]
    rw [show (1 / c * e) ^ 2 + (1 / c * n) ^ 2 = (1 / c) ^ 2 * (e ^ 2 + n ^ 2) by ring,
      Real.sqrt_mul (sq_nonneg _), Real.sqrt_sq (by positivity), arctan2_scale (by positivity)]

/-- C95: the same for finite differences along coordinates that need not be evenly spaced, increasing, or
distinct, and for a scale of any sign: derivatives of any order are divided by the scale to that order. -/
theorem C95_irregular {A B : Grid} {d0 d1 : String} {n m : ℕ} {y x : ℕ → ℝ} {v : ℕ → ℕ → ℝ} {c a b : ℝ}
    (hn : 2 ≤ n) (hm : 2 ≤ m) (hc : c ≠ 0) (hA : IsGridXY A d0 d1 n m y x v)
    (hB : IsGridXY B d0 d1 n m (fun i => c * y i + b) (fun j => c * x j + a) v)
    (fill : Fill) (order : ℕ) (pad : Bool) (kw : Option PadKwargs) :
    (∃ EA EB, (derivativeEasting fill A order "finite-diff" pad kw).2 = .ok EA ∧
      (derivativeEasting fill B order "finite-diff" pad kw).2 = .ok EB ∧
      ∀ i < n, ∀ j < m, EB.data [i, j] = (EA.data [i, j]).map (1 / c ^ order * ·)) ∧
    (∃ NA NB, (derivativeNorthing fill A order "finite-diff" pad kw).2 = .ok NA ∧
      (derivativeNorthing fill B order "finite-diff" pad kw).2 = .ok NB ∧
      ∀ i < n, ∀ j < m, NB.data [i, j] = (NA.data [i, j]).map (1 / c ^ order * ·)) := by
  constructor
  · obtain ⟨A', B', h1, h2, -, -, h5⟩ := times_scale (n := n) (m := m) 1 c a hc
      ⟨[d1], (List.range m).map x⟩ ⟨[d1], (List.range m).map fun j => c * x j + a⟩
      (.inr ⟨rfl, hm, fun k hk => by rw [coord_getD hk, coord_getD hk]⟩) order 1 A B hA.sizes hB.sizes (by
        intro i hi j hj
        rw [hA.data i hi j hj, hB.data i hi j hj]; simp)
    simp only [derivativeEasting, if_true, getCoord_easting hA, getCoord_easting hB, Py.bind_ok]
    exact ⟨A', B', h1, h2, h5⟩
  · obtain ⟨A', B', h1, h2, -, -, h5⟩ := times_scale (n := n) (m := m) 0 c b hc
      ⟨[d0], (List.range n).map y⟩ ⟨[d0], (List.range n).map fun j => c * y j + b⟩
      (.inl ⟨rfl, hn, fun k hk => by rw [coord_getD hk, coord_getD hk]⟩) order 1 A B hA.sizes hB.sizes (by
        intro i hi j hj
        rw [hA.data i hi j hj, hB.data i hi j hj]; simp)
    simp only [derivativeNorthing, if_true, getCoord_northing hA, getCoord_northing hB, Py.bind_ok]
    exact ⟨A', B', h1, h2, h5⟩

end Verif.Filters
