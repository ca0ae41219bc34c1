import Verif.Filters.PropsF

/-!
C74: error of the finite differences on grids of samples of smooth functions.
-/

namespace Verif.Filters
open Verif.Utils

/-- `f` has derivatives `f'`, `f''` and `f'''` on the interval from `lo` to `hi`, the last two of which are not
larger than `M₂` and `M₃`. -/
structure SmoothOn (f f' f'' f''' : ℝ → ℝ) (lo hi M₂ M₃ : ℝ) : Prop where
  first : ∀ t ∈ Set.Icc lo hi, HasDerivAt f (f' t) t
  second : ∀ t ∈ Set.Icc lo hi, HasDerivAt f' (f'' t) t
  third : ∀ t ∈ Set.Icc lo hi, HasDerivAt f'' (f''' t) t
  bound2 : ∀ t ∈ Set.Icc lo hi, |f'' t| ≤ M₂
  bound3 : ∀ t ∈ Set.Icc lo hi, |f''' t| ≤ M₃

/-- The first `n` coordinates increase or decrease. -/
def Monotonic (n : ℕ) (x : ℕ → ℝ) : Prop :=
  (∀ i j, i < j → j < n → x i < x j) ∨ (∀ i j, i < j → j < n → x j < x i)

/-- Bound for the error of the derivative at node `i` of `n`: half of `M₂` times the spacing at the ends, one sixth
of `M₃` times the product of the spacings on both sides elsewhere. -/
noncomputable def differenceError (n : ℕ) (x : ℕ → ℝ) (M₂ M₃ : ℝ) (i : ℕ) : ℝ :=
  if i = 0 then M₂ / 2 * |x 1 - x 0|
  else if i + 1 = n then M₂ / 2 * |x (n - 1) - x (n - 2)|
  else M₃ / 6 * (|x i - x (i - 1)| * |x (i + 1) - x i|)

/-! ### Taylor -/

/-- A derivative bounded by that of `B` bounds the function. -/
theorem growth {f f' B B' : ℝ → ℝ} {c : ℝ} (hf : ∀ t ∈ Set.Icc 0 c, HasDerivAt f (f' t) t) (h0 : f 0 = 0)
    (hB : ∀ t, HasDerivAt B (B' t) t) (hB0 : B 0 = 0) (h : ∀ t ∈ Set.Icc 0 c, |f' t| ≤ B' t) :
    ∀ t ∈ Set.Icc 0 c, |f t| ≤ B t := by
  intro t ht
  have := image_norm_le_of_norm_deriv_right_le_deriv_boundary' (f := f) (f' := f') (a := 0) (b := c) (B := B) (B' := B')
    (fun t ht => (hf t ht).continuousAt.continuousWithinAt)
    (fun t ht => (hf t ⟨ht.1, ht.2.le⟩).hasDerivWithinAt) (by rw [h0, hB0]; simp)
    (fun t _ => (hB t).continuousAt.continuousWithinAt) (fun t _ => (hB t).hasDerivWithinAt)
    (fun t ht => by rw [Real.norm_eq_abs]; exact h t ⟨ht.1, ht.2.le⟩)
  exact this ht

/-- Taylor's formula from `a` towards either side. -/
theorem taylor_bounds {f f' f'' f''' : ℝ → ℝ} {lo hi M₂ M₃ : ℝ} (h : SmoothOn f f' f'' f''' lo hi M₂ M₃)
    {a b : ℝ} (ha : a ∈ Set.Icc lo hi) (hb : b ∈ Set.Icc lo hi) :
    |f b - f a - f' a * (b - a)| ≤ M₂ / 2 * |b - a| ^ 2 ∧
    |f b - f a - f' a * (b - a) - f'' a / 2 * (b - a) ^ 2| ≤ M₃ / 6 * |b - a| ^ 3 := by
  obtain ⟨s, c, hs, hc, hbc⟩ : ∃ s c : ℝ, (s = 1 ∨ s = -1) ∧ 0 ≤ c ∧ b = a + s * c := by
    rcases le_total a b with hab | hab
    · exact ⟨1, b - a, Or.inl rfl, by linarith, by ring⟩
    · exact ⟨-1, a - b, Or.inr rfl, by linarith, by ring⟩
  have hs2 : s * s = 1 := by rcases hs with rfl | rfl <;> norm_num
  have hsa : |s| = 1 := by rcases hs with rfl | rfl <;> simp
  have hin : ∀ t ∈ Set.Icc 0 c, a + s * t ∈ Set.Icc lo hi := by
    intro t ht
    obtain ⟨t1, t2⟩ := ht
    obtain ⟨a1, a2⟩ := ha
    rw [hbc] at hb
    obtain ⟨b1, b2⟩ := hb
    rcases hs with rfl | rfl <;> constructor <;> linarith
  have hlin : ∀ t, HasDerivAt (fun t => a + s * t) s t := fun t => by
    simpa using ((hasDerivAt_id t).const_mul s).const_add a
  have d0 : ∀ t ∈ Set.Icc 0 c, HasDerivAt (fun t => f (a + s * t)) (f' (a + s * t) * s) t :=
    fun t ht => (h.first _ (hin t ht)).comp t (hlin t)
  have d1 : ∀ t ∈ Set.Icc 0 c, HasDerivAt (fun t => f' (a + s * t)) (f'' (a + s * t) * s) t :=
    fun t ht => (h.second _ (hin t ht)).comp t (hlin t)
  have d2 : ∀ t ∈ Set.Icc 0 c, HasDerivAt (fun t => f'' (a + s * t)) (f''' (a + s * t) * s) t :=
    fun t ht => (h.third _ (hin t ht)).comp t (hlin t)
  have hba : b - a = s * c := by rw [hbc]; ring
  have habs : |b - a| = c := by rw [hba, abs_mul, hsa, abs_of_nonneg hc, one_mul]
  have hcc : c ∈ Set.Icc 0 c := ⟨hc, le_rfl⟩
  constructor
  · have g1 := growth (f := fun t => f' (a + s * t) - f' a) (B := fun t => M₂ * t) (B' := fun _ => M₂)
      (fun t ht => (d1 t ht).sub_const _) (by simp) (fun t => by simpa using (hasDerivAt_id t).const_mul M₂) (by simp)
      (fun t ht => by rw [abs_mul, hsa, mul_one]; exact h.bound2 _ (hin t ht))
    have g2 := growth (f := fun t => f (a + s * t) - f a - f' a * (s * t)) (c := c)
      (f' := fun t => f' (a + s * t) * s - f' a * s) (B := fun t => M₂ / 2 * t ^ 2) (B' := fun t => M₂ * t)
      (fun t ht => ((d0 t ht).sub_const _).sub (by simpa using ((hasDerivAt_id t).const_mul s).const_mul (f' a)))
      (by simp) (fun t => by
        refine ((hasDerivAt_pow 2 t).const_mul (M₂ / 2)).congr_deriv ?_
        push_cast; ring) (by simp)
      (fun t ht => by
        rw [← sub_mul, abs_mul, hsa, mul_one]; exact g1 t ht)
    have := g2 c hcc
    rw [← hbc, ← hba] at this
    rw [habs]
    exact this
  · have g1 := growth (f := fun t => f'' (a + s * t) - f'' a) (B := fun t => M₃ * t) (B' := fun _ => M₃)
      (fun t ht => (d2 t ht).sub_const _) (by simp) (fun t => by simpa using (hasDerivAt_id t).const_mul M₃) (by simp)
      (fun t ht => by rw [abs_mul, hsa, mul_one]; exact h.bound3 _ (hin t ht))
    have g2 := growth (f := fun t => f' (a + s * t) - f' a - f'' a * (s * t)) (c := c)
      (f' := fun t => f'' (a + s * t) * s - f'' a * s) (B := fun t => M₃ / 2 * t ^ 2) (B' := fun t => M₃ * t)
      (fun t ht => ((d1 t ht).sub_const _).sub (by simpa using ((hasDerivAt_id t).const_mul s).const_mul (f'' a)))
      (by simp) (fun t => by
        refine ((hasDerivAt_pow 2 t).const_mul (M₃ / 2)).congr_deriv ?_
        push_cast; ring) (by simp)
      (fun t ht => by
        rw [← sub_mul, abs_mul, hsa, mul_one]; exact g1 t ht)
    have g3 := growth (f := fun t => f (a + s * t) - f a - f' a * (s * t) - f'' a / 2 * (s * t) ^ 2) (c := c)
      (f' := fun t => f' (a + s * t) * s - f' a * s - f'' a * (s * t) * s)
      (B := fun t => M₃ / 6 * t ^ 3) (B' := fun t => M₃ / 2 * t ^ 2)
      (fun t ht => (((d0 t ht).sub_const _).sub
        (by simpa using ((hasDerivAt_id t).const_mul s).const_mul (f' a))).sub (by
          refine ((((hasDerivAt_id t).const_mul s).pow 2).const_mul (f'' a / 2)).congr_deriv ?_
          simp only [id]
          push_cast; ring))
      (by simp) (fun t => by
        refine ((hasDerivAt_pow 3 t).const_mul (M₃ / 6)).congr_deriv ?_
        push_cast; ring) (by simp)
      (fun t ht => by
        rw [← sub_mul, ← sub_mul, abs_mul, hsa, mul_one]; exact g2 t ht)
    have := g3 c hcc
    rw [← hbc, ← hba] at this
    rw [habs]
    exact this

theorem Monotonic.distinct {n : ℕ} {x : ℕ → ℝ} (h : Monotonic n x) : Distinct n x := by
  intro i hi j hj e
  rcases lt_trichotomy i j with hij | hij | hij
  · rcases h with h | h
    · exact absurd e (h i j hij hj).ne
    · exact absurd e (h i j hij hj).ne'
  · exact hij
  · rcases h with h | h
    · exact absurd e (h j i hij hi).ne'
    · exact absurd e (h j i hij hi).ne

/-- The difference of two neighbours. -/
theorem one_sided {f f' f'' f''' : ℝ → ℝ} {lo hi M₂ M₃ : ℝ} (h : SmoothOn f f' f'' f''' lo hi M₂ M₃)
    {a b : ℝ} (ha : a ∈ Set.Icc lo hi) (hb : b ∈ Set.Icc lo hi) (hne : b - a ≠ 0) :
    |(f b - f a) / (b - a) - f' a| ≤ M₂ / 2 * |b - a| := by
  have hp : 0 < |b - a| := abs_pos.2 hne
  have := (taylor_bounds h ha hb).1
  rw [show (f b - f a) / (b - a) - f' a = (f b - f a - f' a * (b - a)) / (b - a) by field_simp, abs_div,
    div_le_iff₀ hp]
  calc _ ≤ _ := this
    _ = _ := by ring

/-- The difference formula for uneven spacing. -/
theorem two_sided {f f' f'' f''' : ℝ → ℝ} {lo hi M₂ M₃ : ℝ} (h : SmoothOn f f' f'' f''' lo hi M₂ M₃)
    {a b c : ℝ} (ha : a ∈ Set.Icc lo hi) (hb : b ∈ Set.Icc lo hi) (hc : c ∈ Set.Icc lo hi)
    (hpos : 0 < (b - a) * (c - b)) :
    |-(c - b) * f a / ((b - a) * (b - a + (c - b))) + (c - b - (b - a)) * f b / ((b - a) * (c - b)) +
        (b - a) * f c / ((c - b) * (b - a + (c - b))) - f' b| ≤ M₃ / 6 * (|b - a| * |c - b|) := by
  obtain ⟨-, t1⟩ := taylor_bounds h hb ha
  obtain ⟨-, t2⟩ := taylor_bounds h hb hc
  have n1 : b - a ≠ 0 := left_ne_zero_of_mul hpos.ne'
  have n2 : c - b ≠ 0 := right_ne_zero_of_mul hpos.ne'
  have hs : |b - a + (c - b)| = |b - a| + |c - b| := by
    rcases pos_and_pos_or_neg_and_neg_of_mul_pos hpos with ⟨p1, p2⟩ | ⟨p1, p2⟩
    · rw [abs_of_pos p1, abs_of_pos p2, abs_of_pos (by linarith)]
    · rw [abs_of_neg p1, abs_of_neg p2, abs_of_neg (by linarith)]; ring
  have p1 : 0 < |b - a| := abs_pos.2 n1
  have p2 : 0 < |c - b| := abs_pos.2 n2
  have n3 : b - a + (c - b) ≠ 0 := by rw [← abs_pos, hs]; positivity
  rw [abs_sub_comm a b] at t1
  set E1 := f a - f b - f' b * (a - b) - f'' b / 2 * (a - b) ^ 2 with hE1
  set E2 := f c - f b - f' b * (c - b) - f'' b / 2 * (c - b) ^ 2 with hE2
  have key : -(c - b) * f a / ((b - a) * (b - a + (c - b))) + (c - b - (b - a)) * f b / ((b - a) * (c - b)) +
        (b - a) * f c / ((c - b) * (b - a + (c - b))) - f' b =
      (-((c - b) / (b - a) * E1) + (b - a) / (c - b) * E2) / (b - a + (c - b)) := by
    rw [hE1, hE2]
    field_simp
    ring
  rw [key, abs_div, hs, div_le_iff₀ (by positivity)]
  calc |-((c - b) / (b - a) * E1) + (b - a) / (c - b) * E2|
      ≤ |c - b| / |b - a| * |E1| + |b - a| / |c - b| * |E2| := by
        refine (abs_add_le _ _).trans ?_
        rw [abs_neg, abs_mul, abs_mul, abs_div, abs_div]
    _ ≤ |c - b| / |b - a| * (M₃ / 6 * |b - a| ^ 3) + |b - a| / |c - b| * (M₃ / 6 * |c - b| ^ 3) := by
        gcongr
    _ = _ := by field_simp

/-- Finite differences of samples of a smooth function. -/
theorem npGradient_error {n : ℕ} (hn : 2 ≤ n) {x : ℕ → ℝ} (hx : Monotonic n x) (u : ℕ → Option ℝ)
    {f f' f'' f''' : ℝ → ℝ} {lo hi M₂ M₃ : ℝ} (h : SmoothOn f f' f'' f''' lo hi M₂ M₃)
    (hin : ∀ k < n, x k ∈ Set.Icc lo hi) (hu : ∀ k < n, u k = some (f (x k))) {i : ℕ} (hi : i < n) :
    ∃ d, npGradient u ((List.range n).map x) n i = some d ∧ |d - f' (x i)| ≤ differenceError n x M₂ M₃ i := by
  have ne : ∀ {j k}, j < n → k < n → j ≠ k → x j - x k ≠ 0 :=
    fun hj hk h h0 => h (hx.distinct _ hj _ hk (sub_eq_zero.1 h0))
  unfold npGradient differenceError
  simp only
  by_cases h0 : i = 0
  · rw [if_pos h0, if_pos h0, coord_getD (by omega), coord_getD (by omega), hu 1 (by omega), hu 0 (by omega)]
    have h1 := ne (show 1 < n by omega) (show 0 < n by omega) (by omega)
    simp only [lift2, Option.bind_some, Option.map_some, odiv, if_neg h1, Option.some.injEq]
    refine ⟨_, rfl, ?_⟩
    rw [h0]
    exact one_sided h (hin 0 (by omega)) (hin 1 (by omega)) h1
  rw [if_neg h0, if_neg h0]
  by_cases h1 : i + 1 = n
  · rw [if_pos h1, if_pos h1, coord_getD (by omega), coord_getD (by omega), hu (n - 1) (by omega), hu (n - 2) (by omega)]
    have h2 := ne (show n - 1 < n by omega) (show n - 2 < n by omega) (by omega)
    have h3 := ne (show n - 2 < n by omega) (show n - 1 < n by omega) (by omega)
    simp only [lift2, Option.bind_some, Option.map_some, odiv, if_neg h2, Option.some.injEq]
    refine ⟨_, rfl, ?_⟩
    rw [show i = n - 1 by omega]
    have := one_sided h (hin (n - 1) (by omega)) (hin (n - 2) (by omega)) h3
    rw [abs_sub_comm (x (n - 2))] at this
    rw [← neg_div_neg_eq, neg_sub, neg_sub]
    exact this
  rw [if_neg h1, if_neg h1]
  have e1 := ne (show i < n by omega) (show i - 1 < n by omega) (by omega)
  have e2 := ne (show i + 1 < n by omega) (show i < n by omega) (by omega)
  have e3 := ne (show i + 1 < n by omega) (show i - 1 < n by omega) (by omega)
  have e10 := ne (show 1 < n by omega) (show 0 < n by omega) (by omega)
  have e4 : x i - x (i - 1) + (x (i + 1) - x i) ≠ 0 := by
    rw [show x i - x (i - 1) + (x (i + 1) - x i) = x (i + 1) - x (i - 1) by ring]; exact e3
  have hpos : 0 < (x i - x (i - 1)) * (x (i + 1) - x i) := by
    rcases hx with hx | hx
    · have := hx (i - 1) i (by omega) (by omega)
      have := hx i (i + 1) (by omega) (by omega)
      exact mul_pos (by linarith) (by linarith)
    · have := hx (i - 1) i (by omega) (by omega)
      have := hx i (i + 1) (by omega) (by omega)
      exact mul_pos_of_neg_of_neg (by linarith) (by linarith)
  have key := two_sided h (hin (i - 1) (by omega)) (hin i (by omega)) (hin (i + 1) (by omega)) hpos
  split_ifs with he
  · rw [coord_getD (by omega), coord_getD (by omega), hu (i + 1) (by omega), hu (i - 1) (by omega)]
    have c1 := he i (by omega)
    have c2 := he (i - 1) (by omega)
    rw [show i - 1 + 1 = i by omega] at c2
    rw [coord_getD (by omega), coord_getD (by omega), coord_getD (by omega), coord_getD (by omega)] at c1 c2
    have h3 : 2 * (x 1 - x 0) ≠ 0 := mul_ne_zero two_ne_zero e10
    simp only [lift2, Option.bind_some, Option.map_some, odiv, if_neg h3, Option.some.injEq]
    refine ⟨_, rfl, ?_⟩
    refine le_trans (le_of_eq ?_) key
    congr 2
    rw [c1, c2]
    field_simp
    ring
  · rw [coord_getD (by omega), coord_getD (by omega), coord_getD (by omega), hu (i + 1) (by omega),
      hu (i - 1) (by omega), hu i (by omega)]
    simp only [lift2, Option.bind_some, Option.map_some, odiv, if_neg (mul_ne_zero e1 e4),
      if_neg (mul_ne_zero e1 e2), if_neg (mul_ne_zero e2 e4), Option.some.injEq]
    exact ⟨_, rfl, key⟩

/-- C74, error: on a grid of samples of a function that is smooth along easting (northing), the finite difference
derivative differs from the partial derivative of the function at each node at most by the bound
`differenceError`, of second order in the spacing inside of the grid and of first order on its edges; for any
increasing or decreasing coordinates, evenly spaced or not. -/
theorem C74_error (fill : Fill) {A : Grid} {d0 d1 : String} {n m : ℕ} {y x : ℕ → ℝ}
    {f f' f'' f''' : ℝ → ℝ → ℝ} (pad : Bool) (kw : Option PadKwargs) (lo hi M₂ M₃ : ℝ) :
    (2 ≤ m → Monotonic m x → (∀ j < m, x j ∈ Set.Icc lo hi) →
      IsGridXY A d0 d1 n m y x (fun i j => f (y i) (x j)) →
      (∀ i < n, SmoothOn (f (y i)) (f' (y i)) (f'' (y i)) (f''' (y i)) lo hi M₂ M₃) →
      ∃ B w, (derivativeEasting fill A 1 (pad := pad) (pad_kwargs := kw)).2 = .ok B ∧
        IsGridXY B d0 d1 n m y x w ∧
        ∀ i < n, ∀ j < m, |w i j - f' (y i) (x j)| ≤ differenceError m x M₂ M₃ j) ∧
    (2 ≤ n → Monotonic n y → (∀ i < n, y i ∈ Set.Icc lo hi) →
      IsGridXY A d0 d1 n m y x (fun i j => f (x j) (y i)) →
      (∀ j < m, SmoothOn (f (x j)) (f' (x j)) (f'' (x j)) (f''' (x j)) lo hi M₂ M₃) →
      ∃ B w, (derivativeNorthing fill A 1 (pad := pad) (pad_kwargs := kw)).2 = .ok B ∧
        IsGridXY B d0 d1 n m y x w ∧
        ∀ i < n, ∀ j < m, |w i j - f' (x j) (y i)| ≤ differenceError n y M₂ M₃ i) := by
  constructor
  · intro hm hx hin hA hs
    simp only [derivativeEasting, if_true, getCoord_easting hA, Py.bind_ok]
    have key : ∀ i j, ∃ d, i < n → j < m →
        (gradGrid A 1 ⟨[d1], (List.range m).map x⟩).data [i, j] = some d ∧
        |d - f' (y i) (x j)| ≤ differenceError m x M₂ M₃ j := by
      intro i j
      by_cases hi : i < n
      · by_cases hj : j < m
        · obtain ⟨d, h1, h2⟩ := npGradient_error hm hx (fun k => A.data [i, k]) (hs i hi) hin
            (fun k hk => hA.data i hi k hk) hj
          refine ⟨d, fun _ _ => ⟨?_, h2⟩⟩
          simp only [gradGrid, hA.sizes, List.getD_cons_succ, List.getD_cons_zero, List.set_cons_succ,
            List.set_cons_zero]
          exact h1
        · exact ⟨0, fun _ h => absurd h hj⟩
      · exact ⟨0, fun h => absurd h hi⟩
    choose w hw using key
    refine ⟨gradGrid A 1 _, w, by
      simp only [differentiateTimes]
      rw [differentiate_eq _ _ _ (by rw [hA.sizes]; exact hm)]
      rfl, hA.withData rfl rfl rfl fun i hi j hj => (hw i j hi hj).1, fun i hi j hj => (hw i j hi hj).2⟩
  · intro hn hy hin hA hs
    simp only [derivativeNorthing, if_true, getCoord_northing hA, Py.bind_ok]
    have key : ∀ i j, ∃ d, i < n → j < m →
        (gradGrid A 0 ⟨[d0], (List.range n).map y⟩).data [i, j] = some d ∧
        |d - f' (x j) (y i)| ≤ differenceError n y M₂ M₃ i := by
      intro i j
      by_cases hi : i < n
      · by_cases hj : j < m
        · obtain ⟨d, h1, h2⟩ := npGradient_error hn hy (fun k => A.data [k, j]) (hs j hj) hin
            (fun k hk => hA.data k hk j hj) hi
          refine ⟨d, fun _ _ => ⟨?_, h2⟩⟩
          simp only [gradGrid, hA.sizes, List.getD_cons_zero, List.set_cons_zero]
          exact h1
        · exact ⟨0, fun _ h => absurd h hj⟩
      · exact ⟨0, fun h => absurd h hi⟩
    choose w hw using key
    refine ⟨gradGrid A 0 _, w, by
      simp only [differentiateTimes]
      rw [differentiate_eq _ _ _ (by rw [hA.sizes]; exact hn)]
      rfl, hA.withData rfl rfl rfl fun i hi j hj => (hw i j hi hj).1, fun i hi j hj => (hw i j hi hj).2⟩

/-- C74, error: samples of a cubic polynomial at uneven coordinates -/
example (c : ℝ) : SmoothOn (fun t => t ^ 3 + c * t) (fun t => 3 * t ^ 2 + c) (fun t => 6 * t) (fun _ => 6) 0 100 600 6 :=
  ⟨fun t _ => by
      refine ((hasDerivAt_pow 3 t).add ((hasDerivAt_id t).const_mul c)).congr_deriv ?_
      push_cast; ring,
    fun t _ => by
      refine (((hasDerivAt_pow 2 t).const_mul 3).add_const c).congr_deriv ?_
      push_cast; ring,
    fun t _ => by simpa using (hasDerivAt_id t).const_mul (6 : ℝ),
    fun t ht => by rw [abs_of_nonneg (by linarith [ht.1])]; linarith [ht.2],
    fun t _ => by norm_num⟩

example (n : ℕ) : Monotonic n fun k => (k : ℝ) ^ 2 := by
  left
  intro i j hij _
  have : (i : ℝ) < j := by exact_mod_cast hij
  exact pow_lt_pow_left₀ this (by positivity) (by norm_num)

end Verif.Filters
