import Verif.Ellipsoids.LemmasI
import Verif.Ellipsoids.SpecB

/-! Ellipsoids with almost equal semiaxes compared with the ones by which the code replaces them. -/

namespace Verif.Ellipsoids
open MeasureTheory Verif.Forward Verif.Distance

/-! ### Integrals of ellipsoids with similar semiaxes -/

theorem scaled_sq {m x y u : ℝ} (hm : 0 < m) (hm1 : m ≤ 1) (hx : 0 < x) (h : m * x ≤ y)
    (hu : 0 ≤ u) : m ^ 2 * (x ^ 2 + u) ≤ y ^ 2 + u := by
  have h1 : (m * x) ^ 2 ≤ y ^ 2 := pow_le_pow_left₀ (mul_pos hm hx).le h 2
  have h2 : m ^ 2 * u ≤ 1 * u := mul_le_mul_of_nonneg_right (pow_le_one₀ hm.le hm1) hu
  rw [mul_pow] at h1
  linarith

theorem root_scale {s t : V3} (hs : Positive s) {m u : ℝ} (hm : 0 < m) (hm1 : m ≤ 1)
    (h : ∀ i, m * s i ≤ t i) (hu : 0 ≤ u) :
    m ^ 3 * rootProduct (s 0) (s 1) (s 2) u ≤ rootProduct (t 0) (t 1) (t 2) u := by
  have q := fun i => scaled_sq hm hm1 (hs i) (h i) hu
  have p : ∀ i, 0 ≤ m ^ 2 * (s i ^ 2 + u) := fun i => by positivity
  unfold rootProduct
  rw [← Real.sqrt_sq (pow_pos hm 3).le, ← Real.sqrt_mul (by positivity)]
  refine Real.sqrt_le_sqrt ?_
  calc (m ^ 3) ^ 2 * ((s 0 ^ 2 + u) * (s 1 ^ 2 + u) * (s 2 ^ 2 + u))
      = (m ^ 2 * (s 0 ^ 2 + u)) * (m ^ 2 * (s 1 ^ 2 + u)) * (m ^ 2 * (s 2 ^ 2 + u)) := by ring
    _ ≤ _ := mul_le_mul (mul_le_mul (q 0) (q 1) (p 1) ((p 0).trans (q 0))) (q 2) (p 2)
        (mul_nonneg ((p 0).trans (q 0)) ((p 1).trans (q 1)))

theorem density_scale {s t : V3} (hs : Positive s) {m u : ℝ} (hm : 0 < m)
    (hm1 : m ≤ 1) (h : ∀ i, m * s i ≤ t i) (hu : 0 ≤ u) (i : Fin 3) :
    m ^ 5 * density (t 0) (t 1) (t 2) (t i) u ≤ density (s 0) (s 1) (s 2) (s i) u := by
  have r := root_scale hs hm hm1 h hu
  have q := scaled_sq hm hm1 (hs i) (h i) hu
  have rs := (hs.pos hu).root
  have si : 0 < s i ^ 2 + u := by have := hs i; positivity
  have key : m ^ 5 * ((s i ^ 2 + u) * rootProduct (s 0) (s 1) (s 2) u) ≤
      (t i ^ 2 + u) * rootProduct (t 0) (t 1) (t 2) u := by
    calc _ = (m ^ 2 * (s i ^ 2 + u)) * (m ^ 3 * rootProduct (s 0) (s 1) (s 2) u) := by ring
      _ ≤ _ := mul_le_mul q r (by positivity) (le_trans (by positivity) q)
  unfold density
  have hpos : 0 < m ^ 5 * ((s i ^ 2 + u) * rootProduct (s 0) (s 1) (s 2) u) := by positivity
  rw [mul_one_div, div_le_div_iff₀ (hpos.trans_le key) (by positivity), one_mul]
  exact key

theorem integrable_integralsOf {s : V3} (hs : Positive s) {l : ℝ} (hl : 0 ≤ l) (i : Fin 3) :
    IntegrableOn (density (s 0) (s 1) (s 2) (s i)) (Set.Ioi l) := by
  refine integrable_density (hs.pos hl) ?_
  fin_cases i
  · exact Or.inl rfl
  · exact Or.inr (Or.inl rfl)
  · exact Or.inr (Or.inr rfl)

theorem integralsOf_scale {s t : V3} (hs : Positive s) (ht : Positive t) {m l : ℝ} (hm : 0 < m)
    (hm1 : m ≤ 1) (h : ∀ i, m * s i ≤ t i) (hl : 0 ≤ l) (i : Fin 3) :
    m ^ 5 * integralsOf t l i ≤ integralsOf s l i := by
  change m ^ 5 * ∫ u in Set.Ioi l, density (t 0) (t 1) (t 2) (t i) u ≤
    ∫ u in Set.Ioi l, density (s 0) (s 1) (s 2) (s i) u
  rw [← integral_const_mul]
  exact setIntegral_mono_on ((integrable_integralsOf ht hl i).const_mul _)
    (integrable_integralsOf hs hl i) measurableSet_Ioi fun u hu =>
      density_scale hs hm hm1 h (hl.trans (le_of_lt hu)) i

/-- The integrals decrease. -/
theorem integralsOf_anti {s : V3} (hs : Positive s) {l : ℝ} (hl : 0 ≤ l) (i : Fin 3) :
    integralsOf s l i ≤ integralsOf s 0 i := by
  refine setIntegral_mono_set (integrable_integralsOf hs le_rfl i) ?_
    (Set.Ioi_subset_Ioi hl).eventuallyLE
  rw [Filter.EventuallyLE, ae_restrict_iff' measurableSet_Ioi]
  refine ae_of_all _ fun u hu => ?_
  have : 0 < s i ^ 2 + u := by have := hs i; have : (0 : ℝ) < u := hu; positivity
  exact density_nonneg this.le

/-! ### Almost equal semiaxes -/

theorem close_le {x y : ℝ} (hxy : y ≤ x) (h : Close x y) : (1 - 1e-5) * x ≤ y := by
  unfold Close at h
  rw [max_eq_left hxy, abs_of_nonneg (by linarith)] at h
  linarith

/-- A factor that is almost one. -/
def Almost (k : ℝ) : Prop := 1 - 1e-4 ≤ k ∧ k ≤ 1 + 1e-4

theorem almost_of_bounds {x y lo : ℝ} (hy : 0 < y) (hlo : 0 < lo) (h1 : lo * y ≤ x) (h2 : lo * x ≤ y)
    (h : 1 / (1 + 1e-4) ≤ lo) : Almost (x / y) := by
  constructor
  · rw [le_div_iff₀ hy]
    refine le_trans ?_ h1
    refine mul_le_mul_of_nonneg_right (le_trans ?_ h) hy.le
    norm_num
  · rw [div_le_iff₀ hy]
    have h3 : 1 ≤ (1 + 1e-4) * lo := by
      rw [div_le_iff₀ (by norm_num)] at h; linarith
    have hx : 0 < x := (mul_pos hlo hy).trans_le h1
    nlinarith

theorem effective_positive {a b c : ℝ} (hc : 0 < c) (hbc : c ≤ b) (hab : b ≤ a) :
    Positive (effective a b c) := by
  obtain ⟨h0, _, h1, h2⟩ := effective_sorted hc hbc hab
  intro i; fin_cases i
  · exact (h0.trans_le h1).trans_le h2
  · exact h0.trans_le h1
  · exact h0

/-- The semiaxes that the code uses are those of the body, within the tolerance. -/
theorem effective_close {a b c : ℝ} (hc : 0 < c) (hbc : c ≤ b) (hab : b ≤ a) :
    (∀ i, (1 - 1e-5) * effective a b c i ≤ ![a, b, c] i) ∧
      ∀ i, (1 - 1e-5) * ![a, b, c] i ≤ effective a b c i := by
  classical
  have hb : 0 < b := hc.trans_le hbc
  have ha : 0 < a := hb.trans_le hab
  have self : ∀ x : ℝ, 0 < x → (1 - 1e-5) * x ≤ x := fun x hx => by nlinarith
  unfold effective
  split_ifs with h1 h2
  · have := close_le hbc h1
    constructor <;> intro i <;> fin_cases i
    · exact self a ha
    · exact self b hb
    · exact this
    · exact self a ha
    · exact self b hb
    · exact (self c hc).trans hbc
  · have := close_le hab h2
    constructor <;> intro i <;> fin_cases i
    · exact (self b hb).trans hab
    · exact self b hb
    · exact self c hc
    · exact this
    · exact self b hb
    · exact self c hc
  · have := positive_of_sorted hc hbc hab
    exact ⟨fun i => self _ (this i), fun i => self _ (this i)⟩

theorem effective_integrals {a b c l : ℝ} (hc : 0 < c) (hbc : c ≤ b) (hab : b ≤ a) (hl : 0 ≤ l)
    (i : Fin 3) : (1 - 1e-5) ^ 5 * integralsOf ![a, b, c] l i ≤ integralsOf (effective a b c) l i ∧
      (1 - 1e-5) ^ 5 * integralsOf (effective a b c) l i ≤ integralsOf ![a, b, c] l i := by
  obtain ⟨h1, h2⟩ := effective_close hc hbc hab
  have p := positive_of_sorted hc hbc hab
  have q := effective_positive hc hbc hab
  exact ⟨integralsOf_scale q p (by norm_num) (by norm_num) h1 hl i,
    integralsOf_scale p q (by norm_num) (by norm_num) h2 hl i⟩

/-- Almost a sphere. -/
theorem sphere_close {a b c : ℝ} (hc : 0 < c) (hbc : c ≤ b) (hab : b ≤ a)
    (hs : Close a b ∧ Close b c) :
    (1 - 1e-5) ^ 2 * a ≤ c ∧ (1 - 1e-5) ^ 3 * a ^ 3 ≤ a * b * c ∧ a * b * c ≤ a ^ 3 := by
  have hb : 0 < b := hc.trans_le hbc
  have ha : 0 < a := hb.trans_le hab
  have h1 := close_le hab hs.1
  have h2 := close_le hbc hs.2
  have h3 : (1 - 1e-5) ^ 2 * a ≤ c := by
    calc (1 - 1e-5) ^ 2 * a = (1 - 1e-5) * ((1 - 1e-5) * a) := by ring
      _ ≤ (1 - 1e-5) * b := mul_le_mul_of_nonneg_left h1 (by norm_num)
      _ ≤ c := h2
  refine ⟨h3, ?_, ?_⟩
  · calc (1 - 1e-5) ^ 3 * a ^ 3 = a * ((1 - 1e-5) * a) * ((1 - 1e-5) ^ 2 * a) := by ring
      _ ≤ a * b * c := mul_le_mul (mul_le_mul_of_nonneg_left h1 ha.le) h3 (by positivity) (by positivity)
  · have : a * b * c ≤ a * a * a := mul_le_mul (mul_le_mul_of_nonneg_left hab ha.le) (hbc.trans hab)
      hc.le (by positivity)
    linarith [show a * a * a = a ^ 3 by ring]

/-- The distance that stands for the radius: between the smallest and the largest semiaxis of the
confocal ellipsoid of the point. -/
theorem sphere_radius {a b c : ℝ} (hc : 0 < c) (hbc : c ≤ b) (hab : b ≤ a) (v : V3) : ∃ d, 0 < d ∧
    (if quadric a b c v < 1 then a ^ 3 else √(v 0 ^ 2 + v 1 ^ 2 + v 2 ^ 2) ^ 3) = d ^ 3 ∧
    (1 ≤ quadric a b c v → d = √(v 0 ^ 2 + v 1 ^ 2 + v 2 ^ 2)) ∧
    √(c ^ 2 + confocalParameter ![a, b, c] v) ≤ d ∧ d ≤ √(a ^ 2 + confocalParameter ![a, b, c] v) := by
  have hb : 0 < b := hc.trans_le hbc
  have ha : 0 < a := hb.trans_le hab
  by_cases h : quadric a b c v < 1
  · have hl : confocalParameter ![a, b, c] v = 0 := confocalParameter_inside (by
      rw [← quadric_eq]; exact h.le)
    refine ⟨a, ha, if_pos h, fun h' => absurd h (not_lt.2 h'), ?_, ?_⟩
    · rw [hl, add_zero, Real.sqrt_sq hc.le]; exact hbc.trans hab
    · rw [hl, add_zero, Real.sqrt_sq ha.le]
  · have hv := not_lt.1 h
    have hr := norm_pos_of_outside hv
    obtain ⟨h1, h2⟩ := confocalParameter_bounds (s := ![a, b, c]) (v := v)
      (positive_of_sorted hc hbc hab) hc
      (by intro i; fin_cases i; exacts [hbc.trans hab, hbc, le_rfl])
      (by intro i; fin_cases i; exacts [le_rfl, hab, hbc.trans hab]) (by rw [← quadric_eq]; exact hv)
    rw [Fin.sum_univ_three] at h1 h2
    exact ⟨_, Real.sqrt_pos.2 hr, if_neg h, fun _ => rfl, Real.sqrt_le_sqrt h1, Real.sqrt_le_sqrt h2⟩

theorem sphere_integrals {a b c d l : ℝ} (hc : 0 < c) (hbc : c ≤ b) (hab : b ≤ a)
    (hs : Close a b ∧ Close b c) (hl : 0 ≤ l) (hd : 0 < d) (h1 : √(c ^ 2 + l) ≤ d)
    (h2 : d ≤ √(a ^ 2 + l)) (i : Fin 3) :
    (1 - 1e-5) ^ 6 * integralsOf ![a, b, c] l i ≤ 2 / (3 * d ^ 3) ∧
      (1 - 1e-5) ^ 6 * (2 / (3 * d ^ 3)) ≤ integralsOf ![a, b, c] l i := by
  have hb : 0 < b := hc.trans_le hbc
  have ha : 0 < a := hb.trans_le hab
  obtain ⟨b1, b2⟩ := integralsOf_bounds (s := ![a, b, c]) (positive_of_sorted hc hbc hab) hc
    (by intro i; fin_cases i; exacts [hbc.trans hab, hbc, le_rfl])
    (K := a) (by intro i; fin_cases i; exacts [le_rfl, hab, hbc.trans hab]) hl i
  have hq : 0 < √(c ^ 2 + l) := Real.sqrt_pos.2 (by positivity)
  have hQ : 0 < √(a ^ 2 + l) := Real.sqrt_pos.2 (by positivity)
  have hm : (1 - 1e-5) ^ 2 * √(a ^ 2 + l) ≤ √(c ^ 2 + l) := by
    have := scaled_sq (m := (1 - 1e-5) ^ 2) (by norm_num) (by norm_num) ha
      (sphere_close hc hbc hab hs).1 hl
    rw [← Real.sqrt_sq (show (0 : ℝ) ≤ (1 - 1e-5) ^ 2 by positivity), ← Real.sqrt_mul (by positivity)]
    exact Real.sqrt_le_sqrt this
  set q := √(c ^ 2 + l)
  set Q := √(a ^ 2 + l)
  have hqQ : (1 - 1e-5) ^ 6 * (2 / (3 * q ^ 3)) ≤ 2 / (3 * Q ^ 3) := by
    have := pow_le_pow_left₀ (by positivity) hm 3
    rw [mul_div_assoc', div_le_div_iff₀ (by positivity) (by positivity)]
    have e : ((1 - 1e-5) ^ 2 * Q) ^ 3 = (1 - 1e-5) ^ 6 * Q ^ 3 := by ring
    rw [e] at this
    linarith
  have hdq : 2 / (3 * d ^ 3) ≤ 2 / (3 * q ^ 3) := by
    have := pow_le_pow_left₀ hq.le h1 3
    exact div_le_div_of_nonneg_left (by norm_num) (by positivity) (by linarith)
  have hQd : 2 / (3 * Q ^ 3) ≤ 2 / (3 * d ^ 3) := by
    have := pow_le_pow_left₀ hd.le h2 3
    exact div_le_div_of_nonneg_left (by norm_num) (by positivity) (by linarith)
  have m0 : (0 : ℝ) ≤ (1 - 1e-5) ^ 6 := by positivity
  exact ⟨((mul_le_mul_of_nonneg_left b2 m0).trans hqQ).trans hQd,
    ((mul_le_mul_of_nonneg_left hdq m0).trans hqQ).trans b1⟩

/-! ### Gravity -/

/-- The attraction of the code is that of the body, up to a factor that is almost one for each
component along the axes of the body. -/
theorem computeGravity_almost {a b c : ℝ} (hc : 0 < c) (hbc : c ≤ b) (hab : b ≤ a) (density : ℝ)
    (v : V3) : ∃ k : V3, (∀ i, Almost (k i)) ∧ computeGravityEllipsoid v a b c density =
      .ok fun i => k i * dirichletAttraction ![a, b, c] density v i := by
  have hb : 0 < b := hc.trans_le hbc
  have ha : 0 < a := hb.trans_le hab
  have hl := confocalParameter_nonneg ![a, b, c] v
  have hp := positive_of_sorted hc hbc hab
  have hI := integralsOf_pos hp hl
  by_cases hs : Close a b ∧ Close b c
  · obtain ⟨d, hd, hd3, _, h1, h2⟩ := sphere_radius hc hbc hab v
    obtain ⟨_, v1, v2⟩ := sphere_close hc hbc hab hs
    refine ⟨fun i => a ^ 3 * (2 / (3 * d ^ 3)) /
      (a * b * c * integralsOf ![a, b, c] (confocalParameter ![a, b, c] v) i), fun i => ?_, ?_⟩
    · obtain ⟨k1, k2⟩ := sphere_integrals hc hbc hab hs hl hd h1 h2 i
      have hIi := hI i
      set I := integralsOf ![a, b, c] (confocalParameter ![a, b, c] v) i
      have hJ : 0 < 2 / (3 * d ^ 3) := by positivity
      set J := 2 / (3 * d ^ 3)
      have hV : 0 < a * b * c := by positivity
      refine almost_of_bounds (lo := (1 - 1e-5) ^ 9) (mul_pos hV hIi) (by norm_num) ?_ ?_
        (by norm_num)
      · calc (1 - 1e-5) ^ 9 * (a * b * c * I) ≤ 1 * (a * b * c) * ((1 - 1e-5) ^ 6 * I) := by
              have : (1 - 1e-5 : ℝ) ^ 9 ≤ 1 * (1 - 1e-5) ^ 6 := by norm_num
              nlinarith [mul_le_mul_of_nonneg_right this (mul_pos hV hIi).le]
          _ ≤ a ^ 3 * J := mul_le_mul (by linarith) k1 (by positivity) (by positivity)
      · calc (1 - 1e-5) ^ 9 * (a ^ 3 * J) = ((1 - 1e-5) ^ 3 * a ^ 3) * ((1 - 1e-5) ^ 6 * J) := by ring
          _ ≤ a * b * c * I := mul_le_mul v1 k2 (by positivity) (by positivity)
    · rw [computeGravity_sphere hc hbc hab hs, hd3]
      refine congrArg Except.ok (funext fun i => ?_)
      rw [dirichlet_apply]
      have hIi := hI i
      simp only [attractionFactor, Matrix.cons_val]
      field_simp
      ring
  · refine ⟨fun i => integralsOf (effective a b c) (confocalParameter ![a, b, c] v) i /
      integralsOf ![a, b, c] (confocalParameter ![a, b, c] v) i, fun i => ?_, ?_⟩
    · obtain ⟨k1, k2⟩ := effective_integrals hc hbc hab hl i
      exact almost_of_bounds (hI i) (by norm_num) k1 k2 (by norm_num)
    · rw [computeGravity_spec hc hbc hab hs]
      refine congrArg Except.ok (funext fun i => ?_)
      rw [dirichlet_apply]
      have := (hI i).ne'
      field_simp

/-- Squared length. -/
def sq3 (v : V3) : ℝ := ∑ i, v i ^ 2

theorem sq3_nonneg (v : V3) : 0 ≤ sq3 v := Finset.sum_nonneg fun _ _ => sq_nonneg _

theorem sq3_eq (v : V3) : sq3 v = dotProduct v v := by
  simp only [sq3, dotProduct, sq]

theorem sq3_rotate {R : M3} (hR : R.transpose * R = 1) (v : V3) : sq3 (R.mulVec v) = sq3 v := by
  rw [sq3_eq, sq3_eq, Matrix.dotProduct_mulVec, ← Matrix.mulVec_transpose, Matrix.mulVec_mulVec, hR,
    Matrix.one_mulVec]

theorem sq3_almost {k w : V3} (hk : ∀ i, Almost (k i)) :
    sq3 ((fun i => k i * w i) - w) ≤ 1e-4 ^ 2 * sq3 w := by
  unfold sq3
  rw [Finset.mul_sum]
  refine Finset.sum_le_sum fun i _ => ?_
  have h := hk i
  have : (k i - 1) ^ 2 ≤ 1e-4 ^ 2 := by
    rw [sq_le_sq, abs_of_pos (show (0 : ℝ) < 1e-4 by norm_num), abs_le]
    exact ⟨by linarith [h.1], by linarith [h.2]⟩
  calc _ = (k i - 1) ^ 2 * w i ^ 2 := by simp only [Pi.sub_apply]; ring
    _ ≤ _ := mul_le_mul_of_nonneg_right this (sq_nonneg _)

/-- In space. -/
theorem gravityPoint_almost {e : Ellipsoid} (h : e.Valid) {P : M3}
    (hP : getSemiaxesRotationMatrix e = .ok P) {density : ℝ} {p g : V3}
    (hg : gravityPoint e P density p = .ok g) :
    sq3 (g - e.attraction density p) ≤ 1e-4 ^ 2 * sq3 (e.attraction density p) := by
  obtain ⟨P', σ, a, b, c, F⟩ := sortedFrame_exists h
  obtain rfl : P = P' := by
    have := F.matrix
    rw [hP] at this
    exact Except.ok.inj this
  obtain ⟨q1, q2⟩ := toSorted_proper (e := e) F.proper
  obtain ⟨k, hk, hcode⟩ := computeGravity_almost F.hc F.hbc F.hab density
    ((toSorted e P).mulVec (p - e.center))
  have h1 : e.attraction density p = (toSorted e P).transpose.mulVec
      (dirichletAttraction ![a, b, c] density ((toSorted e P).mulVec (p - e.center))) := by
    rw [toSorted_point]
    unfold toSorted
    rw [Matrix.transpose_mul, Matrix.transpose_transpose, Matrix.transpose_transpose,
      ← Matrix.mulVec_mulVec, F.dirichlet]
    rfl
  have h2 : g = (toSorted e P).transpose.mulVec (fun i => k i *
      dirichletAttraction ![a, b, c] density ((toSorted e P).mulVec (p - e.center)) i) := by
    unfold gravityPoint at hg
    simp only [F.sorted] at hg
    change (do
      let g ← computeGravityEllipsoid ((toSorted e P).mulVec (p - e.center)) a b c density
      return (toSorted e P).transpose.mulVec g) = _ at hg
    rw [hcode] at hg
    exact (Except.ok.inj hg).symm
  rw [h1, h2, ← Matrix.mulVec_sub, sq3_rotate (by rw [Matrix.transpose_transpose]; exact q1),
    sq3_rotate (by rw [Matrix.transpose_transpose]; exact q1)]
  exact sq3_almost hk

/-! ### Lengths -/

theorem magnitude_eq (v : V3) : magnitude v = ‖WithLp.toLp 2 v‖ := by
  rw [EuclideanSpace.norm_eq]
  simp only [magnitude, Real.norm_eq_abs, sq_abs]

theorem magnitude_nonneg (v : V3) : 0 ≤ magnitude v := Real.sqrt_nonneg _

theorem magnitude_sq (v : V3) : magnitude v ^ 2 = sq3 v := Real.sq_sqrt (sq3_nonneg v)

theorem magnitude_zero : magnitude 0 = 0 := by simp [magnitude]

theorem magnitude_add (v w : V3) : magnitude (v + w) ≤ magnitude v + magnitude w := by
  simp only [magnitude_eq, WithLp.toLp_add]
  exact norm_add_le _ _

theorem magnitude_smul (k : ℝ) (v : V3) : magnitude (k • v) = |k| * magnitude v := by
  simp only [magnitude_eq, WithLp.toLp_smul, norm_smul, Real.norm_eq_abs]

theorem magnitude_le {v : V3} {x : ℝ} (hx : 0 ≤ x) (h : sq3 v ≤ x ^ 2) : magnitude v ≤ x :=
  (Real.sqrt_le_sqrt h).trans (by rw [Real.sqrt_sq hx])

theorem magnitude_rotate {R : M3} (hR : R.transpose * R = 1) (v : V3) :
    magnitude (R.mulVec v) = magnitude v := congrArg Real.sqrt (sq3_rotate hR v)

theorem magnitude_mono {v w : V3} {x : ℝ} (hx : 0 ≤ x) (h : ∀ i, |v i| ≤ x * |w i|) :
    magnitude v ≤ x * magnitude w := by
  refine magnitude_le (mul_nonneg hx (magnitude_nonneg w)) ?_
  rw [mul_pow, magnitude_sq, sq3, sq3, Finset.mul_sum]
  refine Finset.sum_le_sum fun i _ => ?_
  have := pow_le_pow_left₀ (abs_nonneg _) (h i) 2
  rwa [mul_pow, sq_abs, sq_abs] at this

theorem sum_abs_le (u w : V3) : ∑ i, |u i| * |w i| ≤ magnitude u * magnitude w := by
  have h := Finset.sum_mul_sq_le_sq_mul_sq Finset.univ (fun i => |u i|) (fun i => |w i|)
  simp only [sq_abs] at h
  have h0 : 0 ≤ ∑ i, |u i| * |w i| := Finset.sum_nonneg fun _ _ => by positivity
  change _ ≤ sq3 u * sq3 w at h
  rw [← magnitude_sq u, ← magnitude_sq w] at h
  exact (abs_le_of_sq_le_sq' (by rw [mul_pow]; exact h)
    (mul_nonneg (magnitude_nonneg u) (magnitude_nonneg w))).2

/-- A matrix whose elements are at most those of a multiple of `u uᵀ`. -/
theorem magnitude_rank_one {E : M3} {u : V3} {x : ℝ} (hx : 0 ≤ x)
    (h : ∀ i j, |E i j| ≤ x * (|u i| * |u j|)) (w : V3) :
    magnitude (E.mulVec w) ≤ x * magnitude u ^ 2 * magnitude w := by
  have h1 : ∀ i, |E.mulVec w i| ≤ (x * (magnitude u * magnitude w)) * |u i| := by
    intro i
    calc |E.mulVec w i| ≤ ∑ j, |E i j * w j| :=
          Finset.abs_sum_le_sum_abs (fun j => E i j * w j) Finset.univ
      _ ≤ ∑ j, x * |u i| * (|u j| * |w j|) := by
        refine Finset.sum_le_sum fun j _ => ?_
        rw [abs_mul]
        calc |E i j| * |w j| ≤ x * (|u i| * |u j|) * |w j| :=
              mul_le_mul_of_nonneg_right (h i j) (abs_nonneg _)
          _ = _ := by ring
      _ = x * |u i| * ∑ j, |u j| * |w j| := by rw [Finset.mul_sum]
      _ ≤ x * |u i| * (magnitude u * magnitude w) :=
        mul_le_mul_of_nonneg_left (sum_abs_le u w) (by positivity)
      _ = _ := by ring
  have := magnitude_mono (mul_nonneg hx (mul_nonneg (magnitude_nonneg u) (magnitude_nonneg w))) h1
  calc _ ≤ _ := this
    _ = _ := by ring

theorem almost_sub {k x : ℝ} (hk : Almost k) : |k * x - x| ≤ 1e-4 * |x| := by
  rw [show k * x - x = (k - 1) * x by ring, abs_mul]
  refine mul_le_mul_of_nonneg_right ?_ (abs_nonneg _)
  rw [abs_le]
  exact ⟨by linarith [hk.1], by linarith [hk.2]⟩

/-! ### Demagnetization tensors -/

/-- The elements of the tensor inside of the body. -/
noncomputable def insideFactor (a b c : ℝ) (i : Fin 3) : ℝ := a * b * c / 2 * integralsOf ![a, b, c] 0 i

theorem insideFactor_pos {a b c : ℝ} (hc : 0 < c) (hbc : c ≤ b) (hab : b ≤ a) (i : Fin 3) :
    0 < insideFactor a b c i := by
  have hb : 0 < b := hc.trans_le hbc
  have ha : 0 < a := hb.trans_le hab
  have := integralsOf_pos (positive_of_sorted hc hbc hab) le_rfl i
  unfold insideFactor
  positivity

theorem insideFactor_sum {a b c : ℝ} (hc : 0 < c) (hbc : c ≤ b) (hab : b ≤ a) :
    ∑ i, insideFactor a b c i = 1 := by
  have := demagInside_trace (positive_of_sorted hc hbc hab)
  rw [demagInside_eq, Matrix.trace_diagonal] at this
  exact this

theorem insideFactor_le {a b c : ℝ} (hc : 0 < c) (hbc : c ≤ b) (hab : b ≤ a) (i : Fin 3) :
    insideFactor a b c i ≤ 1 := by
  rw [← insideFactor_sum hc hbc hab]
  exact Finset.single_le_sum (f := insideFactor a b c)
    (fun j _ => (insideFactor_pos hc hbc hab j).le) (Finset.mem_univ i)

theorem demagInside_factor (a b c : ℝ) :
    demagInside ![a, b, c] = Matrix.diagonal (insideFactor a b c) := rfl

/-- Inside. -/
theorem demagInternal_almost {a b c : ℝ} (hc : 0 < c) (hbc : c ≤ b) (hab : b ≤ a) : ∃ k : V3,
    (∀ i, Almost (k i)) ∧ (∀ i, Almost (1 / k i)) ∧ getDemagnetizationTensorInternal a b c =
      .ok (Matrix.diagonal fun i => k i * insideFactor a b c i) := by
  have hb : 0 < b := hc.trans_le hbc
  have ha : 0 < a := hb.trans_le hab
  have hp := positive_of_sorted hc hbc hab
  have hI := integralsOf_pos hp le_rfl
  suffices h : ∃ n : V3, getDemagnetizationTensorInternal a b c = .ok (Matrix.diagonal n) ∧
      ∀ i, 0 < n i ∧ (1 - 1e-5) ^ 9 * n i ≤ insideFactor a b c i ∧
        (1 - 1e-5) ^ 9 * insideFactor a b c i ≤ n i by
    obtain ⟨n, hn, hb⟩ := h
    refine ⟨fun i => n i / insideFactor a b c i, fun i => ?_, fun i => ?_, ?_⟩
    · exact almost_of_bounds (insideFactor_pos hc hbc hab i) (by norm_num) (hb i).2.2 (hb i).2.1
        (by norm_num)
    · rw [one_div_div]
      exact almost_of_bounds (hb i).1 (by norm_num) (hb i).2.1 (hb i).2.2 (by norm_num)
    · rw [hn]
      congr 2
      ext i
      have := (insideFactor_pos hc hbc hab i).ne'
      field_simp
  by_cases hs : Close a b ∧ Close b c
  · obtain ⟨_, v1, v2⟩ := sphere_close hc hbc hab hs
    refine ⟨_, demagInternal_sphere hc hbc hab hs, fun i => ⟨by norm_num, ?_⟩⟩
    obtain ⟨k1, k2⟩ := sphere_integrals (d := a) hc hbc hab hs le_rfl ha
      (by rw [add_zero, Real.sqrt_sq hc.le]; exact hbc.trans hab)
      (by rw [add_zero, Real.sqrt_sq ha.le]) i
    have hIi := hI i
    unfold insideFactor
    set I := integralsOf ![a, b, c] 0 i
    have e : (1 / 3 : ℝ) = a ^ 3 / 2 * (2 / (3 * a ^ 3)) := by field_simp
    have hJ : 0 < 2 / (3 * a ^ 3) := by positivity
    rw [e]
    set J := 2 / (3 * a ^ 3)
    constructor
    · calc (1 - 1e-5) ^ 9 * (a ^ 3 / 2 * J) =
            ((1 - 1e-5) ^ 3 * a ^ 3) / 2 * ((1 - 1e-5) ^ 6 * J) := by ring
        _ ≤ a * b * c / 2 * I := mul_le_mul (by linarith) k2 (by positivity) (by positivity)
    · calc (1 - 1e-5) ^ 9 * (a * b * c / 2 * I) ≤ a * b * c / 2 * ((1 - 1e-5) ^ 6 * I) := by
            have : (1 - 1e-5 : ℝ) ^ 9 ≤ (1 - 1e-5) ^ 6 := by norm_num
            have hV : 0 < a * b * c / 2 * I := by positivity
            nlinarith [mul_le_mul_of_nonneg_right this hV.le]
        _ ≤ a ^ 3 / 2 * J := mul_le_mul (by linarith) k1 (by positivity) (by positivity)
  · have q := effective_positive hc hbc hab
    obtain ⟨e1, e2⟩ := effective_close hc hbc hab
    refine ⟨_, demagInternal_spec hc hbc hab hs, fun i => ⟨?_, ?_⟩⟩
    · have := integralsOf_pos q le_rfl i
      have := q 0; have := q 1; have := q 2
      unfold prod3
      positivity
    have prods : ∀ s t : V3, Positive s → (∀ i, (1 - 1e-5) * s i ≤ t i) →
        (1 - 1e-5) ^ 3 * prod3 s ≤ prod3 t := by
      intro s t hs h
      have p : ∀ i, 0 ≤ (1 - 1e-5) * s i := fun i => mul_nonneg (by norm_num) (hs i).le
      unfold prod3
      calc (1 - 1e-5) ^ 3 * (s 0 * s 1 * s 2) =
            ((1 - 1e-5) * s 0) * ((1 - 1e-5) * s 1) * ((1 - 1e-5) * s 2) := by ring
        _ ≤ _ := mul_le_mul (mul_le_mul (h 0) (h 1) (p 1) ((p 0).trans (h 0))) (h 2) (p 2)
            (mul_nonneg ((p 0).trans (h 0)) ((p 1).trans (h 1)))
    have g1 := prods _ _ q e1
    have g2 := prods _ _ hp e2
    obtain ⟨k1, k2⟩ := effective_integrals hc hbc hab le_rfl i
    have hi1 := integralsOf_pos q le_rfl i
    have hi2 := hI i
    have hq : 0 < prod3 (effective a b c) := by
      have := q 0; have := q 1; have := q 2
      unfold prod3; positivity
    change (1 - 1e-5) ^ 9 * (prod3 (effective a b c) / 2 * _) ≤ prod3 ![a, b, c] / 2 * _ ∧
      (1 - 1e-5) ^ 9 * (prod3 ![a, b, c] / 2 * _) ≤ _
    have hpp : 0 < prod3 ![a, b, c] := by
      have := hp 0; have := hp 1; have := hp 2
      unfold prod3; positivity
    set x := prod3 (effective a b c)
    set y := prod3 ![a, b, c]
    set I := integralsOf (effective a b c) 0 i
    set J := integralsOf ![a, b, c] 0 i
    have lo : (1 - 1e-5 : ℝ) ^ 9 ≤ (1 - 1e-5) ^ 8 := by norm_num
    constructor
    · calc (1 - 1e-5) ^ 9 * (x / 2 * I) ≤ (1 - 1e-5) ^ 8 * (x / 2 * I) :=
            mul_le_mul_of_nonneg_right lo (by positivity)
        _ = ((1 - 1e-5) ^ 3 * x) / 2 * ((1 - 1e-5) ^ 5 * I) := by ring
        _ ≤ y / 2 * J := mul_le_mul (by linarith) k2 (by positivity) (by positivity)
    · calc (1 - 1e-5) ^ 9 * (y / 2 * J) ≤ (1 - 1e-5) ^ 8 * (y / 2 * J) :=
            mul_le_mul_of_nonneg_right lo (by positivity)
        _ = ((1 - 1e-5) ^ 3 * y) / 2 * ((1 - 1e-5) ^ 5 * J) := by ring
        _ ≤ x / 2 * I := mul_le_mul (by linarith) k1 (by positivity) (by positivity)

/-- The part of the external tensor that is not diagonal is at most one. -/
theorem external_parts {a b c : ℝ} (hc : 0 < c) (hbc : c ≤ b) (hab : b ≤ a) {v : V3}
    (hv : 1 ≤ quadric a b c v) (i j : Fin 3) : demagOutside ![a, b, c] v i j =
      -(a * b * c / ((![a, b, c] i ^ 2 + confocalParameter ![a, b, c] v) *
        (![a, b, c] j ^ 2 + confocalParameter ![a, b, c] v) *
        (∑ k, (v k / (![a, b, c] k ^ 2 + confocalParameter ![a, b, c] v)) ^ 2) *
        rootProduct a b c (confocalParameter ![a, b, c] v))) * (v i * v j) +
      if i = j then a * b * c / 2 * integralsOf ![a, b, c] (confocalParameter ![a, b, c] v) i else 0 := by
  have hp := positive_of_sorted hc hbc hab
  have hl := confocalParameter_nonneg ![a, b, c] v
  have hD := sum_sq_pos hp (show 1 ≤ confocalSum ![a, b, c] v 0 by rw [← quadric_eq]; exact hv)
  have hi : 0 < ![a, b, c] i ^ 2 + confocalParameter ![a, b, c] v := by have := hp i; positivity
  have hj : 0 < ![a, b, c] j ^ 2 + confocalParameter ![a, b, c] v := by have := hp j; positivity
  have hr : 0 < rootProduct a b c (confocalParameter ![a, b, c] v) := (hp.pos hl).root
  rw [demagOutside_apply]
  unfold confocalGradient
  change prod3 ![a, b, c] / 2 * (2 * v i / _ / _ * (-(1 / (_ * rootProduct a b c _))) * v j + _) = _
  have hprod : prod3 ![a, b, c] = a * b * c := rfl
  rw [hprod, mul_add]
  set Di := ![a, b, c] i ^ 2 + confocalParameter ![a, b, c] v
  set Dj := ![a, b, c] j ^ 2 + confocalParameter ![a, b, c] v
  set S := ∑ k, (v k / (![a, b, c] k ^ 2 + confocalParameter ![a, b, c] v)) ^ 2
  set R := rootProduct a b c (confocalParameter ![a, b, c] v)
  congr 1
  · field_simp
  · rw [mul_ite, mul_zero]

/-- The diagonal part outside is at most the tensor inside. -/
theorem diagonal_le {a b c : ℝ} (hc : 0 < c) (hbc : c ≤ b) (hab : b ≤ a) {l : ℝ} (hl : 0 ≤ l)
    (i : Fin 3) : 0 ≤ a * b * c / 2 * integralsOf ![a, b, c] l i ∧
      a * b * c / 2 * integralsOf ![a, b, c] l i ≤ 1 := by
  have hb : 0 < b := hc.trans_le hbc
  have ha : 0 < a := hb.trans_le hab
  have hp := positive_of_sorted hc hbc hab
  have := integralsOf_pos hp hl i
  refine ⟨by positivity, le_trans ?_ (insideFactor_le hc hbc hab i)⟩
  exact mul_le_mul_of_nonneg_left (integralsOf_anti hp hl i) (by positivity)

/-- The external tensor does not enlarge vectors more than twice. -/
theorem demagOutside_bound {a b c : ℝ} (hc : 0 < c) (hbc : c ≤ b) (hab : b ≤ a) {v : V3}
    (hv : 1 ≤ quadric a b c v) (w : V3) :
    magnitude ((demagOutside ![a, b, c] v).mulVec w) ≤ 2 * magnitude w := by
  have hb : 0 < b := hc.trans_le hbc
  have ha : 0 < a := hb.trans_le hab
  have hp := positive_of_sorted hc hbc hab
  have hl := confocalParameter_nonneg ![a, b, c] v
  have hS := sum_sq_pos hp (show 1 ≤ confocalSum ![a, b, c] v 0 by rw [← quadric_eq]; exact hv)
  have hr : 0 < rootProduct a b c (confocalParameter ![a, b, c] v) := (hp.pos hl).root
  set l := confocalParameter ![a, b, c] v with hldef
  have hroot : a * b * c ≤ rootProduct a b c l := by
    have h0 := rootProduct_zero ha hb hc
    have : rootProduct a b c 0 ≤ rootProduct a b c l := by
      unfold rootProduct
      refine Real.sqrt_le_sqrt ?_
      gcongr
    linarith
  let u : V3 := fun i => v i / (![a, b, c] i ^ 2 + l)
  let E : M3 := fun i j => -(a * b * c / ((![a, b, c] i ^ 2 + l) * (![a, b, c] j ^ 2 + l) *
        (∑ k, (v k / (![a, b, c] k ^ 2 + l)) ^ 2) * rootProduct a b c l)) * (v i * v j)
  let D : V3 := fun i => a * b * c / 2 * integralsOf ![a, b, c] l i
  have hsplit : demagOutside ![a, b, c] v = E + Matrix.diagonal D := by
    ext i j
    rw [external_parts hc hbc hab hv, Matrix.add_apply, Matrix.diagonal_apply]
  have hu2 : magnitude u ^ 2 = ∑ k, (v k / (![a, b, c] k ^ 2 + l)) ^ 2 := magnitude_sq u
  set S := ∑ k, (v k / (![a, b, c] k ^ 2 + l)) ^ 2 with hSdef
  have h1 : magnitude (E.mulVec w) ≤ 1 / S * magnitude u ^ 2 * magnitude w := by
    refine magnitude_rank_one (by positivity) (fun i j => ?_) w
    have hi : 0 < ![a, b, c] i ^ 2 + l := by have := hp i; positivity
    have hj : 0 < ![a, b, c] j ^ 2 + l := by have := hp j; positivity
    have e : E i j = -(a * b * c / rootProduct a b c l) * (1 / S * (u i * u j)) := by
      change -(a * b * c / ((![a, b, c] i ^ 2 + l) * (![a, b, c] j ^ 2 + l) * S * rootProduct a b c l)) *
        (v i * v j) = -(a * b * c / rootProduct a b c l) * (1 / S * (v i / (![a, b, c] i ^ 2 + l) *
        (v j / (![a, b, c] j ^ 2 + l))))
      field_simp
    rw [e, abs_mul, abs_neg, abs_of_pos (show 0 < a * b * c / rootProduct a b c l by positivity),
      abs_mul (1 / S), abs_of_pos (show 0 < 1 / S by positivity), abs_mul (u i)]
    have : a * b * c / rootProduct a b c l ≤ 1 := (div_le_one hr).2 hroot
    have h0 : 0 ≤ 1 / S * (|u i| * |u j|) := by positivity
    nlinarith
  have h2 : magnitude ((Matrix.diagonal D).mulVec w) ≤ 1 * magnitude w := by
    refine magnitude_mono zero_le_one fun i => ?_
    obtain ⟨d1, d2⟩ := diagonal_le hc hbc hab hl i
    rw [Matrix.mulVec_diagonal, abs_mul]
    exact mul_le_mul_of_nonneg_right (by rw [abs_of_nonneg d1]; exact d2) (abs_nonneg _)
  rw [hu2, one_div, inv_mul_cancel₀ hS.ne'] at h1
  rw [hsplit, Matrix.add_mulVec]
  exact (magnitude_add _ _).trans (by linarith)

/-- Outside. -/
theorem demagExternal_almost {a b c : ℝ} (hc : 0 < c) (hbc : c ≤ b) (hab : b ≤ a) {v : V3}
    (hv : 1 ≤ quadric a b c v) {N : M3} (hN : getDemagnetizationTensorExternal v a b c = .ok N)
    (w : V3) : magnitude ((N - demagOutside ![a, b, c] v).mulVec w) ≤ 3e-4 * magnitude w := by
  have hb : 0 < b := hc.trans_le hbc
  have ha : 0 < a := hb.trans_le hab
  have hp := positive_of_sorted hc hbc hab
  have hl := confocalParameter_nonneg ![a, b, c] v
  have hI := integralsOf_pos hp hl
  have hdiag : ∀ k D : V3, (∀ i, Almost (k i)) → (∀ i, 0 ≤ D i ∧ D i ≤ 1) →
      magnitude ((Matrix.diagonal fun i => k i * D i - D i).mulVec w) ≤ 1e-4 * magnitude w := by
    intro k D hk hD
    refine magnitude_mono (by norm_num) fun i => ?_
    rw [Matrix.mulVec_diagonal, abs_mul]
    refine mul_le_mul_of_nonneg_right ((almost_sub (hk i)).trans ?_) (abs_nonneg _)
    rw [abs_of_nonneg (hD i).1]
    have := (hD i).2
    linarith
  by_cases hs : Close a b ∧ Close b c
  · obtain rfl := Except.ok.inj ((demagExternal_sphere hc hbc hab hs hv).symm.trans hN)
    obtain ⟨d, hd, _, hdr, h1, h2⟩ := sphere_radius hc hbc hab v
    replace hdr := hdr hv
    obtain ⟨m0, v1, v2⟩ := sphere_close hc hbc hab hs
    have hS := sum_sq_pos hp (show 1 ≤ confocalSum ![a, b, c] v 0 by rw [← quadric_eq]; exact hv)
    have hr : 0 < rootProduct a b c (confocalParameter ![a, b, c] v) := (hp.pos hl).root
    have hrv := norm_pos_of_outside hv
    have hd2 : d ^ 2 = v 0 ^ 2 + v 1 ^ 2 + v 2 ^ 2 := by rw [hdr]; exact Real.sq_sqrt hrv.le
    set l := confocalParameter ![a, b, c] v with hldef
    have hq0 : 0 < c ^ 2 + l := by positivity
    have hQ0 : 0 < a ^ 2 + l := by positivity
    have hq : 0 < √(c ^ 2 + l) := Real.sqrt_pos.2 hq0
    have hQ : 0 < √(a ^ 2 + l) := Real.sqrt_pos.2 hQ0
    have hqs : √(c ^ 2 + l) ^ 2 = c ^ 2 + l := Real.sq_sqrt hq0.le
    have hQs : √(a ^ 2 + l) ^ 2 = a ^ 2 + l := Real.sq_sqrt hQ0.le
    have hm : (1 - 1e-5) ^ 2 * √(a ^ 2 + l) ≤ √(c ^ 2 + l) := by
      have := scaled_sq (m := (1 - 1e-5) ^ 2) (by norm_num) (by norm_num) ha m0 hl
      rw [← Real.sqrt_sq (show (0 : ℝ) ≤ (1 - 1e-5) ^ 2 by positivity), ← Real.sqrt_mul (by positivity)]
      exact Real.sqrt_le_sqrt this
    have hDlo : ∀ i, √(c ^ 2 + l) ^ 2 ≤ ![a, b, c] i ^ 2 + l := by
      intro i; rw [hqs]
      have : c ≤ ![a, b, c] i := by fin_cases i; exacts [hbc.trans hab, hbc, le_rfl]
      have := pow_le_pow_left₀ hc.le this 2
      linarith
    have hDhi : ∀ i, ![a, b, c] i ^ 2 + l ≤ √(a ^ 2 + l) ^ 2 := by
      intro i; rw [hQs]
      have : ![a, b, c] i ≤ a := by fin_cases i; exacts [le_rfl, hab, hbc.trans hab]
      have := pow_le_pow_left₀ (hp i).le this 2
      linarith
    have hRlo : √(c ^ 2 + l) ^ 3 ≤ rootProduct a b c l := by
      have e : rootProduct a b c l = √(a ^ 2 + l) * √(b ^ 2 + l) * √(c ^ 2 + l) :=
        (hp.pos hl).root_eq
      have hbl : √(c ^ 2 + l) ≤ √(b ^ 2 + l) := Real.sqrt_le_sqrt (by
        have := pow_le_pow_left₀ hc.le hbc 2; linarith)
      rw [e, show √(c ^ 2 + l) ^ 3 = √(c ^ 2 + l) * √(c ^ 2 + l) * √(c ^ 2 + l) by ring]
      exact mul_le_mul_of_nonneg_right (mul_le_mul (h1.trans h2) hbl hq.le hQ.le) hq.le
    have hRhi : rootProduct a b c l ≤ √(a ^ 2 + l) ^ 3 := by
      have e : rootProduct a b c l = √(a ^ 2 + l) * √(b ^ 2 + l) * √(c ^ 2 + l) :=
        (hp.pos hl).root_eq
      have hbl : √(b ^ 2 + l) ≤ √(a ^ 2 + l) := Real.sqrt_le_sqrt (by
        have := pow_le_pow_left₀ hb.le hab 2; linarith)
      rw [e, show √(a ^ 2 + l) ^ 3 = √(a ^ 2 + l) * √(a ^ 2 + l) * √(a ^ 2 + l) by ring]
      exact mul_le_mul (mul_le_mul_of_nonneg_left hbl hQ.le) (h1.trans h2) hq.le (by positivity)
    set q := √(c ^ 2 + l)
    set Q := √(a ^ 2 + l)
    set R := rootProduct a b c l
    set S := ∑ k, (v k / (![a, b, c] k ^ 2 + l)) ^ 2 with hSdef
    have hsum : d ^ 2 = ∑ k, v k ^ 2 := by rw [hd2, Fin.sum_univ_three]
    have hSlo : d ^ 2 ≤ Q ^ 4 * S := by
      rw [hsum, hSdef, Finset.mul_sum]
      refine Finset.sum_le_sum fun k _ => ?_
      have hk : 0 < ![a, b, c] k ^ 2 + l := (pow_pos hq 2).trans_le (hDlo k)
      have := pow_le_pow_left₀ hk.le (hDhi k) 2
      rw [div_pow, mul_div_assoc', le_div_iff₀ (by positivity)]
      calc v k ^ 2 * (![a, b, c] k ^ 2 + l) ^ 2 ≤ v k ^ 2 * (Q ^ 2) ^ 2 :=
            mul_le_mul_of_nonneg_left this (sq_nonneg _)
        _ = Q ^ 4 * v k ^ 2 := by ring
    have hShi : q ^ 4 * S ≤ d ^ 2 := by
      rw [hsum, hSdef, Finset.mul_sum]
      refine Finset.sum_le_sum fun k _ => ?_
      have hk : 0 < ![a, b, c] k ^ 2 + l := (pow_pos hq 2).trans_le (hDlo k)
      have := pow_le_pow_left₀ (by positivity) (hDlo k) 2
      rw [div_pow, mul_div_assoc', div_le_iff₀ (by positivity)]
      calc q ^ 4 * v k ^ 2 = v k ^ 2 * (q ^ 2) ^ 2 := by ring
        _ ≤ v k ^ 2 * (![a, b, c] k ^ 2 + l) ^ 2 := mul_le_mul_of_nonneg_left this (sq_nonneg _)
    -- the denominators
    have hden : ∀ i j, (1 - 1e-5) ^ 14 * d ^ 5 ≤
          (![a, b, c] i ^ 2 + l) * (![a, b, c] j ^ 2 + l) * S * R ∧
        (1 - 1e-5) ^ 14 * ((![a, b, c] i ^ 2 + l) * (![a, b, c] j ^ 2 + l) * S * R) ≤ d ^ 5 := by
      intro i j
      have hi : 0 < ![a, b, c] i ^ 2 + l := (pow_pos hq 2).trans_le (hDlo i)
      have hj : 0 < ![a, b, c] j ^ 2 + l := (pow_pos hq 2).trans_le (hDlo j)
      have hm7 : (1 - 1e-5) ^ 14 * Q ^ 7 ≤ q ^ 7 := by
        have := pow_le_pow_left₀ (by positivity) hm 7
        calc _ = ((1 - 1e-5) ^ 2 * Q) ^ 7 := by ring
          _ ≤ _ := this
      have hlow : q ^ 7 * S ≤ (![a, b, c] i ^ 2 + l) * (![a, b, c] j ^ 2 + l) * S * R := by
        calc q ^ 7 * S = (q ^ 2 * q ^ 2 * S) * q ^ 3 := by ring
          _ ≤ _ := mul_le_mul (mul_le_mul_of_nonneg_right
              (mul_le_mul (hDlo i) (hDlo j) (by positivity) hi.le) hS.le) hRlo (by positivity)
              (by positivity)
      have hupp : (![a, b, c] i ^ 2 + l) * (![a, b, c] j ^ 2 + l) * S * R ≤ Q ^ 7 * S := by
        calc _ ≤ (Q ^ 2 * Q ^ 2 * S) * Q ^ 3 := mul_le_mul (mul_le_mul_of_nonneg_right
              (mul_le_mul (hDhi i) (hDhi j) hj.le (by positivity)) hS.le) hRhi hr.le (by positivity)
          _ = Q ^ 7 * S := by ring
      have d3q : q ^ 3 ≤ d ^ 3 := pow_le_pow_left₀ hq.le h1 3
      have d3Q : d ^ 3 ≤ Q ^ 3 := pow_le_pow_left₀ hd.le h2 3
      constructor
      · refine le_trans ?_ hlow
        calc (1 - 1e-5) ^ 14 * d ^ 5 = (1 - 1e-5) ^ 14 * (d ^ 3 * d ^ 2) := by ring
          _ ≤ (1 - 1e-5) ^ 14 * (Q ^ 3 * (Q ^ 4 * S)) :=
            mul_le_mul_of_nonneg_left (mul_le_mul d3Q hSlo (by positivity) (by positivity))
              (by positivity)
          _ = ((1 - 1e-5) ^ 14 * Q ^ 7) * S := by ring
          _ ≤ q ^ 7 * S := mul_le_mul_of_nonneg_right hm7 hS.le
      · calc _ ≤ (1 - 1e-5) ^ 14 * (Q ^ 7 * S) := mul_le_mul_of_nonneg_left hupp (by positivity)
          _ = ((1 - 1e-5) ^ 14 * Q ^ 7) * S := by ring
          _ ≤ q ^ 7 * S := mul_le_mul_of_nonneg_right hm7 hS.le
          _ = q ^ 3 * (q ^ 4 * S) := by ring
          _ ≤ d ^ 3 * d ^ 2 := mul_le_mul d3q hShi (by positivity) (by positivity)
          _ = d ^ 5 := by ring
    -- the two parts
    let k : V3 := fun i => a ^ 3 * (2 / (3 * d ^ 3)) / (a * b * c * integralsOf ![a, b, c] l i)
    let D : V3 := fun i => a * b * c / 2 * integralsOf ![a, b, c] l i
    let E : M3 := fun i j => (a * b * c / ((![a, b, c] i ^ 2 + l) * (![a, b, c] j ^ 2 + l) * S * R) -
      a ^ 3 / d ^ 5) * (v i * v j)
    have hk : ∀ i, Almost (k i) := by
      intro i
      obtain ⟨k1, k2⟩ := sphere_integrals hc hbc hab hs hl hd h1 h2 i
      have hIi := hI i
      have hJ : 0 < 2 / (3 * d ^ 3) := by positivity
      have hV : 0 < a * b * c := by positivity
      refine almost_of_bounds (lo := (1 - 1e-5) ^ 9) (mul_pos hV hIi) (by norm_num) ?_ ?_
        (by norm_num)
      · calc (1 - 1e-5) ^ 9 * (a * b * c * integralsOf ![a, b, c] l i) ≤
              1 * (a * b * c) * ((1 - 1e-5) ^ 6 * integralsOf ![a, b, c] l i) := by
              have : (1 - 1e-5 : ℝ) ^ 9 ≤ 1 * (1 - 1e-5) ^ 6 := by norm_num
              nlinarith [mul_le_mul_of_nonneg_right this (mul_pos hV hIi).le]
          _ ≤ a ^ 3 * (2 / (3 * d ^ 3)) :=
            mul_le_mul (by linarith) k1 (by positivity) (by positivity)
      · calc (1 - 1e-5) ^ 9 * (a ^ 3 * (2 / (3 * d ^ 3))) =
              ((1 - 1e-5) ^ 3 * a ^ 3) * ((1 - 1e-5) ^ 6 * (2 / (3 * d ^ 3))) := by ring
          _ ≤ _ := mul_le_mul v1 k2 (by positivity) (by positivity)
    have hsplit : sphereTensor a v - demagOutside ![a, b, c] v =
        E + Matrix.diagonal fun i => k i * D i - D i := by
      ext i j
      rw [Matrix.sub_apply, external_parts hc hbc hab hv, Matrix.add_apply, Matrix.diagonal_apply]
      have hIi := (hI i).ne'
      unfold sphereTensor
      rw [← hdr]
      change -(a ^ 3 / 3) * (3 * v i * v j / d ^ 5 - if i = j then 1 / d ^ 3 else 0) -
        (-(a * b * c / ((![a, b, c] i ^ 2 + l) * (![a, b, c] j ^ 2 + l) * S * R)) * (v i * v j) +
          if i = j then a * b * c / 2 * integralsOf ![a, b, c] l i else 0) =
        (a * b * c / ((![a, b, c] i ^ 2 + l) * (![a, b, c] j ^ 2 + l) * S * R) -
          a ^ 3 / d ^ 5) * (v i * v j) + if i = j then
            a ^ 3 * (2 / (3 * d ^ 3)) / (a * b * c * integralsOf ![a, b, c] l i) *
              (a * b * c / 2 * integralsOf ![a, b, c] l i) -
              a * b * c / 2 * integralsOf ![a, b, c] l i else 0
      have e : a ^ 3 * (2 / (3 * d ^ 3)) / (a * b * c * integralsOf ![a, b, c] l i) *
              (a * b * c / 2 * integralsOf ![a, b, c] l i) = a ^ 3 / 3 * (1 / d ^ 3) := by
        field_simp
      rw [e]
      by_cases hij : i = j
      · simp only [if_pos hij]; ring
      · simp only [if_neg hij]; ring
    have hE : magnitude (E.mulVec w) ≤ 1.9e-4 / d ^ 2 * magnitude v ^ 2 * magnitude w := by
      refine magnitude_rank_one (by positivity) (fun i j => ?_) w
      obtain ⟨n1, n2⟩ := hden i j
      change |(a * b * c / ((![a, b, c] i ^ 2 + l) * (![a, b, c] j ^ 2 + l) * S * R) -
        a ^ 3 / d ^ 5) * (v i * v j)| ≤ _
      have hi : 0 < ![a, b, c] i ^ 2 + l := (pow_pos hq 2).trans_le (hDlo i)
      have hj : 0 < ![a, b, c] j ^ 2 + l := (pow_pos hq 2).trans_le (hDlo j)
      have hden0 : 0 < (![a, b, c] i ^ 2 + l) * (![a, b, c] j ^ 2 + l) * S * R := by positivity
      rw [abs_mul, abs_mul (v i)]
      refine mul_le_mul_of_nonneg_right ?_ (by positivity)
      set Den := (![a, b, c] i ^ 2 + l) * (![a, b, c] j ^ 2 + l) * S * R
      have hV : 0 < a * b * c := by positivity
      have x1 : (1 - 1e-5) ^ 17 * (a ^ 3 / d ^ 5) ≤ a * b * c / Den := by
        rw [mul_div_assoc', div_le_div_iff₀ (by positivity) hden0]
        calc (1 - 1e-5) ^ 17 * a ^ 3 * Den = ((1 - 1e-5) ^ 3 * a ^ 3) * ((1 - 1e-5) ^ 14 * Den) := by ring
          _ ≤ a * b * c * d ^ 5 := mul_le_mul v1 n2 (by positivity) (by positivity)
      have x2 : (1 - 1e-5) ^ 14 * (a * b * c / Den) ≤ a ^ 3 / d ^ 5 := by
        rw [mul_div_assoc', div_le_div_iff₀ hden0 (by positivity)]
        calc (1 - 1e-5) ^ 14 * (a * b * c) * d ^ 5 = (a * b * c) * ((1 - 1e-5) ^ 14 * d ^ 5) := by ring
          _ ≤ a ^ 3 * Den := mul_le_mul v2 n1 (by positivity) (by positivity)
      have hcd : c ≤ d := by
        refine le_trans ?_ h1
        exact Real.le_sqrt_of_sq_le (by linarith)
      have y3 : (1 - 1e-5) ^ 6 * a ^ 3 ≤ d ^ 3 := by
        have := pow_le_pow_left₀ (by positivity) (m0.trans hcd) 3
        calc _ = ((1 - 1e-5) ^ 2 * a) ^ 3 := by ring
          _ ≤ _ := this
      have y : (1 - 1e-5) ^ 6 * (a ^ 3 / d ^ 5) ≤ 1 / d ^ 2 := by
        rw [mul_div_assoc', div_le_div_iff₀ (by positivity) (by positivity), one_mul]
        calc (1 - 1e-5) ^ 6 * a ^ 3 * d ^ 2 ≤ d ^ 3 * d ^ 2 :=
              mul_le_mul_of_nonneg_right y3 (by positivity)
          _ = d ^ 5 := by ring
      have hY : 0 < a ^ 3 / d ^ 5 := by positivity
      have hX : 0 < a * b * c / Den := by positivity
      set Y := a ^ 3 / d ^ 5
      set X := a * b * c / Den
      have hz : 0 < 1 / d ^ 2 := by positivity
      rw [show (1.9e-4 : ℝ) / d ^ 2 = 1.9e-4 * (1 / d ^ 2) by ring]
      set Z := 1 / d ^ 2
      have hYZ : Y ≤ (1 + 1e-4) * Z := by
        have : (1 / (1 + 1e-4) : ℝ) ≤ (1 - 1e-5) ^ 6 := by norm_num
        have h3 : 1 / (1 + 1e-4) * Y ≤ Z := (mul_le_mul_of_nonneg_right this hY.le).trans y
        rw [div_mul_eq_mul_div, one_mul, div_le_iff₀ (by norm_num)] at h3
        linarith
      have hXY : X ≤ (1 + 1.8e-4) * Y := by
        have : (1 / (1 + 1.8e-4) : ℝ) ≤ (1 - 1e-5) ^ 14 := by norm_num
        have h3 : 1 / (1 + 1.8e-4) * X ≤ Y := (mul_le_mul_of_nonneg_right this hX.le).trans x2
        rw [div_mul_eq_mul_div, one_mul, div_le_iff₀ (by norm_num)] at h3
        linarith
      have hXY' : (1 - 1.8e-4) * Y ≤ X :=
        (mul_le_mul_of_nonneg_right (by norm_num) hY.le).trans x1
      rw [abs_le]
      constructor <;> linarith
    have hdm : magnitude v ^ 2 = d ^ 2 := by rw [magnitude_sq, hsum]; rfl
    rw [hdm, div_mul_cancel₀ _ (by positivity)] at hE
    rw [hsplit, Matrix.add_mulVec]
    have := hdiag k D hk fun i => diagonal_le hc hbc hab hl i
    have hw := magnitude_nonneg w
    exact (magnitude_add _ _).trans (by linarith)
  · obtain rfl := Except.ok.inj ((demagExternal_spec hc hbc hab hs hv).symm.trans hN)
    let k : V3 := fun i => integralsOf (effective a b c) (confocalParameter ![a, b, c] v) i /
      integralsOf ![a, b, c] (confocalParameter ![a, b, c] v) i
    let D : V3 := fun i => a * b * c / 2 * integralsOf ![a, b, c] (confocalParameter ![a, b, c] v) i
    have hk : ∀ i, Almost (k i) := fun i => by
      obtain ⟨k1, k2⟩ := effective_integrals hc hbc hab hl i
      exact almost_of_bounds (hI i) (by norm_num) k1 k2 (by norm_num)
    have hsplit : effectiveTensor a b c v - demagOutside ![a, b, c] v =
        Matrix.diagonal fun i => k i * D i - D i := by
      ext i j
      rw [Matrix.sub_apply, Matrix.diagonal_apply, demagOutside_apply]
      unfold effectiveTensor
      change a * b * c / 2 * (_ + _) - a * b * c / 2 * (_ + _) = _
      have hIi := (hI i).ne'
      by_cases hij : i = j
      · simp only [if_pos hij]
        change _ = integralsOf (effective a b c) (confocalParameter ![a, b, c] v) i /
          integralsOf ![a, b, c] (confocalParameter ![a, b, c] v) i * (a * b * c / 2 *
            integralsOf ![a, b, c] (confocalParameter ![a, b, c] v) i) - a * b * c / 2 *
            integralsOf ![a, b, c] (confocalParameter ![a, b, c] v) i
        have e : integralsOf (effective a b c) (confocalParameter ![a, b, c] v) i /
          integralsOf ![a, b, c] (confocalParameter ![a, b, c] v) i * (a * b * c / 2 *
            integralsOf ![a, b, c] (confocalParameter ![a, b, c] v) i) = a * b * c / 2 *
            integralsOf (effective a b c) (confocalParameter ![a, b, c] v) i := by field_simp
        rw [e]
        change _ * (_ * -(1 / (_ * rootProduct a b c _)) * _ + _) -
          _ * (_ * -(1 / (_ * rootProduct a b c _)) * _ + _) = _
        ring
      · simp only [if_neg hij]
        exact sub_self _
    rw [hsplit]
    have := hdiag k D hk fun i => diagonal_le hc hbc hab hl i
    have hw := magnitude_nonneg w
    linarith

end Verif.Ellipsoids
