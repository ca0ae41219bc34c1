import Verif.Ellipsoids.Lemmas
import Mathlib.Topology.Order.IntermediateValue

/-! Lemmas on the ellipsoidal coordinate. -/

namespace Verif.Ellipsoids

/-- The equation of the confocal ellipsoids without denominators. -/
noncomputable def confocalPoly (a b c : ℝ) (v : V3) (t : ℝ) : ℝ :=
  (a ^ 2 + t) * (b ^ 2 + t) * (c ^ 2 + t) - v 0 ^ 2 * (b ^ 2 + t) * (c ^ 2 + t)
    - v 1 ^ 2 * (a ^ 2 + t) * (c ^ 2 + t) - v 2 ^ 2 * (a ^ 2 + t) * (b ^ 2 + t)

/-- The largest root, which is at least `-c²`. -/
def IsLargestRoot (a b c : ℝ) (v : V3) (l : ℝ) : Prop :=
  confocalPoly a b c v l = 0 ∧ -c ^ 2 ≤ l ∧ ∀ t, l < t → 0 < confocalPoly a b c v t

/-! ### Quadratic equations -/

theorem quad_disc {p0 p1 s : ℝ} (h : s ^ 2 + p1 * s + p0 ≤ 0) : 0 ≤ p1 ^ 2 - 4 * p0 := by
  nlinarith [sq_nonneg (2 * s + p1)]

theorem quad_root {p0 p1 s : ℝ} (h : s ^ 2 + p1 * s + p0 ≤ 0) :
    ∃ r, 0.5 * (√(p1 ^ 2 - 4 * p0) - p1) = r ∧
    r ^ 2 + p1 * r + p0 = 0 ∧ s ≤ r ∧ ∀ t, r < t → 0 < t ^ 2 + p1 * t + p0 := by
  refine ⟨_, rfl, ?_⟩
  set r := 0.5 * (√(p1 ^ 2 - 4 * p0) - p1)
  have hd := quad_disc h
  have hs := Real.sq_sqrt hd
  have h0 := Real.sqrt_nonneg (p1 ^ 2 - 4 * p0)
  have hr : r = (1 / 2) * (√(p1 ^ 2 - 4 * p0) - p1) := by simp only [r]; norm_num
  set D := √(p1 ^ 2 - 4 * p0)
  have hp0 : p0 = (p1 ^ 2 - D ^ 2) / 4 := by linarith
  refine ⟨?_, ?_, ?_⟩
  · rw [hr, hp0]; ring
  · have h1 : (2 * s + p1) ^ 2 ≤ D ^ 2 := by nlinarith
    have h2 := abs_le_of_sq_le_sq' h1 h0
    rw [hr]; linarith [h2.2]
  · intro t ht
    rw [hr] at ht
    have h1 : D < 2 * t + p1 := by linarith
    have h2 : D ^ 2 < (2 * t + p1) ^ 2 := by nlinarith
    nlinarith

/-! ### Cubic equations with three real roots -/

theorem cos_three_arccos {x : ℝ} (h1 : 1 / 2 ≤ x) (h2 : x ≤ 1) :
    Real.arccos (4 * x ^ 3 - 3 * x) = 3 * Real.arccos x := by
  have hx : Real.cos (Real.arccos x) = x := Real.cos_arccos (by linarith) h2
  have h0 := Real.arccos_nonneg x
  have h3 : Real.arccos x ≤ Real.pi / 3 := by
    have : Real.arccos (1 / 2) = Real.pi / 3 := by
      rw [← Real.cos_pi_div_three, Real.arccos_cos] <;> linarith [Real.pi_pos]
    rw [← this]
    exact Real.arccos_le_arccos h1
  rw [← Real.arccos_cos (x := 3 * Real.arccos x) (by linarith) (by linarith), Real.cos_three_mul, hx]

theorem viete {r1 r2 r3 : ℝ} (h12 : r2 ≤ r1) (h23 : r3 ≤ r2) (h13 : r3 < r1) :
    let p2 := -(r1 + r2 + r3)
    let p1 := r1 * r2 + r1 * r3 + r2 * r3
    let p0 := -(r1 * r2 * r3)
    let p := p1 - p2 ^ 2 / 3
    let q := p0 - p1 * p2 / 3 + 2 * (p2 / 3) ^ 3
    0 < -p / 3 ∧ 2 * √(-p / 3) * Real.cos
      (Real.arccos (min (max (-q / (2 * √((-p / 3) ^ 3))) (-1)) 1) / 3) - p2 / 3 = r1 := by
  intro p2 p1 p0 p q
  set t1 := r1 + p2 / 3 with ht1
  set t2 := r2 + p2 / 3 with ht2
  set t3 := r3 + p2 / 3 with ht3
  have hsum : t3 = -(t1 + t2) := by simp only [ht1, ht2, ht3, p2]; ring
  have hp : p = t1 * t2 + t1 * t3 + t2 * t3 := by
    simp only [ht1, ht2, ht3, p2, p1, p]; ring
  have hq : q = -(t1 * t2 * t3) := by
    simp only [ht1, ht2, ht3, p2, p1, p0, p, q]; ring
  have k12 : t2 ≤ t1 := by simp only [ht1, ht2]; linarith
  have k23 : t3 ≤ t2 := by simp only [ht3, ht2]; linarith
  have k13 : t3 < t1 := by simp only [ht1, ht3]; linarith
  have hneg : 0 < -p / 3 := by
    rw [hp, hsum]
    nlinarith [sq_nonneg (t1 - t2), sq_nonneg (t1 + t2), sq_nonneg (t1 + 2 * t2),
      sq_nonneg (2 * t1 + t2), mul_self_pos.2 (sub_ne_zero.2 k13.ne)]
  refine ⟨hneg, ?_⟩
  set r := √(-p / 3) with hr
  have hr0 : 0 < r := Real.sqrt_pos.2 hneg
  have hr2 : r ^ 2 = -p / 3 := Real.sq_sqrt hneg.le
  have hr3 : √((-p / 3) ^ 3) = r ^ 3 := by
    rw [← hr2]
    rw [show (r ^ 2) ^ 3 = (r ^ 3) ^ 2 by ring]
    exact Real.sqrt_sq (by positivity)
  have ht1pos : 0 ≤ t1 := by linarith
  have hle : t1 ≤ 2 * r := by
    refine abs_le_of_sq_le_sq' ?_ (by positivity) |>.2
    have : (2 * r) ^ 2 = 4 * (-p / 3) := by rw [← hr2]; ring
    rw [this, hp, hsum]; nlinarith [sq_nonneg (t1 + 2 * t2)]
  have hge : r ≤ t1 := by
    refine abs_le_of_sq_le_sq' ?_ ht1pos |>.2
    rw [hr2, hp, hsum]
    nlinarith [mul_nonneg (sub_nonneg.2 k12) (sub_nonneg.2 k13.le)]
  have hcos : -q / (2 * √((-p / 3) ^ 3)) = 4 * (t1 / (2 * r)) ^ 3 - 3 * (t1 / (2 * r)) := by
    rw [hr3]
    have : -q = t1 ^ 3 - 3 * r ^ 2 * t1 := by
      rw [hr2, hp, hq, hsum]; ring
    rw [this]
    field_simp
    ring
  have hx1 : 1 / 2 ≤ t1 / (2 * r) := by rw [le_div_iff₀ (by positivity)]; linarith
  have hx2 : t1 / (2 * r) ≤ 1 := by rw [div_le_one (by positivity)]; exact hle
  have hb : -1 ≤ 4 * (t1 / (2 * r)) ^ 3 - 3 * (t1 / (2 * r)) ∧
      4 * (t1 / (2 * r)) ^ 3 - 3 * (t1 / (2 * r)) ≤ 1 := by
    constructor
    · nlinarith [mul_nonneg (by linarith : 0 ≤ t1 / (2 * r) + 1) (sq_nonneg (2 * (t1 / (2 * r)) - 1))]
    · nlinarith [mul_nonneg (by linarith : 0 ≤ 1 - t1 / (2 * r)) (sq_nonneg (2 * (t1 / (2 * r)) + 1))]
  rw [hcos, max_eq_left hb.1, min_eq_left hb.2, cos_three_arccos hx1 hx2,
    mul_div_cancel_left₀ _ (by norm_num), Real.cos_arccos (by linarith) hx2]
  field_simp
  rw [ht1]; ring

/-! ### The three branches of `calculate_lambda` -/

theorem confocalPoly_eq (a b c : ℝ) (v : V3) (t : ℝ) (ha : a ^ 2 + t ≠ 0) (hb : b ^ 2 + t ≠ 0)
    (hc : c ^ 2 + t ≠ 0) : confocalPoly a b c v t = (a ^ 2 + t) * (b ^ 2 + t) * (c ^ 2 + t) *
      (1 - (v 0 ^ 2 / (a ^ 2 + t) + v 1 ^ 2 / (b ^ 2 + t) + v 2 ^ 2 / (c ^ 2 + t))) := by
  unfold confocalPoly; field_simp; ring

theorem lambdaProlate_spec (v : V3) {a b : ℝ} (hb : 0 < b) (hab : b ≤ a) :
    ∃ l, lambdaProlate v a b = .ok l ∧ IsLargestRoot a b b v l := by
  have h : (-b ^ 2) ^ 2 + (a ^ 2 + b ^ 2 - v 0 ^ 2 - v 1 ^ 2 - v 2 ^ 2) * (-b ^ 2) +
      (a ^ 2 * b ^ 2 - b ^ 2 * v 0 ^ 2 - a ^ 2 * (v 1 ^ 2 + v 2 ^ 2)) ≤ 0 := by
    nlinarith [mul_nonneg (by positivity : 0 ≤ v 1 ^ 2 + v 2 ^ 2)
      (by nlinarith : 0 ≤ a ^ 2 - b ^ 2)]
  obtain ⟨l, hl, h1, h2, h3⟩ := quad_root h
  have hd := quad_disc h
  refine ⟨l, ?_, ?_⟩
  · unfold lambdaProlate
    simp only [psqrt_ok hd, Py.bind_ok]
    exact congrArg Except.ok hl
  · have key : ∀ t, confocalPoly a b b v t = (b ^ 2 + t) *
        (t ^ 2 + (a ^ 2 + b ^ 2 - v 0 ^ 2 - v 1 ^ 2 - v 2 ^ 2) * t +
      (a ^ 2 * b ^ 2 - b ^ 2 * v 0 ^ 2 - a ^ 2 * (v 1 ^ 2 + v 2 ^ 2))) := by
      intro t; unfold confocalPoly; ring
    refine ⟨by rw [key, h1, mul_zero], h2, fun t ht => ?_⟩
    rw [key]
    exact mul_pos (by linarith) (h3 t ht)

theorem lambdaOblate_spec (v : V3) {a c : ℝ} (hc : 0 < c) (hac : c < a) :
    ∃ l, lambdaOblate v a c = .ok l ∧ IsLargestRoot a a c v l := by
  have hac2 : c ^ 2 < a ^ 2 := by nlinarith
  have h : (-c ^ 2) ^ 2 + (a ^ 2 + c ^ 2 - v 0 ^ 2 - v 1 ^ 2 - v 2 ^ 2) * (-c ^ 2) +
      (a ^ 2 * c ^ 2 - c ^ 2 * (v 0 ^ 2 + v 1 ^ 2) - a ^ 2 * v 2 ^ 2) ≤ 0 := by
    nlinarith [mul_nonneg (by positivity : 0 ≤ v 2 ^ 2)
      (by nlinarith : 0 ≤ a ^ 2 - c ^ 2)]
  obtain ⟨l, hl, h1, h2, h3⟩ := quad_root h
  have hd := quad_disc h
  refine ⟨l, ?_, ?_⟩
  · unfold lambdaOblate
    simp only [psqrt_ok hd, Py.bind_ok]
    exact congrArg Except.ok hl
  · have key : ∀ t, confocalPoly a a c v t = (a ^ 2 + t) *
        (t ^ 2 + (a ^ 2 + c ^ 2 - v 0 ^ 2 - v 1 ^ 2 - v 2 ^ 2) * t +
      (a ^ 2 * c ^ 2 - c ^ 2 * (v 0 ^ 2 + v 1 ^ 2) - a ^ 2 * v 2 ^ 2)) := by
      intro t; unfold confocalPoly; ring
    refine ⟨by rw [key, h1, mul_zero], h2, fun t ht => ?_⟩
    rw [key]
    exact mul_pos (by linarith) (h3 t ht)

/-- The confocal equation of a triaxial ellipsoid has three real roots, separated by `-c²` and
`-b²`. -/
theorem three_roots (v : V3) {a b c : ℝ} (hc : 0 < c) (hbc : c < b) (hab : b < a) :
    ∃ r1 r2 r3 : ℝ, r2 ≤ r1 ∧ r3 ≤ r2 ∧ r3 < r1 ∧ -c ^ 2 ≤ r1 ∧
      ∀ t, confocalPoly a b c v t = (t - r1) * (t - r2) * (t - r3) := by
  have hb : 0 < b := hc.trans hbc
  have hcb2 : c ^ 2 < b ^ 2 := by nlinarith
  have hba2 : b ^ 2 < a ^ 2 := by nlinarith
  set M := v 0 ^ 2 + v 1 ^ 2 + v 2 ^ 2 with hM
  have hM0 : 0 ≤ M := by positivity
  have hcont : ContinuousOn (confocalPoly a b c v) (Set.Icc (-c ^ 2) M) := by
    unfold confocalPoly; fun_prop
  have h1 : confocalPoly a b c v (-c ^ 2) ≤ 0 := by
    have : confocalPoly a b c v (-c ^ 2) = -(v 2 ^ 2 * ((a ^ 2 - c ^ 2) * (b ^ 2 - c ^ 2))) := by
      unfold confocalPoly; ring
    rw [this, neg_nonpos]
    exact mul_nonneg (sq_nonneg _) (mul_nonneg (by linarith) (by linarith))
  have h2 : 0 ≤ confocalPoly a b c v M := by
    have e : confocalPoly a b c v M = (a ^ 2 + M) * (b ^ 2 + M) * c ^ 2 +
        v 0 ^ 2 * ((b ^ 2 + M) * (a ^ 2 - c ^ 2)) + v 1 ^ 2 * ((a ^ 2 + M) * (b ^ 2 - c ^ 2)) := by
      unfold confocalPoly; rw [hM]; ring
    rw [e]
    have := mul_nonneg (sq_nonneg (v 0)) (mul_nonneg (by positivity : 0 ≤ b ^ 2 + M)
      (by linarith : 0 ≤ a ^ 2 - c ^ 2))
    have := mul_nonneg (sq_nonneg (v 1)) (mul_nonneg (by positivity : 0 ≤ a ^ 2 + M)
      (by linarith : 0 ≤ b ^ 2 - c ^ 2))
    positivity
  obtain ⟨l, hl, hl0⟩ := intermediate_value_Icc (by nlinarith : -c ^ 2 ≤ M) hcont ⟨h1, h2⟩
  -- factor
  set p0 := a ^ 2 * b ^ 2 * c ^ 2 - b ^ 2 * c ^ 2 * v 0 ^ 2 - c ^ 2 * a ^ 2 * v 1 ^ 2
    - a ^ 2 * b ^ 2 * v 2 ^ 2 with hp0
  set p1 := a ^ 2 * b ^ 2 + b ^ 2 * c ^ 2 + c ^ 2 * a ^ 2 - (b ^ 2 + c ^ 2) * v 0 ^ 2
    - (c ^ 2 + a ^ 2) * v 1 ^ 2 - (a ^ 2 + b ^ 2) * v 2 ^ 2 with hp1
  set p2 := a ^ 2 + b ^ 2 + c ^ 2 - v 0 ^ 2 - v 1 ^ 2 - v 2 ^ 2 with hp2
  have expand : ∀ t, confocalPoly a b c v t = t ^ 3 + p2 * t ^ 2 + p1 * t + p0 := by
    intro t; unfold confocalPoly; rw [hp0, hp1, hp2]; ring
  set s := p2 + l with hs
  set w := p1 + l * s with hw
  have hl0' : p0 = -(l ^ 3 + p2 * l ^ 2 + p1 * l) := by
    have := expand l; rw [hl0] at this; linarith
  have factor : ∀ t, confocalPoly a b c v t = (t - l) * (t ^ 2 + s * t + w) := by
    intro t; rw [expand, hl0', hw, hs]; ring
  have hqb : (-b ^ 2) ^ 2 + s * (-b ^ 2) + w ≤ 0 := by
    have e : confocalPoly a b c v (-b ^ 2) = v 1 ^ 2 * ((a ^ 2 - b ^ 2) * (b ^ 2 - c ^ 2)) := by
      unfold confocalPoly; ring
    have h3 : 0 ≤ confocalPoly a b c v (-b ^ 2) := by
      rw [e]; exact mul_nonneg (sq_nonneg _) (mul_nonneg (by linarith) (by linarith))
    rw [factor] at h3
    have h4 : -b ^ 2 - l < 0 := by linarith [hl.1]
    by_contra hcon
    push Not at hcon
    nlinarith
  have hd : 0 ≤ s ^ 2 - 4 * w := quad_disc hqb
  have hsq := Real.sq_sqrt hd
  have hs0 := Real.sqrt_nonneg (s ^ 2 - 4 * w)
  set D := √(s ^ 2 - 4 * w)
  have hfac : ∀ t, t ^ 2 + s * t + w = (t - (D - s) / 2) * (t - (-D - s) / 2) := by
    intro t
    have : w = (s ^ 2 - D ^ 2) / 4 := by linarith
    rw [this]; ring
  have hlow : (-D - s) / 2 ≤ -b ^ 2 := by
    have h5 : (2 * (-b ^ 2) + s) ^ 2 ≤ D ^ 2 := by nlinarith
    have := abs_le_of_sq_le_sq' h5 hs0
    linarith [this.1]
  rcases le_total l ((D - s) / 2) with hcase | hcase
  · refine ⟨(D - s) / 2, l, (-D - s) / 2, hcase, by linarith [hl.1], by linarith [hl.1],
      hl.1.trans hcase, fun t => ?_⟩
    rw [factor, hfac]; ring
  · refine ⟨l, (D - s) / 2, (-D - s) / 2, hcase, by linarith, by linarith [hl.1], hl.1, fun t => ?_⟩
    rw [factor, hfac]; ring

theorem lambdaTriaxial_spec (v : V3) {a b c : ℝ} (hc : 0 < c) (hbc : c < b) (hab : b < a) :
    ∃ l, lambdaTriaxial v a b c = .ok l ∧ IsLargestRoot a b c v l := by
  obtain ⟨r1, r2, r3, h12, h23, h13, hlow, hf⟩ := three_roots v hc hbc hab
  have e0 : a ^ 2 * b ^ 2 * c ^ 2 - b ^ 2 * c ^ 2 * v 0 ^ 2 - c ^ 2 * a ^ 2 * v 1 ^ 2
    - a ^ 2 * b ^ 2 * v 2 ^ 2 = -(r1 * r2 * r3) := by
    have := hf 0; unfold confocalPoly at this; linarith
  have ep := hf 1
  have em := hf (-1)
  unfold confocalPoly at ep em
  have e2 : a ^ 2 + b ^ 2 + c ^ 2 - v 0 ^ 2 - v 1 ^ 2 - v 2 ^ 2 = -(r1 + r2 + r3) := by
    linarith
  have e1 : a ^ 2 * b ^ 2 + b ^ 2 * c ^ 2 + c ^ 2 * a ^ 2 - (b ^ 2 + c ^ 2) * v 0 ^ 2
    - (c ^ 2 + a ^ 2) * v 1 ^ 2 - (a ^ 2 + b ^ 2) * v 2 ^ 2 = r1 * r2 + r1 * r3 + r2 * r3 := by
    linarith
  obtain ⟨hneg, hv⟩ := viete h12 h23 h13
  refine ⟨r1, ?_, ?_, hlow, ?_⟩
  · unfold lambdaTriaxial
    simp only [e0, e1, e2]
    rw [psqrt_ok (by positivity)]
    simp only [Py.bind_ok]
    rw [pdiv_ok (by have := Real.sqrt_pos.2 (pow_pos hneg 3); positivity)]
    simp only [Py.bind_ok]
    rw [parccos_ok (le_min (le_max_right _ _) (by norm_num)) (min_le_right _ _), psqrt_ok hneg.le]
    simp only [Py.bind_ok]
    exact congrArg Except.ok hv
  · rw [hf, sub_self, zero_mul, zero_mul]
  · intro t ht
    rw [hf]
    exact mul_pos (mul_pos (by linarith) (by linarith)) (by linarith)

theorem calculateLambda_spec (v : V3) {a b c : ℝ} (hc : 0 < c) (hbc : c ≤ b) (hab : b ≤ a) :
    ∃ l, calculateLambda v a b c = .ok l ∧ IsLargestRoot a b c v l := by
  unfold calculateLambda
  rw [sorted_ok hab hbc]
  simp only [Py.bind_ok]
  split_ifs with h1 h2
  · subst h1
    exact lambdaProlate_spec v hc hab
  · subst h2
    exact lambdaOblate_spec v hc (lt_of_le_of_ne hbc (Ne.symm h1))
  · exact lambdaTriaxial_spec v hc (lt_of_le_of_ne hbc (Ne.symm h1)) (lt_of_le_of_ne hab (Ne.symm h2))

/-! ### Inside and outside -/

theorem poly_pos_of_internal {a b c : ℝ} (ha : 0 < a) (hb : 0 < b) (hc : 0 < c) {v : V3}
    (h : quadric a b c v < 1) {t : ℝ} (ht : 0 ≤ t) : 0 < confocalPoly a b c v t := by
  have h1 : v 0 ^ 2 / (a ^ 2 + t) ≤ v 0 ^ 2 / a ^ 2 :=
    div_le_div_of_nonneg_left (by positivity) (by positivity) (by linarith)
  have h2 : v 1 ^ 2 / (b ^ 2 + t) ≤ v 1 ^ 2 / b ^ 2 :=
    div_le_div_of_nonneg_left (by positivity) (by positivity) (by linarith)
  have h3 : v 2 ^ 2 / (c ^ 2 + t) ≤ v 2 ^ 2 / c ^ 2 :=
    div_le_div_of_nonneg_left (by positivity) (by positivity) (by linarith)
  unfold quadric at h
  rw [confocalPoly_eq a b c v t (by positivity) (by positivity) (by positivity)]
  exact mul_pos (by positivity) (by linarith)

theorem largest_neg {a b c : ℝ} (ha : 0 < a) (hb : 0 < b) (hc : 0 < c) {v : V3} {l : ℝ}
    (h : quadric a b c v < 1) (hl : IsLargestRoot a b c v l) : l < 0 := by
  by_contra hcon
  push Not at hcon
  have := poly_pos_of_internal ha hb hc h hcon
  rw [hl.1] at this
  exact lt_irrefl _ this

theorem largest_nonneg {a b c : ℝ} (ha : 0 < a) (hb : 0 < b) (hc : 0 < c) {v : V3} {l : ℝ}
    (h : 1 ≤ quadric a b c v) (hl : IsLargestRoot a b c v l) : 0 ≤ l := by
  by_contra hcon
  push Not at hcon
  have h1 := hl.2.2 0 hcon
  rw [confocalPoly_eq a b c v 0 (by positivity) (by positivity) (by positivity)] at h1
  unfold quadric at h
  simp only [add_zero] at h1
  have : 0 < a ^ 2 * b ^ 2 * c ^ 2 := by positivity
  nlinarith

theorem largest_confocal {a b c : ℝ} (ha : 0 < a) (hb : 0 < b) (hc : 0 < c) {v : V3} {l : ℝ}
    (hl0 : 0 ≤ l) (hl : IsLargestRoot a b c v l) : OnConfocal a b c v l := by
  have h := hl.1
  rw [confocalPoly_eq a b c v l (by positivity) (by positivity) (by positivity)] at h
  have h1 : (a ^ 2 + l) * (b ^ 2 + l) * (c ^ 2 + l) ≠ 0 := by positivity
  have := (mul_eq_zero.1 h).resolve_left h1
  unfold OnConfocal
  linarith

/-- Only one confocal ellipsoid goes through a point. -/
theorem confocal_unique {a b c : ℝ} (hbc : c ^ 2 ≤ b ^ 2) (hab : b ^ 2 ≤ a ^ 2) {v : V3} {l m : ℝ}
    (hl : -c ^ 2 < l) (hm : -c ^ 2 < m) (h1 : OnConfocal a b c v l) (h2 : OnConfocal a b c v m) :
    l = m := by
  wlog hlt : l < m generalizing l m
  · rcases lt_trichotomy l m with h | h | h
    · exact absurd h hlt
    · exact h
    · exact (this hm hl h2 h1 h).symm
  exfalso
  unfold OnConfocal at h1 h2
  have e1 : v 0 ^ 2 / (a ^ 2 + m) ≤ v 0 ^ 2 / (a ^ 2 + l) :=
    div_le_div_of_nonneg_left (sq_nonneg _) (by linarith) (by linarith)
  have e2 : v 1 ^ 2 / (b ^ 2 + m) ≤ v 1 ^ 2 / (b ^ 2 + l) :=
    div_le_div_of_nonneg_left (sq_nonneg _) (by linarith) (by linarith)
  have e3 : v 2 ^ 2 / (c ^ 2 + m) ≤ v 2 ^ 2 / (c ^ 2 + l) :=
    div_le_div_of_nonneg_left (sq_nonneg _) (by linarith) (by linarith)
  have strict : ∀ {x e : ℝ}, 0 < e + l → x ^ 2 / (e + m) = x ^ 2 / (e + l) → x ^ 2 / (e + l) = 0 := by
    intro x e he heq
    rw [div_eq_div_iff (by linarith) he.ne'] at heq
    have : x ^ 2 * (l - m) = 0 := by linarith
    rcases mul_eq_zero.1 this with h | h
    · rw [h, zero_div]
    · exfalso; linarith
  have s1 := strict (x := v 0) (e := a ^ 2) (by linarith) (by linarith)
  have s2 := strict (x := v 1) (e := b ^ 2) (by linarith) (by linarith)
  have s3 := strict (x := v 2) (e := c ^ 2) (by linarith) (by linarith)
  linarith

end Verif.Ellipsoids
