import Verif.Ellipsoids.LemmasC
import Mathlib.MeasureTheory.Integral.DominatedConvergence

/-! Lemmas on the elliptic integrals (sum, derivative, sign) and on the dispatch by shape. -/

namespace Verif.Ellipsoids
open Filter Topology MeasureTheory

/-! ### The integrals -/

/-- All the squared semiaxes plus `u` are positive. -/
def Pos (a b c u : ℝ) : Prop := 0 < a ^ 2 + u ∧ 0 < b ^ 2 + u ∧ 0 < c ^ 2 + u

theorem Pos.mono {a b c u v : ℝ} (h : Pos a b c u) (huv : u ≤ v) : Pos a b c v :=
  ⟨by have := h.1; linarith, by have := h.2.1; linarith, by have := h.2.2; linarith⟩

theorem Pos.zero {a b c : ℝ} (ha : 0 < a) (hb : 0 < b) (hc : 0 < c) : Pos a b c 0 :=
  ⟨by positivity, by positivity, by positivity⟩

theorem Pos.of_sorted {a b c l : ℝ} (hc : 0 < c) (hbc : c ≤ b) (hab : b ≤ a) (hl : -c ^ 2 < l) :
    Pos a b c l :=
  ⟨by nlinarith, by nlinarith, by linarith⟩

theorem Pos.root {a b c u : ℝ} (h : Pos a b c u) : 0 < rootProduct a b c u :=
  Real.sqrt_pos.2 (mul_pos (mul_pos h.1 h.2.1) h.2.2)

theorem Pos.root_eq {a b c u : ℝ} (h : Pos a b c u) :
    rootProduct a b c u = √(a ^ 2 + u) * √(b ^ 2 + u) * √(c ^ 2 + u) :=
  rootProduct_triaxial h.1.le h.2.1.le

theorem Pos.root_sq {a b c u : ℝ} (h : Pos a b c u) :
    rootProduct a b c u ^ 2 = (a ^ 2 + u) * (b ^ 2 + u) * (c ^ 2 + u) :=
  Real.sq_sqrt (mul_pos (mul_pos h.1 h.2.1) h.2.2).le

/-- integrand -/
noncomputable def density (a b c e u : ℝ) : ℝ := 1 / ((e ^ 2 + u) * rootProduct a b c u)

/-- Derivative of `-2 / R`. -/
theorem two_div_root_deriv {a b c u : ℝ} (h : Pos a b c u) :
    HasDerivAt (fun u => -(2 / rootProduct a b c u))
      (density a b c a u + density a b c b u + density a b c c u) u := by
  have h1 : HasDerivAt (fun u => (a ^ 2 + u) * (b ^ 2 + u) * (c ^ 2 + u))
      ((b ^ 2 + u) * (c ^ 2 + u) + (a ^ 2 + u) * (c ^ 2 + u) + (a ^ 2 + u) * (b ^ 2 + u)) u := by
    have k : ∀ x : ℝ, HasDerivAt (fun u : ℝ => x + u) 1 u := fun x => by
      simpa using (hasDerivAt_id u).const_add x
    refine (((k (a ^ 2)).mul (k (b ^ 2))).mul (k (c ^ 2))).congr_deriv ?_
    simp only [Pi.mul_apply]
    ring
  have hR := h.root
  have h2 := h1.sqrt (mul_pos (mul_pos h.1 h.2.1) h.2.2).ne'
  have h3 := ((hasDerivAt_const u (2 : ℝ)).div h2 hR.ne').neg
  refine h3.congr_deriv ?_
  have hs := h.root_sq
  unfold density
  change -((0 * rootProduct a b c u - 2 * (_ / (2 * rootProduct a b c u))) / rootProduct a b c u ^ 2) = _
  have h1 := h.1.ne'
  have h2 := h.2.1.ne'
  have h3 := h.2.2.ne'
  rw [hs]
  field_simp
  ring

theorem two_div_root_lim (a b c : ℝ) : Tendsto (fun u => -(2 / rootProduct a b c u)) atTop (𝓝 0) := by
  have h : Tendsto (fun u => rootProduct a b c u) atTop atTop := by
    unfold rootProduct
    refine Real.tendsto_sqrt_atTop.comp ?_
    exact ((tendsto_add_const_atTop _).atTop_mul_atTop₀ (tendsto_add_const_atTop _)).atTop_mul_atTop₀
      (tendsto_add_const_atTop _)
  have := (tendsto_const_nhds (x := (2 : ℝ))).div_atTop h
  simpa using this.neg

theorem density_nonneg {a b c e u : ℝ} (he : 0 ≤ e ^ 2 + u) : 0 ≤ density a b c e u :=
  div_nonneg zero_le_one (mul_nonneg he (Real.sqrt_nonneg _))

theorem density_continuousAt {a b c e u : ℝ} (h : Pos a b c u) (he : 0 < e ^ 2 + u) :
    ContinuousAt (density a b c e) u := by
  unfold density rootProduct
  refine ContinuousAt.div continuousAt_const (by fun_prop) ?_
  exact (mul_pos he h.root).ne'

theorem density_measurable (a b c e : ℝ) : Measurable (density a b c e) := by
  unfold density rootProduct
  fun_prop

theorem integrable_sum {a b c l : ℝ} (h : Pos a b c l) : IntegrableOn
    (fun u => density a b c a u + density a b c b u + density a b c c u) (Set.Ioi l) :=
  integrableOn_Ioi_deriv_of_nonneg (two_div_root_deriv h).continuousAt.continuousWithinAt
    (fun u hu => two_div_root_deriv (h.mono (le_of_lt hu)))
    (fun u hu => by
      have := h.mono (le_of_lt hu)
      exact add_nonneg (add_nonneg (density_nonneg this.1.le) (density_nonneg this.2.1.le))
        (density_nonneg this.2.2.le)) (two_div_root_lim a b c)

theorem integrable_density {a b c e l : ℝ} (h : Pos a b c l) (he : e = a ∨ e = b ∨ e = c) :
    IntegrableOn (density a b c e) (Set.Ioi l) := by
  refine (integrable_sum h).mono' (density_measurable a b c e).aestronglyMeasurable ?_
  rw [ae_restrict_iff' measurableSet_Ioi]
  refine ae_of_all _ fun u hu => ?_
  have hp := h.mono (le_of_lt hu)
  have h1 := density_nonneg (a := a) (b := b) (c := c) hp.1.le
  have h2 := density_nonneg (a := a) (b := b) (c := c) hp.2.1.le
  have h3 := density_nonneg (a := a) (b := b) (c := c) hp.2.2.le
  rcases he with rfl | rfl | rfl <;> rw [Real.norm_of_nonneg (by assumption)] <;> linarith

/-- The three integrals add up to `2 / R`. -/
theorem ellipticIntegral_sum {a b c l : ℝ} (h : Pos a b c l) :
    ellipticIntegral a b c a l + ellipticIntegral a b c b l + ellipticIntegral a b c c l =
      2 / rootProduct a b c l := by
  have key := integral_Ioi_of_hasDerivAt_of_nonneg
    (two_div_root_deriv h).continuousAt.continuousWithinAt
    (fun u hu => two_div_root_deriv (h.mono (le_of_lt hu)))
    (fun u hu => by
      have := h.mono (le_of_lt hu)
      exact add_nonneg (add_nonneg (density_nonneg this.1.le) (density_nonneg this.2.1.le))
        (density_nonneg this.2.2.le)) (two_div_root_lim a b c)
  have ia := integrable_density h (Or.inl rfl)
  have ib := integrable_density h (Or.inr (Or.inl rfl))
  have ic := integrable_density h (Or.inr (Or.inr rfl))
  have e1 := integral_add (ia.add ib) ic
  have e2 := integral_add ia ib
  simp only [Pi.add_apply] at e1
  rw [e1, e2] at key
  rw [zero_sub, neg_neg] at key
  exact key

theorem ellipticIntegral_deriv {a b c e l : ℝ} (h : Pos a b c l) (he : e = a ∨ e = b ∨ e = c) :
    HasDerivAt (ellipticIntegral a b c e) (-(1 / ((e ^ 2 + l) * rootProduct a b c l))) l := by
  have hopen : ∃ l0 < l, Pos a b c l0 := by
    refine ⟨l - min (a ^ 2 + l) (min (b ^ 2 + l) (c ^ 2 + l)) / 2, ?_, ?_⟩
    · have : 0 < min (a ^ 2 + l) (min (b ^ 2 + l) (c ^ 2 + l)) := lt_min h.1 (lt_min h.2.1 h.2.2)
      linarith
    · have h1 := min_le_left (a ^ 2 + l) (min (b ^ 2 + l) (c ^ 2 + l))
      have h2 := (min_le_right (a ^ 2 + l) (min (b ^ 2 + l) (c ^ 2 + l)))
      have h3 := h2.trans (min_le_left _ _)
      have h4 := h2.trans (min_le_right _ _)
      exact ⟨by have := h.1; linarith, by have := h.2.1; linarith, by have := h.2.2; linarith⟩
  obtain ⟨l0, hl0, hp0⟩ := hopen
  have hpe : ∀ u, l0 ≤ u → 0 < e ^ 2 + u := by
    intro u hu
    have := hp0.mono hu
    rcases he with rfl | rfl | rfl
    · exact this.1
    · exact this.2.1
    · exact this.2.2
  have hi := integrable_density hp0 he
  have hii : IntervalIntegrable (density a b c e) volume l0 l :=
    (intervalIntegrable_iff_integrableOn_Ioc_of_le hl0.le).2 (hi.mono_set Set.Ioc_subset_Ioi_self)
  have hF : HasDerivAt (fun u => ∫ t in l0..u, density a b c e t) (density a b c e l) l :=
    intervalIntegral.integral_hasDerivAt_right hii
      ((density_measurable a b c e).stronglyMeasurable.stronglyMeasurableAtFilter)
      (density_continuousAt h (hpe l hl0.le))
  have hF2 := (hF.const_sub (∫ t in Set.Ioi l0, density a b c e t))
  refine (hF2.congr_of_eventuallyEq ?_).congr_deriv rfl
  filter_upwards [eventually_gt_nhds hl0] with u hu
  have := intervalIntegral.integral_interval_add_Ioi hi (hi.mono_set (Set.Ioi_subset_Ioi hu.le))
  change ∫ t in Set.Ioi u, density a b c e t = _
  rw [← this]; ring

theorem ellipticIntegral_pos {a b c e l : ℝ} (h : Pos a b c l) (he : e = a ∨ e = b ∨ e = c) :
    0 < ellipticIntegral a b c e l := by
  have hpe : ∀ u, l < u → 0 < e ^ 2 + u := by
    intro u hu
    have := h.mono hu.le
    rcases he with rfl | rfl | rfl
    · exact this.1
    · exact this.2.1
    · exact this.2.2
  have hpos : ∀ u ∈ Set.Ioi l, 0 < density a b c e u := fun u hu =>
    one_div_pos.2 (mul_pos (hpe u hu) (h.mono (le_of_lt hu)).root)
  change 0 < ∫ u in Set.Ioi l, density a b c e u
  rw [setIntegral_pos_iff_support_of_nonneg_ae]
  · have : Function.support (density a b c e) ∩ Set.Ioi l = Set.Ioi l := by
      ext u
      simp only [Set.mem_inter_iff, Function.mem_support, and_iff_right_iff_imp]
      exact fun hu => (hpos u hu).ne'
    rw [this]; simp
  · rw [EventuallyLE, ae_restrict_iff' measurableSet_Ioi]
    exact ae_of_all _ fun u hu => (hpos u hu).le
  · exact integrable_density h he

/-- The integral of a sphere. -/
theorem ellipticIntegral_sphere {a l : ℝ} (h : 0 < a ^ 2 + l) :
    ellipticIntegral a a a a l = 2 / (3 * √(a ^ 2 + l) ^ 3) := by
  have hp : Pos a a a l := ⟨h, h, h⟩
  have := ellipticIntegral_sum hp
  have hs := Real.sqrt_pos.2 h
  rw [hp.root_eq] at this
  have e : 3 * ellipticIntegral a a a a l = 2 / √(a ^ 2 + l) ^ 3 := by
    rw [show √(a ^ 2 + l) ^ 3 = √(a ^ 2 + l) * √(a ^ 2 + l) * √(a ^ 2 + l) by ring, ← this]; ring
  rw [mul_comm 3, ← div_div, ← e]; ring

/-! ### Dispatch -/

theorem close_self {x : ℝ} (h : 0 < x) : Close x x := by
  unfold Close; simp; positivity

theorem semiaxesRtol_eq : semiaxesRtol = 1e-5 := rfl

open Classical in
theorem isAlmostASphere_eq {a b c : ℝ} (hc : 0 < c) (hbc : c ≤ b) (hab : b ≤ a) :
    isAlmostASphere a b c = .ok (decide (Close a b ∧ Close b c)) := by
  have hb : 0 < b := hc.trans_le hbc
  have ha : 0 < a := hb.trans_le hab
  unfold isAlmostASphere
  rw [sorted_ok hab hbc]
  change (if a = b ∧ b = c then Except.ok true
    else if b = c ∧ Close a b then .ok true
    else if a = b ∧ Close b c then .ok true
    else if (a ≠ b ∧ b ≠ c) ∧ Close a b ∧ Close b c then .ok true
    else .ok false) = _
  have h1 : a = b → Close a b := fun h => h ▸ close_self ha
  have h2 : b = c → Close b c := fun h => h ▸ close_self hb
  by_cases e1 : a = b <;> by_cases e2 : b = c <;> by_cases k1 : Close a b <;>
    by_cases k2 : Close b c <;> simp_all

open Classical in
theorem isAlmostProlate_eq {a b c : ℝ} (hc : 0 < c) (hbc : c ≤ b) (hab : b ≤ a) :
    isAlmostProlate a b c = .ok (decide (Close b c)) := by
  unfold isAlmostProlate
  rw [sorted_ok hab hbc]
  change (if a > b ∧ b = c then Except.ok true
    else if Close b c then .ok true else .ok false) = _
  have h2 : b = c → Close b c := fun h => h ▸ close_self (hc.trans_le hbc)
  by_cases e2 : b = c <;> by_cases k2 : Close b c <;> simp_all

open Classical in
theorem isAlmostOblate_eq {a b c : ℝ} (hc : 0 < c) (hbc : c ≤ b) (hab : b ≤ a) :
    isAlmostOblate a b c = .ok (decide (Close a b)) := by
  unfold isAlmostOblate
  rw [sorted_ok hab hbc]
  change (if a = b ∧ b > c then Except.ok true
    else if Close a b then .ok true else .ok false) = _
  have h2 : a = b → Close a b := fun h => h ▸ close_self ((hc.trans_le hbc).trans_le hab)
  by_cases e2 : a = b <;> by_cases k2 : Close a b <;> simp_all

/-! ### The integrals of every shape -/

theorem effective_sorted {a b c : ℝ} (hc : 0 < c) (hbc : c ≤ b) (hab : b ≤ a) :
    0 < effective a b c 2 ∧ c ≤ effective a b c 2 ∧ effective a b c 2 ≤ effective a b c 1 ∧
      effective a b c 1 ≤ effective a b c 0 := by
  unfold effective
  split_ifs <;> simp <;> (refine ⟨?_, ?_⟩ <;> first | linarith | (refine ⟨?_, ?_⟩ <;> linarith))

theorem effective_resolved {a b c : ℝ} (h : Resolved a b c) : effective a b c = ![a, b, c] := by
  unfold effective
  split_ifs with h1 h2
  · rw [h.2 h1]
  · rw [h.1 h2]
  · rfl

/-- The integrals of the ellipsoid with semiaxes `s`. -/
noncomputable def integralsOf (s : V3) (l : ℝ) : V3 :=
  fun i => ellipticIntegral (s 0) (s 1) (s 2) (s i) l

theorem integralsOf_eq (x y z l : ℝ) : integralsOf ![x, y, z] l =
    ![ellipticIntegral x y z x l, ellipticIntegral x y z y l, ellipticIntegral x y z z l] := by
  ext i; fin_cases i <;> rfl

/-- `getEllipticalIntegrals` returns the integrals of the effective ellipsoid. -/
theorem getEllipticalIntegrals_spec {a b c l : ℝ} (hc : 0 < c) (hbc : c ≤ b) (hab : b ≤ a)
    (hs : ¬(Close a b ∧ Close b c)) (hl : -c ^ 2 < l) :
    getEllipticalIntegrals a b c l = .ok (integralsOf (effective a b c) l) := by
  classical
  have hb : 0 < b := hc.trans_le hbc
  unfold getEllipticalIntegrals effective
  rw [sorted_ok hab hbc, isAlmostASphere_eq hc hbc hab, isAlmostProlate_eq hc hbc hab,
    isAlmostOblate_eq hc hbc hab]
  simp only [Py.bind_ok, decide_eq_true_eq, if_neg hs]
  by_cases h1 : Close b c
  · rw [if_pos h1, if_pos h1, integralsOf_eq]
    have h2 : ¬Close a b := fun h => hs ⟨h, h1⟩
    have : b < a := lt_of_le_of_ne hab fun h => h2 (h ▸ close_self hb)
    exact integralsProlate_spec hb this (by nlinarith)
  · have h1' : c < b := lt_of_le_of_ne hbc fun h => h1 (h ▸ close_self hc)
    rw [if_neg h1, if_neg h1]
    by_cases h2 : Close a b
    · rw [if_pos h2, if_pos h2, integralsOf_eq]
      exact integralsOblate_spec hc h1' hl
    · rw [if_neg h2, if_neg h2, integralsOf_eq]
      have h2' : b < a := lt_of_le_of_ne hab fun h => h2 (h ▸ close_self hb)
      rw [if_pos ⟨h2', h1'⟩]
      exact integralsTriaxial_spec hc h1' h2' hl

theorem getEllipticalIntegrals_sphere {a b c l : ℝ} (hc : 0 < c) (hbc : c ≤ b) (hab : b ≤ a)
    (hs : Close a b ∧ Close b c) : getEllipticalIntegrals a b c l = .error .ValueError := by
  classical
  unfold getEllipticalIntegrals
  rw [sorted_ok hab hbc, isAlmostASphere_eq hc hbc hab]
  simp only [Py.bind_ok, decide_eq_true_eq, if_pos hs]
  rfl

theorem rootProduct_zero {a b c : ℝ} (ha : 0 < a) (hb : 0 < b) (hc : 0 < c) :
    rootProduct a b c 0 = a * b * c := by
  unfold rootProduct
  simp only [add_zero]
  rw [show a ^ 2 * b ^ 2 * c ^ 2 = (a * b * c) ^ 2 by ring]
  exact Real.sqrt_sq (by positivity)

/-! ### Internal demagnetization factors -/

theorem demagProlateInternal_spec {a b : ℝ} (hb : 0 < b) (hab : b < a) :
    demagProlateInternal a b = .ok (fun i => a * b * b / 2 * integralsOf ![a, b, b] 0 i) := by
  have ha : 0 < a := hb.trans hab
  have hab2 : 0 < a ^ 2 - b ^ 2 := by nlinarith
  have hs := Real.sqrt_pos.2 hab2
  have hsum := ellipticIntegral_sum (Pos.zero ha hb hb)
  rw [rootProduct_zero ha hb hb] at hsum
  have hm : (a / b) ^ 2 - 1 = (a ^ 2 - b ^ 2) / b ^ 2 := by field_simp
  have hm0 : 0 < (a / b) ^ 2 - 1 := by rw [hm]; positivity
  have hsq : √((a / b) ^ 2 - 1) = √(a ^ 2 - b ^ 2) / b := by
    rw [hm, Real.sqrt_div hab2.le, Real.sqrt_sq hb.le]
  have hsp : 0 < √((a / b) ^ 2 - 1) := Real.sqrt_pos.2 hm0
  have hfirst := integral_of_primitive (e := a) (l := 0) (fun u hu => by positivity)
    (fun u hu => prolate_first hab2 (by positivity)) (prolate_first_lim a b)
  unfold prolateLog at hfirst
  simp only [add_zero, Real.sqrt_sq ha.le, Real.sqrt_sq hb.le] at hfirst
  have hlog : (√(a ^ 2 - b ^ 2) + a) / b = a / b + √((a / b) ^ 2 - 1) := by rw [hsq]; ring
  rw [hlog] at hfirst
  unfold demagProlateInternal checkGreater
  simp only [gt_iff_lt, hab, not_true_eq_false, if_false, Py.bind_ok, pdiv_ok hb.ne',
    psqrt_ok hm0.le, pdiv_ok hm0.ne', pdiv_ok hsp.ne', plog_ok (add_pos (div_pos ha hb) hsp)]
  have hx : 1 / ((a / b) ^ 2 - 1) * (a / b / √((a / b) ^ 2 - 1) *
      Real.log (a / b + √((a / b) ^ 2 - 1)) - 1) = a * b * b / 2 * ellipticIntegral a b b a 0 := by
    rw [hfirst]
    generalize Real.log (a / b + √((a / b) ^ 2 - 1)) = L
    rw [hsq, hm]
    have e1 := Real.sq_sqrt hab2.le
    rw [← e1]
    field_simp
    simp only [Real.sqrt_sq hs.le]
  refine congrArg Except.ok ?_
  rw [hx]
  have hy : 0.5 * (1 - a * b * b / 2 * ellipticIntegral a b b a 0) =
      a * b * b / 2 * ellipticIntegral a b b b 0 := by
    have : a * b * b / 2 * (ellipticIntegral a b b a 0 + ellipticIntegral a b b b 0 +
        ellipticIntegral a b b b 0) = 1 := by rw [hsum]; field_simp
    norm_num
    linarith
  rw [hy]
  ext i; fin_cases i <;> rfl

theorem demagOblateInternal_spec {b c : ℝ} (hc : 0 < c) (hbc : c < b) :
    demagOblateInternal b c = .ok (fun i => b * b * c / 2 * integralsOf ![b, b, c] 0 i) := by
  have hb : 0 < b := hc.trans hbc
  have hbc2 : 0 < b ^ 2 - c ^ 2 := by nlinarith
  have hs := Real.sqrt_pos.2 hbc2
  have hsum := ellipticIntegral_sum (Pos.zero hb hb hc)
  rw [rootProduct_zero hb hb hc] at hsum
  have hm : 1 - (c / b) ^ 2 = (b ^ 2 - c ^ 2) / b ^ 2 := by field_simp
  have hm0 : 0 < 1 - (c / b) ^ 2 := by rw [hm]; positivity
  have hsq : √(1 - (c / b) ^ 2) = √(b ^ 2 - c ^ 2) / b := by
    rw [hm, Real.sqrt_div hbc2.le, Real.sqrt_sq hb.le]
  have hsp : 0 < √(1 - (c / b) ^ 2) := Real.sqrt_pos.2 hm0
  have hthird := integral_of_primitive (e := c) (l := 0) (fun u hu => by positivity)
    (fun u hu => oblate_third hbc2 (by positivity)) (oblate_third_lim b c)
  simp only [add_zero, Real.sqrt_sq hc.le] at hthird
  have hat : Real.arctan (√(b ^ 2 - c ^ 2) / c) = Real.arccos (c / b) := by
    rw [Real.arccos_eq_arctan (by positivity), hsq]
    congr 1
    field_simp
  rw [hat] at hthird
  have h1 : c / b ≤ 1 := (div_le_one hb).2 hbc.le
  unfold demagOblateInternal checkGreater
  simp only [gt_iff_lt, hbc, not_true_eq_false, if_false, Py.bind_ok, pdiv_ok hb.ne',
    psqrt_ok hm0.le, pdiv_ok hm0.ne', pdiv_ok hsp.ne',
    parccos_ok (by have := div_pos hc hb; linarith) h1]
  have hz : 1 / (1 - (c / b) ^ 2) * (1 - c / b / √(1 - (c / b) ^ 2) * Real.arccos (c / b)) =
      b * b * c / 2 * ellipticIntegral b b c c 0 := by
    rw [hthird]
    generalize Real.arccos (c / b) = L
    rw [hsq, hm]
    have e1 := Real.sq_sqrt hbc2.le
    rw [← e1]
    field_simp
    simp only [Real.sqrt_sq hs.le]
  refine congrArg Except.ok ?_
  rw [hz]
  have hy : 0.5 * (1 - b * b * c / 2 * ellipticIntegral b b c c 0) =
      b * b * c / 2 * ellipticIntegral b b c b 0 := by
    have : b * b * c / 2 * (ellipticIntegral b b c b 0 + ellipticIntegral b b c b 0 +
        ellipticIntegral b b c c 0) = 1 := by rw [hsum]; field_simp
    norm_num
    linarith
  rw [hy]
  ext i; fin_cases i <;> rfl

theorem demagTriaxialInternal_spec {a b c : ℝ} (hc : 0 < c) (hbc : c < b) (hab : b < a) :
    demagTriaxialInternal a b c = .ok (fun i => a * b * c / 2 * integralsOf ![a, b, c] 0 i) := by
  have hb : 0 < b := hc.trans hbc
  have ha : 0 < a := hb.trans hab
  have hab2 : 0 < a ^ 2 - b ^ 2 := by nlinarith
  have hbc2 : 0 < b ^ 2 - c ^ 2 := by nlinarith
  have hac2 : 0 < a ^ 2 - c ^ 2 := by linarith
  have hs := Real.sqrt_pos.2 hac2
  have hsum := ellipticIntegral_sum (Pos.zero ha hb hc)
  rw [rootProduct_zero ha hb hc] at hsum
  have hfirst := integral_of_primitive (e := a) (l := 0) (fun u hu => by positivity)
    (fun u hu => triaxial_first hab2 hbc2 (by positivity)) (triaxial_first_lim hab2 hbc2)
  have hthird := integral_of_primitive (e := c) (l := 0) (fun u hu => by positivity)
    (fun u hu => triaxial_third hab2 hbc2 (by positivity)) (triaxial_third_lim a b c)
  have hamp : amplitude a c 0 = Real.arccos (c / a) := by
    unfold amplitude
    rw [Real.arccos_eq_arcsin (by positivity), add_zero, Real.sqrt_sq ha.le]
    congr 1
    rw [show 1 - (c / a) ^ 2 = (a ^ 2 - c ^ 2) / a ^ 2 by field_simp, Real.sqrt_div hac2.le,
      Real.sqrt_sq ha.le]
  simp only [hamp, add_zero, Real.sqrt_sq ha.le, Real.sqrt_sq hb.le, Real.sqrt_sq hc.le] at hfirst hthird
  have h1 : c / a ≤ 1 := (div_le_one ha).2 (hbc.trans hab).le
  unfold demagTriaxialInternal checkTriaxial
  simp only [gt_iff_lt, hab, hbc, and_self, not_true_eq_false, if_false, Py.bind_ok, pdiv_ok ha.ne',
    parccos_ok (by have := div_pos hc ha; linarith) h1, pdiv_ok hac2.ne', psqrt_ok hac2.le,
    pdiv_ok (mul_pos hs hab2).ne', pdiv_ok (mul_pos hs hbc2).ne', pdiv_ok hbc2.ne']
  change Except.ok ![_ * (ellipkinc _ (modulus a b c) - ellipeinc _ (modulus a b c)),
    -1 * (_ * (ellipkinc _ (modulus a b c) - ellipeinc _ (modulus a b c))) +
      _ * ellipeinc _ (modulus a b c) - _, -1 * _ * ellipeinc _ (modulus a b c) + _] = _
  generalize ellipkinc (Real.arccos (c / a)) (modulus a b c) = K at *
  generalize ellipeinc (Real.arccos (c / a)) (modulus a b c) = E at *
  have hx : a * b * c / (√(a ^ 2 - c ^ 2) * (a ^ 2 - b ^ 2)) * (K - E) =
      a * b * c / 2 * ellipticIntegral a b c a 0 := by
    rw [hfirst]; field_simp
  have hz : -1 * (a * b * c / (√(a ^ 2 - c ^ 2) * (b ^ 2 - c ^ 2))) * E + b ^ 2 / (b ^ 2 - c ^ 2) =
      a * b * c / 2 * ellipticIntegral a b c c 0 := by
    rw [hthird]; field_simp
  have hone : b ^ 2 / (b ^ 2 - c ^ 2) - c ^ 2 / (b ^ 2 - c ^ 2) = 1 := by
    rw [← sub_div]; exact div_self hbc2.ne'
  refine congrArg Except.ok ?_
  rw [hx, hz]
  have hy : -1 * (a * b * c / 2 * ellipticIntegral a b c a 0) +
      a * b * c / (√(a ^ 2 - c ^ 2) * (b ^ 2 - c ^ 2)) * E - c ^ 2 / (b ^ 2 - c ^ 2) =
      a * b * c / 2 * ellipticIntegral a b c b 0 := by
    have : a * b * c / 2 * (ellipticIntegral a b c a 0 + ellipticIntegral a b c b 0 +
        ellipticIntegral a b c c 0) = 1 := by rw [hsum]; field_simp
    linarith
  rw [hy]
  ext i; fin_cases i <;> rfl

/-- Product of the semiaxes. -/
noncomputable def prod3 (s : V3) : ℝ := s 0 * s 1 * s 2

theorem demagInternal_spec {a b c : ℝ} (hc : 0 < c) (hbc : c ≤ b) (hab : b ≤ a)
    (hs : ¬(Close a b ∧ Close b c)) : getDemagnetizationTensorInternal a b c =
      .ok (Matrix.diagonal fun i =>
        prod3 (effective a b c) / 2 * integralsOf (effective a b c) 0 i) := by
  classical
  have hb : 0 < b := hc.trans_le hbc
  unfold getDemagnetizationTensorInternal effective
  rw [sorted_ok hab hbc, isAlmostASphere_eq hc hbc hab, isAlmostProlate_eq hc hbc hab,
    isAlmostOblate_eq hc hbc hab]
  simp only [Py.bind_ok, decide_eq_true_eq, if_neg hs]
  by_cases h1 : Close b c
  · have h2 : ¬Close a b := fun h => hs ⟨h, h1⟩
    have : b < a := lt_of_le_of_ne hab fun h => h2 (h ▸ close_self hb)
    rw [if_pos h1, if_pos h1, demagProlateInternal_spec hb this]
    rfl
  · have h1' : c < b := lt_of_le_of_ne hbc fun h => h1 (h ▸ close_self hc)
    rw [if_neg h1, if_neg h1]
    by_cases h2 : Close a b
    · rw [if_pos h2, if_pos h2, demagOblateInternal_spec hc h1']
      rfl
    · rw [if_neg h2, if_neg h2]
      have h2' : b < a := lt_of_le_of_ne hab fun h => h2 (h ▸ close_self hb)
      rw [if_pos ⟨h2', h1'⟩, demagTriaxialInternal_spec hc h1' h2']
      rfl

theorem demagInternal_sphere {a b c : ℝ} (hc : 0 < c) (hbc : c ≤ b) (hab : b ≤ a)
    (hs : Close a b ∧ Close b c) :
    getDemagnetizationTensorInternal a b c = .ok (Matrix.diagonal fun _ => 1 / 3) := by
  classical
  unfold getDemagnetizationTensorInternal
  rw [sorted_ok hab hbc, isAlmostASphere_eq hc hbc hab]
  simp only [Py.bind_ok, decide_eq_true_eq, if_pos hs, mul_one]
  rfl

end Verif.Ellipsoids
