import Verif.Ellipsoids.Lemmas
import Mathlib.Analysis.SpecialFunctions.Sqrt
import Mathlib.Analysis.SpecialFunctions.Log.Deriv
import Mathlib.Analysis.SpecialFunctions.Trigonometric.ArctanDeriv
import Mathlib.Analysis.SpecialFunctions.Trigonometric.InverseDeriv
import Mathlib.MeasureTheory.Integral.IntervalIntegral.FundThmCalculus

/-! Lemmas on the elliptic integrals: derivatives and limits of the closed forms. -/

namespace Verif.Ellipsoids
open Filter Topology

/-- A primitive that vanishes at infinity gives the integral. -/
theorem integral_of_primitive {a b c e l : ℝ} {G : ℝ → ℝ}
    (hpos : ∀ u, l ≤ u → 0 ≤ e ^ 2 + u)
    (hderiv : ∀ u, l ≤ u → HasDerivAt G (-(1 / ((e ^ 2 + u) * rootProduct a b c u))) u)
    (hlim : Tendsto G atTop (𝓝 0)) : ellipticIntegral a b c e l = G l := by
  have h := MeasureTheory.integral_Ioi_of_hasDerivAt_of_nonneg (g := fun u => -G u)
    (g' := fun u => 1 / ((e ^ 2 + u) * rootProduct a b c u)) (a := l) (l := 0)
    (hderiv l le_rfl).continuousAt.neg.continuousWithinAt
    (fun u hu => (hderiv u (le_of_lt hu)).neg.congr_deriv (neg_neg _))
    (fun u hu => div_nonneg zero_le_one (mul_nonneg (hpos u (le_of_lt hu)) (Real.sqrt_nonneg _)))
    (by simpa using hlim.neg)
  unfold ellipticIntegral
  rw [h]; ring

theorem tendsto_add_const_atTop (k : ℝ) : Tendsto (fun u : ℝ => k + u) atTop atTop :=
  tendsto_atTop_add_const_left _ _ tendsto_id

theorem tendsto_sqrt_atTop (k : ℝ) : Tendsto (fun u : ℝ => √(k + u)) atTop atTop :=
  Real.tendsto_sqrt_atTop.comp (tendsto_add_const_atTop k)

theorem tendsto_const_div (x k : ℝ) : Tendsto (fun u : ℝ => x / (k + u)) atTop (𝓝 0) :=
  tendsto_const_nhds.div_atTop (tendsto_add_const_atTop k)

theorem tendsto_const_div_sqrt (x k : ℝ) : Tendsto (fun u : ℝ => x / √(k + u)) atTop (𝓝 0) :=
  tendsto_const_nhds.div_atTop (tendsto_sqrt_atTop k)

theorem hasDerivAt_sqrt_add {k u : ℝ} (h : 0 < k + u) :
    HasDerivAt (fun u => √(k + u)) (1 / (2 * √(k + u))) u := by
  have h1 : HasDerivAt (fun u : ℝ => k + u) 1 u := by
    simpa using (hasDerivAt_id u).const_add k
  simpa using h1.sqrt h.ne'

/-- quotient of the roots of two of the squared semiaxes tends to one -/
theorem tendsto_sqrt_ratio (x y : ℝ) :
    Tendsto (fun u : ℝ => √(x + u) / √(y + u)) atTop (𝓝 1) := by
  have h1 : Tendsto (fun u : ℝ => √(1 + (x - y) / (y + u))) atTop (𝓝 1) := by
    have := ((tendsto_const_div (x - y) y).const_add 1).sqrt
    simpa using this
  refine h1.congr' ?_
  filter_upwards [eventually_gt_atTop (max (-y) (-x))] with u hu
  have h2 : 0 < y + u := by have := (le_max_left (-y) (-x)).trans_lt hu; linarith
  have h3 : 0 < x + u := by have := (le_max_right (-y) (-x)).trans_lt hu; linarith
  rw [← Real.sqrt_div h3.le]
  congr 1
  field_simp
  ring

/-! ### Prolate -/

theorem rootProduct_prolate {a b u : ℝ} (hb : 0 ≤ b ^ 2 + u) :
    rootProduct a b b u = √(a ^ 2 + u) * √(b ^ 2 + u) ^ 2 := by
  unfold rootProduct
  rw [mul_assoc, mul_comm, Real.sqrt_mul (mul_nonneg hb hb), Real.sqrt_mul_self hb,
    Real.sq_sqrt hb]
  ring

/-- `log((sqrt_e + sqrt_l1) / sqrt_l2)` -/
noncomputable def prolateLog (a b u : ℝ) : ℝ :=
  Real.log ((√(a ^ 2 - b ^ 2) + √(a ^ 2 + u)) / √(b ^ 2 + u))

theorem prolateLog_deriv {a b u : ℝ} (hab : 0 < a ^ 2 - b ^ 2) (hu : 0 < b ^ 2 + u) :
    HasDerivAt (prolateLog a b) (-√(a ^ 2 - b ^ 2) / (2 * √(a ^ 2 + u) * (b ^ 2 + u))) u := by
  have ha : 0 < a ^ 2 + u := by linarith
  have hs := Real.sqrt_pos.2 hab
  have hα := Real.sqrt_pos.2 ha
  have hβ := Real.sqrt_pos.2 hu
  have h1 := ((hasDerivAt_sqrt_add ha).const_add (√(a ^ 2 - b ^ 2))).div (hasDerivAt_sqrt_add hu) hβ.ne'
  have h2 := h1.log (div_pos (add_pos hs hα) hβ).ne'
  refine h2.congr_deriv ?_
  have e1 := Real.sq_sqrt hab.le
  have e2 := Real.sq_sqrt ha.le
  have e3 := Real.sq_sqrt hu.le
  set s := √(a ^ 2 - b ^ 2)
  set α := √(a ^ 2 + u)
  set β := √(b ^ 2 + u)
  have e4 : b ^ 2 + u = β ^ 2 := e3.symm
  have e5 : β ^ 2 = (α - s) * (α + s) := by nlinarith
  have e6 : ((fun x => s + √(a ^ 2 + x)) / fun u => √(b ^ 2 + u)) u = (s + α) / β := rfl
  rw [e6, e4]
  have hsa : s + α ≠ 0 := (add_pos hs hα).ne'
  field_simp
  rw [e5]
  ring

theorem prolateLog_lim (a b : ℝ) : Tendsto (prolateLog a b) atTop (𝓝 0) := by
  have h : Tendsto (fun u : ℝ => (√(a ^ 2 - b ^ 2) + √(a ^ 2 + u)) / √(b ^ 2 + u)) atTop (𝓝 1) := by
    have := (tendsto_const_div_sqrt (√(a ^ 2 - b ^ 2)) (b ^ 2)).add (tendsto_sqrt_ratio (a ^ 2) (b ^ 2))
    simp only [zero_add] at this
    refine this.congr fun u => ?_
    rw [add_div]
  have := h.log one_ne_zero
  rw [Real.log_one] at this
  exact this

theorem prolate_first {a b u : ℝ} (hab : 0 < a ^ 2 - b ^ 2) (hu : 0 < b ^ 2 + u) :
    HasDerivAt (fun u => 2 / √(a ^ 2 - b ^ 2) ^ 3 *
      (prolateLog a b u - √(a ^ 2 - b ^ 2) / √(a ^ 2 + u)))
      (-(1 / ((a ^ 2 + u) * rootProduct a b b u))) u := by
  have ha : 0 < a ^ 2 + u := by linarith
  have hs := Real.sqrt_pos.2 hab
  have hα := Real.sqrt_pos.2 ha
  have hβ := Real.sqrt_pos.2 hu
  have h1 := ((hasDerivAt_const u (√(a ^ 2 - b ^ 2))).div (hasDerivAt_sqrt_add ha) hα.ne')
  have h2 := ((prolateLog_deriv hab hu).sub h1).const_mul (2 / √(a ^ 2 - b ^ 2) ^ 3)
  refine h2.congr_deriv ?_
  rw [rootProduct_prolate hu.le]
  have e1 := Real.sq_sqrt hab.le
  have e2 := Real.sq_sqrt ha.le
  have e3 := Real.sq_sqrt hu.le
  set s := √(a ^ 2 - b ^ 2)
  set α := √(a ^ 2 + u)
  set β := √(b ^ 2 + u)
  have e5 : β ^ 2 = α ^ 2 - s ^ 2 := by linarith
  rw [← e3, ← e2]
  field_simp
  rw [e5]; ring

theorem prolate_second {a b u : ℝ} (hab : 0 < a ^ 2 - b ^ 2) (hu : 0 < b ^ 2 + u) :
    HasDerivAt (fun u => 1 / √(a ^ 2 - b ^ 2) ^ 3 *
      (√(a ^ 2 - b ^ 2) * √(a ^ 2 + u) / (b ^ 2 + u) - prolateLog a b u))
      (-(1 / ((b ^ 2 + u) * rootProduct a b b u))) u := by
  have ha : 0 < a ^ 2 + u := by linarith
  have hs := Real.sqrt_pos.2 hab
  have hα := Real.sqrt_pos.2 ha
  have hβ := Real.sqrt_pos.2 hu
  have h0 : HasDerivAt (fun u : ℝ => b ^ 2 + u) 1 u := by
    simpa using (hasDerivAt_id u).const_add (b ^ 2)
  have h1 := (((hasDerivAt_sqrt_add ha).const_mul (√(a ^ 2 - b ^ 2))).div h0 hu.ne')
  have h2 := (h1.sub (prolateLog_deriv hab hu)).const_mul (1 / √(a ^ 2 - b ^ 2) ^ 3)
  refine h2.congr_deriv ?_
  rw [rootProduct_prolate hu.le]
  have e1 := Real.sq_sqrt hab.le
  have e2 := Real.sq_sqrt ha.le
  have e3 := Real.sq_sqrt hu.le
  set s := √(a ^ 2 - b ^ 2)
  set α := √(a ^ 2 + u)
  set β := √(b ^ 2 + u)
  have e5 : β ^ 2 = α ^ 2 - s ^ 2 := by linarith
  rw [← e3]
  field_simp
  rw [e5]; ring

theorem prolate_first_lim (a b : ℝ) : Tendsto (fun u => 2 / √(a ^ 2 - b ^ 2) ^ 3 *
      (prolateLog a b u - √(a ^ 2 - b ^ 2) / √(a ^ 2 + u))) atTop (𝓝 0) := by
  have := ((prolateLog_lim a b).sub (tendsto_const_div_sqrt (√(a ^ 2 - b ^ 2)) (a ^ 2))).const_mul
    (2 / √(a ^ 2 - b ^ 2) ^ 3)
  simpa using this

theorem tendsto_sqrt_div (x y : ℝ) : Tendsto (fun u : ℝ => √(x + u) / (y + u)) atTop (𝓝 0) := by
  have h := (tendsto_sqrt_ratio x y).mul (tendsto_const_div_sqrt 1 y)
  simp only [mul_zero] at h
  refine h.congr' ?_
  filter_upwards [eventually_gt_atTop (-y)] with u hu
  have h2 : 0 < y + u := by linarith
  have h3 := Real.sqrt_pos.2 h2
  have h4 := Real.mul_self_sqrt h2.le
  rw [div_mul_div_comm, h4, mul_one]

theorem prolate_second_lim (a b : ℝ) : Tendsto (fun u => 1 / √(a ^ 2 - b ^ 2) ^ 3 *
      (√(a ^ 2 - b ^ 2) * √(a ^ 2 + u) / (b ^ 2 + u) - prolateLog a b u)) atTop (𝓝 0) := by
  have := (((tendsto_sqrt_div (a ^ 2) (b ^ 2)).const_mul (√(a ^ 2 - b ^ 2))).sub
    (prolateLog_lim a b)).const_mul (1 / √(a ^ 2 - b ^ 2) ^ 3)
  simpa [mul_div_assoc] using this

/-- The closed forms of the prolate ellipsoid are the integrals. -/
theorem integralsProlate_spec {a b l : ℝ} (hb : 0 < b) (hab : b < a) (hl : -b ^ 2 < l) :
    integralsProlate a b l = .ok ![ellipticIntegral a b b a l, ellipticIntegral a b b b l,
      ellipticIntegral a b b b l] := by
  have hab2 : 0 < a ^ 2 - b ^ 2 := by nlinarith
  have hu : 0 < b ^ 2 + l := by linarith
  have ha : 0 < a ^ 2 + l := by linarith
  have hs := Real.sqrt_pos.2 hab2
  have hα := Real.sqrt_pos.2 ha
  have hβ := Real.sqrt_pos.2 hu
  rw [integral_of_primitive (e := a) (l := l) (fun u hu => by linarith)
    (fun u hu => prolate_first hab2 (by linarith)) (prolate_first_lim a b),
    integral_of_primitive (e := b) (l := l) (fun u hu => by linarith)
    (fun u hu => prolate_second hab2 (by linarith)) (prolate_second_lim a b)]
  unfold integralsProlate checkGreater
  simp only [gt_iff_lt, hab, not_true_eq_false, if_false, Py.bind_ok, psqrt_ok hab2.le,
    psqrt_ok ha.le, psqrt_ok hu.le, pdiv_ok hβ.ne', pdiv_ok hα.ne', pdiv_ok hu.ne',
    pdiv_ok (pow_pos hs 3).ne', plog_ok (div_pos (add_pos hs hα) hβ)]
  rfl

/-! ### Oblate -/

theorem rootProduct_oblate {b c u : ℝ} (hb : 0 ≤ b ^ 2 + u) :
    rootProduct b b c u = (b ^ 2 + u) * √(c ^ 2 + u) := by
  unfold rootProduct
  rw [Real.sqrt_mul (mul_nonneg hb hb), Real.sqrt_mul_self hb]

theorem oblateAtan_deriv {b c u : ℝ} (hbc : 0 < b ^ 2 - c ^ 2) (hu : 0 < c ^ 2 + u) :
    HasDerivAt (fun u => Real.arctan (√(b ^ 2 - c ^ 2) / √(c ^ 2 + u)))
      (-√(b ^ 2 - c ^ 2) / (2 * √(c ^ 2 + u) * (b ^ 2 + u))) u := by
  have hb : 0 < b ^ 2 + u := by linarith
  have hs := Real.sqrt_pos.2 hbc
  have hγ := Real.sqrt_pos.2 hu
  have h1 := ((hasDerivAt_const u (√(b ^ 2 - c ^ 2))).div (hasDerivAt_sqrt_add hu) hγ.ne').arctan
  refine h1.congr_deriv ?_
  have e1 := Real.sq_sqrt hbc.le
  have e3 := Real.sq_sqrt hu.le
  set s := √(b ^ 2 - c ^ 2)
  set γ := √(c ^ 2 + u)
  have e5 : b ^ 2 + u = γ ^ 2 + s ^ 2 := by linarith
  simp only [Pi.div_apply]
  rw [e5]
  have : γ ^ 2 + s ^ 2 ≠ 0 := by positivity
  field_simp
  ring

theorem oblate_first {b c u : ℝ} (hbc : 0 < b ^ 2 - c ^ 2) (hu : 0 < c ^ 2 + u) :
    HasDerivAt (fun u => 1 / √(b ^ 2 - c ^ 2) ^ 3 *
      (Real.arctan (√(b ^ 2 - c ^ 2) / √(c ^ 2 + u)) -
        √(b ^ 2 - c ^ 2) * √(c ^ 2 + u) / (b ^ 2 + u)))
      (-(1 / ((b ^ 2 + u) * rootProduct b b c u))) u := by
  have hb : 0 < b ^ 2 + u := by linarith
  have hs := Real.sqrt_pos.2 hbc
  have hγ := Real.sqrt_pos.2 hu
  have h0 : HasDerivAt (fun u : ℝ => b ^ 2 + u) 1 u := by
    simpa using (hasDerivAt_id u).const_add (b ^ 2)
  have h1 := (((hasDerivAt_sqrt_add hu).const_mul (√(b ^ 2 - c ^ 2))).div h0 hb.ne')
  have h2 := ((oblateAtan_deriv hbc hu).sub h1).const_mul (1 / √(b ^ 2 - c ^ 2) ^ 3)
  refine h2.congr_deriv ?_
  rw [rootProduct_oblate hb.le]
  have e1 := Real.sq_sqrt hbc.le
  have e3 := Real.sq_sqrt hu.le
  set s := √(b ^ 2 - c ^ 2)
  set γ := √(c ^ 2 + u)
  have e5 : b ^ 2 + u = γ ^ 2 + s ^ 2 := by linarith
  rw [e5]
  have : γ ^ 2 + s ^ 2 ≠ 0 := by positivity
  field_simp
  ring

theorem oblate_third {b c u : ℝ} (hbc : 0 < b ^ 2 - c ^ 2) (hu : 0 < c ^ 2 + u) :
    HasDerivAt (fun u => 2 / √(b ^ 2 - c ^ 2) ^ 3 *
      (√(b ^ 2 - c ^ 2) / √(c ^ 2 + u) - Real.arctan (√(b ^ 2 - c ^ 2) / √(c ^ 2 + u))))
      (-(1 / ((c ^ 2 + u) * rootProduct b b c u))) u := by
  have hb : 0 < b ^ 2 + u := by linarith
  have hs := Real.sqrt_pos.2 hbc
  have hγ := Real.sqrt_pos.2 hu
  have h1 := ((hasDerivAt_const u (√(b ^ 2 - c ^ 2))).div (hasDerivAt_sqrt_add hu) hγ.ne')
  have h2 := (h1.sub (oblateAtan_deriv hbc hu)).const_mul (2 / √(b ^ 2 - c ^ 2) ^ 3)
  refine h2.congr_deriv ?_
  rw [rootProduct_oblate hb.le]
  have e1 := Real.sq_sqrt hbc.le
  have e3 := Real.sq_sqrt hu.le
  set s := √(b ^ 2 - c ^ 2)
  set γ := √(c ^ 2 + u)
  have e5 : b ^ 2 + u = γ ^ 2 + s ^ 2 := by linarith
  rw [e5, ← e3]
  have : γ ^ 2 + s ^ 2 ≠ 0 := by positivity
  field_simp
  ring

theorem oblateAtan_lim (b c : ℝ) :
    Tendsto (fun u => Real.arctan (√(b ^ 2 - c ^ 2) / √(c ^ 2 + u))) atTop (𝓝 0) := by
  have := (Real.continuous_arctan.tendsto 0).comp (tendsto_const_div_sqrt (√(b ^ 2 - c ^ 2)) (c ^ 2))
  rw [Real.arctan_zero] at this
  exact this

theorem oblate_first_lim (b c : ℝ) : Tendsto (fun u => 1 / √(b ^ 2 - c ^ 2) ^ 3 *
      (Real.arctan (√(b ^ 2 - c ^ 2) / √(c ^ 2 + u)) -
        √(b ^ 2 - c ^ 2) * √(c ^ 2 + u) / (b ^ 2 + u))) atTop (𝓝 0) := by
  have := ((oblateAtan_lim b c).sub ((tendsto_sqrt_div (c ^ 2) (b ^ 2)).const_mul
    (√(b ^ 2 - c ^ 2)))).const_mul (1 / √(b ^ 2 - c ^ 2) ^ 3)
  simpa [mul_div_assoc] using this

theorem oblate_third_lim (b c : ℝ) : Tendsto (fun u => 2 / √(b ^ 2 - c ^ 2) ^ 3 *
      (√(b ^ 2 - c ^ 2) / √(c ^ 2 + u) - Real.arctan (√(b ^ 2 - c ^ 2) / √(c ^ 2 + u))))
      atTop (𝓝 0) := by
  have := ((tendsto_const_div_sqrt (√(b ^ 2 - c ^ 2)) (c ^ 2)).sub (oblateAtan_lim b c)).const_mul
    (2 / √(b ^ 2 - c ^ 2) ^ 3)
  simpa using this

theorem rpow_three_halves {x : ℝ} (h : 0 ≤ x) : x ^ (3 / 2 : ℝ) = √x ^ 3 := by
  rw [Real.sqrt_eq_rpow, ← Real.rpow_natCast, ← Real.rpow_mul h]
  norm_num

/-- The closed forms of the oblate ellipsoid are the integrals. -/
theorem integralsOblate_spec {b c l : ℝ} (hc : 0 < c) (hbc : c < b) (hl : -c ^ 2 < l) :
    integralsOblate b c l = .ok ![ellipticIntegral b b c b l, ellipticIntegral b b c b l,
      ellipticIntegral b b c c l] := by
  have hbc2 : 0 < b ^ 2 - c ^ 2 := by nlinarith
  have hu : 0 < c ^ 2 + l := by linarith
  have hb : 0 < b ^ 2 + l := by linarith
  have hs := Real.sqrt_pos.2 hbc2
  have hγ := Real.sqrt_pos.2 hu
  rw [integral_of_primitive (e := b) (l := l) (fun u hu => by linarith)
    (fun u hu => oblate_first hbc2 (by linarith)) (oblate_first_lim b c),
    integral_of_primitive (e := c) (l := l) (fun u hu => by linarith)
    (fun u hu => oblate_third hbc2 (by linarith)) (oblate_third_lim b c)]
  unfold integralsOblate checkGreater
  simp only [gt_iff_lt, hbc, not_true_eq_false, if_false, Py.bind_ok, pdiv_ok hu.ne',
    psqrt_ok (div_nonneg hbc2.le hu.le), ppow_ok _ hbc2.le, rpow_three_halves hbc2.le,
    pdiv_ok (pow_pos hs 3).ne', psqrt_ok (mul_nonneg hbc2.le hu.le), pdiv_ok hb.ne',
    Real.sqrt_div hbc2.le, Real.sqrt_mul hbc2.le]
  rfl

/-! ### Triaxial -/

theorem ellipkinc_deriv {m phi : ℝ} (h0 : 0 ≤ m) (h1 : m < 1) :
    HasDerivAt (fun p => ellipkinc p m) (1 / √(1 - m * Real.sin phi ^ 2)) phi := by
  have hc : Continuous fun t : ℝ => 1 / √(1 - m * Real.sin t ^ 2) := by
    refine continuous_const.div (by fun_prop) fun t => ?_
    refine (Real.sqrt_pos.2 ?_).ne'
    nlinarith [Real.sin_sq_le_one t, sq_nonneg (Real.sin t)]
  exact intervalIntegral.integral_hasDerivAt_right (hc.intervalIntegrable _ _)
    (hc.stronglyMeasurableAtFilter _ _) hc.continuousAt

theorem ellipeinc_deriv (m phi : ℝ) :
    HasDerivAt (fun p => ellipeinc p m) (√(1 - m * Real.sin phi ^ 2)) phi := by
  have hc : Continuous fun t : ℝ => √(1 - m * Real.sin t ^ 2) := by fun_prop
  exact intervalIntegral.integral_hasDerivAt_right (hc.intervalIntegrable _ _)
    (hc.stronglyMeasurableAtFilter _ _) hc.continuousAt

theorem ellipkinc_zero (m : ℝ) : ellipkinc 0 m = 0 := by simp [ellipkinc]
theorem ellipeinc_zero (m : ℝ) : ellipeinc 0 m = 0 := by simp [ellipeinc]

theorem rootProduct_triaxial {a b c u : ℝ} (ha : 0 ≤ a ^ 2 + u) (hb : 0 ≤ b ^ 2 + u) :
    rootProduct a b c u = √(a ^ 2 + u) * √(b ^ 2 + u) * √(c ^ 2 + u) := by
  unfold rootProduct
  rw [Real.sqrt_mul (mul_nonneg ha hb), Real.sqrt_mul ha]

/-- the amplitude of the elliptic integrals -/
noncomputable def amplitude (a c u : ℝ) : ℝ := Real.arcsin (√(a ^ 2 - c ^ 2) / √(a ^ 2 + u))

theorem amplitude_arg {a c u : ℝ} (hac : 0 < a ^ 2 - c ^ 2) (hu : 0 < c ^ 2 + u) :
    0 < √(a ^ 2 - c ^ 2) / √(a ^ 2 + u) ∧ √(a ^ 2 - c ^ 2) / √(a ^ 2 + u) < 1 ∧
    (√(a ^ 2 - c ^ 2) / √(a ^ 2 + u)) ^ 2 = (a ^ 2 - c ^ 2) / (a ^ 2 + u) := by
  have ha : 0 < a ^ 2 + u := by linarith
  have hs := Real.sqrt_pos.2 hac
  have hα := Real.sqrt_pos.2 ha
  refine ⟨by positivity, ?_, ?_⟩
  · rw [div_lt_one hα]; exact Real.sqrt_lt_sqrt hac.le (by linarith)
  · rw [div_pow, Real.sq_sqrt hac.le, Real.sq_sqrt ha.le]

theorem sin_amplitude {a c u : ℝ} (hac : 0 < a ^ 2 - c ^ 2) (hu : 0 < c ^ 2 + u) :
    Real.sin (amplitude a c u) ^ 2 = (a ^ 2 - c ^ 2) / (a ^ 2 + u) := by
  obtain ⟨h1, h2, h3⟩ := amplitude_arg hac hu
  unfold amplitude
  rw [Real.sin_arcsin (by linarith) h2.le, h3]

theorem amplitude_deriv {a c u : ℝ} (hac : 0 < a ^ 2 - c ^ 2) (hu : 0 < c ^ 2 + u) :
    HasDerivAt (amplitude a c) (-√(a ^ 2 - c ^ 2) / (2 * (a ^ 2 + u) * √(c ^ 2 + u))) u := by
  obtain ⟨h1, h2, h3⟩ := amplitude_arg hac hu
  have ha : 0 < a ^ 2 + u := by linarith
  have hs := Real.sqrt_pos.2 hac
  have hα := Real.sqrt_pos.2 ha
  have hγ := Real.sqrt_pos.2 hu
  have k1 := (hasDerivAt_const u (√(a ^ 2 - c ^ 2))).div (hasDerivAt_sqrt_add ha) hα.ne'
  have k2 := (Real.hasDerivAt_arcsin (x := √(a ^ 2 - c ^ 2) / √(a ^ 2 + u)) (by linarith)
    (by linarith)).comp u k1
  refine k2.congr_deriv ?_
  have e0 : 1 - (√(a ^ 2 - c ^ 2) / √(a ^ 2 + u)) ^ 2 = (c ^ 2 + u) / (a ^ 2 + u) := by
    rw [h3]; field_simp; ring
  rw [e0, Real.sqrt_div hu.le]
  have e2 := Real.sq_sqrt ha.le
  set s := √(a ^ 2 - c ^ 2)
  set α := √(a ^ 2 + u)
  set γ := √(c ^ 2 + u)
  rw [← e2]
  field_simp
  ring

theorem amplitude_lim (a c : ℝ) : Tendsto (amplitude a c) atTop (𝓝 0) := by
  have := (Real.continuous_arcsin.tendsto 0).comp (tendsto_const_div_sqrt (√(a ^ 2 - c ^ 2)) (a ^ 2))
  rw [Real.arcsin_zero] at this
  exact this

/-- modulus of the elliptic integrals -/
noncomputable def modulus (a b c : ℝ) : ℝ := (a ^ 2 - b ^ 2) / (a ^ 2 - c ^ 2)

theorem modulus_bounds {a b c : ℝ} (hab : 0 < a ^ 2 - b ^ 2) (hbc : 0 < b ^ 2 - c ^ 2) :
    0 ≤ modulus a b c ∧ modulus a b c < 1 := by
  unfold modulus
  constructor
  · exact div_nonneg hab.le (by linarith)
  · rw [div_lt_one (by linarith)]; linarith

theorem delta_amplitude {a b c u : ℝ} (hac : 0 < a ^ 2 - c ^ 2) (hu : 0 < c ^ 2 + u)
    (hb : 0 < b ^ 2 + u) :
    √(1 - modulus a b c * Real.sin (amplitude a c u) ^ 2) = √(b ^ 2 + u) / √(a ^ 2 + u) := by
  have ha : 0 < a ^ 2 + u := by linarith
  rw [sin_amplitude hac hu, ← Real.sqrt_div hb.le]
  congr 1
  unfold modulus
  field_simp
  ring

theorem F_deriv {a b c u : ℝ} (hab : 0 < a ^ 2 - b ^ 2) (hbc : 0 < b ^ 2 - c ^ 2)
    (hu : 0 < c ^ 2 + u) :
    HasDerivAt (fun u => ellipkinc (amplitude a c u) (modulus a b c))
      (-√(a ^ 2 - c ^ 2) / (2 * √(a ^ 2 + u) * √(b ^ 2 + u) * √(c ^ 2 + u))) u := by
  have hac : 0 < a ^ 2 - c ^ 2 := by linarith
  have hb : 0 < b ^ 2 + u := by linarith
  have ha : 0 < a ^ 2 + u := by linarith
  have hm := modulus_bounds hab hbc
  have h := (ellipkinc_deriv (phi := amplitude a c u) hm.1 hm.2).comp u (amplitude_deriv hac hu)
  refine h.congr_deriv ?_
  rw [delta_amplitude hac hu hb]
  have hs := Real.sqrt_pos.2 hac
  have hα := Real.sqrt_pos.2 ha
  have hβ := Real.sqrt_pos.2 hb
  have hγ := Real.sqrt_pos.2 hu
  have e2 := Real.sq_sqrt ha.le
  set s := √(a ^ 2 - c ^ 2)
  set α := √(a ^ 2 + u)
  set γ := √(c ^ 2 + u)
  rw [← e2]
  field_simp

theorem E_deriv {a b c u : ℝ} (hab : 0 < a ^ 2 - b ^ 2) (hbc : 0 < b ^ 2 - c ^ 2)
    (hu : 0 < c ^ 2 + u) :
    HasDerivAt (fun u => ellipeinc (amplitude a c u) (modulus a b c))
      (-√(a ^ 2 - c ^ 2) * √(b ^ 2 + u) / (2 * √(a ^ 2 + u) ^ 3 * √(c ^ 2 + u))) u := by
  have hac : 0 < a ^ 2 - c ^ 2 := by linarith
  have hb : 0 < b ^ 2 + u := by linarith
  have ha : 0 < a ^ 2 + u := by linarith
  have h := (ellipeinc_deriv (modulus a b c) (amplitude a c u)).comp u (amplitude_deriv hac hu)
  refine h.congr_deriv ?_
  rw [delta_amplitude hac hu hb]
  have hs := Real.sqrt_pos.2 hac
  have hα := Real.sqrt_pos.2 ha
  have hβ := Real.sqrt_pos.2 hb
  have hγ := Real.sqrt_pos.2 hu
  have e2 := Real.sq_sqrt ha.le
  set s := √(a ^ 2 - c ^ 2)
  set α := √(a ^ 2 + u)
  set γ := √(c ^ 2 + u)
  rw [← e2]
  field_simp

theorem F_lim {a b c : ℝ} (hab : 0 < a ^ 2 - b ^ 2) (hbc : 0 < b ^ 2 - c ^ 2) :
    Tendsto (fun u => ellipkinc (amplitude a c u) (modulus a b c)) atTop (𝓝 0) := by
  have hm := modulus_bounds hab hbc
  have h := (ellipkinc_deriv (phi := 0) hm.1 hm.2).continuousAt.tendsto.comp (amplitude_lim a c)
  rw [ellipkinc_zero] at h
  exact h

theorem E_lim (a b c : ℝ) :
    Tendsto (fun u => ellipeinc (amplitude a c u) (modulus a b c)) atTop (𝓝 0) := by
  have h := (ellipeinc_deriv (modulus a b c) 0).continuousAt.tendsto.comp (amplitude_lim a c)
  rw [ellipeinc_zero] at h
  exact h

/-- `sqrt((y + u) / ((x + u) (z + u)))` -/
theorem root_quot_deriv {x y z u : ℝ} (hx : 0 < x + u) (hy : 0 < y + u) (hz : 0 < z + u) :
    HasDerivAt (fun u => √(y + u) / (√(x + u) * √(z + u)))
      (((x + u) * (z + u) - (y + u) * (z + u) - (y + u) * (x + u)) /
        (2 * √(y + u) * √(x + u) ^ 3 * √(z + u) ^ 3)) u := by
  have hα := Real.sqrt_pos.2 hx
  have hβ := Real.sqrt_pos.2 hy
  have hγ := Real.sqrt_pos.2 hz
  have h := (hasDerivAt_sqrt_add hy).div ((hasDerivAt_sqrt_add hx).mul (hasDerivAt_sqrt_add hz))
    (mul_pos hα hγ).ne'
  refine h.congr_deriv ?_
  have e1 := Real.sq_sqrt hx.le
  have e2 := Real.sq_sqrt hy.le
  have e3 := Real.sq_sqrt hz.le
  simp only [Pi.mul_apply]
  set α := √(x + u)
  set β := √(y + u)
  set γ := √(z + u)
  rw [← e1, ← e2, ← e3]
  field_simp
  ring

theorem root_quot_lim (x y z : ℝ) :
    Tendsto (fun u => √(y + u) / (√(x + u) * √(z + u))) atTop (𝓝 0) := by
  have h := (tendsto_sqrt_ratio y x).mul (tendsto_const_div_sqrt 1 z)
  simp only [mul_zero] at h
  refine h.congr fun u => ?_
  rw [div_mul_div_comm, mul_one]

theorem triaxial_first {a b c u : ℝ} (hab : 0 < a ^ 2 - b ^ 2) (hbc : 0 < b ^ 2 - c ^ 2)
    (hu : 0 < c ^ 2 + u) :
    HasDerivAt (fun u => 2 / ((a ^ 2 - b ^ 2) * √(a ^ 2 - c ^ 2)) *
      (ellipkinc (amplitude a c u) (modulus a b c) - ellipeinc (amplitude a c u) (modulus a b c)))
      (-(1 / ((a ^ 2 + u) * rootProduct a b c u))) u := by
  have hac : 0 < a ^ 2 - c ^ 2 := by linarith
  have hb : 0 < b ^ 2 + u := by linarith
  have ha : 0 < a ^ 2 + u := by linarith
  have hs := Real.sqrt_pos.2 hac
  have hα := Real.sqrt_pos.2 ha
  have hβ := Real.sqrt_pos.2 hb
  have hγ := Real.sqrt_pos.2 hu
  have h := ((F_deriv hab hbc hu).sub (E_deriv hab hbc hu)).const_mul
    (2 / ((a ^ 2 - b ^ 2) * √(a ^ 2 - c ^ 2)))
  refine h.congr_deriv ?_
  rw [rootProduct_triaxial ha.le hb.le]
  have e1 := Real.sq_sqrt ha.le
  have e2 := Real.sq_sqrt hb.le
  set s := √(a ^ 2 - c ^ 2)
  set α := √(a ^ 2 + u)
  set β := √(b ^ 2 + u)
  set γ := √(c ^ 2 + u)
  have e4 : a ^ 2 - b ^ 2 = α ^ 2 - β ^ 2 := by linarith
  rw [← e1, e4]
  have : α ^ 2 - β ^ 2 ≠ 0 := by rw [← e4]; exact hab.ne'
  field_simp
  ring

theorem triaxial_second {a b c u : ℝ} (hab : 0 < a ^ 2 - b ^ 2) (hbc : 0 < b ^ 2 - c ^ 2)
    (hu : 0 < c ^ 2 + u) :
    HasDerivAt (fun u => 2 * √(a ^ 2 - c ^ 2) / ((a ^ 2 - b ^ 2) * (b ^ 2 - c ^ 2)) *
      (ellipeinc (amplitude a c u) (modulus a b c) -
        (b ^ 2 - c ^ 2) / (a ^ 2 - c ^ 2) * ellipkinc (amplitude a c u) (modulus a b c) -
        (a ^ 2 - b ^ 2) / √(a ^ 2 - c ^ 2) * (√(c ^ 2 + u) / (√(a ^ 2 + u) * √(b ^ 2 + u)))))
      (-(1 / ((b ^ 2 + u) * rootProduct a b c u))) u := by
  have hac : 0 < a ^ 2 - c ^ 2 := by linarith
  have hb : 0 < b ^ 2 + u := by linarith
  have ha : 0 < a ^ 2 + u := by linarith
  have hs := Real.sqrt_pos.2 hac
  have hα := Real.sqrt_pos.2 ha
  have hβ := Real.sqrt_pos.2 hb
  have hγ := Real.sqrt_pos.2 hu
  have h := (((E_deriv hab hbc hu).sub ((F_deriv hab hbc hu).const_mul
    ((b ^ 2 - c ^ 2) / (a ^ 2 - c ^ 2)))).sub ((root_quot_deriv ha hu hb).const_mul
    ((a ^ 2 - b ^ 2) / √(a ^ 2 - c ^ 2)))).const_mul
    (2 * √(a ^ 2 - c ^ 2) / ((a ^ 2 - b ^ 2) * (b ^ 2 - c ^ 2)))
  refine h.congr_deriv ?_
  rw [rootProduct_triaxial ha.le hb.le]
  have e0 := Real.sq_sqrt hac.le
  have e1 := Real.sq_sqrt ha.le
  have e2 := Real.sq_sqrt hb.le
  have e3 := Real.sq_sqrt hu.le
  set s := √(a ^ 2 - c ^ 2)
  set α := √(a ^ 2 + u)
  set β := √(b ^ 2 + u)
  set γ := √(c ^ 2 + u)
  have e4 : a ^ 2 - b ^ 2 = α ^ 2 - β ^ 2 := by linarith
  have e5 : b ^ 2 - c ^ 2 = β ^ 2 - γ ^ 2 := by linarith
  have e6 : s ^ 2 = α ^ 2 - γ ^ 2 := by linarith
  rw [← e0, ← e1, ← e2, ← e3, e4, e5]
  have : α ^ 2 - β ^ 2 ≠ 0 := by rw [← e4]; exact hab.ne'
  have : β ^ 2 - γ ^ 2 ≠ 0 := by rw [← e5]; exact hbc.ne'
  field_simp
  rw [e6]
  ring

theorem triaxial_third {a b c u : ℝ} (hab : 0 < a ^ 2 - b ^ 2) (hbc : 0 < b ^ 2 - c ^ 2)
    (hu : 0 < c ^ 2 + u) :
    HasDerivAt (fun u => -(2 / ((b ^ 2 - c ^ 2) * √(a ^ 2 - c ^ 2))) *
      ellipeinc (amplitude a c u) (modulus a b c) + 2 / (b ^ 2 - c ^ 2) *
        (√(b ^ 2 + u) / (√(a ^ 2 + u) * √(c ^ 2 + u))))
      (-(1 / ((c ^ 2 + u) * rootProduct a b c u))) u := by
  have hac : 0 < a ^ 2 - c ^ 2 := by linarith
  have hb : 0 < b ^ 2 + u := by linarith
  have ha : 0 < a ^ 2 + u := by linarith
  have hs := Real.sqrt_pos.2 hac
  have hα := Real.sqrt_pos.2 ha
  have hβ := Real.sqrt_pos.2 hb
  have hγ := Real.sqrt_pos.2 hu
  have h := ((E_deriv hab hbc hu).const_mul (-(2 / ((b ^ 2 - c ^ 2) * √(a ^ 2 - c ^ 2))))).add
    ((root_quot_deriv ha hb hu).const_mul (2 / (b ^ 2 - c ^ 2)))
  refine h.congr_deriv ?_
  rw [rootProduct_triaxial ha.le hb.le]
  have e0 := Real.sq_sqrt hac.le
  have e1 := Real.sq_sqrt ha.le
  have e2 := Real.sq_sqrt hb.le
  have e3 := Real.sq_sqrt hu.le
  set s := √(a ^ 2 - c ^ 2)
  set α := √(a ^ 2 + u)
  set β := √(b ^ 2 + u)
  set γ := √(c ^ 2 + u)
  have e5 : b ^ 2 - c ^ 2 = β ^ 2 - γ ^ 2 := by linarith
  have e6 : s ^ 2 = α ^ 2 - γ ^ 2 := by linarith
  rw [← e1, ← e2, ← e3, e5]
  have : β ^ 2 - γ ^ 2 ≠ 0 := by rw [← e5]; exact hbc.ne'
  field_simp
  ring

theorem triaxial_first_lim {a b c : ℝ} (hab : 0 < a ^ 2 - b ^ 2) (hbc : 0 < b ^ 2 - c ^ 2) :
    Tendsto (fun u => 2 / ((a ^ 2 - b ^ 2) * √(a ^ 2 - c ^ 2)) *
      (ellipkinc (amplitude a c u) (modulus a b c) - ellipeinc (amplitude a c u) (modulus a b c)))
      atTop (𝓝 0) := by
  have := ((F_lim hab hbc).sub (E_lim a b c)).const_mul (2 / ((a ^ 2 - b ^ 2) * √(a ^ 2 - c ^ 2)))
  simpa using this

theorem triaxial_second_lim {a b c : ℝ} (hab : 0 < a ^ 2 - b ^ 2) (hbc : 0 < b ^ 2 - c ^ 2) :
    Tendsto (fun u => 2 * √(a ^ 2 - c ^ 2) / ((a ^ 2 - b ^ 2) * (b ^ 2 - c ^ 2)) *
      (ellipeinc (amplitude a c u) (modulus a b c) -
        (b ^ 2 - c ^ 2) / (a ^ 2 - c ^ 2) * ellipkinc (amplitude a c u) (modulus a b c) -
        (a ^ 2 - b ^ 2) / √(a ^ 2 - c ^ 2) * (√(c ^ 2 + u) / (√(a ^ 2 + u) * √(b ^ 2 + u)))))
      atTop (𝓝 0) := by
  have := (((E_lim a b c).sub ((F_lim hab hbc).const_mul ((b ^ 2 - c ^ 2) / (a ^ 2 - c ^ 2)))).sub
    ((root_quot_lim (a ^ 2) (c ^ 2) (b ^ 2)).const_mul ((a ^ 2 - b ^ 2) / √(a ^ 2 - c ^ 2)))).const_mul
    (2 * √(a ^ 2 - c ^ 2) / ((a ^ 2 - b ^ 2) * (b ^ 2 - c ^ 2)))
  simpa using this

theorem triaxial_third_lim (a b c : ℝ) :
    Tendsto (fun u => -(2 / ((b ^ 2 - c ^ 2) * √(a ^ 2 - c ^ 2))) *
      ellipeinc (amplitude a c u) (modulus a b c) + 2 / (b ^ 2 - c ^ 2) *
        (√(b ^ 2 + u) / (√(a ^ 2 + u) * √(c ^ 2 + u)))) atTop (𝓝 0) := by
  have := ((E_lim a b c).const_mul (-(2 / ((b ^ 2 - c ^ 2) * √(a ^ 2 - c ^ 2))))).add
    ((root_quot_lim (a ^ 2) (b ^ 2) (c ^ 2)).const_mul (2 / (b ^ 2 - c ^ 2)))
  simpa using this

/-- The closed forms of the triaxial ellipsoid are the integrals. -/
theorem integralsTriaxial_spec {a b c l : ℝ} (hc : 0 < c) (hbc : c < b) (hab : b < a)
    (hl : -c ^ 2 < l) :
    integralsTriaxial a b c l = .ok ![ellipticIntegral a b c a l, ellipticIntegral a b c b l,
      ellipticIntegral a b c c l] := by
  have hab2 : 0 < a ^ 2 - b ^ 2 := by nlinarith
  have hbc2 : 0 < b ^ 2 - c ^ 2 := by nlinarith
  have hac2 : 0 < a ^ 2 - c ^ 2 := by linarith
  have hu : 0 < c ^ 2 + l := by linarith
  have hb : 0 < b ^ 2 + l := by linarith
  have ha : 0 < a ^ 2 + l := by linarith
  have hs := Real.sqrt_pos.2 hac2
  obtain ⟨k1, k2, k3⟩ := amplitude_arg hac2 hu
  rw [integral_of_primitive (e := a) (l := l) (fun u hu => by linarith)
    (fun u hu => triaxial_first hab2 hbc2 (by linarith)) (triaxial_first_lim hab2 hbc2),
    integral_of_primitive (e := b) (l := l) (fun u hu => by linarith)
    (fun u hu => triaxial_second hab2 hbc2 (by linarith)) (triaxial_second_lim hab2 hbc2),
    integral_of_primitive (e := c) (l := l) (fun u hu => by linarith)
    (fun u hu => triaxial_third hab2 hbc2 (by linarith)) (triaxial_third_lim a b c)]
  have hhalf : (a ^ 2 - c ^ 2) ^ (0.5 : ℝ) = √(a ^ 2 - c ^ 2) := by
    rw [Real.sqrt_eq_rpow]; norm_num
  unfold integralsTriaxial checkTriaxial
  simp only [gt_iff_lt, hab, hbc, and_self, not_true_eq_false, if_false, Py.bind_ok, pdiv_ok ha.ne',
    psqrt_ok (div_nonneg hac2.le ha.le), Real.sqrt_div hac2.le, parcsin_ok (by linarith) k2.le,
    pdiv_ok hac2.ne', ppow_ok _ hac2.le, hhalf, pdiv_ok (mul_pos hab2 hs).ne', psqrt_ok hac2.le,
    pdiv_ok (mul_pos hab2 hbc2).ne', pdiv_ok hs.ne', pdiv_ok (mul_pos ha hb).ne',
    psqrt_ok (div_nonneg hu.le (mul_pos ha hb).le), pdiv_ok (mul_pos hbc2 hs).ne',
    pdiv_ok hbc2.ne', pdiv_ok (mul_pos ha hu).ne', psqrt_ok (div_nonneg hb.le (mul_pos ha hu).le),
    Real.sqrt_div hu.le, Real.sqrt_div hb.le, Real.sqrt_mul ha.le]
  rfl

end Verif.Ellipsoids
