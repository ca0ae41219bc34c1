import Verif.Ellipsoids.PropsP
import Verif.Ellipsoids.PropsH
import Mathlib.Analysis.Calculus.ParametricIntegral

/-! C150: the magnetic field of ellipsoids is that of the dipoles of their matter. -/

namespace Verif.Ellipsoids
open MeasureTheory Set Verif.Distance
open Verif.Forward (arrays gravitationalConst)

/-! ### The potential -/

theorem magnetizationOf_cons (e : Ellipsoid) (es : List Ellipsoid) (M : Ellipsoid → V3) (x : V3) :
    magnetizationOf (e :: es) M x = magnetizationOf [e] M x + magnetizationOf es M x := by
  unfold magnetizationOf
  simp

theorem magnetizationOf_in {e : Ellipsoid} {x : V3} (h : e.Inside x) (M : Ellipsoid → V3) :
    magnetizationOf [e] M x = M e := by
  simp [magnetizationOf, h]

theorem magnetizationOf_out {e : Ellipsoid} {x : V3} (h : ¬e.Inside x) (M : Ellipsoid → V3) :
    magnetizationOf [e] M x = 0 := by
  simp [magnetizationOf, h]

theorem potential_eq (e : Ellipsoid) (M : Ellipsoid → V3) (p : V3) : potentialElement (magnetizationOf [e] M) p =
    {x | e.Inside x}.indicator fun x => ∑ i, -(1 / (4 * Real.pi)) * M e i * pull i (x - p) := by
  funext x
  unfold potentialElement
  by_cases hx : e.Inside x
  · rw [magnetizationOf_in hx, indicator_of_mem (show x ∈ {x | e.Inside x} from hx)]
    unfold pull dotProduct
    rw [← neg_sub x p, magnitude_neg', Finset.sum_div]
    refine Finset.sum_congr rfl fun i _ => ?_
    simp only [Pi.neg_apply]
    by_cases h0 : magnitude (x - p) = 0
    · simp [h0]
    have := Real.pi_pos
    field_simp
  · rw [magnetizationOf_out hx, indicator_of_notMem (show x ∉ {x | e.Inside x} from hx)]
    simp

theorem potential_integrable {e : Ellipsoid} (h : e.Valid) (M : Ellipsoid → V3) (p : V3) :
    Integrable (potentialElement (magnetizationOf [e] M) p) := by
  rw [potential_eq, integrable_indicator_iff (inside_measurable e)]
  exact integrable_finsetSum _ fun i _ => (pull_integrable_body h p i).const_mul _

theorem potential_body {e : Ellipsoid} (h : e.Valid) (M : Ellipsoid → V3) (p : V3) :
    magneticPotential (magnetizationOf [e] M) p =
      ∑ i, -(1 / (4 * Real.pi * 6.6743e-11)) * M e i * e.attraction 1 p i := by
  unfold magneticPotential
  rw [potential_eq, integral_indicator (inside_measurable e),
    integral_finsetSum _ fun i _ => (pull_integrable_body h p i).const_mul _]
  refine Finset.sum_congr rfl fun i _ => ?_
  rw [integral_const_mul, ← newton_body h]
  have := Real.pi_pos
  field_simp

/-- The same body with a unit density. -/
noncomputable def unitBody (e : Ellipsoid) : Ellipsoid := { e with density := some 1 }

theorem gravity_unit (e : Ellipsoid) : (unitBody e).gravity = e.attraction 1 := rfl

/-- The demagnetization tensor of the code, from the derivative of the attraction. -/
theorem demag_tensor {e : Ellipsoid} (h : e.Valid) {p : V3} (hp : ¬e.OnSurface p) : ∃ N : M3,
    N.transpose = N ∧
    HasFDerivAt (e.attraction 1) (jacobian ((-(4 * Real.pi * gravitationalConst)) • N)) p ∧
      ∀ mu0 M, (e.Inside p → e.magneticField mu0 M p = mu0 • (M - N.mulVec M)) ∧
        (¬e.Inside p → e.magneticField mu0 M p = -(mu0 • N.mulVec M)) := by
  obtain ⟨N, h1, h2⟩ := C78_relation (unitBody e) h 1 rfl p hp
  obtain ⟨J, j1, j2, -⟩ := C78_poisson (unitBody e) h 1 rfl p hp
  rw [gravity_unit, mul_one] at h1
  rw [gravity_unit] at j1
  refine ⟨N, ?_, h1, h2⟩
  have hu := j1.unique h1
  have hJ : J = (-(4 * Real.pi * gravitationalConst)) • N := by
    refine Matrix.ext_of_mulVec_single fun i => ?_
    exact congrArg (fun L : V3 →L[ℝ] V3 => L (Pi.single i 1)) hu
  rw [hJ, Matrix.transpose_smul] at j2
  have hne : -(4 * Real.pi * gravitationalConst) ≠ 0 := by
    have := Real.pi_pos
    unfold gravitationalConst
    simp
  exact smul_right_injective _ hne j2

theorem gradient_body {e : Ellipsoid} (h : e.Valid) (mu0 : ℝ) (M : Ellipsoid → V3) {p : V3} (hp : ¬e.OnSurface p) :
    ∃ g, HasGradient (magneticPotential (magnetizationOf [e] M)) g p ∧
      e.magneticField mu0 (M e) p = mu0 • (magnetizationOf [e] M p - g) := by
  obtain ⟨N, h1, h2, h3⟩ := demag_tensor h hp
  refine ⟨N.mulVec (M e), ?_, ?_⟩
  · have hφ : magneticPotential (magnetizationOf [e] M) =
        fun q => ∑ i, -(1 / (4 * Real.pi * 6.6743e-11)) * M e i * e.attraction 1 q i :=
      funext fun q => potential_body h M q
    rw [hφ]
    have hi : ∀ i, HasFDerivAt (fun q => e.attraction 1 q i) ((ContinuousLinearMap.proj i).comp
        (jacobian ((-(4 * Real.pi * gravitationalConst)) • N))) p := fun i =>
      (hasFDerivAt_pi'.1 h2) i
    refine ⟨_, HasFDerivAt.fun_sum fun i _ => (hi i).const_mul _, fun v => ?_⟩
    have e1 : ∀ w : V3, (jacobian ((-(4 * Real.pi * gravitationalConst)) • N)) w =
        (-(4 * Real.pi * gravitationalConst)) • N.mulVec w := fun w => by
      show ((-(4 * Real.pi * gravitationalConst)) • N).mulVec w = _
      rw [Matrix.smul_mulVec]
    have e2 : dotProduct (N.mulVec (M e)) v = ∑ i, M e i * N.mulVec v i := by
      conv_lhs => rw [← h1]
      rw [Matrix.mulVec_transpose, ← Matrix.dotProduct_mulVec]
      rfl
    rw [e2, sum_apply]
    refine Finset.sum_congr rfl fun i _ => ?_
    simp only [smul_apply, ContinuousLinearMap.comp_apply, ContinuousLinearMap.proj_apply, e1,
      Pi.smul_apply, smul_eq_mul]
    have := Real.pi_pos
    have e3 : (6.6743e-11 : ℝ) = gravitationalConst := by
      unfold gravitationalConst
      norm_num
    have hG : gravitationalConst ≠ 0 := by
      unfold gravitationalConst
      norm_num
    rw [e3]
    field_simp
  · by_cases hin : e.Inside p
    · rw [(h3 mu0 (M e)).1 hin, magnetizationOf_in hin]
    · rw [(h3 mu0 (M e)).2 hin, magnetizationOf_out hin, zero_sub, smul_neg]

theorem potential_cons (e : Ellipsoid) (es : List Ellipsoid) (M : Ellipsoid → V3) (p x : V3) :
    potentialElement (magnetizationOf (e :: es) M) p x =
      potentialElement (magnetizationOf [e] M) p x + potentialElement (magnetizationOf es M) p x := by
  unfold potentialElement
  rw [magnetizationOf_cons, add_dotProduct, add_div]

theorem potential_list {es : List Ellipsoid} (h : ∀ e ∈ es, e.Valid) (mu0 : ℝ) (M : Ellipsoid → V3) :
    (∀ p, Integrable (potentialElement (magnetizationOf es M) p)) ∧
    ∀ p, (∀ e ∈ es, ¬e.OnSurface p) → ∃ g, HasGradient (magneticPotential (magnetizationOf es M)) g p ∧
      (es.map fun e => e.magneticField mu0 (M e) p).sum = mu0 • (magnetizationOf es M p - g) := by
  induction es with
  | nil =>
    have e0 : ∀ p, potentialElement (magnetizationOf [] M) p = fun _ => 0 := fun p => by
      funext x; simp [potentialElement, magnetizationOf]
    refine ⟨fun p => by rw [e0]; exact integrable_zero _ _ _, fun p _ => ⟨0, ⟨0, ?_, by simp⟩, ?_⟩⟩
    · have : magneticPotential (magnetizationOf [] M) = fun _ => 0 := by
        funext q; unfold magneticPotential; rw [e0]; simp
      rw [this]
      exact hasFDerivAt_const 0 p
    · simp [magnetizationOf]
  | cons e es ih =>
    obtain ⟨i1, g1⟩ := ih fun e he => h e (by simp [he])
    have he := h e (by simp)
    have ec : ∀ p, potentialElement (magnetizationOf (e :: es) M) p = fun x =>
        potentialElement (magnetizationOf [e] M) p x + potentialElement (magnetizationOf es M) p x := fun p =>
      funext fun x => potential_cons e es M p x
    refine ⟨fun p => by rw [ec]; exact (potential_integrable he M p).add (i1 p), fun p hp => ?_⟩
    obtain ⟨g, ⟨L, l1, l2⟩, l3⟩ := g1 p fun e he => hp e (by simp [he])
    obtain ⟨k, ⟨K, k1, k2⟩, k3⟩ := gradient_body he mu0 M (hp e (by simp))
    have hsum : magneticPotential (magnetizationOf (e :: es) M) = fun q =>
        magneticPotential (magnetizationOf [e] M) q + magneticPotential (magnetizationOf es M) q := by
      funext q
      unfold magneticPotential
      rw [ec, integral_add (potential_integrable he M q) (i1 q)]
    refine ⟨k + g, ⟨K + L, ?_, fun v => ?_⟩, ?_⟩
    · rw [hsum]
      exact k1.add l1
    · rw [add_apply, k2, l2, add_dotProduct]
    · rw [List.map_cons, List.sum_cons, l3, k3, magnetizationOf_cons e es, ← smul_add]
      congr 1
      funext k
      simp only [Pi.add_apply, Pi.sub_apply]
      ring

/-! ### Dipoles -/

/-- Derivatives of the attraction of a unit mass. -/
noncomputable def pullJac (i j : Fin 3) (y : V3) : ℝ :=
  3 * y i * y j / magnitude y ^ 5 - (if i = j then 1 else 0) / magnitude y ^ 3

theorem pull_deriv_zero {y : V3} (hy : y ≠ 0) (i j : Fin 3) :
    HasDerivAt (fun t : ℝ => pull i (y - t • Pi.single j 1)) (pullJac i j y) 0 := by
  have hm := magnitude_pos hy
  have hk : ∀ k, HasDerivAt (fun t : ℝ => (y - t • (Pi.single j 1 : V3)) k) (-(Pi.single j 1 : V3) k) 0 := fun k => by
    have := ((hasDerivAt_id (0 : ℝ)).mul_const ((Pi.single j 1 : V3) k)).const_sub (y k)
    simpa using this
  have hsq : HasDerivAt (fun t : ℝ => ∑ k, (y - t • (Pi.single j 1 : V3)) k ^ 2) (-(2 * y j)) 0 := by
    have := HasDerivAt.fun_sum (u := Finset.univ) fun k _ => (hk k).pow 2
    refine this.congr_deriv ?_
    rw [Finset.sum_eq_single j]
    · simp
    · intro k _ hkj; simp [hkj]
    · simp
  have h0 : ∑ k, (y - (0 : ℝ) • (Pi.single j 1 : V3)) k ^ 2 = magnitude y ^ 2 := by
    rw [zero_smul, sub_zero, magnitude_sq_sum]
  have hmag : HasDerivAt (fun t : ℝ => magnitude (y - t • (Pi.single j 1 : V3))) (-(y j) / magnitude y) 0 := by
    have := hsq.sqrt (by rw [h0]; positivity)
    refine (this.congr_deriv ?_).congr_of_eventuallyEq (Filter.Eventually.of_forall fun t => ?_)
    · rw [h0, Real.sqrt_sq hm.le]
      field_simp
    · show _ = Real.sqrt _
      rw [← magnitude_sq_sum, Real.sqrt_sq (magnitude_nonneg _)]
  have h3 := (hk i).fun_div (hmag.fun_pow 3) (by simp only [zero_smul, sub_zero]; positivity)
  refine h3.congr_deriv ?_
  simp only [zero_smul, sub_zero]
  unfold pullJac
  rw [Pi.single_apply]
  field_simp
  ring

theorem pull_deriv {y : V3} {t : ℝ} (i j : Fin 3) (hy : y - t • Pi.single j 1 ≠ 0) :
    HasDerivAt (fun t : ℝ => pull i (y - t • Pi.single j 1)) (pullJac i j (y - t • Pi.single j 1)) t := by
  have h := pull_deriv_zero hy i j
  have h2 := HasDerivAt.comp_sub_const (f := fun t' : ℝ => pull i (y - t • Pi.single j 1 - t' • Pi.single j 1)) t t
    (by rw [sub_self]; exact h)
  refine h2.congr_of_eventuallyEq (Filter.Eventually.of_forall fun s => ?_)
  show pull i _ = pull i _
  congr 1
  rw [sub_smul]
  abel

theorem abs_pullJac {y : V3} (i j : Fin 3) {r : ℝ} (hr : 0 < r) (hy : r ≤ ‖y‖) : |pullJac i j y| ≤ 4 / r ^ 3 := by
  have hm : r ≤ magnitude y := hy.trans (norm_le_magnitude y)
  have hm0 : 0 < magnitude y := hr.trans_le hm
  have h1 : |3 * y i * y j / magnitude y ^ 5| ≤ 3 / magnitude y ^ 3 := by
    rw [abs_div, abs_of_pos (pow_pos hm0 5), div_le_div_iff₀ (by positivity) (by positivity), abs_mul, abs_mul,
      abs_of_pos (show (0 : ℝ) < 3 by norm_num)]
    have := mul_le_mul (abs_le_magnitude y i) (abs_le_magnitude y j) (abs_nonneg _) hm0.le
    calc 3 * |y i| * |y j| * magnitude y ^ 3 = 3 * (|y i| * |y j|) * magnitude y ^ 3 := by ring
      _ ≤ 3 * (magnitude y * magnitude y) * magnitude y ^ 3 := by gcongr
      _ = _ := by ring
  have h2 : |(if i = j then 1 else 0) / magnitude y ^ 3| ≤ 1 / magnitude y ^ 3 := by
    rw [abs_div, abs_of_pos (pow_pos hm0 3)]
    gcongr
    split_ifs <;> simp
  calc _ ≤ 3 / magnitude y ^ 3 + 1 / magnitude y ^ 3 := (abs_sub _ _).trans (add_le_add h1 h2)
    _ = 4 / magnitude y ^ 3 := by ring
    _ ≤ _ := by gcongr

theorem measurable_pullJac (i j : Fin 3) : Measurable (pullJac i j) := by
  unfold pullJac
  have := measurable_magnitude
  fun_prop

/-- A point that is neither inside of a body nor on its surface is at some distance from its matter. -/
theorem outside_ball {e : Ellipsoid} {p : V3} (h1 : ¬e.Inside p) (h2 : ¬e.OnSurface p) :
    ∃ r > 0, ∀ x, e.Inside x → r ≤ ‖x - p‖ := by
  rw [inside_iff] at h1
  rw [onSurface_iff] at h2
  have hlt : 1 < quadric e.a e.b e.c (e.local p) := lt_of_le_of_ne (not_lt.1 h1) (Ne.symm h2)
  have hc : Continuous fun q => quadric e.a e.b e.c (e.local q) := by
    unfold quadric Ellipsoid.local Matrix.mulVec dotProduct
    fun_prop
  obtain ⟨r, hr, hb⟩ := Metric.isOpen_iff.1 (isOpen_lt continuous_const hc) p hlt
  refine ⟨r, hr, fun x hx => ?_⟩
  by_contra hn
  have := hb (show x ∈ Metric.ball p r by rw [Metric.mem_ball, dist_eq_norm]; exact not_le.1 hn)
  rw [inside_iff] at hx
  exact absurd this (not_lt.2 hx.le)

theorem inside_finite {e : Ellipsoid} (h : e.Valid) : volume {x | e.Inside x} < ⊤ := by
  have := (toWorld_preserves e).measure_preimage (inside_measurable e).nullMeasurableSet
  rw [← this, inside_set]
  exact (solid_bounded (valid_positive h)).measure_lt_top

theorem pullJac_integrable {e : Ellipsoid} (h : e.Valid) {p : V3} (h1 : ¬e.Inside p) (h2 : ¬e.OnSurface p)
    (i j : Fin 3) : IntegrableOn (fun x => pullJac i j (x - p)) {x | e.Inside x} := by
  obtain ⟨r, hr, hb⟩ := outside_ball h1 h2
  refine Measure.integrableOn_of_bounded (M := 4 / r ^ 3) (inside_finite h).ne
    ((measurable_pullJac i j).comp (measurable_id.sub_const p)).aestronglyMeasurable ?_
  filter_upwards [ae_restrict_mem (inside_measurable e)] with x hx
  exact abs_pullJac i j hr (hb x hx)

theorem pullJac_integral {e : Ellipsoid} (h : e.Valid) {p : V3} (h1 : ¬e.Inside p) (h2 : ¬e.OnSurface p)
    (i j : Fin 3) : HasDerivAt (fun t : ℝ => ∫ x in {x | e.Inside x}, pull i (x - (p + t • Pi.single j 1)))
      (∫ x in {x | e.Inside x}, pullJac i j (x - p)) 0 := by
  obtain ⟨r, hr, hb⟩ := outside_ball h1 h2
  have hnorm : ∀ x, e.Inside x → ∀ t ∈ Metric.ball (0 : ℝ) (r / 2), r / 2 ≤ ‖x - p - t • (Pi.single j 1 : V3)‖ := by
    intro x hx t ht
    rw [Metric.mem_ball, dist_zero_right, Real.norm_eq_abs] at ht
    have h3 : ‖t • (Pi.single j 1 : V3)‖ = |t| := by
      rw [norm_smul, Real.norm_eq_abs, Pi.norm_single, norm_one, mul_one]
    have := norm_sub_norm_le (x - p) (t • (Pi.single j 1 : V3))
    have := hb x hx
    linarith
  have hsub : ∀ (x : V3) (t : ℝ), x - (p + t • (Pi.single j 1 : V3)) = x - p - t • (Pi.single j 1 : V3) :=
    fun x t => by abel
  simp only [hsub]
  have := (hasDerivAt_integral_of_dominated_loc_of_deriv_le (μ := volume.restrict {x | e.Inside x})
    (F := fun (t : ℝ) x => pull i (x - p - t • (Pi.single j 1 : V3)))
    (F' := fun (t : ℝ) x => pullJac i j (x - p - t • (Pi.single j 1 : V3)))
    (x₀ := (0 : ℝ)) (bound := fun _ => 4 / (r / 2) ^ 3) (Metric.ball_mem_nhds 0 (half_pos hr))
    (Filter.Eventually.of_forall fun t => ((measurable_pull i).comp
      ((measurable_id.sub_const p).sub_const _)).aestronglyMeasurable) ?_
    ((measurable_pullJac i j).comp ((measurable_id.sub_const p).sub_const _)).aestronglyMeasurable ?_ ?_ ?_).2
  · simpa using this
  · have := pull_integrable_body h p i
    simpa [IntegrableOn] using this
  · filter_upwards [ae_restrict_mem (inside_measurable e)] with x hx t ht
    exact abs_pullJac i j (half_pos hr) (hnorm x hx t ht)
  · exact integrableOn_const (inside_finite h).ne
  · filter_upwards [ae_restrict_mem (inside_measurable e)] with x hx t ht
    refine pull_deriv i j fun h0 => ?_
    have := hnorm x hx t ht
    rw [h0, norm_zero] at this
    linarith

theorem pullJac_body {e : Ellipsoid} (h : e.Valid) {p : V3} (h1 : ¬e.Inside p) (h2 : ¬e.OnSurface p)
    {N : M3} (hN : HasFDerivAt (e.attraction 1) (jacobian ((-(4 * Real.pi * gravitationalConst)) • N)) p)
    (i j : Fin 3) : ∫ x in {x | e.Inside x}, pullJac i j (x - p) = -(4 * Real.pi * N i j) := by
  have d1 := (pullJac_integral h h1 h2 i j).const_mul 6.6743e-11
  have d2 : HasDerivAt (fun t : ℝ => p + t • (Pi.single j 1 : V3)) (Pi.single j 1) 0 := by
    have := ((hasDerivAt_id (0 : ℝ)).smul_const (Pi.single j 1 : V3)).const_add p
    simpa using this
  have d3 : HasDerivAt (fun t : ℝ => e.attraction 1 (p + t • (Pi.single j 1 : V3)) i)
      (-(4 * Real.pi * gravitationalConst * N i j)) 0 := by
    have hN' := (hasFDerivAt_pi'.1 hN) i
    have := HasFDerivAt.comp_hasDerivAt_of_eq (0 : ℝ) hN' d2 (by simp)
    refine this.congr_deriv ?_
    show (((-(4 * Real.pi * gravitationalConst)) • N).mulVec (Pi.single j 1)) i = _
    rw [Matrix.mulVec_single_one]
    simp
  have e1 : (fun t : ℝ => e.attraction 1 (p + t • (Pi.single j 1 : V3)) i) = fun t : ℝ =>
      6.6743e-11 * ∫ x in {x | e.Inside x}, pull i (x - (p + t • Pi.single j 1)) :=
    funext fun t => (newton_body h _ i).symm
  rw [e1] at d3
  have := d1.unique d3
  have e2 : (6.6743e-11 : ℝ) = gravitationalConst := by
    unfold gravitationalConst
    norm_num
  rw [e2] at this
  have hG : gravitationalConst ≠ 0 := by
    unfold gravitationalConst
    norm_num
  have h3 : gravitationalConst * (∫ x in {x | e.Inside x}, pullJac i j (x - p)) =
      gravitationalConst * (-(4 * Real.pi * N i j)) := by rw [this]; ring
  exact mul_left_cancel₀ hG h3

theorem dipole_eq (e : Ellipsoid) (mu0 : ℝ) (M : Ellipsoid → V3) (p : V3) (i : Fin 3) :
    dipoleElement mu0 (magnetizationOf [e] M) p i =
      {x | e.Inside x}.indicator fun x => ∑ j, mu0 / (4 * Real.pi) * M e j * pullJac i j (x - p) := by
  funext x
  unfold dipoleElement
  by_cases hx : e.Inside x
  · rw [magnetizationOf_in hx, indicator_of_mem (show x ∈ {x | e.Inside x} from hx)]
    unfold pullJac dotProduct
    rw [← neg_sub x p, magnitude_neg']
    simp only [mul_assoc]
    rw [← Finset.mul_sum]
    congr 1
    rw [Finset.sum_congr rfl fun j _ => mul_sub _ _ _, Finset.sum_sub_distrib]
    congr 1
    · rw [Finset.sum_mul, Finset.mul_sum, Finset.sum_div]
      refine Finset.sum_congr rfl fun j _ => ?_
      simp only [Pi.neg_apply, Pi.sub_apply]
      ring
    · rw [Finset.sum_eq_single i]
      · simp [div_eq_mul_inv]
      · intro j _ hj
        rw [if_neg (Ne.symm hj)]
        simp
      · simp
  · rw [magnetizationOf_out hx, indicator_of_notMem (show x ∉ {x | e.Inside x} from hx)]
    simp

theorem dipole_body {e : Ellipsoid} (h : e.Valid) (mu0 : ℝ) (M : Ellipsoid → V3) {p : V3} (h1 : ¬e.Inside p)
    (h2 : ¬e.OnSurface p) : (∀ i, Integrable (dipoleElement mu0 (magnetizationOf [e] M) p i)) ∧
      dipolesField mu0 (magnetizationOf [e] M) p = e.magneticField mu0 (M e) p := by
  have hi : ∀ i, IntegrableOn (fun x => ∑ j, mu0 / (4 * Real.pi) * M e j * pullJac i j (x - p)) {x | e.Inside x} :=
    fun i => integrable_finsetSum _ fun j _ => (pullJac_integrable h h1 h2 i j).const_mul _
  refine ⟨fun i => ?_, funext fun i => ?_⟩
  · rw [dipole_eq, integrable_indicator_iff (inside_measurable e)]
    exact hi i
  · obtain ⟨N, -, n1, n2⟩ := demag_tensor h h2
    unfold dipolesField
    rw [dipole_eq, integral_indicator (inside_measurable e),
      integral_finsetSum _ fun j _ => (pullJac_integrable h h1 h2 i j).const_mul _, (n2 mu0 (M e)).2 h1]
    simp only [Pi.neg_apply, Pi.smul_apply, smul_eq_mul, Matrix.mulVec, dotProduct]
    rw [Finset.mul_sum, ← Finset.sum_neg_distrib]
    refine Finset.sum_congr rfl fun j _ => ?_
    rw [integral_const_mul, pullJac_body h h1 h2 n1]
    have := Real.pi_pos
    field_simp

theorem dipole_list {es : List Ellipsoid} (h : ∀ e ∈ es, e.Valid) (mu0 : ℝ) (M : Ellipsoid → V3) {p : V3}
    (hp : ∀ e ∈ es, ¬e.Inside p ∧ ¬e.OnSurface p) :
    (∀ i, Integrable (dipoleElement mu0 (magnetizationOf es M) p i)) ∧
      dipolesField mu0 (magnetizationOf es M) p = (es.map fun e => e.magneticField mu0 (M e) p).sum := by
  induction es with
  | nil =>
    have e0 : ∀ i, dipoleElement mu0 (magnetizationOf [] M) p i = fun _ => 0 := fun i => by
      funext x; simp [dipoleElement, magnetizationOf]
    refine ⟨fun i => by rw [e0]; exact integrable_zero _ _ _, funext fun i => ?_⟩
    unfold dipolesField
    rw [e0]
    simp
  | cons e es ih =>
    obtain ⟨i1, g1⟩ := ih (fun e he => h e (by simp [he])) fun e he => hp e (by simp [he])
    obtain ⟨k1, k2⟩ := dipole_body (h e (by simp)) mu0 M (hp e (by simp)).1 (hp e (by simp)).2
    have ec : ∀ i, dipoleElement mu0 (magnetizationOf (e :: es) M) p i = fun x =>
        dipoleElement mu0 (magnetizationOf [e] M) p i x + dipoleElement mu0 (magnetizationOf es M) p i x := fun i => by
      funext x
      unfold dipoleElement
      rw [magnetizationOf_cons, add_dotProduct, Pi.add_apply]
      ring
    refine ⟨fun i => by rw [ec]; exact (k1 i).add (i1 i), funext fun i => ?_⟩
    rw [List.map_cons, List.sum_cons, ← g1, ← k2]
    unfold dipolesField
    rw [ec, integral_add (k1 i) (i1 i)]
    rfl

/-! ### The field returned -/

/-- C150: the field that `ellipsoid_magnetic` returns for bodies with passive susceptibilities, at the points that are
not on their surfaces, inside or outside of the bodies, is `mu0 (M - grad phi)`: `M` is the magnetization at the point,
the sum of those of the bodies that contain it, and `phi` is the scalar potential of the dipoles of their matter. The
integral of the potential converges. The magnetization of each body is the one given by the equation of the code. -/
theorem C150_potential (mu0 : ℝ) (bodies : Bodies) (h : ∀ e ∈ bodies.toList, e.Valid ∧ e.Passive ∧ e.Exact)
    (B0 : V3) : ∃ (M : Ellipsoid → V3) (field : V3 → V3), (∀ e ∈ bodies.toList,
        M e + (e.toSpace (demagInside e.axes)).mulVec ((e.toSpace e.chi).mulVec (M e)) =
          e.remanence + (e.toSpace e.chi).mulVec (inducingH mu0 B0)) ∧
      ReturnsMagnetic mu0 bodies B0 field ∧
      (∀ p, Integrable (potentialElement (magnetizationOf bodies.toList M) p)) ∧
      ∀ p, (∀ e ∈ bodies.toList, ¬e.OnSurface p) →
        ∃ g, HasGradient (magneticPotential (magnetizationOf bodies.toList M)) g p ∧
          field p = mu0 • (magnetizationOf bodies.toList M p - g) := by
  obtain ⟨M, h1, h2⟩ := returnsMagnetic_sum mu0 bodies h B0
  obtain ⟨h3, h4⟩ := potential_list (fun e he => (h e he).1) mu0 M
  exact ⟨M, _, h1, h2, h3, h4⟩

/-- C150: at the points outside of all the bodies, the field is the integral of the fields of the dipoles of their
matter, and this integral converges. -/
theorem C150_dipoles (mu0 : ℝ) (bodies : Bodies) (h : ∀ e ∈ bodies.toList, e.Valid ∧ e.Passive ∧ e.Exact)
    (B0 : V3) : ∃ (M : Ellipsoid → V3) (field : V3 → V3), (∀ e ∈ bodies.toList,
        M e + (e.toSpace (demagInside e.axes)).mulVec ((e.toSpace e.chi).mulVec (M e)) =
          e.remanence + (e.toSpace e.chi).mulVec (inducingH mu0 B0)) ∧
      ReturnsMagnetic mu0 bodies B0 field ∧
      ∀ p, (∀ e ∈ bodies.toList, ¬e.Inside p ∧ ¬e.OnSurface p) →
        (∀ i, Integrable (dipoleElement mu0 (magnetizationOf bodies.toList M) p i)) ∧
        field p = dipolesField mu0 (magnetizationOf bodies.toList M) p := by
  obtain ⟨M, h1, h2⟩ := returnsMagnetic_sum mu0 bodies h B0
  refine ⟨M, _, h1, h2, fun p hp => ?_⟩
  obtain ⟨h3, h4⟩ := dipole_list (fun e he => (h e he).1) mu0 M hp
  exact ⟨h3, h4.symm⟩

/-- The tensor of `demag_tensor` inside of a body. -/
theorem demag_inside {e : Ellipsoid} (h : e.Valid) (M : Ellipsoid → V3) {p : V3} (hp : e.Inside p) :
    HasGradient (magneticPotential (magnetizationOf [e] M)) ((e.toSpace (demagInside e.axes)).mulVec (M e)) p := by
  have hs : ¬e.OnSurface p := by
    rw [onSurface_iff]
    rw [inside_iff] at hp
    exact hp.ne
  obtain ⟨g, h1, h2⟩ := gradient_body h 1 M hs
  unfold Ellipsoid.magneticField at h2
  rw [if_pos hp, magnetizationOf_in hp, one_smul, one_smul] at h2
  rwa [sub_right_injective h2]

/-- C150: magnetostatics. When the susceptibility of each body commutes with its demagnetization tensor (isotropic
susceptibilities, tensors along the semiaxes, spheres), the magnetization `M` of each body satisfies at every point of
the body `M = χ (H0 - grad phi) + M_r`, with the potential `phi` of its own dipoles (the bodies do not magnetize each
other). The field is `mu0 (M - grad phi)` with the potential of the dipoles of all the bodies, and outside of them it is
the integral of the fields of the dipoles. -/
theorem C150_magnetostatics (mu0 : ℝ) (bodies : Bodies)
    (h : ∀ e ∈ bodies.toList, e.Valid ∧ e.Passive ∧ e.Exact ∧ e.Aligned) (B0 : V3) :
    ∃ (M : Ellipsoid → V3) (field : V3 → V3), ReturnsMagnetic mu0 bodies B0 field ∧
      (∀ e ∈ bodies.toList, ∀ p, e.Inside p → ∃ g,
        HasGradient (magneticPotential (magnetizationOf [e] M)) g p ∧
        M e = (e.toSpace e.chi).mulVec (inducingH mu0 B0 - g) + e.remanence) ∧
      (∀ p, (∀ e ∈ bodies.toList, ¬e.OnSurface p) →
        ∃ g, HasGradient (magneticPotential (magnetizationOf bodies.toList M)) g p ∧
          field p = mu0 • (magnetizationOf bodies.toList M p - g)) ∧
      ∀ p, (∀ e ∈ bodies.toList, ¬e.Inside p ∧ ¬e.OnSurface p) →
        field p = dipolesField mu0 (magnetizationOf bodies.toList M) p := by
  obtain ⟨M, h1, h2⟩ := returnsMagnetic_sum mu0 bodies (fun e he => ⟨(h e he).1, (h e he).2.1, (h e he).2.2.1⟩) B0
  refine ⟨M, _, h2, fun e he p hp => ⟨_, demag_inside (h e he).1 M hp, ?_⟩,
    (potential_list (fun e he => (h e he).1) mu0 M).2,
    fun p hp => (dipole_list (fun e he => (h e he).1) mu0 M hp).2.symm⟩
  have := h1 e he
  refine (selfConsistent_of_commute (toSpace_commute (h e he).2.2.2)).1 ?_
  unfold SolvedByCode
  rw [Matrix.add_mulVec, Matrix.one_mulVec, ← Matrix.mulVec_mulVec]
  exact this

/-! ### The hypotheses can be met -/

/-- Several bodies, one with an anisotropic susceptibility. -/
example (mu0 : ℝ) (B0 : V3) : ∃ field, ReturnsMagnetic mu0 (.many [rock, ball, rod, void]) B0 field ∧
    ∃ M : Ellipsoid → V3, ∀ p, (∀ e ∈ [rock, ball, rod, void], ¬e.Inside p ∧ ¬e.OnSurface p) →
      field p = dipolesField mu0 (magnetizationOf [rock, ball, rod, void] M) p := by
  obtain ⟨M, field, h1, -, -, h2⟩ := C150_magnetostatics mu0 (.many [rock, ball, rod, void]) all_bodies B0
  exact ⟨field, h1, M, h2⟩

/-- The tensor that does not commute with the demagnetization tensor of C68. -/
example (mu0 : ℝ) (B0 : V3) : ∃ field, ReturnsMagnetic mu0 (.one skewBody) B0 field := by
  obtain ⟨M, field, -, h1, -⟩ := C150_dipoles mu0 (.one skewBody) (by
    intro e he
    simp only [Bodies.toList, List.mem_cons, List.not_mem_nil, or_false] at he
    rw [he]
    exact ⟨(C68_not_full 1 one_ne_zero).1, skewBody_passive, skewBody_exact⟩) B0
  exact ⟨field, h1⟩

/-- A point outside of the body, and one inside. -/
example : (¬skewBody.Inside ![6, 0, 0] ∧ ¬skewBody.OnSurface ![6, 0, 0]) ∧ skewBody.Inside skewBody.center := by
  have hR : skewBody.rotationMatrix = 1 := C71_identity
  have hl : skewBody.local ![6, 0, 0] = ![6, 0, 0] := by
    unfold Ellipsoid.local
    rw [hR]
    simp [skewBody]
  refine ⟨⟨?_, ?_⟩, inside_center⟩
  · rw [inside_iff, hl]
    have : (![6, 0, 0] : V3) 2 = 0 := rfl
    norm_num [quadric, skewBody, this]
  · rw [onSurface_iff, hl]
    have : (![6, 0, 0] : V3) 2 = 0 := rfl
    norm_num [quadric, skewBody, this]

end Verif.Ellipsoids
