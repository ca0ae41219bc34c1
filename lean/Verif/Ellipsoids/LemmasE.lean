import Verif.Ellipsoids.LemmasD
import Verif.Ellipsoids.LemmasB

/-! The confocal parameter as a function of the point: value, continuity, derivative. -/

namespace Verif.Ellipsoids
open Filter Topology

/-- All the components are positive. -/
def Positive (s : V3) : Prop := ∀ i, 0 < s i

/-- Left-hand side of the equation of the confocal ellipsoids. -/
noncomputable def confocalSum (s v : V3) (l : ℝ) : ℝ := ∑ i, v i ^ 2 / (s i ^ 2 + l)

theorem onConfocal_iff (a b c : ℝ) (v : V3) (l : ℝ) :
    OnConfocal a b c v l ↔ confocalSum ![a, b, c] v l = 1 := by
  unfold OnConfocal confocalSum
  rw [Fin.sum_univ_three]; rfl

theorem quadric_eq (a b c : ℝ) (v : V3) : quadric a b c v = confocalSum ![a, b, c] v 0 := by
  unfold quadric confocalSum
  rw [Fin.sum_univ_three]; simp

theorem confocalSum_anti {s v : V3} (hs : Positive s) {l m : ℝ} (hl : 0 ≤ l) (hlm : l ≤ m) :
    confocalSum s v m ≤ confocalSum s v l := by
  refine Finset.sum_le_sum fun i _ => ?_
  have := hs i
  exact div_le_div_of_nonneg_left (by positivity) (by positivity) (by linarith)

/-- Exact difference of the left-hand sides. -/
theorem confocalSum_sub {s : V3} (hs : Positive s) (v : V3) {l m : ℝ} (hl : 0 ≤ l) (hm : 0 ≤ m) :
    confocalSum s v l - confocalSum s v m =
      (m - l) * ∑ i, v i ^ 2 / ((s i ^ 2 + l) * (s i ^ 2 + m)) := by
  unfold confocalSum
  rw [← Finset.sum_sub_distrib, Finset.mul_sum]
  refine Finset.sum_congr rfl fun i _ => ?_
  have := hs i
  have h1 : s i ^ 2 + l ≠ 0 := by positivity
  have h2 : s i ^ 2 + m ≠ 0 := by positivity
  field_simp
  ring

theorem confocal_root_lt {s v : V3} (hs : Positive s) {l m : ℝ} (h : confocalSum s v l = 1)
    (hm : 0 ≤ m) (hml : m < l) : 1 < confocalSum s v m := by
  have hl : 0 ≤ l := hm.trans hml.le
  have h1 := confocalSum_sub hs v hm hl
  have hne : ∃ i, v i ≠ 0 := by
    by_contra hcon
    push Not at hcon
    simp [confocalSum, hcon] at h
  obtain ⟨i, hi⟩ := hne
  have h2 : 0 < ∑ i, v i ^ 2 / ((s i ^ 2 + m) * (s i ^ 2 + l)) := by
    refine Finset.sum_pos' (fun j _ => ?_) ⟨i, Finset.mem_univ _, ?_⟩
    · have := hs j; positivity
    · have := hs i; positivity
  have h3 : 0 < (l - m) * ∑ i, v i ^ 2 / ((s i ^ 2 + m) * (s i ^ 2 + l)) :=
    mul_pos (by linarith) h2
  rw [← h1] at h3
  linarith

theorem confocalParameter_eq {s v : V3} (hs : Positive s) {l : ℝ} (hl : 0 ≤ l)
    (h : confocalSum s v l = 1) : confocalParameter s v = l := by
  refine IsLeast.csInf_eq ⟨⟨hl, h.le⟩, ?_⟩
  rintro m ⟨hm, hm'⟩
  by_contra hcon
  push Not at hcon
  exact absurd hm' (not_le.2 (confocal_root_lt hs h hm hcon))

theorem confocalParameter_inside {s v : V3} (h : confocalSum s v 0 ≤ 1) :
    confocalParameter s v = 0 :=
  IsLeast.csInf_eq ⟨⟨le_rfl, h⟩, fun _ hm => hm.1⟩

theorem confocal_exists {s v : V3} (hs : Positive s) (h : 1 ≤ confocalSum s v 0) :
    ∃ l, 0 ≤ l ∧ confocalSum s v l = 1 := by
  set M := ∑ i, v i ^ 2 with hM
  have hM0 : 0 ≤ M := Finset.sum_nonneg fun i _ => sq_nonneg _
  have h1 : confocalSum s v M ≤ 1 := by
    rcases hM0.eq_or_lt with h0 | h0
    · have : ∀ i, v i ^ 2 = 0 := fun i =>
        (Finset.sum_eq_zero_iff_of_nonneg (fun i _ => sq_nonneg _)).1 (hM ▸ h0.symm) i
          (Finset.mem_univ _)
      simp [confocalSum, this]
    · have : confocalSum s v M ≤ ∑ i, v i ^ 2 / M := by
        refine Finset.sum_le_sum fun i _ => ?_
        have := hs i
        exact div_le_div_of_nonneg_left (by positivity) h0 (by nlinarith)
      rw [← Finset.sum_div, ← hM, div_self h0.ne'] at this
      exact this
  have hcont : ContinuousOn (confocalSum s v) (Set.Icc 0 M) := by
    unfold confocalSum
    refine continuousOn_finsetSum _ fun i _ => ?_
    refine ContinuousOn.div continuousOn_const (by fun_prop) ?_
    intro x hx
    have := hs i
    have := hx.1
    positivity
  obtain ⟨l, hl, hl'⟩ := intermediate_value_Icc' hM0 hcont ⟨h1, h⟩
  exact ⟨l, hl.1, hl'⟩

theorem confocalParameter_nonneg (s v : V3) : 0 ≤ confocalParameter s v :=
  Real.sInf_nonneg fun _ h => h.1

theorem confocalParameter_root {s v : V3} (hs : Positive s) (h : 1 ≤ confocalSum s v 0) :
    confocalSum s v (confocalParameter s v) = 1 := by
  obtain ⟨l, hl, hl'⟩ := confocal_exists hs h
  rw [confocalParameter_eq hs hl hl', hl']

theorem confocalParameter_pos {s v : V3} (hs : Positive s) (h : 1 < confocalSum s v 0) :
    0 < confocalParameter s v := by
  rcases (confocalParameter_nonneg s v).eq_or_lt with h0 | h0
  · have := confocalParameter_root hs h.le
    rw [← h0] at this
    linarith
  · exact h0

/-- The code computes the confocal parameter. -/
theorem lambdaOrZero_eq (v : V3) {a b c : ℝ} (hc : 0 < c) (hbc : c ≤ b) (hab : b ≤ a) :
    lambdaOrZero v a b c = .ok (confocalParameter ![a, b, c] v) := by
  have hb : 0 < b := hc.trans_le hbc
  have ha : 0 < a := hb.trans_le hab
  have hs : Positive ![a, b, c] := by intro i; fin_cases i <;> assumption
  unfold lambdaOrZero isInternal
  change (if decide (quadric a b c v < 1) = true then _ else _) = _
  by_cases h : quadric a b c v < 1
  · rw [if_pos (decide_eq_true h), confocalParameter_inside]
    rw [← quadric_eq]; exact h.le
  · rw [if_neg (by simpa using h)]
    obtain ⟨l, hl, hroot⟩ := calculateLambda_spec v hc hbc hab
    have hl0 := largest_nonneg ha hb hc (not_lt.1 h) hroot
    rw [hl, confocalParameter_eq hs hl0]
    exact (onConfocal_iff a b c v l).1 (largest_confocal ha hb hc hl0 hroot)

theorem calculateLambda_outside (v : V3) {a b c : ℝ} (hc : 0 < c) (hbc : c ≤ b) (hab : b ≤ a)
    (h : 1 ≤ quadric a b c v) : calculateLambda v a b c = .ok (confocalParameter ![a, b, c] v) := by
  have := lambdaOrZero_eq v hc hbc hab
  unfold lambdaOrZero isInternal at this
  change (if decide (quadric a b c v < 1) = true then _ else _) = _ at this
  rwa [if_neg (by simpa using h)] at this

/-! ### Continuity -/

/-- Sum of the differences of the squares. -/
noncomputable def sqDist (v w : V3) : ℝ := ∑ i, |w i ^ 2 - v i ^ 2|

/-- Bound of a sum of terms `x i / s i ^ 2`. -/
theorem sum_div_le {s : V3} (hs : Positive s) {k : ℝ} (hk : ∀ i, k ≤ s i ^ 2) (hk0 : 0 < k)
    (v w : V3) {m : ℝ} (hm : 0 ≤ m) :
    |confocalSum s w m - confocalSum s v m| ≤ sqDist v w / (k + m) := by
  unfold confocalSum sqDist
  rw [← Finset.sum_sub_distrib, Finset.sum_div]
  refine (Finset.abs_sum_le_sum_abs _ _).trans (Finset.sum_le_sum fun i _ => ?_)
  have := hs i
  rw [← sub_div, abs_div, abs_of_pos (show 0 < s i ^ 2 + m by positivity)]
  exact div_le_div_of_nonneg_left (abs_nonneg _) (by positivity) (by have := hk i; linarith)

theorem slope_lower {s v : V3} (hs : Positive s) {K : ℝ} (hK : ∀ i, s i ^ 2 ≤ K) {l m : ℝ}
    (hl : 0 ≤ l) (hm : 0 ≤ m) (h : confocalSum s v l = 1) :
    1 / (K + m) ≤ ∑ i, v i ^ 2 / ((s i ^ 2 + l) * (s i ^ 2 + m)) := by
  rw [← h, confocalSum, Finset.sum_div]
  refine Finset.sum_le_sum fun i _ => ?_
  have := hs i
  rw [div_div]
  exact div_le_div_of_nonneg_left (by positivity) (by positivity)
    (mul_le_mul_of_nonneg_left (by have := hK i; linarith) (by positivity))

theorem confocalParameter_sub_le {s : V3} (hs : Positive s) {k K : ℝ} (hk : ∀ i, k ≤ s i ^ 2)
    (hk0 : 0 < k) (hK : ∀ i, s i ^ 2 ≤ K) (v w : V3) (hv : 1 ≤ confocalSum s v 0) :
    |confocalParameter s w - confocalParameter s v| ≤ K / k * sqDist v w := by
  have hK0 : 0 < K := hk0.trans_le ((hk 0).trans (hK 0))
  have hkK : k ≤ K := (hk 0).trans (hK 0)
  set l := confocalParameter s v with hl
  set m := confocalParameter s w with hm
  have hl0 : 0 ≤ l := confocalParameter_nonneg s v
  have hm0 : 0 ≤ m := confocalParameter_nonneg s w
  have hroot := confocalParameter_root hs hv
  rw [← hl] at hroot
  have hd := sum_div_le hs hk hk0 v w hm0
  have hslope := slope_lower hs hK hl0 hm0 hroot
  have hdiff := confocalSum_sub hs v hl0 hm0
  set D := ∑ i, v i ^ 2 / ((s i ^ 2 + l) * (s i ^ 2 + m))
  have hsq : 0 ≤ sqDist v w := Finset.sum_nonneg fun i _ => abs_nonneg _
  have hDpos : 0 < D := lt_of_lt_of_le (by positivity) hslope
  -- the difference of the parameters is controlled by the change of the sum
  have key : |m - l| * D ≤ sqDist v w / (k + m) := by
    by_cases hw : 1 ≤ confocalSum s w 0
    · have hrw := confocalParameter_root hs hw
      rw [← hm] at hrw
      have : (m - l) * D = confocalSum s w m - confocalSum s v m := by
        rw [← hdiff, hroot, hrw]
      rw [← abs_of_pos hDpos, ← abs_mul, this]
      exact hd
    · have hm00 : m = 0 := by rw [hm]; exact confocalParameter_inside (not_le.1 hw).le
      have h1 : |m - l| = l := by rw [hm00, zero_sub, abs_neg, abs_of_nonneg hl0]
      rw [h1]
      have h2 : l * D = confocalSum s v m - 1 := by
        have h3 := hdiff
        rw [hroot, hm00] at h3
        rw [hm00]; linarith
      rw [h2]
      have h3 : confocalSum s w m < 1 := by rw [hm00]; exact not_le.1 hw
      have := (abs_le.1 hd).1
      linarith
  have h2 : |m - l| ≤ sqDist v w / (k + m) / D := (le_div_iff₀ hDpos).2 key
  refine h2.trans ?_
  have h3 : sqDist v w / (k + m) / D ≤ sqDist v w / (k + m) / (1 / (K + m)) :=
    div_le_div_of_nonneg_left (by positivity) (by positivity) hslope
  refine h3.trans ?_
  rw [div_div_eq_mul_div, div_one, div_mul_eq_mul_div, div_mul_eq_mul_div,
    div_le_div_iff₀ (by positivity) hk0]
  nlinarith [mul_nonneg hsq hm0, mul_nonneg (mul_nonneg hsq hm0) (sub_nonneg.2 hkK)]

theorem bounds_exist {s : V3} (hs : Positive s) :
    ∃ k K : ℝ, 0 < k ∧ (∀ i, k ≤ s i ^ 2) ∧ ∀ i, s i ^ 2 ≤ K := by
  refine ⟨min (s 0 ^ 2) (min (s 1 ^ 2) (s 2 ^ 2)), s 0 ^ 2 + s 1 ^ 2 + s 2 ^ 2, ?_, ?_, ?_⟩
  · have := hs 0; have := hs 1; have := hs 2
    refine lt_min ?_ (lt_min ?_ ?_) <;> positivity
  · intro i; fin_cases i
    · exact min_le_left _ _
    · exact (min_le_right _ _).trans (min_le_left _ _)
    · exact (min_le_right _ _).trans (min_le_right _ _)
  · intro i
    have := sq_nonneg (s 0); have := sq_nonneg (s 1); have := sq_nonneg (s 2)
    fin_cases i <;> simp <;> linarith

theorem sqDist_continuous (v : V3) : Continuous (sqDist v) := by
  unfold sqDist; fun_prop

theorem confocalSum_zero_continuous (s : V3) : Continuous fun v => confocalSum s v 0 := by
  unfold confocalSum
  refine continuous_finsetSum _ fun i _ => ?_
  exact ((continuous_apply i).pow 2).div_const _

/-- The confocal parameter is a continuous function of the point. -/
theorem confocalParameter_continuous {s : V3} (hs : Positive s) :
    Continuous (confocalParameter s) := by
  rw [continuous_iff_continuousAt]
  intro v
  by_cases hv : 1 ≤ confocalSum s v 0
  · obtain ⟨k, K, hk0, hk, hK⟩ := bounds_exist hs
    have hlim : Tendsto (fun w => K / k * sqDist v w) (𝓝 v) (𝓝 0) := by
      have := ((sqDist_continuous v).tendsto v).const_mul (K / k)
      simpa [sqDist] using this
    rw [ContinuousAt, tendsto_iff_dist_tendsto_zero]
    refine squeeze_zero (fun _ => dist_nonneg) (fun w => ?_) hlim
    rw [Real.dist_eq]
    exact confocalParameter_sub_le hs hk hk0 hK v w hv
  · have hopen : ∀ᶠ w in 𝓝 v, confocalSum s w 0 < 1 :=
      (confocalSum_zero_continuous s).tendsto v |>.eventually (gt_mem_nhds (not_le.1 hv))
    refine ContinuousAt.congr (f := fun _ => (0 : ℝ)) continuousAt_const ?_
    filter_upwards [hopen] with w hw
    exact (confocalParameter_inside hw.le).symm

/-! ### Derivative -/

/-- The continuous linear form with coefficients `A`. -/
noncomputable def linForm (A : V3) : V3 →L[ℝ] ℝ :=
  ∑ i, A i • ContinuousLinearMap.proj (R := ℝ) (φ := fun _ : Fin 3 => ℝ) i

theorem linForm_apply (A x : V3) : linForm A x = ∑ i, A i * x i := by
  simp [linForm, ContinuousLinearMap.sum_apply]

/-- A function whose increment is a combination of the increments of the coordinates, with continuous
coefficients, is differentiable. -/
theorem hasFDerivAt_of_increment {f : V3 → ℝ} {v : V3} (A : V3 → V3)
    (hA : ∀ i, ContinuousAt (fun w => A w i) v)
    (h : ∀ᶠ w in 𝓝 v, f w - f v = ∑ i, A w i * (w i - v i)) : HasFDerivAt f (linForm (A v)) v := by
  rw [hasFDerivAt_iff_isLittleO]
  have h1 : (fun w => ∑ i, (A w i - A v i) * (w i - v i)) =o[𝓝 v] fun w => w - v := by
    refine Asymptotics.IsLittleO.fun_sum fun i _ => ?_
    have h2 : (fun w => A w i - A v i) =o[𝓝 v] fun _ => (1 : ℝ) := by
      rw [Asymptotics.isLittleO_one_iff]
      have := Tendsto.sub (hA i) (tendsto_const_nhds (x := A v i))
      simpa using this
    have h3 : (fun w : V3 => w i - v i) =O[𝓝 v] fun w => w - v := by
      refine Asymptotics.isBigO_of_le _ fun w => ?_
      exact norm_le_pi_norm (w - v) i
    have h4 : (fun w => (A w i - A v i) * (w i - v i)) =o[𝓝 v] fun w => (1 : ℝ) * ‖w - v‖ :=
      h2.mul_isBigO h3.norm_right
    simpa using h4
  refine h1.congr' ?_ (Eventually.of_forall fun _ => rfl)
  filter_upwards [h] with w hw
  rw [hw, linForm_apply, ← Finset.sum_sub_distrib]
  refine Finset.sum_congr rfl fun i _ => ?_
  simp only [Pi.sub_apply]
  ring

theorem confocalParameter_hasFDerivAt {s v : V3} (hs : Positive s) (hv : 1 < confocalSum s v 0) :
    HasFDerivAt (confocalParameter s) (linForm (confocalGradient s v)) v := by
  set l := confocalParameter s v with hl
  have hl0 : 0 ≤ l := confocalParameter_nonneg s v
  have hroot := confocalParameter_root hs hv.le
  rw [← hl] at hroot
  have hcont := (confocalParameter_continuous hs).continuousAt (x := v)
  let D : V3 → ℝ := fun w => ∑ j, v j ^ 2 / ((s j ^ 2 + l) * (s j ^ 2 + confocalParameter s w))
  obtain ⟨k, K, hk0, hk, hK⟩ := bounds_exist hs
  have hK0 : 0 < K := hk0.trans_le ((hk 0).trans (hK 0))
  have hDpos : ∀ w, 0 < D w := fun w => by
    have hm := confocalParameter_nonneg s w
    exact lt_of_lt_of_le (by positivity) (slope_lower hs hK hl0 hm hroot)
  have hden : ∀ i w, s i ^ 2 + confocalParameter s w ≠ 0 := fun i w => by
    have := hs i; have := confocalParameter_nonneg s w; positivity
  have hDc : ContinuousAt D v := by
    refine tendsto_finsetSum _ fun j _ => ?_
    refine ContinuousAt.div continuousAt_const
      (continuousAt_const.mul (continuousAt_const.add hcont)) ?_
    exact mul_ne_zero (by have := hden j v; rwa [← hl] at this) (hden j v)
  have key := hasFDerivAt_of_increment (f := confocalParameter s) (v := v)
    (fun w i => (w i + v i) / (s i ^ 2 + confocalParameter s w) / D w) ?_ ?_
  · refine key.congr_fderiv (congrArg linForm ?_)
    ext i
    simp only [confocalGradient, ← hl]
    congr 1
    · ring
    · refine Finset.sum_congr rfl fun j _ => ?_
      rw [div_pow, ← hl, ← sq]
  · intro i
    exact (((continuous_apply i).continuousAt.add continuousAt_const).div
      (continuousAt_const.add hcont) (hden i v)).div hDc (hDpos v).ne'
  · have hopen : ∀ᶠ w in 𝓝 v, 1 < confocalSum s w 0 :=
      (confocalSum_zero_continuous s).tendsto v |>.eventually (lt_mem_nhds hv)
    filter_upwards [hopen] with w hw
    have hm0 := confocalParameter_nonneg s w
    have hrw := confocalParameter_root hs hw.le
    have hdiff := confocalSum_sub hs v hl0 hm0
    have e1 : (confocalParameter s w - l) * D w =
        ∑ i, (w i + v i) / (s i ^ 2 + confocalParameter s w) * (w i - v i) := by
      change (confocalParameter s w - l) *
        ∑ j, v j ^ 2 / ((s j ^ 2 + l) * (s j ^ 2 + confocalParameter s w)) = _
      rw [← hdiff, hroot, ← hrw]
      unfold confocalSum
      rw [← Finset.sum_sub_distrib]
      refine Finset.sum_congr rfl fun i _ => ?_
      rw [← sub_div, div_mul_eq_mul_div]
      ring
    rw [eq_div_of_mul_eq (hDpos w).ne' e1, Finset.sum_div]
    refine Finset.sum_congr rfl fun i _ => ?_
    ring

end Verif.Ellipsoids
