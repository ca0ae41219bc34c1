import Verif.Forward.PropsE
import Mathlib.MeasureTheory.Constructions.HaarToSphere
import Mathlib.MeasureTheory.Measure.Lebesgue.Basic
import Mathlib.MeasureTheory.Measure.Haar.OfBasis
import Mathlib.MeasureTheory.Measure.Lebesgue.VolumeOfBalls
import Mathlib.Analysis.Calculus.ParametricIntegral

/-!
Prisms as bodies. The kernels of `choclo.prism` are external: here they are any kernels that have the documented
values, the integrals over the prism of the fields of point masses.
-/

namespace Verif.Forward
open Verif.Distance Verif.Engine Filter Topology MeasureTheory

/-! ### Specification -/

/-- The point with these coordinates. -/
def pointAt (r : ℝ × ℝ × ℝ) : P3 := ⟨r.1, r.2.1, r.2.2⟩

/-- The coordinates of a point. -/
def coords (q : P3) : ℝ × ℝ × ℝ := (q.x, q.y, q.z)

/-- The points of a prism. -/
def Prism.body (p : Prism) : Set (ℝ × ℝ × ℝ) :=
  Set.Icc p.west p.east ×ˢ Set.Icc p.south p.north ×ˢ Set.Icc p.bottom p.top

/-- The documentation of `choclo.prism`: the fields of a prism (SI units, upward positive) are the integrals over
it of the fields of point masses. The components of the tensor only for points that are not in the prism. -/
structure PrismKernels.Newtonian (K : PrismKernels) : Prop where
  pot : ∀ q p ρ, p.Ordered → K.pot q p ρ = ∫ r in p.body, newtonKernels.pot q (pointAt r) ρ
  e : ∀ q p ρ, p.Ordered → K.e q p ρ = ∫ r in p.body, newtonKernels.e q (pointAt r) ρ
  n : ∀ q p ρ, p.Ordered → K.n q p ρ = ∫ r in p.body, newtonKernels.n q (pointAt r) ρ
  u : ∀ q p ρ, p.Ordered → K.u q p ρ = ∫ r in p.body, newtonKernels.u q (pointAt r) ρ
  ee : ∀ q p ρ, p.Ordered → coords q ∉ p.body → K.ee q p ρ = ∫ r in p.body, newtonKernels.ee q (pointAt r) ρ
  nn : ∀ q p ρ, p.Ordered → coords q ∉ p.body → K.nn q p ρ = ∫ r in p.body, newtonKernels.nn q (pointAt r) ρ
  uu : ∀ q p ρ, p.Ordered → coords q ∉ p.body → K.uu q p ρ = ∫ r in p.body, newtonKernels.uu q (pointAt r) ρ
  en : ∀ q p ρ, p.Ordered → coords q ∉ p.body → K.en q p ρ = ∫ r in p.body, newtonKernels.en q (pointAt r) ρ
  eu : ∀ q p ρ, p.Ordered → coords q ∉ p.body → K.eu q p ρ = ∫ r in p.body, newtonKernels.eu q (pointAt r) ρ
  nu : ∀ q p ρ, p.Ordered → coords q ∉ p.body → K.nu q p ρ = ∫ r in p.body, newtonKernels.nu q (pointAt r) ρ

/-- The density of a set of prisms at each point of space; where prisms overlap their densities add up. -/
noncomputable def densityAt (srcs : List (Prism × ℝ)) (r : ℝ × ℝ × ℝ) : ℝ :=
  (srcs.map fun s => s.1.body.indicator (fun _ => s.2) r).sum

/-! ### Kernels of point masses -/

theorem gravConst_pos : 0 < gravitationalConst := by unfold gravitationalConst; positivity

instance volume2_haar : (volume : Measure (ℝ × ℝ)).IsAddHaarMeasure :=
  inferInstanceAs (Measure.prod (volume : Measure ℝ) (volume : Measure ℝ)).IsAddHaarMeasure

instance volume3_haar : (volume : Measure (ℝ × ℝ × ℝ)).IsAddHaarMeasure :=
  inferInstanceAs (Measure.prod (volume : Measure ℝ) (volume : Measure (ℝ × ℝ))).IsAddHaarMeasure

theorem pointAt_coords (q : P3) : pointAt (coords q) = q := rfl

theorem coords_pointAt (r : ℝ × ℝ × ℝ) : coords (pointAt r) = r := rfl

theorem norm_le_gap (q p : P3) : ‖coords q - coords p‖ ≤ gap q p := by
  have h : ∀ a b c : ℝ, |a| ≤ √(a ^ 2 + b ^ 2 + c ^ 2) := fun a b c =>
    Real.abs_le_sqrt (by nlinarith [sq_nonneg b, sq_nonneg c])
  rw [Prod.norm_def, Prod.norm_def]
  refine max_le (h _ _ _) (max_le ?_ ?_)
  · have := h (q.y - p.y) (q.x - p.x) (q.z - p.z)
    rwa [show (q.y - p.y) ^ 2 + (q.x - p.x) ^ 2 + (q.z - p.z) ^ 2 =
      (q.x - p.x) ^ 2 + (q.y - p.y) ^ 2 + (q.z - p.z) ^ 2 by ring] at this
  · have := h (q.z - p.z) (q.x - p.x) (q.y - p.y)
    rwa [show (q.z - p.z) ^ 2 + (q.x - p.x) ^ 2 + (q.y - p.y) ^ 2 =
      (q.x - p.x) ^ 2 + (q.y - p.y) ^ 2 + (q.z - p.z) ^ 2 by ring] at this

theorem gap_nonneg (q p : P3) : 0 ≤ gap q p := Real.sqrt_nonneg _

theorem gap_self (q : P3) : gap q q = 0 := by simp [gap]

theorem coords_ne {q p : P3} (h : q ≠ p) : coords q - coords p ≠ 0 := by
  intro h0
  apply h
  have := sub_eq_zero.1 h0
  obtain ⟨x, y, z⟩ := q
  obtain ⟨x', y', z'⟩ := p
  simp only [coords, Prod.mk.injEq] at this
  obtain ⟨rfl, rfl, rfl⟩ := this
  rfl

theorem measurable_gap (q : P3) : Measurable fun r => gap q (pointAt r) := by
  unfold gap pointAt
  fun_prop

/-- Field of point masses: proportional to the mass, measurable and at most of the order of a power of the inverse
of the distance; the same wherever the frame. -/
structure PointField (k : P3 → P3 → ℝ → ℝ) (a : ℕ) : Prop where
  lin : ∀ q p m, k q p m = m * k q p 1
  meas : ∀ q m, Measurable fun r => k q (pointAt r) m
  bound : ∃ C, 0 ≤ C ∧ ∀ q p, q ≠ p → |k q p 1| ≤ C / gap q p ^ a
  move : ∀ (q p : P3) (m : ℝ) (d : P3), k ⟨q.x + d.x, q.y + d.y, q.z + d.z⟩ ⟨p.x + d.x, p.y + d.y, p.z + d.z⟩ m = k q p m

theorem gap_move (q p d : P3) :
    gap ⟨q.x + d.x, q.y + d.y, q.z + d.z⟩ ⟨p.x + d.x, p.y + d.y, p.z + d.z⟩ = gap q p := by
  simp only [gap, add_sub_add_right_eq_sub]

theorem abs_x_le_gap (q p : P3) : |q.x - p.x| ≤ gap q p ∧ |q.y - p.y| ≤ gap q p ∧ |q.z - p.z| ≤ gap q p := by
  have := norm_le_gap q p
  rw [Prod.norm_def, Prod.norm_def] at this
  exact ⟨(le_max_left _ _).trans this, ((le_max_left _ _).trans (le_max_right _ _)).trans this,
    ((le_max_right _ _).trans (le_max_right _ _)).trans this⟩

theorem accel_bound {G X R : ℝ} (hG : 0 ≤ G) (hR : 0 < R) (hX : |X| ≤ R) : |-(G * 1 * X) / R ^ 3| ≤ G / R ^ 2 := by
  rw [abs_div, abs_neg, abs_mul, abs_of_pos (show 0 < R ^ 3 by positivity), mul_one, abs_of_nonneg hG,
    div_le_div_iff₀ (by positivity) (by positivity)]
  nlinarith [mul_le_mul_of_nonneg_left hX (show 0 ≤ G * R ^ 2 by positivity)]

theorem tensor_bound {G X Y R c : ℝ} (hG : 0 ≤ G) (hR : 0 < R) (hX : |X| ≤ R) (hY : |Y| ≤ R) (hc : |c| ≤ 1) :
    |G * 1 * (3 * X * Y / R ^ 5 - c / R ^ 3)| ≤ 4 * G / R ^ 3 := by
  have h1 : |3 * X * Y / R ^ 5| ≤ 3 / R ^ 3 := by
    rw [abs_div, abs_mul, abs_mul, abs_of_pos (show 0 < R ^ 5 by positivity), div_le_div_iff₀ (by positivity)
      (by positivity)]
    have h2 := mul_le_mul hX hY (abs_nonneg Y) hR.le
    rw [abs_of_pos (show (0 : ℝ) < 3 by norm_num)]
    calc 3 * |X| * |Y| * R ^ 3 = 3 * R ^ 3 * (|X| * |Y|) := by ring
      _ ≤ 3 * R ^ 3 * (R * R) := mul_le_mul_of_nonneg_left h2 (by positivity)
      _ = 3 * R ^ 5 := by ring
  have h3 : |c / R ^ 3| ≤ 1 / R ^ 3 := by
    rw [abs_div, abs_of_pos (show 0 < R ^ 3 by positivity)]
    exact div_le_div_of_nonneg_right hc (by positivity)
  rw [abs_mul, mul_one, abs_of_nonneg hG]
  calc G * |3 * X * Y / R ^ 5 - c / R ^ 3| ≤ G * (3 / R ^ 3 + 1 / R ^ 3) :=
        mul_le_mul_of_nonneg_left ((abs_sub _ _).trans (add_le_add h1 h3)) hG
    _ = _ := by ring

theorem newton_pot : PointField newtonKernels.pot 1 where
  lin q p m := by simp only [newtonKernels]; ring
  meas q m := measurable_const.div (measurable_gap q)
  bound := ⟨gravitationalConst, gravConst_pos.le, fun q p h => by
    simp only [newtonKernels]
    rw [abs_of_pos (div_pos (by linarith [gravConst_pos]) (gap_pos h))]
    simp⟩
  move q p m d := by simp only [newtonKernels, gap_move]

theorem newton_e : PointField newtonKernels.e 2 where
  lin q p m := by simp only [newtonKernels]; ring
  meas q m := by
    have := measurable_gap q
    simp only [newtonKernels]
    refine Measurable.div ?_ (this.pow_const 3)
    unfold pointAt; fun_prop
  bound := ⟨gravitationalConst, gravConst_pos.le, fun q p h =>
    accel_bound gravConst_pos.le (gap_pos h) (abs_x_le_gap q p).1⟩
  move q p m d := by simp only [newtonKernels, gap_move, add_sub_add_right_eq_sub]

theorem newton_n : PointField newtonKernels.n 2 where
  lin q p m := by simp only [newtonKernels]; ring
  meas q m := by
    have := measurable_gap q
    simp only [newtonKernels]
    refine Measurable.div ?_ (this.pow_const 3)
    unfold pointAt; fun_prop
  bound := ⟨gravitationalConst, gravConst_pos.le, fun q p h =>
    accel_bound gravConst_pos.le (gap_pos h) (abs_x_le_gap q p).2.1⟩
  move q p m d := by simp only [newtonKernels, gap_move, add_sub_add_right_eq_sub]

theorem newton_u : PointField newtonKernels.u 2 where
  lin q p m := by simp only [newtonKernels]; ring
  meas q m := by
    have := measurable_gap q
    simp only [newtonKernels]
    refine Measurable.div ?_ (this.pow_const 3)
    unfold pointAt; fun_prop
  bound := ⟨gravitationalConst, gravConst_pos.le, fun q p h =>
    accel_bound gravConst_pos.le (gap_pos h) (abs_x_le_gap q p).2.2⟩
  move q p m d := by simp only [newtonKernels, gap_move, add_sub_add_right_eq_sub]

theorem tensor_meas (q : P3) (G : ℝ) (A : ℝ × ℝ × ℝ → ℝ) (c : ℝ) (hA : Measurable A) :
    Measurable fun r => G * (A r / gap q (pointAt r) ^ 5 - c / gap q (pointAt r) ^ 3) :=
  ((hA.div ((measurable_gap q).pow_const 5)).sub (measurable_const.div ((measurable_gap q).pow_const 3))).const_mul G

theorem newton_ee : PointField newtonKernels.ee 3 where
  lin q p m := by simp only [newtonKernels]; ring
  meas q m := tensor_meas q _ (fun r => 3 * (q.x - r.1) ^ 2) 1 (by fun_prop)
  bound := ⟨4 * gravitationalConst, by linarith [gravConst_pos], fun q p h => by
    have := tensor_bound (c := 1) gravConst_pos.le (gap_pos h) (abs_x_le_gap q p).1 (abs_x_le_gap q p).1
      (by simp)
    simpa only [newtonKernels, sq, mul_assoc] using this⟩
  move q p m d := by simp only [newtonKernels, gap_move, add_sub_add_right_eq_sub]

theorem newton_nn : PointField newtonKernels.nn 3 where
  lin q p m := by simp only [newtonKernels]; ring
  meas q m := tensor_meas q _ (fun r => 3 * (q.y - r.2.1) ^ 2) 1 (by fun_prop)
  bound := ⟨4 * gravitationalConst, by linarith [gravConst_pos], fun q p h => by
    have := tensor_bound (c := 1) gravConst_pos.le (gap_pos h) (abs_x_le_gap q p).2.1 (abs_x_le_gap q p).2.1
      (by simp)
    simpa only [newtonKernels, sq, mul_assoc] using this⟩
  move q p m d := by simp only [newtonKernels, gap_move, add_sub_add_right_eq_sub]

theorem newton_uu : PointField newtonKernels.uu 3 where
  lin q p m := by simp only [newtonKernels]; ring
  meas q m := tensor_meas q _ (fun r => 3 * (q.z - r.2.2) ^ 2) 1 (by fun_prop)
  bound := ⟨4 * gravitationalConst, by linarith [gravConst_pos], fun q p h => by
    have := tensor_bound (c := 1) gravConst_pos.le (gap_pos h) (abs_x_le_gap q p).2.2 (abs_x_le_gap q p).2.2
      (by simp)
    simpa only [newtonKernels, sq, mul_assoc] using this⟩
  move q p m d := by simp only [newtonKernels, gap_move, add_sub_add_right_eq_sub]

theorem newton_en : PointField newtonKernels.en 3 where
  lin q p m := by simp only [newtonKernels]; ring
  meas q m := by
    have := tensor_meas q (gravitationalConst * m) (fun r => 3 * (q.x - r.1) * (q.y - r.2.1)) 0 (by fun_prop)
    simpa only [newtonKernels, pointAt, zero_div, sub_zero] using this
  bound := ⟨4 * gravitationalConst, by linarith [gravConst_pos], fun q p h => by
    have := tensor_bound (c := 0) gravConst_pos.le (gap_pos h) (abs_x_le_gap q p).1 (abs_x_le_gap q p).2.1
      (by simp)
    simpa only [newtonKernels, zero_div, sub_zero] using this⟩
  move q p m d := by simp only [newtonKernels, gap_move, add_sub_add_right_eq_sub]

theorem newton_eu : PointField newtonKernels.eu 3 where
  lin q p m := by simp only [newtonKernels]; ring
  meas q m := by
    have := tensor_meas q (gravitationalConst * m) (fun r => 3 * (q.x - r.1) * (q.z - r.2.2)) 0 (by fun_prop)
    simpa only [newtonKernels, pointAt, zero_div, sub_zero] using this
  bound := ⟨4 * gravitationalConst, by linarith [gravConst_pos], fun q p h => by
    have := tensor_bound (c := 0) gravConst_pos.le (gap_pos h) (abs_x_le_gap q p).1 (abs_x_le_gap q p).2.2
      (by simp)
    simpa only [newtonKernels, zero_div, sub_zero] using this⟩
  move q p m d := by simp only [newtonKernels, gap_move, add_sub_add_right_eq_sub]

theorem newton_nu : PointField newtonKernels.nu 3 where
  lin q p m := by simp only [newtonKernels]; ring
  meas q m := by
    have := tensor_meas q (gravitationalConst * m) (fun r => 3 * (q.y - r.2.1) * (q.z - r.2.2)) 0 (by fun_prop)
    simpa only [newtonKernels, pointAt, zero_div, sub_zero] using this
  bound := ⟨4 * gravitationalConst, by linarith [gravConst_pos], fun q p h => by
    have := tensor_bound (c := 0) gravConst_pos.le (gap_pos h) (abs_x_le_gap q p).2.1 (abs_x_le_gap q p).2.2
      (by simp)
    simpa only [newtonKernels, zero_div, sub_zero] using this⟩
  move q p m d := by simp only [newtonKernels, gap_move, add_sub_add_right_eq_sub]

/-! ### Integrals over prisms -/

theorem Prism.body_compact (p : Prism) : IsCompact p.body :=
  isCompact_Icc.prod (isCompact_Icc.prod isCompact_Icc)

theorem Prism.body_meas (p : Prism) : MeasurableSet p.body := p.body_compact.measurableSet

/-- A point outside a prism is at a positive distance from it. -/
theorem outside_gap {q : P3} {p : Prism} (h : coords q ∉ p.body) :
    ∃ δ, 0 < δ ∧ ∀ r ∈ p.body, δ ≤ gap q (pointAt r) := by
  obtain ⟨δ, hδ, hb⟩ := Metric.isOpen_iff.1 p.body_compact.isClosed.isOpen_compl (coords q) h
  refine ⟨δ, hδ, fun r hr => le_trans ?_ (norm_le_gap q (pointAt r))⟩
  rw [coords_pointAt, ← dist_eq_norm]
  by_contra hc
  push Not at hc
  exact hb (show r ∈ Metric.ball (coords q) δ by rw [Metric.mem_ball, dist_comm]; exact hc) hr

theorem ne_of_outside {q : P3} {p : Prism} (h : coords q ∉ p.body) {r : ℝ × ℝ × ℝ} (hr : r ∈ p.body) :
    q ≠ pointAt r := by
  rintro rfl
  exact h hr

theorem PointField.integrableOn_outside {k : P3 → P3 → ℝ → ℝ} {a : ℕ} (hk : PointField k a) {q : P3} {p : Prism}
    (h : coords q ∉ p.body) (m : ℝ) : IntegrableOn (fun r => k q (pointAt r) m) p.body := by
  obtain ⟨δ, hδ, hb⟩ := outside_gap h
  obtain ⟨C, hC, hCb⟩ := hk.bound
  refine Measure.integrableOn_of_bounded (M := |m| * (C / δ ^ a)) p.body_compact.measure_lt_top.ne
    (hk.meas q m).aestronglyMeasurable ?_
  refine (ae_restrict_iff' p.body_meas).2 (Eventually.of_forall fun r hr => ?_)
  rw [hk.lin, Real.norm_eq_abs, abs_mul]
  refine mul_le_mul_of_nonneg_left ((hCb q _ (ne_of_outside h hr)).trans ?_) (abs_nonneg m)
  exact div_le_div_of_nonneg_left hC (by positivity) (pow_le_pow_left₀ hδ.le (hb r hr) a)

theorem inverse_integrable (q : ℝ × ℝ × ℝ) (R : ℝ) {a : ℕ} (ha : a ≤ 2) :
    IntegrableOn (fun r => (‖q - r‖ ^ a)⁻¹) (Metric.ball q R) := by
  have h0 : IntegrableOn (fun x : ℝ × ℝ × ℝ => (fun y : ℝ => (y ^ a)⁻¹) ‖x‖) (Metric.ball 0 R) := by
    refine (integrableOn_fun_norm_addHaar (volume : Measure (ℝ × ℝ × ℝ)) (f := fun y : ℝ => (y ^ a)⁻¹)).2 ?_
    have hd : Module.finrank ℝ (ℝ × ℝ × ℝ) = 3 := by simp
    rw [hd]
    refine Measure.integrableOn_of_bounded (M := max 1 R ^ 2) measure_Ioo_lt_top.ne
      (by fun_prop) ?_
    refine (ae_restrict_iff' measurableSet_Ioo).2 (Eventually.of_forall fun y hy => ?_)
    obtain ⟨y0, y1⟩ := hy
    have e : y ^ (3 - 1) • (y ^ a)⁻¹ = y ^ (2 - a) := by
      rw [smul_eq_mul, pow_sub₀ y y0.ne' ha]
    rw [e, Real.norm_eq_abs, abs_of_nonneg (by positivity)]
    calc y ^ (2 - a) ≤ max 1 R ^ (2 - a) := pow_le_pow_left₀ y0.le (y1.le.trans (le_max_right _ _)) _
      _ ≤ _ := pow_le_pow_right₀ (le_max_left _ _) (by omega)
  have hmp : MeasurePreserving (fun r : ℝ × ℝ × ℝ => r - q) volume volume := measurePreserving_sub_right _ q
  have := (hmp.integrableOn_comp_preimage (MeasurableEquiv.subRight q).measurableEmbedding).2 h0
  have e1 : (fun r : ℝ × ℝ × ℝ => r - q) ⁻¹' Metric.ball 0 R = Metric.ball q R := by
    ext r; simp [dist_eq_norm]
  rw [e1] at this
  refine this.congr_fun (fun r _ => ?_) measurableSet_ball
  simp only [Function.comp, norm_sub_rev]

theorem PointField.integrableOn {k : P3 → P3 → ℝ → ℝ} {a : ℕ} (hk : PointField k a) (ha : a ≤ 2) (q : P3) (p : Prism)
    (m : ℝ) : IntegrableOn (fun r => k q (pointAt r) m) p.body := by
  obtain ⟨C, hC, hCb⟩ := hk.bound
  obtain ⟨R, hR⟩ := p.body_compact.isBounded.subset_ball (coords q)
  have hI := (((inverse_integrable (coords q) R ha).mono_set hR).const_mul (|m| * (C + |k q q 1|)))
  have hne : ∀ᵐ r : ℝ × ℝ × ℝ ∂(volume.restrict p.body), r ≠ coords q := by
    refine ae_restrict_of_ae ?_
    rw [ae_iff]
    simp
  refine Integrable.mono' hI (hk.meas q m).aestronglyMeasurable ?_
  filter_upwards [hne] with r hr
  have hq : q ≠ pointAt r := by rintro rfl; exact hr rfl
  have hn : 0 < ‖coords q - r‖ := norm_pos_iff.2 (sub_ne_zero.2 (Ne.symm hr))
  rw [hk.lin, Real.norm_eq_abs, abs_mul, mul_assoc]
  refine mul_le_mul_of_nonneg_left ((hCb q _ hq).trans ?_) (abs_nonneg m)
  calc C / gap q (pointAt r) ^ a ≤ C / ‖coords q - r‖ ^ a :=
        div_le_div_of_nonneg_left hC (by positivity)
          (pow_le_pow_left₀ hn.le (norm_le_gap q (pointAt r)) a)
    _ ≤ (C + |k q q 1|) / ‖coords q - r‖ ^ a :=
        div_le_div_of_nonneg_right (by linarith [abs_nonneg (k q q 1)]) (by positivity)
    _ = _ := by rw [div_eq_mul_inv]

theorem Prism.volume_body (p : Prism) (h : p.Ordered) : (MeasureSpace.volume : Measure (ℝ × ℝ × ℝ)).real p.body = p.volume := by
  obtain ⟨h1, h2, h3⟩ := h
  unfold Prism.body Prism.volume Measure.real
  rw [Measure.volume_eq_prod, Measure.prod_prod, Measure.volume_eq_prod, Measure.prod_prod, Real.volume_Icc,
    Real.volume_Icc, Real.volume_Icc, ENNReal.toReal_mul, ENNReal.toReal_mul,
    ENNReal.toReal_ofReal (by linarith), ENNReal.toReal_ofReal (by linarith), ENNReal.toReal_ofReal (by linarith)]
  ring

/-- A prism without volume is negligible. -/
theorem Prism.integral_null (p : Prism) (h : p.Ordered) (h0 : p.volume = 0) (f : ℝ × ℝ × ℝ → ℝ) :
    ∫ r in p.body, f r = 0 := by
  have hv := p.volume_body h
  rw [h0] at hv
  have : (MeasureSpace.volume : Measure (ℝ × ℝ × ℝ)) p.body = 0 := by
    rcases (ENNReal.toReal_eq_zero_iff _).1 hv with h | h
    · exact h
    · exact absurd h p.body_compact.measure_lt_top.ne
  rw [Measure.restrict_eq_zero.2 this, integral_zero_measure]

/-- The kernels of prisms are those of point masses, integrated. -/
theorem PrismKernels.Newtonian.table {K : PrismKernels} (hK : K.Newtonian) {field : String}
    {k : P3 → Prism → ℝ → ℝ} {factor : ℝ} (h : prismFieldTable K field = some (k, factor)) :
    ∃ k0 a, PointField k0 a ∧ (field ∈ ["potential", "g_e", "g_n", "g_z"] → a ≤ 2) ∧
      pointFieldTable newtonKernels field = some (k0, factor) ∧
      ∀ q p ρ, p.Ordered → (a ≤ 2 ∨ coords q ∉ p.body) → k q p ρ = ∫ r in p.body, k0 q (pointAt r) ρ := by
  unfold prismFieldTable at h
  split_ifs at h with h1 h2 h3 h4 h5 h6 h7 h8 h9 h10
  all_goals
    simp only [Option.some.injEq, Prod.mk.injEq] at h
    obtain ⟨rfl, rfl⟩ := h
  · subst h1
    exact ⟨_, 1, newton_pot, by simp, by simp [pointFieldTable], fun q p ρ hp _ => hK.pot q p ρ hp⟩
  · subst h2
    exact ⟨_, 2, newton_e, by simp, by simp [pointFieldTable], fun q p ρ hp _ => hK.e q p ρ hp⟩
  · subst h3
    exact ⟨_, 2, newton_n, by simp, by simp [pointFieldTable], fun q p ρ hp _ => hK.n q p ρ hp⟩
  · subst h4
    exact ⟨_, 2, newton_u, by simp, by simp [pointFieldTable], fun q p ρ hp _ => hK.u q p ρ hp⟩
  · subst h5
    exact ⟨_, 3, newton_ee, by simp, by simp [pointFieldTable], fun q p ρ hp h =>
      hK.ee q p ρ hp (h.resolve_left (by omega))⟩
  · subst h6
    exact ⟨_, 3, newton_nn, by simp, by simp [pointFieldTable], fun q p ρ hp h =>
      hK.nn q p ρ hp (h.resolve_left (by omega))⟩
  · subst h7
    exact ⟨_, 3, newton_uu, by simp, by simp [pointFieldTable], fun q p ρ hp h =>
      hK.uu q p ρ hp (h.resolve_left (by omega))⟩
  · subst h8
    exact ⟨_, 3, newton_en, by simp, by simp [pointFieldTable], fun q p ρ hp h =>
      hK.en q p ρ hp (h.resolve_left (by omega))⟩
  · subst h9
    exact ⟨_, 3, newton_eu, by simp, by simp [pointFieldTable], fun q p ρ hp h =>
      hK.eu q p ρ hp (h.resolve_left (by omega))⟩
  · subst h10
    exact ⟨_, 3, newton_nu, by simp, by simp [pointFieldTable], fun q p ρ hp h =>
      hK.nu q p ρ hp (h.resolve_left (by omega))⟩

end Verif.Forward
