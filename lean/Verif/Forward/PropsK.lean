import Verif.Forward.PropsF
import Verif.Utils.Props
import Mathlib.Analysis.SpecialFunctions.Integrals.Basic
import Mathlib.MeasureTheory.Integral.Prod
import Mathlib.Analysis.Real.Pi.Bounds

/-!
C123: the Bouguer correction is the gravity of an infinite plate: the limit of `prism_gravity` for ever wider
prisms, and a bound for all bodies within the plate.
-/

namespace Verif.Forward
open Verif.Distance Verif.Engine Filter Topology MeasureTheory

/-! ### The solid angle of a rectangle -/

/-- Solid angle of a rectangle with sides `x` and `y` from a point over one of its corners at distance `d`. -/
noncomputable def solid (x y d : ℝ) : ℝ := Real.arctan (x * y / (d * √(x ^ 2 + y ^ 2 + d ^ 2)))

theorem sqrt_deriv (x y d : ℝ) (hd : 0 < d) :
    HasDerivAt (fun y => √(x ^ 2 + y ^ 2 + d ^ 2)) (y / √(x ^ 2 + y ^ 2 + d ^ 2)) y := by
  have h : HasDerivAt (fun y => x ^ 2 + y ^ 2 + d ^ 2) (2 * y) y := by
    have := (((hasDerivAt_id y).pow 2).const_add (x ^ 2)).add_const (d ^ 2)
    simpa using this
  have hpos : 0 < x ^ 2 + y ^ 2 + d ^ 2 := by positivity
  refine (h.sqrt hpos.ne').congr_deriv ?_
  have := Real.sqrt_pos.2 hpos
  field_simp

theorem inner_deriv (x y d : ℝ) (hd : 0 < d) :
    HasDerivAt (fun y => d * y / ((x ^ 2 + d ^ 2) * √(x ^ 2 + y ^ 2 + d ^ 2))) (d / √(x ^ 2 + y ^ 2 + d ^ 2) ^ 3) y := by
  have hpos : 0 < x ^ 2 + y ^ 2 + d ^ 2 := by positivity
  have hs := Real.sqrt_pos.2 hpos
  have hsq := Real.sq_sqrt hpos.le
  have hx : 0 < x ^ 2 + d ^ 2 := by positivity
  have h := ((hasDerivAt_id y).const_mul d).fun_div ((sqrt_deriv x y d hd).const_mul (x ^ 2 + d ^ 2))
    (mul_pos hx hs).ne'
  refine h.congr_deriv ?_
  simp only [id]
  generalize √(x ^ 2 + y ^ 2 + d ^ 2) = s at *
  field_simp
  linear_combination hsq

theorem solid_deriv (x y d : ℝ) (hd : 0 < d) :
    HasDerivAt (fun x => solid x y d) (d * y / ((x ^ 2 + d ^ 2) * √(x ^ 2 + y ^ 2 + d ^ 2))) x := by
  have hpos : 0 < x ^ 2 + y ^ 2 + d ^ 2 := by positivity
  have hs := Real.sqrt_pos.2 hpos
  have hsq := Real.sq_sqrt hpos.le
  have hx : 0 < x ^ 2 + d ^ 2 := by positivity
  have hr : HasDerivAt (fun x => √(x ^ 2 + y ^ 2 + d ^ 2)) (x / √(x ^ 2 + y ^ 2 + d ^ 2)) x := by
    have := sqrt_deriv y x d hd
    simpa only [add_comm (y ^ 2)] using this
  have h := (((hasDerivAt_id x).mul_const y).fun_div (hr.const_mul d) (mul_pos hd hs).ne').arctan
  refine h.congr_deriv ?_
  simp only [id]
  generalize √(x ^ 2 + y ^ 2 + d ^ 2) = s at *
  have h1 : d ^ 2 * s ^ 2 + x ^ 2 * y ^ 2 = (x ^ 2 + d ^ 2) * (y ^ 2 + d ^ 2) := by rw [hsq]; ring
  have h2 : 0 < (x ^ 2 + d ^ 2) * (y ^ 2 + d ^ 2) := by positivity
  have h3 : 1 + (x * y / (d * s)) ^ 2 = (x ^ 2 + d ^ 2) * (y ^ 2 + d ^ 2) / (d * s) ^ 2 := by
    rw [← h1]
    field_simp
  rw [h3]
  field_simp
  linear_combination y * hsq

theorem inner_integral (x d s n : ℝ) (hd : 0 < d) :
    ∫ y in s..n, d / √(x ^ 2 + y ^ 2 + d ^ 2) ^ 3 =
      d * n / ((x ^ 2 + d ^ 2) * √(x ^ 2 + n ^ 2 + d ^ 2)) - d * s / ((x ^ 2 + d ^ 2) * √(x ^ 2 + s ^ 2 + d ^ 2)) := by
  refine intervalIntegral.integral_eq_sub_of_hasDerivAt (fun y _ => inner_deriv x y d hd) ?_
  refine Continuous.intervalIntegrable ?_ _ _
  refine continuous_const.div (by fun_prop) fun y => ?_
  positivity

theorem outer_integral (y d w e : ℝ) (hd : 0 < d) :
    ∫ x in w..e, d * y / ((x ^ 2 + d ^ 2) * √(x ^ 2 + y ^ 2 + d ^ 2)) = solid e y d - solid w y d := by
  refine intervalIntegral.integral_eq_sub_of_hasDerivAt (fun x _ => solid_deriv x y d hd) ?_
  refine Continuous.intervalIntegrable ?_ _ _
  refine Continuous.div (by fun_prop) (by fun_prop) fun y => ?_
  positivity

/-- The solid angle of a rectangle. -/
theorem rectangle_integral (w e s n d : ℝ) (hd : 0 < d) :
    ∫ x in w..e, ∫ y in s..n, d / √(x ^ 2 + y ^ 2 + d ^ 2) ^ 3 =
      solid e n d - solid w n d - (solid e s d - solid w s d) := by
  simp only [inner_integral _ d s n hd]
  rw [intervalIntegral.integral_sub, outer_integral _ _ _ _ hd, outer_integral _ _ _ _ hd]
  all_goals
    refine Continuous.intervalIntegrable ?_ _ _
    refine Continuous.div (by fun_prop) (by fun_prop) fun y => ?_
    positivity

/-- Solid angle of the horizontal section of a prism at depth `d` under a point. -/
noncomputable def section_ (p : Prism) (q : P3) (d : ℝ) : ℝ :=
  solid (p.east - q.x) (p.north - q.y) d - solid (p.west - q.x) (p.north - q.y) d -
    (solid (p.east - q.x) (p.south - q.y) d - solid (p.west - q.x) (p.south - q.y) d)

/-- Downward attraction of a unit mass for a gravitational constant of one. -/
noncomputable def pull (q : P3) (r : ℝ × ℝ × ℝ) : ℝ := (q.z - r.2.2) / gap q (pointAt r) ^ 3

theorem u_pull (q : P3) (r : ℝ × ℝ × ℝ) (m : ℝ) :
    newtonKernels.u q (pointAt r) m = -(gravitationalConst * m) * pull q r := by
  simp only [newtonKernels, pull, pointAt]
  ring

theorem pull_integrable (q : P3) (p : Prism) : IntegrableOn (pull q) p.body := by
  have h := newton_u.integrableOn le_rfl q p (-1 / gravitationalConst)
  have hG := gravConst_pos.ne'
  refine h.congr_fun (fun r _ => ?_) p.body_meas
  simp only [u_pull]
  field_simp

theorem section_integral (p : Prism) (hp : p.Ordered) (q : P3) (z : ℝ) (hz : z < q.z) :
    ∫ s in Set.Icc p.west p.east ×ˢ Set.Icc p.south p.north, pull q (s.1, s.2, z) = section_ p q (q.z - z) := by
  have hd : 0 < q.z - z := by linarith
  have hpull : ∀ x y, pull q (x, y, z) = (q.z - z) / √((x - q.x) ^ 2 + (y - q.y) ^ 2 + (q.z - z) ^ 2) ^ 3 := by
    intro x y
    simp only [pull, gap, pointAt]
    congr 4
    ring
  have hcont : Continuous fun s : ℝ × ℝ => pull q (s.1, s.2, z) := by
    simp only [hpull]
    refine continuous_const.div (by fun_prop) fun s => ?_
    positivity
  rw [Measure.volume_eq_prod, setIntegral_prod]
  · simp only [hpull]
    rw [integral_Icc_eq_integral_Ioc, ← intervalIntegral.integral_of_le hp.1]
    simp only [integral_Icc_eq_integral_Ioc, ← intervalIntegral.integral_of_le hp.2.1]
    have h1 : ∀ x, ∫ y in p.south..p.north,
        (q.z - z) / √((x - q.x) ^ 2 + (y - q.y) ^ 2 + (q.z - z) ^ 2) ^ 3 =
        ∫ y in (p.south - q.y)..(p.north - q.y), (q.z - z) / √((x - q.x) ^ 2 + y ^ 2 + (q.z - z) ^ 2) ^ 3 :=
      fun x => intervalIntegral.integral_comp_sub_right
        (fun y => (q.z - z) / √((x - q.x) ^ 2 + y ^ 2 + (q.z - z) ^ 2) ^ 3) q.y
    simp only [h1]
    rw [intervalIntegral.integral_comp_sub_right
      (fun x => ∫ y in (p.south - q.y)..(p.north - q.y), (q.z - z) / √(x ^ 2 + y ^ 2 + (q.z - z) ^ 2) ^ 3) q.x,
      rectangle_integral _ _ _ _ _ hd]
    rfl
  · exact (hcont.continuousOn).integrableOn_compact (isCompact_Icc.prod isCompact_Icc)

theorem body_integral (p : Prism) (hp : p.Ordered) (q : P3) (hq : p.top ≤ q.z) :
    ∫ r in p.body, pull q r = ∫ z in Set.Icc p.bottom p.top, section_ p q (q.z - z) := by
  have hI := pull_integrable q p
  have hpres := volume_preserving_prodAssoc (α₁ := ℝ) (β₁ := ℝ) (γ₁ := ℝ)
  have hset : MeasurableEquiv.prodAssoc (α := ℝ) (β := ℝ) (γ := ℝ) ⁻¹' p.body =
      (Set.Icc p.west p.east ×ˢ Set.Icc p.south p.north) ×ˢ Set.Icc p.bottom p.top := by
    ext ⟨⟨x, y⟩, z⟩
    simp [Prism.body, MeasurableEquiv.prodAssoc, and_assoc]
  have h1 := hpres.setIntegral_preimage_emb (MeasurableEquiv.measurableEmbedding _) (pull q) p.body
  have h2 := (hpres.integrableOn_comp_preimage (MeasurableEquiv.measurableEmbedding _)).2 hI
  rw [hset] at h1 h2
  rw [← h1, Measure.volume_eq_prod, ← setIntegral_prod_swap, setIntegral_prod]
  · refine setIntegral_congr_ae measurableSet_Icc ?_
    have : ∀ᵐ z : ℝ, z ≠ q.z := by
      rw [ae_iff]
      simp
    filter_upwards [this] with z hz hin
    exact section_integral p hp q z (lt_of_le_of_ne (hin.2.trans hq) hz)
  · exact IntegrableOn.swap h2

theorem solid_bounds (x y d : ℝ) : -(Real.pi / 2) ≤ solid x y d ∧ solid x y d ≤ Real.pi / 2 :=
  ⟨(Real.neg_pi_div_two_lt_arctan _).le, (Real.arctan_lt_pi_div_two _).le⟩

theorem section_bounds (p : Prism) (q : P3) (d : ℝ) : |section_ p q d| ≤ 2 * Real.pi := by
  unfold section_
  have h1 := solid_bounds (p.east - q.x) (p.north - q.y) d
  have h2 := solid_bounds (p.west - q.x) (p.north - q.y) d
  have h3 := solid_bounds (p.east - q.x) (p.south - q.y) d
  have h4 := solid_bounds (p.west - q.x) (p.south - q.y) d
  rw [abs_le]
  constructor <;> linarith [h1.1, h1.2, h2.1, h2.2, h3.1, h3.2, h4.1, h4.2]

theorem section_measurable (p : Prism) (q : P3) : Measurable fun z => section_ p q (q.z - z) := by
  unfold section_ solid
  fun_prop

theorem solid_neg_left (x y d : ℝ) : solid (-x) y d = -solid x y d := by
  unfold solid
  rw [neg_sq, neg_mul, neg_div, Real.arctan_neg]

theorem solid_neg_right (x y d : ℝ) : solid x (-y) d = -solid x y d := by
  unfold solid
  rw [neg_sq, mul_neg, neg_div, Real.arctan_neg]

/-- The solid angle of a quarter of a plane. -/
theorem solid_tendsto {x y : ℕ → ℝ} (hx : Tendsto x atTop atTop) (hy : Tendsto y atTop atTop) {d : ℝ} (hd : 0 < d) :
    Tendsto (fun k => solid (x k) (y k) d) atTop (𝓝 (Real.pi / 2)) := by
  have h : Tendsto (fun k => x k * y k / (d * √(x k ^ 2 + y k ^ 2 + d ^ 2))) atTop atTop := by
    have hm : Tendsto (fun k => min (x k) (y k) / (2 * d)) atTop atTop :=
      (tendsto_atTop_atTop.2 fun b => by
        obtain ⟨i, hi⟩ := (tendsto_atTop_atTop.1 hx b)
        obtain ⟨j, hj⟩ := (tendsto_atTop_atTop.1 hy b)
        exact ⟨max i j, fun a ha => le_min (hi a (le_trans (le_max_left _ _) ha))
          (hj a (le_trans (le_max_right _ _) ha))⟩ : Tendsto (fun k => min (x k) (y k)) atTop atTop).atTop_div_const
        (by positivity)
    refine tendsto_atTop_mono' _ ?_ hm
    filter_upwards [hx.eventually_ge_atTop d, hy.eventually_ge_atTop d] with k h1 h2
    set a := min (x k) (y k) with ha
    have a0 : 0 < a := lt_min (by linarith) (by linarith)
    have hs : √(x k ^ 2 + y k ^ 2 + d ^ 2) ≤ 2 * max (x k) (y k) := by
      rw [Real.sqrt_le_iff]
      have m1 := le_max_left (x k) (y k)
      have m2 := le_max_right (x k) (y k)
      constructor
      · linarith
      · nlinarith
    have hpos : 0 < √(x k ^ 2 + y k ^ 2 + d ^ 2) := by positivity
    rw [div_le_div_iff₀ (by positivity) (by positivity), ← min_mul_max (x k) (y k), ← ha]
    have := mul_le_mul_of_nonneg_left hs (mul_nonneg a0.le hd.le)
    linarith
  exact (Real.tendsto_arctan_atTop.mono_right nhdsWithin_le_nhds).comp h

/-- Prisms whose vertical faces go away in all directions. -/
structure Widening (p : ℕ → Prism) : Prop where
  west : Tendsto (fun k => (p k).west) atTop atBot
  east : Tendsto (fun k => (p k).east) atTop atTop
  south : Tendsto (fun k => (p k).south) atTop atBot
  north : Tendsto (fun k => (p k).north) atTop atTop

theorem section_tendsto {p : ℕ → Prism} (hp : Widening p) (q : P3) {d : ℝ} (hd : 0 < d) :
    Tendsto (fun k => section_ (p k) q d) atTop (𝓝 (2 * Real.pi)) := by
  have he : Tendsto (fun k => (p k).east - q.x) atTop atTop := tendsto_atTop_add_const_right _ _ hp.east
  have hn : Tendsto (fun k => (p k).north - q.y) atTop atTop := tendsto_atTop_add_const_right _ _ hp.north
  have hw : Tendsto (fun k => -((p k).west - q.x)) atTop atTop :=
    tendsto_neg_atBot_atTop.comp (tendsto_atBot_add_const_right _ _ hp.west)
  have hs : Tendsto (fun k => -((p k).south - q.y)) atTop atTop :=
    tendsto_neg_atBot_atTop.comp (tendsto_atBot_add_const_right _ _ hp.south)
  have h := ((solid_tendsto he hn hd).add (solid_tendsto hw hn hd)).add
    ((solid_tendsto he hs hd).add (solid_tendsto hw hs hd))
  rw [show Real.pi / 2 + Real.pi / 2 + (Real.pi / 2 + Real.pi / 2) = 2 * Real.pi by ring] at h
  refine h.congr fun k => ?_
  unfold section_
  simp only [solid_neg_left, solid_neg_right]
  ring

/-- The pull of a plate. -/
theorem plate_tendsto {p : ℕ → Prism} (hp : Widening p) (hord : ∀ k, (p k).Ordered) {b t : ℝ}
    (hb : ∀ k, (p k).bottom = b) (ht : ∀ k, (p k).top = t) (q : P3) (hq : t ≤ q.z) :
    Tendsto (fun k => ∫ r in (p k).body, pull q r) atTop (𝓝 (2 * Real.pi * (t - b))) := by
  have hbt : b ≤ t := by
    have := (hord 0).2.2
    rwa [hb, ht] at this
  have e : ∀ k, ∫ r in (p k).body, pull q r = ∫ z in Set.Icc b t, section_ (p k) q (q.z - z) := by
    intro k
    rw [body_integral (p k) (hord k) q (by rw [ht]; exact hq), hb, ht]
  simp only [e]
  have hlim : ∫ _ in Set.Icc b t, (2 * Real.pi) = 2 * Real.pi * (t - b) := by
    simp [Measure.real, hbt, mul_comm]
  rw [← hlim]
  refine tendsto_integral_of_dominated_convergence (fun _ => 2 * Real.pi)
    (fun k => (section_measurable _ _).aestronglyMeasurable) ?_ ?_ ?_
  · exact integrable_const _
  · intro k
    exact Eventually.of_forall fun z => section_bounds _ _ _
  · have : ∀ᵐ z : ℝ, z ≠ q.z := by
      rw [ae_iff]
      simp
    rw [ae_restrict_iff' measurableSet_Icc]
    filter_upwards [this] with z hz hin
    have : z < q.z := lt_of_le_of_ne (hin.2.trans hq) hz
    exact section_tendsto hp q (by linarith)

/-- No body in a plate pulls more than the plate. -/
theorem plate_bound (p : Prism) (hp : p.Ordered) (q : P3) (hq : p.top ≤ q.z) :
    ∫ r in p.body, pull q r ≤ 2 * Real.pi * (p.top - p.bottom) := by
  rw [body_integral p hp q hq]
  have hlim : ∫ _ in Set.Icc p.bottom p.top, (2 * Real.pi) = 2 * Real.pi * (p.top - p.bottom) := by
    simp [Measure.real, hp.2.2, mul_comm]
  rw [← hlim]
  refine setIntegral_mono_on ?_ (integrable_const _) measurableSet_Icc fun z _ => (le_abs_self _).trans (section_bounds _ _ _)
  refine Measure.integrableOn_of_bounded (M := 2 * Real.pi) (by simp)
    (section_measurable _ _).aestronglyMeasurable ?_
  exact Eventually.of_forall fun z => section_bounds _ _ _

theorem gz_value (junk : Junk) (mode : Mode) {K : PrismKernels} (hK : K.Newtonian) (shape : List ℕ)
    (obs : List P3) (hshape : shape.prod = obs.length) (srcs : List (Prism × ℝ)) (dis : Bool)
    (hord : ∀ s ∈ srcs, s.1.Ordered) (hm : mode.Full obs.length (2 * srcs.length)) :
    (prismGravity junk mode K (arrays shape obs) (srcs.map (·.1)) (srcs.map (·.2)) "g_z" dis).map (·.2) =
      .ok ⟨shape, obs.map fun q => 10 ^ 5 * gravitationalConst * ∫ r, densityAt srcs r * pull q r⟩ := by
  rw [prismGravity_density junk mode hK shape obs hshape srcs dis hord hm "g_z"
    fun q _ => Or.inl (by simp [everywhere])]
  simp only [pointFieldTable, prismFieldTable, reduceIte, String.reduceEq, u_pull]
  congr 2
  refine List.map_congr_left fun q _ => ?_
  have : ∀ r, densityAt srcs r * (-(gravitationalConst * 1) * pull q r) =
      -gravitationalConst * (densityAt srcs r * pull q r) := fun r => by ring
  simp only [this, integral_const_mul]
  ring

theorem density_pull_integrable (srcs : List (Prism × ℝ)) (q : P3) :
    Integrable fun r => densityAt srcs r * pull q r := by
  have h := ((sum_integrals newton_u srcs q (Or.inl le_rfl)).2).const_mul (-1 / gravitationalConst)
  have hG := gravConst_pos.ne'
  refine h.congr (Eventually.of_forall fun r => ?_)
  simp only [u_pull]
  field_simp

theorem densityAt_one (p : Prism) (ρ : ℝ) (q : P3) :
    ∫ r, densityAt [(p, ρ)] r * pull q r = ρ * ∫ r in p.body, pull q r := by
  rw [← integral_const_mul, ← integral_indicator p.body_meas]
  congr 1
  funext r
  by_cases h : r ∈ p.body <;> simp [densityAt, h]

theorem bouguer_value (h density_crust density_water : ℝ) :
    Utils.bouguerSpec density_crust density_water h = 10 ^ 5 * gravitationalConst *
      ((if h < 0 then density_water - density_crust else density_crust) * (2 * Real.pi * (max h 0 - min h 0))) := by
  unfold Utils.bouguerSpec Utils.slab gravitationalConst
  by_cases hh : h < 0
  · rw [if_pos hh, if_neg (not_le.2 hh), max_eq_right hh.le, min_eq_left hh.le, abs_of_neg hh]
    ring
  · rw [if_neg hh, if_pos (not_lt.1 hh), max_eq_left (not_lt.1 hh), min_eq_right (not_lt.1 hh)]
    ring

/-- What is missing from a quarter of a plane. -/
theorem solid_error {x y d L : ℝ} (hd : 0 < d) (hL : d ≤ L) (hx : L ≤ x) (hy : L ≤ y) :
    Real.pi / 2 - 2 * d / L ≤ solid x y d := by
  have hx0 : 0 < x := by linarith
  have hy0 : 0 < y := by linarith
  have hL0 : 0 < L := by linarith
  have hs : √(x ^ 2 + y ^ 2 + d ^ 2) ≤ 2 * max x y := by
    rw [Real.sqrt_le_iff]
    have m1 := le_max_left x y
    have m2 := le_max_right x y
    constructor
    · linarith
    · nlinarith
  have hpos : 0 < √(x ^ 2 + y ^ 2 + d ^ 2) := by positivity
  have hu : 0 < x * y / (d * √(x ^ 2 + y ^ 2 + d ^ 2)) := by positivity
  unfold solid
  have h1 := Real.arctan_inv_of_pos hu
  have h2 : Real.arctan (x * y / (d * √(x ^ 2 + y ^ 2 + d ^ 2)))⁻¹ ≤ (x * y / (d * √(x ^ 2 + y ^ 2 + d ^ 2)))⁻¹ :=
    (Real.le_tan (Real.arctan_nonneg.2 (by positivity)) (Real.arctan_lt_pi_div_two _)).trans (Real.tan_arctan _).le
  have h3 : (x * y / (d * √(x ^ 2 + y ^ 2 + d ^ 2)))⁻¹ ≤ 2 * d / L := by
    rw [inv_div, div_le_div_iff₀ (by positivity) hL0, ← min_mul_max x y]
    have hm : L ≤ min x y := le_min hx hy
    have hM : 0 < max x y := lt_max_of_lt_left hx0
    calc d * √(x ^ 2 + y ^ 2 + d ^ 2) * L ≤ d * (2 * max x y) * min x y :=
          mul_le_mul (mul_le_mul_of_nonneg_left hs hd.le) hm hL0.le (by positivity)
      _ = 2 * d * (min x y * max x y) := by ring
  linarith

theorem section_error (p : Prism) (q : P3) {d L : ℝ} (hd : 0 < d) (hL : d ≤ L) (he : L ≤ p.east - q.x)
    (hw : L ≤ q.x - p.west) (hn : L ≤ p.north - q.y) (hs : L ≤ q.y - p.south) :
    2 * Real.pi - 8 * d / L ≤ section_ p q d := by
  have h1 := solid_error hd hL he hn
  have h2 := solid_error hd hL hw hn
  have h3 := solid_error hd hL he hs
  have h4 := solid_error hd hL hw hs
  unfold section_
  rw [show p.west - q.x = -(q.x - p.west) by ring, show p.south - q.y = -(q.y - p.south) by ring]
  simp only [solid_neg_left, solid_neg_right]
  have : 8 * d / L = 2 * d / L + 2 * d / L + (2 * d / L + 2 * d / L) := by ring
  rw [this]
  linarith

/-- A prism that goes `L` away in all directions pulls almost like the plate. -/
theorem plate_error (p : Prism) (hp : p.Ordered) (q : P3) (hq : p.top ≤ q.z) {L : ℝ} (hL : 0 < L)
    (hd : q.z - p.bottom ≤ L)
    (he : L ≤ p.east - q.x) (hw : L ≤ q.x - p.west) (hn : L ≤ p.north - q.y) (hs : L ≤ q.y - p.south) :
    (2 * Real.pi - 8 * (q.z - p.bottom) / L) * (p.top - p.bottom) ≤ ∫ r in p.body, pull q r := by
  rw [body_integral p hp q hq]
  have hlim : ∫ _ in Set.Icc p.bottom p.top, (2 * Real.pi - 8 * (q.z - p.bottom) / L) =
      (2 * Real.pi - 8 * (q.z - p.bottom) / L) * (p.top - p.bottom) := by
    simp [Measure.real, hp.2.2, mul_comm]
  rw [← hlim]
  refine setIntegral_mono_on_ae (integrable_const _) ?_ measurableSet_Icc ?_
  · refine Measure.integrableOn_of_bounded (M := 2 * Real.pi) (by simp)
      (section_measurable _ _).aestronglyMeasurable ?_
    exact Eventually.of_forall fun z => section_bounds _ _ _
  · have : ∀ᵐ z : ℝ, z ≠ q.z := by
      rw [ae_iff]
      simp
    filter_upwards [this] with z hz hin
    have hz' : z < q.z := lt_of_le_of_ne (hin.2.trans hq) hz
    refine le_trans ?_ (section_error p q (d := q.z - z) (by linarith) (by linarith [hin.1]) he hw hn hs)
    have : 8 * (q.z - z) / L ≤ 8 * (q.z - p.bottom) / L :=
      div_le_div_of_nonneg_right (by linarith [hin.1]) hL.le
    linarith

/-- A box around a list of prisms. -/
theorem exists_box (srcs : List (Prism × ℝ)) : ∃ w e s n : ℝ, w ≤ e ∧ s ≤ n ∧
    ∀ p ∈ srcs, w ≤ p.1.west ∧ p.1.east ≤ e ∧ s ≤ p.1.south ∧ p.1.north ≤ n := by
  induction srcs with
  | nil => exact ⟨0, 0, 0, 0, le_rfl, le_rfl, by simp⟩
  | cons a l ih =>
    obtain ⟨w, e, s, n, h1, h2, h⟩ := ih
    refine ⟨min w a.1.west, max e a.1.east, min s a.1.south, max n a.1.north,
      (min_le_left _ _).trans (h1.trans (le_max_left _ _)), (min_le_left _ _).trans (h2.trans (le_max_left _ _)), ?_⟩
    intro p hp
    rcases List.mem_cons.1 hp with rfl | hp
    · exact ⟨min_le_right _ _, le_max_right _ _, min_le_right _ _, le_max_right _ _⟩
    · obtain ⟨a1, a2, a3, a4⟩ := h p hp
      exact ⟨(min_le_left _ _).trans a1, a2.trans (le_max_left _ _), (min_le_left _ _).trans a3,
        a4.trans (le_max_left _ _)⟩

/-! ### C123 -/

/-- C123. The Bouguer correction of a topography `h` is the limit of the g_z of `prism_gravity` for wider and
wider prisms between the topography and the ellipsoid, at any observation point over them: with the density of
the crust over the ellipsoid; in the oceans, with that of the water minus that of the crust. -/
theorem C123_plate (junk : Junk) (mode : Mode) {K : PrismKernels} (hK : K.Newtonian) (shape : List ℕ)
    (obs : List P3) (hshape : shape.prod = obs.length) (dis : Bool) (hm : mode.Full obs.length 2)
    (h density_crust density_water : ℝ) (hobs : ∀ q ∈ obs, max h 0 ≤ q.z) (p : ℕ → Prism) (hp : Widening p)
    (hord : ∀ k, (p k).Ordered) (hb : ∀ k, (p k).bottom = min h 0) (ht : ∀ k, (p k).top = max h 0) :
    ∃ (F : ℕ → P3 → ℝ) (B : ℝ),
      (∀ k, (prismGravity junk mode K (arrays shape obs) [p k]
        [if h < 0 then density_water - density_crust else density_crust] "g_z" dis).map (·.2) =
          .ok ⟨shape, obs.map (F k)⟩) ∧
      Utils.bouguerCorrection [some h] density_crust density_water = [some B] ∧
      ∀ q ∈ obs, Tendsto (fun k => F k q) atTop (𝓝 B) := by
  set ρ := if h < 0 then density_water - density_crust else density_crust with hρ
  refine ⟨fun k q => 10 ^ 5 * gravitationalConst * ∫ r, densityAt [(p k, ρ)] r * pull q r,
    10 ^ 5 * gravitationalConst * (ρ * (2 * Real.pi * (max h 0 - min h 0))), ?_, ?_, ?_⟩
  · intro k
    exact gz_value junk mode hK shape obs hshape [(p k, ρ)] dis (by simpa using hord k) (by simpa using hm)
  · rw [Utils.C42_value]
    simp only [List.map_cons, List.map_nil, Option.map_some, List.cons.injEq, and_true, Option.some.injEq]
    exact bouguer_value h density_crust density_water
  · intro q hq
    simp only [densityAt_one]
    exact ((plate_tendsto hp hord hb ht q (hobs q hq)).const_mul ρ).const_mul _

/-- C123. A prism that extends a distance `L` around the observation point, at least the height of the point over
its base, has the gravity of the plate but for a part of it: less than `4 (q.z - base) / (π L)`. -/
theorem C123_error (junk : Junk) (mode : Mode) {K : PrismKernels} (hK : K.Newtonian) (shape : List ℕ)
    (obs : List P3) (hshape : shape.prod = obs.length) (dis : Bool) (hm : mode.Full obs.length 2)
    (h density_crust density_water L : ℝ) (hL : 0 < L) (p : Prism)
    (hb : p.bottom = min h 0) (ht : p.top = max h 0)
    (hobs : ∀ q ∈ obs, max h 0 ≤ q.z ∧ q.z - min h 0 ≤ L ∧ L ≤ p.east - q.x ∧ L ≤ q.x - p.west ∧
      L ≤ p.north - q.y ∧ L ≤ q.y - p.south) (hord : p.Ordered) :
    ∃ (F : P3 → ℝ) (B : ℝ),
      (prismGravity junk mode K (arrays shape obs) [p]
        [if h < 0 then density_water - density_crust else density_crust] "g_z" dis).map (·.2) =
          .ok ⟨shape, obs.map F⟩ ∧
      Utils.bouguerCorrection [some h] density_crust density_water = [some B] ∧
      ∀ q ∈ obs, |F q - B| ≤ |B| * (4 * (q.z - min h 0) / (Real.pi * L)) := by
  set ρ := if h < 0 then density_water - density_crust else density_crust with hρ
  refine ⟨fun q => 10 ^ 5 * gravitationalConst * ∫ r, densityAt [(p, ρ)] r * pull q r,
    10 ^ 5 * gravitationalConst * (ρ * (2 * Real.pi * (max h 0 - min h 0))), ?_, ?_, ?_⟩
  · exact gz_value junk mode hK shape obs hshape [(p, ρ)] dis (by simpa using hord) (by simpa using hm)
  · rw [Utils.C42_value]
    simp only [List.map_cons, List.map_nil, Option.map_some, List.cons.injEq, and_true, Option.some.injEq]
    exact bouguer_value h density_crust density_water
  · intro q hq
    obtain ⟨h1, h2, h3, h4, h5, h6⟩ := hobs q hq
    simp only [densityAt_one]
    have up := plate_bound p hord q (by rw [ht]; exact h1)
    have lo := plate_error p hord q (by rw [ht]; exact h1) hL (by rw [hb]; exact h2) h3 h4 h5 h6
    rw [ht, hb] at up lo
    set I := ∫ r in p.body, pull q r
    have hG := gravConst_pos
    have hπ := Real.pi_pos
    have hT : 0 ≤ max h 0 - min h 0 := sub_nonneg.2 min_le_max
    set T := max h 0 - min h 0
    have e1 : 10 ^ 5 * gravitationalConst * (ρ * I) - 10 ^ 5 * gravitationalConst * (ρ * (2 * Real.pi * T)) =
        10 ^ 5 * gravitationalConst * ρ * (I - 2 * Real.pi * T) := by ring
    rw [e1, abs_mul, abs_mul (10 ^ 5 * gravitationalConst), abs_mul (10 ^ 5 * gravitationalConst), abs_mul ρ,
      abs_of_nonneg (by positivity : 0 ≤ 2 * Real.pi * T), abs_of_nonpos (by linarith : I - 2 * Real.pi * T ≤ 0)]
    have e2 : |10 ^ 5 * gravitationalConst| * (|ρ| * (2 * Real.pi * T)) * (4 * (q.z - min h 0) / (Real.pi * L)) =
        |10 ^ 5 * gravitationalConst| * |ρ| * (8 * (q.z - min h 0) / L * T) := by
      field_simp
      ring
    rw [e2]
    refine mul_le_mul_of_nonneg_left ?_ (by positivity)
    linarith

/-- C123. No body under the observation points pulls more than a plate: when prisms are within a plate of
thickness `h` and their density is at most that of the crust everywhere, their g_z is at most the Bouguer
correction of `h`. -/
theorem C123_bound (junk : Junk) (mode : Mode) {K : PrismKernels} (hK : K.Newtonian) (shape : List ℕ)
    (obs : List P3) (hshape : shape.prod = obs.length) (srcs : List (Prism × ℝ)) (dis : Bool)
    (hord : ∀ s ∈ srcs, s.1.Ordered) (hm : mode.Full obs.length (2 * srcs.length))
    (base h density_crust density_water : ℝ) (hh : 0 ≤ h) (hρ : 0 ≤ density_crust)
    (hin : ∀ s ∈ srcs, base ≤ s.1.bottom ∧ s.1.top ≤ base + h) (hdens : ∀ r, densityAt srcs r ≤ density_crust)
    (hobs : ∀ q ∈ obs, base + h ≤ q.z) :
    ∃ (F : P3 → ℝ) (B : ℝ),
      (prismGravity junk mode K (arrays shape obs) (srcs.map (·.1)) (srcs.map (·.2)) "g_z" dis).map (·.2) =
          .ok ⟨shape, obs.map F⟩ ∧
      Utils.bouguerCorrection [some h] density_crust density_water = [some B] ∧ ∀ q ∈ obs, F q ≤ B := by
  refine ⟨fun q => 10 ^ 5 * gravitationalConst * ∫ r, densityAt srcs r * pull q r,
    10 ^ 5 * gravitationalConst * (density_crust * (2 * Real.pi * h)),
    gz_value junk mode hK shape obs hshape srcs dis hord hm, ?_, ?_⟩
  · rw [Utils.C42_value]
    simp only [List.map_cons, List.map_nil, Option.map_some, List.cons.injEq, and_true, Option.some.injEq]
    rw [bouguer_value h density_crust density_water, if_neg (not_lt.2 hh), max_eq_left hh, min_eq_right hh, sub_zero]
  · intro q hq
    have hz := hobs q hq
    obtain ⟨w, e, s, n, hwe, hsn, hbox⟩ := exists_box srcs
    let box : Prism := ⟨w, e, s, n, base, base + h⟩
    have hbo : box.Ordered := ⟨hwe, hsn, by simp only [box]; linarith⟩
    have hG := gravConst_pos
    refine mul_le_mul_of_nonneg_left ?_ (by positivity)
    have hpb := plate_bound box hbo q hz
    have hsub : ∀ p ∈ srcs, p.1.body ⊆ box.body := by
      intro p hp
      obtain ⟨a1, a2, a3, a4⟩ := hbox p hp
      obtain ⟨b1, b2⟩ := hin p hp
      exact Set.prod_mono (Set.Icc_subset_Icc a1 a2) (Set.prod_mono (Set.Icc_subset_Icc a3 a4)
        (Set.Icc_subset_Icc b1 b2))
    have hle : ∫ r, densityAt srcs r * pull q r ≤ ∫ r, densityAt [(box, density_crust)] r * pull q r := by
      refine integral_mono (density_pull_integrable srcs q) (density_pull_integrable _ q) fun r => ?_
      by_cases hr : r ∈ box.body
      · have hp : 0 ≤ pull q r := by
          unfold pull gap
          have := hr.2.2.2
          simp only [box] at this
          have : 0 ≤ q.z - r.2.2 := by linarith
          positivity
        have hd : densityAt [(box, density_crust)] r = density_crust := by simp [densityAt, hr]
        simp only [hd]
        exact mul_le_mul_of_nonneg_right (hdens r) hp
      · have h0 : densityAt srcs r = 0 := by
          unfold densityAt
          refine List.sum_eq_zero fun x hx => ?_
          obtain ⟨p, hp, rfl⟩ := List.mem_map.1 hx
          exact Set.indicator_of_notMem (fun h => hr (hsub p hp h)) _
        have h1 : densityAt [(box, density_crust)] r = 0 := by simp [densityAt, hr]
        simp only [h0, h1]
        exact le_rfl
    rw [densityAt_one] at hle
    refine hle.trans (mul_le_mul_of_nonneg_left ?_ hρ)
    simpa [box] using hpb

/-! ### Examples -/

/-- Prisms of 2 k by 4 k meters on the ellipsoid. -/
def squares (h : ℝ) (k : ℕ) : Prism := ⟨-(k : ℝ), k, -(2 * k), 2 * k, min h 0, max h 0⟩

theorem squares_widening (h : ℝ) : Widening (squares h) := by
  have hk : Tendsto (fun k : ℕ => (k : ℝ)) atTop atTop := tendsto_natCast_atTop_atTop
  have hk2 : Tendsto (fun k : ℕ => 2 * (k : ℝ)) atTop atTop := hk.const_mul_atTop (by norm_num)
  exact ⟨tendsto_neg_atTop_atBot.comp hk, hk, tendsto_neg_atTop_atBot.comp hk2, hk2⟩

theorem squares_ordered (h : ℝ) (k : ℕ) : (squares h k).Ordered := by
  have : (0 : ℝ) ≤ k := Nat.cast_nonneg k
  exact ⟨by simp only [squares]; linarith, by simp only [squares]; linarith, min_le_max⟩

/-- A mountain of 500 m and a sea of 3 km. -/
example : ∀ h ∈ [(500 : ℝ), -3000], ∃ (F : ℕ → P3 → ℝ) (B : ℝ),
    (∀ k, (prismGravity (fun _ _ => 0) .serial bodyKernels (arrays [1] [⟨1, 2, 700⟩]) [squares h k]
      [if h < 0 then 1040 - 2670 else 2670] "g_z" false).map (·.2) = .ok ⟨[1], [F k ⟨1, 2, 700⟩]⟩) ∧
    Utils.bouguerCorrection [some h] 2670 1040 = [some B] ∧ Tendsto (fun k => F k ⟨1, 2, 700⟩) atTop (𝓝 B) := by
  intro h hh
  obtain ⟨F, B, h1, h2, h3⟩ := C123_plate (fun _ _ => 0) .serial bodyKernels_newtonian [1] [⟨1, 2, 700⟩] (by simp) false
    trivial h 2670 1040 (by
      simp only [List.mem_cons, List.not_mem_nil, or_false] at hh
      rcases hh with rfl | rfl <;> simp <;> norm_num) (squares h) (squares_widening h) (squares_ordered h)
      (fun _ => rfl) (fun _ => rfl)
  exact ⟨F, B, h1, h2, h3 _ (by simp)⟩

/-- Two prisms side by side, of 300 m and 500 m, under a point at 500 m: less than the plate of 500 m. -/
example : ∃ (F : P3 → ℝ) (B : ℝ),
    (prismGravity (fun _ _ => 0) .serial bodyKernels (arrays [1] [⟨1, 2, 500⟩])
      [⟨-10, 0, -10, 10, 0, 300⟩, ⟨1, 10, -10, 10, 0, 500⟩] [2670, 2000] "g_z" false).map (·.2) =
        .ok ⟨[1], [F ⟨1, 2, 500⟩]⟩ ∧
    Utils.bouguerCorrection [some 500] 2670 1040 = [some B] ∧ F ⟨1, 2, 500⟩ ≤ B := by
  obtain ⟨F, B, h1, h2, h3⟩ := C123_bound (fun _ _ => 0) .serial bodyKernels_newtonian [1] [⟨1, 2, 500⟩] (by simp)
    [(⟨-10, 0, -10, 10, 0, 300⟩, 2670), (⟨1, 10, -10, 10, 0, 500⟩, 2000)] false
    (by
      intro s hs
      simp only [List.mem_cons, List.not_mem_nil, or_false] at hs
      rcases hs with rfl | rfl <;> (unfold Prism.Ordered; norm_num)) trivial 0 500 2670 1040 (by norm_num) (by norm_num)
    (by
      intro s hs
      simp only [List.mem_cons, List.not_mem_nil, or_false] at hs
      rcases hs with rfl | rfl <;> norm_num)
    (by
      intro r
      simp only [densityAt, List.map_cons, List.map_nil, List.sum_cons, List.sum_nil, add_zero]
      by_cases a : r.1 ≤ 0
      · rw [Set.indicator_of_notMem (fun h => ?_) (fun _ => (2000 : ℝ)), add_zero]
        · exact Set.indicator_apply_le' (fun _ => le_rfl) (fun _ => by norm_num)
        · have := h.1.1
          simp only at this
          linarith
      · rw [Set.indicator_of_notMem (fun h => ?_) (fun _ => (2670 : ℝ)), zero_add]
        · exact Set.indicator_apply_le' (fun _ => by norm_num) (fun _ => by norm_num)
        · exact a h.1.2) (by simp)
  exact ⟨F, B, h1, h2, h3 _ (by simp)⟩

/-- A prism of 20 km by 20 km and 500 m under a point at 500 m: the plate within 7 %. -/
example : ∃ (F : P3 → ℝ) (B : ℝ),
    (prismGravity (fun _ _ => 0) .serial bodyKernels (arrays [1] [⟨0, 0, 500⟩])
      [⟨-10000, 10000, -10000, 10000, min 500 0, max 500 0⟩] [2670] "g_z" false).map (·.2) =
        .ok ⟨[1], [F ⟨0, 0, 500⟩]⟩ ∧
    Utils.bouguerCorrection [some 500] 2670 1040 = [some B] ∧ |F ⟨0, 0, 500⟩ - B| ≤ |B| * 0.07 := by
  obtain ⟨F, B, h1, h2, h3⟩ := C123_error (fun _ _ => 0) .serial bodyKernels_newtonian [1] [⟨0, 0, 500⟩] (by simp) false
    trivial 500 2670 1040 10000 (by norm_num) ⟨-10000, 10000, -10000, 10000, min 500 0, max 500 0⟩ rfl rfl
    (by simp; norm_num) ⟨by norm_num, by norm_num, min_le_max⟩
  rw [if_neg (by norm_num)] at h1
  refine ⟨F, B, h1, h2, (h3 _ (by simp)).trans (mul_le_mul_of_nonneg_left ?_ (abs_nonneg _))⟩
  have := Real.pi_gt_d2
  rw [div_le_iff₀ (by positivity)]
  norm_num
  linarith

end Verif.Forward
