import Verif.Ellipsoids.PropsU

/-! C160: the potential of prisms everywhere, also inside of them. -/

namespace Verif.Ellipsoids
open MeasureTheory Set Verif.Distance Verif.Engine
open Verif.Forward (arrays gravitationalConst Prism PrismKernels prismGravity Junk pointAt gap newtonKernels everywhere
  EastDeriv NorthDeriv UpDeriv prismGravity_density sum_integrals newton_pot pointFieldTable prismFieldTable
  bodyKernels bodyKernels_newtonian)

/-! ### Specification -/

/-- Newton's potential (m²/s²) at the point `p` of matter with density `ρ`. -/
noncomputable def newtonPotential (ρ : V3 → ℝ) (p : V3) : ℝ := ∫ x, 6.6743e-11 * ρ x * (magnitude (x - p))⁻¹

/-- `prism_gravity` returns these functions for the fields that exist everywhere. -/
def ReturnsEverywhere (K : PrismKernels) (srcs : List (Prism × ℝ)) (F : String → P3 → ℝ) : Prop :=
  ∀ field ∈ everywhere, ∀ (junk : Junk) (mode : Mode) (shape : List ℕ) (obs : List P3) (dis : Bool),
    shape.prod = obs.length → mode.Full obs.length (2 * srcs.length) →
    (prismGravity junk mode K (arrays shape obs) (srcs.map (·.1)) (srcs.map (·.2)) field dis).map (·.2) =
      .ok ⟨shape, obs.map (F field)⟩

/-! ### Bounds -/

/-- The matter of density at most `D` within `S`, whose volume is at most that of a cube of side `r`. -/
theorem near_bound {S : Set V3} (hS : MeasurableSet S) (hv : volume S < ⊤) {D r : ℝ} (hD : 0 ≤ D) (hr0 : 0 ≤ r)
    (hr : volume.real S ≤ r ^ 3) (p : V3) :
    Integrable (fun x => S.indicator (fun _ => D) x * (‖x - p‖ ^ 2)⁻¹) ∧
      ∫ x, S.indicator (fun _ => D) x * (‖x - p‖ ^ 2)⁻¹ ≤ D * (25 * r) := by
  have e0 : (fun x => S.indicator (fun _ => D) x * (‖x - p‖ ^ 2)⁻¹) =
      S.indicator fun x => D * (‖x - p‖ ^ 2)⁻¹ := by
    funext x
    by_cases hx : x ∈ S
    · rw [indicator_of_mem hx, indicator_of_mem hx]
    · rw [indicator_of_notMem hx, indicator_of_notMem hx, zero_mul]
  have h1 : IntegrableOn (fun x => (‖x - p‖ ^ 2)⁻¹) S := (inv_sq_region hv p one_pos).1
  rw [e0, integrable_indicator_iff hS, integral_indicator hS, integral_const_mul]
  refine ⟨h1.const_mul _, mul_le_mul_of_nonneg_left ?_ hD⟩
  rcases hr0.eq_or_lt with rfl | hrp
  · have h0 : volume S = 0 := by
      rw [zero_pow (by norm_num)] at hr
      exact (measureReal_eq_zero_iff hv.ne).1 (le_antisymm hr measureReal_nonneg)
    rw [setIntegral_measure_zero _ h0, mul_zero]
  · refine (inv_sq_region hv p hrp).2.trans ?_
    have : volume.real S / r ^ 2 ≤ r := by
      rw [div_le_iff₀ (by positivity)]
      exact hr.trans (le_of_eq (by ring))
    linarith

theorem newton_bounded {ρ : V3 → ℝ} {S : Set V3} (hS : MeasurableSet S) (hv : volume S < ⊤) {D r : ℝ} (hD : 0 ≤ D)
    (hr0 : 0 ≤ r) (hr : volume.real S ≤ r ^ 3) (hρ : ∀ᵐ x, |ρ x| ≤ S.indicator (fun _ => D) x) (p : V3) (i : Fin 3) :
    ∫ x, ‖newtonElement ρ p i x‖ ≤ 6.6743e-11 * (D * (25 * r)) := by
  obtain ⟨h1, h2⟩ := near_bound hS hv hD hr0 hr p
  refine le_trans ?_ (mul_le_mul_of_nonneg_left h2 (show (0 : ℝ) ≤ 6.6743e-11 by norm_num))
  rw [← integral_const_mul]
  refine integral_mono_of_nonneg (Filter.Eventually.of_forall fun x => norm_nonneg _) (h1.const_mul _) ?_
  filter_upwards [hρ] with x hx
  have e1 : newtonElement ρ p i x = 6.6743e-11 * (ρ x * pull i (x - p)) := by
    unfold newtonElement pull
    rw [Pi.sub_apply]
    ring
  rw [e1, Real.norm_eq_abs, abs_mul, abs_of_pos (show (0 : ℝ) < 6.6743e-11 by norm_num), abs_mul]
  refine mul_le_mul_of_nonneg_left ?_ (by norm_num)
  exact mul_le_mul hx (abs_pull_le i _) (abs_nonneg _) ((abs_nonneg _).trans hx)

theorem inv_diff {v w : V3} (hv : v ≠ 0) (hw : w ≠ 0) :
    |(magnitude v)⁻¹ - (magnitude w)⁻¹| ≤ magnitude (v - w) / 2 * ((‖v‖ ^ 2)⁻¹ + (‖w‖ ^ 2)⁻¹) := by
  have h1 := magnitude_pos hv
  have h2 := magnitude_pos hw
  have h3 : |magnitude w - magnitude v| ≤ magnitude (v - w) := by
    have a1 := magnitude_add (v - w) w
    have a2 := magnitude_add (w - v) v
    have e : magnitude (w - v) = magnitude (v - w) := by rw [← magnitude_neg', neg_sub]
    rw [sub_add_cancel] at a1 a2
    rw [abs_le]
    constructor <;> linarith
  have h4 : ∀ u : V3, u ≠ 0 → ((magnitude u)⁻¹) ^ 2 ≤ (‖u‖ ^ 2)⁻¹ := by
    intro u hu
    rw [← inv_pow]
    exact pow_le_pow_left₀ (inv_nonneg.2 (magnitude_nonneg _))
      (inv_anti₀ (norm_pos_iff.2 hu) (norm_le_magnitude u)) 2
  have e : (magnitude v)⁻¹ - (magnitude w)⁻¹ = (magnitude w - magnitude v) * ((magnitude v)⁻¹ * (magnitude w)⁻¹) := by
    field_simp
  rw [e, abs_mul, abs_of_pos (mul_pos (inv_pos.2 h1) (inv_pos.2 h2)), div_mul_eq_mul_div, mul_div_assoc]
  refine mul_le_mul h3 ?_ (mul_pos (inv_pos.2 h1) (inv_pos.2 h2)).le (magnitude_nonneg _)
  have := h4 v hv
  have := h4 w hw
  nlinarith [sq_nonneg ((magnitude v)⁻¹ - (magnitude w)⁻¹)]

/-- The potential changes at most by the distance times the largest attraction. -/
theorem potential_change {ρ : V3 → ℝ} {S : Set V3} (hS : MeasurableSet S) (hv : volume S < ⊤) {D r : ℝ} (hD : 0 ≤ D)
    (hr0 : 0 ≤ r) (hr : volume.real S ≤ r ^ 3) (hρ : ∀ᵐ x, |ρ x| ≤ S.indicator (fun _ => D) x)
    (hint : ∀ p, Integrable fun x => 6.6743e-11 * ρ x * (magnitude (x - p))⁻¹) (p q : V3) :
    |newtonPotential ρ p - newtonPotential ρ q| ≤ 6.6743e-11 * (25 * (D * r)) * magnitude (p - q) := by
  obtain ⟨a1, a2⟩ := near_bound hS hv hD hr0 hr p
  obtain ⟨b1, b2⟩ := near_bound hS hv hD hr0 hr q
  unfold newtonPotential
  rw [← integral_sub (hint p) (hint q), ← Real.norm_eq_abs]
  refine (norm_integral_le_of_norm_le ((a1.add b1).const_mul (6.6743e-11 * (magnitude (p - q) / 2))) ?_).trans ?_
  · have n0 : ∀ y : V3, ∀ᵐ x : V3, x ≠ y := fun y => by
      simp [ae_iff]
    filter_upwards [hρ, n0 p, n0 q] with x hx hp hq
    have e : 6.6743e-11 * ρ x * (magnitude (x - p))⁻¹ - 6.6743e-11 * ρ x * (magnitude (x - q))⁻¹ =
        6.6743e-11 * (ρ x * ((magnitude (x - p))⁻¹ - (magnitude (x - q))⁻¹)) := by ring
    rw [e, Real.norm_eq_abs, abs_mul, abs_of_pos (show (0 : ℝ) < 6.6743e-11 by norm_num), abs_mul, mul_assoc]
    refine mul_le_mul_of_nonneg_left ?_ (by norm_num)
    have h1 := inv_diff (sub_ne_zero.2 hp) (sub_ne_zero.2 hq)
    have e2 : magnitude (x - p - (x - q)) = magnitude (p - q) := by
      rw [← magnitude_neg']
      congr 1
      abel
    rw [e2] at h1
    refine (mul_le_mul hx h1 (abs_nonneg _) ((abs_nonneg _).trans hx)).trans (le_of_eq ?_)
    simp only [Pi.add_apply]
    ring
  · rw [integral_const_mul, integral_add' a1 b1]
    have hm := magnitude_nonneg (p - q)
    have h0 : (0 : ℝ) ≤ 6.6743e-11 * (magnitude (p - q) / 2) := by positivity
    refine (mul_le_mul_of_nonneg_left (add_le_add a2 b2) h0).trans (le_of_eq ?_)
    ring

/-! ### The attraction is the gradient of the potential -/

theorem line_ne {y : V3} {i j : Fin 3} (hij : j ≠ i) (hy : y j ≠ 0) (t : ℝ) : y - t • (Pi.single i 1 : V3) ≠ 0 := by
  intro h
  have := congrFun h j
  simp [hij, hy] at this

theorem inv_deriv {y : V3} (i : Fin 3) (t : ℝ) (hy : y - t • (Pi.single i 1 : V3) ≠ 0) :
    HasDerivAt (fun t : ℝ => (magnitude (y - t • (Pi.single i 1 : V3)))⁻¹) (pull i (y - t • (Pi.single i 1 : V3))) t := by
  have hm := magnitude_pos hy
  have hk : ∀ k, HasDerivAt (fun t : ℝ => (y - t • (Pi.single i 1 : V3)) k) (-(Pi.single i 1 : V3) k) t := fun k => by
    have := ((hasDerivAt_id t).mul_const ((Pi.single i 1 : V3) k)).const_sub (y k)
    simpa using this
  have hsq : HasDerivAt (fun t : ℝ => ∑ k, (y - t • (Pi.single i 1 : V3)) k ^ 2)
      (-(2 * (y - t • (Pi.single i 1 : V3)) i)) t := by
    have := HasDerivAt.fun_sum (u := Finset.univ) fun k _ => (hk k).fun_pow 2
    refine this.congr_deriv ?_
    rw [Finset.sum_eq_single i]
    · simp
    · intro k _ hki
      simp [hki]
    · simp
  have hpos : 0 < ∑ k, (y - t • (Pi.single i 1 : V3)) k ^ 2 := by
    rw [← magnitude_sq_sum]
    positivity
  have hs := (hsq.sqrt hpos.ne').fun_inv (Real.sqrt_pos.2 hpos).ne'
  refine hs.congr_deriv ?_
  show _ = (y - t • (Pi.single i 1 : V3)) i / √(∑ k, (y - t • (Pi.single i 1 : V3)) k ^ 2) ^ 3
  have := (Real.sqrt_pos.2 hpos).ne'
  field_simp

theorem inv_integral {y : V3} {i j : Fin 3} (hij : j ≠ i) (hy : y j ≠ 0) (a b : ℝ) :
    ∫ t in a..b, pull i (y - t • (Pi.single i 1 : V3)) =
      (magnitude (y - b • (Pi.single i 1 : V3)))⁻¹ - (magnitude (y - a • (Pi.single i 1 : V3)))⁻¹ := by
  refine intervalIntegral.integral_eq_sub_of_hasDerivAt (fun t _ => inv_deriv i t (line_ne hij hy t)) ?_
  apply Continuous.intervalIntegrable
  unfold pull
  refine Continuous.div ?_ ?_ fun t => (pow_pos (magnitude_pos (line_ne hij hy t)) 3).ne'
  · fun_prop
  · unfold magnitude
    fun_prop

theorem plane_null (p : V3) (j : Fin 3) : ∀ᵐ x : V3, (x - p) j ≠ 0 := by
  have h : volume {x : V3 | x j = p j} = 0 := by
    rw [volume_pi]
    exact Measure.pi_hyperplane (fun _ : Fin 3 => (volume : Measure ℝ)) j (p j)
  rw [ae_iff]
  refine measure_mono_null (fun x hx => ?_) h
  have hx' : ¬ (x - p) j ≠ 0 := hx
  rw [not_not, Pi.sub_apply, sub_eq_zero] at hx'
  exact hx'

theorem potential_line {ρ : V3 → ℝ} (hm : Measurable ρ) {S : Set V3} (hS : MeasurableSet S) (hv : volume S < ⊤) {D : ℝ}
    (hD : 0 ≤ D) (hρ : ∀ᵐ x, |ρ x| ≤ S.indicator (fun _ => D) x) (hel : ∀ p i, Integrable (newtonElement ρ p i))
    (hint : ∀ p, Integrable fun x => 6.6743e-11 * ρ x * (magnitude (x - p))⁻¹) (p : V3) (i : Fin 3) {a b : ℝ}
    (hab : a ≤ b) :
    newtonPotential ρ (p + b • (Pi.single i 1 : V3)) - newtonPotential ρ (p + a • (Pi.single i 1 : V3)) =
      ∫ t in a..b, newtonField ρ (p + t • (Pi.single i 1 : V3)) i := by
  obtain ⟨j, hij⟩ := exists_ne i
  unfold newtonPotential
  rw [← integral_sub (hint _) (hint _), intervalIntegral.integral_of_le hab]
  have e1 : ∀ (t : ℝ) (x : V3), newtonElement ρ (p + t • (Pi.single i 1 : V3)) i x =
      6.6743e-11 * ρ x * pull i (x - p - t • (Pi.single i 1 : V3)) := by
    intro t x
    unfold newtonElement pull
    rw [← sub_sub]
    congr 2
    simp [sub_sub]
  unfold newtonField
  rw [integral_integral_swap]
  · refine integral_congr_ae ?_
    filter_upwards [plane_null p j] with x hx
    simp only [e1]
    rw [integral_const_mul, ← intervalIntegral.integral_of_le hab, inv_integral hij hx, ← sub_sub, ← sub_sub]
    ring
  · obtain ⟨r, hr0, hr⟩ : ∃ r : ℝ, 0 ≤ r ∧ volume.real S ≤ r ^ 3 := by
      refine ⟨1 + volume.real S, by positivity, ?_⟩
      have : 0 ≤ volume.real S := measureReal_nonneg
      nlinarith [mul_nonneg this this, mul_nonneg (mul_nonneg this this) this]
    have hmeas : AEStronglyMeasurable (Function.uncurry fun (t : ℝ) (x : V3) => newtonElement ρ (p + t • (Pi.single i 1 : V3)) i x)
        ((volume.restrict (Ioc a b)).prod volume) := by
      refine Measurable.aestronglyMeasurable ?_
      have e2 : (Function.uncurry fun (t : ℝ) (x : V3) => newtonElement ρ (p + t • (Pi.single i 1 : V3)) i x) =
          fun z : ℝ × V3 => 6.6743e-11 * ρ z.2 * pull i (z.2 - p - z.1 • (Pi.single i 1 : V3)) := by
        funext z
        exact e1 z.1 z.2
      rw [e2]
      refine ((hm.comp measurable_snd).const_mul _).mul ((measurable_pull i).comp ?_)
      fun_prop
    rw [integrable_prod_iff hmeas]
    refine ⟨Filter.Eventually.of_forall fun t => hel (p + t • (Pi.single i 1 : V3)) i, ?_⟩
    refine Integrable.of_bound hmeas.norm.integral_prod_right' (6.6743e-11 * (D * (25 * r)))
      (Filter.Eventually.of_forall fun t => ?_)
    rw [Real.norm_eq_abs, abs_of_nonneg (integral_nonneg fun x => norm_nonneg _)]
    exact newton_bounded hS hv hD hr0 hr hρ (p + t • (Pi.single i 1 : V3)) i

theorem potential_deriv {ρ : V3 → ℝ} (hm : Measurable ρ) {S : Set V3} (hS : MeasurableSet S) (hv : volume S < ⊤) {D : ℝ}
    (hD : 0 ≤ D) (hρ : ∀ᵐ x, |ρ x| ≤ S.indicator (fun _ => D) x) (hel : ∀ p i, Integrable (newtonElement ρ p i))
    (hint : ∀ p, Integrable fun x => 6.6743e-11 * ρ x * (magnitude (x - p))⁻¹) (p : V3) (i : Fin 3) (t : ℝ) :
    HasDerivAt (fun s => newtonPotential ρ (p + s • (Pi.single i 1 : V3)))
      (newtonField ρ (p + t • (Pi.single i 1 : V3)) i) t := by
  have hc : Continuous (newtonField ρ) := changes_continuous hD (newton_change hD hS hv hρ hel le_rfl)
  have hg : Continuous fun s : ℝ => newtonField ρ (p + s • (Pi.single i 1 : V3)) i :=
    (continuous_apply i).comp (hc.comp (by fun_prop))
  have h1 := (hg.integral_hasStrictDerivAt (t - 1) t).hasDerivAt.add_const
    (newtonPotential ρ (p + (t - 1) • (Pi.single i 1 : V3)))
  refine h1.congr_of_eventuallyEq ?_
  filter_upwards [lt_mem_nhds (show t - 1 < t by linarith)] with s hs
  have := potential_line hm hS hv hD hρ hel hint p i hs.le
  linarith

/-! ### Prisms -/

theorem prismDensity_measurable (srcs : List (Prism × ℝ)) : Measurable (prismDensity srcs) := by
  have : ∀ srcs : List (Prism × ℝ), Measurable (Verif.Forward.densityAt srcs) := by
    intro srcs
    induction srcs with
    | nil => exact measurable_const
    | cons s L ih =>
      have e : Verif.Forward.densityAt (s :: L) = fun r => s.1.body.indicator (fun _ => s.2) r +
          Verif.Forward.densityAt L r := by
        funext r
        simp [Verif.Forward.densityAt]
      rw [e]
      exact (measurable_const.indicator
        (measurableSet_Icc.prod (measurableSet_Icc.prod measurableSet_Icc))).add ih
  exact (this srcs).comp triple.measurable

theorem prism_potential (srcs : List (Prism × ℝ)) (q : P3) :
    Integrable (fun x => 6.6743e-11 * prismDensity srcs x * (magnitude (x - vec q))⁻¹) ∧
      newtonPotential (prismDensity srcs) (vec q) =
        ∫ r, Verif.Forward.densityAt srcs r * newtonKernels.pot q (pointAt r) 1 := by
  obtain ⟨-, h2⟩ := sum_integrals newton_pot srcs q (Or.inl (by norm_num))
  have e : (fun x => 6.6743e-11 * prismDensity srcs x * (magnitude (x - vec q))⁻¹) =
      (fun r => Verif.Forward.densityAt srcs r * newtonKernels.pot q (pointAt r) 1) ∘ triple := by
    funext x
    show _ = Verif.Forward.densityAt srcs (triple x) * (gravitationalConst * 1 / gap q (pointAt (triple x)))
    rw [gap_vec, triple_apply, prismDensity, show gravitationalConst = (6.6743e-11 : ℝ) by
      unfold gravitationalConst; norm_num]
    ring
  rw [newtonPotential, e]
  refine ⟨(triple_preserving.integrable_comp_emb triple.measurableEmbedding).2 h2, ?_⟩
  exact triple_preserving.integral_comp triple.measurableEmbedding fun r =>
    Verif.Forward.densityAt srcs r * newtonKernels.pot q (pointAt r) 1

/-- The fields in their units. -/
noncomputable def prismFields (srcs : List (Prism × ℝ)) (field : String) (q : P3) : ℝ :=
  if field = "potential" then newtonPotential (prismDensity srcs) (vec q)
  else if field = "g_e" then newtonField (prismDensity srcs) (vec q) 0 * 10 ^ 5
  else if field = "g_n" then newtonField (prismDensity srcs) (vec q) 1 * 10 ^ 5
  else -newtonField (prismDensity srcs) (vec q) 2 * 10 ^ 5

theorem returns_everywhere {K : PrismKernels} (hK : K.Newtonian) {srcs : List (Prism × ℝ)}
    (hord : ∀ s ∈ srcs, s.1.Ordered) : ReturnsEverywhere K srcs (prismFields srcs) := by
  intro field hf junk mode shape obs dis hs hm
  by_cases hp : field = "potential"
  · subst hp
    rw [prismGravity_density junk mode hK shape obs hs srcs dis hord hm _ fun q _ => Or.inl hf]
    rw [show pointFieldTable newtonKernels "potential" = some (newtonKernels.pot, 1) from if_pos rfl,
      show prismFieldTable K "potential" = some (K.pot, 1) from if_pos rfl]
    have e : prismFields srcs "potential" = fun q =>
        1 * ∫ r, Verif.Forward.densityAt srcs r * newtonKernels.pot q (pointAt r) 1 := by
      funext q
      rw [one_mul, ← (prism_potential srcs q).2]
      exact if_pos rfl
    rw [e]
  · obtain ⟨h1, h2, h3⟩ := returnsPrisms_newton hK hord junk mode shape obs dis hs.symm hm
    simp only [everywhere, List.mem_cons, List.not_mem_nil, or_false, hp, false_or] at hf
    rcases hf with rfl | rfl | rfl
    · rw [h1]
      simp [gravityResult, prismFields]
    · rw [h2]
      simp [gravityResult, prismFields]
    · rw [h3]
      simp [gravityResult, prismFields]

/-- The points of the prisms. -/
theorem prisms_region {srcs : List (Prism × ℝ)} (hord : ∀ s ∈ srcs, s.1.Ordered) :
    ∃ S : Set V3, MeasurableSet S ∧ volume S < ⊤ ∧ volume.real S ≤ (srcs.map fun s => s.1.volume).sum ∧
      ∀ x ∉ S, prismDensity srcs x = 0 := by
  obtain ⟨h1, h2, h3⟩ := regions_volume (srcs.map fun s => (s.2, triple ⁻¹' s.1.body)) (by
    intro t ht
    obtain ⟨s, hs, rfl⟩ := List.mem_map.1 ht
    exact ⟨(body_volume (hord s hs)).1, (body_volume (hord s hs)).2.1⟩)
  refine ⟨_, h1, h2, h3.trans (le_of_eq ?_), ?_⟩
  · rw [List.map_map]
    congr 1
    exact List.map_congr_left fun s hs => (body_volume (hord s hs)).2.2
  · intro x hx
    unfold prismDensity Verif.Forward.densityAt
    rw [List.sum_eq_zero]
    intro a ha
    obtain ⟨s, hs, rfl⟩ := List.mem_map.1 ha
    have hn : triple x ∉ s.1.body := fun h => hx ⟨_, List.mem_map.2 ⟨s, hs, rfl⟩, h⟩
    exact indicator_of_notMem hn fun _ => s.2

theorem prismPotential_integrable (srcs : List (Prism × ℝ)) (p : V3) :
    Integrable fun x => 6.6743e-11 * prismDensity srcs x * (magnitude (x - p))⁻¹ := by
  have h := (prism_potential srcs ⟨p 0, p 1, p 2⟩).1
  rwa [show vec ⟨p 0, p 1, p 2⟩ = p by funext i; fin_cases i <;> rfl] at h

/-! ### C160 -/

/-- C160: at every point, outside of the prisms, inside, on their faces, edges and vertices, the acceleration that
`prism_gravity` returns is the gradient of the potential that it returns. -/
theorem C160_gradient {K : PrismKernels} (hK : K.Newtonian) {srcs : List (Prism × ℝ)} (hord : ∀ s ∈ srcs, s.1.Ordered) :
    ∃ F : String → P3 → ℝ, ReturnsEverywhere K srcs F ∧
      ∀ q, EastDeriv (F "potential") (F "g_e" q / 10 ^ 5) q ∧ NorthDeriv (F "potential") (F "g_n" q / 10 ^ 5) q ∧
        UpDeriv (F "potential") (-F "g_z" q / 10 ^ 5) q := by
  refine ⟨_, returns_everywhere hK hord, fun q => ?_⟩
  obtain ⟨S, s1, s2, -, s4⟩ := prisms_region hord
  have hD : 0 ≤ (srcs.map fun s => |s.2|).sum := by
    refine List.sum_nonneg fun x hx => ?_
    obtain ⟨s, -, rfl⟩ := List.mem_map.1 hx
    exact abs_nonneg _
  have hρ : ∀ᵐ x, |prismDensity srcs x| ≤ S.indicator (fun _ => (srcs.map fun s => |s.2|).sum) x := by
    refine Filter.Eventually.of_forall fun x => ?_
    by_cases hx : x ∈ S
    · rw [indicator_of_mem hx]
      exact abs_prismDensity srcs x
    · rw [indicator_of_notMem hx, s4 x hx, abs_zero]
  have key := fun (p : V3) i t => potential_deriv (prismDensity_measurable srcs) s1 s2 hD hρ (prism_integrable srcs)
    (prismPotential_integrable srcs) p i t
  have hu : ∀ (f : ℝ → P3) (i : Fin 3) (t c : ℝ), (∀ s, vec (f s) = vec (f t) + (s - t) • (Pi.single i 1 : V3)) →
      c = newtonField (prismDensity srcs) (vec (f t)) i →
      HasDerivAt (fun s => prismFields srcs "potential" (f s)) c t := by
    intro f i t c hf hc
    have h := key (vec (f t) - t • (Pi.single i 1 : V3)) i t
    rw [sub_add_cancel, ← hc] at h
    refine h.congr_of_eventuallyEq (Filter.Eventually.of_forall fun s => ?_)
    simp only [prismFields, reduceIte, hf s]
    congr 1
    module
  refine ⟨?_, ?_, ?_⟩
  · refine hu (fun t => ⟨t, q.y, q.z⟩) 0 q.x _ (fun s => ?_) ?_
    · funext k
      fin_cases k <;> simp [vec]
    · simp [prismFields]
  · refine hu (fun t => ⟨q.x, t, q.z⟩) 1 q.y _ (fun s => ?_) ?_
    · funext k
      fin_cases k <;> simp [vec]
    · simp [prismFields]
  · refine hu (fun t => ⟨q.x, q.y, t⟩) 2 q.z _ (fun s => ?_) ?_
    · funext k
      fin_cases k <;> simp [vec]
    · simp [prismFields]

/-- C160: at every point the components of the acceleration of prisms are at most 25 G D r (in mGal), with the largest
absolute density D and the side r of a cube with the volume of the prisms; the potential changes between any two
points at most by 25 G D r times their distance. -/
theorem C160_bound {K : PrismKernels} (hK : K.Newtonian) {srcs : List (Prism × ℝ)} (hord : ∀ s ∈ srcs, s.1.Ordered)
    {D r : ℝ} (hD : 0 ≤ D) (hb : ∀ᵐ x, |prismDensity srcs x| ≤ D) (hr0 : 0 ≤ r)
    (hr : (srcs.map fun s => s.1.volume).sum ≤ r ^ 3) :
    ∃ F : String → P3 → ℝ, ReturnsEverywhere K srcs F ∧
      (∀ field ∈ ["g_e", "g_n", "g_z"], ∀ q, |F field q| ≤ 10 ^ 5 * (25 * gravitationalConst * D * r)) ∧
      ∀ q q', |F "potential" q - F "potential" q'| ≤ 25 * gravitationalConst * D * r * gap q q' := by
  refine ⟨_, returns_everywhere hK hord, ?_⟩
  obtain ⟨S, s1, s2, s3, s4⟩ := prisms_region hord
  have eG : gravitationalConst = (6.6743e-11 : ℝ) := by unfold gravitationalConst; norm_num
  have hρ : ∀ᵐ x, |prismDensity srcs x| ≤ S.indicator (fun _ => D) x := by
    filter_upwards [hb] with x hx'
    by_cases hx : x ∈ S
    · rwa [indicator_of_mem hx]
    · rw [indicator_of_notMem hx, s4 x hx, abs_zero]
  have hg : ∀ p i, |newtonField (prismDensity srcs) p i| ≤ 25 * gravitationalConst * D * r := by
    intro p i
    rw [eG]
    refine (norm_integral_le_integral_norm _).trans ((newton_bounded s1 s2 hD hr0 (s3.trans hr) hρ p i).trans
      (le_of_eq (by ring)))
  constructor
  · intro field hf q
    simp only [List.mem_cons, List.not_mem_nil, or_false] at hf
    have h5 : |(10 : ℝ) ^ 5| = 10 ^ 5 := abs_of_pos (by norm_num)
    rcases hf with rfl | rfl | rfl
    · simp only [prismFields, String.reduceEq, reduceIte, abs_mul, h5]
      rw [mul_comm]
      exact mul_le_mul_of_nonneg_left (hg _ 0) (by norm_num)
    · simp only [prismFields, String.reduceEq, reduceIte, abs_mul, h5]
      rw [mul_comm]
      exact mul_le_mul_of_nonneg_left (hg _ 1) (by norm_num)
    · simp only [prismFields, String.reduceEq, reduceIte, abs_mul, abs_neg, h5]
      rw [mul_comm]
      exact mul_le_mul_of_nonneg_left (hg _ 2) (by norm_num)
  · intro q q'
    simp only [prismFields, reduceIte]
    refine (potential_change s1 s2 hD hr0 (s3.trans hr) hρ (prismPotential_integrable srcs) _ _).trans (le_of_eq ?_)
    have e : magnitude (vec q - vec q') = gap q q' := by
      unfold gap magnitude
      congr 1
      rw [Fin.sum_univ_three]
      simp [vec]
    rw [e, eG]
    ring

/-! ### Examples -/

/-- Two blocks that overlap, at a vertex of one that lies on an edge of the other. -/
example : ∃ F : String → P3 → ℝ, ReturnsEverywhere bodyKernels twoBlocks F ∧
    UpDeriv (F "potential") (-F "g_z" ⟨5, 0, 0⟩ / 10 ^ 5) ⟨5, 0, 0⟩ := by
  obtain ⟨F, h1, h2⟩ := C160_gradient bodyKernels_newtonian (srcs := twoBlocks) (by
    simp [twoBlocks, Prism.Ordered]; norm_num)
  exact ⟨F, h1, (h2 _).2.2⟩

/-- The gravity of a cube of a kilometre of rock is at most 446 mGal. -/
example : ∃ F : String → P3 → ℝ, ReturnsEverywhere bodyKernels [(⟨0, 1000, 0, 1000, -1000, 0⟩, 2670)] F ∧
    ∀ q, |F "g_z" q| ≤ 446 := by
  obtain ⟨F, h1, h2, -⟩ := C160_bound bodyKernels_newtonian (srcs := [(⟨0, 1000, 0, 1000, -1000, 0⟩, 2670)]) (by
    simp [Prism.Ordered]) (D := 2670) (r := 1000) (by norm_num)
    (Filter.Eventually.of_forall fun x => (abs_prismDensity _ x).trans (by simp)) (by norm_num)
    (by simp [Prism.volume]; norm_num)
  refine ⟨F, h1, fun q => (h2 "g_z" (by simp) q).trans ?_⟩
  unfold gravitationalConst
  norm_num

end Verif.Ellipsoids
