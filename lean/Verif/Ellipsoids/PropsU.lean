import Verif.Ellipsoids.PropsQ
import Verif.Ellipsoids.PropsR

/-! C157: how much the gravity of prisms and ellipsoids changes between two points. -/

namespace Verif.Ellipsoids
open MeasureTheory Set Verif.Distance Verif.Engine
open Verif.Forward (arrays Prism PrismKernels bodyKernels bodyKernels_newtonian)

/-! ### Specification -/

/-- Bound (m/s²) for the difference of the attractions of matter at two points at the distance `h` (m): `D` the largest
absolute density, `V` the volume of the matter, for a length `R` of at least `4h` and a number `n` of doublings of it. With
`R = 4h` and `n` about the logarithm of 1/h, it is of the order of `h log (1/h)`. -/
noncomputable def changeBound (D V h R : ℝ) (n : ℕ) : ℝ :=
  6.6743e-11 * D * (72 * R + 6144 * n * h + 96 * V * h / (2 ^ n * R) ^ 3)

/-- The components of the attraction change at most by the bound between any two points. -/
def ChangesAtMost (D V : ℝ) (field : V3 → V3) : Prop :=
  ∀ p q i R n, 0 < R → 4 * magnitude (p - q) ≤ R →
    |field p i - field q i| ≤ changeBound D V (magnitude (p - q)) R n

/-! ### The kernel -/

theorem pull_step {y : V3} {r d t : ℝ} (hr : 0 < r) (i j : Fin 3) (ht : |t| ≤ d) (hy : r + d ≤ ‖y‖) :
    |pull i (y - t • Pi.single j 1) - pull i y| ≤ 4 / r ^ 3 * |t| := by
  have hn : ∀ s ∈ uIcc 0 t, r ≤ ‖y - s • Pi.single j (1 : ℝ)‖ := by
    intro s hs
    have h1 : |s| ≤ |t| := by
      have := abs_sub_left_of_mem_uIcc hs
      simpa using this
    have h2 : ‖s • (Pi.single j (1 : ℝ) : V3)‖ ≤ |s| := by
      rw [norm_smul, Real.norm_eq_abs, Pi.norm_single]
      simp
    have h3 := norm_sub_norm_le y (s • (Pi.single j (1 : ℝ) : V3))
    linarith
  have h := Convex.norm_image_sub_le_of_norm_hasDerivWithin_le (f := fun s : ℝ => pull i (y - s • Pi.single j 1))
    (f' := fun s => pullJac i j (y - s • Pi.single j 1)) (s := uIcc 0 t) (x := 0) (y := t) (C := 4 / r ^ 3)
    (fun s hs => (pull_deriv i j fun h0 => by
      have := hn s hs
      rw [h0, norm_zero] at this
      linarith).hasDerivWithinAt)
    (fun s hs => by rw [Real.norm_eq_abs]; exact abs_pullJac i j hr (hn s hs)) (convex_uIcc 0 t) left_mem_uIcc
    right_mem_uIcc
  simpa using h

theorem pull_far {y v : V3} {R d : ℝ} (hR : 0 < R) (hd : ‖v‖ ≤ d) (h2 : 4 * d ≤ R) (hy : R ≤ ‖y‖) (i : Fin 3) :
    |pull i (y - v) - pull i y| ≤ 96 * d / R ^ 3 := by
  have hv : ∀ j, |v j| ≤ d := fun j => (norm_le_pi_norm v j).trans hd
  have hd0 : 0 ≤ d := (norm_nonneg _).trans hd
  set w : Fin 3 → V3 := ![0, v 0 • Pi.single 0 1, v 0 • Pi.single 0 1 + v 1 • Pi.single 1 1] with hw
  have hwn : ∀ k, ‖w k‖ ≤ d := by
    intro k
    rw [pi_norm_le_iff_of_nonneg hd0]
    intro j
    rw [Real.norm_eq_abs]
    fin_cases k <;> fin_cases j <;> simp [hw, hd0, hv]
  have hyw : ∀ k, R / 2 + d ≤ ‖y - w k‖ := by
    intro k
    have := norm_sub_norm_le y (w k)
    have := hwn k
    linarith
  have st := fun k : Fin 3 => pull_step (half_pos hR) i k (hv k) (hyw k)
  have s0 := st 0
  have s1 := st 1
  have s2 := st 2
  have e1 : y - w 0 - v 0 • Pi.single 0 1 = y - w 1 := by simp [hw]
  have e2 : y - w 1 - v 1 • Pi.single 1 1 = y - w 2 := by simp [hw, sub_sub]
  have e3 : y - w 2 - v 2 • Pi.single 2 1 = y - v := by
    funext j
    fin_cases j <;> simp [hw]
  have e0 : y - w 0 = y := by simp [hw]
  rw [e1, e0] at s0
  rw [e2] at s1
  rw [e3] at s2
  have hb : ∀ k, 4 / (R / 2) ^ 3 * |v k| ≤ 32 * d / R ^ 3 := by
    intro k
    calc 4 / (R / 2) ^ 3 * |v k| ≤ 4 / (R / 2) ^ 3 * d := by gcongr; exact hv k
      _ = 32 * d / R ^ 3 := by field_simp; ring
  have t : pull i (y - v) - pull i y = (pull i (y - v) - pull i (y - w 2)) + (pull i (y - w 2) - pull i (y - w 1)) +
      (pull i (y - w 1) - pull i y) := by ring
  rw [t]
  refine (abs_add_three _ _ _).trans ?_
  calc _ ≤ 32 * d / R ^ 3 + 32 * d / R ^ 3 + 32 * d / R ^ 3 :=
        add_le_add (add_le_add (s2.trans (hb 2)) (s1.trans (hb 1))) (s0.trans (hb 0))
    _ = _ := by ring

/-! ### The attraction -/

theorem ball_pull (p : V3) {R : ℝ} (hR : 0 < R) :
    Integrable ((Metric.ball p R).indicator fun x => (‖x - p‖ ^ 2)⁻¹) ∧
      ∫ x, (Metric.ball p R).indicator (fun x => (‖x - p‖ ^ 2)⁻¹) x ≤ 32 * R := by
  obtain ⟨h1, h2⟩ := inv_sq_region (S := Metric.ball p R) Metric.isBounded_ball.measure_lt_top p hR
  refine ⟨h1.integrable_indicator measurableSet_ball, ?_⟩
  rw [integral_indicator measurableSet_ball]
  refine h2.trans (le_of_eq ?_)
  unfold Measure.real
  rw [Real.volume_pi_ball _ hR, Fintype.card_fin, ENNReal.toReal_ofReal (by positivity)]
  field_simp
  ring

/-- Bound for the change of the kernel in the shells of radii from `2 ^ k R` to `2 ^ (k + 1) R`, for `k < n`. -/
noncomputable def shells (p : V3) (d R : ℝ) (n : ℕ) (x : V3) : ℝ :=
  ∑ k ∈ Finset.range n, (Metric.ball p (2 ^ (k + 1) * R)).indicator (fun _ => 96 * d / (2 ^ k * R) ^ 3) x

theorem shells_nonneg (p : V3) {d R : ℝ} (hd : 0 ≤ d) (hR : 0 < R) (n : ℕ) (x : V3) : 0 ≤ shells p d R n x :=
  Finset.sum_nonneg fun _ _ => indicator_nonneg (fun _ _ => by positivity) x

theorem shells_integral (p : V3) {d R : ℝ} (hR : 0 < R) (n : ℕ) :
    Integrable (shells p d R n) ∧ ∫ x, shells p d R n x = 6144 * n * d := by
  have h1 : ∀ k ∈ Finset.range n, Integrable ((Metric.ball p (2 ^ (k + 1) * R)).indicator
      fun _ : V3 => 96 * d / (2 ^ k * R) ^ 3) := fun k _ => by
    rw [integrable_indicator_iff measurableSet_ball]
    exact integrableOn_const Metric.isBounded_ball.measure_lt_top.ne
  refine ⟨integrable_finsetSum _ h1, ?_⟩
  unfold shells
  rw [integral_finsetSum _ h1]
  have h2 : ∀ k ∈ Finset.range n, ∫ x : V3, (Metric.ball p (2 ^ (k + 1) * R)).indicator
      (fun _ : V3 => 96 * d / (2 ^ k * R) ^ 3) x = 6144 * d := fun k _ => by
    rw [integral_indicator_const _ measurableSet_ball, smul_eq_mul]
    unfold Measure.real
    rw [Real.volume_pi_ball _ (by positivity), Fintype.card_fin, ENNReal.toReal_ofReal (by positivity), pow_succ]
    field_simp
    ring
  rw [Finset.sum_congr rfl h2, Finset.sum_const, Finset.card_range, nsmul_eq_mul]
  ring

theorem shells_bound {p q x : V3} {d R : ℝ} (hR : 0 < R) (hpq : ‖q - p‖ ≤ d) (h : 4 * d ≤ R) (hx : R ≤ ‖x - p‖)
    (i : Fin 3) (n : ℕ) : |pull i (x - p) - pull i (x - q)| ≤ shells p d R n x + 96 * d / (2 ^ n * R) ^ 3 := by
  have hd : 0 ≤ d := (norm_nonneg _).trans hpq
  have far : ∀ n : ℕ, 2 ^ n * R ≤ ‖x - p‖ → |pull i (x - p) - pull i (x - q)| ≤ 96 * d / (2 ^ n * R) ^ 3 := by
    intro n hn
    have h2 : R ≤ 2 ^ n * R := le_mul_of_one_le_left hR.le (one_le_pow₀ one_le_two)
    have k := pull_far (y := x - p) (v := q - p) (R := 2 ^ n * R) (by positivity) hpq (h.trans h2) hn i
    rwa [show x - p - (q - p) = x - q by abel, abs_sub_comm] at k
  induction n with
  | zero =>
    have := far 0 (by simpa using hx)
    simpa [shells] using this
  | succ n ih =>
    by_cases hn : ‖x - p‖ < 2 ^ (n + 1) * R
    · have m : x ∈ Metric.ball p (2 ^ (n + 1) * R) := by rwa [mem_ball_iff_norm]
      have e : shells p d R (n + 1) x = shells p d R n x + 96 * d / (2 ^ n * R) ^ 3 := by
        unfold shells
        rw [Finset.sum_range_succ, indicator_of_mem m]
      rw [e]
      have : 0 ≤ 96 * d / (2 ^ (n + 1) * R) ^ 3 := by positivity
      linarith
    · have := shells_nonneg p hd hR (n + 1) x
      have := far _ (not_lt.1 hn)
      linarith

theorem newton_change {ρ : V3 → ℝ} {D : ℝ} (hD : 0 ≤ D) {S : Set V3} (hS : MeasurableSet S) (hv : volume S < ⊤)
    (hρ : ∀ᵐ x, |ρ x| ≤ S.indicator (fun _ => D) x) (hint : ∀ p i, Integrable (newtonElement ρ p i)) {V : ℝ}
    (hV : volume.real S ≤ V) : ChangesAtMost D V (newtonField ρ) := by
  intro p q i R n hR h
  set d := magnitude (p - q) with hd
  have hd0 : 0 ≤ d := magnitude_nonneg _
  obtain ⟨a1, a2⟩ := ball_pull p hR
  obtain ⟨b1, b2⟩ := ball_pull q (R := 5 / 4 * R) (by positivity)
  have c1 : Integrable (S.indicator fun _ => D) := by
    rw [integrable_indicator_iff hS]
    exact integrableOn_const hv.ne
  have c2 : ∫ x, S.indicator (fun _ => D) x = volume.real S * D := by
    rw [integral_indicator_const _ hS, smul_eq_mul]
  unfold newtonField
  rw [← integral_sub (hint p i) (hint q i), ← Real.norm_eq_abs]
  obtain ⟨s1, s2⟩ := shells_integral p (d := d) hR n
  have hI := ((((a1.const_mul D).add (b1.const_mul D)).add (s1.const_mul D)).add
    (c1.const_mul (96 * d / (2 ^ n * R) ^ 3))).const_mul 6.6743e-11
  refine (norm_integral_le_of_norm_le hI ?_).trans ?_
  · filter_upwards [hρ] with x hx
    have hx' : |ρ x| ≤ D := hx.trans (indicator_le_self' (fun _ _ => hD) x)
    have e1 : newtonElement ρ p i x - newtonElement ρ q i x =
        6.6743e-11 * (ρ x * (pull i (x - p) - pull i (x - q))) := by
      unfold newtonElement pull
      simp only [Pi.sub_apply]
      ring
    rw [e1, Real.norm_eq_abs, abs_mul, abs_of_pos (show (0 : ℝ) < 6.6743e-11 by norm_num), abs_mul]
    refine mul_le_mul_of_nonneg_left ?_ (by norm_num)
    simp only [Pi.add_apply]
    have n1 : 0 ≤ (Metric.ball p R).indicator (fun x => (‖x - p‖ ^ 2)⁻¹) x :=
      indicator_nonneg (fun _ _ => by positivity) x
    have n2 : 0 ≤ (Metric.ball q (5 / 4 * R)).indicator (fun x => (‖x - q‖ ^ 2)⁻¹) x :=
      indicator_nonneg (fun _ _ => by positivity) x
    have n4 : 0 ≤ D * shells p d R n x := mul_nonneg hD (shells_nonneg p hd0 hR n x)
    have n3 : 0 ≤ S.indicator (fun _ => D) x := indicator_nonneg (fun _ _ => hD) x
    have hpq : ‖q - p‖ ≤ d := by
      rw [← norm_neg, neg_sub]
      exact norm_le_magnitude _
    by_cases hb : ‖x - p‖ < R
    · have m1 : x ∈ Metric.ball p R := by rwa [mem_ball_iff_norm]
      have m2 : x ∈ Metric.ball q (5 / 4 * R) := by
        rw [mem_ball_iff_norm]
        have : x - q = x - p - (q - p) := by abel
        rw [this]
        refine (norm_sub_le _ _).trans_lt ?_
        linarith
      rw [indicator_of_mem m1, indicator_of_mem m2]
      have k : |pull i (x - p) - pull i (x - q)| ≤ (‖x - p‖ ^ 2)⁻¹ + (‖x - q‖ ^ 2)⁻¹ :=
        (abs_sub _ _).trans (add_le_add (abs_pull_le i _) (abs_pull_le i _))
      have k2 : 0 ≤ 96 * d / (2 ^ n * R) ^ 3 * S.indicator (fun _ => D) x := by positivity
      calc |ρ x| * |pull i (x - p) - pull i (x - q)| ≤ D * ((‖x - p‖ ^ 2)⁻¹ + (‖x - q‖ ^ 2)⁻¹) :=
            mul_le_mul hx' k (abs_nonneg _) hD
        _ ≤ _ := by linarith
    · have k := shells_bound hR hpq h (not_lt.1 hb) i n
      have k2 : |ρ x| * |pull i (x - p) - pull i (x - q)| ≤
          D * shells p d R n x + S.indicator (fun _ => D) x * (96 * d / (2 ^ n * R) ^ 3) := by
        refine (mul_le_mul_of_nonneg_left k (abs_nonneg _)).trans ?_
        rw [mul_add]
        exact add_le_add (mul_le_mul_of_nonneg_right hx' (shells_nonneg p hd0 hR n x))
          (mul_le_mul_of_nonneg_right hx (by positivity))
      have k3 := mul_nonneg hD n1
      have k4 := mul_nonneg hD n2
      linarith
  · rw [integral_const_mul]
    rw [integral_add' (((a1.const_mul D).add (b1.const_mul D)).add (s1.const_mul D)) (c1.const_mul _),
      integral_add' ((a1.const_mul D).add (b1.const_mul D)) (s1.const_mul D),
      integral_add' (a1.const_mul D) (b1.const_mul D), integral_const_mul, integral_const_mul, integral_const_mul,
      integral_const_mul, c2, s2]
    unfold changeBound
    have k1 := mul_le_mul_of_nonneg_left a2 hD
    have k2 := mul_le_mul_of_nonneg_left b2 hD
    have k3 : 96 * d / (2 ^ n * R) ^ 3 * (volume.real S * D) ≤ 96 * d / (2 ^ n * R) ^ 3 * (V * D) := by gcongr
    rw [mul_assoc (6.6743e-11 : ℝ) D]
    refine mul_le_mul_of_nonneg_left ?_ (show (0 : ℝ) ≤ 6.6743e-11 by norm_num)
    calc _ ≤ D * (32 * R) + D * (32 * (5 / 4 * R)) + D * (6144 * n * d) + 96 * d / (2 ^ n * R) ^ 3 * (V * D) :=
          add_le_add (add_le_add (add_le_add k1 k2) le_rfl) k3
      _ = _ := by ring

theorem changes_continuous {D V : ℝ} {field : V3 → V3} (hD : 0 ≤ D) (h : ChangesAtMost D V field) :
    Continuous field := by
  refine continuous_pi fun i => continuous_iff_continuousAt.2 fun p => Metric.continuousAt_iff.2 fun ε hε => ?_
  set R := ε / (6.6743e-11 * D * 72 * 2 + 1) with hRd
  have hR : 0 < R := by positivity
  have hm : Continuous fun q : V3 => magnitude (q - p) := by
    unfold magnitude
    fun_prop
  have h0 : magnitude (p - p) = 0 := by simp [magnitude]
  have hlim : Filter.Tendsto (fun q : V3 => changeBound D V (magnitude (q - p)) R 0) (nhds p)
      (nhds (6.6743e-11 * D * (72 * R + 6144 * (0 : ℕ) * 0 + 96 * V * 0 / (2 ^ 0 * R) ^ 3))) := by
    have : Continuous fun q : V3 => changeBound D V (magnitude (q - p)) R 0 := by
      unfold changeBound
      fun_prop
    have h1 := this.tendsto p
    simp only [changeBound, h0] at h1 ⊢
    exact h1
  have hlt : 6.6743e-11 * D * (72 * R + 6144 * (0 : ℕ) * 0 + 96 * V * 0 / (2 ^ 0 * R) ^ 3) < ε := by
    rw [mul_zero, mul_zero, zero_div, add_zero, add_zero, hRd]
    rw [show 6.6743e-11 * D * (72 * (ε / (6.6743e-11 * D * 72 * 2 + 1))) =
      (6.6743e-11 * D * 72) * ε / (6.6743e-11 * D * 72 * 2 + 1) by ring, div_lt_iff₀ (by positivity)]
    have : 0 ≤ 6.6743e-11 * D * 72 := by positivity
    nlinarith
  have e1 := hlim.eventually (gt_mem_nhds hlt)
  have e2 : ∀ᶠ q in nhds p, 4 * magnitude (q - p) < R := by
    have h1 := (hm.const_mul 4).tendsto p
    rw [h0, mul_zero] at h1
    exact h1.eventually (gt_mem_nhds hR)
  obtain ⟨δ, hδ, hq⟩ := Metric.eventually_nhds_iff.1 (e1.and e2)
  refine ⟨δ, hδ, fun q hqd => ?_⟩
  obtain ⟨h1, h2⟩ := hq hqd
  rw [Real.dist_eq]
  exact (h q p i R 0 hR h2.le).trans_lt h1

theorem regions_volume (L : List (ℝ × Set V3)) (hL : ∀ t ∈ L, MeasurableSet t.2 ∧ volume t.2 < ⊤) :
    MeasurableSet {x | ∃ t ∈ L, x ∈ t.2} ∧ volume {x | ∃ t ∈ L, x ∈ t.2} < ⊤ ∧
      volume.real {x | ∃ t ∈ L, x ∈ t.2} ≤ (L.map fun t => volume.real t.2).sum := by
  induction L with
  | nil => simp
  | cons t L ih =>
    obtain ⟨i1, i2, i3⟩ := ih fun t ht => hL t (by simp [ht])
    obtain ⟨t1, t2⟩ := hL t (by simp)
    have e : {x | ∃ u ∈ t :: L, x ∈ u.2} = t.2 ∪ {x | ∃ t ∈ L, x ∈ t.2} := by
      ext x
      simp
    rw [e, List.map_cons, List.sum_cons]
    exact ⟨t1.union i1, measure_union_lt_top t2 i2, (measureReal_union_le _ _).trans (by linarith)⟩

theorem regions_change {ρ : V3 → ℝ} (L : List (ℝ × Set V3)) (hL : ∀ t ∈ L, MeasurableSet t.2 ∧ volume t.2 < ⊤)
    (hρ : ∀ x, ρ x = (L.map fun t => t.2.indicator (fun _ => t.1) x).sum) {D : ℝ} (hD : 0 ≤ D) (hb : ∀ᵐ x, |ρ x| ≤ D)
    (hint : ∀ p i, Integrable (newtonElement ρ p i)) :
    ChangesAtMost D (L.map fun t => volume.real t.2).sum (newtonField ρ) := by
  obtain ⟨h1, h2, h3⟩ := regions_volume L hL
  refine newton_change hD h1 h2 ?_ hint h3
  filter_upwards [hb] with x hx
  by_cases hm : ∃ t ∈ L, x ∈ t.2
  · rwa [indicator_of_mem (show x ∈ {x | ∃ t ∈ L, x ∈ t.2} from hm)]
  · rw [indicator_of_notMem (show x ∉ {x | ∃ t ∈ L, x ∈ t.2} from hm), hρ, List.sum_eq_zero, abs_zero]
    intro a ha
    obtain ⟨t, ht, rfl⟩ := List.mem_map.1 ha
    exact indicator_of_notMem (fun h => hm ⟨t, ht, h⟩) _

/-! ### Prisms -/

theorem body_volume {p : Prism} (hp : p.Ordered) :
    MeasurableSet (triple ⁻¹' p.body) ∧ volume (triple ⁻¹' p.body) < ⊤ ∧
      volume.real (triple ⁻¹' p.body) = p.volume := by
  obtain ⟨h1, h2, h3⟩ := hp
  have hm : MeasurableSet p.body := measurableSet_Icc.prod (measurableSet_Icc.prod measurableSet_Icc)
  have hv : volume p.body = ENNReal.ofReal p.volume := by
    unfold Prism.body Prism.volume
    rw [Measure.volume_eq_prod, Measure.prod_prod, Measure.volume_eq_prod, Measure.prod_prod, Real.volume_Icc,
      Real.volume_Icc, Real.volume_Icc, ← ENNReal.ofReal_mul (by linarith), ← ENNReal.ofReal_mul (by linarith), mul_assoc]
  have he := triple_preserving.measure_preimage hm.nullMeasurableSet
  refine ⟨triple.measurable hm, ?_, ?_⟩
  · rw [he, hv]
    exact ENNReal.ofReal_lt_top
  · unfold Measure.real
    rw [he, hv, ENNReal.toReal_ofReal]
    exact mul_nonneg (mul_nonneg (by linarith) (by linarith)) (by linarith)

theorem prism_integrable (srcs : List (Prism × ℝ)) (p : V3) (i : Fin 3) :
    Integrable (newtonElement (prismDensity srcs) p i) := by
  have h := (prism_newton srcs ⟨p 0, p 1, p 2⟩ i).1
  rwa [show vec ⟨p 0, p 1, p 2⟩ = p by funext i; fin_cases i <;> rfl] at h

theorem prisms_change {srcs : List (Prism × ℝ)} (hord : ∀ s ∈ srcs, s.1.Ordered) {D : ℝ} (hD : 0 ≤ D)
    (hb : ∀ᵐ x, |prismDensity srcs x| ≤ D) :
    ChangesAtMost D (srcs.map fun s => s.1.volume).sum (newtonField (prismDensity srcs)) := by
  have h := regions_change (ρ := prismDensity srcs) (srcs.map fun s => (s.2, triple ⁻¹' s.1.body)) ?_ ?_ hD hb
    (prism_integrable srcs)
  · convert h using 2
    rw [List.map_map]
    exact List.map_congr_left fun s hs => (body_volume (hord s hs)).2.2.symm
  · intro t ht
    obtain ⟨s, hs, rfl⟩ := List.mem_map.1 ht
    exact ⟨(body_volume (hord s hs)).1, (body_volume (hord s hs)).2.1⟩
  · intro x
    rw [List.map_map]
    rfl

theorem abs_prismDensity (srcs : List (Prism × ℝ)) (x : V3) :
    |prismDensity srcs x| ≤ (srcs.map fun s => |s.2|).sum := by
  unfold prismDensity Verif.Forward.densityAt
  induction srcs with
  | nil => simp
  | cons s L ih =>
    simp only [List.map_cons, List.sum_cons]
    refine (abs_add_le _ _).trans (add_le_add ?_ ih)
    by_cases h : (x 0, x 1, x 2) ∈ s.1.body
    · rw [indicator_of_mem h]
    · rw [indicator_of_notMem h, abs_zero]
      exact abs_nonneg _

/-! ### C157 -/

/-- C157: how much the components of the gravity of prisms change between two points, wherever they are: outside,
inside, on faces, edges and vertices. `D` is the largest absolute density at a point (of almost all). -/
theorem C157_prisms {K : PrismKernels} (hK : K.Newtonian) {srcs : List (Prism × ℝ)} (hord : ∀ s ∈ srcs, s.1.Ordered)
    {D : ℝ} (hD : 0 ≤ D) (hb : ∀ᵐ x, |prismDensity srcs x| ≤ D) :
    ∃ field : V3 → V3, ReturnsPrisms K srcs field ∧ ChangesAtMost D (srcs.map fun s => s.1.volume).sum field :=
  ⟨_, returnsPrisms_newton hK hord, prisms_change hord hD hb⟩

/-- C157: the components of the gravity of prisms are continuous at every point. -/
theorem C157_continuous {K : PrismKernels} (hK : K.Newtonian) {srcs : List (Prism × ℝ)}
    (hord : ∀ s ∈ srcs, s.1.Ordered) : ∃ field : V3 → V3, ReturnsPrisms K srcs field ∧ Continuous field := by
  have hD : 0 ≤ (srcs.map fun s => |s.2|).sum := by
    refine List.sum_nonneg fun x hx => ?_
    obtain ⟨s, -, rfl⟩ := List.mem_map.1 hx
    exact abs_nonneg _
  obtain ⟨field, h1, h2⟩ := C157_prisms hK hord hD (Filter.Eventually.of_forall (abs_prismDensity srcs))
  exact ⟨field, h1, changes_continuous hD h2⟩

/-- C157: the same for the gravity of ellipsoids of shapes whose field is exact. -/
theorem C157_ellipsoids (bodies : Bodies) (h : ∀ e ∈ bodies.toList, e.Valid ∧ e.Exact) {D : ℝ} (hD : 0 ≤ D)
    (hb : ∀ᵐ x, |densityOf bodies.toList x| ≤ D) :
    ∃ field : V3 → V3, (∀ (shape : List ℕ) (pts : List P3), pts.length = shape.prod →
        (ellipsoidGravity (arrays shape pts) bodies).map (·.1) = .ok (gravityResult shape pts field)) ∧
      ChangesAtMost D (bodies.toList.map fun e => 4 / 3 * Real.pi * (e.a * e.b * e.c)).sum field := by
  refine ⟨newtonField (densityOf bodies.toList), fun shape pts hs => by rw [C149_newton shape pts hs bodies h]; rfl, ?_⟩
  have k := regions_change (ρ := densityOf bodies.toList)
    (bodies.toList.map fun e => (e.density.getD 0, {x | e.Inside x})) ?_ ?_ hD hb
    fun p i => C149_converges _ (fun e he => (h e he).1) p i
  · convert k using 2
    rw [List.map_map]
    refine List.map_congr_left fun e he => ?_
    have h1 := (level_volume (h e he).1 one_pos).2
    rw [one_pow, mul_one] at h1
    show e.volume = volume.real {x | e.Inside x}
    rw [← h1]
    congr 1
    ext x
    exact (inside_level e x).symm
  · intro t ht
    obtain ⟨e, he, rfl⟩ := List.mem_map.1 ht
    exact ⟨inside_measurable e, inside_finite (h e he).1⟩
  · intro x
    rw [List.map_map]
    rfl

/-! ### Examples -/

/-- Two blocks that overlap. -/
noncomputable def twoBlocks : List (Prism × ℝ) := [(⟨0, 10, 0, 10, -10, 0⟩, 2670), (⟨5, 15, 0, 10, -10, 0⟩, -300)]

theorem twoBlocks_ordered : ∀ s ∈ twoBlocks, s.1.Ordered := by
  intro s hs
  simp only [twoBlocks, List.mem_cons, List.not_mem_nil, or_false] at hs
  rcases hs with rfl | rfl <;> norm_num [Prism.Ordered]

/-- The gravity of two blocks with the volume of 2000 m³ changes at most by 0.2 mGal (2e-6 m/s²) from a vertex to
a point one tenth of a millimetre away. -/
example : ∃ field : V3 → V3, ReturnsPrisms bodyKernels twoBlocks field ∧ Continuous field ∧
    ∀ i, |field ![10, 10, 0] i - field ![10, 10, 0.0001] i| ≤ 2e-6 := by
  have hb : ∀ᵐ x, |prismDensity twoBlocks x| ≤ 2970 := Filter.Eventually.of_forall fun x =>
    (abs_prismDensity twoBlocks x).trans (by norm_num [twoBlocks])
  obtain ⟨field, h1, h2⟩ := C157_prisms bodyKernels_newtonian twoBlocks_ordered (by norm_num) hb
  refine ⟨field, h1, changes_continuous (by norm_num) h2, fun i => ?_⟩
  have hm : magnitude ((![10, 10, 0] : V3) - ![10, 10, 0.0001]) = 0.0001 := by
    unfold magnitude
    rw [Fin.sum_univ_three]
    simp only [Pi.sub_apply, Matrix.cons_val_zero, Matrix.cons_val_one, Matrix.cons_val]
    rw [Real.sqrt_eq_iff_mul_self_eq] <;> norm_num
  have h := h2 ![10, 10, 0] ![10, 10, 0.0001] i 0.0004 14 (by norm_num) (by rw [hm]; norm_num)
  rw [hm] at h
  refine h.trans ?_
  unfold changeBound
  simp only [twoBlocks, Prism.volume, List.map_cons, List.map_nil, List.sum_cons, List.sum_nil]
  norm_num

/-- The hypotheses hold for an ellipsoid of rock, with its density. -/
example : ∃ field : V3 → V3, (∀ (shape : List ℕ) (pts : List P3), pts.length = shape.prod →
      (ellipsoidGravity (arrays shape pts) (.one rock)).map (·.1) = .ok (gravityResult shape pts field)) ∧
    Continuous field := by
  obtain ⟨field, h1, h2⟩ := C157_ellipsoids (.one rock) (by simp [Bodies.toList, rock_valid, rock_exact])
    (D := |rock.density.getD 0|) (abs_nonneg _) (Filter.Eventually.of_forall fun x => by
      simp only [Bodies.toList, densityOf, List.map_cons, List.map_nil, List.sum_cons, List.sum_nil, add_zero,
        Ellipsoid.densityAt]
      split_ifs
      · exact le_rfl
      · simp)
  exact ⟨field, h1, changes_continuous (abs_nonneg _) h2⟩

end Verif.Ellipsoids
