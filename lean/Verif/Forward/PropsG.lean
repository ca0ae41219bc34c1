import Verif.Forward.PropsF

/-!
C113: outside the prisms the results of `prism_gravity` are derivatives of one another, and the field of
`prism_magnetic` has no divergence nor curl. C114: Poisson's relation between both.
-/

namespace Verif.Forward
open Verif.Distance Verif.Engine Filter Topology MeasureTheory

/-! ### Specification -/

/-- The fields of `prism_gravity`, in their units, agree at `q`: the acceleration (mGal, z downwards) is the
gradient of the potential (m²/s²), the tensor (Eötvös) is the gradient of the acceleration, symmetric, and its trace
is zero. -/
structure PrismConsistent (F : String → P3 → ℝ) (q : P3) : Prop where
  g_e : EastDeriv (F "potential") (F "g_e" q / 10 ^ 5) q
  g_n : NorthDeriv (F "potential") (F "g_n" q / 10 ^ 5) q
  g_z : UpDeriv (F "potential") (-F "g_z" q / 10 ^ 5) q
  g_ee : EastDeriv (F "g_e") (F "g_ee" q / 10 ^ 4) q
  g_en : NorthDeriv (F "g_e") (F "g_en" q / 10 ^ 4) q
  g_ez : UpDeriv (F "g_e") (-F "g_ez" q / 10 ^ 4) q
  g_ne : EastDeriv (F "g_n") (F "g_en" q / 10 ^ 4) q
  g_nn : NorthDeriv (F "g_n") (F "g_nn" q / 10 ^ 4) q
  g_nz : UpDeriv (F "g_n") (-F "g_nz" q / 10 ^ 4) q
  g_ze : EastDeriv (F "g_z") (F "g_ez" q / 10 ^ 4) q
  g_zn : NorthDeriv (F "g_z") (F "g_nz" q / 10 ^ 4) q
  g_zz : UpDeriv (F "g_z") (-F "g_zz" q / 10 ^ 4) q
  trace : F "g_ee" q + F "g_nn" q + F "g_zz" q = 0

/-- The fields of `prism_gravity`. -/
def prismFieldNames : List String :=
  ["potential", "g_e", "g_n", "g_z", "g_ee", "g_nn", "g_zz", "g_en", "g_ez", "g_nz"]

/-- The documentation of `choclo.prism`: the magnetic field (T) of a prism, at points that are not in it, is the
integral over it of the field of dipoles, with the magnetization as moment per unit volume. -/
structure MagKernels.Magnetized (mu0 : ℝ) (K : MagKernels Prism) : Prop where
  field : ∀ q p m, K.field q p m = (K.e q p m, K.n q p m, K.u q p m)
  e : ∀ q p m, p.Ordered → coords q ∉ p.body → K.e q p m = ∫ r in p.body, (dipoleKernels mu0).e q (pointAt r) m
  n : ∀ q p m, p.Ordered → coords q ∉ p.body → K.n q p m = ∫ r in p.body, (dipoleKernels mu0).n q (pointAt r) m
  u : ∀ q p m, p.Ordered → coords q ∉ p.body → K.u q p m = ∫ r in p.body, (dipoleKernels mu0).u q (pointAt r) m

/-! ### Derivatives of integrals -/

theorem outside_norm {q : P3} {p : Prism} (h : coords q ∉ p.body) :
    ∃ δ, 0 < δ ∧ ∀ r ∈ p.body, δ ≤ ‖coords q - r‖ := by
  obtain ⟨δ, hδ, hb⟩ := Metric.isOpen_iff.1 p.body_compact.isClosed.isOpen_compl (coords q) h
  refine ⟨δ, hδ, fun r hr => ?_⟩
  rw [← dist_eq_norm]
  by_contra hc
  push Not at hc
  exact hb (show r ∈ Metric.ball (coords q) δ by rw [Metric.mem_ball, dist_comm]; exact hc) hr

/-- Lines along the axes, in the norm of the largest coordinate. -/
def Unhurried (γ : ℝ → P3) : Prop := ∀ s t, ‖coords (γ s) - coords (γ t)‖ ≤ |s - t|

theorem unhurried_east (q : P3) : Unhurried fun t => ⟨t, q.y, q.z⟩ := by
  intro s t
  simp [coords, Prod.norm_def]

theorem unhurried_north (q : P3) : Unhurried fun t => ⟨q.x, t, q.z⟩ := by
  intro s t
  simp [coords, Prod.norm_def]

theorem unhurried_up (q : P3) : Unhurried fun t => ⟨q.x, q.y, t⟩ := by
  intro s t
  simp [coords, Prod.norm_def]

theorem Unhurried.near {γ : ℝ → P3} (hγ : Unhurried γ) {t₀ : ℝ} {p : Prism} (h : coords (γ t₀) ∉ p.body) :
    ∃ δ, 0 < δ ∧ ∀ t ∈ Metric.ball t₀ δ, ∀ r ∈ p.body, δ ≤ ‖coords (γ t) - r‖ := by
  obtain ⟨δ, hδ, hb⟩ := outside_norm h
  refine ⟨δ / 2, by positivity, fun t ht r hr => ?_⟩
  have h1 := hb r hr
  have h2 := hγ t₀ t
  have h3 : |t₀ - t| < δ / 2 := by rw [abs_sub_comm]; exact ht
  have h4 : ‖coords (γ t₀) - r‖ ≤ ‖coords (γ t₀) - coords (γ t)‖ + ‖coords (γ t) - r‖ := by
    have := norm_add_le (coords (γ t₀) - coords (γ t)) (coords (γ t) - r)
    rwa [sub_add_sub_cancel] at this
  linarith

theorem integral_deriv {k k' : P3 → P3 → ℝ → ℝ} {a a' : ℕ} (hk : PointField k a) (hk' : PointField k' a')
    {γ : ℝ → P3} (hγ : Unhurried γ) {t₀ : ℝ} {p : Prism} (h : coords (γ t₀) ∉ p.body) (m : ℝ)
    (hd : ∀ t r, γ t ≠ pointAt r → HasDerivAt (fun t => k (γ t) (pointAt r) m) (k' (γ t) (pointAt r) m) t) :
    HasDerivAt (fun t => ∫ r in p.body, k (γ t) (pointAt r) m) (∫ r in p.body, k' (γ t₀) (pointAt r) m) t₀ := by
  obtain ⟨δ, hδ, hb⟩ := hγ.near h
  obtain ⟨C, hC, hCb⟩ := hk'.bound
  have hne : ∀ t ∈ Metric.ball t₀ δ, ∀ r ∈ p.body, γ t ≠ pointAt r := by
    intro t ht r hr e
    have := hb t ht r hr
    rw [e, coords_pointAt, sub_self, norm_zero] at this
    linarith
  refine (hasDerivAt_integral_of_dominated_loc_of_deriv_le (μ := volume.restrict p.body)
    (F := fun t r => k (γ t) (pointAt r) m) (F' := fun t r => k' (γ t) (pointAt r) m)
    (bound := fun _ => |m| * (C / δ ^ a')) (Metric.ball_mem_nhds t₀ hδ)
    (Eventually.of_forall fun t => (hk.meas _ m).aestronglyMeasurable) (hk.integrableOn_outside h m)
    (hk'.meas _ m).aestronglyMeasurable ?_ (integrableOn_const p.body_compact.measure_lt_top.ne) ?_).2
  · refine (ae_restrict_iff' p.body_meas).2 (Eventually.of_forall fun r hr t ht => ?_)
    rw [hk'.lin, Real.norm_eq_abs, abs_mul]
    refine mul_le_mul_of_nonneg_left ((hCb _ _ (hne t ht r hr)).trans ?_) (abs_nonneg m)
    exact div_le_div_of_nonneg_left hC (by positivity)
      (pow_le_pow_left₀ hδ.le ((hb t ht r hr).trans (norm_le_gap (γ t) (pointAt r))) _)
  · exact (ae_restrict_iff' p.body_meas).2 (Eventually.of_forall fun r hr t ht => hd t r (hne t ht r hr))

theorem sum_integral_deriv {k k' : P3 → P3 → ℝ → ℝ} {a a' : ℕ} (hk : PointField k a) (hk' : PointField k' a')
    {γ : ℝ → P3} (hγ : Unhurried γ) {t₀ : ℝ} (srcs : List (Prism × ℝ)) (h : ∀ s ∈ srcs, coords (γ t₀) ∉ s.1.body)
    (hd : ∀ m t r, γ t ≠ pointAt r → HasDerivAt (fun t => k (γ t) (pointAt r) m) (k' (γ t) (pointAt r) m) t) :
    HasDerivAt (fun t => (srcs.map fun s => ∫ r in s.1.body, k (γ t) (pointAt r) s.2).sum)
      (srcs.map fun s => ∫ r in s.1.body, k' (γ t₀) (pointAt r) s.2).sum t₀ := by
  induction srcs with
  | nil => simpa using hasDerivAt_const t₀ (0 : ℝ)
  | cons s srcs ih =>
    simp only [List.map_cons, List.sum_cons]
    exact (integral_deriv hk hk' hγ (h s (by simp)) s.2 (hd s.2)).fun_add (ih fun s hs => h s (by simp [hs]))

/-- The field of prisms as bodies. -/
noncomputable def bodyField (srcs : List (Prism × ℝ)) (field : String) (q : P3) : ℝ :=
  match pointFieldTable newtonKernels field with
  | some (k0, factor) => factor * (srcs.map fun s => ∫ r in s.1.body, k0 q (pointAt r) s.2).sum
  | none => 0

/-- What `prism_gravity` returns. -/
theorem prismGravity_body (junk : Junk) (mode : Mode) {K : PrismKernels} (hK : K.Newtonian) (shape : List ℕ)
    (obs : List P3) (hshape : shape.prod = obs.length) (srcs : List (Prism × ℝ)) (dis : Bool)
    (hord : ∀ s ∈ srcs, s.1.Ordered) (hm : mode.Full obs.length (2 * srcs.length)) (field : String)
    (hf : field ∈ prismFieldNames) (ho : ∀ q ∈ obs, Allowed field srcs q) :
    (prismGravity junk mode K (arrays shape obs) (srcs.map (·.1)) (srcs.map (·.2)) field dis).map (·.2) =
      .ok ⟨shape, obs.map (bodyField srcs field)⟩ := by
  rw [C04_prism_gravity junk mode K shape obs hshape srcs dis (Or.inr hord) hm field]
  obtain ⟨k, factor, h⟩ : ∃ k factor, prismFieldTable K field = some (k, factor) := by
    simp only [prismFieldNames, List.mem_cons, List.not_mem_nil, or_false] at hf
    rcases hf with rfl | rfl | rfl | rfl | rfl | rfl | rfl | rfl | rfl | rfl <;> exact ⟨_, _, by simp [prismFieldTable]; exact ⟨rfl, rfl⟩⟩
  obtain ⟨k0, a, h0, ha, ht, hk⟩ := hK.table h
  rw [h]
  simp only
  congr 2
  apply List.map_congr_left
  intro q hq
  have hoq : a ≤ 2 ∨ ∀ s ∈ srcs, coords q ∉ s.1.body := (ho q hq).imp (fun h => ha h) id
  rw [total_kept h0 hk srcs hord q hoq, bodyField, ht]

/-! ### C113 -/

theorem bodyField_consistent (srcs : List (Prism × ℝ)) (q : P3) (ho : ∀ s ∈ srcs, coords q ∉ s.1.body) :
    PrismConsistent (bodyField srcs) q := by
  have E := unhurried_east q
  have N := unhurried_north q
  have U := unhurried_up q
  have D := fun {q p : P3} (h : q ≠ p) m => newton_deriv h m
  constructor
  all_goals simp only [bodyField, pointFieldTable, reduceIte, String.reduceEq, or_false]
  · exact HasDerivAt.congr_deriv (HasDerivAt.const_mul _ (sum_integral_deriv newton_pot newton_e E srcs ho
      fun m t r h => (D h m).1.1)) (by ring)
  · exact HasDerivAt.congr_deriv (HasDerivAt.const_mul _ (sum_integral_deriv newton_pot newton_n N srcs ho
      fun m t r h => (D h m).1.2.1)) (by ring)
  · exact HasDerivAt.congr_deriv (HasDerivAt.const_mul _ (sum_integral_deriv newton_pot newton_u U srcs ho
      fun m t r h => (D h m).1.2.2)) (by ring)
  · exact HasDerivAt.congr_deriv (HasDerivAt.const_mul _ (sum_integral_deriv newton_e newton_ee E srcs ho
      fun m t r h => (D h m).2.1.1)) (by ring)
  · exact HasDerivAt.congr_deriv (HasDerivAt.const_mul _ (sum_integral_deriv newton_e newton_en N srcs ho
      fun m t r h => (D h m).2.1.2.1)) (by ring)
  · exact HasDerivAt.congr_deriv (HasDerivAt.const_mul _ (sum_integral_deriv newton_e newton_eu U srcs ho
      fun m t r h => (D h m).2.1.2.2)) (by ring)
  · exact HasDerivAt.congr_deriv (HasDerivAt.const_mul _ (sum_integral_deriv newton_n newton_en E srcs ho
      fun m t r h => (D h m).2.2.1.1)) (by ring)
  · exact HasDerivAt.congr_deriv (HasDerivAt.const_mul _ (sum_integral_deriv newton_n newton_nn N srcs ho
      fun m t r h => (D h m).2.2.1.2.1)) (by ring)
  · exact HasDerivAt.congr_deriv (HasDerivAt.const_mul _ (sum_integral_deriv newton_n newton_nu U srcs ho
      fun m t r h => (D h m).2.2.1.2.2)) (by ring)
  · exact HasDerivAt.congr_deriv (HasDerivAt.const_mul _ (sum_integral_deriv newton_u newton_eu E srcs ho
      fun m t r h => (D h m).2.2.2.1.1)) (by ring)
  · exact HasDerivAt.congr_deriv (HasDerivAt.const_mul _ (sum_integral_deriv newton_u newton_nu N srcs ho
      fun m t r h => (D h m).2.2.2.1.2.1)) (by ring)
  · exact HasDerivAt.congr_deriv (HasDerivAt.const_mul _ (sum_integral_deriv newton_u newton_uu U srcs ho
      fun m t r h => (D h m).2.2.2.1.2.2)) (by ring)
  · have : (srcs.map fun s => ∫ r in s.1.body, newtonKernels.ee q (pointAt r) s.2).sum +
        (srcs.map fun s => ∫ r in s.1.body, newtonKernels.nn q (pointAt r) s.2).sum +
        (srcs.map fun s => ∫ r in s.1.body, newtonKernels.uu q (pointAt r) s.2).sum = 0 := by
      refine total_trace (fun q (s : Prism × ℝ) => ∫ r in s.1.body, newtonKernels.ee q (pointAt r) s.2)
        (fun q s => ∫ r in s.1.body, newtonKernels.nn q (pointAt r) s.2)
        (fun q s => ∫ r in s.1.body, newtonKernels.uu q (pointAt r) s.2) srcs q fun s hs => ?_
      have h1 := newton_ee.integrableOn_outside (ho s hs) s.2
      have h2 := newton_nn.integrableOn_outside (ho s hs) s.2
      have h3 := newton_uu.integrableOn_outside (ho s hs) s.2
      rw [← integral_add h1 h2]
      refine (integral_add (h1.add h2) h3).symm.trans ?_
      refine (setIntegral_congr_fun s.1.body_meas (g := fun _ => (0 : ℝ)) fun r hr =>
        (D (ne_of_outside (ho s hs) hr) s.2).2.2.2.2).trans (by simp)
    linear_combination 10 ^ 9 * this

/-- C113, gravity: the results of `prism_gravity` are the values at the observation points of one function per field
(for the tensor, at points outside the prisms), and these functions are derivatives of one another, with the
documented units and the vertical component pointing down, at every point outside the prisms. -/
theorem C113_gravity (junk : Junk) {K : PrismKernels} (hK : K.Newtonian) (srcs : List (Prism × ℝ))
    (hord : ∀ s ∈ srcs, s.1.Ordered) :
    ∃ F : String → P3 → ℝ,
      (∀ field ∈ prismFieldNames, ∀ mode shape obs dis, shape.prod = obs.length →
          mode.Full obs.length (2 * srcs.length) → (∀ q ∈ obs, Allowed field srcs q) →
        (prismGravity junk mode K (arrays shape obs) (srcs.map (·.1)) (srcs.map (·.2)) field dis).map (·.2) =
          .ok ⟨shape, obs.map (F field)⟩) ∧
      ∀ q, (∀ s ∈ srcs, coords q ∉ s.1.body) → PrismConsistent F q :=
  ⟨bodyField srcs, fun field hf mode shape obs dis hs hm ho =>
    prismGravity_body junk mode hK shape obs hs srcs dis hord hm field hf ho, bodyField_consistent srcs⟩

/-! ### Magnetic fields -/

/-- The sum of the absolute values of the components. -/
noncomputable def size (m : P3) : ℝ := |m.x| + |m.y| + |m.z|

theorem size_bounds (m : P3) : 0 ≤ size m ∧ |m.x| ≤ size m ∧ |m.y| ≤ size m ∧ |m.z| ≤ size m := by
  unfold size
  have := abs_nonneg m.x
  have := abs_nonneg m.y
  have := abs_nonneg m.z
  exact ⟨by positivity, by linarith, by linarith, by linarith⟩

theorem along_bound (m q p : P3) :
    |m.x * (q.x - p.x) + m.y * (q.y - p.y) + m.z * (q.z - p.z)| ≤ size m * gap q p := by
  obtain ⟨h1, h2, h3⟩ := abs_x_le_gap q p
  have := abs_add_three (m.x * (q.x - p.x)) (m.y * (q.y - p.y)) (m.z * (q.z - p.z))
  rw [abs_mul, abs_mul, abs_mul] at this
  unfold size
  nlinarith [abs_nonneg m.x, abs_nonneg m.y, abs_nonneg m.z]

theorem dipole_bound {c A X m μ R : ℝ} (hR : 0 < R) (hμ : 0 ≤ μ) (hA : |A| ≤ μ * R) (hX : |X| ≤ R) (hm : |m| ≤ μ) :
    |c * (3 * A * X / R ^ 5 - m / R ^ 3)| ≤ |c| * (4 * μ) / R ^ 3 := by
  rw [abs_mul, mul_div_assoc |c|]
  refine mul_le_mul_of_nonneg_left ?_ (abs_nonneg c)
  have h1 : |3 * A * X / R ^ 5| ≤ 3 * μ / R ^ 3 := by
    rw [abs_div, abs_mul, abs_mul, abs_of_pos (show 0 < R ^ 5 by positivity),
      div_le_div_iff₀ (by positivity) (by positivity), abs_of_pos (show (0 : ℝ) < 3 by norm_num)]
    have h2 := mul_le_mul hA hX (abs_nonneg X) (by positivity)
    calc 3 * |A| * |X| * R ^ 3 = 3 * R ^ 3 * (|A| * |X|) := by ring
      _ ≤ 3 * R ^ 3 * (μ * R * R) := mul_le_mul_of_nonneg_left h2 (by positivity)
      _ = 3 * μ * R ^ 5 := by ring
  have h2 : |m / R ^ 3| ≤ μ / R ^ 3 := by
    rw [abs_div, abs_of_pos (show 0 < R ^ 3 by positivity)]
    exact div_le_div_of_nonneg_right hm (by positivity)
  calc _ ≤ 3 * μ / R ^ 3 + μ / R ^ 3 := (abs_sub _ _).trans (add_le_add h1 h2)
    _ = _ := by ring

theorem gradient_bound {c A X Y m n s μ R : ℝ} (hR : 0 < R) (hμ : 0 ≤ μ) (hA : |A| ≤ μ * R) (hX : |X| ≤ R)
    (hY : |Y| ≤ R) (hm : |m| ≤ μ) (hn : |n| ≤ μ) (hs : |s| ≤ 1) :
    |c * (3 * (m * X + n * Y + A * s) / R ^ 5 - 15 * A * X * Y / R ^ 7)| ≤ |c| * (24 * μ) / R ^ 4 := by
  rw [abs_mul, mul_div_assoc |c|]
  refine mul_le_mul_of_nonneg_left ?_ (abs_nonneg c)
  have h1 : |3 * (m * X + n * Y + A * s) / R ^ 5| ≤ 9 * μ / R ^ 4 := by
    rw [abs_div, abs_mul, abs_of_pos (show 0 < R ^ 5 by positivity), abs_of_pos (show (0 : ℝ) < 3 by norm_num),
      div_le_div_iff₀ (by positivity) (by positivity)]
    have ha := abs_add_three (m * X) (n * Y) (A * s)
    rw [abs_mul, abs_mul, abs_mul] at ha
    have h2 := mul_le_mul hm hX (abs_nonneg X) hμ
    have h3 := mul_le_mul hn hY (abs_nonneg Y) hμ
    have h4 := mul_le_mul hA hs (abs_nonneg s) (by positivity)
    calc 3 * |m * X + n * Y + A * s| * R ^ 4 ≤ 3 * (3 * (μ * R)) * R ^ 4 := by
          apply mul_le_mul_of_nonneg_right _ (by positivity)
          linarith
      _ = 9 * μ * R ^ 5 := by ring
  have h2 : |15 * A * X * Y / R ^ 7| ≤ 15 * μ / R ^ 4 := by
    rw [abs_div, abs_mul, abs_mul, abs_mul, abs_of_pos (show 0 < R ^ 7 by positivity),
      div_le_div_iff₀ (by positivity) (by positivity), abs_of_pos (show (0 : ℝ) < 15 by norm_num)]
    have h3 := mul_le_mul (mul_le_mul hA hX (abs_nonneg X) (by positivity)) hY (abs_nonneg Y) (by positivity)
    calc 15 * |A| * |X| * |Y| * R ^ 4 = 15 * R ^ 4 * (|A| * |X| * |Y|) := by ring
      _ ≤ 15 * R ^ 4 * (μ * R * R * R) := mul_le_mul_of_nonneg_left h3 (by positivity)
      _ = 15 * μ * R ^ 7 := by ring
  calc _ ≤ 9 * μ / R ^ 4 + 15 * μ / R ^ 4 := (abs_sub _ _).trans (add_le_add h1 h2)
    _ = _ := by ring

theorem dipole_e (mu0 : ℝ) (m : P3) : PointField (fun q p c => c * (dipoleKernels mu0).e q p m) 3 where
  lin q p c := by ring
  meas q c := by
    have := measurable_gap q
    simp only [dipoleKernels, pointAt] at this ⊢
    fun_prop
  bound := ⟨|mu0 / (4 * Real.pi)| * (4 * size m), mul_nonneg (abs_nonneg _) (by linarith [(size_bounds m).1]),
    fun q p h => by
      rw [one_mul]
      exact dipole_bound (gap_pos h) (size_bounds m).1 (along_bound m q p) (abs_x_le_gap q p).1 (size_bounds m).2.1⟩
  move q p c d := by simp only [dipoleKernels, gap_move, add_sub_add_right_eq_sub]

theorem dipole_n (mu0 : ℝ) (m : P3) : PointField (fun q p c => c * (dipoleKernels mu0).n q p m) 3 where
  lin q p c := by ring
  meas q c := by
    have := measurable_gap q
    simp only [dipoleKernels, pointAt] at this ⊢
    fun_prop
  bound := ⟨|mu0 / (4 * Real.pi)| * (4 * size m), mul_nonneg (abs_nonneg _) (by linarith [(size_bounds m).1]),
    fun q p h => by
      rw [one_mul]
      exact dipole_bound (gap_pos h) (size_bounds m).1 (along_bound m q p) (abs_x_le_gap q p).2.1
        (size_bounds m).2.2.1⟩
  move q p c d := by simp only [dipoleKernels, gap_move, add_sub_add_right_eq_sub]

theorem dipole_u (mu0 : ℝ) (m : P3) : PointField (fun q p c => c * (dipoleKernels mu0).u q p m) 3 where
  lin q p c := by ring
  meas q c := by
    have := measurable_gap q
    simp only [dipoleKernels, pointAt] at this ⊢
    fun_prop
  bound := ⟨|mu0 / (4 * Real.pi)| * (4 * size m), mul_nonneg (abs_nonneg _) (by linarith [(size_bounds m).1]),
    fun q p h => by
      rw [one_mul]
      exact dipole_bound (gap_pos h) (size_bounds m).1 (along_bound m q p) (abs_x_le_gap q p).2.2
        (size_bounds m).2.2.2⟩
  move q p c d := by simp only [dipoleKernels, gap_move, add_sub_add_right_eq_sub]

/-- The three coordinates. -/
def Axis (a : P3 → ℝ) : Prop := a = P3.x ∨ a = P3.y ∨ a = P3.z

theorem Axis.le_gap {a : P3 → ℝ} (h : Axis a) (q p : P3) : |a q - a p| ≤ gap q p := by
  rcases h with rfl | rfl | rfl
  · exact (abs_x_le_gap q p).1
  · exact (abs_x_le_gap q p).2.1
  · exact (abs_x_le_gap q p).2.2

theorem Axis.le_size {a : P3 → ℝ} (h : Axis a) (m : P3) : |a m| ≤ size m := by
  rcases h with rfl | rfl | rfl
  · exact (size_bounds m).2.1
  · exact (size_bounds m).2.2.1
  · exact (size_bounds m).2.2.2

theorem Axis.meas {a : P3 → ℝ} (h : Axis a) : Measurable fun r => a (pointAt r) := by
  unfold pointAt
  rcases h with rfl | rfl | rfl <;> simp only <;> fun_prop

theorem Axis.move {a : P3 → ℝ} (h : Axis a) (q d : P3) : a ⟨q.x + d.x, q.y + d.y, q.z + d.z⟩ = a q + a d := by
  rcases h with rfl | rfl | rfl <;> rfl

theorem dipole_gradient (mu0 : ℝ) {a b : P3 → ℝ} (ha : Axis a) (hb : Axis b) {s : ℝ} (hs : |s| ≤ 1) (m : P3) :
    PointField (fun q p c => c * dipoleGradient mu0 a b s q p m) 4 where
  lin q p c := by ring
  meas q c := by
    have key : ∀ A B L R : ℝ × ℝ × ℝ → ℝ, Measurable A → Measurable B → Measurable L → Measurable R →
        ∀ k x y u v : ℝ, Measurable fun r => c * (k * (3 * (x * (u - A r) + y * (v - B r) + L r * s) / R r ^ 5 -
          15 * L r * (u - A r) * (v - B r) / R r ^ 7)) := by
      intros; fun_prop
    have h4 : Measurable fun r : ℝ × ℝ × ℝ => m.x * (q.x - (pointAt r).x) + m.y * (q.y - (pointAt r).y) +
        m.z * (q.z - (pointAt r).z) := by unfold pointAt; fun_prop
    exact key _ _ _ _ ha.meas hb.meas h4 (measurable_gap q) _ _ _ _ _
  bound := ⟨|mu0 / (4 * Real.pi)| * (24 * size m), mul_nonneg (abs_nonneg _) (by linarith [(size_bounds m).1]),
    fun q p h => by
      rw [one_mul]
      exact gradient_bound (gap_pos h) (size_bounds m).1 (along_bound m q p) (ha.le_gap q p) (hb.le_gap q p)
        (hb.le_size m) (ha.le_size m) hs⟩
  move q p c d := by
    simp only [dipoleGradient, gap_move, add_sub_add_right_eq_sub, ha.move, hb.move]

/-- The magnetic field of prisms as bodies (nT), from the field of dipoles. -/
noncomputable def bodyMag (k : P3 → P3 → V3 → ℝ) (srcs : List (Prism × V3)) (q : P3) : ℝ :=
  (srcs.map fun s => ∫ r in s.1.body, k q (pointAt r) s.2).sum * 10 ^ 9

open Classical in
theorem total_mag {k : P3 → Prism → V3 → ℝ} {k0 : P3 → P3 → V3 → ℝ} (h0 : ∀ q p, k0 q p ⟨0, 0, 0⟩ = 0)
    (hk : ∀ q p m, p.Ordered → coords q ∉ p.body → k q p m = ∫ r in p.body, k0 q (pointAt r) m)
    (srcs : List (Prism × V3)) (hord : ∀ s ∈ srcs, s.1.Ordered) (q : P3) (ho : ∀ s ∈ srcs, coords q ∉ s.1.body) :
    total (fun q s => k q s.1 s.2)
      (srcs.filter fun s => s.1.volume ≠ 0 ∧ ¬ (s.2.x = 0 ∧ s.2.y = 0 ∧ s.2.z = 0)) q * 10 ^ 9 = bodyMag k0 srcs q := by
  unfold total bodyMag
  congr 1
  induction srcs with
  | nil => rfl
  | cons s srcs ih =>
    have ih := ih (fun s hs => hord s (by simp [hs])) (fun s hs => ho s (by simp [hs]))
    have h1 := hord s (by simp)
    by_cases hs : s.1.volume ≠ 0 ∧ ¬ (s.2.x = 0 ∧ s.2.y = 0 ∧ s.2.z = 0)
    · rw [List.filter_cons_of_pos (by rw [decide_eq_true_eq]; exact hs), List.map_cons, List.map_cons, List.sum_cons, List.sum_cons, ih]
      beta_reduce
      rw [hk q s.1 s.2 h1 (ho s (by simp))]
    · rw [List.filter_cons_of_neg (by rw [decide_eq_true_eq]; exact hs), List.map_cons, List.sum_cons, ih]
      have : ∫ r in s.1.body, k0 q (pointAt r) s.2 = 0 := by
        by_cases hv : s.1.volume = 0
        · exact s.1.integral_null h1 hv _
        · have h2 : s.2.x = 0 ∧ s.2.y = 0 ∧ s.2.z = 0 := by
            by_contra h
            exact hs ⟨hv, h⟩
          have h3 : s.2 = ⟨0, 0, 0⟩ := by
            obtain ⟨p, ⟨x, y, z⟩⟩ := s
            obtain ⟨rfl, rfl, rfl⟩ := h2
            rfl
          have hz : ∀ r, k0 q (pointAt r) s.2 = 0 := fun r => by rw [h3, h0]
          simp only [hz, integral_zero]
      rw [this, zero_add]

/-- What `prism_magnetic` returns. -/
theorem prismMagnetic_body (junk : Junk) (mode : Mode) {mu0 : ℝ} {K : MagKernels Prism} (hK : K.Magnetized mu0)
    (shape : List ℕ) (obs : List P3) (hshape : shape.prod = obs.length) (srcs : List (Prism × V3)) (dis : Bool)
    (hord : ∀ s ∈ srcs, s.1.Ordered) (hm : mode.Full obs.length (6 * srcs.length))
    (ho : ∀ q ∈ obs, ∀ s ∈ srcs, coords q ∉ s.1.body) :
    let B_e := bodyMag (dipoleKernels mu0).e srcs
    let B_n := bodyMag (dipoleKernels mu0).n srcs
    let B_u := bodyMag (dipoleKernels mu0).u srcs
    let call := fun field => prismMagnetic junk mode K (arrays shape obs) (srcs.map (·.1))
      [(srcs.map (·.2)).map (·.x), (srcs.map (·.2)).map (·.y), (srcs.map (·.2)).map (·.z)] field dis
    call "b" = .ok (.vector ⟨shape, obs.map B_e⟩ ⟨shape, obs.map B_n⟩ ⟨shape, obs.map B_u⟩) ∧
    call "b_e" = .ok (.single ⟨shape, obs.map B_e⟩) ∧
    call "b_n" = .ok (.single ⟨shape, obs.map B_n⟩) ∧
    call "b_u" = .ok (.single ⟨shape, obs.map B_u⟩) := by
  classical
  intro B_e B_n B_u call
  have e1 := fun q hq => total_mag (k := K.e) (k0 := (dipoleKernels mu0).e)
    (fun q p => by simp [dipoleKernels]) hK.e srcs hord q (ho q hq)
  have e2 := fun q hq => total_mag (k := K.n) (k0 := (dipoleKernels mu0).n)
    (fun q p => by simp [dipoleKernels]) hK.n srcs hord q (ho q hq)
  have e3 := fun q hq => total_mag (k := K.u) (k0 := (dipoleKernels mu0).u)
    (fun q p => by simp [dipoleKernels]) hK.u srcs hord q (ho q hq)
  have C := fun field => C05_prism_magnetic junk mode K shape obs hshape srcs hm field dis
  simp only [if_pos (Or.inr hord : dis = true ∨ ∀ s ∈ srcs, s.1.Ordered)] at C
  have m1 := List.map_congr_left e1
  have m2 := List.map_congr_left e2
  have m3 := List.map_congr_left e3
  refine ⟨(C "b").trans ?_, (C "b_e").trans ?_, (C "b_n").trans ?_, (C "b_u").trans ?_⟩
  all_goals simp only [B_e, B_n, B_u, ← m1, ← m2, ← m3]
  all_goals simp [magSpec, hK.field]

/-- C113, magnetic field: the components that `prism_magnetic` returns for `"b"`, `"b_e"`, `"b_n"` and `"b_u"` at
points outside the prisms are the values of one vector field, without divergence nor curl there. -/
theorem C113_magnetic (junk : Junk) {mu0 : ℝ} {K : MagKernels Prism} (hK : K.Magnetized mu0)
    (srcs : List (Prism × V3)) (hord : ∀ s ∈ srcs, s.1.Ordered) :
    ∃ B_e B_n B_u : P3 → ℝ,
      (∀ mode shape obs dis, shape.prod = obs.length → mode.Full obs.length (6 * srcs.length) →
          (∀ q ∈ obs, ∀ s ∈ srcs, coords q ∉ s.1.body) →
        let call := fun field => prismMagnetic junk mode K (arrays shape obs) (srcs.map (·.1))
          [(srcs.map (·.2)).map (·.x), (srcs.map (·.2)).map (·.y), (srcs.map (·.2)).map (·.z)] field dis
        call "b" = .ok (.vector ⟨shape, obs.map B_e⟩ ⟨shape, obs.map B_n⟩ ⟨shape, obs.map B_u⟩) ∧
        call "b_e" = .ok (.single ⟨shape, obs.map B_e⟩) ∧
        call "b_n" = .ok (.single ⟨shape, obs.map B_n⟩) ∧
        call "b_u" = .ok (.single ⟨shape, obs.map B_u⟩)) ∧
      ∀ q, (∀ s ∈ srcs, coords q ∉ s.1.body) → MagneticConsistent B_e B_n B_u q := by
  refine ⟨bodyMag (dipoleKernels mu0).e srcs, bodyMag (dipoleKernels mu0).n srcs, bodyMag (dipoleKernels mu0).u srcs,
    fun mode shape obs dis hs hm ho => prismMagnetic_body junk mode hK shape obs hs srcs dis hord hm ho, ?_⟩
  intro q ho
  have E := unhurried_east q
  have N := unhurried_north q
  have U := unhurried_up q
  have D := fun {q p : P3} (h : q ≠ p) m => dipole_deriv mu0 h m
  let G (a b : P3 → ℝ) (same : ℝ) : ℝ := bodyMag (dipoleGradient mu0 a b same) srcs q
  have key : ∀ {k : P3 → P3 → V3 → ℝ} {a b : P3 → ℝ} {same : ℝ}, Axis a → Axis b → |same| ≤ 1 →
      (∀ m, PointField (fun q p c => c * k q p m) 3) → ∀ {γ : ℝ → P3} {t : ℝ}, Unhurried γ → γ t = q →
      (∀ t p m, γ t ≠ p → HasDerivAt (fun t => k (γ t) p m) (dipoleGradient mu0 a b same (γ t) p m) t) →
      HasDerivAt (fun t => bodyMag k srcs (γ t)) (G a b same) t := by
    intro k a b same ha hb hs hk γ t hγ hq hd
    refine HasDerivAt.mul_const ?_ _
    have : ∀ l : List (Prism × V3), (∀ s ∈ l, s ∈ srcs) →
        HasDerivAt (fun t => (l.map fun s => ∫ r in s.1.body, k (γ t) (pointAt r) s.2).sum)
          (l.map fun s => ∫ r in s.1.body, dipoleGradient mu0 a b same q (pointAt r) s.2).sum t := by
      intro l hl
      induction l with
      | nil => simpa using hasDerivAt_const t (0 : ℝ)
      | cons s l ih =>
        simp only [List.map_cons, List.sum_cons]
        refine HasDerivAt.fun_add ?_ (ih fun s hs => hl s (by simp [hs]))
        have := integral_deriv (hk s.2) (dipole_gradient mu0 ha hb hs s.2) hγ (t₀ := t)
          (by rw [hq]; exact ho s (hl s (by simp))) 1 fun t r h => (hd t (pointAt r) s.2 h).const_mul 1
        simpa only [one_mul, hq] using this
    exact this srcs fun s hs => hs
  have hG : ∀ a b s, G a b s = G b a s := fun a b s => by
    simp only [G, bodyMag, dipoleGradient_symm mu0 a b]
  have X : Axis P3.x := Or.inl rfl
  have Y : Axis P3.y := Or.inr (Or.inl rfl)
  have Z : Axis P3.z := Or.inr (Or.inr rfl)
  have h0 : |(0 : ℝ)| ≤ 1 := by simp
  have h1 : |(1 : ℝ)| ≤ 1 := by simp
  refine ⟨G P3.x P3.x 1, G P3.x P3.y 0, G P3.x P3.z 0, G P3.y P3.y 1, G P3.y P3.z 0, G P3.z P3.z 1,
    ⟨?_, ?_, ?_⟩, ⟨?_, ?_, ?_⟩, ⟨?_, ?_, ?_⟩, ?_⟩
  · exact key X X h1 (dipole_e mu0) E rfl fun t p m h => (D h m).1.1
  · exact key X Y h0 (dipole_e mu0) N rfl fun t p m h => (D h m).1.2.1
  · exact key X Z h0 (dipole_e mu0) U rfl fun t p m h => (D h m).1.2.2
  · rw [hG P3.x P3.y 0]; exact key Y X h0 (dipole_n mu0) E rfl fun t p m h => (D h m).2.1.1
  · exact key Y Y h1 (dipole_n mu0) N rfl fun t p m h => (D h m).2.1.2.1
  · exact key Y Z h0 (dipole_n mu0) U rfl fun t p m h => (D h m).2.1.2.2
  · rw [hG P3.x P3.z 0]; exact key Z X h0 (dipole_u mu0) E rfl fun t p m h => (D h m).2.2.1.1
  · rw [hG P3.y P3.z 0]; exact key Z Y h0 (dipole_u mu0) N rfl fun t p m h => (D h m).2.2.1.2.1
  · exact key Z Z h1 (dipole_u mu0) U rfl fun t p m h => (D h m).2.2.1.2.2
  · have hI : ∀ {a : P3 → ℝ}, Axis a → ∀ s ∈ srcs,
        IntegrableOn (fun r => dipoleGradient mu0 a a 1 q (pointAt r) s.2) s.1.body := by
      intro a ha s hs
      have := (dipole_gradient mu0 ha ha h1 s.2).integrableOn_outside (ho s hs) 1
      simpa only [one_mul] using this
    have := total_trace (S := Prism × V3)
      (fun q s => ∫ r in s.1.body, dipoleGradient mu0 P3.x P3.x 1 q (pointAt r) s.2)
      (fun q s => ∫ r in s.1.body, dipoleGradient mu0 P3.y P3.y 1 q (pointAt r) s.2)
      (fun q s => ∫ r in s.1.body, dipoleGradient mu0 P3.z P3.z 1 q (pointAt r) s.2) srcs q fun s hs => by
        rw [← integral_add (hI X s hs) (hI Y s hs)]
        refine (integral_add ((hI X s hs).add (hI Y s hs)) (hI Z s hs)).symm.trans ?_
        refine (setIntegral_congr_fun s.1.body_meas (g := fun _ => (0 : ℝ)) fun r hr =>
          (D (ne_of_outside (ho s hs) hr) s.2).2.2.2).trans (by simp)
    simp only [G, bodyMag]
    rw [← add_mul, ← add_mul]
    refine (congrArg (· * (10 : ℝ) ^ 9) this).trans (zero_mul _)

/-! ### C114 -/

theorem poisson_point (mu0 : ℝ) (q p v : P3) (ρ : ℝ) :
    let m : P3 := ⟨ρ * v.x, ρ * v.y, ρ * v.z⟩
    let k := mu0 / (4 * Real.pi * gravitationalConst)
    (dipoleKernels mu0).e q p m = k * v.x * newtonKernels.ee q p ρ + k * v.y * newtonKernels.en q p ρ +
      k * v.z * newtonKernels.eu q p ρ ∧
    (dipoleKernels mu0).n q p m = k * v.x * newtonKernels.en q p ρ + k * v.y * newtonKernels.nn q p ρ +
      k * v.z * newtonKernels.nu q p ρ ∧
    (dipoleKernels mu0).u q p m = k * v.x * newtonKernels.eu q p ρ + k * v.y * newtonKernels.nu q p ρ +
      k * v.z * newtonKernels.uu q p ρ := by
  have hG := gravConst_pos.ne'
  have hpi := Real.pi_pos.ne'
  have hk : mu0 / (4 * Real.pi * gravitationalConst) * gravitationalConst = mu0 / (4 * Real.pi) := by field_simp
  simp only [newtonKernels, dipoleKernels, ← hk]
  refine ⟨?_, ?_, ?_⟩ <;> ring

theorem poisson_sum {k k₁ k₂ k₃ : P3 → P3 → ℝ → ℝ} {a : ℕ} (h₁ : PointField k₁ a) (h₂ : PointField k₂ a)
    (h₃ : PointField k₃ a) (c₁ c₂ c₃ : ℝ)
    (hk : ∀ q p ρ, k q p ρ = c₁ * k₁ q p ρ + c₂ * k₂ q p ρ + c₃ * k₃ q p ρ)
    (srcs : List (Prism × ℝ)) (q : P3) (ho : ∀ s ∈ srcs, coords q ∉ s.1.body) :
    (srcs.map fun s => ∫ r in s.1.body, k q (pointAt r) s.2).sum =
      c₁ * (srcs.map fun s => ∫ r in s.1.body, k₁ q (pointAt r) s.2).sum +
      c₂ * (srcs.map fun s => ∫ r in s.1.body, k₂ q (pointAt r) s.2).sum +
      c₃ * (srcs.map fun s => ∫ r in s.1.body, k₃ q (pointAt r) s.2).sum := by
  induction srcs with
  | nil => simp
  | cons s srcs ih =>
    have ih := ih fun s hs => ho s (by simp [hs])
    have i₁ := (h₁.integrableOn_outside (ho s (by simp)) s.2).const_mul c₁
    have i₂ := (h₂.integrableOn_outside (ho s (by simp)) s.2).const_mul c₂
    have i₃ := (h₃.integrableOn_outside (ho s (by simp)) s.2).const_mul c₃
    have e : ∫ r in s.1.body, k q (pointAt r) s.2 = c₁ * (∫ r in s.1.body, k₁ q (pointAt r) s.2) +
        c₂ * (∫ r in s.1.body, k₂ q (pointAt r) s.2) + c₃ * ∫ r in s.1.body, k₃ q (pointAt r) s.2 := by
      rw [← integral_const_mul, ← integral_const_mul, ← integral_const_mul, ← integral_add i₁ i₂]
      refine Eq.trans ?_ (integral_add (i₁.add i₂) i₃)
      simp only [hk]
    simp only [List.map_cons, List.sum_cons]
    rw [ih, e]
    ring

/-- C114, Poisson's relation: when the magnetization of each prism is its density times one vector `v`, the field of
`prism_magnetic` (nT) at points outside the prisms is `μ₀ / (4 π G)` times the tensor that `prism_gravity` returns
(Eötvös) applied to `v`; the components `g_ez` and `g_nz`, with the z axis downwards, enter with a minus sign. -/
theorem C114_poisson (junk junk' : Junk) (mode mode' : Mode) {mu0 : ℝ} {K : MagKernels Prism} (hK : K.Magnetized mu0)
    {K' : PrismKernels} (hK' : K'.Newtonian) (shape : List ℕ) (obs : List P3) (hshape : shape.prod = obs.length)
    (srcs : List (Prism × ℝ)) (v : V3) (dis dis' : Bool) (hord : ∀ s ∈ srcs, s.1.Ordered)
    (hm : mode.Full obs.length (6 * srcs.length)) (hm' : mode'.Full obs.length (2 * srcs.length))
    (ho : ∀ q ∈ obs, ∀ s ∈ srcs, coords q ∉ s.1.body) :
    ∃ ee nn zz en ez nz : P3 → ℝ,
      (let call := fun field => (prismGravity junk' mode' K' (arrays shape obs) (srcs.map (·.1)) (srcs.map (·.2)) field
        dis').map (·.2)
      call "g_ee" = .ok ⟨shape, obs.map ee⟩ ∧ call "g_nn" = .ok ⟨shape, obs.map nn⟩ ∧
      call "g_zz" = .ok ⟨shape, obs.map zz⟩ ∧ call "g_en" = .ok ⟨shape, obs.map en⟩ ∧
      call "g_ez" = .ok ⟨shape, obs.map ez⟩ ∧ call "g_nz" = .ok ⟨shape, obs.map nz⟩) ∧
      prismMagnetic junk mode K (arrays shape obs) (srcs.map (·.1))
        [srcs.map (·.2 * v.x), srcs.map (·.2 * v.y), srcs.map (·.2 * v.z)] "b" dis =
        .ok (.vector
          ⟨shape, obs.map fun q => mu0 / (4 * Real.pi * gravitationalConst) * (ee q * v.x + en q * v.y - ez q * v.z)⟩
          ⟨shape, obs.map fun q => mu0 / (4 * Real.pi * gravitationalConst) * (en q * v.x + nn q * v.y - nz q * v.z)⟩
          ⟨shape, obs.map fun q =>
            mu0 / (4 * Real.pi * gravitationalConst) * (-ez q * v.x - nz q * v.y + zz q * v.z)⟩) := by
  have G := fun field hf => prismGravity_body junk' mode' hK' shape obs hshape srcs dis' hord hm' field hf
    fun q hq => Or.inr (ho q hq)
  refine ⟨bodyField srcs "g_ee", bodyField srcs "g_nn", bodyField srcs "g_zz", bodyField srcs "g_en",
    bodyField srcs "g_ez", bodyField srcs "g_nz",
    ⟨G _ (by decide), G _ (by decide), G _ (by decide), G _ (by decide), G _ (by decide), G _ (by decide)⟩, ?_⟩
  let srcs' : List (Prism × V3) := srcs.map fun s => (s.1, ⟨s.2 * v.x, s.2 * v.y, s.2 * v.z⟩)
  have M := (prismMagnetic_body junk mode hK shape obs hshape srcs' dis
    (by
      intro s hs
      obtain ⟨s0, hs0, rfl⟩ := List.mem_map.1 hs
      exact hord s0 hs0) (by simpa [srcs'] using hm)
    (by
      intro q hq s hs
      obtain ⟨s0, hs0, rfl⟩ := List.mem_map.1 hs
      exact ho q hq s0 hs0)).1
  have l1 : srcs'.map (·.1) = srcs.map (·.1) := by simp [srcs']
  have l2 : (srcs'.map (·.2)).map (·.x) = srcs.map (·.2 * v.x) := by simp [srcs']
  have l3 : (srcs'.map (·.2)).map (·.y) = srcs.map (·.2 * v.y) := by simp [srcs']
  have l4 : (srcs'.map (·.2)).map (·.z) = srcs.map (·.2 * v.z) := by simp [srcs']
  rw [l1, l2, l3, l4] at M
  refine M.trans ?_
  have b : ∀ k : P3 → P3 → V3 → ℝ, ∀ q, bodyMag k srcs' q =
      (srcs.map fun s => ∫ r in s.1.body, k q (pointAt r) ⟨s.2 * v.x, s.2 * v.y, s.2 * v.z⟩).sum * 10 ^ 9 := by
    intro k q
    simp only [bodyMag, srcs', List.map_map, Function.comp_def]
  congr 3
  · apply List.map_congr_left
    intro q hq
    rw [b, poisson_sum newton_ee newton_en newton_eu _ _ _ (fun q p ρ => (poisson_point mu0 q p v ρ).1) srcs q (ho q hq)]
    simp only [bodyField, pointFieldTable, reduceIte, String.reduceEq, or_false]
    ring
  · apply List.map_congr_left
    intro q hq
    rw [b, poisson_sum newton_en newton_nn newton_nu _ _ _ (fun q p ρ => (poisson_point mu0 q p v ρ).2.1) srcs q
      (ho q hq)]
    simp only [bodyField, pointFieldTable, reduceIte, String.reduceEq, or_false]
    ring
  · apply List.map_congr_left
    intro q hq
    rw [b, poisson_sum newton_eu newton_nu newton_uu _ _ _ (fun q p ρ => (poisson_point mu0 q p v ρ).2.2) srcs q
      (ho q hq)]
    simp only [bodyField, pointFieldTable, reduceIte, String.reduceEq, or_false]
    ring

/-! ### Examples -/

/-- Magnetic kernels with the documented values. -/
noncomputable def bodyMagKernels (mu0 : ℝ) : MagKernels Prism :=
  let e (q : P3) (p : Prism) (m : V3) : ℝ := ∫ r in p.body, (dipoleKernels mu0).e q (pointAt r) m
  let n (q : P3) (p : Prism) (m : V3) : ℝ := ∫ r in p.body, (dipoleKernels mu0).n q (pointAt r) m
  let u (q : P3) (p : Prism) (m : V3) : ℝ := ∫ r in p.body, (dipoleKernels mu0).u q (pointAt r) m
  ⟨fun q p m => (e q p m, n q p m, u q p m), e, n, u⟩

theorem bodyMagKernels_magnetized (mu0 : ℝ) : (bodyMagKernels mu0).Magnetized mu0 := by
  constructor <;> intros <;> rfl

theorem above_cube : coords ⟨0, 0, 9⟩ ∉ Prism.body ⟨-1, 1, -1, 1, -1, 1⟩ := by
  simp [Prism.body, coords]

/-- two prisms: the fields of `prism_gravity` agree at a point over them -/
example : ∃ F : String → P3 → ℝ,
    (prismGravity (fun _ _ => 0) .serial bodyKernels (arrays [1] [⟨0, 0, 9⟩])
      [⟨-1, 1, -1, 1, -1, 1⟩, ⟨-1, 1, -1, 1, -1, 1⟩] [2, -3] "g_zz" false).map (·.2) =
        .ok ⟨[1], [F "g_zz" ⟨0, 0, 9⟩]⟩ ∧
    PrismConsistent F ⟨0, 0, 9⟩ := by
  obtain ⟨F, h, hc⟩ := C113_gravity (fun _ _ => 0) bodyKernels_newtonian
    [(⟨-1, 1, -1, 1, -1, 1⟩, 2), (⟨-1, 1, -1, 1, -1, 1⟩, -3)] (by simp [Prism.Ordered])
  have ho : ∀ s ∈ [((⟨-1, 1, -1, 1, -1, 1⟩ : Prism), (2 : ℝ)), (⟨-1, 1, -1, 1, -1, 1⟩, -3)],
      coords ⟨0, 0, 9⟩ ∉ s.1.body := by
    intro s hs
    simp only [List.mem_cons, List.not_mem_nil, or_false] at hs
    rcases hs with rfl | rfl <;> exact above_cube
  refine ⟨F, h "g_zz" (by decide) .serial [1] [⟨0, 0, 9⟩] false (by simp) trivial ?_, hc _ ho⟩
  intro q hq
  simp only [List.mem_singleton] at hq
  subst hq
  exact Or.inr ho

/-- a magnetized cube -/
example : ∃ B_e B_n B_u : P3 → ℝ,
    prismMagnetic (fun _ _ => 0) .serial (bodyMagKernels (4 * Real.pi * 1e-7)) (arrays [1] [⟨0, 0, 9⟩])
      [⟨-1, 1, -1, 1, -1, 1⟩] [[1], [0], [5]] "b" false =
        .ok (.vector ⟨[1], [B_e ⟨0, 0, 9⟩]⟩ ⟨[1], [B_n ⟨0, 0, 9⟩]⟩ ⟨[1], [B_u ⟨0, 0, 9⟩]⟩) ∧
    MagneticConsistent B_e B_n B_u ⟨0, 0, 9⟩ := by
  obtain ⟨B_e, B_n, B_u, h, hc⟩ := C113_magnetic (fun _ _ => 0) (bodyMagKernels_magnetized (4 * Real.pi * 1e-7))
    [(⟨-1, 1, -1, 1, -1, 1⟩, ⟨1, 0, 5⟩)] (by simp [Prism.Ordered])
  refine ⟨B_e, B_n, B_u, (h .serial [1] [⟨0, 0, 9⟩] false (by simp) trivial ?_).1, hc _ ?_⟩
  · intro q hq s hs
    simp only [List.mem_singleton] at hq hs
    subst hq hs
    exact above_cube
  · intro s hs
    simp only [List.mem_singleton] at hs
    subst hs
    exact above_cube

/-- a cube of density 2 and magnetization (0, 0, 6): three times the vertical gradient of its gravity -/
example : ∃ zz : ℝ,
    (prismGravity (fun _ _ => 0) .serial bodyKernels (arrays [1] [⟨0, 0, 9⟩]) [⟨-1, 1, -1, 1, -1, 1⟩] [2] "g_zz"
      false).map (·.2) = .ok ⟨[1], [zz]⟩ ∧
    ∃ be bn, prismMagnetic (fun _ _ => 0) .serial (bodyMagKernels 1) (arrays [1] [⟨0, 0, 9⟩]) [⟨-1, 1, -1, 1, -1, 1⟩]
      [[0], [0], [6]] "b" false = .ok (.vector be bn ⟨[1], [1 / (4 * Real.pi * gravitationalConst) * (zz * 3)]⟩) := by
  obtain ⟨ee, nn, zz, en, ez, nz, ⟨-, -, h, -⟩, hB⟩ := C114_poisson (fun _ _ => 0) (fun _ _ => 0) .serial .serial
    (bodyMagKernels_magnetized 1) bodyKernels_newtonian [1] [⟨0, 0, 9⟩] (by simp) [(⟨-1, 1, -1, 1, -1, 1⟩, 2)] ⟨0, 0, 3⟩
    false false (by simp [Prism.Ordered]) trivial trivial (by
      intro q hq s hs
      simp only [List.mem_singleton] at hq hs
      subst hq hs
      exact above_cube)
  have e : (2 : ℝ) * 3 = 6 := by norm_num
  simp only [List.map_cons, List.map_nil, mul_zero, e, sub_zero, zero_add] at hB
  exact ⟨zz ⟨0, 0, 9⟩, h, _, _, hB⟩

end Verif.Forward
