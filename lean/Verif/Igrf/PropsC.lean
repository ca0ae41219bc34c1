import Verif.Igrf.PropsB

/-!
C97: the field that is computed has neither divergence nor curl.
-/

namespace Verif.Igrf

open Verif.Legendre Verif.Engine Real

noncomputable section

/-! ### specification -/

/-- Divergence and curl in spherical coordinates (longitude, colatitude, radius) of the vector with the given
east, north and radial components, at a point outside the axis: all the derivatives exist, the divergence
(multiplied by the radius) is zero and so are the three components of the curl (multiplied by r sin θ, r sin θ
and r). North is opposite to the direction in which the colatitude grows. -/
def NoDivergenceNorCurl (B : ℝ → ℝ → ℝ → V3) (lon θ r : ℝ) : Prop :=
  ∃ east_lon sin_east_θ r_east_r north_lon north_θ sin_north_θ r_north_r up_lon up_θ r2_up_r,
    HasDerivAt (fun l => (B l θ r).1) east_lon lon ∧
    HasDerivAt (fun t => sin t * (B lon t r).1) sin_east_θ θ ∧
    HasDerivAt (fun s => s * (B lon θ s).1) r_east_r r ∧
    HasDerivAt (fun l => (B l θ r).2.1) north_lon lon ∧
    HasDerivAt (fun t => (B lon t r).2.1) north_θ θ ∧
    HasDerivAt (fun t => sin t * (B lon t r).2.1) sin_north_θ θ ∧
    HasDerivAt (fun s => s * (B lon θ s).2.1) r_north_r r ∧
    HasDerivAt (fun l => (B l θ r).2.2) up_lon lon ∧
    HasDerivAt (fun t => (B lon t r).2.2) up_θ θ ∧
    HasDerivAt (fun s => s ^ 2 * (B lon θ s).2.2) r2_up_r r ∧
    r2_up_r / r - sin_north_θ / sin θ + east_lon / sin θ = 0 ∧
    sin_east_θ + north_lon = 0 ∧
    up_lon - sin θ * r_east_r = 0 ∧
    r_north_r + up_θ = 0

/-! ### Legendre's equation -/

theorem hv_derivative (n m : ℕ) {t : ℝ} (hs : sin t ≠ 0) : HasDerivAt (hv n m)
    ((m * cos t * hv n m t - sin t * hv n (m + 1) t) / sin t) t := by
  have h1 := (ev_deriv n m (cos t)).comp t (hasDerivAt_cos t)
  have h3 := ((hasDerivAt_sin t).pow m).mul h1
  have e : hv n m = (sin ^ m) * (ev n m ∘ cos) := by funext s; simp [hv]
  rw [e]
  refine h3.congr_deriv ?_
  simp only [Function.comp, Pi.pow_apply, Pi.mul_apply, hv]
  cases m with
  | zero => field_simp; simp; ring
  | succ m =>
    rw [eq_div_iff hs]
    push_cast
    ring_nf

theorem hv_legendre (n m : ℕ) {t : ℝ} (hs : sin t ≠ 0) :
    HasDerivAt (fun t => m * cos t * hv n m t - sin t * hv n (m + 1) t)
      ((m ^ 2 / sin t - n * (n + 1) * sin t) * hv n m t) t := by
  have h := (((hasDerivAt_cos t).const_mul (m : ℝ)).mul (hv_derivative n m hs)).sub
    ((hasDerivAt_sin t).mul (hv_derivative n (m + 1) hs))
  refine h.congr_deriv ?_
  have ho := ev_ode n m (cos t)
  have hp := sin_sq_add_cos_sq t
  have hc : cos t ^ 2 - 1 = -sin t ^ 2 := by linarith
  have hc' : cos t ^ 2 = 1 - sin t ^ 2 := by linarith
  rw [hc] at ho
  simp only [hv]
  field_simp
  push_cast
  have e : sin t ^ (m + 1) = sin t ^ m * sin t := pow_succ _ _
  have e2 : sin t ^ (m + 2) = sin t ^ m * sin t ^ 2 := by ring
  simp only [e, e2, show m + 1 + 1 = m + 2 from rfl]
  linear_combination (-(sin t ^ m * sin t ^ 2)) * ho + (m ^ 2 * sin t ^ m * ev n m (cos t)) * hp

theorem schmidtP_hv (n m : ℕ) {t : ℝ} (ht : t ∈ Set.Icc 0 π) : schmidtP n m t = schmidt n m * hv n m t := by
  unfold schmidtP
  rw [legendreNM_cos n m t ht]

theorem nhds_Ioo {θ : ℝ} (hθ : θ ∈ Set.Ioo 0 π) : ∀ᶠ t in nhds θ, t ∈ Set.Ioo 0 π :=
  isOpen_Ioo.mem_nhds hθ

theorem schmidtP_deriv_hv (n m : ℕ) {t : ℝ} (ht : t ∈ Set.Ioo 0 π) : HasDerivAt (schmidtP n m)
    (schmidt n m * ((m * cos t * hv n m t - sin t * hv n (m + 1) t) / sin t)) t := by
  have hs : sin t ≠ 0 := (sin_pos_of_mem_Ioo ht).ne'
  refine ((hv_derivative n m hs).const_mul (schmidt n m)).congr_of_eventuallyEq ?_
  filter_upwards [nhds_Ioo ht] with u hu
  exact schmidtP_hv n m ⟨hu.1.le, hu.2.le⟩

theorem schmidtDeriv_hv (n m : ℕ) {t : ℝ} (ht : t ∈ Set.Ioo 0 π) : schmidtDeriv n m t =
    schmidt n m * ((m * cos t * hv n m t - sin t * hv n (m + 1) t) / sin t) :=
  (schmidtP_deriv_hv n m ht).hasDerivWithinAt.derivWithin
    ((uniqueDiffOn_Icc Real.pi_pos) t ⟨ht.1.le, ht.2.le⟩)

theorem schmidtP_deriv (n m : ℕ) {t : ℝ} (ht : t ∈ Set.Ioo 0 π) :
    HasDerivAt (schmidtP n m) (schmidtDeriv n m t) t := by
  rw [schmidtDeriv_hv n m ht]
  exact schmidtP_deriv_hv n m ht

/-- Legendre's equation: the derivative of sin θ times the derivative. -/
theorem legendre_equation (n m : ℕ) {t : ℝ} (ht : t ∈ Set.Ioo 0 π) :
    HasDerivAt (fun t => sin t * schmidtDeriv n m t)
      ((m ^ 2 / sin t - n * (n + 1) * sin t) * schmidtP n m t) t := by
  have hs : sin t ≠ 0 := (sin_pos_of_mem_Ioo ht).ne'
  rw [schmidtP_hv n m ⟨ht.1.le, ht.2.le⟩]
  refine (((hv_legendre n m hs).const_mul (schmidt n m)).congr_of_eventuallyEq ?_).congr_deriv (by ring)
  filter_upwards [nhds_Ioo ht] with u hu
  have hu' : sin u ≠ 0 := (sin_pos_of_mem_Ioo hu).ne'
  rw [schmidtDeriv_hv n m hu]
  field_simp

theorem schmidtDeriv_deriv (n m : ℕ) {t : ℝ} (ht : t ∈ Set.Ioo 0 π) :
    ∃ d, HasDerivAt (schmidtDeriv n m) d t := by
  have hs : sin t ≠ 0 := (sin_pos_of_mem_Ioo ht).ne'
  refine ⟨_, ((legendre_equation n m ht).div (hasDerivAt_sin t) hs).congr_of_eventuallyEq ?_⟩
  filter_upwards [nhds_Ioo ht] with u hu
  have hu' : sin u ≠ 0 := (sin_pos_of_mem_Ioo hu).ne'
  simp only [Pi.div_apply]
  field_simp

/-! ### derivatives of the sums -/

theorem degreeSum_deriv {a b : ℕ} {f : ℝ → ℕ → ℕ → ℝ} {f' : ℕ → ℕ → ℝ} {x : ℝ}
    (h : ∀ n m, HasDerivAt (fun t => f t n m) (f' n m) x) :
    HasDerivAt (fun t => degreeSum a b (f t)) (degreeSum a b f') x := by
  unfold degreeSum
  exact HasDerivAt.fun_sum fun n _ => HasDerivAt.fun_sum fun m _ => h n m

theorem degreeSum_add (a b : ℕ) (f f' : ℕ → ℕ → ℝ) :
    degreeSum a b f + degreeSum a b f' = degreeSum a b fun n m => f n m + f' n m := by
  unfold degreeSum
  simp only [Finset.sum_add_distrib]

theorem degreeSum_eq_zero {a b : ℕ} {f : ℕ → ℕ → ℝ} (h : ∀ n m, f n m = 0) : degreeSum a b f = 0 := by
  unfold degreeSum
  simp [h]

/-- The terms of the sums: dependence on the longitude. -/
def azim (g h : Arr) (n m : ℕ) (l : ℝ) : ℝ := g n m * cos (m * l) + h n m * sin (m * l)

def azim' (g h : Arr) (n m : ℕ) (l : ℝ) : ℝ := -(m : ℝ) * g n m * sin (m * l) + m * h n m * cos (m * l)

theorem azim_deriv (g h : Arr) (n m : ℕ) (l : ℝ) : HasDerivAt (azim g h n m) (azim' g h n m l) l := by
  have hl : HasDerivAt (fun l : ℝ => (m : ℝ) * l) (m * 1) l := (hasDerivAt_id l).const_mul _
  refine ((hl.cos.const_mul (g n m)).add (hl.sin.const_mul (h n m))).congr_deriv ?_
  unfold azim'
  ring

theorem azim'_deriv (g h : Arr) (n m : ℕ) (l : ℝ) :
    HasDerivAt (azim' g h n m) (-(m : ℝ) ^ 2 * azim g h n m l) l := by
  have hl : HasDerivAt (fun l : ℝ => (m : ℝ) * l) (m * 1) l := (hasDerivAt_id l).const_mul _
  refine ((hl.sin.const_mul (-(m : ℝ) * g n m)).add (hl.cos.const_mul (m * h n m))).congr_deriv ?_
  unfold azim
  ring

/-- Dependence on the radius, multiplied by powers of it. -/
theorem radial_deriv (R : ℝ) (n : ℕ) {r : ℝ} (hr : r ≠ 0) :
    HasDerivAt (fun s => s * (R / s) ^ (n + 2)) (-((n : ℝ) + 1) * (R / r) ^ (n + 2)) r ∧
    HasDerivAt (fun s => s ^ 2 * (R / s) ^ (n + 2)) (-(n : ℝ) * r * (R / r) ^ (n + 2)) r := by
  have hq : HasDerivAt (fun s : ℝ => R / s) (R * -(r ^ 2)⁻¹) r := by
    simp only [div_eq_mul_inv]
    exact (hasDerivAt_inv hr).const_mul R
  have hp := hq.fun_pow (n + 2)
  have e : n + 2 - 1 = n + 1 := rfl
  have e2 : (R / r) ^ (n + 2) = (R / r) ^ (n + 1) * (R / r) := pow_succ _ _
  constructor
  · refine ((hasDerivAt_id r).mul hp).congr_deriv ?_
    simp only [id, e, e2]
    push_cast
    field_simp
    ring
  · refine ((hasDerivAt_pow 2 r).mul hp).congr_deriv ?_
    simp only [e, e2]
    push_cast
    field_simp
    ring

theorem field_maxwell (R : ℝ) (g h : Arr) (a b : ℕ) (lon : ℝ) {θ r : ℝ} (hθ : θ ∈ Set.Ioo 0 π)
    (hs : 1e-10 < sin θ) (hr : r ≠ 0) :
    NoDivergenceNorCurl (fun l t s => field g h a b (l, t, R / s)) lon θ r := by
  have h0 : sin θ ≠ 0 := by positivity
  have hnear : ∀ᶠ t in nhds θ, 1e-10 < sin t := (continuous_sin.tendsto θ).eventually (lt_mem_nhds hs)
  have hneg : ∀ t, (1e-10 : ℝ) < sin t → ¬ |sin t| < 1e-10 := by
    intro t ht
    rw [not_lt]
    exact ht.le.trans (le_abs_self _)
  have hθ' := hneg θ hs
  choose dd hdd using fun n m => schmidtDeriv_deriv n m hθ
  refine ⟨-(1 / sin θ) * degreeSum a b fun n m =>
      (R / r) ^ (n + 2) * (-(m : ℝ) ^ 2 * azim g h n m lon) * schmidtP n m θ,
    -degreeSum a b fun n m => (R / r) ^ (n + 2) * azim' g h n m lon * schmidtDeriv n m θ,
    -(1 / sin θ) * degreeSum a b fun n m =>
      (-((n : ℝ) + 1) * (R / r) ^ (n + 2)) * azim' g h n m lon * schmidtP n m θ,
    degreeSum a b fun n m => (R / r) ^ (n + 2) * azim' g h n m lon * schmidtDeriv n m θ,
    degreeSum a b fun n m => (R / r) ^ (n + 2) * azim g h n m lon * dd n m,
    degreeSum a b fun n m => (R / r) ^ (n + 2) * azim g h n m lon *
      ((m ^ 2 / sin θ - n * (n + 1) * sin θ) * schmidtP n m θ),
    degreeSum a b fun n m => (-((n : ℝ) + 1) * (R / r) ^ (n + 2)) * azim g h n m lon * schmidtDeriv n m θ,
    degreeSum a b fun n m => ((n : ℝ) + 1) * (R / r) ^ (n + 2) * azim' g h n m lon * schmidtP n m θ,
    degreeSum a b fun n m => ((n : ℝ) + 1) * (R / r) ^ (n + 2) * azim g h n m lon * schmidtDeriv n m θ,
    degreeSum a b fun n m => ((n : ℝ) + 1) * (-(n : ℝ) * r * (R / r) ^ (n + 2)) * azim g h n m lon *
      schmidtP n m θ, ?_, ?_, ?_, ?_, ?_, ?_, ?_, ?_, ?_, ?_, ?_, ?_, ?_, ?_⟩
  · simp only [field, if_neg hθ', bEast]
    exact (degreeSum_deriv fun n m => ((azim'_deriv g h n m lon).const_mul _).mul_const _).const_mul _
  · have h1 : HasDerivAt (fun t => -degreeSum a b fun n m =>
        (R / r) ^ (n + 2) * azim' g h n m lon * schmidtP n m t) _ θ :=
      (degreeSum_deriv fun n m => (schmidtP_deriv n m hθ).const_mul ((R / r) ^ (n + 2) * azim' g h n m lon)).neg
    refine h1.congr_of_eventuallyEq ?_
    filter_upwards [hnear] with t ht
    have ht0 : sin t ≠ 0 := by positivity
    simp only [field, if_neg (hneg t ht), bEast, azim']
    rw [← mul_assoc, mul_neg, mul_one_div_cancel ht0, neg_one_mul]
  · simp only [field, if_neg hθ', bEast]
    have h1 : HasDerivAt (fun s => -(1 / sin θ) * degreeSum a b fun n m =>
        (s * (R / s) ^ (n + 2)) * azim' g h n m lon * schmidtP n m θ) _ r :=
      (degreeSum_deriv fun n m => ((radial_deriv R n hr).1.mul_const (azim' g h n m lon)).mul_const
        (schmidtP n m θ)).const_mul (-(1 / sin θ))
    refine h1.congr_of_eventuallyEq (Filter.Eventually.of_forall fun s => ?_)
    dsimp only
    rw [mul_left_comm, mul_degreeSum]
    congr 1
    refine degreeSum_congr fun n m _ _ _ => ?_
    simp only [azim']
    ring
  · simp only [field, bNorth]
    exact degreeSum_deriv fun n m => ((azim_deriv g h n m lon).const_mul _).mul_const _
  · simp only [field, bNorth]
    exact degreeSum_deriv fun n m => (hdd n m).const_mul _
  · simp only [field, bNorth]
    have h1 : HasDerivAt (fun t => degreeSum a b fun n m =>
        (R / r) ^ (n + 2) * azim g h n m lon * (sin t * schmidtDeriv n m t)) _ θ :=
      degreeSum_deriv fun n m => (legendre_equation n m hθ).const_mul ((R / r) ^ (n + 2) * azim g h n m lon)
    refine h1.congr_of_eventuallyEq (Filter.Eventually.of_forall fun t => ?_)
    dsimp only
    rw [mul_degreeSum]
    refine degreeSum_congr fun n m _ _ _ => ?_
    simp only [azim]
    ring
  · simp only [field, bNorth]
    have h1 : HasDerivAt (fun s => degreeSum a b fun n m =>
        (s * (R / s) ^ (n + 2)) * azim g h n m lon * schmidtDeriv n m θ) _ r :=
      degreeSum_deriv fun n m => ((radial_deriv R n hr).1.mul_const (azim g h n m lon)).mul_const
        (schmidtDeriv n m θ)
    refine h1.congr_of_eventuallyEq (Filter.Eventually.of_forall fun s => ?_)
    dsimp only
    rw [mul_degreeSum]
    refine degreeSum_congr fun n m _ _ _ => ?_
    simp only [azim]
    ring
  · simp only [field, bRadial]
    exact degreeSum_deriv fun n m => ((azim_deriv g h n m lon).const_mul _).mul_const _
  · simp only [field, bRadial]
    exact degreeSum_deriv fun n m => (schmidtP_deriv n m hθ).const_mul _
  · simp only [field, bRadial]
    have h1 : HasDerivAt (fun s => degreeSum a b fun n m =>
        ((n : ℝ) + 1) * (s ^ 2 * (R / s) ^ (n + 2)) * azim g h n m lon * schmidtP n m θ) _ r :=
      degreeSum_deriv fun n m => (((radial_deriv R n hr).2.const_mul ((n : ℝ) + 1)).mul_const
        (azim g h n m lon)).mul_const (schmidtP n m θ)
    refine h1.congr_of_eventuallyEq (Filter.Eventually.of_forall fun s => ?_)
    dsimp only
    rw [mul_degreeSum]
    refine degreeSum_congr fun n m _ _ _ => ?_
    simp only [azim]
    ring
  · have key : ∀ A C D : ℝ, A / r - C / sin θ + -(1 / sin θ) * D / sin θ =
        1 / r * A + -(1 / sin θ) * C + -(1 / sin θ ^ 2) * D := by
      intro A C D
      field_simp
      ring
    rw [key, mul_degreeSum, mul_degreeSum, mul_degreeSum, degreeSum_add, degreeSum_add]
    refine degreeSum_eq_zero fun n m => ?_
    field_simp
    ring
  · ring
  · rw [sub_eq_add_neg, ← neg_mul, ← mul_assoc, mul_degreeSum, degreeSum_add]
    refine degreeSum_eq_zero fun n m => ?_
    field_simp
    ring
  · rw [degreeSum_add]
    refine degreeSum_eq_zero fun n m => ?_
    ring

/-! ### C97 -/

/-- C97. Let B be the field that is computed at each point (in any mode of execution), as a function of
longitude, colatitude and radius. Its derivatives exist, and its divergence and its curl are zero, wherever
the sine of the colatitude is over 1e-10. -/
theorem C97_no_divergence_nor_curl (R : ℝ) (g h : Arr) (min_degree max_degree : ℕ) (hN : 1 ≤ max_degree)
    (B : ℝ → ℝ → ℝ → V3)
    (hB : ∀ lon θ r, θ ∈ Set.Icc 0 π → ∃ mode junk, mode.Full 1 (accesses max_degree) ∧
      magneticField mode junk [(lon, θ, R / r)] g h min_degree max_degree = .ok [B lon θ r])
    (lon θ r : ℝ) (hθ : θ ∈ Set.Icc 0 π) (hs : 1e-10 < sin θ) (hr : r ≠ 0) :
    NoDivergenceNorCurl B lon θ r := by
  have e : ∀ lon θ r, θ ∈ Set.Icc 0 π → B lon θ r = field g h min_degree max_degree (lon, θ, R / r) := by
    intro lon θ r hθ
    obtain ⟨mode, junk, hm, hb⟩ := hB lon θ r hθ
    rw [C57_synthesis mode junk _ g h min_degree max_degree hN (by simpa using hm) (by simpa using hθ)] at hb
    simpa using hb.symm
  have hI : θ ∈ Set.Ioo 0 π := by
    refine ⟨lt_of_le_of_ne hθ.1 ?_, lt_of_le_of_ne hθ.2 ?_⟩
    · rintro rfl
      rw [sin_zero] at hs
      norm_num at hs
    · rintro rfl
      rw [sin_pi] at hs
      norm_num at hs
  obtain ⟨d1, d2, d3, d4, d5, d6, d7, d8, d9, d10, h1, h2, h3, h4, h5, h6, h7, h8, h9, h10, hd⟩ :=
    field_maxwell R g h min_degree max_degree lon hI hs hr
  have near : ∀ {f f' : ℝ → ℝ} {d : ℝ}, HasDerivAt f d θ → (∀ t ∈ Set.Icc 0 π, f' t = f t) → HasDerivAt f' d θ := by
    intro f f' d hf hff
    refine hf.congr_of_eventuallyEq ?_
    filter_upwards [nhds_Ioo hI] with u hu
    exact hff u ⟨hu.1.le, hu.2.le⟩
  refine ⟨d1, d2, d3, d4, d5, d6, d7, d8, d9, d10, ?_, ?_, ?_, ?_, ?_, ?_, ?_, ?_, ?_, ?_, hd⟩
  · simpa only [e _ θ _ hθ] using h1
  · exact near h2 fun t ht => by rw [e _ t _ ht]
  · simpa only [e _ θ _ hθ] using h3
  · simpa only [e _ θ _ hθ] using h4
  · exact near h5 fun t ht => by rw [e _ t _ ht]
  · exact near h6 fun t ht => by rw [e _ t _ ht]
  · simpa only [e _ θ _ hθ] using h7
  · simpa only [e _ θ _ hθ] using h8
  · exact near h9 fun t ht => by rw [e _ t _ ht]
  · simpa only [e _ θ _ hθ] using h10

/-- Such a B exists: for every set of coefficients there is one and only one in [0, π]. -/
example (R : ℝ) (g h : Arr) : ∃ B : ℝ → ℝ → ℝ → V3, ∀ lon θ r, θ ∈ Set.Icc 0 π →
    ∃ mode junk, mode.Full 1 (accesses 13) ∧ magneticField mode junk [(lon, θ, R / r)] g h 1 13 =
      .ok [B lon θ r] :=
  ⟨fun lon θ r => field g h 1 13 (lon, θ, R / r), fun lon θ r hθ =>
    ⟨.serial, ⟨fun _ _ _ => 0, fun _ _ _ => 0, fun _ _ => 0, fun _ _ => 0⟩, trivial, by
      exact C57_synthesis .serial _ [(lon, θ, R / r)] g h 1 13 (by norm_num) trivial (by simpa using hθ)⟩⟩

end

end Verif.Igrf
