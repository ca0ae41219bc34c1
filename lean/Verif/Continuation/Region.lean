import Verif.Forward.Upward

/-! The maximum principle for closed regions without sources, for C166. -/

namespace Verif.Continuation
open Filter Topology
open Verif.Forward Verif.Distance

theorem norm_sq_e3 (x y z : ℝ) : ‖(!₂[x, y, z] : E3)‖ ^ 2 = x ^ 2 + y ^ 2 + z ^ 2 := by
  rw [EuclideanSpace.real_norm_sq_eq, Fin.sum_univ_three]
  rfl

/-- A function that is continuous on a closed region, harmonic inside and small far away is largest on the frontier,
if it is somewhere positive. -/
theorem region_le {U : Set E3} (hU : IsClosed U) {f : ℝ → ℝ → ℝ → ℝ}
    (fc : ContinuousOn (fun p : E3 => f (p 0) (p 1) (p 2)) U)
    (fl : ∀ p ∈ interior U, LaplaceAt f (p 0) (p 1) (p 2))
    (fd : ∀ ε > 0, ∃ R, ∀ p ∈ U, R ≤ ‖p‖ → |f (p 0) (p 1) (p 2)| ≤ ε)
    {M : ℝ} (h0 : 0 ≤ M) (hM : ∀ p ∈ frontier U, f (p 0) (p 1) (p 2) ≤ M) (q : E3) (hq : q ∈ U) :
    f (q 0) (q 1) (q 2) ≤ M := by
  by_contra hc
  push Not at hc
  set F : E3 → ℝ := fun p => f (p 0) (p 1) (p 2) with hF
  have hc : M < F q := hc
  obtain ⟨R, hR⟩ := fd ((M + F q) / 2) (by linarith)
  have far : ∀ p ∈ U, R ≤ ‖p‖ → F p ≤ (M + F q) / 2 := fun p h1 h2 => (le_abs_self _).trans (hR p h1 h2)
  have hqR : ‖q‖ < R := by
    by_contra hn
    have := far q hq (not_lt.1 hn)
    linarith
  have hR0 : 0 < R := (norm_nonneg _).trans_lt hqR
  set η := (F q - M) / 2 / (R ^ 2 + 1) with hη
  have hη0 : 0 < η := by
    rw [hη]
    have : 0 < F q - M := by linarith
    positivity
  have hη1 : η * R ^ 2 < (F q - M) / 2 := by
    have : η * (R ^ 2 + 1) = (F q - M) / 2 := by
      rw [hη]
      field_simp
    linarith
  set g : E3 → ℝ := fun p => F p + η * ‖p‖ ^ 2 with hg
  have gc : ContinuousOn g (U ∩ Metric.closedBall 0 R) := by
    refine ContinuousOn.add (fc.mono Set.inter_subset_left) ?_
    fun_prop
  have hK : IsCompact (U ∩ Metric.closedBall (0 : E3) R) := (isCompact_closedBall 0 R).inter_left hU
  have hqK : q ∈ U ∩ Metric.closedBall (0 : E3) R := ⟨hq, by simpa using hqR.le⟩
  obtain ⟨p, hp, hmax⟩ := hK.exists_isMaxOn ⟨q, hqK⟩ gc
  have hpR : ‖p‖ ≤ R := by simpa using hp.2
  have hlt : (M + F q) / 2 < F p := by
    have h1 : g q ≤ g p := hmax hqK
    have h2 : 0 ≤ η * ‖q‖ ^ 2 := by positivity
    have h3 : η * ‖p‖ ^ 2 ≤ η * R ^ 2 := by gcongr
    simp only [hg] at h1
    linarith
  have s1 : ‖p‖ < R := by
    by_contra hn
    have := far p hp.1 (not_lt.1 hn)
    linarith
  have s2 : p ∈ interior U := by
    by_contra hn
    have : F p ≤ M := hM p ⟨subset_closure hp.1, hn⟩
    linarith
  have near : ∀ᶠ x in 𝓝 p, g x ≤ g p := by
    filter_upwards [isOpen_interior.mem_nhds s2, (isOpen_lt continuous_norm continuous_const).mem_nhds s1] with x h1 h2
    exact hmax ⟨interior_subset h1, by simpa using le_of_lt h2⟩
  have ge : ∀ x y z, g !₂[x, y, z] = f x y z + η * (x ^ 2 + y ^ 2 + z ^ 2) := fun x y z => by
    simp only [hg, norm_sq_e3]
    rfl
  have ep : (!₂[p 0, p 1, p 2] : E3) = p := (e3_eta p).symm
  have sqd : ∀ b t : ℝ, HasDerivAt (fun t => η * (t ^ 2 + b)) (η * (2 * t)) t := by
    intro b t
    have := (((hasDerivAt_id t).fun_pow 2).add_const b).const_mul η
    simpa using this
  have sqd2 : ∀ t : ℝ, HasDerivAt (fun t => η * (2 * t)) (η * 2) t := by
    intro t
    have := ((hasDerivAt_id t).const_mul 2).const_mul η
    simpa using this
  obtain ⟨Vx, Vy, Vz, Vxx, Vyy, Vzz, h1, h2, h3, h4, h5, h6, h7⟩ := fl p s2
  have k1 := second_nonpos (f := fun t => g !₂[t, p 1, p 2]) (f' := fun t => Vx t + η * (2 * t))
    (h1.mono fun t ht => by
      refine (ht.fun_add (sqd (p 1 ^ 2 + p 2 ^ 2) t)).congr_of_eventuallyEq (.of_forall fun u => ?_)
      simp only [ge]
      ring) (h2.fun_add (sqd2 (p 0))) (by
      have hc : Continuous fun t : ℝ => (!₂[t, p 1, p 2] : E3) := by fun_prop
      have := (hc.tendsto (p 0)).eventually (by rw [ep]; exact near)
      filter_upwards [this] with t ht
      simpa only [ep] using ht)
  have k2 := second_nonpos (f := fun t => g !₂[p 0, t, p 2]) (f' := fun t => Vy t + η * (2 * t))
    (h3.mono fun t ht => by
      refine (ht.fun_add (sqd (p 0 ^ 2 + p 2 ^ 2) t)).congr_of_eventuallyEq (.of_forall fun u => ?_)
      simp only [ge]
      ring) (h4.fun_add (sqd2 (p 1))) (by
      have hc : Continuous fun t : ℝ => (!₂[p 0, t, p 2] : E3) := by fun_prop
      have := (hc.tendsto (p 1)).eventually (by rw [ep]; exact near)
      filter_upwards [this] with t ht
      simpa only [ep] using ht)
  have k3 := second_nonpos (f := fun t => g !₂[p 0, p 1, t]) (f' := fun t => Vz t + η * (2 * t))
    (h5.mono fun t ht => by
      refine (ht.fun_add (sqd (p 0 ^ 2 + p 1 ^ 2) t)).congr_of_eventuallyEq (.of_forall fun u => ?_)
      simp only [ge]
      ring) (h6.fun_add (sqd2 (p 2))) (by
      have hc : Continuous fun t : ℝ => (!₂[p 0, p 1, t] : E3) := by fun_prop
      have := (hc.tendsto (p 2)).eventually (by rw [ep]; exact near)
      filter_upwards [this] with t ht
      simpa only [ep] using ht)
  linarith

theorem inverseSum_continuousOn (srcs : List (E3 × ℝ)) {U : Set E3} (h : ∀ s ∈ srcs, s.1 ∉ U) :
    ContinuousOn (fun p : E3 => inverseSum srcs (p 0) (p 1) (p 2)) U := by
  simp only [inverseSum, ← e3_eta]
  induction srcs with
  | nil => simpa using continuousOn_const
  | cons s srcs ih =>
    simp only [List.map_cons, List.sum_cons]
    refine ContinuousOn.add (ContinuousOn.div continuousOn_const (by fun_prop) fun p hp => ?_)
      (ih fun s hs => h s (List.mem_cons_of_mem _ hs))
    intro h0
    exact h s (by simp) (by rw [← dist_eq_zero.1 h0]; exact hp)

theorem inverseSum_decay (srcs : List (E3 × ℝ)) (ε : ℝ) (hε : 0 < ε) :
    ∃ R, ∀ p : E3, R ≤ ‖p‖ → |inverseSum srcs (p 0) (p 1) (p 2)| ≤ ε := by
  set S := (srcs.map fun s => |s.2|).sum with hS
  have hS0 : 0 ≤ S := List.sum_nonneg fun x hx => by
    obtain ⟨s, -, rfl⟩ := List.mem_map.1 hx
    exact abs_nonneg _
  have hB : ∃ B, ∀ s ∈ srcs, ‖s.1‖ ≤ B := by
    clear hS0 hS S
    induction srcs with
    | nil => exact ⟨0, by simp⟩
    | cons s srcs ih =>
      obtain ⟨B, hB⟩ := ih
      refine ⟨max ‖s.1‖ B, fun s' hs' => ?_⟩
      rcases List.mem_cons.1 hs' with rfl | h
      · exact le_max_left _ _
      · exact (hB s' h).trans (le_max_right _ _)
  obtain ⟨B, hB⟩ := hB
  have hR : 0 < S / ε + 1 := by positivity
  refine ⟨(S / ε + 1) + B, fun p hp => ?_⟩
  refine (inverseSum_bound srcs _ _ _ (S / ε + 1) hR fun s hs => ?_).trans ?_
  · rw [← e3_eta, dist_eq_norm]
    have := norm_sub_norm_le p s.1
    have := hB s hs
    linarith
  · rw [div_le_iff₀ hR, ← hS]
    have e2 : ε * (S / ε + 1) = S + ε := by field_simp
    linarith

theorem inverseSum_neg (srcs : List (E3 × ℝ)) (x y z : ℝ) :
    inverseSum (srcs.map fun s => (s.1, -s.2)) x y z = -inverseSum srcs x y z := by
  induction srcs with
  | nil => simp [inverseSum]
  | cons s srcs ih =>
    simp only [inverseSum, List.map_cons, List.sum_cons] at ih ⊢
    rw [ih]
    ring

theorem inverseSum_append (as bs : List (E3 × ℝ)) (x y z : ℝ) :
    inverseSum (as ++ bs) x y z = inverseSum as x y z + inverseSum bs x y z := by
  simp [inverseSum]

/-- The potential of point sources outside a closed region is nowhere in it larger in size than on its frontier. -/
theorem inverseSum_region (srcs : List (E3 × ℝ)) {U : Set E3} (hU : IsClosed U) (h : ∀ s ∈ srcs, s.1 ∉ U) {M : ℝ}
    (h0 : 0 ≤ M) (hM : ∀ p ∈ frontier U, |inverseSum srcs (p 0) (p 1) (p 2)| ≤ M) (p : E3) (hp : p ∈ U) :
    |inverseSum srcs (p 0) (p 1) (p 2)| ≤ M := by
  have key : ∀ srcs : List (E3 × ℝ), (∀ s ∈ srcs, s.1 ∉ U) →
      (∀ p ∈ frontier U, |inverseSum srcs (p 0) (p 1) (p 2)| ≤ M) → inverseSum srcs (p 0) (p 1) (p 2) ≤ M := by
    intro srcs h hM
    refine region_le hU (inverseSum_continuousOn srcs h) (fun x hx => inverseSum_laplace _ _ _ _ fun s hs he => ?_)
      (fun ε hε => ?_) h0 (fun x hx => (le_abs_self _).trans (hM x hx)) p hp
    · rw [← e3_eta] at he
      exact h s hs (he ▸ interior_subset hx)
    · obtain ⟨R, hR⟩ := inverseSum_decay srcs ε hε
      exact ⟨R, fun x _ => hR x⟩
  rw [abs_le]
  refine ⟨?_, key srcs h hM⟩
  have := key (srcs.map fun s => (s.1, -s.2)) (fun s hs => by
    obtain ⟨s', hs', rfl⟩ := List.mem_map.1 hs
    exact h s' hs') (fun x hx => by rw [inverseSum_neg, abs_neg]; exact hM x hx)
  rw [inverseSum_neg] at this
  linarith

end Verif.Continuation
