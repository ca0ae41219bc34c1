import Verif.Euler.Props

/-!
C45 Euler inversion with one structural index. C46 choice of the structural index.
-/

namespace Verif.Euler
open Matrix

/-! ### C45 -/

/-- The variables that are functions of the parameters and the data. -/
def Consistent {N : ℕ} (P : Settings) (η : ℝ) (c : Coordinates N) (obs : Data N) (w : Fin 4 → ℝ)
    (s : IterState N) : Prop :=
  (s.euler = fun i => eulerResidual1 η c s.data_predicted s.parameters i) ∧
    s.data_misfit = weightedMisfit w obs s.data_predicted ∧
    s.merit = meritOf P.euler_misfit_balance η c obs w s.parameters s.data_predicted

theorem metrics_consistent {N : ℕ} (P : Settings) (η : ℝ) (c : Coordinates N) (obs : Data N)
    (w : Fin 4 → ℝ) (p : Parameters) (d : Data N) (C : Option (Matrix (Fin 4) (Fin 4) ℝ)) :
    Consistent P η c obs w (metrics P η c obs w p d C) := by
  have h : dataMisfit w (fun k i => obs k i - d k i) = weightedMisfit w obs d := by
    unfold dataMisfit weightedMisfit
    simp only [mul_comm (w _)]
  refine ⟨?_, ?_, ?_⟩
  · simp only [metrics, eulersEquation_eq]
  · simp only [metrics, h]
  · simp only [metrics, h, meritOf, eulersEquation_eq, eulerMisfit, norm2]

theorem iteration_ok {N : ℕ} {P : Settings} {η : ℝ} {c : Coordinates N} {obs : Data N}
    {w Wi : Fin 4 → ℝ} {s s' : IterState N} (h : iteration P η c obs w Wi s = .ok s') :
    ∃ dp dd C, newtonStep η c obs s.data_predicted s.parameters s.euler Wi = .ok (dp, dd, C) ∧
      s' = metrics P η c obs w (s.parameters + dp) (s.data_predicted + dd) (some C) := by
  unfold iteration at h
  cases hn : newtonStep η c obs s.data_predicted s.parameters s.euler Wi with
  | error e => rw [hn] at h; exact absurd h (by simp [Py.bind_error])
  | ok x =>
    obtain ⟨dp, dd, C⟩ := x
    rw [hn] at h
    simp only [Py.bind_ok, Py.pure_eq, Except.ok.injEq] at h
    exact ⟨dp, dd, C, rfl, h.symm⟩

theorem converged_iff (tol m m' : ℝ) : converged tol m m' = true ↔ Settled tol m m' := by
  unfold converged Settled
  rw [decide_eq_true_iff]

theorem loop_spec {N : ℕ} (P : Settings) (η : ℝ) (c : Coordinates N) (obs : Data N)
    (w Wi : Fin 4 → ℝ) : ∀ (n : ℕ) (s s' : IterState N) (warned : Bool),
    loop P η c obs w Wi n s = .ok (s', warned) →
    ∃ (K : ℕ) (st : ℕ → IterState N), K ≤ n ∧ st 0 = s ∧ st K = s' ∧
      (∀ k < K, iteration P η c obs w Wi (st k) = .ok (st (k + 1))) ∧
      (∀ k, k + 1 < K → ¬ Settled P.tol (st k).merit (st (k + 1)).merit) ∧
      (warned = true → K = n ∧ ∀ k < K, ¬ Settled P.tol (st k).merit (st (k + 1)).merit) ∧
      (warned = false → ∃ k, K = k + 1 ∧ Settled P.tol (st k).merit (st (k + 1)).merit)
  | 0, s, s', warned, h => by
    simp only [loop, Except.ok.injEq, Prod.mk.injEq] at h
    obtain ⟨rfl, rfl⟩ := h
    exact ⟨0, fun _ => s, le_rfl, rfl, rfl, by simp, by simp, by simp, by simp⟩
  | n + 1, s, s', warned, h => by
    rw [loop] at h
    cases hi : iteration P η c obs w Wi s with
    | error e => rw [hi] at h; exact absurd h (by simp [Py.bind_error])
    | ok s1 =>
      rw [hi] at h
      simp only [Py.bind_ok] at h
      by_cases hc : converged P.tol s.merit s1.merit = true
      · rw [if_pos hc] at h
        simp only [Py.pure_eq, Except.ok.injEq, Prod.mk.injEq] at h
        obtain ⟨rfl, rfl⟩ := h
        refine ⟨1, fun k => if k = 0 then s else s1, by omega, rfl, rfl, ?_, ?_, by simp, ?_⟩
        · intro k hk
          obtain rfl : k = 0 := by omega
          simpa using hi
        · intro k hk; omega
        · intro _
          exact ⟨0, rfl, by simpa using (converged_iff _ _ _).1 hc⟩
      · rw [if_neg hc] at h
        obtain ⟨K, st, h1, h2, h3, h4, h5, h6, h7⟩ := loop_spec P η c obs w Wi n s1 s' warned h
        have hns : ¬ Settled P.tol s.merit s1.merit := fun h => hc ((converged_iff _ _ _).2 h)
        refine ⟨K + 1, fun k => if k = 0 then s else st (k - 1), by omega, rfl, by simpa using h3,
          ?_, ?_, ?_, ?_⟩
        · intro k hk
          cases k with
          | zero => simpa [h2] using hi
          | succ k => simpa using h4 k (by omega)
        · intro k hk
          cases k with
          | zero => simpa [h2] using hns
          | succ k => simpa using h5 k (by omega)
        · intro hw
          refine ⟨by rw [(h6 hw).1], fun k hk => ?_⟩
          cases k with
          | zero => simpa [h2] using hns
          | succ k => simpa using (h6 hw).2 k (by omega)
        · intro hw
          obtain ⟨k, rfl, hk⟩ := h7 hw
          exact ⟨k + 1, rfl, by simpa using hk⟩

theorem fitOne_ok {N : ℕ} {P : Settings} {η : ℝ} {c : Coordinates N} {obs : Data N}
    {w : Fin 4 → ℝ} {self a : Attributes} {warned : Bool}
    (h : fitOne P η c obs w self = .ok (a, warned)) :
    ∃ s Wi s', start P η c obs w = .ok (s, Wi) ∧
      loop P η c obs w Wi P.max_iterations s = .ok (s', warned) ∧ finish obs self s' = .ok a := by
  unfold fitOne at h
  cases hs : start P η c obs w with
  | error e => rw [hs] at h; exact absurd h (by simp [Py.bind_error])
  | ok x =>
    obtain ⟨s, Wi⟩ := x
    rw [hs] at h
    simp only [Py.bind_ok] at h
    cases hl : loop P η c obs w Wi P.max_iterations s with
    | error e => rw [hl] at h; exact absurd h (by simp [Py.bind_error])
    | ok y =>
      obtain ⟨s', wd⟩ := y
      rw [hl] at h
      simp only [Py.bind_ok] at h
      cases hf : finish obs self s' with
      | error e => rw [hf] at h; exact absurd h (by simp [Py.bind_error])
      | ok z =>
        rw [hf] at h
        simp only [Py.bind_ok, Py.pure_eq, Except.ok.injEq, Prod.mk.injEq] at h
        obtain ⟨rfl, rfl⟩ := h
        exact ⟨s, Wi, s', rfl, hl, hf⟩

theorem start_ok {N : ℕ} {P : Settings} {η : ℝ} {c : Coordinates N} {obs : Data N}
    {w Wi : Fin 4 → ℝ} {s : IterState N} (h : start P η c obs w = .ok (s, Wi)) :
    η ≠ 0 ∧ ∃ location base cov, deconvolution η c obs = .ok (location, base, cov) ∧
      (∀ k, w k ≠ 0) ∧ Wi = (fun k => 1 / w k) ∧
      s = metrics P η c obs w (joined location base) (fun k i => 0.9 * obs k i) none := by
  unfold start at h
  by_cases hη : η = 0
  · simp [initDeconvolution, hη, Py.bind_error] at h
  simp only [initDeconvolution, if_neg hη, Py.bind_ok] at h
  cases hd : deconvolution η c obs with
  | error e => rw [hd] at h; exact absurd h (by simp [Py.bind_error])
  | ok x =>
    obtain ⟨l, b, C⟩ := x
    rw [hd] at h
    simp only [Py.bind_ok] at h
    split at h
    · exact absurd h (by simp [Py.throw_eq])
    · rename_i hw
      simp only [Py.pure_eq, Except.ok.injEq, Prod.mk.injEq] at h
      obtain ⟨rfl, rfl⟩ := h
      refine ⟨hη, l, b, C, rfl, ?_, rfl, rfl⟩
      intro k
      fin_cases k <;> simp_all

theorem independent_four {N : ℕ} {obs : Data N} (h : Independent1 obs) : 4 ≤ N := by
  rw [independent_iff one_ne_zero] at h
  have hinj : Function.Injective (jacobian 1 obs).mulVecLin := by
    rw [← LinearMap.ker_eq_bot, LinearMap.ker_eq_bot']
    intro v hv
    exact h v (by simpa using hv)
  have := LinearMap.finrank_le_finrank_of_injective hinj
  simpa using this

theorem overCount_data (x : ℝ) {N : ℕ} (hN : 4 ≤ N) :
    overCount x (4 * (N : ℝ) - 4) = some (x / (4 * (N : ℝ) - 4)) := by
  unfold overCount
  rw [if_neg]
  have : (4 : ℝ) ≤ N := by exact_mod_cast hN
  intro h
  linarith

theorem cofactor_eq {N : ℕ} (η : ℝ) (c : Coordinates N) (d : Data N) (p w : Fin 4 → ℝ) :
    (parameterJacobian η d)ᵀ * diagonal (fun i => 1 / qDiag η c p (fun k => 1 / w k) i) *
      parameterJacobian η d = linearisedNormalMatrix η c d p w := by
  ext j k
  rw [mul_apply, linearisedNormalMatrix, of_apply]
  refine Finset.sum_congr rfl fun i _ => ?_
  rw [mul_diagonal, transpose_apply]
  have hq : qDiag η c p (fun k => 1 / w k) i = η ^ 2 / w 0 + (c 0 i - p 0) ^ 2 / w 1 +
      (c 1 i - p 1) ^ 2 / w 2 + (c 2 i - p 2) ^ 2 / w 3 := by
    unfold qDiag
    rw [Fin.sum_univ_four]
    simp only [dataJacobianDiagonals, cons_val_zero, cons_val_one, cons_val]
    ring
  rw [hq]
  have hc : ∀ j : Fin 4, parameterJacobian η d i j = -(if j = 3 then η else d (j + 1) i) := by
    intro j
    fin_cases j <;> simp [parameterJacobian]
  rw [hc, hc]
  ring

theorem newton_cofactor {N : ℕ} {η : ℝ} (hη : η ≠ 0) {c : Coordinates N} {obs d dd : Data N}
    {p dp : Fin 4 → ℝ} {euler : Fin N → ℝ} {C : Matrix (Fin 4) (Fin 4) ℝ} {w : Fin 4 → ℝ}
    (hw : ∀ k, 0 < w k)
    (h : newtonStep η c obs d p euler (fun k => 1 / w k) = .ok (dp, dd, C)) :
    C = (linearisedNormalMatrix η c d p w)⁻¹ := by
  rw [newton_cases fun i => (qDiag_pos hη c p hw i).ne', cofactor_eq] at h
  by_cases hdet : (linearisedNormalMatrix η c d p w).det = 0
  · rw [inv, if_pos hdet] at h
    exact absurd h (by simp [Except.bind])
  · rw [inv_ok hdet] at h
    simp only [Except.bind, Except.ok.injEq, Prod.mk.injEq] at h
    exact h.2.2.symm

/-- C45: a complete description of a successful run with positive weights. There are iterates
`p 0, ..., p K` of the parameters and `d 0, ..., d K` of the predicted data, with
1 ≤ K ≤ max_iterations. The first are the result of the Euler deconvolution and 0.9 times the data.
Each step is the Gauss-Newton step. The loop stops as soon as the merit changes by less than `tol`; the
warning is issued exactly if this never happened, and then K = max_iterations. The attributes are those
of the last iterate. -/
theorem C45_run {N : ℕ} {P : Settings} {η : ℝ} {c : Coordinates N} {obs : Data N}
    {w : Fin 4 → ℝ} (hw : ∀ k, 0 < w k) {self a : Attributes} {warned : Bool}
    (h : fitOne P η c obs w self = .ok (a, warned)) :
    ∃ (K : ℕ) (p : ℕ → Fin 4 → ℝ) (d : ℕ → Data N) (m : ℕ → ℝ),
      (1 ≤ K ∧ K ≤ P.max_iterations) ∧
      (∃ location base cov, deconvolution η c obs = .ok (location, base, cov) ∧
        p 0 = joined location base) ∧
      (d 0 = fun k i => 9 / 10 * obs k i) ∧
      (∀ k < K, IsNewtonStep η c obs (d k) (p k) w (p (k + 1) - p k) (d (k + 1) - d k)) ∧
      (∀ k ≤ K, m k = meritOf P.euler_misfit_balance η c obs w (p k) (d k)) ∧
      (∀ k, k + 1 < K → ¬ Settled P.tol (m k) (m (k + 1))) ∧
      (warned = true ↔ ∀ k < K, ¬ Settled P.tol (m k) (m (k + 1))) ∧
      (warned = true → K = P.max_iterations) ∧
      a.location_ = some ![p K 0, p K 1, p K 2] ∧
      a.base_level_ = some (p K 3) ∧
      a.data_misfit_ = some (weightedMisfit w obs (d K)) ∧
      a.covariance_ = some (some (((∑ k, ∑ i, (obs k i - d K k i) ^ 2) / (4 * (N : ℝ) - 4)) •
        (linearisedNormalMatrix η c (d (K - 1)) (p (K - 1)) w)⁻¹)) ∧
      a.structural_index_ = self.structural_index_ := by
  obtain ⟨s0, Wi, s', hs, hl, hf⟩ := fitOne_ok h
  obtain ⟨hη, l, b, C, hd, hwne, rfl, rfl⟩ := start_ok hs
  obtain ⟨K, st, h1, h2, h3, h4, h5, h6, h7⟩ := loop_spec _ _ _ _ _ _ _ _ _ _ hl
  have hcons : ∀ k ≤ K, Consistent P η c obs w (st k) := by
    intro k hk
    cases k with
    | zero => rw [h2]; exact metrics_consistent _ _ _ _ _ _ _ _
    | succ k =>
      obtain ⟨dp, dd, C, -, he⟩ := iteration_ok (h4 k (by omega))
      rw [he]; exact metrics_consistent _ _ _ _ _ _ _ _
  have hK : 1 ≤ K := by
    by_contra hK
    obtain rfl : K = 0 := by omega
    rw [← h3, h2] at hf
    simp [finish, metrics] at hf
  have hfin : a.location_ = some ![(st K).parameters 0, (st K).parameters 1, (st K).parameters 2] ∧
      a.base_level_ = some ((st K).parameters 3) ∧
      a.data_misfit_ = some (st K).data_misfit ∧ a.structural_index_ = self.structural_index_ ∧
      ∃ C, (st K).cofactor = some C ∧ a.covariance_ = some ((overCount (∑ k, ∑ i,
        (obs k i - (st K).data_predicted k i) ^ 2) (4 * (N : ℝ) - 4)).map fun x => x • C) := by
    rw [← h3] at hf
    unfold finish at hf
    split at hf
    · simp at hf
    · rename_i C hC
      simp only [Except.ok.injEq] at hf
      subst hf
      exact ⟨rfl, rfl, rfl, rfl, C, hC, rfl⟩
  refine ⟨K, fun k => (st k).parameters, fun k => (st k).data_predicted, fun k => (st k).merit,
    ⟨hK, h1⟩, ⟨l, b, C, hd, by simp only [h2]; rfl⟩, ?_, ?_, fun k hk => (hcons k hk).2.2, h5, ?_,
    fun hwd => (h6 hwd).1, hfin.1, hfin.2.1, ?_, ?_, hfin.2.2.2.1⟩
  · simp only [h2, metrics]
    funext k i
    norm_num
  · intro k hk
    obtain ⟨dp, dd, C, hn, he⟩ := iteration_ok (h4 k hk)
    have e1 : (st (k + 1)).parameters - (st k).parameters = dp := by rw [he]; simp [metrics]
    have e2 : (st (k + 1)).data_predicted - (st k).data_predicted = dd := by
      rw [he]; simp [metrics]
    simp only [e1, e2]
    rw [(hcons k hk.le).1] at hn
    exact newton_spec hη hw hn
  · constructor
    · exact fun hwd => (h6 hwd).2
    · intro hall
      by_contra hwd
      obtain ⟨k, hk, hset⟩ := h7 (by simpa using hwd)
      exact hall k (by omega) hset
  · rw [hfin.2.2.1, (hcons K le_rfl).2.1]
  · obtain ⟨C, hC, hcov⟩ := hfin.2.2.2.2
    have hind : Independent1 obs := by
      by_contra hind
      rw [deconvolution_singular hη c obs hind] at hd
      simp at hd
    rw [hcov, overCount_data _ (independent_four hind)]
    obtain ⟨k, rfl⟩ : ∃ k, K = k + 1 := ⟨K - 1, by omega⟩
    obtain ⟨dp, dd, C', hn, he⟩ := iteration_ok (h4 k (by omega))
    rw [he] at hC
    simp only [metrics, Option.some.injEq] at hC
    rw [← hC, newton_cofactor hη hw hn]
    rfl

/-- C45: without iterations the function fails with UnboundLocalError, whatever the data. -/
theorem C45_no_iterations {N : ℕ} {P : Settings} (hP : P.max_iterations = 0) {η : ℝ} (hη : η ≠ 0)
    {c : Coordinates N} {obs : Data N} (hind : Independent1 obs) {w : Fin 4 → ℝ}
    (hw : ∀ k, w k ≠ 0) (self : Attributes) :
    fitOne P η c obs w self = .error .UnboundLocalError := by
  obtain ⟨p, C, h1, -⟩ := deconvolution_ok hη c obs hind
  unfold fitOne start
  have hc : ¬ (w 0 = 0 ∨ w 1 = 0 ∨ w 2 = 0 ∨ w 3 = 0) := by
    simp only [hw, or_self, not_false_eq_true]
  simp only [initDeconvolution, if_neg hη, Py.bind_ok, h1, if_neg hc, Py.pure_eq, hP, loop, finish,
    metrics, Py.bind_error]

/-- The step from a state whose residuals, corrected by the Euler misfit, vanish. -/
theorem newton_exact {N : ℕ} {η : ℝ} (hη : η ≠ 0) {c : Coordinates N} {obs d : Data N}
    {p : Fin 4 → ℝ} {w : Fin 4 → ℝ} (hw : ∀ k, 0 < w k) (hind : Independent1 d)
    (hex : ∀ i, eulerResidual1 η c obs p i = 0) :
    ∃ C, newtonStep η c obs d p (fun i => eulerResidual1 η c d p i) (fun k => 1 / w k) =
      .ok (0, fun k i => obs k i - d k i, C) := by
  have hqp := qDiag_pos hη c p hw
  rw [newton_cases fun i => (hqp i).ne']
  have hker : ∀ v, parameterJacobian η d *ᵥ v = 0 → v = 0 := by
    intro v hv
    refine (independent_iff hη d).1 hind v ?_
    funext i
    have := congrFun hv i
    rw [parameterJacobian_mulVec] at this
    rw [jacobian_mulVec]
    simp only [Pi.zero_apply] at this ⊢
    linarith
  have hdet := (det_weighted (parameterJacobian η d) _ fun i => one_div_pos.2 (hqp i)).2 hker
  rw [inv_ok hdet]
  have hz : (fun i => eulerResidual1 η c d p i) +
      (fun i => ∑ k, dataJacobianDiagonals η c p k i * (obs k i - d k i)) = 0 := by
    funext i
    have := hex i
    rw [Pi.add_apply, Fin.sum_univ_four]
    simp only [dataJacobianDiagonals, cons_val_zero, cons_val_one, cons_val, Pi.zero_apply]
    unfold eulerResidual1 at this ⊢
    linear_combination this
  have hz' : (fun i => ∑ k, dataJacobianDiagonals η c p k i * (obs k i - d k i)) +
      (fun i => eulerResidual1 η c d p i) = 0 := by rw [add_comm, hz]
  refine ⟨((parameterJacobian η d)ᵀ * diagonal (fun i => 1 / qDiag η c p (fun k => 1 / w k) i) *
    parameterJacobian η d)⁻¹, ?_⟩
  simp only [Except.bind, hz, hz', mulVec_zero, add_zero, Pi.zero_apply, mul_zero, sub_zero]

/-- C45: the exact solution is a fixed point: from zero residuals and satisfied Euler equations the
iteration succeeds and changes neither the parameters nor the data. -/
theorem C45_fixed_point {N : ℕ} (P : Settings) {η : ℝ} (hη : η ≠ 0) (c : Coordinates N)
    {obs : Data N} (hind : Independent1 obs) {w : Fin 4 → ℝ} (hw : ∀ k, 0 < w k)
    {p : Fin 4 → ℝ} (hex : ∀ i, eulerResidual1 η c obs p i = 0)
    (s : IterState N) (hp : s.parameters = p) (hd : s.data_predicted = obs) (he : s.euler = 0) :
    ∃ s', iteration P η c obs w (fun k => 1 / w k) s = .ok s' ∧ s'.parameters = p ∧
      s'.data_predicted = obs ∧ s'.euler = 0 ∧ s'.merit = 0 := by
  obtain ⟨C, hC⟩ := newton_exact hη (d := obs) hw hind hex
  unfold iteration
  have he' : s.euler = fun i => eulerResidual1 η c obs p i := by
    rw [he]; funext i; exact (hex i).symm
  rw [hp, hd, he', hC]
  refine ⟨_, rfl, ?_, ?_, ?_, ?_⟩
  · simp [metrics]
  · funext k i; simp [metrics]
  · funext i
    have e : (obs + fun k i => obs k i - obs k i) = obs := by funext k i; simp
    simp only [metrics, eulersEquation_eq, add_zero, Pi.zero_apply, e, hex]
  · have := (metrics_consistent P η c obs w (p + 0)
      (obs + fun k i => obs k i - obs k i) (some C)).2.2
    rw [this]
    have e : (obs + fun k i => obs k i - obs k i) = obs := by funext k i; simp
    simp only [metrics, add_zero, e, meritOf, weightedMisfit, norm2, hex]
    simp

/-- The exact solution has been reached. -/
def Exact {N : ℕ} (obs : Data N) (p : Fin 4 → ℝ) (s : IterState N) : Prop :=
  s.parameters = p ∧ s.data_predicted = obs ∧ s.euler = 0 ∧ s.merit = 0 ∧ s.data_misfit = 0 ∧
    ∃ C, s.cofactor = some C

theorem metrics_exact {N : ℕ} (P : Settings) {η : ℝ} {c : Coordinates N} {obs : Data N}
    (w : Fin 4 → ℝ) {p : Fin 4 → ℝ} (hex : ∀ i, eulerResidual1 η c obs p i = 0)
    (C : Matrix (Fin 4) (Fin 4) ℝ) : Exact obs p (metrics P η c obs w p obs (some C)) := by
  obtain ⟨h1, h2, h3⟩ := metrics_consistent P η c obs w p obs (some C)
  refine ⟨rfl, rfl, ?_, ?_, ?_, C, rfl⟩
  · rw [h1]; funext i; exact hex i
  · rw [h3]; simp [meritOf, metrics, weightedMisfit, norm2, hex]
  · rw [h2]; simp [metrics, weightedMisfit]

theorem exact_loop {N : ℕ} (P : Settings) {η : ℝ} (hη : η ≠ 0) (c : Coordinates N)
    {obs : Data N} (hind : Independent1 obs) {w : Fin 4 → ℝ} (hw : ∀ k, 0 < w k)
    {p : Fin 4 → ℝ} (hex : ∀ i, eulerResidual1 η c obs p i = 0) : ∀ (n : ℕ) (s : IterState N),
    Exact obs p s → ∃ s', loop P η c obs w (fun k => 1 / w k) n s = .ok (s', true) ∧ Exact obs p s'
  | 0, s, hs => ⟨s, rfl, hs⟩
  | n + 1, s, hs => by
    obtain ⟨C, hC⟩ := newton_exact hη (d := obs) hw hind hex
    obtain ⟨h1, h2, h3, h4, -, -⟩ := hs
    have he' : s.euler = fun i => eulerResidual1 η c obs p i := by
      rw [h3]; funext i; exact (hex i).symm
    have hi : iteration P η c obs w (fun k => 1 / w k) s =
        .ok (metrics P η c obs w p obs (some C)) := by
      unfold iteration
      rw [h1, h2, he', hC]
      have e : (obs + fun k i => obs k i - obs k i) = obs := by funext k i; simp
      simp only [Py.bind_ok, Py.pure_eq, add_zero, e]
    rw [loop, hi]
    simp only [Py.bind_ok]
    rw [if_neg]
    · exact exact_loop P hη c hind hw hex n _ (metrics_exact P w hex C)
    · rw [converged_iff]
      exact fun h => h.1 h4

/-- C45: exact data. If the data satisfy Euler's equation for a position and a base level, the
normal matrix is invertible and the weights are positive, then `fit` with at least one iteration returns
them, with zero covariance and misfit. (With `tol ≤ 1` it always issues the warning: after the first
step the merit is zero and its relative change is not a number.) -/
theorem C45_exact {N : ℕ} {P : Settings} (hP : 1 ≤ P.max_iterations) {η : ℝ} (hη : η ≠ 0)
    {c : Coordinates N} {obs : Data N} (hind : Independent1 obs) {w : Fin 4 → ℝ} (hw : ∀ k, 0 < w k)
    (location : Fin 3 → ℝ) (base_level : ℝ)
    (hex : ∀ i, eulerResidual1 η c obs (joined location base_level) i = 0) (self : Attributes) :
    ∃ warned, fitOne P η c obs w self = .ok ({ self with
      location_ := some location
      base_level_ := some base_level
      covariance_ := some (some 0)
      data_misfit_ := some 0 }, warned) ∧ (P.tol ≤ 1 → warned = true) := by
  set p := joined location base_level with hp
  obtain ⟨p', C, h1, -, h2, h3⟩ := deconvolution_ok hη c obs hind
  have hpp : p = p' := by
    refine h3 _ ?_
    simp only [hex]
    simpa using Finset.sum_nonneg fun i _ => sq_nonneg _
  rw [← hpp] at h1
  -- first iteration
  have hind9 : Independent1 (fun k i => 0.9 * obs k i : Data N) := by
    intro q hq
    have := hind ![0.9 * q 0, 0.9 * q 1, 0.9 * q 2, q 3] fun i => by
      have := hq i
      simp only [cons_val_zero, cons_val_one, cons_val]
      linarith
    have h0 : (0.9 : ℝ) * q 0 = 0 := congrFun this 0
    have h1 : (0.9 : ℝ) * q 1 = 0 := congrFun this 1
    have h2 : (0.9 : ℝ) * q 2 = 0 := congrFun this 2
    have h3 : q 3 = 0 := congrFun this 3
    funext k
    fin_cases k <;> simp only [Fin.zero_eta, Fin.mk_one, Fin.reduceFinMk, Pi.zero_apply] <;> linarith
  obtain ⟨C1, hC1⟩ := newton_exact hη (d := fun k i => 0.9 * obs k i) hw hind9 hex
  set s0 := metrics P η c obs w p (fun k i => 0.9 * obs k i) none with hs0
  set s1 := metrics P η c obs w p obs (some C1) with hs1
  have hcons := metrics_consistent P η c obs w p (fun k i => 0.9 * obs k i) none
  rw [← hs0] at hcons
  have hi : iteration P η c obs w (fun k => 1 / w k) s0 = .ok s1 := by
    unfold iteration
    rw [hcons.1]
    have e1 : s0.data_predicted = fun k i => 0.9 * obs k i := rfl
    have e2 : s0.parameters = p := rfl
    rw [e1, e2, hC1]
    have e : ((fun k i => 0.9 * obs k i) + fun k i => obs k i - 0.9 * obs k i : Data N) = obs := by
      funext k i; simp
    simp only [Py.bind_ok, Py.pure_eq, add_zero, e, hs1]
  have hex1 : Exact obs p s1 := metrics_exact P w hex C1
  have hc : ¬ (w 0 = 0 ∨ w 1 = 0 ∨ w 2 = 0 ∨ w 3 = 0) := by
    simp only [(hw _).ne', or_self, not_false_eq_true]
  have hst : start P η c obs w = .ok (s0, fun k => 1 / w k) := by
    unfold start
    simp only [initDeconvolution, if_neg hη, Py.bind_ok, h1, if_neg hc, Py.pure_eq]
    rw [show (![![p 0, p 1, p 2] 0, ![p 0, p 1, p 2] 1, ![p 0, p 1, p 2] 2, p 3] : Fin 4 → ℝ) = p
      from joined_vec p]
  have hfin : ∀ s', Exact obs p s' → finish obs self s' = .ok { self with
      location_ := some location
      base_level_ := some base_level
      covariance_ := some (some 0)
      data_misfit_ := some 0 } := by
    rintro s' ⟨a1, a2, -, -, a5, C2, a6⟩
    unfold finish
    rw [a6, a1, a2, a5]
    simp only [sub_self, overCount_data _ (independent_four hind)]
    have e1 : ![p 0, p 1, p 2] = location := by
      funext k
      fin_cases k <;> simp [hp, joined]
    have e2 : p 3 = base_level := by simp [hp, joined]
    rw [e1, e2]
    simp
  obtain ⟨n, hn⟩ : ∃ n, P.max_iterations = n + 1 := ⟨P.max_iterations - 1, by omega⟩
  unfold fitOne
  rw [hst]
  simp only [Py.bind_ok]
  rw [hn, loop, hi]
  simp only [Py.bind_ok]
  by_cases hcv : converged P.tol s0.merit s1.merit = true
  · rw [if_pos hcv]
    simp only [Py.pure_eq, Py.bind_ok]
    rw [hfin s1 hex1]
    refine ⟨false, rfl, fun ht => ?_⟩
    rw [converged_iff, hex1.2.2.2.1] at hcv
    have := hcv.2
    rw [sub_zero, div_self hcv.1, abs_one] at this
    linarith
  · rw [if_neg hcv]
    obtain ⟨s', hl, he⟩ := exact_loop P hη c hind hw hex n s1 hex1
    rw [hl]
    simp only [Py.bind_ok]
    rw [hfin s' he]
    exact ⟨true, rfl, fun _ => rfl⟩

/-! ### C46 -/

theorem argmin_spec : ∀ (l : List ℝ) (i : ℕ), argmin l = .ok i →
    i < l.length ∧ (∀ j < l.length, l.getD i 0 ≤ l.getD j 0) ∧ ∀ j < i, l.getD i 0 < l.getD j 0
  | [], i, h => by simp [argmin] at h
  | [a], i, h => by
    simp only [argmin, Except.ok.injEq] at h
    subst h
    simp
  | a :: b :: l, i, h => by
    rw [argmin] at h
    cases hb : argmin (b :: l) with
    | error e => rw [hb] at h; simp [Py.bind_error] at h
    | ok k =>
      rw [hb] at h
      simp only [Py.bind_ok, Py.pure_eq, Except.ok.injEq] at h
      obtain ⟨h1, h2, h3⟩ := argmin_spec (b :: l) k hb
      by_cases hle : a ≤ (b :: l).getD k 0
      · rw [if_pos hle] at h
        subst h
        refine ⟨by simp, fun j hj => ?_, by simp⟩
        cases j with
        | zero => simp
        | succ j =>
          have := h2 j (by simpa using hj)
          simp only [List.getD_cons_zero, List.getD_cons_succ] at this ⊢
          linarith
      · rw [if_neg hle] at h
        subst h
        refine ⟨by simpa using h1, fun j hj => ?_, fun j hj => ?_⟩
        · cases j with
          | zero => simpa using (not_le.1 hle).le
          | succ j => simpa using h2 j (by simpa using hj)
        · cases j with
          | zero => simpa using not_le.1 hle
          | succ j => simpa using h3 j (by omega)

theorem argmin_total : ∀ l : List ℝ, l ≠ [] → ∃ i, argmin l = .ok i
  | [], h => absurd rfl h
  | [a], _ => ⟨0, rfl⟩
  | a :: b :: l, _ => by
    obtain ⟨i, hi⟩ := argmin_total (b :: l) (by simp)
    rw [argmin, hi]
    exact ⟨_, rfl⟩

theorem candidates_spec {N : ℕ} (P : Settings) (c : Coordinates N) (obs : Data N) (w : Fin 4 → ℝ) :
    ∀ (l : List ℝ) (cs : List (ℝ × Attributes)), candidates P c obs w l = .ok cs →
      cs.length = l.length ∧ ∀ i (h : i < cs.length), l[i]? = some cs[i].1 ∧
        fitInversion P (.scalar cs[i].1) c obs w {} = .ok cs[i].2
  | [], cs, h => by
    simp only [candidates, Except.ok.injEq] at h
    subst h
    simp
  | si :: l, cs, h => by
    rw [candidates] at h
    by_cases h0 : si = 0
    · simp [initInversion, h0, Py.bind_error] at h
    simp only [initInversion, if_neg h0, Py.bind_ok] at h
    cases hf : fitOne P si c obs w {} with
    | error e => rw [hf] at h; simp [Py.bind_error] at h
    | ok x =>
      obtain ⟨a, wd⟩ := x
      rw [hf] at h
      simp only [Py.bind_ok] at h
      cases hr : candidates P c obs w l with
      | error e => rw [hr] at h; simp [Py.bind_error] at h
      | ok cs' =>
        rw [hr] at h
        simp only [Py.bind_ok, Py.pure_eq, Except.ok.injEq] at h
        subst h
        obtain ⟨h1, h2⟩ := candidates_spec P c obs w l cs' hr
        refine ⟨by simp [h1], fun i hi => ?_⟩
        cases i with
        | zero =>
          refine ⟨rfl, ?_⟩
          simp only [List.getElem_cons_zero, fitInversion, hf, Py.bind_ok, Py.pure_eq]
        | succ i => simpa using h2 i (by simpa using hi)

/-- C46: for a sequence of structural indices, when `fit` succeeds there are successful runs with each
index of the sequence alone, and one position `i` such that the misfit of the run `i` is smallest and
smaller than all the previous ones, and the four attributes are all those of this run. -/
theorem C46_first_minimiser {N : ℕ} {P : Settings} {l : List ℝ} {c : Coordinates N} {obs : Data N}
    {w : Fin 4 → ℝ} {self a : Attributes}
    (h : fitInversion P (.sequence l) c obs w self = .ok a) :
    ∃ (runs : ℕ → Attributes) (misfit : ℕ → ℝ) (i : ℕ), i < l.length ∧
      (∀ j < l.length, fitInversion P (.scalar (l.getD j 0)) c obs w {} = .ok (runs j) ∧
        (runs j).data_misfit_ = some (misfit j)) ∧
      (∀ j < l.length, misfit i ≤ misfit j) ∧ (∀ j < i, misfit i < misfit j) ∧
      a.structural_index_ = some (l.getD i 0) ∧ a.location_ = (runs i).location_ ∧
      a.base_level_ = (runs i).base_level_ ∧ a.covariance_ = (runs i).covariance_ ∧
      a.data_misfit_ = self.data_misfit_ := by
  unfold fitInversion at h
  cases hc : candidates P c obs w l with
  | error e => simp [hc, Py.bind_error] at h
  | ok cs =>
    simp only [hc, Py.bind_ok] at h
    cases hm : argmin (cs.map fun c => c.2.data_misfit_.getD 0) with
    | error e => simp [hm, Py.bind_error] at h
    | ok i =>
      simp only [hm, Py.bind_ok] at h
      obtain ⟨h1, h2, h3⟩ := argmin_spec _ _ hm
      obtain ⟨hlen, hcs⟩ := candidates_spec P c obs w l cs hc
      rw [List.length_map] at h1 h2
      have hget : ∀ j (hj : j < cs.length), (cs.map fun c => c.2.data_misfit_.getD 0).getD j 0 =
          cs[j].2.data_misfit_.getD 0 := fun j hj => by simp [hj]
      rw [List.getElem?_eq_getElem h1] at h
      simp only [Py.pure_eq, Except.ok.injEq] at h
      have hl : ∀ j (hj : j < cs.length), l.getD j 0 = cs[j].1 := fun j hj => by
        rw [List.getD_eq_getElem?_getD, (hcs j hj).1]; rfl
      refine ⟨fun j => if hj : j < cs.length then cs[j].2 else {},
        fun j => if hj : j < cs.length then cs[j].2.data_misfit_.getD 0 else 0, i, by omega,
        fun j hj => ?_, fun j hj => ?_, fun j hj => ?_, ?_⟩
      · rw [← hlen] at hj
        simp only [dif_pos hj, hl j hj]
        refine ⟨(hcs j hj).2, ?_⟩
        have hrun := (hcs j hj).2
        unfold fitInversion at hrun
        cases hf : fitOne P cs[j].1 c obs w {} with
        | error e => simp [hf, Py.bind_error] at hrun
        | ok x =>
          simp only [hf, Py.bind_ok, Py.pure_eq, Except.ok.injEq] at hrun
          obtain ⟨s0, Wi, s', hs, hl, hfi⟩ := fitOne_ok hf
          unfold finish at hfi
          split at hfi
          · simp at hfi
          · simp only [Except.ok.injEq] at hfi
            rw [← hrun, ← hfi]
            rfl
      · rw [← hlen] at hj
        simp only [dif_pos hj, dif_pos h1]
        rw [← hget i h1, ← hget j hj]
        exact h2 j hj
      · have hj' : j < cs.length := by omega
        simp only [dif_pos hj', dif_pos h1]
        rw [← hget i h1, ← hget j hj']
        exact h3 j hj
      · simp only [dif_pos h1, hl i h1]
        subst h
        exact ⟨rfl, rfl, rfl, rfl, rfl⟩

/-- C46: it succeeds exactly if the sequence is not empty, no index is zero, and the run with each
index alone succeeds. -/
theorem C46_total {N : ℕ} (P : Settings) (l : List ℝ) (c : Coordinates N) (obs : Data N)
    (w : Fin 4 → ℝ) (self : Attributes) :
    (∃ a, fitInversion P (.sequence l) c obs w self = .ok a) ↔
      l ≠ [] ∧ ∀ η ∈ l, η ≠ 0 ∧ ∃ a, fitInversion P (.scalar η) c obs w {} = .ok a := by
  have hcand : ∀ l : List ℝ, (∃ cs, candidates P c obs w l = .ok cs) ↔
      ∀ η ∈ l, η ≠ 0 ∧ ∃ a, fitInversion P (.scalar η) c obs w {} = .ok a := by
    intro l
    induction l with
    | nil => simp [candidates]
    | cons η l ih =>
      rw [List.forall_mem_cons, ← ih, candidates]
      by_cases h0 : η = 0
      · simp [initInversion, h0, Py.bind_error]
      simp only [initInversion, if_neg h0, Py.bind_ok, fitInversion]
      cases hf : fitOne P η c obs w {} with
      | error e => simp [Py.bind_error]
      | ok x =>
        simp only [Py.bind_ok]
        cases hr : candidates P c obs w l with
        | error e => simp [Py.bind_error]
        | ok cs => simp [Py.bind_ok, Py.pure_eq, h0]
  constructor
  · rintro ⟨a, ha⟩
    have hc : ∃ cs, candidates P c obs w l = .ok cs := by
      unfold fitInversion at ha
      cases hc : candidates P c obs w l with
      | error e => simp [hc, Py.bind_error] at ha
      | ok cs => exact ⟨cs, rfl⟩
    refine ⟨?_, (hcand l).1 hc⟩
    rintro rfl
    simp [fitInversion, candidates, argmin, Py.bind_ok, Py.bind_error] at ha
  · rintro ⟨hne, hall⟩
    obtain ⟨cs, hc⟩ := (hcand l).2 hall
    obtain ⟨hlen, -⟩ := candidates_spec P c obs w l cs hc
    have hcs : cs ≠ [] := by
      rintro rfl
      exact hne (List.length_eq_zero_iff.1 hlen.symm)
    obtain ⟨i, hi⟩ := argmin_total (cs.map fun c => c.2.data_misfit_.getD 0) (by simpa using hcs)
    have h1 := (argmin_spec _ _ hi).1
    rw [List.length_map] at h1
    unfold fitInversion
    simp only [hc, Py.bind_ok, hi, List.getElem?_eq_getElem h1]
    exact ⟨_, rfl⟩

/-- C46: with one structural index, `structural_index_` is that index. -/
theorem C46_scalar {N : ℕ} {P : Settings} {η : ℝ} {c : Coordinates N} {obs : Data N}
    {w : Fin 4 → ℝ} {self a : Attributes}
    (h : fitInversion P (.scalar η) c obs w self = .ok a) :
    a.structural_index_ = some η ∧ ∃ a' warned, fitOne P η c obs w self = .ok (a', warned) ∧
      a.location_ = a'.location_ ∧ a.base_level_ = a'.base_level_ ∧
      a.covariance_ = a'.covariance_ ∧ a.data_misfit_ = a'.data_misfit_ := by
  unfold fitInversion at h
  cases hf : fitOne P η c obs w self with
  | error e => simp [hf, Py.bind_error] at h
  | ok x =>
    simp only [hf, Py.bind_ok, Py.pure_eq, Except.ok.injEq] at h
    subst h
    exact ⟨rfl, x.1, x.2, rfl, rfl, rfl, rfl, rfl⟩

/-- C46: without structural indices to choose from, and with a zero among them (when the runs for the indices
before the zero return), `fit` raises ValueError; with a zero it never returns. -/
theorem C46_refused {N : ℕ} (P : Settings) (c : Coordinates N) (obs : Data N) (w : Fin 4 → ℝ)
    (self : Attributes) :
    fitInversion P (.sequence []) c obs w self = .error .ValueError ∧
    (∀ before after, (∀ η ∈ before, η ≠ 0 ∧ ∃ a, fitInversion P (.scalar η) c obs w {} = .ok a) →
      fitInversion P (.sequence (before ++ 0 :: after)) c obs w self = .error .ValueError) ∧
    ∀ l, 0 ∈ l → ∃ e, fitInversion P (.sequence l) c obs w self = .error e := by
  refine ⟨rfl, fun before after h => ?_, fun l hl => ?_⟩
  · have hc : candidates P c obs w (before ++ 0 :: after) = .error .ValueError := by
      induction before with
      | nil => simp [candidates, initInversion, Py.bind_error]
      | cons η l ih =>
        obtain ⟨h0, a, ha⟩ := h η (by simp)
        simp only [fitInversion] at ha
        cases hf : fitOne P η c obs w {} with
        | error e => simp [hf] at ha
        | ok x =>
          simp only [List.cons_append, candidates, initInversion, if_neg h0, Py.bind_ok, hf]
          rw [ih fun η' hη' => h η' (by simp [hη']), Py.bind_error]
    simp only [fitInversion, hc, Py.bind_error]
  · have hc : ∃ e, candidates P c obs w l = .error e := by
      induction l with
      | nil => simp at hl
      | cons η l ih =>
        simp only [candidates, initInversion]
        by_cases h0 : η = 0
        · exact ⟨_, by rw [if_pos h0, Py.bind_error]⟩
        · simp only [if_neg h0, Py.bind_ok]
          cases fitOne P η c obs w {} with
          | error e => exact ⟨e, rfl⟩
          | ok x =>
            obtain ⟨e, he⟩ := ih ((List.mem_cons.1 hl).resolve_left fun h => h0 h.symm)
            exact ⟨e, by simp only [Py.bind_ok, he, Py.bind_error]⟩
    obtain ⟨e, he⟩ := hc
    exact ⟨e, by simp only [fitInversion, he, Py.bind_error]⟩

/-- C46: `fit` on arrays of any shape is the fit of their elements in C order. -/
theorem C46_arrays {P : Settings} {si : StructuralIndex} {shape : List ℕ} {coordinates : Fin 3 → Arr}
    {data : Fin 4 → Arr} (hs : Agree shape coordinates data) (w : Fin 4 → ℝ) (self : Attributes) :
    fit P si coordinates data w self = fitInversion (N := shape.prod) P si
      (fun k i => (coordinates k).data.getD i 0) (fun k i => (data k).data.getD i 0) w self := by
  unfold fit
  rw [ravel_ok hs]
  rfl

/-- C46, partial: the misfit that is compared is the root of the sum of the squared residuals times the
*squared* weights; it is the documented weighted norm when all weights are 0 or 1. Missing: the
documented norm for other weights, see `C46_not_full`. -/
theorem C46_misfit_partial {N : ℕ} (w : Fin 4 → ℝ) (hw : ∀ k, w k = 0 ∨ w k = 1) (obs d : Data N) :
    weightedMisfit w obs d = documentedMisfit w obs d := by
  unfold weightedMisfit documentedMisfit weightedSquare
  congr 1
  refine Finset.sum_congr rfl fun k _ => Finset.sum_congr rfl fun i _ => ?_
  rcases hw k with h | h <;> simp [h]

/-- C46: the misfit is not the documented weighted norm: with the same weight `v` for all data it is
√v times the documented one. -/
theorem C46_not_full :
    (∀ (N : ℕ) (v : ℝ) (_ : 0 ≤ v) (obs d : Data N),
      weightedMisfit (fun _ => v) obs d = Real.sqrt v * documentedMisfit (fun _ => v) obs d) ∧
    ¬ ∀ (w : Fin 4 → ℝ) (_ : ∀ k, 0 < w k) (obs d : Data 5),
      weightedMisfit w obs d = documentedMisfit w obs d := by
  have h1 : ∀ (N : ℕ) (v : ℝ) (_ : 0 ≤ v) (obs d : Data N),
      weightedMisfit (fun _ => v) obs d = Real.sqrt v * documentedMisfit (fun _ => v) obs d := by
    intro N v hv obs d
    unfold weightedMisfit documentedMisfit weightedSquare
    rw [← Real.sqrt_mul hv]
    congr 1
    simp only [Finset.mul_sum]
    exact Finset.sum_congr rfl fun k _ => Finset.sum_congr rfl fun i _ => by ring
  refine ⟨h1, fun h => ?_⟩
  have h2 := h (fun _ => 4) (fun _ => by norm_num) (fun _ _ => 1) (fun _ _ => 0)
  rw [h1 5 4 (by norm_num)] at h2
  have h4 : Real.sqrt 4 = 2 := by
    rw [show (4 : ℝ) = 2 ^ 2 by norm_num, Real.sqrt_sq (by norm_num)]
  rw [h4] at h2
  have h5 : documentedMisfit (N := 5) (fun _ => 4) (fun _ _ => 1) (fun _ _ => 0) = 0 := by linarith
  unfold documentedMisfit weightedSquare at h5
  rw [Real.sqrt_eq_zero (by positivity)] at h5
  norm_num at h5

end Verif.Euler
