import Verif.Ellipsoids.PropsG
import Mathlib.Analysis.Calculus.FDeriv.Symmetric

/-! Property C98: the magnetic field of ellipsoids has neither divergence nor curl. -/

namespace Verif.Ellipsoids
open Filter Topology Verif.Forward Verif.Distance

/-! ### Derivatives of the tensor outside -/

theorem diff_div {f g : V3 → ℝ} {v : V3} (hf : DifferentiableAt ℝ f v) (hg : DifferentiableAt ℝ g v)
    (h : g v ≠ 0) : DifferentiableAt ℝ (fun w => f w / g w) v := by
  simp only [div_eq_mul_inv]
  exact hf.fun_mul (hg.fun_inv h)

theorem demagOutside_differentiable {s : V3} (hs : Positive s) {v : V3} (hv : 1 < confocalSum s v 0)
    (i j : Fin 3) : DifferentiableAt ℝ (fun w => demagOutside s w i j) v := by
  have hl : DifferentiableAt ℝ (confocalParameter s) v :=
    (confocalParameter_hasFDerivAt hs hv).differentiableAt
  have hcoord : ∀ k, DifferentiableAt ℝ (fun w : V3 => w k) v := fun k => differentiableAt_apply k v
  have hl0 := confocalParameter_nonneg s v
  have hpos : ∀ k, s k ^ 2 + confocalParameter s v ≠ 0 := fun k => by
    have := pow_pos (hs k) 2; positivity
  have hden : ∀ k, DifferentiableAt ℝ (fun w => s k ^ 2 + confocalParameter s w) v := fun k =>
    hl.const_add _
  have hS : (∑ k, (v k / (s k ^ 2 + confocalParameter s v)) ^ 2) ≠ 0 := (sum_sq_pos hs hv.le).ne'
  have hprod : (s 0 ^ 2 + confocalParameter s v) * (s 1 ^ 2 + confocalParameter s v) *
      (s 2 ^ 2 + confocalParameter s v) ≠ 0 := mul_ne_zero (mul_ne_zero (hpos 0) (hpos 1)) (hpos 2)
  have hroot : rootProduct (s 0) (s 1) (s 2) (confocalParameter s v) ≠ 0 := by
    unfold rootProduct
    have h0 := pow_pos (hs 0) 2; have h1 := pow_pos (hs 1) 2; have h2 := pow_pos (hs 2) 2
    exact (Real.sqrt_pos.2 (by positivity)).ne'
  have hrootc : DifferentiableAt ℝ (fun w => rootProduct (s 0) (s 1) (s 2) (confocalParameter s w)) v := by
    unfold rootProduct
    exact (((hden 0).mul (hden 1)).mul (hden 2)).sqrt hprod
  have hint : DifferentiableAt ℝ (fun w => integralsOf s (confocalParameter s w) i) v :=
    DifferentiableAt.comp v (g := fun l => integralsOf s l i) (integralsOf_deriv hs hl0 i).differentiableAt hl
  have hgrad : DifferentiableAt ℝ (fun w => confocalGradient s w i) v := by
    unfold confocalGradient
    have hq : ∀ k, DifferentiableAt ℝ (fun w : V3 => w k / (s k ^ 2 + confocalParameter s w)) v := fun k => by
      refine diff_div (hcoord k) (hden k) ?_
      exact hpos k
    have hq' : DifferentiableAt ℝ (fun w : V3 => 2 * w i / (s i ^ 2 + confocalParameter s w)) v := by
      refine diff_div ((hcoord i).const_mul 2) (hden i) ?_
      exact hpos i
    have hSd : DifferentiableAt ℝ (fun w : V3 => ∑ k, (w k / (s k ^ 2 + confocalParameter s w)) ^ 2) v :=
      DifferentiableAt.fun_sum fun k _ => (hq k).fun_pow 2
    refine diff_div hq' hSd ?_
    exact hS
  have h1 : DifferentiableAt ℝ (fun w => -(1 / ((s j ^ 2 + confocalParameter s w) *
      rootProduct (s 0) (s 1) (s 2) (confocalParameter s w)))) v := by
    refine DifferentiableAt.fun_neg (diff_div (differentiableAt_const (1 : ℝ))
      ((hden j).fun_mul hrootc) ?_)
    exact mul_ne_zero (hpos j) hroot
  unfold demagOutside
  refine (((hgrad.mul h1).mul (hcoord j)).add ?_).const_mul _
  split_ifs
  · exact hint
  · exact differentiableAt_const _

theorem outside_eventually {s v : V3} (hv : 1 < confocalSum s v 0) : ∀ᶠ w in 𝓝 v, 1 < confocalSum s w 0 :=
  (confocalSum_zero_continuous s).tendsto v |>.eventually (lt_mem_nhds hv)

/-- Derivative of an entry of the tensor in the direction of an axis. -/
noncomputable def dDemag (s v : V3) (i j k : Fin 3) : ℝ :=
  fderiv ℝ (fun w => demagOutside s w i j) v (Pi.single k 1)

/-- The derivatives of the tensor do not depend on the order of the indices. -/
theorem dDemag_swap {s : V3} (hs : Positive s) {v : V3} (hv : 1 < confocalSum s v 0) (i j k : Fin 3) :
    dDemag s v i j k = dDemag s v i k j := by
  have hc : (-(4 * Real.pi * gravitationalConst * 1)) ≠ 0 := by
    have := gravitationalConst_pos
    have hp := Real.pi_pos
    have : 0 < 4 * Real.pi * gravitationalConst * 1 := by positivity
    linarith
  set c := -(4 * Real.pi * gravitationalConst * 1) with hcd
  have h1 : ∀ᶠ w in 𝓝 v, HasFDerivAt (fun x => dirichletAttraction s 1 x i)
      (linForm fun j => c * demagOutside s w i j) w := by
    filter_upwards [outside_eventually hv] with w hw
    have := hasFDerivAt_pi'.1 (dirichlet_deriv_outside hs hw 1) i
    refine this.congr_fderiv ?_
    refine ContinuousLinearMap.ext fun x => ?_
    simp only [linForm_apply, ContinuousLinearMap.comp_apply, ContinuousLinearMap.proj_apply,
      LinearMap.coe_toContinuousLinearMap', Matrix.mulVecLin_apply, Matrix.mulVec, dotProduct,
      Matrix.smul_apply, smul_eq_mul]
    rfl
  have h2 : HasFDerivAt (fun w => linForm fun j => c * demagOutside s w i j)
      (∑ j, ((c • fderiv ℝ (fun w => demagOutside s w i j) v).smulRight
        (ContinuousLinearMap.proj (R := ℝ) (φ := fun _ : Fin 3 => ℝ) j))) v := by
    unfold linForm
    refine HasFDerivAt.fun_sum fun j _ => ?_
    exact ((demagOutside_differentiable hs hv i j).hasFDerivAt.const_mul c).smul_const
      (ContinuousLinearMap.proj (R := ℝ) (φ := fun _ : Fin 3 => ℝ) j : V3 →L[ℝ] ℝ)
  have h3 := second_derivative_symmetric_of_eventually h1 h2 (Pi.single k 1) (Pi.single j 1)
  have e : ∀ a b : Fin 3, (∑ j, ((c • fderiv ℝ (fun w => demagOutside s w i j) v).smulRight
        (ContinuousLinearMap.proj (R := ℝ) (φ := fun _ : Fin 3 => ℝ) j))) (Pi.single a 1) (Pi.single b 1) =
      c * dDemag s v i b a := by
    intro a b
    simp only [sum_apply, ContinuousLinearMap.smulRight_apply, smul_apply,
      ContinuousLinearMap.proj_apply, smul_eq_mul, dDemag]
    rw [Finset.sum_eq_single b]
    · simp
    · intro d _ hd
      simp [hd]
    · simp
  rw [e, e] at h3
  exact mul_left_cancel₀ hc h3

/-- The derivatives of the trace are zero. -/
theorem dDemag_trace {s : V3} (hs : Positive s) {v : V3} (hv : 1 < confocalSum s v 0) (k : Fin 3) :
    ∑ i, dDemag s v i i k = 0 := by
  have h1 : HasFDerivAt (fun w => ∑ i, demagOutside s w i i)
      (∑ i, fderiv ℝ (fun w => demagOutside s w i i) v) v :=
    HasFDerivAt.fun_sum fun i _ => (demagOutside_differentiable hs hv i i).hasFDerivAt
  have h2 : HasFDerivAt (fun w => ∑ i, demagOutside s w i i) (0 : V3 →L[ℝ] ℝ) v := by
    refine (hasFDerivAt_const (0 : ℝ) v).congr_of_eventuallyEq ?_
    filter_upwards [outside_eventually hv] with w hw
    exact demagOutside_trace hs hw.le
  have h3 := congrArg (fun f : V3 →L[ℝ] ℝ => f (Pi.single k 1)) (h1.unique h2)
  simpa [sum_apply, dDemag] using h3

theorem dDemag_symm (s v : V3) (i j k : Fin 3) : dDemag s v i j k = dDemag s v j i k := by
  unfold dDemag
  congr 2
  funext w
  exact (congrFun (congrFun (demagOutside_symm s w) j) i)

/-- Derivative of the tensor applied to a constant vector. -/
theorem demagOutside_mulVec_deriv {s : V3} (hs : Positive s) {v : V3} (hv : 1 < confocalSum s v 0) (m : V3) :
    ∃ K : M3, HasFDerivAt (fun w => (demagOutside s w).mulVec m) (jacobian K) v ∧ K.transpose = K ∧
      K.trace = 0 := by
  refine ⟨Matrix.of fun i k => ∑ j, dDemag s v i j k * m j, ?_, ?_, ?_⟩
  · rw [hasFDerivAt_pi']
    intro i
    have h1 : HasFDerivAt (fun w => ∑ j, demagOutside s w i j * m j)
        (∑ j, m j • fderiv ℝ (fun w => demagOutside s w i j) v) v :=
      HasFDerivAt.fun_sum fun j _ => (demagOutside_differentiable hs hv i j).hasFDerivAt.mul_const (m j)
    refine h1.congr_fderiv ?_
    refine ContinuousLinearMap.ext fun x => ?_
    have hx : x = ∑ k, x k • (Pi.single k 1 : V3) := by
      ext a
      simp [Finset.sum_apply, Pi.single_apply]
    simp only [sum_apply, smul_apply, smul_eq_mul, ContinuousLinearMap.comp_apply,
      ContinuousLinearMap.proj_apply, LinearMap.coe_toContinuousLinearMap', Matrix.mulVecLin_apply,
      Matrix.mulVec, dotProduct, Matrix.of_apply]
    have e : ∀ j, fderiv ℝ (fun w => demagOutside s w i j) v x = ∑ k, x k * dDemag s v i j k := by
      intro j
      conv_lhs => rw [hx]
      rw [map_sum]
      simp only [map_smul, smul_eq_mul, dDemag]
    simp only [e, Finset.mul_sum, Finset.sum_mul]
    rw [Finset.sum_comm]
    refine Finset.sum_congr rfl fun k _ => Finset.sum_congr rfl fun j _ => ?_
    ring
  · ext i k
    rw [Matrix.transpose_apply, Matrix.of_apply, Matrix.of_apply]
    refine Finset.sum_congr rfl fun j _ => ?_
    rw [dDemag_swap hs hv k j i, dDemag_symm s v k i j, dDemag_swap hs hv i k j]
  · unfold Matrix.trace
    simp only [Matrix.diag_apply, Matrix.of_apply]
    rw [Finset.sum_comm]
    refine Finset.sum_eq_zero fun j _ => ?_
    rw [← Finset.sum_mul]
    have : ∑ i, dDemag s v i j i = ∑ i, dDemag s v i i j :=
      Finset.sum_congr rfl fun i _ => dDemag_swap hs hv i j i
    rw [this, dDemag_trace hs hv j, zero_mul]

/-! ### The field of a body -/

theorem zero_deriv (c p : V3) : HasFDerivAt (fun _ : V3 => c) (jacobian 0) p := by
  refine (hasFDerivAt_const c p).congr_fderiv ?_
  ext v : 1
  simp [jacobian]

theorem magneticField_deriv {e : Ellipsoid} (h : e.Valid) (mu0 : ℝ) (M : V3) {p : V3} (hp : ¬e.OnSurface p) :
    ∃ J : M3, HasFDerivAt (e.magneticField mu0 M) (jacobian J) p ∧ J.transpose = J ∧ J.trace = 0 := by
  have hs := valid_positive h
  rw [onSurface_iff, quadric_eq] at hp
  have hin' : ∀ q, e.Inside q ↔ confocalSum e.axes (e.local q) 0 < 1 := by
    intro q
    rw [inside_iff, quadric_eq]; rfl
  have hax : e.axes = ![e.a, e.b, e.c] := rfl
  rw [← hax] at hp
  have hloc : Continuous fun q => e.local q := by
    have := (jacobian e.rotationMatrix.transpose).continuous.comp (continuous_id.sub
      (continuous_const (y := e.center)))
    exact this
  have hsum : Continuous fun q => confocalSum e.axes (e.local q) 0 :=
    (confocalSum_zero_continuous e.axes).comp hloc
  by_cases hin : confocalSum e.axes (e.local p) 0 < 1
  · refine ⟨0, ?_, by simp, by simp⟩
    refine (zero_deriv (mu0 • (M - (e.toSpace (demagInside e.axes)).mulVec M)) p).congr_of_eventuallyEq ?_
    filter_upwards [hsum.tendsto p |>.eventually (gt_mem_nhds hin)] with q hq
    unfold Ellipsoid.magneticField
    rw [if_pos ((hin' q).2 hq)]
  · have hout : 1 < confocalSum e.axes (e.local p) 0 := lt_of_le_of_ne (not_lt.1 hin) (Ne.symm hp)
    obtain ⟨K, k1, k2, k3⟩ := demagOutside_mulVec_deriv hs hout (e.rotationMatrix.transpose.mulVec M)
    have k4 := body_deriv e k1
    refine ⟨(-mu0) • e.toSpace K, ?_, ?_, ?_⟩
    · have k5 : HasFDerivAt (fun q => (-mu0) • e.rotationMatrix.mulVec
          ((demagOutside e.axes (e.local q)).mulVec (e.rotationMatrix.transpose.mulVec M)))
          ((-mu0) • jacobian (e.toSpace K)) p := k4.const_smul (-mu0)
      refine (k5.congr_fderiv ?_).congr_of_eventuallyEq ?_
      · ext v : 1
        simp [jacobian]
      · filter_upwards [hsum.tendsto p |>.eventually (lt_mem_nhds hout)] with q hq
        unfold Ellipsoid.magneticField
        rw [if_neg (fun h => absurd ((hin' q).1 h) (not_lt.2 hq.le)), toSpace_mulVec, neg_smul]
    · rw [Matrix.transpose_smul, toSpace_symm e k2]
    · rw [Matrix.trace_smul, toSpace_trace, k3, smul_zero]

/-! ### The field returned -/

theorem returnsMagnetic_sum (mu0 : ℝ) (bodies : Bodies) (h : ∀ e ∈ bodies.toList, e.Valid ∧ e.Passive ∧ e.Exact)
    (B0 : V3) : ∃ M : Ellipsoid → V3, (∀ e ∈ bodies.toList,
        M e + (e.toSpace (demagInside e.axes)).mulVec ((e.toSpace e.chi).mulVec (M e)) =
          e.remanence + (e.toSpace e.chi).mulVec (inducingH mu0 B0)) ∧
      ReturnsMagnetic mu0 bodies B0 fun p => (bodies.toList.map fun e => e.magneticField mu0 (M e) p).sum := by
  obtain ⟨M, hM, -⟩ := C68_general mu0 [0] [] rfl bodies h B0
  refine ⟨M, hM, fun shape pts hs => ?_⟩
  obtain ⟨M', hM', h2⟩ := C68_general mu0 shape pts hs bodies h B0
  have : ∀ e ∈ bodies.toList, M' e = M e := by
    intro e he
    obtain ⟨n, T, hsol, hEx, P, ν, hP, hν, hsum, hn⟩ := singleMagnetic_total (h e he).1
    have hdet : (1 + n * e.chi).det ≠ 0 := by rw [hn]; exact passive_det (h e he).2.1 hP hν hsum
    rw [(hEx (h e he).2.2).1] at hdet
    have key : ∀ M : V3, M + (e.toSpace (demagInside e.axes)).mulVec ((e.toSpace e.chi).mulVec M) =
        e.remanence + (e.toSpace e.chi).mulVec (inducingH mu0 B0) →
        SolvedByCode (e.toSpace e.chi) (e.toSpace (demagInside e.axes)) (inducingH mu0 B0) e.remanence M := by
      intro M hM
      unfold SolvedByCode
      rw [Matrix.add_mulVec, Matrix.one_mulVec, ← Matrix.mulVec_mulVec]
      exact hM
    exact solved_unique hdet (key _ (hM' e he)) (key _ (hM e he))
  have e : (fun p => (bodies.toList.map fun e => e.magneticField mu0 (M' e) p).sum) =
      fun p => (bodies.toList.map fun e => e.magneticField mu0 (M e) p).sum := by
    funext p
    rw [List.map_congr_left fun e he => by rw [this e he]]
  rw [e] at h2
  exact ⟨_, h2⟩

/-- C98: the field computed by `ellipsoid_magnetic` for any bodies is differentiable at every point that is
not on the surface of one of them; its derivatives are a symmetric tensor (the curl is zero) and its
divergence is zero. -/
theorem C98_magnetic (mu0 : ℝ) (bodies : Bodies) (h : ∀ e ∈ bodies.toList, e.Valid ∧ e.Passive ∧ e.Exact)
    (B0 : V3) : ∃ field, ReturnsMagnetic mu0 bodies B0 field ∧
      ∀ p, (∀ e ∈ bodies.toList, ¬e.OnSurface p) → ∃ J : M3,
        HasFDerivAt field (jacobian J) p ∧ J.transpose = J ∧ J.trace = 0 := by
  obtain ⟨M, -, hM⟩ := returnsMagnetic_sum mu0 bodies h B0
  refine ⟨_, hM, fun p hp => ?_⟩
  clear hM
  generalize bodies.toList = es at h hp
  induction es with
  | nil =>
    refine ⟨0, ?_, by simp, by simp⟩
    simpa using zero_deriv 0 p
  | cons e es ih =>
    obtain ⟨J, h1, h2, h3⟩ := ih (fun e he => h e (by simp [he])) fun e he => hp e (by simp [he])
    obtain ⟨K, k1, k2, k3⟩ := magneticField_deriv (h e (by simp)).1 mu0 (M e) (hp e (by simp))
    refine ⟨K + J, ?_, by rw [Matrix.transpose_add, h2, k2], by rw [Matrix.trace_add, h3, k3, add_zero]⟩
    simp only [List.map_cons, List.sum_cons]
    refine (k1.add h1).congr_fderiv ?_
    ext v : 1
    simp [jacobian]

end Verif.Ellipsoids
