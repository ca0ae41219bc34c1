import Verif.Euler.Lemmas

/-!
C44 Euler deconvolution.
-/

namespace Verif.Euler
open Matrix

/-! ### C44 -/

/-- C44: a structural index of zero is rejected with ValueError, any other is accepted (the same for
the inversion). -/
theorem C44_init (η : ℝ) :
    (η = 0 → initDeconvolution η = .error .ValueError ∧
      initInversion (.scalar η) = .error .ValueError) ∧
    (η ≠ 0 → initDeconvolution η = .ok η ∧ initInversion (.scalar η) = .ok (.scalar η)) := by
  constructor <;> intro h <;> simp [initDeconvolution, initInversion, h]

/-- C44: arrays of different shapes are rejected with ValueError. -/
theorem C44_shapes (η : ℝ) (coordinates : Fin 3 → Arr) (data : Fin 4 → Arr) (self : Attributes)
    (P : Settings) (si : StructuralIndex) (weights : Fin 4 → ℝ)
    (h : ¬ ∃ shape, (∀ k, (coordinates k).shape = shape) ∧ ∀ k, (data k).shape = shape) :
    fitDeconvolution η coordinates data self = .error .ValueError ∧
      fit P si coordinates data weights self = .error .ValueError := by
  unfold fitDeconvolution fit
  simp only [ravel_error h, Py.bind_error, and_self]

theorem sum_fin (N : ℕ) (f : ℕ → ℝ) : ∑ i : Fin N, f i = ∑ i ∈ Finset.range N, f i :=
  Fin.sum_univ_eq_sum_range f N

theorem independent_arr (N : ℕ) (data : Fin 4 → Arr) :
    Independent N data ↔ Independent1 (N := N) fun k i => (data k).data.getD i 0 := by
  constructor
  · intro h q hq
    exact h q fun i hi => hq ⟨i, hi⟩
  · intro h q hq
    exact h q fun i => hq i i.2

theorem normal_eq_jacobian (η : ℝ) (N : ℕ) (data : Fin 4 → Arr) :
    (jacobian (N := N) η fun k i => (data k).data.getD i 0)ᵀ *
      jacobian (N := N) η (fun k i => (data k).data.getD i 0) = normalMatrix η N data := by
  ext j k
  rw [mul_apply, normalMatrix, of_apply, ← sum_fin]
  refine Finset.sum_congr rfl fun i _ => ?_
  fin_cases j <;> fin_cases k <;> simp [jacobian]

theorem overCount_four (x : ℝ) (N : ℕ) :
    overCount x ((N : ℝ) - 4) = if N = 4 then none else some (x / ((N : ℝ) - 4)) := by
  unfold overCount
  by_cases h4 : N = 4
  · rw [if_pos h4, if_pos (by rw [h4]; norm_num)]
  · rw [if_neg h4, if_neg]
    intro h
    apply h4
    have : (N : ℝ) = 4 := by linarith
    exact_mod_cast this

/-- C44: when the normal matrix is singular, `fit` raises LinAlgError. -/
theorem C44_singular {η : ℝ} (hη : η ≠ 0) {shape : List ℕ} {coordinates : Fin 3 → Arr}
    {data : Fin 4 → Arr} (hs : Agree shape coordinates data)
    (hind : ¬ Independent shape.prod data) (self : Attributes) :
    fitDeconvolution η coordinates data self = .error .LinAlgError := by
  unfold fitDeconvolution
  rw [ravel_ok hs]
  simp only [Py.bind_ok]
  rw [deconvolution_singular hη _ _ ((independent_arr _ _).not.1 hind)]
  rfl

/-- C44: otherwise `fit` returns the only position and base level that minimise the sum of the squared
residuals of Euler's equation, and the covariance is that sum divided by the degrees of freedom times
the inverse of the normal matrix (not finite for four data). -/
theorem C44_least_squares {η : ℝ} (hη : η ≠ 0) {shape : List ℕ} {coordinates : Fin 3 → Arr}
    {data : Fin 4 → Arr} (hs : Agree shape coordinates data)
    (hind : Independent shape.prod data) (self : Attributes) :
    ∃ location base_level,
      fitDeconvolution η coordinates data self = .ok { self with
        location_ := some location
        base_level_ := some base_level
        covariance_ := some (if shape.prod = 4 then none else
          some (((∑ i ∈ Finset.range shape.prod,
            eulerResidual η coordinates data (joined location base_level) i ^ 2) /
              ((shape.prod : ℝ) - 4)) • (normalMatrix η shape.prod data)⁻¹)) } ∧
      ∀ q : Fin 4 → ℝ, q ≠ joined location base_level →
        ∑ i ∈ Finset.range shape.prod,
          eulerResidual η coordinates data (joined location base_level) i ^ 2 <
        ∑ i ∈ Finset.range shape.prod, eulerResidual η coordinates data q i ^ 2 := by
  obtain ⟨p, C, h1, hC, h2, h3⟩ := deconvolution_ok hη
    (fun k (i : Fin shape.prod) => (coordinates k).data.getD i 0) _ ((independent_arr _ _).1 hind)
  rw [normal_eq_jacobian] at hC
  rw [overCount_four] at h1
  refine ⟨![p 0, p 1, p 2], p 3, ?_, ?_⟩
  · unfold fitDeconvolution
    rw [ravel_ok hs]
    simp only [Py.bind_ok]
    rw [h1, joined_vec, ← hC, ← sum_fin _ fun i => eulerResidual η coordinates data p i ^ 2]
    simp only [Py.bind_ok, Py.pure_eq]
    split <;> rfl
  · rw [joined_vec]
    intro q hq
    rw [← sum_fin _ fun i => eulerResidual η coordinates data p i ^ 2,
      ← sum_fin _ fun i => eulerResidual η coordinates data q i ^ 2]
    exact lt_of_not_ge fun hge => hq (h3 q hge)

/-- C44, partial: exact data. If the data satisfy Euler's equation for a position and a base level and
the normal matrix is invertible, `fit` returns them, and the covariance is zero if there are other
than four data. Missing: four data, see `C44_not_full`. -/
theorem C44_exact_partial {η : ℝ} (hη : η ≠ 0) {shape : List ℕ} {coordinates : Fin 3 → Arr}
    {data : Fin 4 → Arr} (hs : Agree shape coordinates data)
    (hind : Independent shape.prod data) (location : Fin 3 → ℝ) (base_level : ℝ)
    (hexact : ∀ i < shape.prod,
      eulerResidual η coordinates data (joined location base_level) i = 0) (self : Attributes) :
    fitDeconvolution η coordinates data self = .ok { self with
      location_ := some location
      base_level_ := some base_level
      covariance_ := some (if shape.prod = 4 then none else some 0) } := by
  obtain ⟨p, C, h1, -, h2, h3⟩ := deconvolution_ok hη
    (fun k (i : Fin shape.prod) => (coordinates k).data.getD i 0) _ ((independent_arr _ _).1 hind)
  have h0 : ∑ i, eulerResidual1 (N := shape.prod) η (fun k i => (coordinates k).data.getD i 0)
      (fun k i => (data k).data.getD i 0) (joined location base_level) i ^ 2 = 0 := by
    refine Finset.sum_eq_zero fun i _ => ?_
    have := hexact i i.2
    simpa [eulerResidual1, eulerResidual] using this
  have hp : joined location base_level = p := by
    refine h3 _ ?_
    rw [h0]
    exact Finset.sum_nonneg fun i _ => sq_nonneg _
  rw [← hp, h0] at h1
  unfold fitDeconvolution
  rw [ravel_ok hs]
  simp only [Py.bind_ok]
  rw [h1]
  simp only [Py.bind_ok, Py.pure_eq]
  have e1 : ![joined location base_level 0, joined location base_level 1,
      joined location base_level 2] = location := by
    funext k
    fin_cases k <;> simp [joined]
  have e2 : joined location base_level 3 = base_level := by simp [joined]
  rw [overCount_four]
  have e3 : (if shape.prod = 4 then none else some (0 / ((shape.prod : ℝ) - 4))).map
      (fun c => c • C) = if shape.prod = 4 then none else some 0 := by
    split <;> simp
  rw [e1, e2, e3]

/-- C44: fewer than four data cannot have an invertible normal matrix. -/
theorem C44_few {η : ℝ} (hη : η ≠ 0) {shape : List ℕ} {coordinates : Fin 3 → Arr}
    {data : Fin 4 → Arr} (hs : Agree shape coordinates data) (h4 : shape.prod < 4)
    (self : Attributes) :
    fitDeconvolution η coordinates data self = .error .LinAlgError := by
  refine C44_singular hη hs (fun hind => ?_) self
  rw [independent_arr, independent_iff hη] at hind
  have hinj : Function.Injective (jacobian (N := shape.prod) η
      fun k i => (data k).data.getD i 0).mulVecLin := by
    rw [← LinearMap.ker_eq_bot, LinearMap.ker_eq_bot']
    intro v hv
    exact hind v (by simpa using hv)
  have := LinearMap.finrank_le_finrank_of_injective hinj
  simp at this
  omega

/-! ### C75 -/

/-- Two data sets with invertible normal matrices, the same number of degrees of freedom and a
bijection of the parameters that keeps the sum of squares up to a positive factor: the estimates
correspond. -/
theorem transfer {N : ℕ} {η : ℝ} (hη : η ≠ 0) {c c' : Coordinates N} {d d' : Data N}
    (hd : Independent1 d) (hd' : Independent1 d') (T S : (Fin 4 → ℝ) → Fin 4 → ℝ)
    (hTS : ∀ q, T (S q) = q) (f : ℝ) (hf : 0 < f)
    (h : ∀ q, ∑ i, eulerResidual1 η c' d' (T q) i ^ 2 = f * ∑ i, eulerResidual1 η c d q i ^ 2) :
    ∃ p cov cov', deconvolution η c d = .ok (![p 0, p 1, p 2], p 3, cov) ∧
      deconvolution η c' d' = .ok (![T p 0, T p 1, T p 2], T p 3, cov') := by
  obtain ⟨p, C, h1, -, h2, h3⟩ := deconvolution_ok hη c d hd
  obtain ⟨p', C', h1', -, h2', h3'⟩ := deconvolution_ok hη c' d' hd'
  have : T p = p' := by
    refine h3' _ ?_
    rw [h, ← hTS p', h]
    exact mul_le_mul_of_nonneg_left (h2 _) hf.le
  rw [← this] at h1'
  exact ⟨p, _, _, h1, h1'⟩

/-- C75: translating all the coordinates by `t` translates the estimated position by `t` and changes
neither base level nor covariance (and nothing about success). -/
theorem C75_translation {N : ℕ} {η : ℝ} (hη : η ≠ 0) (c : Coordinates N) (d : Data N)
    (t : Fin 3 → ℝ) :
    deconvolution η (fun k i => c k i + t k) d =
      (deconvolution η c d).map fun r => (r.1 + t, r.2.1, r.2.2) := by
  by_cases hd : Independent1 d
  · obtain ⟨p, C, h1, hC, h2, h3⟩ := deconvolution_ok hη c d hd
    obtain ⟨p', C', h1', hC', h2', h3'⟩ := deconvolution_ok hη (fun k i => c k i + t k) d hd
    have hr : ∀ q i, eulerResidual1 η (fun k i => c k i + t k) d
        ![q 0 + t 0, q 1 + t 1, q 2 + t 2, q 3] i = eulerResidual1 η c d q i := by
      intro q i
      simp only [eulerResidual1, cons_val_zero, cons_val_one, cons_val]
      ring
    have hp : ![p 0 + t 0, p 1 + t 1, p 2 + t 2, p 3] = p' := by
      refine h3' _ ?_
      have e : p' = ![![p' 0 - t 0, p' 1 - t 1, p' 2 - t 2, p' 3] 0 + t 0,
          ![p' 0 - t 0, p' 1 - t 1, p' 2 - t 2, p' 3] 1 + t 1,
          ![p' 0 - t 0, p' 1 - t 1, p' 2 - t 2, p' 3] 2 + t 2,
          ![p' 0 - t 0, p' 1 - t 1, p' 2 - t 2, p' 3] 3] := by
        funext k
        fin_cases k <;> simp
      rw [e]
      simp only [hr]
      exact h2 _
    rw [h1, h1', hC, hC', ← hp]
    simp only [hr, Except.map]
    congr 2
    funext k
    fin_cases k <;> simp
  · rw [deconvolution_singular hη c d hd, deconvolution_singular hη _ d hd]
    rfl

/-- C75: multiplying all the data by a nonzero factor does not move the estimated position and multiplies
the base level by the factor. -/
theorem C75_scaling {N : ℕ} {η : ℝ} (hη : η ≠ 0) (c : Coordinates N) (d : Data N) {s : ℝ}
    (hs : s ≠ 0) :
    (deconvolution η c (fun k i => s * d k i)).map (fun r => (r.1, r.2.1)) =
      (deconvolution η c d).map fun r => (r.1, s * r.2.1) := by
  have hiff : Independent1 (fun k i => s * d k i : Data N) ↔ Independent1 d := by
    constructor
    · intro h q hq
      have := h ![q 0, q 1, q 2, s * q 3] fun i => by
        simp only [cons_val_zero, cons_val_one, cons_val]
        have := hq i
        linear_combination s * this
      have h0 : q 0 = 0 := congrFun this 0
      have h1 : q 1 = 0 := congrFun this 1
      have h2 : q 2 = 0 := congrFun this 2
      have h3 : s * q 3 = 0 := congrFun this 3
      have h3' : q 3 = 0 := (mul_eq_zero.1 h3).resolve_left hs
      funext k
      fin_cases k <;> simp [h0, h1, h2, h3']
    · intro h q hq
      have := h ![s * q 0, s * q 1, s * q 2, q 3] fun i => by
        simp only [cons_val_zero, cons_val_one, cons_val]
        have := hq i
        linear_combination this
      have h0 : s * q 0 = 0 := congrFun this 0
      have h1 : s * q 1 = 0 := congrFun this 1
      have h2 : s * q 2 = 0 := congrFun this 2
      have h3 : q 3 = 0 := congrFun this 3
      simp only [mul_eq_zero, hs, false_or] at h0 h1 h2
      funext k
      fin_cases k <;> simp [h0, h1, h2, h3]
  by_cases hd : Independent1 d
  · obtain ⟨p, cov, cov', h1, h2⟩ := transfer hη (c := c) (c' := c) hd (hiff.2 hd)
      (fun q => ![q 0, q 1, q 2, s * q 3]) (fun q => ![q 0, q 1, q 2, q 3 / s])
      (fun q => by
        funext k
        fin_cases k <;> simp <;> field_simp)
      (s ^ 2) (by positivity)
      (fun q => by
        rw [Finset.mul_sum]
        refine Finset.sum_congr rfl fun i _ => ?_
        simp only [eulerResidual1, cons_val_zero, cons_val_one, cons_val]
        ring)
    rw [h1, h2]
    simp [Except.map]
  · rw [deconvolution_singular hη c d hd, deconvolution_singular hη _ _ (hiff.not.2 hd)]
    rfl

/-- C75: adding a constant to the field adds it to the base level and changes nothing else. -/
theorem C75_base_level {N : ℕ} {η : ℝ} (hη : η ≠ 0) (c : Coordinates N) (d : Data N) (a : ℝ) :
    (deconvolution η c (fun k i => if k = 0 then d 0 i + a else d k i)) =
      (deconvolution η c d).map fun r => (r.1, r.2.1 + a, r.2.2) := by
  set d' : Data N := fun k i => if k = 0 then d 0 i + a else d k i with hd'
  have hJ : jacobian η d' = jacobian η d := by
    ext i k
    fin_cases k <;> simp [jacobian, hd']
  have hI : Independent1 d' ↔ Independent1 d := by
    rw [independent_iff hη, independent_iff hη, hJ]
  by_cases hd : Independent1 d
  · obtain ⟨p, C, h1, hC, h2, h3⟩ := deconvolution_ok hη c d hd
    obtain ⟨p', C', h1', hC', h2', h3'⟩ := deconvolution_ok hη c d' (hI.2 hd)
    have hr : ∀ q i, eulerResidual1 η c d' ![q 0, q 1, q 2, q 3 + a] i =
        eulerResidual1 η c d q i := by
      intro q i
      simp [eulerResidual1, hd']
    have hp : ![p 0, p 1, p 2, p 3 + a] = p' := by
      refine h3' _ ?_
      have e : p' = ![![p' 0, p' 1, p' 2, p' 3 - a] 0, ![p' 0, p' 1, p' 2, p' 3 - a] 1,
          ![p' 0, p' 1, p' 2, p' 3 - a] 2, ![p' 0, p' 1, p' 2, p' 3 - a] 3 + a] := by
        funext k
        fin_cases k <;> simp
      rw [e]
      simp only [hr]
      exact h2 _
    rw [h1, h1', hC, hC', ← hp, hJ]
    simp only [hr, Except.map]
    simp
  · rw [deconvolution_singular hη c d hd, deconvolution_singular hη _ d' (hI.not.2 hd)]
    rfl

/-- C75: the order of the observations does not matter. -/
theorem C75_order {N : ℕ} {η : ℝ} (hη : η ≠ 0) (c : Coordinates N) (d : Data N)
    (σ : Equiv.Perm (Fin N)) :
    deconvolution η (fun k i => c k (σ i)) (fun k i => d k (σ i)) = deconvolution η c d := by
  set c' : Coordinates N := fun k i => c k (σ i) with hc'
  set d' : Data N := fun k i => d k (σ i) with hd'
  have hJ : (jacobian η d')ᵀ * jacobian η d' = (jacobian η d)ᵀ * jacobian η d := by
    ext j k
    rw [mul_apply, mul_apply, ← Equiv.sum_comp σ fun i => (jacobian η d)ᵀ j i * jacobian η d i k]
    rfl
  have hI : Independent1 d' ↔ Independent1 d := by
    rw [← det_hessian hη, hJ, det_hessian hη]
  have hr : ∀ q, ∑ i, eulerResidual1 η c' d' q i ^ 2 = ∑ i, eulerResidual1 η c d q i ^ 2 := by
    intro q
    rw [← Equiv.sum_comp σ fun i => eulerResidual1 η c d q i ^ 2]
    rfl
  by_cases hd : Independent1 d
  · obtain ⟨p, C, h1, hC, h2, h3⟩ := deconvolution_ok hη c d hd
    obtain ⟨p', C', h1', hC', h2', h3'⟩ := deconvolution_ok hη c' d' (hI.2 hd)
    have hp : p = p' := by
      refine h3' _ ?_
      rw [hr, hr]
      exact h2 _
    rw [h1, h1', hC, hC', ← hp, hJ, hr]
  · rw [deconvolution_singular hη c d hd, deconvolution_singular hη _ d' (hI.not.2 hd)]

end Verif.Euler
