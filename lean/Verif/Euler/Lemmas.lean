import Verif.Euler.Spec
import Mathlib.LinearAlgebra.Matrix.ToLinearEquiv
import Mathlib.LinearAlgebra.Matrix.DotProduct
import Mathlib.Analysis.Calculus.Deriv.Mul
import Mathlib.Analysis.Calculus.Deriv.Add
import Mathlib.Algebra.Order.BigOperators.Ring.Finset

/-! Helper lemmas for C44-C46. -/

namespace Verif.Euler
open Matrix

theorem ravel_ok {shape : List ℕ} {coordinates : Fin 3 → Arr} {data : Fin 4 → Arr}
    (h : Agree shape coordinates data) :
    ravel coordinates data = .ok ⟨shape.prod, fun k i => (coordinates k).data.getD i 0,
      fun k i => (data k).data.getD i 0⟩ := by
  have h0 := (h.1 0).1
  subst h0
  unfold ravel
  rw [if_pos ⟨fun k => (h.1 k).1, fun k => (h.2 k).1⟩]

theorem ravel_error {coordinates : Fin 3 → Arr} {data : Fin 4 → Arr}
    (h : ¬ ∃ shape, (∀ k, (coordinates k).shape = shape) ∧ ∀ k, (data k).shape = shape) :
    ravel coordinates data = .error .ValueError := by
  unfold ravel
  rw [if_neg]
  rintro ⟨h1, h2⟩
  exact h ⟨_, h1, h2⟩

theorem inv_ok {A : Matrix (Fin 4) (Fin 4) ℝ} (h : A.det ≠ 0) : inv A = .ok A⁻¹ := by
  unfold inv; rw [if_neg h]

/-- `Aᵀ D A` is invertible for positive `D` iff the columns of `A` are independent. -/
theorem det_weighted {N : ℕ} (A : Matrix (Fin N) (Fin 4) ℝ) (D : Fin N → ℝ) (hD : ∀ i, 0 < D i) :
    (Aᵀ * diagonal D * A).det ≠ 0 ↔ ∀ v, A *ᵥ v = 0 → v = 0 := by
  rw [Ne, ← exists_mulVec_eq_zero_iff]
  constructor
  · intro h v hv
    by_contra hne
    refine h ⟨v, hne, ?_⟩
    rw [← mulVec_mulVec, hv, mulVec_zero]
  · rintro h ⟨v, hne, hv⟩
    refine hne (h v ?_)
    have h1 : v ⬝ᵥ ((Aᵀ * diagonal D * A) *ᵥ v) = ∑ i, D i * (A *ᵥ v) i ^ 2 := by
      rw [← mulVec_mulVec, ← mulVec_mulVec, dotProduct_mulVec, vecMul_transpose]
      simp only [dotProduct, mulVec_diagonal]
      exact Finset.sum_congr rfl fun i _ => by ring
    rw [hv, dotProduct_zero] at h1
    funext i
    have h2 := (Finset.sum_eq_zero_iff_of_nonneg (fun i _ =>
      mul_nonneg (hD i).le (sq_nonneg ((A *ᵥ v) i)))).1 h1.symm i (Finset.mem_univ i)
    rcases mul_eq_zero.1 h2 with h3 | h3
    · exact absurd h3 (hD i).ne'
    · simpa using h3

theorem det_normal {N : ℕ} (A : Matrix (Fin N) (Fin 4) ℝ) :
    (Aᵀ * A).det ≠ 0 ↔ ∀ v, A *ᵥ v = 0 → v = 0 := by
  have := det_weighted A (fun _ => 1) (fun _ => one_pos)
  rwa [diagonal_one, Matrix.mul_one] at this

theorem jacobian_mulVec {N : ℕ} (si : ℝ) (data : Data N) (v : Fin 4 → ℝ) (i : Fin N) :
    (jacobian si data *ᵥ v) i =
      data 1 i * v 0 + data 2 i * v 1 + data 3 i * v 2 + si * v 3 := by
  simp [jacobian, mulVec, dotProduct, Fin.sum_univ_four]

theorem parameterJacobian_mulVec {N : ℕ} (si : ℝ) (data : Data N) (v : Fin 4 → ℝ) (i : Fin N) :
    (parameterJacobian si data *ᵥ v) i =
      -(data 1 i * v 0 + data 2 i * v 1 + data 3 i * v 2 + si * v 3) := by
  simp [parameterJacobian, mulVec, dotProduct, Fin.sum_univ_four]; ring

theorem independent_iff {N : ℕ} {si : ℝ} (hsi : si ≠ 0) (data : Data N) :
    Independent1 data ↔ ∀ v, jacobian si data *ᵥ v = 0 → v = 0 := by
  constructor
  · intro h v hv
    have := h ![v 0, v 1, v 2, si * v 3] fun i => by
      have := congrFun hv i
      rw [jacobian_mulVec] at this
      simp only [cons_val_zero, cons_val_one, cons_val, Pi.zero_apply] at this ⊢
      linarith
    have h0 := congrFun this 0
    have h1 := congrFun this 1
    have h2 := congrFun this 2
    have h3 := congrFun this 3
    simp [hsi] at h0 h1 h2 h3
    funext k
    fin_cases k <;> simp [h0, h1, h2, h3]
  · intro h q hq
    have := h ![q 0, q 1, q 2, q 3 / si] (by
      funext i
      have := hq i
      rw [jacobian_mulVec]
      simp only [cons_val_zero, cons_val_one, cons_val, Pi.zero_apply]
      field_simp
      linarith)
    have h0 := congrFun this 0
    have h1 := congrFun this 1
    have h2 := congrFun this 2
    have h3 := congrFun this 3
    simp [hsi] at h0 h1 h2 h3
    funext k
    fin_cases k <;> simp [h0, h1, h2, h3]

theorem det_hessian {N : ℕ} {si : ℝ} (hsi : si ≠ 0) (data : Data N) :
    ((jacobian si data)ᵀ * jacobian si data).det ≠ 0 ↔ Independent1 data := by
  rw [det_normal, independent_iff hsi]

theorem pseudo_residual {N : ℕ} (si : ℝ) (coordinates : Coordinates N) (data : Data N)
    (p : Fin 4 → ℝ) (i : Fin N) :
    (pseudoData si coordinates data - jacobian si data *ᵥ p) i =
      eulerResidual1 si coordinates data p i := by
  rw [Pi.sub_apply, jacobian_mulVec]
  unfold pseudoData eulerResidual1
  ring

/-- Normal equations. -/
theorem normal_eq {N : ℕ} (J : Matrix (Fin N) (Fin 4) ℝ) (h : (Jᵀ * J).det ≠ 0) (d : Fin N → ℝ) :
    Jᵀ *ᵥ (d - J *ᵥ (((Jᵀ * J)⁻¹ * Jᵀ) *ᵥ d)) = 0 := by
  rw [mulVec_sub, mulVec_mulVec, mulVec_mulVec, ← Matrix.mul_assoc,
    mul_nonsing_inv _ (isUnit_iff_ne_zero.2 h), Matrix.one_mul, sub_self]

theorem least_squares {N : ℕ} (J : Matrix (Fin N) (Fin 4) ℝ) (d : Fin N → ℝ) (p q : Fin 4 → ℝ)
    (h : Jᵀ *ᵥ (d - J *ᵥ p) = 0) :
    ∑ i, (d - J *ᵥ q) i ^ 2 = ∑ i, (d - J *ᵥ p) i ^ 2 + ∑ i, (J *ᵥ (q - p)) i ^ 2 := by
  have h1 : (J *ᵥ (q - p)) ⬝ᵥ (d - J *ᵥ p) = 0 := by
    rw [← vecMul_transpose, ← dotProduct_mulVec, h, dotProduct_zero]
  have h2 : ∀ i, (d - J *ᵥ q) i = (d - J *ᵥ p) i - (J *ᵥ (q - p)) i := fun i => by
    rw [mulVec_sub]; simp only [Pi.sub_apply]; ring
  have h3 : ∑ i, (d - J *ᵥ q) i ^ 2 = ∑ i, (d - J *ᵥ p) i ^ 2 + ∑ i, (J *ᵥ (q - p)) i ^ 2
      - 2 * ((J *ᵥ (q - p)) ⬝ᵥ (d - J *ᵥ p)) := by
    simp only [dotProduct]
    rw [Finset.mul_sum, ← Finset.sum_add_distrib, ← Finset.sum_sub_distrib]
    exact Finset.sum_congr rfl fun i _ => by rw [h2]; ring
  rw [h3, h1]; ring

theorem joined_vec (e : Fin 4 → ℝ) : joined ![e 0, e 1, e 2] (e 3) = e := by
  funext k
  fin_cases k <;> simp [joined]

/-- What the deconvolution computes. -/
theorem deconvolution_ok {N : ℕ} {si : ℝ} (hsi : si ≠ 0) (coordinates : Coordinates N)
    (data : Data N) (hind : Independent1 data) :
    ∃ (p : Fin 4 → ℝ) (C : Matrix (Fin 4) (Fin 4) ℝ),
      deconvolution si coordinates data = .ok (![p 0, p 1, p 2], p 3,
        (overCount (∑ i, eulerResidual1 si coordinates data p i ^ 2) ((N : ℝ) - 4)).map
          fun c => c • C) ∧
      C = ((jacobian si data)ᵀ * jacobian si data)⁻¹ ∧
      (∀ q, ∑ i, eulerResidual1 si coordinates data p i ^ 2 ≤
        ∑ i, eulerResidual1 si coordinates data q i ^ 2) ∧
      (∀ q, ∑ i, eulerResidual1 si coordinates data q i ^ 2 ≤
        ∑ i, eulerResidual1 si coordinates data p i ^ 2 → q = p) := by
  have hdet := (det_hessian hsi data).2 hind
  set J := jacobian si data with hJ
  set d := pseudoData si coordinates data with hd
  refine ⟨((Jᵀ * J)⁻¹ * Jᵀ) *ᵥ d, (Jᵀ * J)⁻¹, ?_, rfl, ?_, ?_⟩
  · unfold deconvolution
    simp only [← hJ, ← hd, inv_ok hdet, Py.bind_ok, Py.pure_eq]
    congr 6
    funext i
    rw [← pseudo_residual]
  · intro q
    have := least_squares J d _ q (normal_eq J hdet d)
    simp only [hJ, hd, pseudo_residual] at this
    rw [this]
    exact le_add_of_nonneg_right (Finset.sum_nonneg fun i _ => sq_nonneg _)
  · intro q hq
    have := least_squares J d _ q (normal_eq J hdet d)
    have h0 : ∑ i, (J *ᵥ (q - ((Jᵀ * J)⁻¹ * Jᵀ) *ᵥ d)) i ^ 2 = 0 := by
      simp only [← pseudo_residual, ← hJ, ← hd] at hq
      refine le_antisymm ?_ (Finset.sum_nonneg fun i _ => sq_nonneg _)
      linarith
    have h1 := (Finset.sum_eq_zero_iff_of_nonneg (fun i _ => sq_nonneg _)).1 h0
    refine sub_eq_zero.1 ((independent_iff hsi data).1 hind _ ?_)
    funext i
    simpa using h1 i (Finset.mem_univ i)

theorem deconvolution_singular {N : ℕ} {si : ℝ} (hsi : si ≠ 0) (coordinates : Coordinates N)
    (data : Data N) (hind : ¬ Independent1 data) :
    deconvolution si coordinates data = .error .LinAlgError := by
  have hdet := (det_hessian hsi data).not.2 hind
  rw [not_not] at hdet
  unfold deconvolution inv
  simp only [if_pos hdet, Py.bind_error]

/-! ### the Newton step -/

/-- The linearised equations, written out. -/
def linear {N : ℕ} (η : ℝ) (c : Coordinates N) (d : Data N) (p dp : Fin 4 → ℝ) (dd : Data N)
    (i : Fin N) : ℝ :=
  (∑ k, dataJacobianDiagonals η c p k i * dd k i) + (parameterJacobian η d *ᵥ dp) i

theorem linear_eq {N : ℕ} (η : ℝ) (c : Coordinates N) (d : Data N) (p dp : Fin 4 → ℝ) (dd : Data N)
    (i : Fin N) :
    linear η c d p dp dd i = η * dd 0 i + (c 0 i - p 0) * dd 1 i + (c 1 i - p 1) * dd 2 i +
      (c 2 i - p 2) * dd 3 i - (d 1 i * dp 0 + d 2 i * dp 1 + d 3 i * dp 2 + η * dp 3) := by
  unfold linear
  rw [parameterJacobian_mulVec, Fin.sum_univ_four]
  simp [dataJacobianDiagonals]
  ring

theorem hasDerivAt_residual {N : ℕ} (η : ℝ) (c : Coordinates N) (d : Data N) (p dp : Fin 4 → ℝ)
    (dd : Data N) (i : Fin N) :
    HasDerivAt (fun t : ℝ => eulerResidual1 η c (fun k j => d k j + t * dd k j)
      (fun k => p k + t * dp k) i) (linear η c d p dp dd i) 0 := by
  have hlin : ∀ a b : ℝ, HasDerivAt (fun t : ℝ => a + t * b) b 0 := fun a b => by
    simpa using ((hasDerivAt_id (0 : ℝ)).mul_const b).const_add a
  have hsub : ∀ x a b : ℝ, HasDerivAt (fun t : ℝ => x - (a + t * b)) (-b) 0 := fun x a b => by
    simpa using (hlin a b).const_sub x
  have h1 := ((hsub (c 0 i) (p 0) (dp 0)).mul (hlin (d 1 i) (dd 1 i))).add
    ((hsub (c 1 i) (p 1) (dp 1)).mul (hlin (d 2 i) (dd 2 i)))
  have h2 := h1.add ((hsub (c 2 i) (p 2) (dp 2)).mul (hlin (d 3 i) (dd 3 i)))
  have h3 := h2.sub (((hlin (p 3) (dp 3)).sub (hlin (d 0 i) (dd 0 i))).const_mul η)
  refine h3.congr_deriv ?_
  rw [linear_eq]
  simp
  ring

theorem linearised_iff {N : ℕ} (η : ℝ) (c : Coordinates N) (d : Data N) (p dp : Fin 4 → ℝ)
    (dd : Data N) :
    SolvesLinearised η c d p dp dd ↔
      ∀ i, linear η c d p dp dd i = -eulerResidual1 η c d p i := by
  constructor
  · intro h i
    exact (hasDerivAt_residual η c d p dp dd i).unique (h i)
  · intro h i
    exact (hasDerivAt_residual η c d p dp dd i).congr_deriv (h i)

theorem eulersEquation_eq {N : ℕ} (η : ℝ) (c : Coordinates N) (d : Data N) (p : Fin 4 → ℝ) :
    eulersEquation η c d p = fun i => eulerResidual1 η c d p i := by
  funext i
  unfold eulersEquation eulerResidual1
  ring

/-- The diagonal of `Q`. -/
def qDiag {N : ℕ} (η : ℝ) (c : Coordinates N) (p : Fin 4 → ℝ) (Wd_inv : Fin 4 → ℝ) (i : Fin N) : ℝ :=
  ∑ k, dataJacobianDiagonals η c p k i ^ 2 * Wd_inv k

theorem qDiag_pos {N : ℕ} {η : ℝ} (hη : η ≠ 0) (c : Coordinates N) (p : Fin 4 → ℝ) {w : Fin 4 → ℝ}
    (hw : ∀ k, 0 < w k) (i : Fin N) : 0 < qDiag η c p (fun k => 1 / w k) i := by
  unfold qDiag
  refine Finset.sum_pos' (fun k _ => mul_nonneg (sq_nonneg _) (one_div_pos.2 (hw k)).le)
    ⟨0, Finset.mem_univ 0, mul_pos ?_ (one_div_pos.2 (hw 0))⟩
  simpa [dataJacobianDiagonals] using sq_pos_of_ne_zero hη

/-- `_newton_step` when nothing fails. -/
theorem newton_cases {N : ℕ} {η : ℝ} {c : Coordinates N} {obs d : Data N} {p : Fin 4 → ℝ}
    {euler : Fin N → ℝ} {Wi : Fin 4 → ℝ} (hq : ∀ i, qDiag η c p Wi i ≠ 0) :
    newtonStep η c obs d p euler Wi =
      (inv ((parameterJacobian η d)ᵀ * diagonal (fun i => 1 / qDiag η c p Wi i) *
        parameterJacobian η d)).bind fun C =>
      let A := parameterJacobian η d
      let b := dataJacobianDiagonals η c p
      let r : Data N := fun k i => obs k i - d k i
      let Br : Fin N → ℝ := fun i => ∑ k, b k i * r k i
      let dp := (-C * (Aᵀ * diagonal (fun i => 1 / qDiag η c p Wi i))) *ᵥ (euler + Br)
      .ok (dp, fun k i => r k i - Wi k * b k i * (1 / qDiag η c p Wi i *
        (Br + euler + A *ᵥ dp) i), C) := by
  unfold newtonStep
  have : ¬ ∃ i, ∑ k, dataJacobianDiagonals η c p k i ^ 2 * Wi k = 0 := by
    rintro ⟨i, hi⟩
    exact hq i hi
  simp only [if_neg this]
  rfl

theorem newton_linear {N : ℕ} {η : ℝ} {c : Coordinates N} {obs d : Data N} {p : Fin 4 → ℝ}
    {euler : Fin N → ℝ} {Wi : Fin 4 → ℝ} (hq : ∀ i, qDiag η c p Wi i ≠ 0)
    (dp : Fin 4 → ℝ) (i : Fin N) :
    let A := parameterJacobian η d
    let b := dataJacobianDiagonals η c p
    let r : Data N := fun k i => obs k i - d k i
    let Br : Fin N → ℝ := fun i => ∑ k, b k i * r k i
    let dd : Data N := fun k i => r k i - Wi k * b k i * (1 / qDiag η c p Wi i *
        (Br + euler + A *ᵥ dp) i)
    linear η c d p dp dd i = -euler i := by
  intro A b r Br dd
  unfold linear
  have h1 : ∑ k, dataJacobianDiagonals η c p k i * dd k i =
      Br i - qDiag η c p Wi i * (1 / qDiag η c p Wi i * (Br + euler + A *ᵥ dp) i) := by
    have : ∀ X : ℝ, ∑ k, b k i * (r k i - Wi k * b k i * X) = Br i - qDiag η c p Wi i * X := by
      intro X
      unfold qDiag
      simp only [Br, b, r]
      rw [Finset.sum_mul, ← Finset.sum_sub_distrib]
      exact Finset.sum_congr rfl fun k _ => by ring
    exact this _
  rw [h1, ← mul_assoc, mul_one_div_cancel (hq i), one_mul]
  simp only [Pi.add_apply, A]
  ring

/-- The multipliers are orthogonal to the columns of `A`. -/
theorem multipliers {N : ℕ} (A : Matrix (Fin N) (Fin 4) ℝ) (D : Fin N → ℝ)
    (hdet : (Aᵀ * diagonal D * A).det ≠ 0) (x : Fin N → ℝ) :
    Aᵀ *ᵥ (diagonal D *ᵥ (x + A *ᵥ ((-(Aᵀ * diagonal D * A)⁻¹ * (Aᵀ * diagonal D)) *ᵥ x))) = 0 := by
  rw [mulVec_mulVec, mulVec_add, mulVec_mulVec, mulVec_mulVec, ← Matrix.mul_assoc, Matrix.mul_neg,
    mul_nonsing_inv _ (isUnit_iff_ne_zero.2 hdet), Matrix.neg_mul, Matrix.one_mul, neg_mulVec,
    add_neg_cancel]

theorem newton_spec {N : ℕ} {η : ℝ} (hη : η ≠ 0) {c : Coordinates N} {obs d : Data N}
    {p dp : Fin 4 → ℝ} {dd : Data N} {C : Matrix (Fin 4) (Fin 4) ℝ} {w : Fin 4 → ℝ}
    (hw : ∀ k, 0 < w k)
    (h : newtonStep η c obs d p (fun i => eulerResidual1 η c d p i) (fun k => 1 / w k) =
      .ok (dp, dd, C)) :
    IsNewtonStep η c obs d p w dp dd := by
  set Wi : Fin 4 → ℝ := fun k => 1 / w k with hWi
  have hqp := qDiag_pos hη c p hw
  have hq : ∀ i, qDiag η c p Wi i ≠ 0 := fun i => (hqp i).ne'
  rw [newton_cases hq] at h
  set A := parameterJacobian η d with hA
  set D : Fin N → ℝ := fun i => 1 / qDiag η c p Wi i with hD
  by_cases hdet : (Aᵀ * diagonal D * A).det = 0
  · rw [inv, if_pos hdet] at h
    exact absurd h (by simp [Except.bind])
  rw [inv_ok hdet] at h
  simp only [Except.bind, Except.ok.injEq, Prod.mk.injEq] at h
  obtain ⟨hdp, hdd, hC⟩ := h
  set b := dataJacobianDiagonals η c p with hb
  set Br : Fin N → ℝ := fun i => ∑ k, b k i * (obs k i - d k i) with hBr
  set eu : Fin N → ℝ := fun i => eulerResidual1 η c d p i with heu
  have hlin : ∀ i, linear η c d p dp dd i = -eu i := by
    intro i
    have := newton_linear (obs := obs) (d := d) (euler := eu) hq dp i
    rw [← hdd, hdp]
    exact this
  -- the multipliers
  set lam : Fin N → ℝ := fun i => D i * (Br + eu + A *ᵥ dp) i with hlam
  have hmul : Aᵀ *ᵥ lam = 0 := by
    have := multipliers A D hdet (eu + Br)
    rw [hdp] at this
    rw [← this]
    congr 1
    funext i
    rw [mulVec_diagonal, add_comm eu Br]
  have hres : ∀ k i, obs k i - d k i - dd k i = Wi k * b k i * lam i := by
    intro k i
    rw [← hdd]
    simp only [sub_sub_cancel, hdp]
    rfl
  have key : ∀ (dp' : Fin 4 → ℝ) (dd' : Data N), SolvesLinearised η c d p dp' dd' →
      weightedSquare w (fun k i => obs k i - d k i - dd' k i) =
        weightedSquare w (fun k i => obs k i - d k i - dd k i) +
        weightedSquare w (fun k i => dd' k i - dd k i) := by
    intro dp' dd' h'
    rw [linearised_iff] at h'
    have hdiff : ∀ i, ∑ k, b k i * (dd' k i - dd k i) = -(A *ᵥ (dp' - dp)) i := by
      intro i
      have h1 := h' i
      have h2 := hlin i
      unfold linear at h1 h2
      rw [mulVec_sub, Pi.sub_apply]
      simp only [mul_sub, Finset.sum_sub_distrib, ← hb, ← hA] at h1 h2 ⊢
      simp only [heu] at h2
      linarith
    have hcross : ∑ k, ∑ i, w k * ((obs k i - d k i - dd k i) * (dd' k i - dd k i)) = 0 := by
      have e1 : ∀ k i, w k * ((obs k i - d k i - dd k i) * (dd' k i - dd k i)) =
          lam i * (b k i * (dd' k i - dd k i)) := by
        intro k i
        rw [hres]
        have : w k * Wi k = 1 := by simp only [hWi]; exact mul_one_div_cancel (hw k).ne'
        calc w k * (Wi k * b k i * lam i * (dd' k i - dd k i))
            = (w k * Wi k) * (lam i * (b k i * (dd' k i - dd k i))) := by ring
          _ = _ := by rw [this, one_mul]
      simp only [e1]
      rw [Finset.sum_comm]
      simp only [← Finset.mul_sum, hdiff]
      have : lam ⬝ᵥ (A *ᵥ (dp' - dp)) = 0 := by
        rw [dotProduct_mulVec, ← mulVec_transpose, hmul, zero_dotProduct]
      simp only [dotProduct] at this
      simp only [mul_neg, Finset.sum_neg_distrib, this, neg_zero]
    unfold weightedSquare
    have e2 : ∀ k i, w k * (obs k i - d k i - dd' k i) ^ 2 =
        w k * (obs k i - d k i - dd k i) ^ 2 + w k * (dd' k i - dd k i) ^ 2 -
        2 * (w k * ((obs k i - d k i - dd k i) * (dd' k i - dd k i))) := fun k i => by ring
    simp only [e2, Finset.sum_sub_distrib, Finset.sum_add_distrib]
    have e3 : ∑ k, ∑ i, 2 * (w k * ((obs k i - d k i - dd k i) * (dd' k i - dd k i))) = 0 := by
      have := congrArg (2 * ·) hcross
      simpa only [Finset.mul_sum, mul_zero] using this
    rw [e3, sub_zero]
  have hnn : ∀ x : Data N, 0 ≤ weightedSquare w x := fun x =>
    Finset.sum_nonneg fun k _ => Finset.sum_nonneg fun i _ => mul_nonneg (hw k).le (sq_nonneg _)
  refine ⟨(linearised_iff η c d p dp dd).2 hlin, fun dp' dd' h' => ?_, fun dp' dd' h' hle => ?_⟩
  · rw [key dp' dd' h']
    exact le_add_of_nonneg_right (hnn _)
  · rw [key dp' dd' h'] at hle
    have h0 : weightedSquare w (fun k i => dd' k i - dd k i) = 0 :=
      le_antisymm (by linarith) (hnn _)
    have hdd' : dd' = dd := by
      funext k i
      have h1 := (Finset.sum_eq_zero_iff_of_nonneg (fun k _ => Finset.sum_nonneg fun i _ =>
        mul_nonneg (hw k).le (sq_nonneg _))).1 h0 k (Finset.mem_univ k)
      have h2 := (Finset.sum_eq_zero_iff_of_nonneg (fun i _ =>
        mul_nonneg (hw k).le (sq_nonneg _))).1 h1 i (Finset.mem_univ i)
      rcases mul_eq_zero.1 h2 with h3 | h3
      · exact absurd h3 (hw k).ne'
      · exact sub_eq_zero.1 (by simpa using h3)
    refine ⟨?_, hdd'⟩
    have hz : A *ᵥ (dp' - dp) = 0 := by
      funext i
      have h1 := (linearised_iff η c d p dp' dd').1 h' i
      have h2 := hlin i
      unfold linear at h1 h2
      rw [mulVec_sub, Pi.sub_apply, Pi.zero_apply]
      rw [hdd'] at h1
      simp only [heu] at h2
      linarith
    have := (det_weighted A D (fun i => one_div_pos.2 (hqp i))).1 hdet _ hz
    exact sub_eq_zero.1 this

end Verif.Euler
