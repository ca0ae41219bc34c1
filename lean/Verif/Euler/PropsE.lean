import Verif.Euler.SpecB

/-! C131: Euler's methods follow the axes, the units of the field and the order of the data. -/

namespace Verif.Euler

open Matrix

namespace Change

variable {N : ℕ} (g : Change N)

theorem columns (j l : Fin 3) : g.R 0 j * g.R 0 l + g.R 1 j * g.R 1 l + g.R 2 j * g.R 2 l = if j = l then 1 else 0 := by
  have h : g.Rᵀ * g.R = 1 := mul_eq_one_comm.1 g.orthogonal
  have := congrFun (congrFun h j) l
  rw [Matrix.mul_apply, Fin.sum_univ_three, Matrix.one_apply] at this
  simpa using this

theorem rows (j l : Fin 3) : g.R j 0 * g.R l 0 + g.R j 1 * g.R l 1 + g.R j 2 * g.R l 2 = if j = l then 1 else 0 := by
  have := congrFun (congrFun g.orthogonal j) l
  rw [Matrix.mul_apply, Fin.sum_univ_three, Matrix.one_apply] at this
  simpa using this

/-- The matrix that acts on the four data of a point. -/
def D : Matrix (Fin 4) (Fin 4) ℝ :=
  !![1, 0, 0, 0; 0, g.R 0 0, g.R 0 1, g.R 0 2; 0, g.R 1 0, g.R 1 1, g.R 1 2; 0, g.R 2 0, g.R 2 1, g.R 2 2]

theorem data_eq (d : Data N) (k : Fin 4) (i : Fin N) : g.data d k i = g.s * ∑ j, g.D k j * d j (g.σ i) := by
  fin_cases k <;> simp [data, D, Fin.sum_univ_four, Fin.sum_univ_three]

theorem D_dot (x y : Fin 4 → ℝ) : ∑ k, (∑ j, g.D k j * x j) * (∑ j, g.D k j * y j) = ∑ k, x k * y k := by
  have h00 := g.columns 0 0
  have h01 := g.columns 0 1
  have h02 := g.columns 0 2
  have h11 := g.columns 1 1
  have h12 := g.columns 1 2
  have h22 := g.columns 2 2
  simp only [Fin.isValue, if_true, show ((0 : Fin 3) = 1) = False by decide, show ((0 : Fin 3) = 2) = False by decide,
    show ((1 : Fin 3) = 2) = False by decide, if_false] at h00 h01 h02 h11 h12 h22
  simp only [D, Fin.sum_univ_four, of_apply, cons_val_zero, cons_val_one, cons_val, Fin.isValue]
  linear_combination x 1 * y 1 * h00 + (x 1 * y 2 + x 2 * y 1) * h01 + (x 1 * y 3 + x 3 * y 1) * h02 +
    x 2 * y 2 * h11 + (x 2 * y 3 + x 3 * y 2) * h12 + x 3 * y 3 * h22

/-- Weights pass through. -/
theorem D_weights {w : Fin 4 → ℝ} (h : g.Respects w) (f : ℝ → ℝ) (x : Fin 4 → ℝ) (k : Fin 4) :
    f (w k) * ∑ j, g.D k j * x j = ∑ j, g.D k j * (f (w j) * x j) := by
  rw [Finset.mul_sum]
  refine Finset.sum_congr rfl fun j _ => ?_
  by_cases h0 : g.D k j = 0
  · simp [h0]
  · have e : w k = w j := by
      fin_cases k <;> fin_cases j <;> simp [D] at h0 ⊢
      all_goals exact h _ _ h0
    rw [e]
    ring

theorem D_square {w : Fin 4 → ℝ} (h : g.Respects w) (f : ℝ → ℝ) (x : Fin 4 → ℝ) :
    ∑ k, (∑ j, g.D k j * x j) ^ 2 * f (w k) = ∑ k, x k ^ 2 * f (w k) := by
  have e : ∀ k, (∑ j, g.D k j * x j) ^ 2 * f (w k) =
      (∑ j, g.D k j * x j) * (∑ j, g.D k j * (f (w j) * x j)) := by
    intro k
    rw [← g.D_weights h]
    ring
  simp only [e]
  rw [g.D_dot]
  refine Finset.sum_congr rfl fun k _ => ?_
  ring

/-- The parameters after the change. -/
def parameters (p : Parameters) : Parameters := ![g.position ![p 0, p 1, p 2] 0, g.position ![p 0, p 1, p 2] 1,
  g.position ![p 0, p 1, p 2] 2, g.s * p 3]

def tau : Parameters := ![g.t 0, g.t 1, g.t 2, 0]

theorem parameters_eq (p : Parameters) : g.parameters p = g.linear *ᵥ p + g.tau := by
  funext k
  fin_cases k <;>
    simp [parameters, position, linear, tau, Matrix.mulVec, dotProduct, Fin.sum_univ_four, Fin.sum_univ_three]

theorem parameters_add (p q : Parameters) : g.parameters (p + q) = g.parameters p + g.linear *ᵥ q := by
  rw [parameters_eq, parameters_eq, Matrix.mulVec_add]
  abel

/-- The matrix that acts on the columns of the Jacobians. -/
def T : Matrix (Fin 4) (Fin 4) ℝ :=
  !![g.s * g.R 0 0, g.s * g.R 1 0, g.s * g.R 2 0, 0; g.s * g.R 0 1, g.s * g.R 1 1, g.s * g.R 2 1, 0;
    g.s * g.R 0 2, g.s * g.R 1 2, g.s * g.R 2 2, 0; 0, 0, 0, 1]

theorem T_linear : g.T * g.linear = g.s • (1 : Matrix (Fin 4) (Fin 4) ℝ) := by
  ext j k
  rw [Matrix.mul_apply, Fin.sum_univ_four]
  have h00 := g.columns 0 0
  have h01 := g.columns 0 1
  have h02 := g.columns 0 2
  have h11 := g.columns 1 1
  have h12 := g.columns 1 2
  have h22 := g.columns 2 2
  simp only [Fin.isValue, if_true, show ((0 : Fin 3) = 1) = False by decide, show ((0 : Fin 3) = 2) = False by decide,
    show ((1 : Fin 3) = 2) = False by decide, if_false] at h00 h01 h02 h11 h12 h22
  fin_cases j <;> fin_cases k <;> simp [T, linear]
  · linear_combination g.s * h00
  · linear_combination g.s * h01
  · linear_combination g.s * h02
  · linear_combination g.s * h01
  · linear_combination g.s * h11
  · linear_combination g.s * h12
  · linear_combination g.s * h02
  · linear_combination g.s * h12
  · linear_combination g.s * h22

/-- Inverse of `T`. -/
noncomputable def L : Matrix (Fin 4) (Fin 4) ℝ := g.s⁻¹ • g.linear

theorem T_L : g.T * g.L = 1 := by
  rw [L, Matrix.mul_smul, T_linear, smul_smul, inv_mul_cancel₀ g.nonzero, one_smul]

theorem L_T : g.L * g.T = 1 := mul_eq_one_comm.1 g.T_L

theorem T_det : g.T.det ≠ 0 := by
  intro h
  have := congrArg Matrix.det g.T_L
  rw [Matrix.det_mul, h, zero_mul, Matrix.det_one] at this
  exact zero_ne_one this

theorem inv_conj (H : Matrix (Fin 4) (Fin 4) ℝ) :
    inv (g.Tᵀ * H * g.T) = (inv H).map fun C => g.L * C * g.Lᵀ := by
  unfold inv
  have hdet : (g.Tᵀ * H * g.T).det = 0 ↔ H.det = 0 := by
    rw [Matrix.det_mul, Matrix.det_mul, Matrix.det_transpose]
    simp [g.T_det]
  by_cases h : H.det = 0
  · rw [if_pos h, if_pos (hdet.2 h)]
    rfl
  · rw [if_neg h, if_neg (hdet.not.2 h)]
    simp only [Except.map]
    congr 1
    apply Matrix.inv_eq_right_inv
    have hu : IsUnit H.det := isUnit_iff_ne_zero.2 h
    calc g.Tᵀ * H * g.T * (g.L * H⁻¹ * g.Lᵀ) = g.Tᵀ * (H * (g.T * g.L) * H⁻¹) * g.Lᵀ := by
          simp only [Matrix.mul_assoc]
      _ = g.Tᵀ * g.Lᵀ := by rw [g.T_L, Matrix.mul_one, Matrix.mul_nonsing_inv _ hu, Matrix.mul_one]
      _ = 1 := by rw [← Matrix.transpose_mul, g.L_T, Matrix.transpose_one]

/-- The rows of a Jacobian after the change. -/
def rowsOf (J : Matrix (Fin N) (Fin 4) ℝ) : Matrix (Fin N) (Fin 4) ℝ := of fun i k => (J * g.T) (g.σ i) k

theorem jacobian_eq (si : ℝ) (d : Data N) : jacobian si (g.data d) = g.rowsOf (jacobian si d) := by
  ext i k
  simp only [rowsOf, of_apply, Matrix.mul_apply, Fin.sum_univ_four]
  fin_cases k <;> simp [jacobian, T, data, Fin.sum_univ_three] <;> ring

theorem parameterJacobian_eq (si : ℝ) (d : Data N) :
    parameterJacobian si (g.data d) = g.rowsOf (parameterJacobian si d) := by
  ext i k
  simp only [rowsOf, of_apply, Matrix.mul_apply, Fin.sum_univ_four]
  fin_cases k <;> simp [parameterJacobian, T, data, Fin.sum_univ_three] <;> ring

theorem transpose_diagonal (J : Matrix (Fin N) (Fin 4) ℝ) (q : Fin N → ℝ) (v : Fin N → ℝ) :
    ((g.rowsOf J)ᵀ * diagonal fun i => q (g.σ i)) *ᵥ (fun i => v (g.σ i)) =
      g.Tᵀ *ᵥ ((Jᵀ * diagonal q) *ᵥ v) := by
  funext k
  have e : g.Tᵀ *ᵥ ((Jᵀ * diagonal q) *ᵥ v) = ((J * g.T)ᵀ * diagonal q) *ᵥ v := by
    rw [Matrix.mulVec_mulVec, Matrix.transpose_mul, Matrix.mul_assoc]
  rw [e]
  simp only [Matrix.mulVec, dotProduct, Matrix.mul_diagonal, Matrix.transpose_apply, rowsOf, of_apply]
  exact Equiv.sum_comp g.σ fun i => (J * g.T) i k * q i * v i

theorem gram (J : Matrix (Fin N) (Fin 4) ℝ) (q : Fin N → ℝ) :
    ((g.rowsOf J)ᵀ * diagonal fun i => q (g.σ i)) * g.rowsOf J = g.Tᵀ * (Jᵀ * diagonal q * J) * g.T := by
  have e : g.Tᵀ * (Jᵀ * diagonal q * J) * g.T = (J * g.T)ᵀ * diagonal q * (J * g.T) := by
    rw [Matrix.transpose_mul]
    simp only [Matrix.mul_assoc]
  rw [e]
  ext j k
  simp only [Matrix.mul_apply (M := (_ * diagonal _)), Matrix.mul_diagonal, Matrix.transpose_apply, rowsOf, of_apply]
  exact Equiv.sum_comp g.σ fun i => (J * g.T) i j * q i * (J * g.T) i k

theorem rowsOf_mulVec (J : Matrix (Fin N) (Fin 4) ℝ) (p : Parameters) :
    g.rowsOf J *ᵥ (g.linear *ᵥ p) = fun i => g.s * (J *ᵥ p) (g.σ i) := by
  funext i
  have e : (J * g.T) *ᵥ (g.linear *ᵥ p) = g.s • (J *ᵥ p) := by
    rw [Matrix.mulVec_mulVec, Matrix.mul_assoc, T_linear, Matrix.mul_smul, Matrix.mul_one, Matrix.smul_mulVec]
  have e' := congrFun e (g.σ i)
  simpa [Matrix.mulVec, dotProduct, rowsOf] using e'

/-! ### deconvolution -/

theorem pseudoData_eq (si : ℝ) (c : Coordinates N) (d : Data N) :
    pseudoData si (g.coordinates c) (g.data d) =
      (fun i => g.s * pseudoData si c d (g.σ i)) + jacobian si (g.data d) *ᵥ g.tau := by
  funext i
  have h := g.D_dot (fun k => ![0, c 0 (g.σ i), c 1 (g.σ i), c 2 (g.σ i)] k) (fun k => d k (g.σ i))
  simp only [D, Fin.sum_univ_four, of_apply, cons_val_zero, cons_val_one, cons_val, Fin.isValue] at h
  simp only [pseudoData, coordinates, position, data, tau, jacobian, Pi.add_apply, Matrix.mulVec, dotProduct,
    Fin.sum_univ_four, Fin.sum_univ_three, of_apply, cons_val_zero, cons_val_one, cons_val, Fin.isValue,
    Fin.succ_zero_eq_one, Fin.succ_one_eq_two, show (Fin.succ 2 : Fin 4) = 3 from rfl]
  linear_combination g.s * h

theorem diagonal_one_mul (J : Matrix (Fin N) (Fin 4) ℝ) : Jᵀ * diagonal (fun _ : Fin N => (1 : ℝ)) = Jᵀ := by
  rw [Matrix.diagonal_one, Matrix.mul_one]

theorem sum_residuals (v : Fin N → ℝ) : ∑ i, (g.s * v (g.σ i)) ^ 2 = g.s ^ 2 * ∑ i, v i ^ 2 := by
  rw [← Equiv.sum_comp g.σ fun i => v i ^ 2, Finset.mul_sum]
  refine Finset.sum_congr rfl fun i _ => ?_
  ring

theorem overCount_mul (a x n : ℝ) : overCount (a * x) n = (overCount x n).map (a * ·) := by
  unfold overCount
  split
  · rfl
  · simp [mul_div_assoc]

theorem covariance_L (C : Matrix (Fin 4) (Fin 4) ℝ) (x : ℝ) :
    (g.s ^ 2 * x) • (g.L * C * g.Lᵀ) = g.covariance (x • C) := by
  have := g.nonzero
  simp only [L, covariance, Matrix.smul_mul, Matrix.mul_smul, Matrix.transpose_smul, smul_smul]
  congr 1
  field_simp

theorem position_eq (p : Parameters) :
    ![g.parameters p 0, g.parameters p 1, g.parameters p 2] = g.position ![p 0, p 1, p 2] := by
  funext k
  fin_cases k <;> rfl

theorem deconvolution_eq (si : ℝ) (c : Coordinates N) (d : Data N) :
    deconvolution si (g.coordinates c) (g.data d) = (deconvolution si c d).map fun r =>
      (g.position r.1, g.s * r.2.1, r.2.2.map g.covariance) := by
  unfold deconvolution
  have hg : (jacobian si (g.data d))ᵀ * jacobian si (g.data d) =
      g.Tᵀ * ((jacobian si d)ᵀ * jacobian si d) * g.T := by
    have := g.gram (jacobian si d) (fun _ => 1)
    rwa [diagonal_one_mul, diagonal_one_mul, ← jacobian_eq] at this
  simp only [hg, inv_conj]
  cases h : inv ((jacobian si d)ᵀ * jacobian si d) with
  | error e => simp only [Except.map, Py.bind_error]
  | ok C =>
    simp only [Except.map, Py.bind_ok, Py.pure_eq]
    have hC : C * ((jacobian si d)ᵀ * jacobian si d) = 1 := by
      unfold inv at h
      split at h
      · cases h
      · rename_i h0
        cases h
        exact Matrix.nonsing_inv_mul _ (isUnit_iff_ne_zero.2 h0)
    have he : (g.L * C * g.Lᵀ * (jacobian si (g.data d))ᵀ) *ᵥ pseudoData si (g.coordinates c) (g.data d) =
        g.parameters ((C * (jacobian si d)ᵀ) *ᵥ pseudoData si c d) := by
      rw [pseudoData_eq, Matrix.mulVec_add, parameters_eq]
      congr 1
      · have hT := g.transpose_diagonal (jacobian si d) (fun _ => 1) (pseudoData si c d)
        rw [diagonal_one_mul, diagonal_one_mul, ← jacobian_eq] at hT
        have hs : (fun i => g.s * pseudoData si c d (g.σ i)) = g.s • fun i => pseudoData si c d (g.σ i) := rfl
        rw [hs, Matrix.mulVec_smul, ← Matrix.mulVec_mulVec, hT, Matrix.mulVec_mulVec, Matrix.mul_assoc (g.L * C),
          ← Matrix.transpose_mul, g.T_L, Matrix.transpose_one, Matrix.mul_one, ← Matrix.mulVec_mulVec,
          ← Matrix.mulVec_mulVec, L, Matrix.smul_mulVec, smul_smul, mul_inv_cancel₀ g.nonzero, one_smul]
      · rw [Matrix.mulVec_mulVec, Matrix.mul_assoc _ (jacobian si (g.data d))ᵀ, hg]
        have : g.L * C * g.Lᵀ * (g.Tᵀ * ((jacobian si d)ᵀ * jacobian si d) * g.T) =
            g.L * (C * ((g.T * g.L)ᵀ * ((jacobian si d)ᵀ * jacobian si d))) * g.T := by
          rw [Matrix.transpose_mul]
          simp only [Matrix.mul_assoc]
        rw [this, g.T_L, Matrix.transpose_one, Matrix.one_mul, hC, Matrix.mul_one, g.L_T, Matrix.one_mulVec]
    have hr : pseudoData si (g.coordinates c) (g.data d) - jacobian si (g.data d) *ᵥ
        ((g.L * C * g.Lᵀ * (jacobian si (g.data d))ᵀ) *ᵥ pseudoData si (g.coordinates c) (g.data d)) =
        fun i => g.s * (pseudoData si c d - jacobian si d *ᵥ ((C * (jacobian si d)ᵀ) *ᵥ pseudoData si c d)) (g.σ i) := by
      rw [he, parameters_eq, Matrix.mulVec_add]
      conv_lhs => rw [pseudoData_eq]
      rw [add_sub_add_right_eq_sub]
      funext i
      have := congrFun (g.rowsOf_mulVec (jacobian si d) ((C * (jacobian si d)ᵀ) *ᵥ pseudoData si c d)) i
      rw [← jacobian_eq] at this
      simp only [Pi.sub_apply]
      rw [this]
      ring
    rw [hr]
    simp only [sum_residuals, overCount_mul, he]
    congr 1
    refine Prod.ext (g.position_eq _) (Prod.ext rfl ?_)
    simp only [Option.map_map]
    congr 1
    funext x
    exact g.covariance_L C x

/-! ### inversion -/

theorem diagonals_eq (si : ℝ) (c : Coordinates N) (p : Parameters) (k : Fin 4) (i : Fin N) :
    dataJacobianDiagonals si (g.coordinates c) (g.parameters p) k i =
      ∑ j, g.D k j * dataJacobianDiagonals si c p j (g.σ i) := by
  fin_cases k <;> simp [dataJacobianDiagonals, coordinates, parameters, position, D, Fin.sum_univ_four,
    Fin.sum_univ_three] <;> ring

theorem euler_dot (si : ℝ) (c : Coordinates N) (d : Data N) (p : Parameters) (i : Fin N) :
    eulersEquation si c d p i = ∑ k, dataJacobianDiagonals si c p k i * d k i - si * p 3 := by
  simp [eulersEquation, dataJacobianDiagonals, Fin.sum_univ_four]
  ring

theorem euler_eq (si : ℝ) (c : Coordinates N) (d : Data N) (p : Parameters) (i : Fin N) :
    eulersEquation si (g.coordinates c) (g.data d) (g.parameters p) i = g.s * eulersEquation si c d p (g.σ i) := by
  rw [euler_dot, euler_dot]
  have h := g.D_dot (fun k => dataJacobianDiagonals si c p k (g.σ i)) (fun k => d k (g.σ i))
  have e : ∑ k, dataJacobianDiagonals si (g.coordinates c) (g.parameters p) k i * g.data d k i =
      g.s * ∑ k, dataJacobianDiagonals si c p k (g.σ i) * d k (g.σ i) := by
    rw [← h, Finset.mul_sum]
    refine Finset.sum_congr rfl fun k _ => ?_
    rw [diagonals_eq, data_eq]
    ring
  rw [e]
  simp [parameters]
  ring

theorem data_sub (d e : Data N) : (fun k i => g.data d k i - g.data e k i) = g.data fun k i => d k i - e k i := by
  funext k i
  simp only [data_eq, ← mul_sub, ← Finset.sum_sub_distrib]

theorem data_add (d e : Data N) : g.data d + g.data e = g.data (d + e) := by
  funext k i
  simp only [data_eq, Pi.add_apply, mul_add, Finset.sum_add_distrib]

theorem data_mul (a : ℝ) (d : Data N) : (fun k i => a * g.data d k i) = g.data fun k i => a * d k i := by
  funext k i
  simp only [data_eq, Finset.mul_sum]
  refine Finset.sum_congr rfl fun j _ => ?_
  ring

theorem newtonStep_eq {w : Fin 4 → ℝ} (hw : g.Respects w) (si : ℝ) (c : Coordinates N) (obs d : Data N)
    (p : Parameters) (euler : Fin N → ℝ) :
    newtonStep si (g.coordinates c) (g.data obs) (g.data d) (g.parameters p) (fun i => g.s * euler (g.σ i))
        (fun k => 1 / w k) =
      (newtonStep si c obs d p euler (fun k => 1 / w k)).map fun r =>
        (g.linear *ᵥ r.1, g.data r.2.1, g.L * r.2.2 * g.Lᵀ) := by
  have hQ : ∀ i, ∑ k, dataJacobianDiagonals si (g.coordinates c) (g.parameters p) k i ^ 2 * (1 / w k) =
      ∑ k, dataJacobianDiagonals si c p k (g.σ i) ^ 2 * (1 / w k) := by
    intro i
    simp only [diagonals_eq]
    exact g.D_square hw (fun x => 1 / x) _
  have hBr : ∀ i, ∑ k, dataJacobianDiagonals si (g.coordinates c) (g.parameters p) k i *
      (g.data obs k i - g.data d k i) =
      g.s * ∑ k, dataJacobianDiagonals si c p k (g.σ i) * (obs k (g.σ i) - d k (g.σ i)) := by
    intro i
    rw [← g.D_dot (fun k => dataJacobianDiagonals si c p k (g.σ i)) (fun k => obs k (g.σ i) - d k (g.σ i)),
      Finset.mul_sum]
    refine Finset.sum_congr rfl fun k _ => ?_
    have := congrFun (congrFun (g.data_sub obs d) k) i
    simp only [data_eq] at this
    rw [data_eq, data_eq, this, diagonals_eq]
    ring
  unfold newtonStep
  simp only [hQ, hBr, parameterJacobian_eq]
  have hex : (∃ i, ∑ k, dataJacobianDiagonals si c p k (g.σ i) ^ 2 * (1 / w k) = 0) ↔
      ∃ i, ∑ k, dataJacobianDiagonals si c p k i ^ 2 * (1 / w k) = 0 :=
    ⟨fun ⟨i, hi⟩ => ⟨_, hi⟩, fun ⟨i, hi⟩ => ⟨g.σ.symm i, by simpa using hi⟩⟩
  by_cases hz : ∃ i, ∑ k, dataJacobianDiagonals si c p k i ^ 2 * (1 / w k) = 0
  · rw [if_pos hz, if_pos (hex.2 hz)]
    rfl
  · rw [if_neg hz, if_neg (hex.not.2 hz)]
    set A := parameterJacobian si d
    set q : Fin N → ℝ := fun i => 1 / ∑ k, dataJacobianDiagonals si c p k i ^ 2 * (1 / w k) with hq
    set br : Fin N → ℝ := fun i => ∑ k, dataJacobianDiagonals si c p k i * (obs k i - d k i) with hbr
    have hgram := g.gram A q
    simp only [hq] at hgram
    rw [hgram, inv_conj]
    cases hi : inv (Aᵀ * diagonal q * A) with
    | error e => simp only [Except.map, Py.bind_error]
    | ok C =>
      simp only [Except.map, Py.bind_ok, Py.pure_eq]
      have hstep : (-(g.L * C * g.Lᵀ) * ((g.rowsOf A)ᵀ * diagonal fun i => q (g.σ i))) *ᵥ
          ((fun i => g.s * euler (g.σ i)) + fun i => g.s * br (g.σ i)) =
          g.linear *ᵥ ((-C * (Aᵀ * diagonal q)) *ᵥ (euler + br)) := by
        have hs : ((fun i => g.s * euler (g.σ i)) + fun i => g.s * br (g.σ i)) =
            g.s • fun i => (euler + br) (g.σ i) := by
          funext i
          simp [mul_add]
        rw [hs, Matrix.mulVec_smul, ← Matrix.mulVec_mulVec, transpose_diagonal, Matrix.mulVec_mulVec, Matrix.neg_mul,
          Matrix.mul_assoc (g.L * C), ← Matrix.transpose_mul, g.T_L, Matrix.transpose_one, Matrix.mul_one,
          Matrix.neg_mul, Matrix.neg_mulVec, Matrix.neg_mulVec, Matrix.mulVec_neg,
          ← Matrix.mulVec_mulVec, ← Matrix.mulVec_mulVec, L, Matrix.smul_mulVec, smul_neg, smul_smul,
          mul_inv_cancel₀ g.nonzero, one_smul]
        simp only [Matrix.mulVec_mulVec, Matrix.mul_assoc]
      have hq' : (diagonal fun i => 1 / ∑ k, dataJacobianDiagonals si c p k (g.σ i) ^ 2 * (1 / w k)) =
          diagonal fun i => q (g.σ i) := rfl
      have hbr' : (fun i => g.s * ∑ k, dataJacobianDiagonals si c p k (g.σ i) * (obs k (g.σ i) - d k (g.σ i))) =
          fun i => g.s * br (g.σ i) := rfl
      rw [hq', hbr', hstep]
      congr 1
      refine Prod.ext rfl (Prod.ext ?_ rfl)
      simp only
      funext k i
      have hA := congrFun (g.rowsOf_mulVec A ((-C * (Aᵀ * diagonal q)) *ᵥ (euler + br))) i
      simp only [Pi.add_apply, hA]
      have hres := congrFun (congrFun (g.data_sub obs d) k) i
      rw [hres, diagonals_eq, data_eq, data_eq]
      have hwk := g.D_weights hw (fun x => 1 / x) (fun j => dataJacobianDiagonals si c p j (g.σ i)) k
      rw [hwk]
      simp only [mul_sub, Finset.sum_sub_distrib, Finset.mul_sum, Finset.sum_mul]
      congr 1
      refine Finset.sum_congr rfl fun j _ => ?_
      ring

theorem sqrt_scale (x : ℝ) : Real.sqrt (g.s ^ 2 * x) = |g.s| * Real.sqrt x := by
  rw [Real.sqrt_mul (sq_nonneg _), Real.sqrt_sq_eq_abs]

theorem eulerMisfit_eq (e : Fin N → ℝ) : eulerMisfit (fun i => g.s * e (g.σ i)) = |g.s| * eulerMisfit e := by
  unfold eulerMisfit
  rw [sum_residuals, sqrt_scale]

theorem dataMisfit_eq {w : Fin 4 → ℝ} (hw : g.Respects w) (r : Data N) :
    dataMisfit w (g.data r) = |g.s| * dataMisfit w r := by
  unfold dataMisfit
  rw [← sqrt_scale]
  congr 1
  rw [Finset.sum_comm, Finset.sum_comm (γ := Fin 4), Finset.mul_sum,
    ← Equiv.sum_comp g.σ fun i => g.s ^ 2 * ∑ k, (r k i * w k) ^ 2]
  refine Finset.sum_congr rfl fun i _ => ?_
  have h := g.D_square hw (fun x => x ^ 2) fun k => r k (g.σ i)
  calc ∑ k, (g.data r k i * w k) ^ 2 = g.s ^ 2 * ∑ k, (∑ j, g.D k j * r j (g.σ i)) ^ 2 * w k ^ 2 := by
        rw [Finset.mul_sum]
        refine Finset.sum_congr rfl fun k _ => ?_
        rw [data_eq]
        ring
    _ = _ := by
        rw [h]
        congr 1
        refine Finset.sum_congr rfl fun k _ => ?_
        ring

theorem sum_square (r : Data N) : ∑ k, ∑ i, g.data r k i ^ 2 = g.s ^ 2 * ∑ k, ∑ i, r k i ^ 2 := by
  have h := g.dataMisfit_eq (w := fun _ => 1) (fun _ _ _ => rfl) r
  unfold dataMisfit at h
  simp only [mul_one] at h
  have h1 : 0 ≤ ∑ k, ∑ i, g.data r k i ^ 2 := Finset.sum_nonneg fun _ _ => Finset.sum_nonneg fun _ _ => sq_nonneg _
  have h2 : 0 ≤ ∑ k, ∑ i, r k i ^ 2 := Finset.sum_nonneg fun _ _ => Finset.sum_nonneg fun _ _ => sq_nonneg _
  have := congrArg (· ^ 2) h
  simp only [mul_pow, Real.sq_sqrt h1, Real.sq_sqrt h2, sq_abs] at this
  exact this

/-- The state of the loop after the change. -/
noncomputable def state (x : IterState N) : IterState N where
  parameters := g.parameters x.parameters
  data_predicted := g.data x.data_predicted
  euler := fun i => g.s * x.euler (g.σ i)
  data_misfit := |g.s| * x.data_misfit
  merit := |g.s| * x.merit
  cofactor := x.cofactor.map fun C => g.L * C * g.Lᵀ

theorem metrics_eq {w : Fin 4 → ℝ} (hw : g.Respects w) (P : Settings) (si : ℝ) (c : Coordinates N) (obs d : Data N)
    (p : Parameters) (C : Option (Matrix (Fin 4) (Fin 4) ℝ)) :
    metrics P si (g.coordinates c) (g.data obs) w (g.parameters p) (g.data d) (C.map fun C => g.L * C * g.Lᵀ) =
      g.state (metrics P si c obs w p d C) := by
  unfold metrics state
  have he : eulersEquation si (g.coordinates c) (g.data d) (g.parameters p) =
      fun i => g.s * eulersEquation si c d p (g.σ i) := funext fun i => g.euler_eq si c d p i
  simp only [he, data_sub, dataMisfit_eq g hw, eulerMisfit_eq]
  congr 1
  ring

theorem iteration_eq {w : Fin 4 → ℝ} (hw : g.Respects w) (P : Settings) (si : ℝ) (c : Coordinates N) (obs : Data N)
    (x : IterState N) :
    iteration P si (g.coordinates c) (g.data obs) w (fun k => 1 / w k) (g.state x) =
      (iteration P si c obs w (fun k => 1 / w k) x).map g.state := by
  unfold iteration
  have h := g.newtonStep_eq hw si c obs x.data_predicted x.parameters x.euler
  simp only [state] at h ⊢
  rw [h]
  cases newtonStep si c obs x.data_predicted x.parameters x.euler (fun k => 1 / w k) with
  | error e => rfl
  | ok r =>
    simp only [Except.map, Py.bind_ok, Py.pure_eq]
    rw [← parameters_add, data_add]
    congr 1
    exact g.metrics_eq hw P si c obs _ _ (some r.2.2)

theorem converged_eq (tol m m' : ℝ) : converged tol (|g.s| * m) (|g.s| * m') = converged tol m m' := by
  unfold converged
  have hs : |g.s| ≠ 0 := abs_ne_zero.2 g.nonzero
  rw [← mul_sub, mul_div_mul_left _ _ hs]
  simp [hs]

theorem loop_eq {w : Fin 4 → ℝ} (hw : g.Respects w) (P : Settings) (si : ℝ) (c : Coordinates N) (obs : Data N)
    (n : ℕ) (x : IterState N) :
    loop P si (g.coordinates c) (g.data obs) w (fun k => 1 / w k) n (g.state x) =
      (loop P si c obs w (fun k => 1 / w k) n x).map fun r => (g.state r.1, r.2) := by
  induction n generalizing x with
  | zero => rfl
  | succ n ih =>
    unfold loop
    rw [iteration_eq g hw]
    cases iteration P si c obs w (fun k => 1 / w k) x with
    | error e => rfl
    | ok y =>
      simp only [Except.map, Py.bind_ok]
      have hm : converged P.tol (g.state x).merit (g.state y).merit = converged P.tol x.merit y.merit :=
        g.converged_eq _ _ _
      rw [hm]
      split
      · rfl
      · exact ih y

theorem start_eq {w : Fin 4 → ℝ} (hw : g.Respects w) (P : Settings) (si : ℝ) (c : Coordinates N) (d : Data N) :
    start P si (g.coordinates c) (g.data d) w = (start P si c d w).map fun r => (g.state r.1, r.2) := by
  unfold start
  cases hi : initDeconvolution si with
  | error e => rfl
  | ok si' =>
    simp only [Py.bind_ok]
    rw [deconvolution_eq]
    cases deconvolution si' c d with
    | error e => rfl
    | ok r =>
      simp only [Except.map, Py.bind_ok]
      split
      · rfl
      · simp only [Py.pure_eq]
        congr 2
        rw [data_mul]
        have := g.metrics_eq hw P si' c d (fun k i => 0.9 * d k i) ![r.1 0, r.1 1, r.1 2, r.2.1] none
        rw [← this]
        congr 1

theorem finish_eq (d : Data N) (self : Attributes) (x : IterState N) :
    finish (g.data d) (g.attributes self) (g.state x) = (finish d self x).map g.attributes := by
  unfold finish
  simp only [state]
  have h2 := g.sum_square fun k i => d k i - x.data_predicted k i
  rw [← data_sub] at h2
  rw [h2, overCount_mul]
  cases x.cofactor with
  | none => rfl
  | some C =>
    simp only [Option.map_some, Except.map]
    congr 1
    unfold attributes
    simp only [Option.map_some, position_eq]
    congr 2
    simp only [Option.map_map]
    congr 1
    funext y
    exact g.covariance_L C y

theorem fitOne_eq {w : Fin 4 → ℝ} (hw : g.Respects w) (P : Settings) (si : ℝ) (c : Coordinates N) (d : Data N)
    (self : Attributes) :
    fitOne P si (g.coordinates c) (g.data d) w (g.attributes self) =
      (fitOne P si c d w self).map fun r => (g.attributes r.1, r.2) := by
  unfold fitOne
  rw [start_eq g hw]
  cases hs : start P si c d w with
  | error e => rfl
  | ok r =>
    have hr : r.2 = fun k => 1 / w k := by
      unfold start at hs
      cases h1 : initDeconvolution si with
      | error e =>
        rw [h1] at hs
        cases hs
      | ok si' =>
        simp only [h1, Py.bind_ok] at hs
        cases h2 : deconvolution si' c d with
        | error e =>
          rw [h2] at hs
          cases hs
        | ok q =>
          simp only [h2, Py.bind_ok] at hs
          split at hs
          · cases hs
          · cases hs
            rfl
    obtain ⟨x, wi⟩ := r
    simp only at hr
    subst hr
    simp only [Except.map, Py.bind_ok]
    rw [loop_eq g hw]
    cases loop P si c d w (fun k => 1 / w k) P.max_iterations x with
    | error e => rfl
    | ok y =>
      simp only [Except.map, Py.bind_ok]
      rw [finish_eq]
      cases finish d self y.1 with
      | error e => rfl
      | ok z => rfl

theorem attributes_empty : g.attributes {} = {} := rfl

theorem candidates_eq {w : Fin 4 → ℝ} (hw : g.Respects w) (P : Settings) (c : Coordinates N) (d : Data N)
    (l : List ℝ) :
    candidates P (g.coordinates c) (g.data d) w l =
      (candidates P c d w l).map fun r => r.map fun x => (x.1, g.attributes x.2) := by
  induction l with
  | nil => rfl
  | cons si l ih =>
    unfold candidates
    cases initInversion (.scalar si) with
    | error e => rfl
    | ok _ =>
      simp only [Py.bind_ok]
      have h := g.fitOne_eq hw P si c d {}
      rw [attributes_empty] at h
      rw [h]
      cases fitOne P si c d w {} with
      | error e => rfl
      | ok r =>
        simp only [Except.map, Py.bind_ok]
        rw [ih]
        cases candidates P c d w l with
        | error e => rfl
        | ok r' => rfl

theorem argmin_scale {a : ℝ} (ha : 0 < a) (l : List ℝ) : argmin (l.map (a * ·)) = argmin l := by
  induction l with
  | nil => rfl
  | cons x l ih =>
    cases l with
    | nil => rfl
    | cons y l =>
      simp only [List.map_cons] at ih ⊢
      simp only [argmin]
      rw [ih]
      cases argmin (y :: l) with
      | error e => rfl
      | ok i =>
        simp only [Py.bind_ok, Py.pure_eq]
        have e : (a * y :: l.map (a * ·)).getD i 0 = a * (y :: l).getD i 0 := by
          simp only [List.getD_eq_getElem?_getD, ← List.map_cons (f := (a * ·)), List.getElem?_map]
          cases (y :: l)[i]? <;> simp
        simp only [e, mul_le_mul_iff_right₀ ha]

theorem fitInversion_eq {w : Fin 4 → ℝ} (hw : g.Respects w) (P : Settings) (si : StructuralIndex)
    (c : Coordinates N) (d : Data N) (self : Attributes) :
    fitInversion P si (g.coordinates c) (g.data d) w (g.attributes self) =
      (fitInversion P si c d w self).map g.attributes := by
  cases si with
  | scalar si =>
    simp only [fitInversion]
    rw [fitOne_eq g hw]
    cases fitOne P si c d w self with
    | error e => rfl
    | ok r => rfl
  | sequence l =>
    simp only [fitInversion]
    rw [candidates_eq g hw]
    cases candidates P c d w l with
    | error e => rfl
    | ok cs =>
      simp only [Except.map, Py.bind_ok]
      have h1 : (cs.map fun x => (x.1, g.attributes x.2)).map (fun c => c.2.data_misfit_.getD 0) =
          (cs.map fun c => c.2.data_misfit_.getD 0).map (|g.s| * ·) := by
        simp only [List.map_map]
        apply List.map_congr_left
        intro x _
        simp only [Function.comp_apply, attributes]
        cases x.2.data_misfit_ <;> simp
      rw [h1, argmin_scale (abs_pos.2 g.nonzero)]
      cases argmin (cs.map fun c => c.2.data_misfit_.getD 0) with
      | error e => rfl
      | ok i =>
        simp only [Py.bind_ok, List.getElem?_map]
        cases cs[i]? with
        | none => rfl
        | some b => rfl

end Change

/-- C131: after any change of the survey, `EulerDeconvolution.fit` finds the moved source, with the covariance of the
new position and base level; it fails when it failed before. -/
theorem C131_deconvolution {N : ℕ} (g : Change N) (si : ℝ) (c : Coordinates N) (d : Data N) :
    deconvolution si (g.coordinates c) (g.data d) = (deconvolution si c d).map fun r =>
      (g.position r.1, g.s * r.2.1, r.2.2.map g.covariance) :=
  g.deconvolution_eq si c d

/-- C131: the same for `EulerInversion.fit`, with one or several structural indices and whatever was fitted before,
when the axes that are mixed have derivatives of the same weight; the chosen structural index is the same. -/
theorem C131_inversion {N : ℕ} (g : Change N) {w : Fin 4 → ℝ} (hw : g.Respects w) (P : Settings)
    (si : StructuralIndex) (c : Coordinates N) (d : Data N) (self : Attributes) :
    fitInversion P si (g.coordinates c) (g.data d) w (g.attributes self) =
      (fitInversion P si c d w self).map g.attributes :=
  g.fitInversion_eq hw P si c d self

/-- C131: the warning about the convergence is also the same. -/
theorem C131_warning {N : ℕ} (g : Change N) {w : Fin 4 → ℝ} (hw : g.Respects w) (P : Settings) (si : ℝ)
    (c : Coordinates N) (d : Data N) (self : Attributes) :
    fitOne P si (g.coordinates c) (g.data d) w (g.attributes self) =
      (fitOne P si c d w self).map fun r => (g.attributes r.1, r.2) :=
  g.fitOne_eq hw P si c d self

end Verif.Euler
