import Verif.Ellipsoids.Spec
import Mathlib.LinearAlgebra.Matrix.Determinant.Basic
import Mathlib.Tactic

/-! Lemmas on partial operations, rotations and the order of the semiaxes. -/

namespace Verif.Ellipsoids

theorem pdiv_ok {x y : ℝ} (h : y ≠ 0) : pdiv x y = .ok (x / y) := by simp [pdiv, h]
theorem psqrt_ok {x : ℝ} (h : 0 ≤ x) : psqrt x = .ok (√x) := by simp [psqrt, not_lt.2 h]
theorem plog_ok {x : ℝ} (h : 0 < x) : plog x = .ok (Real.log x) := by simp [plog, not_le.2 h]
theorem parcsin_ok {x : ℝ} (h : -1 ≤ x) (h' : x ≤ 1) : parcsin x = .ok (Real.arcsin x) := by
  simp [parcsin, h, h']
theorem parccos_ok {x : ℝ} (h : -1 ≤ x) (h' : x ≤ 1) : parccos x = .ok (Real.arccos x) := by
  simp [parccos, h, h']
theorem ppow_ok {x : ℝ} (y : ℝ) (h : 0 ≤ x) : ppow x y = .ok (x ^ y) := by
  simp [ppow, not_lt.2 h]

theorem sorted_ok {a b c : ℝ} (hab : b ≤ a) (hbc : c ≤ b) : checkSemiaxesSorted a b c = .ok () := by
  simp [checkSemiaxesSorted, hab, hbc]

theorem not_sorted {a b c : ℝ} (h : ¬(b ≤ a ∧ c ≤ b)) :
    checkSemiaxesSorted a b c = .error .ValueError := by
  unfold checkSemiaxesSorted
  rw [if_pos]
  exact h

/-! ### Rotations -/

theorem proper_mul {A B : M3} (hA : ProperRotation A) (hB : ProperRotation B) :
    ProperRotation (A * B) := by
  obtain ⟨a1, a2, a3⟩ := hA
  obtain ⟨b1, b2, b3⟩ := hB
  refine ⟨?_, ?_, ?_⟩
  · rw [Matrix.transpose_mul, Matrix.mul_assoc, ← Matrix.mul_assoc B, b1, Matrix.one_mul, a1]
  · rw [Matrix.transpose_mul, Matrix.mul_assoc, ← Matrix.mul_assoc A.transpose, a2, Matrix.one_mul, b2]
  · rw [Matrix.det_mul, a3, b3, one_mul]

theorem proper_transpose {A : M3} (hA : ProperRotation A) : ProperRotation A.transpose := by
  obtain ⟨a1, a2, a3⟩ := hA
  refine ⟨?_, ?_, ?_⟩
  · rw [Matrix.transpose_transpose, a2]
  · rw [Matrix.transpose_transpose, a1]
  · rw [Matrix.det_transpose, a3]

theorem proper_one : ProperRotation 1 := by
  refine ⟨by simp, by simp, by simp⟩

theorem proper_of_entries {A : M3} (h : A * A.transpose = 1) (hd : A.det = 1) : ProperRotation A :=
  ⟨h, mul_eq_one_comm.1 h, hd⟩

theorem rotZ_proper (t : ℝ) : ProperRotation (rotZ t) := by
  have h := Real.sin_sq_add_cos_sq t
  refine proper_of_entries ?_ ?_
  · ext i j
    fin_cases i <;> fin_cases j <;>
      simp [rotZ, Matrix.mul_apply, Fin.sum_univ_three] <;> nlinarith
  · simp [rotZ, Matrix.det_fin_three]; nlinarith

theorem rotY_proper (t : ℝ) : ProperRotation (rotY t) := by
  have h := Real.sin_sq_add_cos_sq t
  refine proper_of_entries ?_ ?_
  · ext i j
    fin_cases i <;> fin_cases j <;>
      simp [rotY, Matrix.mul_apply, Fin.sum_univ_three] <;> nlinarith
  · simp [rotY, Matrix.det_fin_three]; nlinarith

theorem rotX_proper (t : ℝ) : ProperRotation (rotX t) := by
  have h := Real.sin_sq_add_cos_sq t
  refine proper_of_entries ?_ ?_
  · ext i j
    fin_cases i <;> fin_cases j <;>
      simp [rotX, Matrix.mul_apply, Fin.sum_univ_three] <;> nlinarith
  · simp [rotX, Matrix.det_fin_three]; nlinarith

theorem rotation_proper (yaw pitch roll : ℝ) : ProperRotation (getRotationMatrix yaw pitch roll) :=
  proper_mul (proper_mul (rotZ_proper _) (rotY_proper _)) (rotX_proper _)

/-! ### Order of the semiaxes -/

theorem radians_ninety : radians 90 = Real.pi / 2 := by unfold radians; ring
theorem radians_zero : radians 0 = 0 := by unfold radians; ring
theorem radians_neg_ninety : radians (-90) = -(Real.pi / 2) := by unfold radians; ring

theorem rotZ_ninety : rotZ (Real.pi / 2) = !![0, -1, 0; 1, 0, 0; 0, 0, 1] := by simp [rotZ]
theorem rotY_neg_ninety : rotY (-(Real.pi / 2)) = !![0, 0, -1; 0, 1, 0; 1, 0, 0] := by simp [rotY]
theorem rotX_ninety : rotX (Real.pi / 2) = !![1, 0, 0; 0, 0, -1; 0, 1, 0] := by simp [rotX]
theorem rotZ_zero : rotZ 0 = 1 := by
  ext i j; fin_cases i <;> fin_cases j <;> simp [rotZ]
theorem rotY_zero : rotY 0 = 1 := by
  ext i j; fin_cases i <;> fin_cases j <;> simp [rotY]
theorem rotX_zero : rotX 0 = 1 := by
  ext i j; fin_cases i <;> fin_cases j <;> simp [rotX]

theorem truncate_zero : truncate 0 = 0 := by simp [truncate]
theorem truncate_one : truncate 1 = 1 := by simp [truncate]
theorem truncate_neg_one : truncate (-1) = -1 := by
  unfold truncate
  rw [if_neg (by norm_num)]
  have : ⌈(-1 : ℝ)⌉ = -1 := by
    have := Int.ceil_intCast (R := ℝ) (-1)
    simpa using this
  rw [this]; norm_num

theorem map_truncate (A B : M3) (h : A = B) (hB : ∀ i j, truncate (B i j) = B i j) :
    A.map truncate = B := by
  subst h; ext i j; exact hB i j

theorem mat_yaw : (getRotationMatrix 90 0 0).map truncate = !![0, -1, 0; 1, 0, 0; 0, 0, 1] := by
  refine map_truncate _ _ ?_ ?_
  · simp [getRotationMatrix, fromEulerZYX, radians_ninety, radians_zero, rotZ_ninety, rotY_zero,
      rotX_zero]
  · intro i j; fin_cases i <;> fin_cases j <;>
      simp [truncate_zero, truncate_one, truncate_neg_one]

theorem mat_pitch : (getRotationMatrix 0 90 0).map truncate = !![0, 0, -1; 0, 1, 0; 1, 0, 0] := by
  refine map_truncate _ _ ?_ ?_
  · simp [getRotationMatrix, fromEulerZYX, radians_neg_ninety, radians_zero, rotZ_zero,
      rotY_neg_ninety, rotX_zero]
  · intro i j; fin_cases i <;> fin_cases j <;>
      simp [truncate_zero, truncate_one, truncate_neg_one]

theorem mat_roll : (getRotationMatrix 0 0 90).map truncate = !![1, 0, 0; 0, 0, -1; 0, 1, 0] := by
  refine map_truncate _ _ ?_ ?_
  · simp [getRotationMatrix, fromEulerZYX, radians_ninety, radians_zero, rotZ_zero, rotY_zero,
      rotX_ninety]
  · intro i j; fin_cases i <;> fin_cases j <;>
      simp [truncate_zero, truncate_one, truncate_neg_one]

theorem mat_yaw_roll :
    (getRotationMatrix 90 0 90).map truncate = !![0, 0, 1; 1, 0, 0; 0, 1, 0] := by
  refine map_truncate _ _ ?_ ?_
  · simp [getRotationMatrix, fromEulerZYX, radians_ninety, radians_zero, rotZ_ninety, rotY_zero,
      rotX_ninety]
  · intro i j; fin_cases i <;> fin_cases j <;>
      simp [truncate_zero, truncate_one, truncate_neg_one]

theorem mat_yaw_pitch :
    (getRotationMatrix 90 90 0).map truncate = !![0, -1, 0; 0, 0, -1; 1, 0, 0] := by
  refine map_truncate _ _ ?_ ?_
  · simp [getRotationMatrix, fromEulerZYX, radians_ninety, radians_neg_ninety, radians_zero,
      rotZ_ninety, rotY_neg_ninety, rotX_zero]
  · intro i j; fin_cases i <;> fin_cases j <;>
      simp [truncate_zero, truncate_one, truncate_neg_one]

theorem sorted_eq (e : Ellipsoid) {x y z : ℝ} (h : y ≤ x) (h' : z ≤ y)
    (hp : [x, y, z].Perm [e.a, e.b, e.c]) : sortedSemiaxes e = (x, y, z) := by
  have h1 : [e.a, e.b, e.c].insertionSort (· ≥ ·) = [x, y, z] := by
    refine List.Perm.eq_of_sortedGE (List.sortedGE_insertionSort) ?_
      ((List.perm_insertionSort _ _).trans hp.symm)
    rw [List.sortedGE_iff_pairwise]
    simp [h, h', h'.trans h]
  unfold sortedSemiaxes
  simp only [h1]
  rfl

/-- What the rotation of the semiaxes does: the squares of the components are permuted as the sorted
semiaxes are. -/
def Arranges (e : Ellipsoid) (P : M3) (s : ℝ × ℝ × ℝ) (σ : Fin 3 → Fin 3) : Prop :=
  (∀ v : V3, ∀ i, (P.transpose.mulVec v) i ^ 2 = v (σ i) ^ 2) ∧
    s = (![e.a, e.b, e.c] (σ 0), ![e.a, e.b, e.c] (σ 1), ![e.a, e.b, e.c] (σ 2))

theorem branch_spec (e : Ellipsoid) (P : M3) (σ : Fin 3 → Fin 3)
    (hσ : Function.Bijective σ)
    (hP : ProperRotation P) (hsq : ∀ v : V3, ∀ i, (P.transpose.mulVec v) i ^ 2 = v (σ i) ^ 2)
    (h1 : ![e.a, e.b, e.c] (σ 1) ≤ ![e.a, e.b, e.c] (σ 0))
    (h2 : ![e.a, e.b, e.c] (σ 2) ≤ ![e.a, e.b, e.c] (σ 1)) :
    ProperRotation P ∧ (∃ σ, Function.Bijective σ ∧ Arranges e P (sortedSemiaxes e) σ) ∧
    (sortedSemiaxes e).2.1 ≤ (sortedSemiaxes e).1 ∧
    (sortedSemiaxes e).2.2 ≤ (sortedSemiaxes e).2.1 := by
  have hperm : [![e.a, e.b, e.c] (σ 0), ![e.a, e.b, e.c] (σ 1), ![e.a, e.b, e.c] (σ 2)].Perm
      [e.a, e.b, e.c] := by
    have : (List.ofFn (![e.a, e.b, e.c] ∘ σ)).Perm (List.ofFn ![e.a, e.b, e.c]) := by
      have := Equiv.Perm.ofFn_comp_perm (Equiv.ofBijective σ hσ) ![e.a, e.b, e.c]
      simpa using this
    simpa [List.ofFn_succ] using this
  have hs := sorted_eq e h1 h2 hperm
  refine ⟨hP, ⟨σ, hσ, hsq, hs⟩, ?_, ?_⟩
  · rw [hs]; exact h1
  · rw [hs]; exact h2

/-- The matrix of the order of the semiaxes is a proper rotation, under which the
squares of the components are permuted as the sorted semiaxes are. -/
theorem semiaxes_spec (e : Ellipsoid) : ∃ P, getSemiaxesRotationMatrix e = .ok P ∧
    ProperRotation P ∧ (∃ σ, Function.Bijective σ ∧ Arranges e P (sortedSemiaxes e) σ) ∧
    (sortedSemiaxes e).2.1 ≤ (sortedSemiaxes e).1 ∧
    (sortedSemiaxes e).2.2 ≤ (sortedSemiaxes e).2.1 := by
  have proper : ∀ P : M3, P * P.transpose = 1 → P.det = 1 → ProperRotation P :=
    fun P h h' => proper_of_entries h h'
  unfold getSemiaxesRotationMatrix
  simp only [ge_iff_le]
  split_ifs with h1 h2 h3 h4 h5 h6
  · refine ⟨_, rfl, branch_spec e _ id Function.bijective_id proper_one ?_ ?_ ?_⟩
    · intro v i; simp
    · simpa using h1.1
    · simpa using h1.2
  · refine ⟨_, rfl, ?_⟩
    rw [mat_yaw]
    refine branch_spec e _ ![1, 0, 2] (by decide) (proper _ ?_ ?_) ?_ ?_ ?_
    · ext i j; fin_cases i <;> fin_cases j <;> simp [Matrix.mul_apply, Fin.sum_univ_three]
    · simp [Matrix.det_fin_three]
    · intro v i; fin_cases i <;> simp [Matrix.mulVec, dotProduct, Fin.sum_univ_three]
    · simpa using h2.1
    · simpa using h2.2
  · refine ⟨_, rfl, ?_⟩
    rw [mat_pitch]
    refine branch_spec e _ ![2, 1, 0] (by decide) (proper _ ?_ ?_) ?_ ?_ ?_
    · ext i j; fin_cases i <;> fin_cases j <;> simp [Matrix.mul_apply, Fin.sum_univ_three]
    · simp [Matrix.det_fin_three]
    · intro v i; fin_cases i <;> simp [Matrix.mulVec, dotProduct, Fin.sum_univ_three]
    · simpa using h3.1
    · simpa using h3.2
  · refine ⟨_, rfl, ?_⟩
    rw [mat_roll]
    refine branch_spec e _ ![0, 2, 1] (by decide) (proper _ ?_ ?_) ?_ ?_ ?_
    · ext i j; fin_cases i <;> fin_cases j <;> simp [Matrix.mul_apply, Fin.sum_univ_three]
    · simp [Matrix.det_fin_three]
    · intro v i; fin_cases i <;> simp [Matrix.mulVec, dotProduct, Fin.sum_univ_three]
    · simpa using h4.1
    · simpa using h4.2
  · refine ⟨_, rfl, ?_⟩
    rw [mat_yaw_roll]
    refine branch_spec e _ ![1, 2, 0] (by decide) (proper _ ?_ ?_) ?_ ?_ ?_
    · ext i j; fin_cases i <;> fin_cases j <;> simp [Matrix.mul_apply, Fin.sum_univ_three]
    · simp [Matrix.det_fin_three]
    · intro v i; fin_cases i <;> simp [Matrix.mulVec, dotProduct, Fin.sum_univ_three]
    · simpa using h5.1
    · simpa using h5.2
  · refine ⟨_, rfl, ?_⟩
    rw [mat_yaw_pitch]
    refine branch_spec e _ ![2, 0, 1] (by decide) (proper _ ?_ ?_) ?_ ?_ ?_
    · ext i j; fin_cases i <;> fin_cases j <;> simp [Matrix.mul_apply, Fin.sum_univ_three]
    · simp [Matrix.det_fin_three]
    · intro v i; fin_cases i <;> simp [Matrix.mulVec, dotProduct, Fin.sum_univ_three]
    · simpa using h6.1
    · simpa using h6.2
  · exfalso
    rcases le_total e.a e.b with h | h <;> rcases le_total e.b e.c with h' | h' <;>
      rcases le_total e.a e.c with h'' | h'' <;> tauto

/-- The quadric of the sorted semiaxes in the sorted frame is the quadric of the body. -/
theorem arranges_quadric {e : Ellipsoid} {P : M3} {s : ℝ × ℝ × ℝ} {σ : Fin 3 → Fin 3}
    (hσ : Function.Bijective σ) (h : Arranges e P s σ) (v : V3) :
    quadric s.1 s.2.1 s.2.2 (P.transpose.mulVec v) = quadric e.a e.b e.c v := by
  obtain ⟨h1, h2⟩ := h
  have key : ∑ i, v (σ i) ^ 2 / ![e.a, e.b, e.c] (σ i) ^ 2 = ∑ i, v i ^ 2 / ![e.a, e.b, e.c] i ^ 2 :=
    hσ.sum_comp (fun i => v i ^ 2 / ![e.a, e.b, e.c] i ^ 2)
  simp only [Fin.sum_univ_three] at key
  unfold quadric
  rw [h1, h1, h1, h2]
  simpa using key

end Verif.Ellipsoids
