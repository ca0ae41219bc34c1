import Verif.Ellipsoids.LemmasG
import Mathlib.LinearAlgebra.Matrix.PosDef
import Mathlib.Analysis.Matrix.PosDef

/-! The demagnetization tensors of the code, the magnetization and the magnetic field. -/

namespace Verif.Ellipsoids
open Verif.Forward Verif.Distance

/-! ### The external tensor -/

theorem derivatives_spec {a b c l : ℝ} (hc : 0 < c) (hbc : c ≤ b) (hab : b ≤ a) (hl : 0 ≤ l) :
    getDerivativesOfEllipticalIntegrals a b c l = .ok fun i =>
      -(1 / ((![a, b, c] i ^ 2 + l) * rootProduct a b c l)) := by
  have hb : 0 < b := hc.trans_le hbc
  have ha : 0 < a := hb.trans_le hab
  have p : Pos a b c l := (Pos.zero ha hb hc).mono hl
  have hr : √((a ^ 2 + l) * (b ^ 2 + l) * (c ^ 2 + l)) ≠ 0 := p.root.ne'
  unfold getDerivativesOfEllipticalIntegrals
  rw [sorted_ok hab hbc]
  simp only [Py.bind_ok, psqrt_ok (mul_pos (mul_pos p.1 p.2.1) p.2.2).le, pdiv_ok p.1.ne',
    pdiv_ok p.2.1.ne', pdiv_ok p.2.2.ne', pdiv_ok hr]
  refine congrArg Except.ok ?_
  have e : ∀ x : ℝ, -1 / x / √((a ^ 2 + l) * (b ^ 2 + l) * (c ^ 2 + l)) =
      -(1 / (x * rootProduct a b c l)) := by
    intro x
    rw [div_div, neg_div]; rfl
  simp only [e]
  ext i; fin_cases i <;> rfl

theorem spatialDeriv_spec {a b c : ℝ} (hc : 0 < c) (hbc : c ≤ b) (hab : b ≤ a) {v : V3}
    (hv : 1 ≤ quadric a b c v) :
    spatialDerivLambda v a b c (confocalParameter ![a, b, c] v) =
      .ok (confocalGradient ![a, b, c] v) := by
  have hs := positive_of_sorted hc hbc hab
  rw [quadric_eq] at hv
  have hl := confocalParameter_nonneg ![a, b, c] v
  have p : Pos a b c (confocalParameter ![a, b, c] v) := hs.pos hl
  have hD := sum_sq_pos hs hv
  have e : ∑ j, (v j / (![a, b, c] j ^ 2 + confocalParameter ![a, b, c] v)) ^ 2 =
      (v 0 / (a ^ 2 + confocalParameter ![a, b, c] v)) ^ 2 +
      (v 1 / (b ^ 2 + confocalParameter ![a, b, c] v)) ^ 2 +
      (v 2 / (c ^ 2 + confocalParameter ![a, b, c] v)) ^ 2 := by
    rw [Fin.sum_univ_three]; rfl
  have hD' := hD.ne'
  rw [e] at hD'
  unfold spatialDerivLambda
  simp only [Py.bind_ok, pdiv_ok p.1.ne', pdiv_ok p.2.1.ne', pdiv_ok p.2.2.ne', pdiv_ok hD']
  refine congrArg Except.ok ?_
  rw [← e]
  ext i; fin_cases i <;> rfl

/-- The tensor with the effective integrals. -/
noncomputable def effectiveTensor (a b c : ℝ) (v : V3) : M3 := fun i j =>
  a * b * c / 2 * (confocalGradient ![a, b, c] v i *
    (-(1 / ((![a, b, c] j ^ 2 + confocalParameter ![a, b, c] v) *
      rootProduct a b c (confocalParameter ![a, b, c] v)))) * v j +
    if i = j then integralsOf (effective a b c) (confocalParameter ![a, b, c] v) i else 0)

/-- Not almost a sphere. -/
theorem demagExternal_spec {a b c : ℝ} (hc : 0 < c) (hbc : c ≤ b) (hab : b ≤ a)
    (hs : ¬(Close a b ∧ Close b c)) {v : V3} (hv : 1 ≤ quadric a b c v) :
    getDemagnetizationTensorExternal v a b c = .ok (effectiveTensor a b c v) := by
  classical
  have hl := confocalParameter_nonneg ![a, b, c] v
  unfold getDemagnetizationTensorExternal
  rw [isAlmostASphere_eq hc hbc hab]
  simp only [Py.bind_ok, calculateLambda_outside v hc hbc hab hv,
    getEllipticalIntegrals_spec hc hbc hab hs (show -c ^ 2 < _ by nlinarith),
    derivatives_spec hc hbc hab hl, spatialDeriv_spec hc hbc hab hv]
  rw [if_neg (by simpa using hs)]
  refine congrArg Except.ok ?_
  ext i j
  rw [Matrix.of_apply]
  unfold effectiveTensor
  by_cases h : i = j
  · subst h; simp only [if_true]
  · simp only [if_neg h, add_zero]

theorem norm_pos_of_outside {a b c : ℝ} {v : V3} (hv : 1 ≤ quadric a b c v) :
    0 < v 0 ^ 2 + v 1 ^ 2 + v 2 ^ 2 := by
  by_contra hcon
  have h0 : v 0 ^ 2 = 0 := by nlinarith [sq_nonneg (v 0), sq_nonneg (v 1), sq_nonneg (v 2)]
  have h1 : v 1 ^ 2 = 0 := by nlinarith [sq_nonneg (v 0), sq_nonneg (v 1), sq_nonneg (v 2)]
  have h2 : v 2 ^ 2 = 0 := by nlinarith [sq_nonneg (v 0), sq_nonneg (v 1), sq_nonneg (v 2)]
  simp [quadric, h0, h1, h2] at hv
  linarith

/-- Tensor of a sphere of radius `a`. -/
noncomputable def sphereTensor (a : ℝ) (v : V3) : M3 := fun i j =>
  -(a ^ 3 / 3) * (3 * v i * v j / √(v 0 ^ 2 + v 1 ^ 2 + v 2 ^ 2) ^ 5 -
    if i = j then 1 / √(v 0 ^ 2 + v 1 ^ 2 + v 2 ^ 2) ^ 3 else 0)

/-- Almost a sphere. -/
theorem demagExternal_sphere {a b c : ℝ} (hc : 0 < c) (hbc : c ≤ b) (hab : b ≤ a)
    (hs : Close a b ∧ Close b c) {v : V3} (hv : 1 ≤ quadric a b c v) :
    getDemagnetizationTensorExternal v a b c = .ok (sphereTensor a v) := by
  classical
  have hr := norm_pos_of_outside hv
  have hR := Real.sqrt_pos.2 hr
  unfold getDemagnetizationTensorExternal
  rw [isAlmostASphere_eq hc hbc hab]
  simp only [Py.bind_ok]
  rw [if_pos (by simpa using hs)]
  unfold demagSphereExternal
  simp only [Py.bind_ok, psqrt_ok hr.le, pdiv_ok (pow_pos hR 3).ne', pdiv_ok (pow_pos hR 5).ne']
  refine congrArg Except.ok ?_
  ext i j
  rw [Matrix.of_apply]
  unfold sphereTensor
  by_cases h : i = j
  · subst h; simp only [if_true]; ring
  · simp only [if_neg h]; ring

theorem demagOutside_sphere {a : ℝ} (ha : 0 < a) {v : V3} (hv : 1 ≤ quadric a a a v) :
    demagOutside ![a, a, a] v = sphereTensor a v := by
  have hs : Positive ![a, a, a] := positive_of_sorted ha le_rfl le_rfl
  have hq : quadric a a a v = (v 0 ^ 2 + v 1 ^ 2 + v 2 ^ 2) / a ^ 2 := by unfold quadric; ring
  have hr := norm_pos_of_outside hv
  have h1 : a ^ 2 ≤ v 0 ^ 2 + v 1 ^ 2 + v 2 ^ 2 := by
    rwa [hq, le_div_iff₀ (by positivity), one_mul] at hv
  set r2 := v 0 ^ 2 + v 1 ^ 2 + v 2 ^ 2 with hr2
  have hl : confocalParameter ![a, a, a] v = r2 - a ^ 2 := by
    refine confocalParameter_eq hs (by linarith) ?_
    simp only [confocalSum, Fin.sum_univ_three]
    simp
    rw [← add_div, ← add_div, ← hr2, div_self hr.ne']
  have hax : ∀ i, ![a, a, a] i = a := by intro i; fin_cases i <;> rfl
  have hR := Real.sqrt_pos.2 hr
  have hsq : √r2 ^ 2 = r2 := Real.sq_sqrt hr.le
  have hroot : rootProduct a a a (r2 - a ^ 2) = √r2 ^ 3 := by
    rw [Pos.root_eq ⟨by linarith, by linarith, by linarith⟩, show a ^ 2 + (r2 - a ^ 2) = r2 by ring]
    ring
  have hint : ∀ i, integralsOf ![a, a, a] (r2 - a ^ 2) i = 2 / (3 * √r2 ^ 3) := by
    intro i
    have : integralsOf ![a, a, a] (r2 - a ^ 2) i = ellipticIntegral a a a a (r2 - a ^ 2) := by
      fin_cases i <;> rfl
    rw [this, ellipticIntegral_sphere (by linarith), show a ^ 2 + (r2 - a ^ 2) = r2 by ring]
  have hgrad : ∀ i, confocalGradient ![a, a, a] v i = 2 * v i := by
    intro i
    have e : ∑ j, (v j / (![a, a, a] j ^ 2 + (r2 - a ^ 2))) ^ 2 = 1 / r2 := by
      simp only [hax, show a ^ 2 + (r2 - a ^ 2) = r2 by ring, div_pow, Fin.sum_univ_three]
      rw [← add_div, ← add_div, ← hr2]
      field_simp
    unfold confocalGradient
    rw [hl, e, hax, show a ^ 2 + (r2 - a ^ 2) = r2 by ring]
    field_simp
  ext i j
  rw [demagOutside_apply, hl, hgrad, hint, hax]
  change prod3 ![a, a, a] / 2 * (2 * v i * (-(1 / ((a ^ 2 + (r2 - a ^ 2)) *
    rootProduct a a a (r2 - a ^ 2)))) * v j + _) = _
  rw [hroot, show a ^ 2 + (r2 - a ^ 2) = r2 by ring]
  have hp : prod3 ![a, a, a] = a ^ 3 := by
    change a * a * a = _; ring
  rw [hp]
  unfold sphereTensor
  rw [← hr2]
  set r := √r2
  rw [← hsq]
  by_cases h : i = j
  · simp only [if_pos h]; field_simp; ring
  · simp only [if_neg h]; field_simp; ring

theorem sphereTensor_symm (a : ℝ) (v : V3) : (sphereTensor a v).transpose = sphereTensor a v := by
  ext i j
  simp only [Matrix.transpose_apply, sphereTensor]
  by_cases h : i = j
  · subst h; rfl
  · rw [if_neg h, if_neg (Ne.symm h)]; ring

theorem sphereTensor_trace (a : ℝ) {v : V3} (hr : 0 < v 0 ^ 2 + v 1 ^ 2 + v 2 ^ 2) :
    (sphereTensor a v).trace = 0 := by
  have hR := Real.sqrt_pos.2 hr
  have hsq : √(v 0 ^ 2 + v 1 ^ 2 + v 2 ^ 2) ^ 2 = v 0 ^ 2 + v 1 ^ 2 + v 2 ^ 2 := Real.sq_sqrt hr.le
  unfold Matrix.trace
  simp only [Matrix.diag_apply, sphereTensor, if_true, Fin.sum_univ_three]
  set r := √(v 0 ^ 2 + v 1 ^ 2 + v 2 ^ 2)
  have : v 2 ^ 2 = r ^ 2 - v 0 ^ 2 - v 1 ^ 2 := by linarith
  field_simp
  rw [this]
  ring

/-- The external tensor is computed without errors at every external point. -/
theorem demagExternal_total {a b c : ℝ} (hc : 0 < c) (hbc : c ≤ b) (hab : b ≤ a) {v : V3}
    (hv : 1 ≤ quadric a b c v) : ∃ N, getDemagnetizationTensorExternal v a b c = .ok N ∧
      N.transpose = N ∧ (Resolved a b c → N = demagOutside ![a, b, c] v) := by
  by_cases hs : Close a b ∧ Close b c
  · refine ⟨_, demagExternal_sphere hc hbc hab hs hv, sphereTensor_symm a v, fun hr => ?_⟩
    obtain rfl := hr.1 hs.1
    obtain rfl := hr.2 hs.2
    rw [demagOutside_sphere hc hv]
  · refine ⟨_, demagExternal_spec hc hbc hab hs hv, ?_, fun hr => ?_⟩
    · ext i j
      simp only [Matrix.transpose_apply, effectiveTensor]
      congr 1
      congr 1
      · simp only [confocalGradient, one_div, mul_inv, div_eq_mul_inv]; ring
      · by_cases h : i = j
        · subst h; rfl
        · rw [if_neg h, if_neg (Ne.symm h)]
    · unfold effectiveTensor
      rw [effective_resolved hr]
      rfl

/-- The internal tensor. -/
theorem demagInternal_total {a b c : ℝ} (hc : 0 < c) (hbc : c ≤ b) (hab : b ≤ a) :
    ∃ n : V3, getDemagnetizationTensorInternal a b c = .ok (Matrix.diagonal n) ∧ (∀ i, 0 < n i) ∧
      ∑ i, n i = 1 ∧ (Resolved a b c → Matrix.diagonal n = demagInside ![a, b, c]) := by
  by_cases hs : Close a b ∧ Close b c
  · refine ⟨_, demagInternal_sphere hc hbc hab hs, fun i => by norm_num, by simp,
      fun hr => ?_⟩
    obtain rfl := hr.1 hs.1
    obtain rfl := hr.2 hs.2
    rw [demagInside_eq]
    congr 1
    ext i
    have : integralsOf ![a, a, a] 0 i = ellipticIntegral a a a a 0 := by fin_cases i <;> rfl
    rw [this, ellipticIntegral_sphere (by positivity), add_zero, Real.sqrt_sq hc.le]
    change _ = a * a * a / 2 * _
    field_simp
  · obtain ⟨h0, _, h1, h2⟩ := effective_sorted hc hbc hab
    have hpos : Positive (effective a b c) := by
      intro i; fin_cases i
      · exact (h0.trans_le h1).trans_le h2
      · exact h0.trans_le h1
      · exact h0
    refine ⟨_, demagInternal_spec hc hbc hab hs, fun i => ?_, ?_, fun hr => ?_⟩
    · have := integralsOf_pos hpos le_rfl i
      have := hpos 0; have := hpos 1; have := hpos 2
      unfold prod3
      positivity
    · have := demagInside_trace hpos
      rw [demagInside_eq, Matrix.trace_diagonal] at this
      exact this
    · rw [effective_resolved hr]; rfl

/-! ### Change of frame -/

theorem conj_sorted {P : M3} {σ : Fin 3 → Fin 3} (hP : ProperRotation P)
    {ε : V3}
    (hε : ∀ v i, (P.transpose.mulVec v) i = ε i * v (σ i)) (A B : M3)
    (hAB : ∀ i j, A i j = ε i * ε j * B (σ i) (σ j)) : P * A * P.transpose = B := by
  have entry : ∀ i j, P j i = if σ i = j then ε i else 0 := by
    intro i j
    have := hε (Pi.single j 1) i
    rw [Matrix.mulVec_single_one] at this
    simp only [Matrix.col_apply, Matrix.transpose_apply] at this
    rw [this, Pi.single_apply]
    split_ifs <;> simp
  have h1 : A = P.transpose * B * P := by
    ext i j
    rw [hAB, Matrix.mul_apply]
    simp only [Matrix.mul_apply, Matrix.transpose_apply, entry]
    simp only [ite_mul, zero_mul, mul_ite, mul_zero, Finset.sum_ite_eq, Finset.mem_univ, if_true]
    ring
  rw [h1, show P * (P.transpose * B * P) * P.transpose = (P * P.transpose) * B * (P * P.transpose) by
    simp only [Matrix.mul_assoc], hP.1, Matrix.one_mul, Matrix.mul_one]

theorem SortedFrame.inside {e : Ellipsoid} {P : M3} {σ : Fin 3 → Fin 3} {a b c : ℝ}
    (h : SortedFrame e P σ a b c) :
    P * demagInside ![a, b, c] * P.transpose = demagInside e.axes := by
  obtain ⟨ε, hε1, hε⟩ := signed_perm h.squares
  refine conj_sorted h.proper hε _ _ fun i j => ?_
  rw [demagInside_eq, demagInside_eq, h.axes, prod3_perm e.axes h.bij]
  by_cases hij : i = j
  · subst hij
    simp only [Matrix.diagonal_apply_eq, integralsOf_perm e.axes h.bij]
    have := hε1 i
    linear_combination (-(prod3 e.axes / 2 * integralsOf e.axes 0 (σ i))) * this
  · rw [Matrix.diagonal_apply_ne _ hij, Matrix.diagonal_apply_ne _ (fun hh => hij (h.bij.1 hh)),
      mul_zero]

theorem SortedFrame.outside {e : Ellipsoid} {P : M3} {σ : Fin 3 → Fin 3} {a b c : ℝ}
    (h : SortedFrame e P σ a b c) (v : V3) :
    P * demagOutside ![a, b, c] (P.transpose.mulVec v) * P.transpose = demagOutside e.axes v := by
  obtain ⟨ε, hε1, hε⟩ := signed_perm h.squares
  refine conj_sorted h.proper hε _ _ fun i j => ?_
  have hroot : ∀ u, rootProduct (![a, b, c] 0) (![a, b, c] 1) (![a, b, c] 2) u =
      rootProduct (e.axes 0) (e.axes 1) (e.axes 2) u := by
    intro u; rw [h.axes]; exact rootProduct_perm e.axes h.bij u
  have hpar : confocalParameter ![a, b, c] (P.transpose.mulVec v) = confocalParameter e.axes v := by
    rw [h.axes]; exact confocalParameter_perm e.axes v _ h.bij (h.squares v)
  have hax : ∀ i, ![a, b, c] i = e.axes (σ i) := fun i => congrFun h.axes i
  have hsum : ∑ j, ((P.transpose.mulVec v) j / (![a, b, c] j ^ 2 + confocalParameter e.axes v)) ^ 2 =
      ∑ j, (v j / (e.axes j ^ 2 + confocalParameter e.axes v)) ^ 2 := by
    simp only [div_pow, h.squares, hax]
    exact h.bij.sum_comp (fun j => v j ^ 2 / (e.axes j ^ 2 + confocalParameter e.axes v) ^ 2)
  have hgrad : ∀ i, confocalGradient ![a, b, c] (P.transpose.mulVec v) i =
      ε i * confocalGradient e.axes v (σ i) := by
    intro i
    unfold confocalGradient
    rw [hpar, hsum, hε, hax]
    ring
  have hint : ∀ i, integralsOf ![a, b, c] (confocalParameter e.axes v) i =
      integralsOf e.axes (confocalParameter e.axes v) (σ i) := by
    intro i; rw [h.axes]; exact integralsOf_perm e.axes h.bij _ i
  have hprod : prod3 ![a, b, c] = prod3 e.axes := by rw [h.axes]; exact prod3_perm e.axes h.bij
  rw [demagOutside_apply, demagOutside_apply, hprod, hpar, hgrad, hroot, hε, hax, hint]
  by_cases hij : i = j
  · subst hij
    simp only [if_true]
    have := hε1 i
    linear_combination (-(prod3 e.axes / 2 * integralsOf e.axes (confocalParameter e.axes v) (σ i))) * this
  · rw [if_neg hij, if_neg (fun hh => hij (h.bij.1 hh))]
    ring

theorem body_proper (e : Ellipsoid) : ProperRotation e.rotationMatrix := rotation_proper _ _ _

theorem inside_iff (e : Ellipsoid) (p : V3) :
    e.Inside p ↔ quadric e.a e.b e.c (e.local p) < 1 := by
  have hR := body_proper e
  unfold Ellipsoid.Inside Ellipsoid.local
  constructor
  · rintro ⟨v, rfl, hv⟩
    rw [add_sub_cancel_right, Matrix.mulVec_mulVec, hR.2.1, Matrix.one_mulVec]
    exact hv
  · intro h
    refine ⟨_, ?_, h⟩
    rw [Matrix.mulVec_mulVec, hR.1, Matrix.one_mulVec]
    simp

theorem SortedFrame.internal {e : Ellipsoid} {P : M3} {σ : Fin 3 → Fin 3} {a b c : ℝ}
    (h : SortedFrame e P σ a b c) (v : V3) :
    quadric a b c (P.transpose.mulVec v) = quadric e.a e.b e.c v := by
  have hA : Arranges e P (a, b, c) σ := ⟨h.squares, by
    have := h.axes
    refine Prod.ext (congrFun this 0) (Prod.ext (congrFun this 1) (congrFun this 2))⟩
  exact arranges_quadric h.bij hA v

end Verif.Ellipsoids
