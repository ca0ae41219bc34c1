import Verif.Ellipsoids.LemmasE

/-! The attraction of a homogeneous ellipsoid: what the code computes, continuity, derivatives, far
field; the external demagnetization tensor. -/

namespace Verif.Ellipsoids
open Filter Topology MeasureTheory
open Verif.Forward (gravitationalConst)

/-! ### Order of the axes -/

theorem rootProduct_perm (s : V3) {σ : Fin 3 → Fin 3} (hσ : Function.Bijective σ) (u : ℝ) :
    rootProduct (s (σ 0)) (s (σ 1)) (s (σ 2)) u = rootProduct (s 0) (s 1) (s 2) u := by
  have key : ∏ i, (s (σ i) ^ 2 + u) = ∏ i, (s i ^ 2 + u) :=
    hσ.prod_comp (fun i => s i ^ 2 + u)
  simp only [Fin.prod_univ_three] at key
  unfold rootProduct
  rw [key]

theorem integralsOf_perm (s : V3) {σ : Fin 3 → Fin 3} (hσ : Function.Bijective σ) (l : ℝ) (i : Fin 3) :
    integralsOf (fun j => s (σ j)) l i = integralsOf s l (σ i) := by
  unfold integralsOf ellipticIntegral
  simp only [rootProduct_perm s hσ]

theorem prod3_perm (s : V3) {σ : Fin 3 → Fin 3} (hσ : Function.Bijective σ) :
    prod3 (fun j => s (σ j)) = prod3 s := by
  have key : ∏ i, s (σ i) = ∏ i, s i := hσ.prod_comp s
  unfold prod3
  simpa only [Fin.prod_univ_three] using key

theorem confocalParameter_perm (s v w : V3) {σ : Fin 3 → Fin 3} (hσ : Function.Bijective σ)
    (h : ∀ i, w i ^ 2 = v (σ i) ^ 2) :
    confocalParameter (fun j => s (σ j)) w = confocalParameter s v := by
  unfold confocalParameter
  congr 1
  ext l
  have : ∑ i, w i ^ 2 / (s (σ i) ^ 2 + l) = ∑ i, v i ^ 2 / (s i ^ 2 + l) := by
    simp only [h]
    exact hσ.sum_comp (fun i => v i ^ 2 / (s i ^ 2 + l))
  simp only [Set.mem_setOf_eq, this]

/-- A matrix that permutes the squares of the components is a signed permutation. -/
theorem signed_perm {P : M3} {σ : Fin 3 → Fin 3}
    (h : ∀ v : V3, ∀ i, (P.transpose.mulVec v) i ^ 2 = v (σ i) ^ 2) :
    ∃ ε : V3, (∀ i, ε i ^ 2 = 1) ∧ ∀ v i, (P.transpose.mulVec v) i = ε i * v (σ i) := by
  have entry : ∀ i j, P j i ^ 2 = if σ i = j then 1 else 0 := by
    intro i j
    have := h (Pi.single j 1) i
    rw [Matrix.mulVec_single_one] at this
    simp only [Matrix.col_apply, Matrix.transpose_apply] at this
    rw [this, Pi.single_apply]
    split_ifs <;> simp
  refine ⟨fun i => P (σ i) i, fun i => by rw [entry]; simp, fun v i => ?_⟩
  simp only [Matrix.mulVec, dotProduct, Matrix.transpose_apply]
  rw [Finset.sum_eq_single (σ i)]
  · intro j _ hj
    have := entry i j
    rw [if_neg (Ne.symm hj)] at this
    rw [pow_eq_zero_iff two_ne_zero |>.1 this, zero_mul]
  · simp

/-- A diagonal scaling in the sorted frame is a diagonal scaling in the frame of the body. -/
theorem sorted_frame {P : M3} {σ : Fin 3 → Fin 3} (hP : ProperRotation P)
    (h : ∀ v : V3, ∀ i, (P.transpose.mulVec v) i ^ 2 = v (σ i) ^ 2) (k : V3) (v : V3) :
    P.mulVec (fun i => k (σ i) * (P.transpose.mulVec v) i) = fun j => k j * v j := by
  obtain ⟨ε, _, hε⟩ := signed_perm h
  have h1 : (fun i => k (σ i) * (P.transpose.mulVec v) i) =
      P.transpose.mulVec (fun j => k j * v j) := by
    ext i
    rw [hε, hε]; ring
  rw [h1, Matrix.mulVec_mulVec, hP.1, Matrix.one_mulVec]

/-! ### What the code computes -/

theorem positive_of_sorted {a b c : ℝ} (hc : 0 < c) (hbc : c ≤ b) (hab : b ≤ a) :
    Positive ![a, b, c] := by
  intro i; fin_cases i
  · exact (hc.trans_le hbc).trans_le hab
  · exact hc.trans_le hbc
  · exact hc

/-- Coefficient of the attraction. -/
noncomputable def attractionFactor (s : V3) (density : ℝ) : ℝ :=
  -2 * Real.pi * gravitationalConst * density * (s 0 * s 1 * s 2)

theorem gravitationalConst_value : gravitationalConst = 6.6743e-11 := by
  norm_num [gravitationalConst]

theorem dirichlet_apply (s : V3) (density : ℝ) (v : V3) (i : Fin 3) :
    dirichletAttraction s density v i =
      attractionFactor s density * v i * integralsOf s (confocalParameter s v) i := by
  rw [attractionFactor, gravitationalConst_value]
  rfl

/-- Not almost a sphere: the field of the effective integrals. -/
theorem computeGravity_spec {a b c : ℝ} (hc : 0 < c) (hbc : c ≤ b) (hab : b ≤ a)
    (hs : ¬(Close a b ∧ Close b c)) (density : ℝ) (v : V3) :
    computeGravityEllipsoid v a b c density = .ok fun i =>
      attractionFactor ![a, b, c] density * v i *
        integralsOf (effective a b c) (confocalParameter ![a, b, c] v) i := by
  classical
  have hl : -c ^ 2 < confocalParameter ![a, b, c] v := by
    have := confocalParameter_nonneg ![a, b, c] v; nlinarith
  unfold computeGravityEllipsoid
  rw [sorted_ok hab hbc, isAlmostASphere_eq hc hbc hab, lambdaOrZero_eq v hc hbc hab]
  simp only [Py.bind_ok, decide_eq_true_eq, if_neg hs, getEllipticalIntegrals_spec hc hbc hab hs hl]
  refine congrArg Except.ok ?_
  have e : -2 * Real.pi * a * b * c * gravitationalConst * density =
      attractionFactor ![a, b, c] density := by
    simp only [attractionFactor, Matrix.cons_val]; ring
  rw [e]
  ext i
  fin_cases i <;> rfl

/-- Almost a sphere: the field of a sphere with the largest semiaxis as radius (the
test of the interior uses the three semiaxes). -/
theorem computeGravity_sphere {a b c : ℝ} (hc : 0 < c) (hbc : c ≤ b) (hab : b ≤ a)
    (hs : Close a b ∧ Close b c) (density : ℝ) (v : V3) :
    computeGravityEllipsoid v a b c density = .ok fun i =>
      -(4 / 3 * Real.pi * a ^ 3 * density) * gravitationalConst * v i /
        (if quadric a b c v < 1 then a ^ 3 else √(v 0 ^ 2 + v 1 ^ 2 + v 2 ^ 2) ^ 3) := by
  classical
  have hb : 0 < b := hc.trans_le hbc
  have ha : 0 < a := hb.trans_le hab
  unfold computeGravityEllipsoid
  rw [sorted_ok hab hbc, isAlmostASphere_eq hc hbc hab]
  simp only [Py.bind_ok, decide_eq_true_eq, if_pos hs]
  unfold gravitySphere isInternal
  change (if decide (quadric a b c v < 1) = true then _ else _) = _
  by_cases h : quadric a b c v < 1
  · rw [if_pos (decide_eq_true h)]
    simp only [pdiv_ok (pow_pos ha 3).ne', Py.bind_ok, if_pos h]
    refine congrArg Except.ok ?_
    ext i
    fin_cases i <;> simp <;> ring
  · rw [if_neg (by simpa using h)]
    have hr : 0 < v 0 ^ 2 + v 1 ^ 2 + v 2 ^ 2 := by
      by_contra hcon
      have h0 : v 0 ^ 2 = 0 := by nlinarith [sq_nonneg (v 0), sq_nonneg (v 1), sq_nonneg (v 2)]
      have h1 : v 1 ^ 2 = 0 := by nlinarith [sq_nonneg (v 0), sq_nonneg (v 1), sq_nonneg (v 2)]
      have h2 : v 2 ^ 2 = 0 := by nlinarith [sq_nonneg (v 0), sq_nonneg (v 1), sq_nonneg (v 2)]
      apply h
      simp [quadric, h0, h1, h2]
    have hr3 := pow_pos (Real.sqrt_pos.2 hr) 3
    simp only [psqrt_ok hr.le, pdiv_ok hr3.ne', Py.bind_ok, if_neg h]
    refine congrArg Except.ok ?_
    ext i
    fin_cases i <;> simp <;> ring

/-- A sphere. -/
theorem dirichlet_sphere {a : ℝ} (ha : 0 < a) (density : ℝ) (v : V3) :
    dirichletAttraction ![a, a, a] density v = fun i =>
      -(4 / 3 * Real.pi * a ^ 3 * density) * gravitationalConst * v i /
        (if quadric a a a v < 1 then a ^ 3 else √(v 0 ^ 2 + v 1 ^ 2 + v 2 ^ 2) ^ 3) := by
  have hs : Positive ![a, a, a] := positive_of_sorted ha le_rfl le_rfl
  have hq : quadric a a a v = (v 0 ^ 2 + v 1 ^ 2 + v 2 ^ 2) / a ^ 2 := by unfold quadric; ring
  ext i
  have hint : ∀ l, integralsOf ![a, a, a] l i = ellipticIntegral a a a a l := by
    intro l; fin_cases i <;> rfl
  rw [dirichlet_apply, hint]
  unfold attractionFactor
  by_cases h : quadric a a a v < 1
  · rw [if_pos h, confocalParameter_inside (by rw [← quadric_eq]; exact h.le),
      ellipticIntegral_sphere (by positivity), add_zero, Real.sqrt_sq ha.le]
    simp
    field_simp
    ring
  · rw [if_neg h]
    have h1 : a ^ 2 ≤ v 0 ^ 2 + v 1 ^ 2 + v 2 ^ 2 := by
      have := not_lt.1 h
      rwa [hq, le_div_iff₀ (by positivity), one_mul] at this
    have hr : 0 < v 0 ^ 2 + v 1 ^ 2 + v 2 ^ 2 := by have := sq_pos_of_pos ha; linarith
    have hl : confocalParameter ![a, a, a] v = v 0 ^ 2 + v 1 ^ 2 + v 2 ^ 2 - a ^ 2 := by
      refine confocalParameter_eq hs (by linarith) ?_
      simp only [confocalSum, Fin.sum_univ_three]
      simp
      rw [← add_div, ← add_div, div_self hr.ne']
    rw [hl, ellipticIntegral_sphere (by linarith), show a ^ 2 + (v 0 ^ 2 + v 1 ^ 2 + v 2 ^ 2 - a ^ 2) =
      v 0 ^ 2 + v 1 ^ 2 + v 2 ^ 2 by ring]
    have := Real.sqrt_pos.2 hr
    simp
    field_simp
    ring

/-- The code computes Dirichlet's formula, when the semiaxes are not approximated. -/
theorem computeGravity_resolved {a b c : ℝ} (hc : 0 < c) (hbc : c ≤ b) (hab : b ≤ a)
    (hr : Resolved a b c) (density : ℝ) (v : V3) :
    computeGravityEllipsoid v a b c density = .ok (dirichletAttraction ![a, b, c] density v) := by
  by_cases hs : Close a b ∧ Close b c
  · rw [computeGravity_sphere hc hbc hab hs]
    obtain rfl := hr.1 hs.1
    obtain rfl := hr.2 hs.2
    rw [dirichlet_sphere hc]
  · rw [computeGravity_spec hc hbc hab hs, effective_resolved hr]
    exact congrArg Except.ok (funext fun i => (dirichlet_apply _ _ _ i).symm)

/-! ### Continuity and derivative -/

theorem Positive.pos {s : V3} (hs : Positive s) {l : ℝ} (hl : 0 ≤ l) : Pos (s 0) (s 1) (s 2) l := by
  have := hs 0; have := hs 1; have := hs 2
  exact ⟨by positivity, by positivity, by positivity⟩

theorem integralsOf_deriv {s : V3} (hs : Positive s) {l : ℝ} (hl : 0 ≤ l) (i : Fin 3) :
    HasDerivAt (fun l => integralsOf s l i)
      (-(1 / ((s i ^ 2 + l) * rootProduct (s 0) (s 1) (s 2) l))) l := by
  refine ellipticIntegral_deriv (hs.pos hl) ?_
  fin_cases i
  · exact Or.inl rfl
  · exact Or.inr (Or.inl rfl)
  · exact Or.inr (Or.inr rfl)

theorem integralsOf_pos {s : V3} (hs : Positive s) {l : ℝ} (hl : 0 ≤ l) (i : Fin 3) :
    0 < integralsOf s l i := by
  refine ellipticIntegral_pos (hs.pos hl) ?_
  fin_cases i
  · exact Or.inl rfl
  · exact Or.inr (Or.inl rfl)
  · exact Or.inr (Or.inr rfl)

theorem integralsOf_sum {s : V3} (hs : Positive s) {l : ℝ} (hl : 0 ≤ l) :
    ∑ i, integralsOf s l i = 2 / rootProduct (s 0) (s 1) (s 2) l := by
  rw [Fin.sum_univ_three]
  exact ellipticIntegral_sum (hs.pos hl)

/-- The integrals at the confocal parameter are continuous functions of the point. -/
theorem integrals_continuous {s t : V3} (hs : Positive s) (ht : Positive t) (i : Fin 3) :
    Continuous fun v => integralsOf t (confocalParameter s v) i := by
  rw [continuous_iff_continuousAt]
  intro v
  exact ContinuousAt.comp (g := fun l => integralsOf t l i)
    (integralsOf_deriv ht (confocalParameter_nonneg s v) i).continuousAt
    (confocalParameter_continuous hs).continuousAt

theorem dirichlet_continuous {s : V3} (hs : Positive s) (density : ℝ) :
    Continuous (dirichletAttraction s density) := by
  refine continuous_pi fun i => ?_
  exact (continuous_const.mul (continuous_apply i)).mul (integrals_continuous hs hs i)

theorem demagInside_eq (s : V3) :
    demagInside s = Matrix.diagonal fun i => prod3 s / 2 * integralsOf s 0 i := rfl

theorem demagOutside_apply (s v : V3) (i j : Fin 3) : demagOutside s v i j =
    prod3 s / 2 * (confocalGradient s v i *
    (-(1 / ((s j ^ 2 + confocalParameter s v) *
      rootProduct (s 0) (s 1) (s 2) (confocalParameter s v)))) * v j +
    if i = j then integralsOf s (confocalParameter s v) i else 0) := rfl

theorem demagOutside_symm (s v : V3) : (demagOutside s v).transpose = demagOutside s v := by
  ext i j
  simp only [Matrix.transpose_apply, demagOutside, confocalGradient]
  congr 1
  congr 1
  · simp only [one_div, mul_inv, div_eq_mul_inv]; ring
  · by_cases h : i = j
    · subst h; rfl
    · rw [if_neg h, if_neg (Ne.symm h)]

theorem demagInside_trace {s : V3} (hs : Positive s) : (demagInside s).trace = 1 := by
  rw [demagInside_eq, Matrix.trace_diagonal, ← Finset.mul_sum, integralsOf_sum hs le_rfl,
    rootProduct_zero (hs 0) (hs 1) (hs 2)]
  have := hs 0; have := hs 1; have := hs 2
  unfold prod3
  field_simp

theorem sum_sq_pos {s v : V3} (hs : Positive s) (hv : 1 ≤ confocalSum s v 0) :
    0 < ∑ j, (v j / (s j ^ 2 + confocalParameter s v)) ^ 2 := by
  have hl := confocalParameter_nonneg s v
  have hne : ∃ i, v i ≠ 0 := by
    by_contra hcon
    push Not at hcon
    simp [confocalSum, hcon] at hv
    linarith
  obtain ⟨i, hi⟩ := hne
  refine Finset.sum_pos' (fun j _ => sq_nonneg _) ⟨i, Finset.mem_univ _, ?_⟩
  have := hs i
  positivity

theorem demagOutside_trace {s v : V3} (hs : Positive s) (hv : 1 ≤ confocalSum s v 0) :
    (demagOutside s v).trace = 0 := by
  have hl := confocalParameter_nonneg s v
  have hR := (hs.pos hl).root
  have hD := sum_sq_pos hs hv
  have hsum := integralsOf_sum hs hl
  unfold Matrix.trace
  simp only [Matrix.diag_apply, demagOutside_apply, if_true]
  rw [← Finset.mul_sum, Finset.sum_add_distrib, hsum]
  have : ∑ i, confocalGradient s v i * (-(1 / ((s i ^ 2 + confocalParameter s v) *
      rootProduct (s 0) (s 1) (s 2) (confocalParameter s v)))) * v i =
      -(2 / rootProduct (s 0) (s 1) (s 2) (confocalParameter s v)) := by
    have e : ∀ i, confocalGradient s v i * (-(1 / ((s i ^ 2 + confocalParameter s v) *
      rootProduct (s 0) (s 1) (s 2) (confocalParameter s v)))) * v i =
      -(2 / rootProduct (s 0) (s 1) (s 2) (confocalParameter s v)) *
        ((v i / (s i ^ 2 + confocalParameter s v)) ^ 2 /
          ∑ j, (v j / (s j ^ 2 + confocalParameter s v)) ^ 2) := by
      intro i
      have := hs i
      have h1 : s i ^ 2 + confocalParameter s v ≠ 0 := by positivity
      unfold confocalGradient
      field_simp
    simp only [e]
    rw [← Finset.mul_sum, ← Finset.sum_div, div_self hD.ne', mul_one]
  rw [this]
  ring

/-- The linear map of a matrix. -/
noncomputable abbrev jacobian (J : M3) : V3 →L[ℝ] V3 := LinearMap.toContinuousLinearMap J.mulVecLin

/-- Derivative of the attraction outside. -/
theorem dirichlet_deriv_outside {s v : V3} (hs : Positive s) (hv : 1 < confocalSum s v 0)
    (density : ℝ) : HasFDerivAt (dirichletAttraction s density)
      (jacobian ((-(4 * Real.pi * gravitationalConst * density)) • demagOutside s v)) v := by
  have hl := confocalParameter_nonneg s v
  rw [hasFDerivAt_pi']
  intro i
  have hg := confocalParameter_hasFDerivAt hs hv
  have h1 := (integralsOf_deriv hs hl i).comp_hasFDerivAt v hg
  have h2 : HasFDerivAt (fun w : V3 => attractionFactor s density * w i)
      (attractionFactor s density • ContinuousLinearMap.proj (R := ℝ) (φ := fun _ : Fin 3 => ℝ) i) v :=
    (hasFDerivAt_apply i v).const_mul _
  simp only [dirichlet_apply]
  refine (h2.mul h1).congr_fderiv ?_
  refine ContinuousLinearMap.ext fun x => ?_
  simp only [add_apply, smul_apply, smul_eq_mul,
    linForm_apply, ContinuousLinearMap.proj_apply, ContinuousLinearMap.comp_apply,
    LinearMap.coe_toContinuousLinearMap', Matrix.mulVecLin_apply, Matrix.smul_mulVec, Pi.smul_apply]
  rw [← demagOutside_symm]
  simp only [Matrix.mulVec, dotProduct, Matrix.transpose_apply, demagOutside_apply, attractionFactor, prod3,
    Fin.sum_univ_three]
  fin_cases i <;> simp <;> ring

/-- Derivative of the attraction inside. -/
theorem dirichlet_deriv_inside {s v : V3} (hv : confocalSum s v 0 < 1)
    (density : ℝ) : HasFDerivAt (dirichletAttraction s density)
      (jacobian ((-(4 * Real.pi * gravitationalConst * density)) • demagInside s)) v := by
  have hopen : ∀ᶠ w in 𝓝 v, confocalSum s w 0 < 1 :=
    (confocalSum_zero_continuous s).tendsto v |>.eventually (gt_mem_nhds hv)
  have hlin := (jacobian ((-(4 * Real.pi * gravitationalConst * density)) • demagInside s)).hasFDerivAt
    (x := v)
  refine hlin.congr_of_eventuallyEq ?_
  filter_upwards [hopen] with w hw
  ext i
  rw [dirichlet_apply, confocalParameter_inside hw.le]
  simp only [LinearMap.coe_toContinuousLinearMap', Matrix.mulVecLin_apply, Matrix.smul_mulVec,
    Pi.smul_apply, demagInside_eq, Matrix.mulVec_diagonal, smul_eq_mul, attractionFactor, prod3]
  ring

/-! ### Far field -/

theorem density_mono {s : V3} (hs : Positive s) {k K : ℝ} (hk0 : 0 < k) (hk : ∀ i, k ≤ s i)
    (hK : ∀ i, s i ≤ K) {u : ℝ} (hu : 0 ≤ u) (i : Fin 3) :
    density K K K K u ≤ density (s 0) (s 1) (s 2) (s i) u ∧
      density (s 0) (s 1) (s 2) (s i) u ≤ density k k k k u := by
  have hK0 : 0 < K := hk0.trans_le ((hk 0).trans (hK 0))
  have p1 : Pos k k k u := (Pos.zero hk0 hk0 hk0).mono hu
  have p2 := hs.pos hu
  have lo : ∀ j, k ^ 2 + u ≤ s j ^ 2 + u := fun j => by have := hk j; have := hs j; nlinarith
  have hi : ∀ j, s j ^ 2 + u ≤ K ^ 2 + u := fun j => by have := hK j; have := hs j; nlinarith
  have pos : ∀ j, 0 < s j ^ 2 + u := fun j => by have := hs j; positivity
  have r1 : rootProduct k k k u ≤ rootProduct (s 0) (s 1) (s 2) u := by
    unfold rootProduct
    refine Real.sqrt_le_sqrt ?_
    refine mul_le_mul (mul_le_mul (lo 0) (lo 1) (by positivity) (pos 0).le) (lo 2) (by positivity) ?_
    exact (mul_pos (pos 0) (pos 1)).le
  have r2 : rootProduct (s 0) (s 1) (s 2) u ≤ rootProduct K K K u := by
    unfold rootProduct
    refine Real.sqrt_le_sqrt ?_
    refine mul_le_mul (mul_le_mul (hi 0) (hi 1) (pos 1).le (by positivity)) (hi 2) (pos 2).le ?_
    positivity
  constructor
  · unfold density
    exact div_le_div_of_nonneg_left zero_le_one (mul_pos (pos i) p2.root)
      (mul_le_mul (hi i) r2 p2.root.le (by positivity))
  · unfold density
    exact div_le_div_of_nonneg_left zero_le_one (mul_pos (by positivity) p1.root)
      (mul_le_mul (lo i) r1 p1.root.le (pos i).le)

theorem integralsOf_bounds {s : V3} (hs : Positive s) {k K : ℝ} (hk0 : 0 < k) (hk : ∀ i, k ≤ s i)
    (hK : ∀ i, s i ≤ K) {l : ℝ} (hl : 0 ≤ l) (i : Fin 3) :
    2 / (3 * √(K ^ 2 + l) ^ 3) ≤ integralsOf s l i ∧ integralsOf s l i ≤ 2 / (3 * √(k ^ 2 + l) ^ 3) := by
  have hK0 : 0 < K := hk0.trans_le ((hk 0).trans (hK 0))
  rw [← ellipticIntegral_sphere (by positivity), ← ellipticIntegral_sphere (by positivity)]
  have i1 := integrable_density ((Pos.zero hk0 hk0 hk0).mono hl) (Or.inl rfl)
  have i2 := integrable_density ((Pos.zero hK0 hK0 hK0).mono hl) (Or.inl rfl)
  have i3 : IntegrableOn (density (s 0) (s 1) (s 2) (s i)) (Set.Ioi l) := by
    refine integrable_density (hs.pos hl) ?_
    fin_cases i
    · exact Or.inl rfl
    · exact Or.inr (Or.inl rfl)
    · exact Or.inr (Or.inr rfl)
  constructor
  · exact setIntegral_mono_on i2 i3 measurableSet_Ioi fun u hu =>
      (density_mono hs hk0 hk hK (hl.trans (le_of_lt hu)) i).1
  · exact setIntegral_mono_on i3 i1 measurableSet_Ioi fun u hu =>
      (density_mono hs hk0 hk hK (hl.trans (le_of_lt hu)) i).2

theorem confocalParameter_bounds {s v : V3} (hs : Positive s) {k K : ℝ} (hk0 : 0 < k)
    (hk : ∀ i, k ≤ s i) (hK : ∀ i, s i ≤ K) (hv : 1 ≤ confocalSum s v 0) :
    k ^ 2 + confocalParameter s v ≤ ∑ i, v i ^ 2 ∧ ∑ i, v i ^ 2 ≤ K ^ 2 + confocalParameter s v := by
  have hK0 : 0 < K := hk0.trans_le ((hk 0).trans (hK 0))
  have hl := confocalParameter_nonneg s v
  have hroot := confocalParameter_root hs hv
  have lo : ∀ j, k ^ 2 ≤ s j ^ 2 := fun j => by have := hk j; have := hs j; nlinarith
  have hi : ∀ j, s j ^ 2 ≤ K ^ 2 := fun j => by have := hK j; have := hs j; nlinarith
  constructor
  · have h1 : confocalSum s v (confocalParameter s v) ≤
        ∑ i, v i ^ 2 / (k ^ 2 + confocalParameter s v) := by
      refine Finset.sum_le_sum fun i _ => ?_
      exact div_le_div_of_nonneg_left (sq_nonneg _) (by positivity) (by have := lo i; linarith)
    rw [hroot, ← Finset.sum_div, le_div_iff₀ (by positivity), one_mul] at h1
    exact h1
  · have h1 : ∑ i, v i ^ 2 / (K ^ 2 + confocalParameter s v) ≤
        confocalSum s v (confocalParameter s v) := by
      refine Finset.sum_le_sum fun i _ => ?_
      have := hs i
      exact div_le_div_of_nonneg_left (sq_nonneg _) (by positivity) (by have := hi i; linarith)
    rw [hroot, ← Finset.sum_div, div_le_iff₀ (by positivity), one_mul] at h1
    exact h1

end Verif.Ellipsoids
