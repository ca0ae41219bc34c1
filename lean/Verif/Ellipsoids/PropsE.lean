import Verif.Ellipsoids.PropsC

/-! Properties C78 to C81: the fields of ellipsoids obey the equations of gravity and
magnetostatics. -/

namespace Verif.Ellipsoids
open Filter Topology Verif.Forward Verif.Distance

theorem onSurface_iff (e : Ellipsoid) (p : V3) :
    e.OnSurface p ↔ quadric e.a e.b e.c (e.local p) = 1 := by
  have hR := body_proper e
  constructor
  · rintro ⟨v, rfl, hv⟩
    have : e.local (e.rotationMatrix.mulVec v + e.center) = v := by
      unfold Ellipsoid.local
      rw [add_sub_cancel_right, Matrix.mulVec_mulVec, hR.2.1, Matrix.one_mulVec]
    rw [this]; exact hv
  · intro h
    refine ⟨e.local p, ?_, h⟩
    unfold Ellipsoid.local
    rw [Matrix.mulVec_mulVec, hR.1, Matrix.one_mulVec, sub_add_cancel]

theorem toSpace_trace (e : Ellipsoid) (A : M3) : (e.toSpace A).trace = A.trace := by
  have hR := body_proper e
  unfold Ellipsoid.toSpace
  rw [Matrix.trace_mul_comm, ← Matrix.mul_assoc, hR.2.1, Matrix.one_mul]

theorem toSpace_symm (e : Ellipsoid) {A : M3} (h : A.transpose = A) :
    (e.toSpace A).transpose = e.toSpace A := by
  unfold Ellipsoid.toSpace
  rw [Matrix.transpose_mul, Matrix.transpose_mul, Matrix.transpose_transpose, h, Matrix.mul_assoc]

theorem demagInside_symm (s : V3) : (demagInside s).transpose = demagInside s := by
  unfold demagInside; exact Matrix.diagonal_transpose _

/-- Derivative of a field given in the frame of the body. -/
theorem body_deriv (e : Ellipsoid) {f : V3 → V3} {J : M3} {p : V3}
    (h : HasFDerivAt f (jacobian J) (e.local p)) :
    HasFDerivAt (fun q => e.rotationMatrix.mulVec (f (e.local q))) (jacobian (e.toSpace J)) p := by
  have h1 : HasFDerivAt (fun q => e.local q) (jacobian e.rotationMatrix.transpose) p := by
    have : HasFDerivAt (fun q : V3 => jacobian e.rotationMatrix.transpose (q - e.center))
        ((jacobian e.rotationMatrix.transpose).comp (ContinuousLinearMap.id ℝ V3)) p :=
      (jacobian e.rotationMatrix.transpose).hasFDerivAt.comp p ((hasFDerivAt_id p).sub_const e.center)
    exact this
  have h2 := ((jacobian e.rotationMatrix).hasFDerivAt (x := f (e.local p))).comp p (h.comp p h1)
  refine h2.congr_fderiv ?_
  ext v : 1
  change e.rotationMatrix.mulVec (J.mulVec (e.rotationMatrix.transpose.mulVec v)) =
    (e.toSpace J).mulVec v
  unfold Ellipsoid.toSpace
  rw [Matrix.mulVec_mulVec, Matrix.mulVec_mulVec]

/-- C78: the attraction of a body is differentiable at every point that is not on its surface; its
derivatives are a symmetric tensor (there is a potential) and its divergence is `-4 π G ρ` inside and
zero outside (the equations of Poisson and Laplace). Together with `C69_value`, this is so for the
field returned by `ellipsoid_gravity`. -/
theorem C78_poisson (e : Ellipsoid) (h : e.Valid) (density : ℝ) (hd : e.density = some density) (p : V3)
    (hp : ¬e.OnSurface p) : ∃ J : M3, HasFDerivAt e.gravity (jacobian J) p ∧ J.transpose = J ∧
      (e.Inside p → J.trace = -(4 * Real.pi * gravitationalConst * density)) ∧
      (¬e.Inside p → J.trace = 0) := by
  have hs := valid_positive h
  rw [onSurface_iff, quadric_eq] at hp
  rw [inside_iff, quadric_eq]
  have hax : e.axes = ![e.a, e.b, e.c] := rfl
  rw [← hax] at hp ⊢
  have hg : e.gravity = fun q => e.rotationMatrix.mulVec (dirichletAttraction e.axes density (e.local q)) := by
    funext q; unfold Ellipsoid.gravity; rw [hd]; rfl
  rw [hg]
  by_cases hin : confocalSum e.axes (e.local p) 0 < 1
  · refine ⟨_, body_deriv e (dirichlet_deriv_inside hin density), ?_, fun _ => ?_, fun h => absurd hin h⟩
    · exact toSpace_symm e (by rw [Matrix.transpose_smul, demagInside_symm])
    · rw [toSpace_trace, Matrix.trace_smul, demagInside_trace hs, smul_eq_mul, mul_one]
  · have hout : 1 < confocalSum e.axes (e.local p) 0 := lt_of_le_of_ne (not_lt.1 hin) (Ne.symm hp)
    refine ⟨_, body_deriv e (dirichlet_deriv_outside hs hout density), ?_, fun h => absurd h hin,
      fun _ => ?_⟩
    · exact toSpace_symm e (by rw [Matrix.transpose_smul, demagOutside_symm])
    · rw [toSpace_trace, Matrix.trace_smul, demagOutside_trace hs hout.le, smul_zero]

/-- C78: Poisson's relation between the two forward models: the demagnetization tensor by which
`ellipsoid_magnetic` computes its field is, at every point that is not on the surface, minus the
derivative of the attraction of the same body divided by `4 π G ρ`. -/
theorem C78_relation (e : Ellipsoid) (h : e.Valid) (density : ℝ) (hd : e.density = some density)
    (p : V3) (hp : ¬e.OnSurface p) : ∃ N : M3,
      HasFDerivAt e.gravity (jacobian ((-(4 * Real.pi * gravitationalConst * density)) • N)) p ∧
      ∀ mu0 M, (e.Inside p → e.magneticField mu0 M p = mu0 • (M - N.mulVec M)) ∧
        (¬e.Inside p → e.magneticField mu0 M p = -(mu0 • N.mulVec M)) := by
  have hs := valid_positive h
  rw [onSurface_iff, quadric_eq] at hp
  have hin' : e.Inside p ↔ confocalSum e.axes (e.local p) 0 < 1 := by
    rw [inside_iff, quadric_eq]; rfl
  have hax : e.axes = ![e.a, e.b, e.c] := rfl
  rw [← hax] at hp
  have hg : e.gravity = fun q => e.rotationMatrix.mulVec (dirichletAttraction e.axes density (e.local q)) := by
    funext q; unfold Ellipsoid.gravity; rw [hd]; rfl
  have hsm : ∀ (k : ℝ) (A : M3), e.toSpace (k • A) = k • e.toSpace A := by
    intro k A
    unfold Ellipsoid.toSpace
    rw [Matrix.mul_smul, Matrix.smul_mul]
  rw [hg]
  by_cases hin : confocalSum e.axes (e.local p) 0 < 1
  · refine ⟨e.toSpace (demagInside e.axes), ?_, fun mu0 M => ?_⟩
    · rw [← hsm]; exact body_deriv e (dirichlet_deriv_inside hin density)
    · refine ⟨fun h => ?_, fun h => absurd (hin'.2 hin) h⟩
      unfold Ellipsoid.magneticField
      rw [if_pos h]
  · have hout : 1 < confocalSum e.axes (e.local p) 0 := lt_of_le_of_ne (not_lt.1 hin) (Ne.symm hp)
    refine ⟨e.toSpace (demagOutside e.axes (e.local p)), ?_, fun mu0 M => ?_⟩
    · rw [← hsm]; exact body_deriv e (dirichlet_deriv_outside hs hout density)
    · refine ⟨fun h => absurd (hin'.1 h) hin, fun h => ?_⟩
      unfold Ellipsoid.magneticField
      rw [if_neg h]

/-! ### C79: far field -/

/-- Mass of a body. -/
noncomputable def Ellipsoid.mass (e : Ellipsoid) (density : ℝ) : ℝ :=
  4 / 3 * Real.pi * (e.a * e.b * e.c) * density

theorem local_norm (e : Ellipsoid) (p : V3) : ∑ i, (e.local p) i ^ 2 = e.distance p ^ 2 := by
  have hR := body_proper e
  have h1 : dotProduct (e.local p) (e.local p) = dotProduct (p - e.center) (p - e.center) := by
    unfold Ellipsoid.local
    rw [Matrix.dotProduct_mulVec, ← Matrix.mulVec_transpose, Matrix.transpose_transpose,
      Matrix.mulVec_mulVec, hR.1, Matrix.one_mulVec]
  unfold Ellipsoid.distance
  rw [Real.sq_sqrt (by positivity)]
  simp only [dotProduct, Fin.sum_univ_three, Pi.sub_apply] at h1 ⊢
  nlinarith [h1]

theorem radial_eq (e : Ellipsoid) (density : ℝ) (p : V3) :
    dotProduct (e.attraction density p) (p - e.center) =
      -(2 * Real.pi * gravitationalConst * density * (e.a * e.b * e.c) *
        ∑ i, (e.local p) i ^ 2 * integralsOf e.axes (confocalParameter e.axes (e.local p)) i) := by
  have h1 : dotProduct (e.attraction density p) (p - e.center) =
      dotProduct (dirichletAttraction e.axes density (e.local p)) (e.local p) := by
    unfold Ellipsoid.attraction Ellipsoid.local
    rw [dotProduct_comm, Matrix.dotProduct_mulVec, ← Matrix.mulVec_transpose, dotProduct_comm]
  rw [h1]
  simp only [dotProduct, dirichlet_apply, attractionFactor, Fin.sum_univ_three]
  change _ = -(2 * Real.pi * gravitationalConst * density * (e.axes 0 * e.axes 1 * e.axes 2) * _)
  ring

/-- C79: outside of a body with semiaxes between `k` and `K`, the attraction along the direction to
its center is between those of two points masses: `G m r² / (r² ± (K² - k²))^(3/2)`. Far away it is the
attraction of its mass, and for a sphere it is so everywhere. -/
theorem C79_far_field (e : Ellipsoid) (h : e.Valid) (density : ℝ) (hd : 0 ≤ density) {k K : ℝ}
    (hk0 : 0 < k) (hk : k ≤ e.a ∧ k ≤ e.b ∧ k ≤ e.c) (hK : e.a ≤ K ∧ e.b ≤ K ∧ e.c ≤ K) (p : V3)
    (hp : ¬e.Inside p) (hr : K ^ 2 - k ^ 2 < e.distance p ^ 2) :
    gravitationalConst * e.mass density * e.distance p ^ 2 /
        √(e.distance p ^ 2 + (K ^ 2 - k ^ 2)) ^ 3 ≤
      -dotProduct (e.attraction density p) (p - e.center) ∧
    -dotProduct (e.attraction density p) (p - e.center) ≤
      gravitationalConst * e.mass density * e.distance p ^ 2 /
        √(e.distance p ^ 2 - (K ^ 2 - k ^ 2)) ^ 3 := by
  have hs := valid_positive h
  have hk' : ∀ i, k ≤ e.axes i := by
    intro i; fin_cases i; exacts [hk.1, hk.2.1, hk.2.2]
  have hK' : ∀ i, e.axes i ≤ K := by
    intro i; fin_cases i; exacts [hK.1, hK.2.1, hK.2.2]
  have hout : 1 ≤ confocalSum e.axes (e.local p) 0 := by
    rw [inside_iff, quadric_eq] at hp
    exact not_lt.1 hp
  set l := confocalParameter e.axes (e.local p) with hl
  have hl0 : 0 ≤ l := confocalParameter_nonneg _ _
  obtain ⟨b1, b2⟩ := confocalParameter_bounds hs hk0 hk' hK' hout
  rw [local_norm, ← hl] at b1 b2
  set r2 := e.distance p ^ 2 with hr2
  have hG := gravitationalConst_pos
  have hvol : 0 < e.a * e.b * e.c := mul_pos (mul_pos h.1 h.2.1) h.2.2
  have hr2pos : 0 ≤ r2 := by positivity
  have hKk : k ^ 2 ≤ K ^ 2 := by nlinarith [hk.1.trans hK.1]
  have hlow : ∀ i, 2 / (3 * √(r2 + (K ^ 2 - k ^ 2)) ^ 3) ≤ integralsOf e.axes l i := by
    intro i
    refine le_trans ?_ (integralsOf_bounds hs hk0 hk' hK' hl0 i).1
    have h1 : √(K ^ 2 + l) ≤ √(r2 + (K ^ 2 - k ^ 2)) := Real.sqrt_le_sqrt (by linarith)
    have h2 : 0 < √(K ^ 2 + l) := Real.sqrt_pos.2 (by nlinarith)
    have h3 := pow_le_pow_left₀ h2.le h1 3
    have h4 := pow_pos h2 3
    exact div_le_div_of_nonneg_left (by norm_num) (by positivity) (by linarith)
  have hhigh : ∀ i, integralsOf e.axes l i ≤ 2 / (3 * √(r2 - (K ^ 2 - k ^ 2)) ^ 3) := by
    intro i
    refine (integralsOf_bounds hs hk0 hk' hK' hl0 i).2.trans ?_
    have h1 : √(r2 - (K ^ 2 - k ^ 2)) ≤ √(k ^ 2 + l) := Real.sqrt_le_sqrt (by linarith)
    have h2 : 0 < √(r2 - (K ^ 2 - k ^ 2)) := Real.sqrt_pos.2 (by linarith)
    have h3 := pow_le_pow_left₀ h2.le h1 3
    have h4 := pow_pos h2 3
    exact div_le_div_of_nonneg_left (by norm_num) (by positivity) (by linarith)
  set F := 2 * Real.pi * gravitationalConst * density * (e.a * e.b * e.c) with hF
  have hF0 : 0 ≤ F := by
    have := Real.pi_pos
    positivity
  have hsum : ∑ i, (e.local p) i ^ 2 = r2 := local_norm e p
  have e1 : ∀ x : ℝ, gravitationalConst * e.mass density * r2 / x = F * (r2 * (2 / (3 * x))) := by
    intro x
    rw [hF, Ellipsoid.mass]
    rcases eq_or_ne x 0 with rfl | hx
    · simp
    · field_simp; ring
  rw [radial_eq, neg_neg, ← hF, ← hl, e1, e1, ← hsum, Finset.sum_mul, Finset.sum_mul]
  constructor
  · refine mul_le_mul_of_nonneg_left (Finset.sum_le_sum fun i _ => ?_) hF0
    rw [hsum]
    exact mul_le_mul_of_nonneg_left (hlow i) (sq_nonneg _)
  · refine mul_le_mul_of_nonneg_left (Finset.sum_le_sum fun i _ => ?_) hF0
    rw [hsum]
    exact mul_le_mul_of_nonneg_left (hhigh i) (sq_nonneg _)

/-! ### C80: magnetic boundary conditions -/

/-- Normal to the surface of a body at a point: the gradient of its equation. -/
noncomputable def Ellipsoid.normal (e : Ellipsoid) (p : V3) : V3 :=
  e.rotationMatrix.mulVec fun i => (e.local p) i / e.axes i ^ 2

/-- The field that the code assigns to internal points. -/
noncomputable def Ellipsoid.internalField (mu0 : ℝ) (e : Ellipsoid) (M : V3) : V3 :=
  mu0 • (M - (e.toSpace (demagInside e.axes)).mulVec M)

theorem toSpace_mulVec (e : Ellipsoid) (A : M3) (v : V3) :
    (e.toSpace A).mulVec v = e.rotationMatrix.mulVec (A.mulVec (e.rotationMatrix.transpose.mulVec v)) := by
  unfold Ellipsoid.toSpace
  rw [Matrix.mulVec_mulVec, Matrix.mulVec_mulVec]

/-- On the surface the tensors differ by the projector on the normal. -/
theorem demag_jump {s v : V3} (hs : Positive s) (hv : confocalSum s v 0 = 1) (i j : Fin 3) :
    demagOutside s v i j = demagInside s i j -
      (v i / s i ^ 2) * (v j / s j ^ 2) / ∑ k, (v k / s k ^ 2) ^ 2 := by
  have hl : confocalParameter s v = 0 := confocalParameter_inside hv.le
  rw [demagOutside_apply, demagInside_eq, hl, confocalGradient, hl]
  simp only [add_zero]
  have hroot : rootProduct (s 0) (s 1) (s 2) 0 = prod3 s := by
    rw [rootProduct_zero (hs 0) (hs 1) (hs 2)]; rfl
  rw [hroot]
  have h3 : prod3 s ≠ 0 := (mul_pos (mul_pos (hs 0) (hs 1)) (hs 2)).ne'
  have hi := (pow_pos (hs i) 2).ne'
  have hj := (pow_pos (hs j) 2).ne'
  have hS : (∑ k, (v k / s k ^ 2) ^ 2) ≠ 0 := by
    have := sum_sq_pos hs hv.ge
    rw [hl] at this
    simp only [add_zero] at this
    exact this.ne'
  rw [Matrix.diagonal_apply]
  split_ifs with h
  · field_simp; ring
  · field_simp; ring

/-- C80: on the surface of a body with magnetization `M`, the field outside minus the field inside is
`-μ0 (M - (n·M) n)` with the unit normal `n`: the normal component of the magnetic flux density is
continuous and so is the tangential component of the magnetic field strength `B / μ0 - M`. -/
theorem C80_boundary (e : Ellipsoid) (h : e.Valid) (mu0 : ℝ) (M p : V3) (hp : e.OnSurface p) :
    e.normal p ≠ 0 ∧
    e.magneticField mu0 M p - e.internalField mu0 M = -(mu0 • (M -
      (dotProduct (e.normal p) M / dotProduct (e.normal p) (e.normal p)) • e.normal p)) ∧
    dotProduct (e.normal p) (e.magneticField mu0 M p) =
      dotProduct (e.normal p) (e.internalField mu0 M) ∧
    ∀ t, dotProduct (e.normal p) t = 0 → dotProduct t (e.magneticField mu0 M p) =
      dotProduct t (e.internalField mu0 M - mu0 • M) := by
  have hs := valid_positive h
  have hR := body_proper e
  rw [onSurface_iff, quadric_eq] at hp
  have hin : ¬e.Inside p := by
    rw [inside_iff, quadric_eq, hp]; exact lt_irrefl _
  change confocalSum e.axes (e.local p) 0 = 1 at hp
  set w : V3 := fun i => (e.local p) i / e.axes i ^ 2 with hw
  set m := e.rotationMatrix.transpose.mulVec M with hm
  have hS : (0 : ℝ) < ∑ k, w k ^ 2 := by
    have := sum_sq_pos hs hp.ge
    rw [confocalParameter_inside hp.le] at this
    simp only [add_zero] at this
    exact this
  have hdot : ∀ x y : V3, dotProduct (e.rotationMatrix.mulVec x) y =
      dotProduct x (e.rotationMatrix.transpose.mulVec y) := by
    intro x y
    rw [Matrix.dotProduct_mulVec, Matrix.vecMul_transpose]
  have hn : e.normal p = e.rotationMatrix.mulVec w := rfl
  have hnn : dotProduct (e.normal p) (e.normal p) = ∑ k, w k ^ 2 := by
    rw [hn, hdot, Matrix.mulVec_mulVec, hR.2.1, Matrix.one_mulVec]
    simp only [dotProduct, sq]
  have hnM : dotProduct (e.normal p) M = dotProduct w m := by rw [hn, hdot]
  have hjump : (demagOutside e.axes (e.local p)).mulVec m = (demagInside e.axes).mulVec m -
      (dotProduct w m / ∑ k, w k ^ 2) • w := by
    ext i
    simp only [Matrix.mulVec, dotProduct, demag_jump hs hp, Pi.sub_apply, Pi.smul_apply, smul_eq_mul,
      sub_mul, Finset.sum_sub_distrib]
    congr 1
    rw [Finset.sum_div, Finset.sum_mul]
    refine Finset.sum_congr rfl fun j _ => ?_
    simp only [hw]
    ring
  have hdiff : e.magneticField mu0 M p - e.internalField mu0 M = -(mu0 • (M -
      (dotProduct (e.normal p) M / dotProduct (e.normal p) (e.normal p)) • e.normal p)) := by
    unfold Ellipsoid.magneticField Ellipsoid.internalField
    rw [if_neg hin, hnn, hnM, toSpace_mulVec, toSpace_mulVec, ← hm, hjump, Matrix.mulVec_sub,
      Matrix.mulVec_smul, ← hn]
    simp only [smul_sub]
    abel
  have hnn0 : dotProduct (e.normal p) (e.normal p) ≠ 0 := by rw [hnn]; exact hS.ne'
  have hB : e.magneticField mu0 M p = e.internalField mu0 M + -(mu0 • (M -
      (dotProduct (e.normal p) M / dotProduct (e.normal p) (e.normal p)) • e.normal p)) := by
    rw [← hdiff]; abel
  refine ⟨fun h0 => hnn0 (by rw [h0]; simp), hdiff, ?_, fun t ht => ?_⟩
  · rw [hB, dotProduct_add, dotProduct_neg, dotProduct_smul, dotProduct_sub, dotProduct_smul,
      smul_eq_mul, smul_eq_mul, div_mul_cancel₀ _ hnn0]
    ring
  · rw [hB, dotProduct_add, dotProduct_neg, dotProduct_smul, dotProduct_sub, dotProduct_smul,
      dotProduct_comm t (e.normal p), ht, dotProduct_sub, dotProduct_smul]
    simp only [smul_eq_mul]
    ring

/-! ### C81: a magnetized sphere is a dipole -/

/-- C81: outside of a sphere with magnetization `M` the field is that of a dipole at its center whose
moment is the magnetization times the volume. -/
theorem C81_dipole (e : Ellipsoid) (h : e.Valid) (hab : e.a = e.b) (hbc : e.b = e.c) (mu0 : ℝ) (M p : V3)
    (hp : ¬e.Inside p) :
    let m := (4 / 3 * Real.pi * e.a ^ 3) • M
    let r := p - e.center
    e.magneticField mu0 M p = (mu0 / (4 * Real.pi)) •
      ((3 * dotProduct m r / e.distance p ^ 5) • r - (1 / e.distance p ^ 3) • m) := by
  intro m r
  have hax : e.axes = ![e.a, e.a, e.a] := by
    unfold Ellipsoid.axes; rw [← hbc, ← hab]
  have hR := body_proper e
  have hout : 1 ≤ quadric e.a e.a e.a (e.local p) := by
    rw [inside_iff, ← hbc, ← hab] at hp
    exact not_lt.1 hp
  have hd : √((e.local p) 0 ^ 2 + (e.local p) 1 ^ 2 + (e.local p) 2 ^ 2) = e.distance p := by
    have := local_norm e p
    rw [Fin.sum_univ_three] at this
    rw [this, Real.sqrt_sq]
    unfold Ellipsoid.distance; exact Real.sqrt_nonneg _
  unfold Ellipsoid.magneticField
  rw [if_neg hp, hax, demagOutside_sphere h.1 hout, toSpace_mulVec]
  set n := e.rotationMatrix.transpose.mulVec M with hn
  have hRn : e.rotationMatrix.mulVec n = M := by
    rw [hn, Matrix.mulVec_mulVec, hR.1, Matrix.one_mulVec]
  have hRl : e.rotationMatrix.mulVec (e.local p) = r := by
    unfold Ellipsoid.local
    rw [Matrix.mulVec_mulVec, hR.1, Matrix.one_mulVec]
  have hdot : dotProduct n (e.local p) = dotProduct M r := by
    rw [← hRl, dotProduct_comm M, dotProduct_comm n]
    rw [hn, Matrix.dotProduct_mulVec, Matrix.vecMul_transpose]
  have key : (sphereTensor e.a (e.local p)).mulVec n =
      (-(e.a ^ 3 / 3)) • ((3 * dotProduct M r / e.distance p ^ 5) • e.local p -
        (1 / e.distance p ^ 3) • n) := by
    rw [← hdot]
    ext i
    simp only [Matrix.mulVec, sphereTensor, dotProduct, hd, Pi.smul_apply, Pi.sub_apply, smul_eq_mul,
      Fin.sum_univ_three]
    fin_cases i <;> simp <;> ring
  rw [key, Matrix.mulVec_smul, Matrix.mulVec_sub, Matrix.mulVec_smul, Matrix.mulVec_smul, hRn, hRl]
  have hpi := Real.pi_pos.ne'
  have hm : dotProduct m r = 4 / 3 * Real.pi * e.a ^ 3 * dotProduct M r := by
    rw [smul_dotProduct, smul_eq_mul]
  ext i
  simp only [hm, m, Pi.neg_apply, Pi.smul_apply, Pi.sub_apply, smul_eq_mul]
  field_simp

end Verif.Ellipsoids
