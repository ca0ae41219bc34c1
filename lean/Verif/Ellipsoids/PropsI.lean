import Verif.Ellipsoids.PropsH

/-! Properties C71 (every orientation) and C99: the fields of ellipsoids follow the motions, the reflections
and the changes of scale of the bodies. -/

namespace Verif.Ellipsoids
open Filter Topology Verif.Forward Verif.Distance

/-! ### Every rotation is given by the angles -/

theorem rotZ_mul (s t : ℝ) : rotZ s * rotZ t = rotZ (s + t) := by
  ext i j
  fin_cases i <;> fin_cases j <;>
    simp [rotZ, Matrix.mul_apply, Fin.sum_univ_three, Real.cos_add, Real.sin_add] <;> ring

theorem rotY_mul (s t : ℝ) : rotY s * rotY t = rotY (s + t) := by
  ext i j
  fin_cases i <;> fin_cases j <;>
    simp [rotY, Matrix.mul_apply, Fin.sum_univ_three, Real.cos_add, Real.sin_add] <;> ring

theorem angle_exists {x y r : ℝ} (hr : 0 ≤ r) (h : x ^ 2 + y ^ 2 = r ^ 2) :
    ∃ t, x = r * Real.cos t ∧ y = r * Real.sin t := by
  refine ⟨Complex.arg ⟨x, y⟩, ?_, ?_⟩
  · have hn : ‖(⟨x, y⟩ : ℂ)‖ = r := by
      rw [Complex.norm_def, Complex.normSq_mk, show x * x + y * y = r ^ 2 by rw [← h]; ring,
        Real.sqrt_sq hr]
    have := Complex.norm_mul_cos_arg ⟨x, y⟩
    rw [hn] at this
    exact this.symm
  · have hn : ‖(⟨x, y⟩ : ℂ)‖ = r := by
      rw [Complex.norm_def, Complex.normSq_mk, show x * x + y * y = r ^ 2 by rw [← h]; ring,
        Real.sqrt_sq hr]
    have := Complex.norm_mul_sin_arg ⟨x, y⟩
    rw [hn] at this
    exact this.symm

/-- C71: every proper rotation is the one of some angles: the bodies can be given any orientation. -/
theorem C71_every_rotation (R : M3) (hR : ProperRotation R) :
    ∃ yaw pitch roll, getRotationMatrix yaw pitch roll = R := by
  have hcol : R 0 0 ^ 2 + R 1 0 ^ 2 + R 2 0 ^ 2 = 1 := by
    have := congrFun (congrFun hR.2.1 0) 0
    simp only [Matrix.mul_apply, Matrix.transpose_apply, Fin.sum_univ_three, Matrix.one_apply_eq] at this
    linarith [this, sq (R 0 0), sq (R 1 0), sq (R 2 0)]
  obtain ⟨y, hy0, hy1⟩ := angle_exists (x := R 0 0) (y := R 1 0) (Real.sqrt_nonneg (R 0 0 ^ 2 + R 1 0 ^ 2))
    (by rw [Real.sq_sqrt (by positivity)])
  set r := √(R 0 0 ^ 2 + R 1 0 ^ 2) with hr
  have hr2 : r ^ 2 = R 0 0 ^ 2 + R 1 0 ^ 2 := Real.sq_sqrt (by positivity)
  obtain ⟨t, ht0, ht1⟩ := angle_exists (x := r) (y := -R 2 0) (r := 1) zero_le_one (by
    rw [hr2, neg_sq]; linarith)
  rw [one_mul] at ht0 ht1
  set S := rotY (-t) * (rotZ (-y) * R) with hS
  have hSp : ProperRotation S := proper_mul (rotY_proper _) (proper_mul (rotZ_proper _) hR)
  have hZR : ∀ i, (rotZ (-y) * R) i 0 = ![r, 0, R 2 0] i := by
    have h1 := Real.sin_sq_add_cos_sq y
    intro i
    fin_cases i
    · simp only [rotZ, Matrix.mul_apply, Fin.sum_univ_three]
      simp [hy0, hy1]
      linear_combination r * h1
    · simp only [rotZ, Matrix.mul_apply, Fin.sum_univ_three]
      simp [hy0, hy1]
      ring
    · simp [rotZ, Matrix.mul_apply, Fin.sum_univ_three]
  have hS0 : ∀ i, S i 0 = ![1, 0, 0] i := by
    have h1 := Real.sin_sq_add_cos_sq t
    have h2 : R 2 0 = -Real.sin t := by linarith
    intro i
    rw [hS, Matrix.mul_apply]
    simp only [hZR, Fin.sum_univ_three]
    fin_cases i
    · simp [rotY, ht0, h2]
      linear_combination h1
    · simp [rotY]
    · simp [rotY, ht0, h2]
      ring
  have hrow : ∀ j, S 0 j = ![1, 0, 0] j := by
    have e := congrFun (congrFun hSp.1 0) 0
    have a0 := hS0 0
    simp only [Matrix.cons_val_zero] at a0
    simp only [Matrix.mul_apply, Matrix.transpose_apply, Fin.sum_univ_three, Matrix.one_apply_eq, a0] at e
    have b1 : S 0 1 = 0 := by nlinarith [sq_nonneg (S 0 1), sq_nonneg (S 0 2)]
    have b2 : S 0 2 = 0 := by nlinarith [sq_nonneg (S 0 1), sq_nonneg (S 0 2)]
    intro j
    fin_cases j
    · simpa using a0
    · simpa using b1
    · simpa using b2
  have a1 := hS0 1; have a2 := hS0 2; have a0 := hS0 0
  have b1 := hrow 1; have b2 := hrow 2
  simp at a0 a1 a2 b1 b2
  have hdet := hSp.2.2
  rw [Matrix.det_fin_three, a0, a1, a2, b1, b2] at hdet
  have c11 := congrFun (congrFun hSp.2.1 1) 1
  have c22 := congrFun (congrFun hSp.2.1 2) 2
  simp only [Matrix.mul_apply, Matrix.transpose_apply, Fin.sum_univ_three, Matrix.one_apply_eq, b1, b2]
    at c11 c22
  have e1 : S 2 2 = S 1 1 := by nlinarith [sq_nonneg (S 1 1 - S 2 2), sq_nonneg (S 1 2 + S 2 1)]
  have e2 : S 1 2 = -S 2 1 := by nlinarith [sq_nonneg (S 1 1 - S 2 2), sq_nonneg (S 1 2 + S 2 1)]
  obtain ⟨x, hx0, hx1⟩ := angle_exists (x := S 1 1) (y := S 2 1) (r := 1) zero_le_one (by
    linarith [sq (S 1 1), sq (S 2 1)])
  rw [one_mul] at hx0 hx1
  have hSx : S = rotX x := by
    ext i j
    fin_cases i <;> fin_cases j <;>
      simp [rotX, a0, a1, a2, b1, b2, e1, e2, hx0, hx1]
  have hback : R = rotZ y * (rotY t * rotX x) := by
    rw [← hSx, hS, ← Matrix.mul_assoc (rotY t), rotY_mul, add_neg_cancel, rotY_zero, Matrix.one_mul,
      ← Matrix.mul_assoc, rotZ_mul, add_neg_cancel, rotZ_zero, Matrix.one_mul]
  have hrad : ∀ z : ℝ, radians (z * 180 / Real.pi) = z := by
    intro z
    unfold radians
    have := Real.pi_ne_zero
    field_simp
  refine ⟨y * 180 / Real.pi, -(t * 180 / Real.pi), x * 180 / Real.pi, ?_⟩
  unfold getRotationMatrix fromEulerZYX
  rw [neg_neg, hrad, hrad, hrad, hback, Matrix.mul_assoc]

/-! ### Scale -/

theorem confocalParameter_scale {k : ℝ} (hk : 0 < k) (s v : V3) :
    confocalParameter (k • s) (k • v) = k ^ 2 * confocalParameter s v := by
  have hk2 : (0 : ℝ) < k ^ 2 := by positivity
  unfold confocalParameter
  rw [← smul_eq_mul, ← Real.sInf_smul_of_nonneg hk2.le]
  congr 1
  ext l
  rw [Set.mem_smul_set_iff_inv_smul_mem₀ hk2.ne']
  simp only [Set.mem_ofPred_eq, smul_eq_mul, Pi.smul_apply]
  have h1 : ∀ i, (k * v i) ^ 2 / ((k * s i) ^ 2 + l) = v i ^ 2 / (s i ^ 2 + (k ^ 2)⁻¹ * l) := by
    intro i
    rw [show (k * s i) ^ 2 + l = k ^ 2 * (s i ^ 2 + (k ^ 2)⁻¹ * l) by field_simp, mul_pow,
      mul_div_mul_left _ _ hk2.ne']
  simp only [h1]
  rw [mul_nonneg_iff_of_pos_left (inv_pos.2 hk2)]

theorem rootProduct_scale {k : ℝ} (hk : 0 < k) (a b c u : ℝ) :
    rootProduct (k * a) (k * b) (k * c) (k ^ 2 * u) = k ^ 3 * rootProduct a b c u := by
  unfold rootProduct
  rw [show ((k * a) ^ 2 + k ^ 2 * u) * ((k * b) ^ 2 + k ^ 2 * u) * ((k * c) ^ 2 + k ^ 2 * u) =
    (k ^ 3) ^ 2 * ((a ^ 2 + u) * (b ^ 2 + u) * (c ^ 2 + u)) by ring,
    Real.sqrt_mul (by positivity), Real.sqrt_sq (by positivity)]

theorem ellipticIntegral_scale {k : ℝ} (hk : 0 < k) (a b c x l : ℝ) :
    k ^ 3 * ellipticIntegral (k * a) (k * b) (k * c) (k * x) (k ^ 2 * l) = ellipticIntegral a b c x l := by
  have hk2 : (0 : ℝ) < k ^ 2 := by positivity
  unfold ellipticIntegral
  have h := MeasureTheory.integral_comp_mul_left_Ioi
    (fun u => 1 / (((k * x) ^ 2 + u) * rootProduct (k * a) (k * b) (k * c) u)) l hk2
  simp only [rootProduct_scale hk] at h
  have h1 : ∀ u, 1 / (((k * x) ^ 2 + k ^ 2 * u) * (k ^ 3 * rootProduct a b c u)) =
      (k ^ 5)⁻¹ * (1 / ((x ^ 2 + u) * rootProduct a b c u)) := by
    intro u
    rw [show ((k * x) ^ 2 + k ^ 2 * u) * (k ^ 3 * rootProduct a b c u) =
      k ^ 5 * ((x ^ 2 + u) * rootProduct a b c u) by ring, one_div, mul_inv, one_div]
  simp only [h1] at h
  rw [MeasureTheory.integral_const_mul, smul_eq_mul] at h
  have : ∫ u in Set.Ioi (k ^ 2 * l), 1 / (((k * x) ^ 2 + u) * rootProduct (k * a) (k * b) (k * c) u) =
      k ^ 2 * ((k ^ 5)⁻¹ * ∫ u in Set.Ioi l, 1 / ((x ^ 2 + u) * rootProduct a b c u)) := by
    rw [h]; field_simp
  rw [this]
  field_simp

theorem demagInside_scale {k : ℝ} (hk : 0 < k) (s : V3) : demagInside (k • s) = demagInside s := by
  unfold demagInside
  congr 1
  funext i
  have h := ellipticIntegral_scale hk (s 0) (s 1) (s 2) (s i) 0
  rw [mul_zero] at h
  simp only [Pi.smul_apply, smul_eq_mul]
  linear_combination (s 0 * s 1 * s 2 / 2) * h

theorem demagOutside_neg (s v : V3) : demagOutside s (-v) = demagOutside s v := by
  rw [demagOutside_split, demagOutside_split]
  simp only [confocalParameter_neg, Pi.neg_apply, neg_sq, mul_neg]
  congr 2
  ext i j
  simp [Matrix.vecMulVec]

theorem demagOutside_scale {k : ℝ} (hk : 0 < k) (s v : V3) :
    demagOutside (k • s) (k • v) = demagOutside s v := by
  have hk2 : (0 : ℝ) < k ^ 2 := by positivity
  rw [demagOutside_split, demagOutside_split]
  simp only [confocalParameter_scale hk, Pi.smul_apply, smul_eq_mul, rootProduct_scale hk]
  set l := confocalParameter s v
  have h1 : ∀ i, 1 / ((k * s i) ^ 2 + k ^ 2 * l) = (k ^ 2)⁻¹ * (1 / (s i ^ 2 + l)) := by
    intro i
    rw [show (k * s i) ^ 2 + k ^ 2 * l = k ^ 2 * (s i ^ 2 + l) by ring, one_div, mul_inv, one_div]
  simp only [h1]
  have h2 : ∑ j, ((k ^ 2)⁻¹ * (1 / (s j ^ 2 + l))) ^ 2 * (k * v j) ^ 2 =
      (k ^ 2)⁻¹ * ∑ j, (1 / (s j ^ 2 + l)) ^ 2 * v j ^ 2 := by
    rw [Finset.mul_sum]
    refine Finset.sum_congr rfl fun j _ => ?_
    field_simp
  rw [h2]
  congr 1
  · congr 1
    funext i
    have h := ellipticIntegral_scale hk (s 0) (s 1) (s 2) (s i) l
    linear_combination (s 0 * s 1 * s 2 / 2) * h
  · have h3 : (Matrix.vecMulVec (fun i => (k ^ 2)⁻¹ * (1 / (s i ^ 2 + l)) * (k * v i))
        fun i => (k ^ 2)⁻¹ * (1 / (s i ^ 2 + l)) * (k * v i)) =
        (k ^ 2)⁻¹ • Matrix.vecMulVec (fun i => 1 / (s i ^ 2 + l) * v i) fun i => 1 / (s i ^ 2 + l) * v i := by
      ext i j
      simp only [Matrix.vecMulVec_apply, Matrix.smul_apply, smul_eq_mul]
      field_simp
    rw [h3, smul_smul]
    congr 1
    field_simp

/-! ### Images of bodies -/

/-- The body `e'` is the image of the body `e`, as a set of points, by the similarity that turns (or
reflects) the space with `Q`, enlarges it `k` times and moves it by `t`. -/
def IsImage (k : ℝ) (Q : M3) (t : V3) (e e' : Ellipsoid) : Prop :=
  ∀ p, e'.Inside (k • Q.mulVec p + t) ↔ e.Inside p

/-- Rotations and reflections. -/
def Orthogonal (Q : M3) : Prop := Q.transpose * Q = 1 ∧ Q * Q.transpose = 1

/-- `e'` has the semiaxes, the orientation and the center of the image of `e`. -/
structure Moved (k : ℝ) (Q : M3) (t : V3) (e e' : Ellipsoid) : Prop where
  axes : e'.axes = k • e.axes
  center : e'.center = k • Q.mulVec e.center + t
  rot : e'.rotationMatrix = Q * e.rotationMatrix ∨ e'.rotationMatrix = -(Q * e.rotationMatrix)

theorem moved_exists {k : ℝ} {Q : M3} (hQ : Orthogonal Q) (t : V3) (e : Ellipsoid)
    (density : Option ℝ) (sus : Option Susceptibility) (rem : Option V3) :
    ∃ e' : Ellipsoid, Moved k Q t e e' ∧ e'.density = density ∧ e'.susceptibility = sus ∧
      e'.remanent_mag = rem := by
  have hR := body_proper e
  have hdet : Q.det = 1 ∨ Q.det = -1 := by
    have := congrArg Matrix.det hQ.1
    rw [Matrix.det_mul, Matrix.det_transpose, Matrix.det_one] at this
    exact mul_self_eq_one_iff.1 this
  have key : ∀ A : M3, A * A.transpose = 1 → A.det = 1 →
      (A = Q * e.rotationMatrix ∨ A = -(Q * e.rotationMatrix)) →
      ∃ e' : Ellipsoid, Moved k Q t e e' ∧ e'.density = density ∧ e'.susceptibility = sus ∧
        e'.remanent_mag = rem := by
    intro A hA hA' hor
    obtain ⟨y, p, r, h⟩ := C71_every_rotation A (proper_of_entries hA hA')
    refine ⟨⟨k * e.a, k * e.b, k * e.c, y, p, r, k • Q.mulVec e.center + t, density, sus, rem⟩,
      ⟨?_, rfl, ?_⟩, rfl, rfl, rfl⟩
    · ext i; fin_cases i <;> rfl
    · change getRotationMatrix y p r = _ ∨ getRotationMatrix y p r = _
      rw [h]; exact hor
  have hone : (Q * e.rotationMatrix) * (Q * e.rotationMatrix).transpose = 1 := by
    rw [Matrix.transpose_mul, Matrix.mul_assoc, ← Matrix.mul_assoc e.rotationMatrix, hR.1, Matrix.one_mul,
      hQ.2]
  rcases hdet with hd | hd
  · exact key _ hone (by rw [Matrix.det_mul, hd, hR.2.2, one_mul]) (Or.inl rfl)
  · refine key (-(Q * e.rotationMatrix)) (by rw [Matrix.transpose_neg, neg_mul_neg, hone]) ?_ (Or.inr rfl)
    rw [Matrix.det_neg, Matrix.det_mul, hd, hR.2.2]
    norm_num

theorem moved_diff {k : ℝ} {Q : M3} {t : V3} {e e' : Ellipsoid} (h : Moved k Q t e e') (p : V3) :
    k • Q.mulVec p + t - e'.center = k • Q.mulVec (p - e.center) := by
  rw [h.center, Matrix.mulVec_sub, smul_sub]
  abel

theorem moved_local {k : ℝ} {Q : M3} {t : V3} {e e' : Ellipsoid} (hQ : Orthogonal Q)
    (h : Moved k Q t e e') (p : V3) :
    e'.local (k • Q.mulVec p + t) = k • e.local p ∨ e'.local (k • Q.mulVec p + t) = -(k • e.local p) := by
  have key : (Q * e.rotationMatrix).transpose.mulVec (k • Q.mulVec (p - e.center)) = k • e.local p := by
    unfold Ellipsoid.local
    rw [Matrix.mulVec_smul, Matrix.transpose_mul, Matrix.mulVec_mulVec, Matrix.mul_assoc, hQ.1,
      Matrix.mul_one]
  unfold Ellipsoid.local
  rw [moved_diff h]
  rcases h.rot with hr | hr
  · left; rw [hr]; exact key
  · right; rw [hr, Matrix.transpose_neg, Matrix.neg_mulVec, key]; rfl

theorem moved_toSpace {k : ℝ} {Q : M3} {t : V3} {e e' : Ellipsoid} (h : Moved k Q t e e') (A : M3) :
    e'.toSpace A = Q * e.toSpace A * Q.transpose := by
  have key : (Q * e.rotationMatrix) * A * (Q * e.rotationMatrix).transpose =
      Q * e.toSpace A * Q.transpose := by
    unfold Ellipsoid.toSpace
    simp only [Matrix.transpose_mul, Matrix.mul_assoc]
  unfold Ellipsoid.toSpace
  unfold Ellipsoid.toSpace at key
  rcases h.rot with hr | hr
  · rw [hr]; exact key
  · rw [hr, Matrix.transpose_neg, Matrix.neg_mul, neg_mul_neg]; exact key

theorem moved_inside {k : ℝ} (hk : 0 < k) {Q : M3} {t : V3} {e e' : Ellipsoid} (hQ : Orthogonal Q)
    (h : Moved k Q t e e') : IsImage k Q t e e' := by
  intro p
  rw [inside_iff, inside_iff]
  have h0 : e'.a = k * e.a := congrFun h.axes 0
  have h1 : e'.b = k * e.b := congrFun h.axes 1
  have h2 : e'.c = k * e.c := congrFun h.axes 2
  have hs : ∀ v : V3, quadric e'.a e'.b e'.c (k • v) = quadric e.a e.b e.c v := by
    intro v
    unfold quadric
    simp only [h0, h1, h2, Pi.smul_apply, smul_eq_mul, mul_pow]
    have hk2 : k ^ 2 ≠ 0 := by positivity
    rw [mul_div_mul_left _ _ hk2, mul_div_mul_left _ _ hk2, mul_div_mul_left _ _ hk2]
  rcases moved_local hQ h p with hl | hl
  · rw [hl, hs]
  · rw [hl, quadric_neg, hs]

theorem moved_valid {k : ℝ} (hk : 0 < k) {Q : M3} {t : V3} {e e' : Ellipsoid} (h : Moved k Q t e e')
    (hv : e.Valid) : e'.Valid := by
  have h0 : e'.a = k * e.a := congrFun h.axes 0
  have h1 : e'.b = k * e.b := congrFun h.axes 1
  have h2 : e'.c = k * e.c := congrFun h.axes 2
  exact ⟨h0 ▸ mul_pos hk hv.1, h1 ▸ mul_pos hk hv.2.1, h2 ▸ mul_pos hk hv.2.2⟩

theorem moved_exact {k : ℝ} (hk : 0 < k) {Q : M3} {t : V3} {e e' : Ellipsoid} (h : Moved k Q t e e')
    (hE : e.Exact) : e'.Exact := by
  intro i j hc
  rw [h.axes] at hc ⊢
  simp only [Pi.smul_apply, smul_eq_mul] at hc ⊢
  unfold Close at hc
  rw [← mul_sub, abs_mul, abs_of_pos hk, ← mul_max_of_nonneg _ _ hk.le,
    show (1e-5 : ℝ) * (k * max (e.axes i) (e.axes j)) = k * (1e-5 * max (e.axes i) (e.axes j)) by ring,
    mul_lt_mul_iff_right₀ hk] at hc
  rw [hE i j hc]

theorem moved_parameter {k : ℝ} (hk : 0 < k) {Q : M3} {t : V3} {e e' : Ellipsoid} (hQ : Orthogonal Q)
    (h : Moved k Q t e e') (p : V3) : confocalParameter e'.axes (e'.local (k • Q.mulVec p + t)) =
      k ^ 2 * confocalParameter e.axes (e.local p) := by
  rw [h.axes]
  rcases moved_local hQ h p with hl | hl
  · rw [hl, confocalParameter_scale hk]
  · rw [hl, confocalParameter_neg, confocalParameter_scale hk]

theorem attraction_tensor (e : Ellipsoid) (density : ℝ) (p : V3) : e.attraction density p =
    (-2 * Real.pi * 6.6743e-11 * density) • (e.toSpace (Matrix.diagonal fun i =>
      e.axes 0 * e.axes 1 * e.axes 2 * ellipticIntegral (e.axes 0) (e.axes 1) (e.axes 2) (e.axes i)
        (confocalParameter e.axes (e.local p)))).mulVec (p - e.center) := by
  rw [toSpace_mulVec, ← Matrix.mulVec_smul]
  unfold Ellipsoid.attraction
  congr 1
  funext i
  rw [Pi.smul_apply, Matrix.mulVec_diagonal]
  unfold dirichletAttraction
  simp only [Ellipsoid.local, smul_eq_mul]
  ring

theorem moved_attraction {k : ℝ} (hk : 0 < k) {Q : M3} {t : V3} {e e' : Ellipsoid} (hQ : Orthogonal Q)
    (h : Moved k Q t e e') (density : ℝ) (p : V3) :
    e'.attraction density (k • Q.mulVec p + t) = k • Q.mulVec (e.attraction density p) := by
  rw [attraction_tensor, attraction_tensor, moved_toSpace h, moved_diff h, moved_parameter hk hQ h]
  have hd : (fun i => e'.axes 0 * e'.axes 1 * e'.axes 2 * ellipticIntegral (e'.axes 0) (e'.axes 1)
      (e'.axes 2) (e'.axes i) (k ^ 2 * confocalParameter e.axes (e.local p))) = fun i =>
      e.axes 0 * e.axes 1 * e.axes 2 * ellipticIntegral (e.axes 0) (e.axes 1) (e.axes 2) (e.axes i)
        (confocalParameter e.axes (e.local p)) := by
    funext i
    rw [h.axes]
    simp only [Pi.smul_apply, smul_eq_mul]
    rw [← ellipticIntegral_scale hk (e.axes 0) (e.axes 1) (e.axes 2) (e.axes i)]
    ring
  rw [hd, Matrix.mulVec_smul, Matrix.mulVec_smul, Matrix.mulVec_mulVec, Matrix.mulVec_mulVec,
    Matrix.mul_assoc, hQ.1, Matrix.mul_one, smul_comm]

/-- C99: the image of a body, with its density and its magnetic properties turned with it, can always be
described by semiaxes, angles, center, susceptibility and remanent magnetization. -/
theorem C99_image_exists {k : ℝ} (hk : 0 < k) {Q : M3} (hQ : Orthogonal Q) (t : V3) (e : Ellipsoid)
    (h : e.Valid) : ∃ e' : Ellipsoid, e'.Valid ∧ IsImage k Q t e e' ∧ (e.Exact → e'.Exact) ∧
      (e.Passive → e'.Passive) ∧ e'.density = e.density ∧
      e'.toSpace e'.chi = Q * e.toSpace e.chi * Q.transpose ∧ e'.remanence = Q.mulVec e.remanence := by
  obtain ⟨e', hm, hd, hs, hr⟩ := moved_exists (k := k) hQ t e e.density e.susceptibility
    (some (Q.mulVec e.remanence))
  refine ⟨e', moved_valid hk hm h, moved_inside hk hQ hm, moved_exact hk hm, ?_, hd, ?_, ?_⟩
  · unfold Ellipsoid.Passive; rw [hs]; exact id
  · rw [moved_toSpace hm]; unfold Ellipsoid.chi; rw [hs]
  · unfold Ellipsoid.remanence; rw [hr]; rfl

/-- Any description of the image has the field of the one with the moved semiaxes. -/
theorem image_sameBody {k : ℝ} (hk : 0 < k) {Q : M3} (hQ : Orthogonal Q) {t : V3} {e e' e'' : Ellipsoid}
    (hi : IsImage k Q t e e') (hm : Moved k Q t e e'') : SameBody e'' e' := by
  intro q
  have hq : k • Q.mulVec (k⁻¹ • Q.transpose.mulVec (q - t)) + t = q := by
    rw [Matrix.mulVec_smul, smul_smul, mul_inv_cancel₀ hk.ne', one_smul, Matrix.mulVec_mulVec, hQ.2,
      Matrix.one_mulVec, sub_add_cancel]
  have h1 := moved_inside hk hQ hm (k⁻¹ • Q.transpose.mulVec (q - t))
  have h2 := hi (k⁻¹ • Q.transpose.mulVec (q - t))
  rw [hq] at h1 h2
  exact h1.trans h2.symm

theorem image_gravity {k : ℝ} (hk : 0 < k) {Q : M3} (hQ : Orthogonal Q) {t : V3} {e e' : Ellipsoid}
    (h : e.Valid) (h' : e'.Valid) (hi : IsImage k Q t e e') (hd : e'.density = e.density) (p : V3) :
    e'.gravity (k • Q.mulVec p + t) = k • Q.mulVec (e.gravity p) := by
  obtain ⟨e'', hm, -⟩ := moved_exists (k := k) hQ t e none none none
  have hs := image_sameBody hk hQ hi hm
  unfold Ellipsoid.gravity
  rw [hd]
  cases e.density with
  | none => simp
  | some ρ =>
    simp only []
    rw [← sameBody_attraction (moved_valid hk hm h) h' hs, moved_attraction hk hQ hm]

/-- C99: the attraction of bodies turned (or reflected), enlarged `k` times and moved, at the points turned,
enlarged and moved in the same way, is the attraction turned (or reflected), `k` times larger. -/
theorem C99_gravity {k : ℝ} (hk : 0 < k) {Q : M3} (hQ : Orthogonal Q) (t : V3) (bodies bodies' : Bodies)
    (h : ∀ e ∈ bodies.toList, e.Valid ∧ e.Exact) (h' : ∀ e ∈ bodies'.toList, e.Valid ∧ e.Exact)
    (hi : List.Forall₂ (fun e e' => IsImage k Q t e e' ∧ e'.density = e.density)
      bodies.toList bodies'.toList) :
    ∃ field field', ReturnsGravity bodies field ∧ ReturnsGravity bodies' field' ∧
      ∀ p, field' (k • Q.mulVec p + t) = k • Q.mulVec (field p) := by
  refine ⟨_, _, returnsGravity_of_exact h, returnsGravity_of_exact h', fun p => ?_⟩
  generalize bodies.toList = es at h hi
  generalize bodies'.toList = es' at h' hi
  induction hi with
  | nil => simp
  | @cons e e' es es' h0 _ ih =>
    have := ih (fun x hx => h x (List.mem_cons_of_mem _ hx)) (fun x hx => h' x (List.mem_cons_of_mem _ hx))
    simp only [List.map_cons, List.sum_cons] at this ⊢
    rw [this, image_gravity hk hQ (h e List.mem_cons_self).1 (h' e' List.mem_cons_self).1 h0.1 h0.2,
      Matrix.mulVec_add, smul_add]

theorem conj_mulVec {Q A : M3} (hQ : Orthogonal Q) (v : V3) :
    (Q * A * Q.transpose).mulVec (Q.mulVec v) = Q.mulVec (A.mulVec v) := by
  rw [Matrix.mulVec_mulVec, Matrix.mul_assoc, hQ.1, Matrix.mul_one, Matrix.mulVec_mulVec]

theorem image_magneticField {k : ℝ} (hk : 0 < k) {Q : M3} (hQ : Orthogonal Q) {t : V3} {e e' : Ellipsoid}
    (h : e.Valid) (h' : e'.Valid) (hi : IsImage k Q t e e') (mu0 : ℝ) (M p : V3) :
    e'.toSpace (demagInside e'.axes) = Q * e.toSpace (demagInside e.axes) * Q.transpose ∧
    e'.magneticField mu0 (Q.mulVec M) (k • Q.mulVec p + t) = Q.mulVec (e.magneticField mu0 M p) := by
  obtain ⟨e'', hm, -⟩ := moved_exists (k := k) hQ t e none none none
  have hs := image_sameBody hk hQ hi hm
  have hv := moved_valid hk hm h
  have hN : e'.toSpace (demagInside e'.axes) = Q * e.toSpace (demagInside e.axes) * Q.transpose := by
    rw [← sameBody_inside hv h' hs, moved_toSpace hm, hm.axes, demagInside_scale hk]
  refine ⟨hN, ?_⟩
  have hO : e'.toSpace (demagOutside e'.axes (e'.local (k • Q.mulVec p + t))) =
      Q * e.toSpace (demagOutside e.axes (e.local p)) * Q.transpose := by
    rw [← sameBody_outside hv h' hs, moved_toSpace hm, hm.axes]
    rcases moved_local hQ hm p with hl | hl
    · rw [hl, demagOutside_scale hk]
    · rw [hl, demagOutside_neg, demagOutside_scale hk]
  unfold Ellipsoid.magneticField
  by_cases hin : e.Inside p
  · rw [if_pos hin, if_pos ((hi p).2 hin), hN, conj_mulVec hQ, Matrix.mulVec_smul, Matrix.mulVec_sub]
  · rw [if_neg hin, if_neg fun hh => hin ((hi p).1 hh), hO, conj_mulVec hQ, Matrix.mulVec_neg,
      Matrix.mulVec_smul]

/-- C99: the magnetic field of bodies turned (or reflected), enlarged and moved, with their susceptibility
tensors and remanent magnetizations turned with them, in the inducing field turned in the same way, is
the field turned in the same way, not changed in intensity. -/
theorem C99_magnetic (mu0 : ℝ) {k : ℝ} (hk : 0 < k) {Q : M3} (hQ : Orthogonal Q) (t : V3)
    (bodies bodies' : Bodies) (h : ∀ e ∈ bodies.toList, e.Valid ∧ e.Passive ∧ e.Exact)
    (h' : ∀ e ∈ bodies'.toList, e.Valid ∧ e.Passive ∧ e.Exact)
    (hi : List.Forall₂ (fun e e' => IsImage k Q t e e' ∧
        e'.toSpace e'.chi = Q * e.toSpace e.chi * Q.transpose ∧ e'.remanence = Q.mulVec e.remanence)
      bodies.toList bodies'.toList) (B0 : V3) :
    ∃ field field', ReturnsMagnetic mu0 bodies B0 field ∧
      ReturnsMagnetic mu0 bodies' (Q.mulVec B0) field' ∧
      ∀ p, field' (k • Q.mulVec p + t) = Q.mulVec (field p) := by
  obtain ⟨M, hM, hret⟩ := returnsMagnetic_sum mu0 bodies h B0
  obtain ⟨M', hM', hret'⟩ := returnsMagnetic_sum mu0 bodies' h' (Q.mulVec B0)
  refine ⟨_, _, hret, hret', fun p => ?_⟩
  clear hret hret'
  generalize bodies.toList = es at h hi hM
  generalize bodies'.toList = es' at h' hi hM'
  have hH : inducingH mu0 (Q.mulVec B0) = Q.mulVec (inducingH mu0 B0) := by
    unfold inducingH
    rw [← Matrix.mulVec_smul]
  induction hi with
  | nil => simp
  | @cons e e' es es' h0 _ ih =>
    have := ih (fun x hx => h x (List.mem_cons_of_mem _ hx)) (fun x hx => hM x (List.mem_cons_of_mem _ hx))
      (fun x hx => h' x (List.mem_cons_of_mem _ hx)) (fun x hx => hM' x (List.mem_cons_of_mem _ hx))
    simp only [List.map_cons, List.sum_cons] at this ⊢
    obtain ⟨hv', hp', hE'⟩ := h' e' List.mem_cons_self
    obtain ⟨hN, hF⟩ := image_magneticField hk hQ (h e List.mem_cons_self).1 hv' h0.1 mu0 (M e) p
    have hMM : M' e' = Q.mulVec (M e) := by
      obtain ⟨n, T, _, hEx, P, ν, hP, hν, hsum, hn⟩ := singleMagnetic_total hv'
      have hdet : (1 + n * e'.chi).det ≠ 0 := by rw [hn]; exact passive_det hp' hP hν hsum
      rw [(hEx hE').1] at hdet
      refine solved_unique hdet (H0 := inducingH mu0 (Q.mulVec B0)) (Mr := e'.remanence) ?_ ?_
      · unfold SolvedByCode
        rw [Matrix.add_mulVec, Matrix.one_mulVec, ← Matrix.mulVec_mulVec]
        exact hM' e' List.mem_cons_self
      · unfold SolvedByCode
        rw [Matrix.add_mulVec, Matrix.one_mulVec, ← Matrix.mulVec_mulVec, hN, h0.2.1, h0.2.2, hH,
          conj_mulVec hQ, conj_mulVec hQ, conj_mulVec hQ, ← Matrix.mulVec_add, ← Matrix.mulVec_add,
          hM e List.mem_cons_self]
    rw [this, hMM, hF, Matrix.mulVec_add]

end Verif.Ellipsoids
