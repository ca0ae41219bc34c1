import Verif.Ellipsoids.PropsE

/-! Properties C78 to C82 of the arrays returned by `ellipsoid_gravity` and `ellipsoid_magnetic`. -/

namespace Verif.Ellipsoids
open Filter Topology Verif.Forward Verif.Distance

/-- `ellipsoid_gravity` computes this field (m/s², upward): for coordinates of any shape, the arrays it
returns are the values of the field on the points (in mGal, the third one downward). -/
def ReturnsGravity (bodies : Bodies) (field : V3 → V3) : Prop :=
  ∀ (shape : List ℕ) (pts : List P3), pts.length = shape.prod →
    ∃ w, ellipsoidGravity (arrays shape pts) bodies = .ok (gravityResult shape pts field, w)

/-- `ellipsoid_magnetic` computes this field (T) for the inducing field `B0` in nT. -/
def ReturnsMagnetic (mu0 : ℝ) (bodies : Bodies) (B0 : V3) (field : V3 → V3) : Prop :=
  ∀ (shape : List ℕ) (pts : List P3), pts.length = shape.prod →
    ∃ w, ellipsoidMagnetic mu0 (arrays shape pts) bodies B0 = .ok (magneticResult shape pts field, w)

/-- There is at most one such field. -/
theorem returnsGravity_unique {bodies : Bodies} {f g : V3 → V3} (hf : ReturnsGravity bodies f)
    (hg : ReturnsGravity bodies g) : f = g := by
  funext p
  obtain ⟨w, h1⟩ := hf [1] [⟨p 0, p 1, p 2⟩] rfl
  obtain ⟨w', h2⟩ := hg [1] [⟨p 0, p 1, p 2⟩] rfl
  have hp : vec ⟨p 0, p 1, p 2⟩ = p := by
    ext i; fin_cases i <;> rfl
  rw [h1] at h2
  injection h2 with h3
  have h4 := congrArg Prod.fst h3
  simp only [gravityResult, List.map_cons, List.map_nil, hp, Prod.mk.injEq, NdArray.mk.injEq,
    List.cons.injEq, and_true, true_and] at h4
  ext i
  fin_cases i
  · exact mul_right_cancel₀ (by norm_num) h4.1
  · exact mul_right_cancel₀ (by norm_num) h4.2.1
  · exact neg_injective (mul_right_cancel₀ (b := (10 : ℝ) ^ 5) (by norm_num) h4.2.2)

/-- There is at most one such field. -/
theorem returnsMagnetic_unique {mu0 : ℝ} {bodies : Bodies} {B0 : V3} {f g : V3 → V3}
    (hf : ReturnsMagnetic mu0 bodies B0 f) (hg : ReturnsMagnetic mu0 bodies B0 g) : f = g := by
  funext p
  obtain ⟨w, h1⟩ := hf [1] [⟨p 0, p 1, p 2⟩] rfl
  obtain ⟨w', h2⟩ := hg [1] [⟨p 0, p 1, p 2⟩] rfl
  have hp : vec ⟨p 0, p 1, p 2⟩ = p := by
    ext i; fin_cases i <;> rfl
  rw [h1] at h2
  injection h2 with h3
  have h4 := congrArg Prod.fst h3
  simp only [magneticResult, List.map_cons, List.map_nil, hp, Prod.mk.injEq, NdArray.mk.injEq,
    List.cons.injEq, and_true, true_and] at h4
  ext i
  fin_cases i
  · exact mul_left_cancel₀ (by norm_num) h4.1
  · exact mul_left_cancel₀ (by norm_num) h4.2.1
  · exact mul_left_cancel₀ (a := (10 : ℝ) ^ 9) (by norm_num) h4.2.2

theorem returnsGravity_of_exact {bodies : Bodies} (h : ∀ e ∈ bodies.toList, e.Valid ∧ e.Exact) :
    ReturnsGravity bodies fun p => (bodies.toList.map fun e => e.gravity p).sum :=
  fun shape pts hs => ⟨_, C69_value shape pts hs bodies h⟩

open Classical in
/-- Sum of the densities of the bodies that contain the point. -/
noncomputable def densityAt (es : List Ellipsoid) (p : V3) : ℝ :=
  (es.map fun e => if e.Inside p then e.density.getD 0 else 0).sum

theorem sum_deriv (es : List Ellipsoid) (h : ∀ e ∈ es, e.Valid) (p : V3)
    (hp : ∀ e ∈ es, ¬e.OnSurface p) : ∃ J : M3,
      HasFDerivAt (fun q => (es.map fun e => e.gravity q).sum) (jacobian J) p ∧ J.transpose = J ∧
      J.trace = -(4 * Real.pi * gravitationalConst * densityAt es p) := by
  induction es with
  | nil =>
    refine ⟨0, ?_, by simp, by simp [densityAt]⟩
    have : HasFDerivAt (fun _ : V3 => (0 : V3)) (0 : V3 →L[ℝ] V3) p := hasFDerivAt_const _ _
    refine this.congr_fderiv ?_
    ext v : 1
    simp [jacobian]
  | cons e es ih =>
    obtain ⟨J, h1, h2, h3⟩ := ih (fun e he => h e (by simp [he])) fun e he => hp e (by simp [he])
    have hone : ∃ K : M3, HasFDerivAt e.gravity (jacobian K) p ∧ K.transpose = K ∧
        (e.Inside p → K.trace = -(4 * Real.pi * gravitationalConst * e.density.getD 0)) ∧
        (¬e.Inside p → K.trace = 0) := by
      rcases hd : e.density with _ | d
      · refine ⟨0, ?_, by simp, by simp, by simp⟩
        have h0 : e.gravity = fun _ => 0 := by
          funext q; unfold Ellipsoid.gravity; rw [hd]
        rw [h0]
        have : HasFDerivAt (fun _ : V3 => (0 : V3)) (0 : V3 →L[ℝ] V3) p := hasFDerivAt_const _ _
        refine this.congr_fderiv ?_
        ext v : 1
        simp [jacobian]
      · exact C78_poisson e (h e (by simp)) d hd p (hp e (by simp))
    obtain ⟨K, k1, k2, k3, k4⟩ := hone
    refine ⟨K + J, ?_, by rw [Matrix.transpose_add, h2, k2], ?_⟩
    · simp only [List.map_cons, List.sum_cons]
      refine (k1.add h1).congr_fderiv ?_
      ext v : 1
      simp [jacobian, Matrix.add_mulVec]
    · rw [Matrix.trace_add, h3]
      unfold densityAt
      rw [List.map_cons, List.sum_cons]
      by_cases hin : e.Inside p
      · rw [if_pos hin, k3 hin]; ring
      · rw [if_neg hin, k4 hin]; ring

/-- C78: the field computed by `ellipsoid_gravity` for any bodies is differentiable at every point that
is not on the surface of one of them; its derivatives are a symmetric tensor (there is a potential) and
its divergence is `-4 π G` times the density at the point: Poisson's equation, and Laplace's outside of
the bodies. -/
theorem C78_gravity (bodies : Bodies) (h : ∀ e ∈ bodies.toList, e.Valid ∧ e.Exact) :
    ∃ field, ReturnsGravity bodies field ∧ ∀ p, (∀ e ∈ bodies.toList, ¬e.OnSurface p) → ∃ J : M3,
      HasFDerivAt field (jacobian J) p ∧ J.transpose = J ∧
      J.trace = -(4 * Real.pi * gravitationalConst * densityAt bodies.toList p) :=
  ⟨_, returnsGravity_of_exact h, fun p hp => sum_deriv _ (fun e he => (h e he).1) p hp⟩

/-- C79: outside of a body with semiaxes between `k` and `K`, the field computed by
`ellipsoid_gravity` has a component towards the center of the body between those of two point masses:
`G m r / (r² ± (K² - k²))^(3/2)` (both sides are multiplied by `r`). -/
theorem C79_gravity (e : Ellipsoid) (h : e.Valid) (hE : e.Exact) (density : ℝ) (hd0 : 0 ≤ density)
    (hd : e.density = some density) {k K : ℝ}
    (hk0 : 0 < k) (hk : k ≤ e.a ∧ k ≤ e.b ∧ k ≤ e.c) (hK : e.a ≤ K ∧ e.b ≤ K ∧ e.c ≤ K) :
    ∃ field, ReturnsGravity (.one e) field ∧ ∀ p, ¬e.Inside p → K ^ 2 - k ^ 2 < e.distance p ^ 2 →
      gravitationalConst * e.mass density * e.distance p ^ 2 /
          √(e.distance p ^ 2 + (K ^ 2 - k ^ 2)) ^ 3 ≤ dotProduct (field p) (e.center - p) ∧
      dotProduct (field p) (e.center - p) ≤ gravitationalConst * e.mass density * e.distance p ^ 2 /
          √(e.distance p ^ 2 - (K ^ 2 - k ^ 2)) ^ 3 := by
  refine ⟨_, returnsGravity_of_exact (bodies := .one e) (fun e' he => ?_), fun p hp hr => ?_⟩
  · simp only [Bodies.toList, List.mem_singleton] at he
    subst he; exact ⟨h, hE⟩
  · have hf : ((Bodies.one e).toList.map fun e => e.gravity p).sum = e.attraction density p := by
      simp only [Bodies.toList, List.map_cons, List.map_nil, List.sum_cons, List.sum_nil, add_zero,
        Ellipsoid.gravity, hd]
    have hneg : dotProduct (e.attraction density p) (e.center - p) =
        -dotProduct (e.attraction density p) (p - e.center) := by
      rw [← dotProduct_neg, neg_sub]
    simp only [hf]
    rw [hneg]
    exact C79_far_field e h density hd0 hk0 hk hK p hp hr

/-! ### Magnetic field of one body -/

/-- Continuity of the tensor outside, up to the surface. -/
theorem demagOutside_continuousAt {s : V3} (hs : Positive s) {v : V3} (hv : 1 ≤ confocalSum s v 0)
    (i j : Fin 3) : ContinuousAt (fun w => demagOutside s w i j) v := by
  have hl : ContinuousAt (confocalParameter s) v := (confocalParameter_continuous hs).continuousAt
  have hcoord : ∀ k, ContinuousAt (fun w : V3 => w k) v := fun k => (continuous_apply k).continuousAt
  have hl0 := confocalParameter_nonneg s v
  have hpos : ∀ k, s k ^ 2 + confocalParameter s v ≠ 0 := fun k => by
    have := pow_pos (hs k) 2; positivity
  have hden : ∀ k, ContinuousAt (fun w => s k ^ 2 + confocalParameter s w) v := fun k =>
    continuousAt_const.add hl
  have hS : (∑ k, (v k / (s k ^ 2 + confocalParameter s v)) ^ 2) ≠ 0 := (sum_sq_pos hs hv).ne'
  have hroot : rootProduct (s 0) (s 1) (s 2) (confocalParameter s v) ≠ 0 := by
    unfold rootProduct
    have h0 := pow_pos (hs 0) 2; have h1 := pow_pos (hs 1) 2; have h2 := pow_pos (hs 2) 2
    exact (Real.sqrt_pos.2 (by positivity)).ne'
  have hrootc : ContinuousAt (fun w => rootProduct (s 0) (s 1) (s 2) (confocalParameter s w)) v := by
    unfold rootProduct
    exact (((hden 0).mul (hden 1)).mul (hden 2)).sqrt
  have hint : ContinuousAt (fun w => integralsOf s (confocalParameter s w) i) v :=
    (integrals_continuous hs hs i).continuousAt
  have hgrad : ContinuousAt (fun w => confocalGradient s w i) v := by
    unfold confocalGradient
    refine ContinuousAt.div ((continuousAt_const.mul (hcoord i)).div (hden i) (hpos i)) ?_ hS
    exact tendsto_finsetSum _ fun k _ => (((hcoord k).div (hden k) (hpos k)).pow 2)
  have h1 : ContinuousAt (fun w => -(1 / ((s j ^ 2 + confocalParameter s w) *
      rootProduct (s 0) (s 1) (s 2) (confocalParameter s w)))) v :=
    (continuousAt_const.div ((hden j).mul hrootc) (mul_ne_zero (hpos j) hroot)).neg
  unfold demagOutside
  refine continuousAt_const.mul (((hgrad.mul h1).mul (hcoord j)).add ?_)
  split_ifs
  · exact hint
  · exact continuousAt_const

/-- The field outside is continuous up to the surface. -/
theorem magneticField_continuousWithinAt {e : Ellipsoid} (h : e.Valid) (mu0 : ℝ) (M : V3) {p : V3}
    (hp : ¬e.Inside p) :
    ContinuousWithinAt (fun q => e.magneticField mu0 M q) {q | ¬e.Inside q} p := by
  have hs := valid_positive h
  have hv : 1 ≤ confocalSum e.axes (e.local p) 0 := by
    rw [inside_iff, quadric_eq] at hp; exact not_lt.1 hp
  have hloc : Continuous fun q => e.local q := by
    have := (jacobian e.rotationMatrix.transpose).continuous.comp (continuous_id.sub
      (continuous_const (y := e.center)))
    exact this
  have hT : ContinuousAt (fun q => demagOutside e.axes (e.local q)) p := by
    refine continuousAt_pi.2 fun i => continuousAt_pi.2 fun j => ?_
    exact ContinuousAt.comp (f := fun q => e.local q) (demagOutside_continuousAt hs hv i j)
      hloc.continuousAt
  have hcont : ContinuousAt (fun q =>
      -(mu0 • (e.toSpace (demagOutside e.axes (e.local q))).mulVec M)) p := by
    unfold Ellipsoid.toSpace
    have h1 : Continuous fun A : M3 =>
        -(mu0 • (e.rotationMatrix * A * e.rotationMatrix.transpose).mulVec M) := by
      have h2 : Continuous fun A : M3 => e.rotationMatrix * A * e.rotationMatrix.transpose :=
        (continuous_const.matrix_mul continuous_id).matrix_mul continuous_const
      exact ((h2.matrix_mulVec continuous_const).const_smul mu0).neg
    exact ContinuousAt.comp (f := fun q => demagOutside e.axes (e.local q)) h1.continuousAt hT
  refine hcont.continuousWithinAt.congr (fun q hq => ?_) ?_
  · unfold Ellipsoid.magneticField; rw [if_neg hq]
  · unfold Ellipsoid.magneticField; rw [if_neg hp]

/-- The field computed for one body. -/
theorem returnsMagnetic_one (mu0 : ℝ) (e : Ellipsoid) (h : e.Valid) (hp : e.Passive) (hE : e.Exact)
    (B0 : V3) : ∃ M : V3, M + (e.toSpace (demagInside e.axes)).mulVec ((e.toSpace e.chi).mulVec M) =
        e.remanence + (e.toSpace e.chi).mulVec (inducingH mu0 B0) ∧
      ReturnsMagnetic mu0 (.one e) B0 (e.magneticField mu0 M) := by
  obtain ⟨n, T, hsol, hEx, P, ν, hP, hν, hsum, hn⟩ := singleMagnetic_total h
  have hdet : (1 + n * e.chi).det ≠ 0 := by rw [hn]; exact passive_det hp hP hν hsum
  have hdet' := hdet
  rw [(hEx hE).1] at hdet'
  obtain ⟨M, hM, _⟩ := hsol (inducingH mu0 B0) e.remanent_mag hdet
  rw [(hEx hE).1] at hM
  refine ⟨M, ?_, fun shape pts hs => ?_⟩
  · have := hM
    unfold SolvedByCode at this
    rw [Matrix.add_mulVec, Matrix.one_mulVec, ← Matrix.mulVec_mulVec] at this
    exact this
  · obtain ⟨M', h1, h2⟩ := C68_general mu0 shape pts hs (.one e) (fun e' he => by
      simp only [Bodies.toList, List.mem_singleton] at he
      subst he; exact ⟨h, hp, hE⟩) B0
    have : M' e = M := by
      refine solved_unique hdet' ?_ hM
      unfold SolvedByCode
      rw [Matrix.add_mulVec, Matrix.one_mulVec, ← Matrix.mulVec_mulVec]
      exact h1 e (by simp [Bodies.toList])
    simp only [Bodies.toList, List.map_cons, List.map_nil, List.sum_cons, List.sum_nil, add_zero,
      this] at h2
    exact ⟨_, h2⟩

/-- C80: for a magnetized body the field computed by `ellipsoid_magnetic` is constant inside, and the
field outside is continuous up to the surface, where it differs from the one inside by
`-μ0 (M - (n·M) n)` for the normal `n`: the normal component of the flux density is continuous, and the
tangential component of `B / μ0 - M`. -/
theorem C80_magnetic (mu0 : ℝ) (e : Ellipsoid) (h : e.Valid) (hp : e.Passive) (hE : e.Exact) (B0 : V3) :
    ∃ (field : V3 → V3) (M inside : V3), ReturnsMagnetic mu0 (.one e) B0 field ∧
      M + (e.toSpace (demagInside e.axes)).mulVec ((e.toSpace e.chi).mulVec M) =
        e.remanence + (e.toSpace e.chi).mulVec (inducingH mu0 B0) ∧
      (∀ p, e.Inside p → field p = inside) ∧
      ∀ p, e.OnSurface p → ContinuousWithinAt field {q | ¬e.Inside q} p ∧ e.normal p ≠ 0 ∧
        dotProduct (e.normal p) (field p) = dotProduct (e.normal p) inside ∧
        ∀ t, dotProduct (e.normal p) t = 0 →
          dotProduct t (field p) = dotProduct t (inside - mu0 • M) := by
  obtain ⟨M, hM, hret⟩ := returnsMagnetic_one mu0 e h hp hE B0
  refine ⟨_, M, e.internalField mu0 M, hret, hM, fun p hin => ?_, fun p hs => ?_⟩
  · unfold Ellipsoid.magneticField; rw [if_pos hin]; rfl
  · obtain ⟨h1, _, h3, h4⟩ := C80_boundary e h mu0 M p hs
    refine ⟨magneticField_continuousWithinAt h mu0 M ?_, h1, h3, h4⟩
    rw [inside_iff, (onSurface_iff e p).1 hs]
    exact lt_irrefl _

/-- Field of a dipole with moment `m` at the distance vector `r`. -/
noncomputable def dipoleField (mu0 : ℝ) (m r : V3) : V3 :=
  (mu0 / (4 * Real.pi)) • ((3 * dotProduct m r / √(r 0 ^ 2 + r 1 ^ 2 + r 2 ^ 2) ^ 5) • r -
    (1 / √(r 0 ^ 2 + r 1 ^ 2 + r 2 ^ 2) ^ 3) • m)

theorem demagInside_sphere {e : Ellipsoid} (h : e.Valid) (hab : e.a = e.b) (hbc : e.b = e.c) :
    demagInside e.axes = (1 / 3 : ℝ) • (1 : M3) := by
  have hax : e.axes = ![e.a, e.a, e.a] := by
    unfold Ellipsoid.axes; rw [← hbc, ← hab]
  obtain ⟨n, hn, _, _, hres⟩ := demagInternal_total h.1 le_rfl (le_refl e.a)
  have h1 := C67_sphere h.1
  rw [hn] at h1
  have h2 := hres ⟨fun _ => rfl, fun _ => rfl⟩
  rw [hax, ← h2]
  injection h1

/-- C81: for a sphere of volume `V` with susceptibility `χ` and remanence `M_r` in the field `H0`, the
field computed by `ellipsoid_magnetic` outside is that of a dipole at the center with moment
`V (χ H0 + M_r) / (1 + χ / 3)`, and inside it is `2/3 μ0` times the magnetization. -/
theorem C81_sphere (mu0 : ℝ) (e : Ellipsoid) (h : e.Valid) (hab : e.a = e.b) (hbc : e.b = e.c) (x : ℝ)
    (hx : -1 < x) (hs : e.susceptibility = some (.scalar x)) (B0 : V3) :
    ∃ field, ReturnsMagnetic mu0 (.one e) B0 field ∧
      let M := (1 / (1 + x / 3)) • (x • inducingH mu0 B0 + e.remanence)
      (∀ p, ¬e.Inside p →
        field p = dipoleField mu0 ((4 / 3 * Real.pi * e.a ^ 3) • M) (p - e.center)) ∧
      (∀ p, e.Inside p → field p = (2 / 3 * mu0) • M) := by
  have hp : e.Passive := by unfold Ellipsoid.Passive; rw [hs]; exact hx
  have hE : e.Exact := by
    intro i j _
    have hax : e.axes = ![e.a, e.a, e.a] := by
      unfold Ellipsoid.axes; rw [← hbc, ← hab]
    rw [hax]; fin_cases i <;> fin_cases j <;> rfl
  have hR := body_proper e
  obtain ⟨M, hM, hret⟩ := returnsMagnetic_one mu0 e h hp hE B0
  have hsp : ∀ k : ℝ, e.toSpace (k • (1 : M3)) = k • (1 : M3) := by
    intro k
    unfold Ellipsoid.toSpace
    rw [Matrix.mul_smul, Matrix.smul_mul, Matrix.mul_one, hR.1]
  have hchi : e.chi = x • (1 : M3) := by unfold Ellipsoid.chi; rw [hs]
  have h3 : (1 : ℝ) + x / 3 ≠ 0 := by
    have : (0 : ℝ) < 1 + x / 3 := by linarith
    exact this.ne'
  rw [demagInside_sphere h hab hbc, hchi, hsp, hsp] at hM
  simp only [Matrix.smul_mulVec, Matrix.one_mulVec, smul_smul] at hM
  have hM' : M = (1 / (1 + x / 3)) • (x • inducingH mu0 B0 + e.remanence) := by
    ext i
    have := congrFun hM i
    simp only [Pi.add_apply, Pi.smul_apply, smul_eq_mul] at this ⊢
    rw [one_div, eq_inv_mul_iff_mul_eq₀ h3]
    linarith
  refine ⟨_, hret, fun p ho => ?_, fun p hi => ?_⟩
  · rw [← hM', C81_dipole e h hab hbc mu0 M p ho]
    rfl
  · rw [← hM']
    unfold Ellipsoid.magneticField
    rw [if_pos hi, demagInside_sphere h hab hbc, hsp]
    simp only [Matrix.smul_mulVec, Matrix.one_mulVec]
    ext i
    simp only [Pi.smul_apply, Pi.sub_apply, smul_eq_mul]
    ring

/-! ### C82: linearity -/

/-- Bodies with given remanent magnetizations. -/
def withRemanences (es : List Ellipsoid) (m : Ellipsoid → V3) : Bodies :=
  .many (es.map fun e => e.withRemanence (some (m e)))

theorem map_sum_linear (es : List Ellipsoid) (x y : ℝ) (f g h : Ellipsoid → V3)
    (H : ∀ e ∈ es, h e = x • f e + y • g e) :
    (es.map h).sum = x • (es.map f).sum + y • (es.map g).sum := by
  induction es with
  | nil => simp
  | cons e es ih =>
    rw [List.map_cons, List.sum_cons, ih fun e he => H e (by simp [he]), H e (by simp)]
    simp only [List.map_cons, List.sum_cons, smul_add]
    abel

/-- C82: the field computed by `ellipsoid_magnetic` is a linear function of the inducing field and the
remanent magnetizations together, for every shape and susceptibility. -/
theorem C82_linear (mu0 : ℝ) (es : List Ellipsoid) (h : ∀ e ∈ es, e.Valid ∧ e.Passive) (x y : ℝ)
    (B B' : V3) (m m' : Ellipsoid → V3) : ∃ f f' : V3 → V3,
      ReturnsMagnetic mu0 (withRemanences es m) B f ∧ ReturnsMagnetic mu0 (withRemanences es m') B' f' ∧
      ReturnsMagnetic mu0 (withRemanences es fun e => x • m e + y • m' e) (x • B + y • B')
        (x • f + y • f') := by
  classical
  have key : ∀ e : Ellipsoid, ∃ F : V3 → V3 → V3 → V3, e.Valid → e.Passive →
      (∀ B m pts, singleEllipsoidMagnetic mu0 (.ok pts) (e.withRemanence (some m)) (inducingH mu0 B) =
        .ok (pts.map (F B m))) ∧
      ∀ (x y : ℝ) (B B' m m' p : V3), F (x • B + y • B') (x • m + y • m') p = x • F B m p + y • F B' m' p := by
    intro e
    by_cases hvp : e.Valid ∧ e.Passive
    · obtain ⟨n, T, hsol, _, P, ν, hP, hν, hsum, hn⟩ := singleMagnetic_total hvp.1
      have hdet : (1 + n * e.chi).det ≠ 0 := by rw [hn]; exact passive_det hvp.2 hP hν hsum
      have hsol' : ∀ B m : V3, _ := fun B m => hsol (inducingH mu0 B) (some m) hdet
      choose M hM using hsol'
      refine ⟨fun B m p => mu0 • (T p).mulVec (M B m), fun _ _ => ⟨fun B m pts => (hM B m).2 mu0 pts,
        fun x y B B' m m' p => ?_⟩⟩
      have hlin : M (x • B + y • B') (x • m + y • m') = x • M B m + y • M B' m' := by
        refine solved_unique hdet (hM _ _).1 ?_
        have h1 := (hM B m).1
        have h2 := (hM B' m').1
        unfold SolvedByCode at h1 h2 ⊢
        simp only [Option.getD_some] at h1 h2 ⊢
        rw [Matrix.mulVec_add, Matrix.mulVec_smul, Matrix.mulVec_smul, h1, h2]
        have : inducingH mu0 (x • B + y • B') = x • inducingH mu0 B + y • inducingH mu0 B' := by
          unfold inducingH
          rw [smul_add, smul_comm _ x, smul_comm _ y]
        rw [this, Matrix.mulVec_add, Matrix.mulVec_smul, Matrix.mulVec_smul]
        simp only [smul_add]
        abel
      beta_reduce
      rw [hlin, Matrix.mulVec_add, Matrix.mulVec_smul, Matrix.mulVec_smul]
      simp only [smul_add, smul_comm mu0]
    · exact ⟨0, fun hv hp => absurd ⟨hv, hp⟩ hvp⟩
  choose F hF using key
  have hret : ∀ (B : V3) (m : Ellipsoid → V3), ReturnsMagnetic mu0 (withRemanences es m) B
      fun p => (es.map fun e => F e B (m e) p).sum := by
    intro B m shape pts hs
    -- the fields of the bodies in the list, found from their geometry
    have hloop : ∀ (l : List Ellipsoid), (∀ e ∈ l, e.Valid ∧ e.Passive) → ∀ (init : V3 → V3) (n : ℕ),
        magneticLoop mu0 (.ok (pts.map vec)) (inducingH mu0 B)
          (l.map fun e => e.withRemanence (some (m e))) ((pts.map vec).map init, n) =
        .ok ((pts.map vec).map fun p => init p + (l.map fun e => F e B (m e) p).sum, n) := by
      intro l
      induction l with
      | nil => intro _ init n; simp [magneticLoop, Py.pure_eq]
      | cons e l ih =>
        intro hl init n
        have hstep : (do
            let g ← singleEllipsoidMagnetic mu0 (Except.ok (pts.map vec)) (e.withRemanence (some (m e)))
              (inducingH mu0 B)
            pure (addV ((pts.map vec).map init) g, n) : Py (List V3 × ℕ)) =
            .ok ((pts.map vec).map (fun x => init x + F e B (m e) x), n) := by
          rw [(hF e (hl e (by simp)).1 (hl e (by simp)).2).1, Py.bind_ok, addV_map]; rfl
        have ih' := ih (fun e he => hl e (by simp [he]))
        unfold magneticLoop at ih' ⊢
        rw [List.map_cons, List.foldlM_cons]
        have hr : (e.withRemanence (some (m e))).remanent_mag = some (m e) := rfl
        rcases hsu : (e.withRemanence (some (m e))).susceptibility with _ | su <;>
        · simp only [hr]
          rw [hstep, Py.bind_ok, ih']
          simp [add_assoc]
    refine ⟨0, ?_⟩
    unfold ellipsoidMagnetic withRemanences
    rw [npBroadcast_arrays]
    have h1 := hloop es h 0 0
    have h2 : List.replicate (pts.map (·.x)).length (0 : V3) = (pts.map vec).map (0 : V3 → V3) := by
      rw [show (0 : V3 → V3) = fun _ => 0 from rfl, List.map_const']
      simp
    have h3 : (B * fun _ => (1e-9 : ℝ)) / (fun _ => mu0) = inducingH mu0 B := by
      ext i; simp only [inducingH, Pi.div_apply, Pi.mul_apply, Pi.smul_apply, smul_eq_mul]; ring
    simp only [Py.bind_ok, arrays, vstack_arrays, h3, Bodies.toList]
    rw [h2, h1]
    simp only [Py.bind_ok, Py.pure_eq, reshape, List.length_map, hs, if_true]
    refine congrArg Except.ok ?_
    simp only [magneticResult, List.map_map, Pi.zero_apply, zero_add]
    norm_num [Function.comp_def]
  refine ⟨_, _, hret B m, hret B' m', ?_⟩
  have h1 := hret (x • B + y • B') fun e => x • m e + y • m' e
  have h2 : (fun p => (es.map fun e => F e (x • B + y • B') (x • m e + y • m' e) p).sum) =
      x • (fun p => (es.map fun e => F e B (m e) p).sum) +
        y • (fun p => (es.map fun e => F e B' (m' e) p).sum) := by
    funext p
    simp only [Pi.add_apply, Pi.smul_apply]
    exact map_sum_linear es x y _ _ _ fun e he => (hF e (h e he).1 (h e he).2).2 _ _ _ _ _ _ _
  rw [h2] at h1
  exact h1

end Verif.Ellipsoids
