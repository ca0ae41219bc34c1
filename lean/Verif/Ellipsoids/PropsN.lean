import Verif.Ellipsoids.Examples

/-! Property C141: the theorems of Maclaurin (confocal ellipsoids) and Newton (shells between similar
ellipsoids). -/

namespace Verif.Ellipsoids
open Verif.Forward Verif.Distance

/-! ### Specification -/

/-- The bodies have the same center and the same angles. -/
def Concentric (e e' : Ellipsoid) : Prop :=
  e'.center = e.center ∧ e'.yaw = e.yaw ∧ e'.pitch = e.pitch ∧ e'.roll = e.roll

/-- Concentric bodies with the same foci: the squares of the semiaxes differ by one number. -/
def Confocal (e e' : Ellipsoid) : Prop :=
  Concentric e e' ∧ ∃ t : ℝ, e'.a ^ 2 = e.a ^ 2 + t ∧ e'.b ^ 2 = e.b ^ 2 + t ∧ e'.c ^ 2 = e.c ^ 2 + t

/-- Concentric bodies whose semiaxes have the same ratios. -/
def Similar (e e' : Ellipsoid) : Prop :=
  Concentric e e' ∧ ∃ k : ℝ, 0 < k ∧ e'.a = k * e.a ∧ e'.b = k * e.b ∧ e'.c = k * e.c

/-- Volume of the body. -/
noncomputable def Ellipsoid.volume (e : Ellipsoid) : ℝ := 4 / 3 * Real.pi * (e.a * e.b * e.c)

/-! ### Lemmas -/

theorem ellipticIntegral_shift {a b c x a' b' c' x' t : ℝ} (ha : a' ^ 2 = a ^ 2 + t)
    (hb : b' ^ 2 = b ^ 2 + t) (hc : c' ^ 2 = c ^ 2 + t) (hx : x' ^ 2 = x ^ 2 + t) (l : ℝ) :
    ellipticIntegral a' b' c' x' l = ellipticIntegral a b c x (l + t) := by
  unfold ellipticIntegral
  have h := (MeasureTheory.measurePreserving_add_right MeasureTheory.volume t).setIntegral_preimage_emb
    (measurableEmbedding_addRight t) (fun u => 1 / ((x ^ 2 + u) * rootProduct a b c u)) (Set.Ioi (l + t))
  rw [← h, Set.preimage_add_const_Ioi, add_sub_cancel_right]
  congr 1
  funext u
  unfold rootProduct
  have hz : ∀ z : ℝ, z + t + u = z + (u + t) := fun z => by ring
  simp only [ha, hb, hc, hx, hz]

theorem concentric_rot {e e' : Ellipsoid} (h : Concentric e e') : e'.rotationMatrix = e.rotationMatrix := by
  obtain ⟨-, h1, h2, h3⟩ := h
  unfold Ellipsoid.rotationMatrix
  rw [h1, h2, h3]

theorem concentric_local {e e' : Ellipsoid} (h : Concentric e e') (p : V3) : e'.local p = e.local p := by
  unfold Ellipsoid.local
  rw [concentric_rot h, h.1]

theorem concentric_toSpace {e e' : Ellipsoid} (h : Concentric e e') (A : M3) : e'.toSpace A = e.toSpace A := by
  unfold Ellipsoid.toSpace
  rw [concentric_rot h]

theorem confocal_axes {e e' : Ellipsoid} {t : ℝ} (h : e'.a ^ 2 = e.a ^ 2 + t ∧ e'.b ^ 2 = e.b ^ 2 + t ∧
    e'.c ^ 2 = e.c ^ 2 + t) (i : Fin 3) : e'.axes i ^ 2 = e.axes i ^ 2 + t := by
  obtain ⟨h1, h2, h3⟩ := h
  fin_cases i
  · exact h1
  · exact h2
  · exact h3

theorem outside_sum {e : Ellipsoid} {p : V3} (h : ¬e.Inside p) : 1 ≤ confocalSum e.axes (e.local p) 0 := by
  rw [inside_iff, not_lt, quadric_eq] at h
  exact h

/-- Confocal ellipsoids outside of both: the parameters of the confocal ellipsoid through the point. -/
theorem confocal_parameter {e e' : Ellipsoid} (hv : e.Valid) (hv' : e'.Valid) (hc : Concentric e e') {t : ℝ}
    (h : e'.a ^ 2 = e.a ^ 2 + t ∧ e'.b ^ 2 = e.b ^ 2 + t ∧ e'.c ^ 2 = e.c ^ 2 + t) {p : V3}
    (hp : ¬e.Inside p) (hp' : ¬e'.Inside p) :
    confocalParameter e.axes (e.local p) = confocalParameter e'.axes (e'.local p) + t := by
  have hs := valid_positive hv
  have hs' := valid_positive hv'
  have h1 := outside_sum hp'
  obtain ⟨l, hl, hroot⟩ := confocal_exists hs' h1
  rw [confocalParameter_eq hs' hl hroot]
  rw [concentric_local hc] at hroot
  have hsum : confocalSum e.axes (e.local p) (l + t) = 1 := by
    rw [← hroot]
    unfold confocalSum
    refine Finset.sum_congr rfl fun i _ => ?_
    rw [confocal_axes h]
    congr 1; ring
  have hnn : 0 ≤ l + t := by
    by_contra hneg
    push Not at hneg
    obtain ⟨m, hm, hmroot⟩ := confocal_exists hs (outside_sum hp)
    have hsum' : confocalSum e'.axes (e.local p) (m - t) = 1 := by
      rw [← hmroot]
      unfold confocalSum
      refine Finset.sum_congr rfl fun i _ => ?_
      rw [confocal_axes h]
      congr 1; ring
    have hlt := confocal_root_lt hs' hsum' hl (by linarith)
    rw [hroot] at hlt
    exact lt_irrefl _ hlt
  exact confocalParameter_eq hs hnn hsum

/-- The attraction of two confocal ellipsoids of the same mass. -/
theorem confocal_attraction {e e' : Ellipsoid} (hv : e.Valid) (hv' : e'.Valid) (hc : Confocal e e')
    {d d' : ℝ} (hm : e.volume * d = e'.volume * d') {p : V3} (hp : ¬e.Inside p) (hp' : ¬e'.Inside p) :
    e'.attraction d' p = e.attraction d p := by
  obtain ⟨hcc, t, ht⟩ := hc
  have hl := confocal_parameter hv hv' hcc ht hp hp'
  have hmass : d * (e.a * e.b * e.c) = d' * (e'.a * e'.b * e'.c) := by
    unfold Ellipsoid.volume at hm
    have hpi := Real.pi_pos
    have : (4 / 3 * Real.pi) * (d * (e.a * e.b * e.c)) = (4 / 3 * Real.pi) * (d' * (e'.a * e'.b * e'.c)) := by
      linear_combination hm
    exact mul_left_cancel₀ (by positivity) this
  change e'.rotationMatrix.mulVec (dirichletAttraction e'.axes d' (e'.local p)) =
    e.rotationMatrix.mulVec (dirichletAttraction e.axes d (e.local p))
  rw [concentric_rot hcc]
  congr 1
  ext i
  unfold dirichletAttraction
  rw [ellipticIntegral_shift (confocal_axes ht 0) (confocal_axes ht 1) (confocal_axes ht 2)
    (confocal_axes ht i), ← hl, concentric_local hcc]
  change -2 * Real.pi * 6.6743e-11 * d' * (e'.a * e'.b * e'.c) * _ * _ =
    -2 * Real.pi * 6.6743e-11 * d * (e.a * e.b * e.c) * _ * _
  linear_combination (2 * Real.pi * 6.6743e-11 * (e.local p i) * ellipticIntegral (e.axes 0) (e.axes 1)
    (e.axes 2) (e.axes i) (confocalParameter e.axes (e.local p))) * hmass

/-- The tensors of two confocal ellipsoids, divided by the volumes. -/
theorem confocal_tensor {e e' : Ellipsoid} (hv : e.Valid) (hv' : e'.Valid) (hcc : Concentric e e')
    {t : ℝ} (ht : e'.a ^ 2 = e.a ^ 2 + t ∧ e'.b ^ 2 = e.b ^ 2 + t ∧ e'.c ^ 2 = e.c ^ 2 + t) {p : V3}
    (hp : ¬e.Inside p) (hp' : ¬e'.Inside p) :
    (e.a * e.b * e.c) • demagOutside e'.axes (e'.local p) =
      (e'.a * e'.b * e'.c) • demagOutside e.axes (e.local p) := by
  have hl := confocal_parameter hv hv' hcc ht hp hp'
  rw [concentric_local hcc] at hl ⊢
  set l := confocalParameter e.axes (e.local p) with hldef
  set l' := confocalParameter e'.axes (e.local p) with hldef'
  have hden : ∀ i, e'.axes i ^ 2 + l' = e.axes i ^ 2 + l := fun i => by rw [confocal_axes ht, hl]; ring
  have hroot : rootProduct (e'.axes 0) (e'.axes 1) (e'.axes 2) l' =
      rootProduct (e.axes 0) (e.axes 1) (e.axes 2) l := by
    unfold rootProduct
    rw [hden, hden, hden]
  have hint : ∀ i, ellipticIntegral (e'.axes 0) (e'.axes 1) (e'.axes 2) (e'.axes i) l' =
      ellipticIntegral (e.axes 0) (e.axes 1) (e.axes 2) (e.axes i) l := by
    intro i
    rw [ellipticIntegral_shift (confocal_axes ht 0) (confocal_axes ht 1) (confocal_axes ht 2)
      (confocal_axes ht i), ← hl]
  ext i j
  simp only [Matrix.smul_apply, smul_eq_mul, demagOutside, confocalGradient, ← hldef, ← hldef', hden, hroot,
    hint]
  change (e.a * e.b * e.c) * (e'.a * e'.b * e'.c / 2 * _) = (e'.a * e'.b * e'.c) * (e.a * e.b * e.c / 2 * _)
  ring

theorem sole_magnetization {e : Ellipsoid} (h : e.susceptibility = none) {mu0 : ℝ} {B0 M : V3}
    (hM : M + (e.toSpace (demagInside e.axes)).mulVec ((e.toSpace e.chi).mulVec M) =
      e.remanence + (e.toSpace e.chi).mulVec (inducingH mu0 B0)) : M = e.remanence := by
  have hchi : e.toSpace e.chi = 0 := by
    unfold Ellipsoid.chi Ellipsoid.toSpace
    rw [h]
    simp
  rw [hchi] at hM
  simpa using hM

theorem similar_axes {e e' : Ellipsoid} {k : ℝ} (h : e'.a = k * e.a ∧ e'.b = k * e.b ∧ e'.c = k * e.c) :
    e'.axes = k • e.axes := by
  obtain ⟨h1, h2, h3⟩ := h
  ext i
  fin_cases i
  · exact h1
  · exact h2
  · exact h3

theorem inside_sum {e : Ellipsoid} {p : V3} (h : e.Inside p) : confocalSum e.axes (e.local p) 0 ≤ 1 := by
  rw [inside_iff, quadric_eq] at h
  exact h.le

theorem similar_attraction {e e' : Ellipsoid} (h : Similar e e') (d : ℝ) {p : V3} (hp : e.Inside p)
    (hp' : e'.Inside p) : e'.attraction d p = e.attraction d p := by
  obtain ⟨hcc, k, hk, ha⟩ := h
  have haxes := similar_axes ha
  change e'.rotationMatrix.mulVec (dirichletAttraction e'.axes d (e'.local p)) =
    e.rotationMatrix.mulVec (dirichletAttraction e.axes d (e.local p))
  rw [concentric_rot hcc]
  congr 1
  ext i
  unfold dirichletAttraction
  rw [confocalParameter_inside (inside_sum hp), confocalParameter_inside (inside_sum hp'),
    concentric_local hcc, haxes]
  have hsc := ellipticIntegral_scale hk (e.axes 0) (e.axes 1) (e.axes 2) (e.axes i) 0
  rw [mul_zero] at hsc
  simp only [Pi.smul_apply, smul_eq_mul]
  linear_combination (-2 * Real.pi * 6.6743e-11 * d * (e.axes 0 * e.axes 1 * e.axes 2) * e.local p i) * hsc

theorem attraction_neg (e : Ellipsoid) (d : ℝ) (p : V3) : e.attraction (-d) p = -e.attraction d p := by
  unfold Ellipsoid.attraction
  rw [← Matrix.mulVec_neg]
  congr 1
  ext i
  simp only [dirichletAttraction, Pi.neg_apply]
  ring

/-! ### Properties -/

/-- C141 (Maclaurin): outside of two confocal ellipsoids that have the same mass, `ellipsoid_gravity`
returns the same for one and for the other. -/
theorem C141_confocal_gravity (e e' : Ellipsoid) (h : e.Valid ∧ e.Exact) (h' : e'.Valid ∧ e'.Exact)
    (hc : Confocal e e') (d d' : ℝ) (hd : e.density = some d) (hd' : e'.density = some d')
    (hm : e.volume * d = e'.volume * d') :
    ∃ field field', ReturnsGravity (.one e) field ∧ ReturnsGravity (.one e') field' ∧
      ∀ p, ¬e.Inside p → ¬e'.Inside p → field' p = field p := by
  have hone : ∀ e : Ellipsoid, e.Valid ∧ e.Exact → ∀ x ∈ (Bodies.one e).toList, x.Valid ∧ x.Exact := by
    intro e he x hx
    simp only [Bodies.toList, List.mem_singleton] at hx
    subst hx; exact he
  refine ⟨_, _, returnsGravity_of_exact (hone e h), returnsGravity_of_exact (hone e' h'), ?_⟩
  intro p hp hp'
  simp only [Bodies.toList, List.map_cons, List.map_nil, List.sum_cons, List.sum_nil, add_zero]
  unfold Ellipsoid.gravity
  rw [hd, hd']
  exact confocal_attraction h.1 h'.1 hc hm hp hp'

/-- C141 (Maclaurin, magnetics): outside of two confocal ellipsoids without susceptibility whose remanent
magnetizations have the same moment, `ellipsoid_magnetic` returns the same for one and for the other. -/
theorem C141_confocal_magnetic (mu0 : ℝ) (e e' : Ellipsoid) (h : e.Valid ∧ e.Exact)
    (h' : e'.Valid ∧ e'.Exact) (hc : Confocal e e') (hchi : e.susceptibility = none)
    (hchi' : e'.susceptibility = none) (hm : e.volume • e.remanence = e'.volume • e'.remanence) (B0 : V3) :
    ∃ field field', ReturnsMagnetic mu0 (.one e) B0 field ∧ ReturnsMagnetic mu0 (.one e') B0 field' ∧
      ∀ p, ¬e.Inside p → ¬e'.Inside p → field' p = field p := by
  have hpas : ∀ e : Ellipsoid, e.susceptibility = none → e.Passive := by
    intro e he
    unfold Ellipsoid.Passive
    rw [he]; trivial
  obtain ⟨M, hM, hret⟩ := returnsMagnetic_one mu0 e h.1 (hpas e hchi) h.2 B0
  obtain ⟨M', hM', hret'⟩ := returnsMagnetic_one mu0 e' h'.1 (hpas e' hchi') h'.2 B0
  have hMe := sole_magnetization hchi hM
  have hMe' := sole_magnetization hchi' hM'
  subst hMe
  subst hMe'
  refine ⟨_, _, hret, hret', fun p hp hp' => ?_⟩
  obtain ⟨hcc, t, ht⟩ := hc
  have hT := confocal_tensor h.1 h'.1 hcc ht hp hp'
  unfold Ellipsoid.magneticField
  rw [if_neg hp, if_neg hp', concentric_toSpace hcc]
  congr 2
  obtain ⟨⟨ha, hb, hcp⟩, -⟩ := h
  obtain ⟨⟨ha', hb', hcp'⟩, -⟩ := h'
  have hV : 0 < e.a * e.b * e.c := by positivity
  have hV' : 0 < e'.a * e'.b * e'.c := by positivity
  have hmom : (e.a * e.b * e.c) • e.remanence = (e'.a * e'.b * e'.c) • e'.remanence := by
    unfold Ellipsoid.volume at hm
    rw [mul_smul (4 / 3 * Real.pi), mul_smul (4 / 3 * Real.pi)] at hm
    have hpi := Real.pi_pos
    exact (smul_right_injective V3 (r := 4 / 3 * Real.pi) (by positivity)) hm
  have hsm : ∀ (e : Ellipsoid) (k : ℝ) (A : M3), e.toSpace (k • A) = k • e.toSpace A := by
    intro e k A
    unfold Ellipsoid.toSpace
    rw [Matrix.mul_smul, Matrix.smul_mul]
  have key : ((e.a * e.b * e.c) * (e'.a * e'.b * e'.c)) •
      (e.toSpace (demagOutside e'.axes (e'.local p))).mulVec e'.remanence =
      ((e.a * e.b * e.c) * (e'.a * e'.b * e'.c)) •
      (e.toSpace (demagOutside e.axes (e.local p))).mulVec e.remanence := by
    calc ((e.a * e.b * e.c) * (e'.a * e'.b * e'.c)) •
        (e.toSpace (demagOutside e'.axes (e'.local p))).mulVec e'.remanence
        = (e.toSpace ((e.a * e.b * e.c) • demagOutside e'.axes (e'.local p))).mulVec
            ((e'.a * e'.b * e'.c) • e'.remanence) := by
          rw [hsm, Matrix.smul_mulVec, Matrix.mulVec_smul, mul_smul]
      _ = (e.toSpace ((e'.a * e'.b * e'.c) • demagOutside e.axes (e.local p))).mulVec
            ((e.a * e.b * e.c) • e.remanence) := by rw [hT, hmom]
      _ = _ := by
          rw [hsm, Matrix.smul_mulVec, Matrix.mulVec_smul, smul_smul, mul_comm]
  exact smul_right_injective V3 (mul_pos hV hV').ne' key

/-- C141 (Newton): a shell between two similar ellipsoids (an ellipsoid with a density and a similar one
with the opposite density) has no gravity in its cavity. -/
theorem C141_shell_gravity (e e' : Ellipsoid) (h : e.Valid ∧ e.Exact) (h' : e'.Valid ∧ e'.Exact)
    (hs : Similar e e') (d : ℝ) (hd : e.density = some (-d)) (hd' : e'.density = some d) :
    ∃ field, ReturnsGravity (.many [e', e]) field ∧ ∀ p, e.Inside p → e'.Inside p → field p = 0 := by
  have hall : ∀ x ∈ (Bodies.many [e', e]).toList, x.Valid ∧ x.Exact := by
    intro x hx
    simp only [Bodies.toList, List.mem_cons, List.not_mem_nil, or_false] at hx
    rcases hx with rfl | rfl
    · exact h'
    · exact h
  refine ⟨_, returnsGravity_of_exact hall, fun p hp hp' => ?_⟩
  simp only [Bodies.toList, List.map_cons, List.map_nil, List.sum_cons, List.sum_nil, add_zero]
  unfold Ellipsoid.gravity
  rw [hd, hd']
  change e'.attraction d p + e.attraction (-d) p = 0
  rw [attraction_neg, similar_attraction hs d hp hp', add_neg_cancel]

/-- C141 (Newton, magnetics): a shell between two similar ellipsoids with a uniform remanent magnetization
has no magnetic field in its cavity. -/
theorem C141_shell_magnetic (mu0 : ℝ) (e e' : Ellipsoid) (h : e.Valid ∧ e.Exact) (h' : e'.Valid ∧ e'.Exact)
    (hs : Similar e e') (hchi : e.susceptibility = none) (hchi' : e'.susceptibility = none)
    (hm : e.remanence = -e'.remanence) (B0 : V3) :
    ∃ field, ReturnsMagnetic mu0 (.many [e', e]) B0 field ∧ ∀ p, e.Inside p → e'.Inside p → field p = 0 := by
  have hpas : ∀ e : Ellipsoid, e.susceptibility = none → e.Passive := by
    intro e he
    unfold Ellipsoid.Passive
    rw [he]; trivial
  have hall : ∀ x ∈ (Bodies.many [e', e]).toList, x.Valid ∧ x.Passive ∧ x.Exact := by
    intro x hx
    simp only [Bodies.toList, List.mem_cons, List.not_mem_nil, or_false] at hx
    rcases hx with rfl | rfl
    · exact ⟨h'.1, hpas _ hchi', h'.2⟩
    · exact ⟨h.1, hpas _ hchi, h.2⟩
  obtain ⟨M, hM, hret⟩ := returnsMagnetic_sum mu0 _ hall B0
  refine ⟨_, hret, fun p hp hp' => ?_⟩
  have h1 := sole_magnetization hchi (hM e (by simp [Bodies.toList]))
  have h2 := sole_magnetization hchi' (hM e' (by simp [Bodies.toList]))
  simp only [Bodies.toList, List.map_cons, List.map_nil, List.sum_cons, List.sum_nil, add_zero]
  unfold Ellipsoid.magneticField
  obtain ⟨hcc, k, hk, ha⟩ := hs
  rw [if_pos hp, if_pos hp', h1, h2, hm, concentric_toSpace hcc, similar_axes ha, demagInside_scale hk,
    Matrix.mulVec_neg, ← smul_add]
  simp

/-- In particular the cavity is the whole smaller ellipsoid. -/
theorem similar_inside {e e' : Ellipsoid} (h : Concentric e e') (hv : e.Valid) {k : ℝ} (hk : 1 ≤ k)
    (ha : e'.a = k * e.a ∧ e'.b = k * e.b ∧ e'.c = k * e.c) {p : V3} (hp : e.Inside p) : e'.Inside p := by
  rw [inside_iff] at hp ⊢
  rw [concentric_local h, ha.1, ha.2.1, ha.2.2]
  refine lt_of_le_of_lt ?_ hp
  obtain ⟨h1, h2, h3⟩ := hv
  unfold quadric
  have hk2 : 1 ≤ k ^ 2 := one_le_pow₀ hk
  have : ∀ x y : ℝ, 0 < y → x ^ 2 / (k * y) ^ 2 ≤ x ^ 2 / y ^ 2 := by
    intro x y hy
    refine div_le_div_of_nonneg_left (by positivity) (by positivity) ?_
    rw [mul_pow]
    exact le_mul_of_one_le_left (by positivity) hk2
  exact add_le_add (add_le_add (this _ _ h1) (this _ _ h2)) (this _ _ h3)

/-! ### A concrete case -/

theorem distinct_exact {e : Ellipsoid} (h1 : ¬Close e.a e.b) (h2 : ¬Close e.b e.c) (h3 : ¬Close e.a e.c) :
    e.Exact := by
  intro i j h
  fin_cases i <;> fin_cases j
  · rfl
  · exact absurd h h1
  · exact absurd h h3
  · exact absurd (close_symm.1 h) h1
  · rfl
  · exact absurd h h2
  · exact absurd (close_symm.1 h) h3
  · exact absurd (close_symm.1 h) h2
  · rfl

/-- A rotated triaxial body, with the given size, density and remanence. -/
noncomputable def stone (a b c d m : ℝ) : Ellipsoid :=
  ⟨a, b, c, 30, 45, 10, ![100, -50, -20], some d, none, some ![m, 2 * m, 3 * m]⟩

theorem stone_valid {a b c d m : ℝ} (hc : 0 < c) (hbc : c < b) (hab : b < a) : (stone a b c d m).Valid :=
  ⟨hc.trans (hbc.trans hab), hc.trans hbc, hc⟩

theorem stone_exact {a b c d m : ℝ} (hbc : c < b) (hab : b < a) (h1 : 1e-5 * a ≤ a - b)
    (h2 : 1e-5 * b ≤ b - c) : (stone a b c d m).Exact :=
  distinct_exact (not_close hab h1) (not_close hbc h2) (not_close (hbc.trans hab) (by
    change 1e-5 * a ≤ a - c
    linarith))

/-- the hypotheses of `C141_confocal_gravity` and `C141_confocal_magnetic`: semiaxes 10, 5, 2 and
14, 11, 10, and a point outside of both -/
example : ∃ e e' : Ellipsoid, (e.Valid ∧ e.Exact) ∧ (e'.Valid ∧ e'.Exact) ∧ Confocal e e' ∧ e.a ≠ e'.a ∧
    (∃ d d', e.density = some d ∧ e'.density = some d' ∧ e.volume * d = e'.volume * d' ∧ d ≠ 0) ∧
    e.susceptibility = none ∧ e'.susceptibility = none ∧
    e.volume • e.remanence = e'.volume • e'.remanence ∧ e.remanence ≠ 0 := by
  refine ⟨stone 10 5 2 1540 77, stone 14 11 10 100 5,
    ⟨stone_valid (by norm_num) (by norm_num) (by norm_num), stone_exact (by norm_num) (by norm_num)
      (by norm_num) (by norm_num)⟩,
    ⟨stone_valid (by norm_num) (by norm_num) (by norm_num), stone_exact (by norm_num) (by norm_num)
      (by norm_num) (by norm_num)⟩,
    ⟨⟨rfl, rfl, rfl, rfl⟩, 96, by norm_num [stone], by norm_num [stone], by norm_num [stone]⟩,
    by norm_num [stone], ⟨1540, 100, rfl, rfl, ?_, by norm_num⟩, rfl, rfl, ?_, ?_⟩
  · simp only [Ellipsoid.volume, stone]; ring
  · simp only [Ellipsoid.volume, stone, Ellipsoid.remanence, Option.getD_some]
    ext i
    fin_cases i <;> simp <;> ring
  · intro h
    have := congrFun h 0
    simp [stone, Ellipsoid.remanence] at this

/-- the hypotheses of `C141_shell_gravity` and `C141_shell_magnetic`, with the center in the cavity -/
example : ∃ e e' : Ellipsoid, (e.Valid ∧ e.Exact) ∧ (e'.Valid ∧ e'.Exact) ∧ Similar e e' ∧ e.a ≠ e'.a ∧
    (∃ d, d ≠ 0 ∧ e.density = some (-d) ∧ e'.density = some d) ∧ e.susceptibility = none ∧
    e'.susceptibility = none ∧ e.remanence = -e'.remanence ∧ e'.remanence ≠ 0 ∧
    ∀ p, e.Inside p → e'.Inside p := by
  have hv : (stone 10 5 2 (-2670) (-5)).Valid := stone_valid (by norm_num) (by norm_num) (by norm_num)
  have hs : Concentric (stone 10 5 2 (-2670) (-5)) (stone 20 10 4 2670 5) := ⟨rfl, rfl, rfl, rfl⟩
  have ha : (stone 20 10 4 2670 5).a = 2 * (stone 10 5 2 (-2670) (-5)).a ∧
      (stone 20 10 4 2670 5).b = 2 * (stone 10 5 2 (-2670) (-5)).b ∧
      (stone 20 10 4 2670 5).c = 2 * (stone 10 5 2 (-2670) (-5)).c := by norm_num [stone]
  refine ⟨stone 10 5 2 (-2670) (-5), stone 20 10 4 2670 5,
    ⟨hv, stone_exact (by norm_num) (by norm_num) (by norm_num) (by norm_num)⟩,
    ⟨stone_valid (by norm_num) (by norm_num) (by norm_num), stone_exact (by norm_num) (by norm_num)
      (by norm_num) (by norm_num)⟩,
    ⟨hs, 2, by norm_num, ha⟩, by norm_num [stone], ⟨2670, by norm_num, rfl, rfl⟩, rfl, rfl, ?_, ?_,
    fun p hp => similar_inside hs hv (by norm_num) ha hp⟩
  · simp only [stone, Ellipsoid.remanence, Option.getD_some]
    ext i
    fin_cases i <;> simp
  · intro h
    have := congrFun h 0
    simp [stone, Ellipsoid.remanence] at this

end Verif.Ellipsoids
