import Verif.Ellipsoids.PropsB

/-! Property C68 and C02 for the magnetic field of ellipsoids. -/

namespace Verif.Ellipsoids
open Filter Topology Verif.Forward Verif.Distance

/-! ### C68: magnetization -/

/-- `H0` of an inducing field in nT -/
noncomputable def inducingH (mu0 : ℝ) (B0 : V3) : V3 := (1e-9 / mu0) • B0

/-- C68: `ellipsoid_magnetic` never fails for valid bodies with physical susceptibilities, and
warns once for each body with neither susceptibility nor remanence. -/
theorem C68_total (mu0 : ℝ) (shape : List ℕ) (pts : List P3) (hshape : pts.length = shape.prod)
    (bodies : Bodies) (h : ∀ e ∈ bodies.toList, e.Valid ∧ e.Passive) (B0 : V3) :
    ∃ field : V3 → V3, ellipsoidMagnetic mu0 (arrays shape pts) bodies B0 =
      .ok (magneticResult shape pts field,
        bodies.toList.countP fun e => e.susceptibility.isNone && e.remanent_mag.isNone) := by
  obtain ⟨field, hf⟩ := magneticFields_exist mu0 (inducingH mu0 B0)
  exact ⟨_, ellipsoidMagnetic_eq mu0 shape pts hshape bodies B0 field
    (fun e he hne => (hf e (h e he).1 (h e he).2).1 hne _)
    (fun e he hpl => (hf e (h e he).1 (h e he).2).2.1 hpl)⟩

/-- C68: what the code computes in general (bodies whose semiaxes are not almost equal without being
equal): the sum of the fields of the bodies with magnetizations `M` that solve
`M + N χ M = M_r + χ H0`. -/
theorem C68_general (mu0 : ℝ) (shape : List ℕ) (pts : List P3) (hshape : pts.length = shape.prod)
    (bodies : Bodies) (h : ∀ e ∈ bodies.toList, e.Valid ∧ e.Passive ∧ e.Exact) (B0 : V3) :
    ∃ M : Ellipsoid → V3, (∀ e ∈ bodies.toList,
        M e + (e.toSpace (demagInside e.axes)).mulVec ((e.toSpace e.chi).mulVec (M e)) =
          e.remanence + (e.toSpace e.chi).mulVec (inducingH mu0 B0)) ∧
      ellipsoidMagnetic mu0 (arrays shape pts) bodies B0 =
        .ok (magneticResult shape pts
            (fun p => (bodies.toList.map fun e => e.magneticField mu0 (M e) p).sum),
          bodies.toList.countP fun e => e.susceptibility.isNone && e.remanent_mag.isNone) := by
  classical
  obtain ⟨field, hf⟩ := magneticFields_exist mu0 (inducingH mu0 B0)
  have key : ∀ e : Ellipsoid, ∃ M, e ∈ bodies.toList →
      SolvedByCode (e.toSpace e.chi) (e.toSpace (demagInside e.axes)) (inducingH mu0 B0)
        e.remanence M ∧ field e = e.magneticField mu0 M := by
    intro e
    by_cases he : e ∈ bodies.toList
    · obtain ⟨M, h1, h2⟩ := (hf e (h e he).1 (h e he).2.1).2.2 (h e he).2.2
      exact ⟨M, fun _ => ⟨h1, h2⟩⟩
    · exact ⟨0, fun h => absurd h he⟩
  choose M hM using key
  refine ⟨M, fun e he => ?_, ?_⟩
  · have := (hM e he).1
    unfold SolvedByCode at this
    rw [Matrix.add_mulVec, Matrix.one_mulVec, ← Matrix.mulVec_mulVec] at this
    exact this
  · rw [ellipsoidMagnetic_eq mu0 shape pts hshape bodies B0 field
      (fun e he hne => (hf e (h e he).1 (h e he).2.1).1 hne _)
      (fun e he hpl => (hf e (h e he).1 (h e he).2.1).2.1 hpl)]
    have : ∀ p, (bodies.toList.map fun e => field e p).sum =
        (bodies.toList.map fun e => e.magneticField mu0 (M e) p).sum := fun p =>
      congrArg List.sum (List.map_congr_left fun e he => by rw [(hM e he).2])
    simp only [this]

/-- The susceptibility tensor commutes with the demagnetization tensor: isotropic susceptibilities,
tensors with their principal axes along the semiaxes, and every tensor in a sphere. -/
def Ellipsoid.Aligned (e : Ellipsoid) : Prop := Commute e.chi (demagInside e.axes)

theorem toSpace_commute {e : Ellipsoid} (h : e.Aligned) :
    Commute (e.toSpace e.chi) (e.toSpace (demagInside e.axes)) := by
  have hR := body_proper e
  have key : ∀ A B : M3, e.toSpace A * e.toSpace B = e.toSpace (A * B) := by
    intro A B
    unfold Ellipsoid.toSpace
    rw [show e.rotationMatrix * A * e.rotationMatrix.transpose *
      (e.rotationMatrix * B * e.rotationMatrix.transpose) = e.rotationMatrix * (A *
      ((e.rotationMatrix.transpose * e.rotationMatrix) * B)) * e.rotationMatrix.transpose by
      simp only [Matrix.mul_assoc], hR.2.1, Matrix.one_mul]
  unfold Commute SemiconjBy
  rw [key, key, h.eq]

/-- C68: the magnetization is self-consistent, `M = χ (H0 - N M) + M_r`, and the result is the sum of
the fields of the bodies with these magnetizations, when the susceptibility of each body commutes with
its demagnetization tensor (missing: the other tensors, see `C68_not_full`). -/
theorem C68_value_partial (mu0 : ℝ) (shape : List ℕ) (pts : List P3)
    (hshape : pts.length = shape.prod) (bodies : Bodies)
    (h : ∀ e ∈ bodies.toList, e.Valid ∧ e.Passive ∧ e.Exact ∧ e.Aligned) (B0 : V3) :
    ∃ M : Ellipsoid → V3, (∀ e ∈ bodies.toList,
        SelfConsistent (e.toSpace e.chi) (e.toSpace (demagInside e.axes)) (inducingH mu0 B0)
          e.remanence (M e)) ∧
      ellipsoidMagnetic mu0 (arrays shape pts) bodies B0 =
        .ok (magneticResult shape pts
            (fun p => (bodies.toList.map fun e => e.magneticField mu0 (M e) p).sum),
          bodies.toList.countP fun e => e.susceptibility.isNone && e.remanent_mag.isNone) := by
  obtain ⟨M, h1, h2⟩ := C68_general mu0 shape pts hshape bodies
    (fun e he => ⟨(h e he).1, (h e he).2.1, (h e he).2.2.1⟩) B0
  refine ⟨M, fun e he => ?_, h2⟩
  rw [← selfConsistent_of_commute (toSpace_commute (h e he).2.2.2)]
  unfold SolvedByCode
  rw [Matrix.add_mulVec, Matrix.one_mulVec, ← Matrix.mulVec_mulVec]
  exact h1 e he

/-- C68: isotropic susceptibilities, and no susceptibility, are aligned. -/
theorem C68_isotropic (e : Ellipsoid) (h : ∀ t, e.susceptibility ≠ some (.tensor t)) : e.Aligned := by
  unfold Ellipsoid.Aligned Ellipsoid.chi
  rcases hs : e.susceptibility with _ | (x | t)
  · exact Commute.zero_left _
  · exact (Commute.one_left _).smul_left x
  · exact absurd hs (h t)

/-- C68: diagonal tensors are aligned. -/
theorem C68_diagonal (e : Ellipsoid) (d : V3)
    (h : e.susceptibility = some (.tensor (Matrix.diagonal d))) : e.Aligned := by
  unfold Ellipsoid.Aligned Ellipsoid.chi demagInside
  rw [h]
  exact Matrix.commute_diagonal _ _

/-- C68: in a sphere every tensor is aligned. -/
theorem C68_sphere (e : Ellipsoid) (hv : e.Valid) (hab : e.a = e.b) (hbc : e.b = e.c) : e.Aligned := by
  have hax : e.axes = ![e.a, e.a, e.a] := by
    unfold Ellipsoid.axes; rw [← hbc, ← hab]
  obtain ⟨n, hn, _, _, hres⟩ := demagInternal_total hv.1 le_rfl (le_refl e.a)
  have hone : demagInside e.axes = (1 / 3 : ℝ) • (1 : M3) := by
    have h1 := C67_sphere hv.1
    rw [hn] at h1
    have h2 := hres ⟨fun _ => rfl, fun _ => rfl⟩
    rw [hax, ← h2]
    injection h1
  unfold Ellipsoid.Aligned
  rw [hone]
  exact (Commute.one_right _).smul_right _

/-- C68: the magnetization that is self-consistent is unique. -/
theorem C68_unique (e : Ellipsoid) (hv : e.Valid) (hp : e.Passive) (hE : e.Exact) (ha : e.Aligned)
    {H0 M M' : V3}
    (h : SelfConsistent (e.toSpace e.chi) (e.toSpace (demagInside e.axes)) H0 e.remanence M)
    (h' : SelfConsistent (e.toSpace e.chi) (e.toSpace (demagInside e.axes)) H0 e.remanence M') :
    M = M' := by
  obtain ⟨n, T, _, hEx, P, ν, hP, hν, hsum, hn⟩ := singleMagnetic_total hv
  have hdet : (1 + n * e.chi).det ≠ 0 := by rw [hn]; exact passive_det hp hP hν hsum
  rw [(hEx hE).1] at hdet
  have hc := toSpace_commute ha
  exact solved_unique hdet ((selfConsistent_of_commute hc).2 h) ((selfConsistent_of_commute hc).2 h')

/-- A prolate body with an anisotropic susceptibility that is not along its axes. -/
noncomputable def skewBody : Ellipsoid :=
  { a := 5, b := 4, c := 4, yaw := 0, pitch := 0, roll := 0, center := 0, density := none,
    susceptibility := some (.tensor !![2, 1, 0; 1, 2, 0; 0, 0, 1]),
    remanent_mag := some ![1, 0, 0] }

theorem skewBody_exact : skewBody.Exact := by
  have h1 : ¬Close 5 4 := by
    unfold Close; rw [max_eq_left (by norm_num), abs_of_pos (by norm_num)]; norm_num
  have h2 : ¬Close 4 5 := by
    unfold Close; rw [max_eq_right (by norm_num), abs_of_neg (by norm_num)]; norm_num
  intro i j
  fin_cases i <;> fin_cases j <;> simp [Ellipsoid.axes, skewBody, h1, h2]

theorem skewBody_passive : skewBody.Passive := by
  unfold Ellipsoid.Passive skewBody
  intro v
  simp only [dotProduct, Matrix.mulVec, Fin.sum_univ_three, Matrix.of_apply, Matrix.cons_val_zero,
    Matrix.cons_val_one, Matrix.cons_val]
  nlinarith [sq_nonneg (v 0 + v 1), sq_nonneg (v 0), sq_nonneg (v 1), sq_nonneg (v 2)]

/-- Its demagnetization tensor. -/
theorem skewBody_demag : ∃ x y : ℝ, demagInside skewBody.axes = Matrix.diagonal ![x, y, y] ∧
    x ≠ y ∧ x ≠ 1 := by
  have h := demagProlateInternal_spec (a := 5) (b := 4) (by norm_num) (by norm_num)
  have hsq : √((5 / 4 : ℝ) ^ 2 - 1) = 3 / 4 := by
    rw [show ((5 / 4 : ℝ) ^ 2 - 1) = (3 / 4) ^ 2 by norm_num, Real.sqrt_sq (by norm_num)]
  have hval : demagProlateInternal 5 4 = .ok ![16 / 9 * (5 / 3 * Real.log 2 - 1),
      1 / 2 * (1 - 16 / 9 * (5 / 3 * Real.log 2 - 1)),
      1 / 2 * (1 - 16 / 9 * (5 / 3 * Real.log 2 - 1))] := by
    unfold demagProlateInternal checkGreater
    rw [if_neg (by norm_num), Py.bind_ok, pdiv_ok (by norm_num), Py.bind_ok, psqrt_ok (by norm_num),
      Py.bind_ok, hsq, pdiv_ok (by norm_num), Py.bind_ok, pdiv_ok (by norm_num), Py.bind_ok,
      plog_ok (by norm_num), Py.bind_ok, Py.pure_eq]
    norm_num
  rw [hval] at h
  injection h with h
  refine ⟨16 / 9 * (5 / 3 * Real.log 2 - 1), 1 / 2 * (1 - 16 / 9 * (5 / 3 * Real.log 2 - 1)), ?_, ?_, ?_⟩
  · rw [demagInside_eq, h]
    congr 1
  · have := Real.log_two_lt_d9
    intro h; linarith
  · have := Real.log_two_lt_d9
    intro h; linarith

/-- C68: the magnetization is not self-consistent in general. For a prolate body with an anisotropic
susceptibility, the result is not the field of the self-consistent magnetization: the code solves
with `I + N χ` in the place of `I + χ N`. -/
theorem C68_not_full (mu0 : ℝ) (hmu : mu0 ≠ 0) : skewBody.Valid ∧ skewBody.Exact ∧ skewBody.Passive ∧
    ∀ M, SelfConsistent (skewBody.toSpace skewBody.chi)
        (skewBody.toSpace (demagInside skewBody.axes)) 0 skewBody.remanence M →
      ellipsoidMagnetic mu0 (arrays [1] [⟨0, 0, 0⟩]) (.one skewBody) 0 ≠
        .ok (magneticResult [1] [⟨0, 0, 0⟩] (skewBody.magneticField mu0 M), 0) := by
  have hv : skewBody.Valid := by
    unfold Ellipsoid.Valid skewBody; norm_num
  refine ⟨hv, skewBody_exact, skewBody_passive, fun M hM hcon => ?_⟩
  obtain ⟨M', h1, h2⟩ := C68_general mu0 [1] [⟨0, 0, 0⟩] rfl (.one skewBody)
    (by simpa [Bodies.toList] using ⟨hv, skewBody_passive, skewBody_exact⟩) 0
  have h1 := h1 skewBody (by simp [Bodies.toList])
  set K' := M' skewBody with hK'
  have hR : skewBody.rotationMatrix = 1 := C71_identity
  obtain ⟨x, y, hN, hxy, hx1⟩ := skewBody_demag
  have hchi : skewBody.chi = !![2, 1, 0; 1, 2, 0; 0, 0, 1] := rfl
  have hrem : skewBody.remanence = ![1, 0, 0] := rfl
  have hts : ∀ A : M3, skewBody.toSpace A = A := by
    intro A; unfold Ellipsoid.toSpace; rw [hR]; simp
  have hin : skewBody.Inside 0 := by
    refine ⟨0, ?_, ?_⟩
    · simp [skewBody]
    · unfold quadric; simp
  rw [hts, hts] at hM h1
  have hH : inducingH mu0 0 = 0 := by unfold inducingH; simp
  rw [hH, Matrix.mulVec_zero, add_zero, hrem, hchi, hN] at h1
  unfold SelfConsistent at hM
  rw [hrem, hchi, hN] at hM
  rw [hcon] at h2
  simp only [Except.ok.injEq, Prod.mk.injEq, magneticResult, Bodies.toList, List.map_cons,
    List.map_nil, List.sum_cons, List.sum_nil, add_zero, NdArray.mk.injEq, List.cons.injEq,
    and_true, true_and] at h2
  have hvec : vec ⟨0, 0, 0⟩ = 0 := by
    ext i; fin_cases i <;> rfl
  have hfield : ∀ K : V3, skewBody.magneticField mu0 K 0 =
      mu0 • (K - (Matrix.diagonal ![x, y, y]).mulVec K) := by
    intro K
    unfold Ellipsoid.magneticField
    rw [if_pos hin, hts, hN]
  rw [hvec, hfield, hfield] at h2
  simp only [Pi.smul_apply, Pi.sub_apply, Matrix.mulVec_diagonal, smul_eq_mul, Matrix.cons_val_zero,
    Matrix.cons_val_one, Matrix.cons_val] at h2
  have hy1 : y ≠ 1 := by
    intro hy
    have htr := demagInside_trace (valid_positive hv)
    have hpos := integralsOf_pos (valid_positive hv) le_rfl 0
    have hx0 : 0 < x := by
      have := congrFun (congrFun hN 0) 0
      rw [demagInside_eq] at this
      simp only [Matrix.diagonal_apply_eq, Matrix.cons_val_zero] at this
      rw [← this]
      have : 0 < prod3 skewBody.axes := by
        change (0 : ℝ) < 5 * 4 * 4; norm_num
      positivity
    rw [hN, Matrix.trace_diagonal, Fin.sum_univ_three] at htr
    simp only [Matrix.cons_val_zero, Matrix.cons_val_one, Matrix.cons_val] at htr
    linarith
  have hcancel : ∀ {u v z : ℝ}, z ≠ 1 →
      10 ^ 9 * (mu0 * (u - z * u)) = 10 ^ 9 * (mu0 * (v - z * v)) → u = v := by
    intro u v z hz h
    have h3 : mu0 * (u - z * u) = mu0 * (v - z * v) := mul_left_cancel₀ (by norm_num) h
    have h4 : u - z * u = v - z * v := mul_left_cancel₀ hmu h3
    have h5 : (1 - z) * u = (1 - z) * v := by linarith
    exact mul_left_cancel₀ (sub_ne_zero.2 hz.symm) h5
  have e0 : M 0 = K' 0 := hcancel hx1 h2.1.1
  have e1 : M 1 = K' 1 := hcancel hy1 h2.1.2.1
  have hd : ∀ K : V3, (Matrix.diagonal ![x, y, y]).mulVec K = ![x * K 0, y * K 1, y * K 2] := by
    intro K; ext i; rw [Matrix.mulVec_diagonal]; fin_cases i <;> rfl
  rw [hd] at h1 hM
  have m0 := congrFun hM 0
  have m1 := congrFun hM 1
  have k0 := congrFun h1 0
  have k1 := congrFun h1 1
  simp only [Pi.add_apply, Pi.sub_apply, Pi.zero_apply, Matrix.mulVec, dotProduct,
    Fin.sum_univ_three, Matrix.of_apply, Matrix.cons_val_zero, Matrix.cons_val_one,
    Matrix.cons_val] at m0 m1 k0 k1
  norm_num at m0 m1 k0 k1
  rw [e0, e1] at m0 m1
  have hxy' : x - y ≠ 0 := sub_ne_zero.2 hxy
  have z1 : (x - y) * K' 1 = 0 := by linarith
  have z0 : (x - y) * K' 0 = 0 := by linarith
  have r1 : K' 1 = 0 := (mul_eq_zero.1 z1).resolve_left hxy'
  have r0 : K' 0 = 0 := (mul_eq_zero.1 z0).resolve_left hxy'
  rw [r0, r1] at k0
  norm_num at k0

/-! ### C02: superposition -/

/-- C02: the magnetic field of the bodies of two lists is the sum of the fields of the lists. -/
theorem C02_ellipsoid_magnetic (mu0 : ℝ) (shape : List ℕ) (pts : List P3)
    (hshape : pts.length = shape.prod) (es es' : List Ellipsoid)
    (h : ∀ e ∈ es ++ es', e.Valid ∧ e.Passive) (B0 : V3) : ∃ r r' w w',
      ellipsoidMagnetic mu0 (arrays shape pts) (.many es) B0 = .ok (r, w) ∧
      ellipsoidMagnetic mu0 (arrays shape pts) (.many es') B0 = .ok (r', w') ∧
      ellipsoidMagnetic mu0 (arrays shape pts) (.many (es ++ es')) B0 =
        .ok (addResults r r', w + w') := by
  obtain ⟨field, hf⟩ := magneticFields_exist mu0 (inducingH mu0 B0)
  have hall : ∀ l : List Ellipsoid, (∀ e ∈ l, e.Valid ∧ e.Passive) → _ := fun l hl =>
    ellipsoidMagnetic_eq mu0 shape pts hshape (.many l) B0 field
      (fun e he hne => (hf e (hl e he).1 (hl e he).2).1 hne _)
      (fun e he hpl => (hf e (hl e he).1 (hl e he).2).2.1 hpl)
  refine ⟨_, _, _, _, hall es fun e he => h e (by simp [he]), hall es' fun e he => h e (by simp [he]), ?_⟩
  rw [hall (es ++ es') h]
  simp only [Bodies.toList, List.map_append, List.sum_append, List.countP_append]
  refine congrArg Except.ok (Prod.ext ?_ rfl)
  simp only [magneticResult, addResults, Pi.add_apply]
  simp only [List.zipWith_map_left, List.zipWith_map_right, List.zipWith_self, ← mul_add]

/-- C02: the order of the bodies does not matter. -/
theorem C02_ellipsoid_magnetic_order (mu0 : ℝ) (shape : List ℕ) (pts : List P3)
    (hshape : pts.length = shape.prod) {es es' : List Ellipsoid} (hperm : es.Perm es')
    (h : ∀ e ∈ es, e.Valid ∧ e.Passive) (B0 : V3) :
    ellipsoidMagnetic mu0 (arrays shape pts) (.many es) B0 =
      ellipsoidMagnetic mu0 (arrays shape pts) (.many es') B0 := by
  obtain ⟨field, hf⟩ := magneticFields_exist mu0 (inducingH mu0 B0)
  have hall : ∀ l : List Ellipsoid, (∀ e ∈ l, e.Valid ∧ e.Passive) → _ := fun l hl =>
    ellipsoidMagnetic_eq mu0 shape pts hshape (.many l) B0 field
      (fun e he hne => (hf e (hl e he).1 (hl e he).2).1 hne _)
      (fun e he hpl => (hf e (hl e he).1 (hl e he).2).2.1 hpl)
  rw [hall es h, hall es' fun e he => h e (hperm.mem_iff.2 he)]
  have h1 : ∀ p, (es.map fun e => field e p).sum = (es'.map fun e => field e p).sum := fun p =>
    (hperm.map _).sum_eq
  simp only [Bodies.toList, h1, hperm.countP_eq]

end Verif.Ellipsoids
