import Verif.Ellipsoids.LemmasH

/-! The magnetization of a body and the loop of the magnetic field. -/

namespace Verif.Ellipsoids
open Verif.Forward Verif.Distance

/-- What the code solves, in the frame of easting, northing and upward. -/
def SolvedByCode (chi N : M3) (H0 Mr M : V3) : Prop :=
  (1 + N * chi).mulVec M = Mr + chi.mulVec H0

theorem selfConsistent_iff (chi N : M3) (H0 Mr M : V3) :
    SelfConsistent chi N H0 Mr M ↔ (1 + chi * N).mulVec M = Mr + chi.mulVec H0 := by
  unfold SelfConsistent
  rw [Matrix.add_mulVec, Matrix.one_mulVec, Matrix.mulVec_sub, Matrix.mulVec_mulVec]
  constructor
  · intro h
    rw [← sub_eq_iff_eq_add] at h
    have h' : M + (chi * N).mulVec M = Mr + chi.mulVec H0 := by
      rw [sub_eq_iff_eq_add] at h
      nth_rewrite 1 [h]
      abel
    exact h'
  · intro h
    have : M = Mr + chi.mulVec H0 - (chi * N).mulVec M := by rw [← h]; abel
    conv_lhs => rw [this]
    abel

theorem selfConsistent_of_commute {chi N : M3} (h : Commute chi N) {H0 Mr M : V3} :
    SolvedByCode chi N H0 Mr M ↔ SelfConsistent chi N H0 Mr M := by
  rw [selfConsistent_iff, SolvedByCode, h.eq]

/-! ### Rotations -/

/-- Rotation from space to the sorted frame. -/
noncomputable def toSorted (e : Ellipsoid) (P : M3) : M3 := P.transpose * e.rotationMatrix.transpose

theorem toSorted_proper {e : Ellipsoid} {P : M3} (hP : ProperRotation P) :
    toSorted e P * (toSorted e P).transpose = 1 ∧ (toSorted e P).transpose * toSorted e P = 1 := by
  have hR := body_proper e
  unfold toSorted
  constructor
  · rw [Matrix.transpose_mul, Matrix.transpose_transpose, Matrix.transpose_transpose,
      show P.transpose * e.rotationMatrix.transpose * (e.rotationMatrix * P) =
        P.transpose * (e.rotationMatrix.transpose * e.rotationMatrix) * P by
        simp only [Matrix.mul_assoc], hR.2.1, Matrix.mul_one, hP.2.1]
  · rw [Matrix.transpose_mul, Matrix.transpose_transpose, Matrix.transpose_transpose,
      show e.rotationMatrix * P * (P.transpose * e.rotationMatrix.transpose) =
        e.rotationMatrix * (P * P.transpose) * e.rotationMatrix.transpose by
        simp only [Matrix.mul_assoc], hP.1, Matrix.mul_one, hR.1]

theorem toSorted_point (e : Ellipsoid) (P : M3) (p : V3) :
    (toSorted e P).mulVec (p - e.center) = P.transpose.mulVec (e.local p) := by
  unfold toSorted Ellipsoid.local
  rw [Matrix.mulVec_mulVec]

/-- A tensor of the sorted frame, in space. -/
theorem toSorted_tensor (e : Ellipsoid) (P A B : M3) (h : P * A * P.transpose = B) :
    (toSorted e P).transpose * A * toSorted e P = e.toSpace B := by
  unfold toSorted Ellipsoid.toSpace
  rw [← h, Matrix.transpose_mul, Matrix.transpose_transpose, Matrix.transpose_transpose]
  simp only [Matrix.mul_assoc]

theorem cast_chi (e : Ellipsoid) : castSusceptibility e.susceptibility = e.chi := by
  unfold castSusceptibility Ellipsoid.chi
  rcases e.susceptibility with _ | (_ | _) <;> rfl

theorem cast_remanence (e : Ellipsoid) :
    castRemanentMagnetization e.remanent_mag = e.remanence := by
  unfold castRemanentMagnetization Ellipsoid.remanence
  cases e.remanent_mag <;> rfl

/-- The magnetization of the code, seen from space. -/
theorem magnetization_spec {e : Ellipsoid} {P : M3} {σ : Fin 3 → Fin 3} {a b c : ℝ}
    (F : SortedFrame e P σ a b c) {n : V3}
    (hn : getDemagnetizationTensorInternal a b c = .ok (Matrix.diagonal n)) (H0 : V3)
    (hdet : (1 + (P * Matrix.diagonal n * P.transpose) * e.chi).det ≠ 0) :
    ∃ M, magnetizationOne e H0 = .ok (toSorted e P, Matrix.diagonal n, (toSorted e P).mulVec M) ∧
      SolvedByCode (e.toSpace e.chi) (e.toSpace (P * Matrix.diagonal n * P.transpose)) H0
        e.remanence M := by
  set Q := toSorted e P with hQ
  obtain ⟨q1, q2⟩ := toSorted_proper (e := e) F.proper
  rw [← hQ] at q1 q2
  set chiS := P.transpose * e.chi * P with hchiS
  have hdetS : (1 + Matrix.diagonal n * chiS).det ≠ 0 := by
    have : P.transpose * (1 + (P * Matrix.diagonal n * P.transpose) * e.chi) * P =
        1 + Matrix.diagonal n * chiS := by
      rw [Matrix.mul_add, Matrix.add_mul, Matrix.mul_one, F.proper.2.1]
      congr 1
      rw [show P.transpose * (P * Matrix.diagonal n * P.transpose * e.chi) * P =
        (P.transpose * P) * Matrix.diagonal n * (P.transpose * e.chi * P) by
        simp only [Matrix.mul_assoc], F.proper.2.1, Matrix.one_mul]
    rw [← this, Matrix.det_mul, Matrix.det_mul, Matrix.det_transpose, F.proper.2.2]
    simpa using hdet
  set A := 1 + Matrix.diagonal n * chiS with hA
  set rhs := Q.mulVec e.remanence + chiS.mulVec (Q.mulVec H0) with hrhs
  have hsol : A.mulVec (A⁻¹.mulVec rhs) = rhs := by
    rw [Matrix.mulVec_mulVec, Matrix.mul_nonsing_inv A (isUnit_iff_ne_zero.2 hdetS), Matrix.one_mulVec]
  refine ⟨Q.transpose.mulVec (A⁻¹.mulVec rhs), ?_, ?_⟩
  · unfold magnetizationOne getMagnetisation solve
    simp only [F.matrix, F.sorted, hn, Py.bind_ok, cast_chi, cast_remanence, sorted_ok F.hab F.hbc]
    have hQM : Q.mulVec (Q.transpose.mulVec (A⁻¹.mulVec rhs)) = A⁻¹.mulVec rhs := by
      rw [Matrix.mulVec_mulVec, q1, Matrix.one_mulVec]
    rw [hQM]
    change (do
      let magnetization ← (if A.det = 0 then Except.error PyErr.LinAlgError else .ok (A⁻¹.mulVec rhs))
      pure (Q, Matrix.diagonal n, magnetization) : Py (M3 × M3 × V3)) = _
    rw [if_neg hdetS]
    rfl
  · have hchi : Q.transpose * chiS * Q = e.toSpace e.chi := by
      refine toSorted_tensor e P chiS e.chi ?_
      rw [hchiS, show P * (P.transpose * e.chi * P) * P.transpose =
        (P * P.transpose) * e.chi * (P * P.transpose) by simp only [Matrix.mul_assoc], F.proper.1,
        Matrix.one_mul, Matrix.mul_one]
    have hN : Q.transpose * Matrix.diagonal n * Q =
        e.toSpace (P * Matrix.diagonal n * P.transpose) := toSorted_tensor e P _ _ rfl
    unfold SolvedByCode
    rw [← hchi, ← hN]
    have e1 : 1 + Q.transpose * Matrix.diagonal n * Q * (Q.transpose * chiS * Q) =
        Q.transpose * A * Q := by
      rw [hA, Matrix.mul_add, Matrix.add_mul, Matrix.mul_one, q2]
      congr 1
      rw [show Q.transpose * Matrix.diagonal n * Q * (Q.transpose * chiS * Q) =
        Q.transpose * (Matrix.diagonal n * ((Q * Q.transpose) * chiS)) * Q by
        simp only [Matrix.mul_assoc], q1, Matrix.one_mul]
    rw [e1, Matrix.mulVec_mulVec, show Q.transpose * A * Q * Q.transpose =
      Q.transpose * A * (Q * Q.transpose) by simp only [Matrix.mul_assoc], q1, Matrix.mul_one,
      ← Matrix.mulVec_mulVec, hsol, hrhs, Matrix.mulVec_add, Matrix.mulVec_mulVec, q2,
      Matrix.one_mulVec]
    simp only [Matrix.mulVec_mulVec, Matrix.mul_assoc]

/-- The field of the code at a point, seen from space. -/
theorem magneticAt_spec {e : Ellipsoid} {P : M3} {σ : Fin 3 → Fin 3} {a b c : ℝ}
    (F : SortedFrame e P σ a b c) (n : V3) (mu0 : ℝ) (M p : V3) :
    (e.Inside p → magneticAt mu0 e (toSorted e P, Matrix.diagonal n, (toSorted e P).mulVec M) p =
      .ok (mu0 • (M - (e.toSpace (P * Matrix.diagonal n * P.transpose)).mulVec M))) ∧
    (¬e.Inside p → ∃ N : M3, N.transpose = N ∧
      getDemagnetizationTensorExternal (P.transpose.mulVec (e.local p)) a b c = .ok N ∧
      magneticAt mu0 e (toSorted e P, Matrix.diagonal n, (toSorted e P).mulVec M) p =
        .ok (-(mu0 • (e.toSpace (P * N * P.transpose)).mulVec M)) ∧
      (e.Exact → P * N * P.transpose = demagOutside e.axes (e.local p))) := by
  obtain ⟨q1, q2⟩ := toSorted_proper (e := e) F.proper
  have hint := F.internal (e.local p)
  rw [inside_iff, ← hint]
  unfold magneticAt isInternal
  simp only [F.sorted, toSorted_point]
  change (_ → (if decide (quadric a b c (P.transpose.mulVec (e.local p)) < 1) = true then _ else _) = _) ∧
    (_ → ∃ N : M3, _ ∧ _ ∧
      (if decide (quadric a b c (P.transpose.mulVec (e.local p)) < 1) = true then _ else _) = _ ∧ _)
  constructor
  · intro h
    rw [if_pos (decide_eq_true h), ← toSorted_tensor e P _ _ rfl]
    refine congrArg Except.ok ?_
    rw [Matrix.mulVec_smul, Matrix.mulVec_add, Matrix.mulVec_mulVec, Matrix.mulVec_mulVec,
      Matrix.mulVec_mulVec, q2, Matrix.one_mulVec, Matrix.mul_neg, Matrix.neg_mul, Matrix.neg_mulVec]
    congr 1
    rw [Matrix.mul_assoc]
    abel
  · intro h
    obtain ⟨N, hN, hsymm, hres⟩ := demagExternal_total F.hc F.hbc F.hab (not_lt.1 h)
    refine ⟨N, hsymm, hN, ?_, fun hE => ?_⟩
    · rw [if_neg (by simpa using h), hN, ← toSorted_tensor e P _ _ rfl]
      refine congrArg Except.ok ?_
      rw [Matrix.mulVec_smul, Matrix.mulVec_mulVec, Matrix.mulVec_mulVec, Matrix.mul_neg,
        Matrix.neg_mul, Matrix.neg_mulVec, smul_neg, Matrix.mul_assoc]
    · rw [hres (F.resolved hE), F.outside]

/-- The body with another remanent magnetization. -/
def Ellipsoid.withRemanence (e : Ellipsoid) (m : Option V3) : Ellipsoid := { e with remanent_mag := m }

theorem withRemanence_self (e : Ellipsoid) : e.withRemanence e.remanent_mag = e := rfl

/-- Field of a body, when the internal system can be solved: a linear function of the magnetization
that depends on the geometry only. -/
theorem singleMagnetic_total {e : Ellipsoid} (hv : e.Valid) : ∃ (n : M3) (T : V3 → M3),
    (∀ H0 m, (1 + n * e.chi).det ≠ 0 →
      ∃ M, SolvedByCode (e.toSpace e.chi) (e.toSpace n) H0 (m.getD 0) M ∧
        ∀ mu0 pts, singleEllipsoidMagnetic mu0 (.ok pts) (e.withRemanence m) H0 =
          .ok (pts.map fun p => mu0 • (T p).mulVec M)) ∧
    (e.Exact → n = demagInside e.axes ∧ ∀ mu0 M p, mu0 • (T p).mulVec M = e.magneticField mu0 M p) ∧
    ∃ (P : M3) (ν : V3), ProperRotation P ∧ (∀ i, 0 < ν i) ∧ ∑ i, ν i = 1 ∧
      n = P * Matrix.diagonal ν * P.transpose := by
  classical
  obtain ⟨P, σ, a, b, c, F⟩ := sortedFrame_exists hv
  obtain ⟨n, hn, hpos, hsum, hres⟩ := demagInternal_total F.hc F.hbc F.hab
  have hn' : e.Exact → P * Matrix.diagonal n * P.transpose = demagInside e.axes := fun hE => by
    rw [hres (F.resolved hE), F.inside]
  have hpt : ∀ p, ∃ T : M3, (∀ mu0 M, magneticAt mu0 e (toSorted e P, Matrix.diagonal n,
      (toSorted e P).mulVec M) p = .ok (mu0 • T.mulVec M)) ∧
      (e.Exact → ∀ mu0 M, mu0 • T.mulVec M = e.magneticField mu0 M p) := by
    intro p
    by_cases hin : e.Inside p
    · refine ⟨1 - e.toSpace (P * Matrix.diagonal n * P.transpose), fun mu0 M => ?_, fun hE mu0 M => ?_⟩
      · rw [Matrix.sub_mulVec, Matrix.one_mulVec]
        exact (magneticAt_spec F n mu0 M p).1 hin
      · unfold Ellipsoid.magneticField
        rw [if_pos hin, hn' hE, Matrix.sub_mulVec, Matrix.one_mulVec]
    · obtain ⟨N, _, hN, _, hE'⟩ := (magneticAt_spec F n 0 0 p).2 hin
      refine ⟨-e.toSpace (P * N * P.transpose), fun mu0 M => ?_, fun hE mu0 M => ?_⟩
      · obtain ⟨N', _, hN', hmag, _⟩ := (magneticAt_spec F n mu0 M p).2 hin
        have : N' = N := by rw [hN] at hN'; injection hN' with h; exact h.symm
        rw [Matrix.neg_mulVec, smul_neg, hmag, this]
      · unfold Ellipsoid.magneticField
        rw [if_neg hin, hE' hE, Matrix.neg_mulVec, smul_neg]
  choose T hT hTE using hpt
  refine ⟨P * Matrix.diagonal n * P.transpose, T, fun H0 m hdet => ?_,
    fun hE => ⟨hn' hE, fun mu0 M p => hTE p hE mu0 M⟩, P, n, F.proper, hpos, hsum, rfl⟩
  have F' : SortedFrame (e.withRemanence m) P σ a b c :=
    ⟨F.matrix, F.proper, F.bij, F.squares, F.sorted, F.axes, F.hc, F.hbc, F.hab⟩
  obtain ⟨M, hM, hs⟩ := magnetization_spec F' hn H0 hdet
  refine ⟨M, hs, fun mu0 pts => ?_⟩
  unfold singleEllipsoidMagnetic
  rw [Py.bind_ok, hM, Py.bind_ok]
  exact mapM_ok _ (fun p => mu0 • (T p).mulVec M) pts fun p _ => hT p mu0 M

/-- The solution of the code is unique. -/
theorem solved_unique {e : Ellipsoid} {n : M3} (hdet : (1 + n * e.chi).det ≠ 0) {H0 Mr M M' : V3}
    (h : SolvedByCode (e.toSpace e.chi) (e.toSpace n) H0 Mr M)
    (h' : SolvedByCode (e.toSpace e.chi) (e.toSpace n) H0 Mr M') : M = M' := by
  have hR := body_proper e
  have hA : 1 + e.toSpace n * e.toSpace e.chi =
      e.rotationMatrix * (1 + n * e.chi) * e.rotationMatrix.transpose := by
    unfold Ellipsoid.toSpace
    rw [Matrix.mul_add, Matrix.add_mul, Matrix.mul_one, hR.1]
    congr 1
    rw [show e.rotationMatrix * n * e.rotationMatrix.transpose *
      (e.rotationMatrix * e.chi * e.rotationMatrix.transpose) = e.rotationMatrix * (n *
      ((e.rotationMatrix.transpose * e.rotationMatrix) * e.chi)) * e.rotationMatrix.transpose by
      simp only [Matrix.mul_assoc], hR.2.1, Matrix.one_mul]
  have hd : (1 + e.toSpace n * e.toSpace e.chi).det ≠ 0 := by
    rw [hA, Matrix.det_mul, Matrix.det_mul, Matrix.det_transpose, hR.2.2]
    simpa using hdet
  have := h.trans h'.symm
  have h2 := congrArg (fun x => (1 + e.toSpace n * e.toSpace e.chi)⁻¹.mulVec x) this
  simpa only [Matrix.mulVec_mulVec, Matrix.nonsing_inv_mul _ (isUnit_iff_ne_zero.2 hd),
    Matrix.one_mulVec] using h2

/-- The system of a passive body can be solved. -/
theorem passive_det {e : Ellipsoid} (hp : e.Passive) {P : M3} {ν : V3} (hP : ProperRotation P)
    (hν : ∀ i, 0 < ν i) (hsum : ∑ i, ν i = 1) :
    (1 + P * Matrix.diagonal ν * P.transpose * e.chi).det ≠ 0 := by
  have hν1 : ∀ i, ν i < 1 := by
    intro i
    rw [Fin.sum_univ_three] at hsum
    have h0 := hν 0; have h1 := hν 1; have h2 := hν 2
    fin_cases i <;> simp only [Fin.zero_eta, Fin.mk_one, Fin.reduceFinMk] <;> linarith
  unfold Ellipsoid.Passive at hp
  unfold Ellipsoid.chi
  rcases hs : e.susceptibility with _ | (x | t) <;> simp only [hs] at hp ⊢
  · simp
  · have h1 : 1 + P * Matrix.diagonal ν * P.transpose * x • (1 : M3) =
        P * (1 + x • Matrix.diagonal ν) * P.transpose := by
      rw [Matrix.mul_add, Matrix.add_mul, Matrix.mul_one, hP.1, Matrix.mul_smul, Matrix.mul_one,
        Matrix.mul_smul, Matrix.smul_mul]
    have h2 : (1 : M3) + x • Matrix.diagonal ν = Matrix.diagonal fun i => 1 + x * ν i := by
      rw [← Matrix.diagonal_one, ← Matrix.diagonal_smul, Matrix.diagonal_add]
      rfl
    rw [h1, h2, Matrix.det_mul, Matrix.det_mul, Matrix.det_transpose, hP.2.2, Matrix.det_diagonal]
    rw [one_mul, mul_one, Finset.prod_ne_zero_iff]
    intro i _
    have := hν i
    have := hν1 i
    nlinarith
  · intro hdet
    obtain ⟨v, hv0, hv⟩ := Matrix.exists_mulVec_eq_zero_iff.2 hdet
    set y := t.mulVec v with hy
    have e1 : v = -(P * Matrix.diagonal ν * P.transpose).mulVec y := by
      rw [Matrix.add_mulVec, Matrix.one_mulVec, ← Matrix.mulVec_mulVec] at hv
      exact eq_neg_of_add_eq_zero_left hv
    set z := P.transpose.mulVec y with hz
    have e2 : dotProduct v y = -∑ i, ν i * z i ^ 2 := by
      rw [e1, neg_dotProduct, ← Matrix.mulVec_mulVec, ← Matrix.mulVec_mulVec, dotProduct_comm,
        Matrix.dotProduct_mulVec, ← Matrix.mulVec_transpose, ← hz]
      simp only [dotProduct, Matrix.mulVec_diagonal]
      congr 1
      refine Finset.sum_congr rfl fun i _ => ?_
      ring
    have h1 := hp v
    rw [← hy, e2] at h1
    have h2 : ∀ i, 0 ≤ ν i * z i ^ 2 := fun i => mul_nonneg (hν i).le (sq_nonneg _)
    have h3 : ∑ i, ν i * z i ^ 2 = 0 := le_antisymm (by linarith) (Finset.sum_nonneg fun i _ => h2 i)
    have h4 : z = 0 := by
      ext i
      have := (Finset.sum_eq_zero_iff_of_nonneg fun i _ => h2 i).1 h3 i (Finset.mem_univ i)
      rcases mul_eq_zero.1 this with h | h
      · exact absurd h (hν i).ne'
      · simpa using h
    have h5 : y = 0 := by
      have : P.mulVec z = y := by rw [hz, Matrix.mulVec_mulVec, hP.1, Matrix.one_mulVec]
      rw [← this, h4, Matrix.mulVec_zero]
    rw [h5, Matrix.mulVec_zero, neg_zero] at e1
    exact hv0 e1

/-- The loop adds the fields of the bodies with magnetic properties and counts the others. -/
theorem magneticLoop_eq (mu0 : ℝ) (H0 : V3) (pts : List V3) (es : List Ellipsoid)
    (field : Ellipsoid → V3 → V3)
    (h : ∀ e ∈ es, ¬(e.susceptibility = none ∧ e.remanent_mag = none) →
      singleEllipsoidMagnetic mu0 (.ok pts) e H0 = .ok (pts.map (field e)))
    (h0 : ∀ e ∈ es, e.susceptibility = none ∧ e.remanent_mag = none → field e = 0)
    (init : V3 → V3) (n : ℕ) :
    magneticLoop mu0 (.ok pts) H0 es (pts.map init, n) =
      .ok (pts.map fun p => init p + (es.map fun e => field e p).sum,
        n + es.countP fun e => e.susceptibility.isNone && e.remanent_mag.isNone) := by
  induction es generalizing init n with
  | nil => simp [magneticLoop, Py.pure_eq]
  | cons e es ih =>
    have ih' := ih (fun e he => h e (by simp [he])) fun e he => h0 e (by simp [he])
    have hstep : ¬(e.susceptibility = none ∧ e.remanent_mag = none) → (do
        let g ← singleEllipsoidMagnetic mu0 (Except.ok pts) e H0
        pure (addV (pts.map init) g, n) : Py (List V3 × ℕ)) =
        .ok (pts.map (fun x => init x + field e x), n) := by
      intro hne
      rw [h e (by simp) hne, Py.bind_ok, addV_map]; rfl
    unfold magneticLoop at ih' ⊢
    rw [List.foldlM_cons]
    rcases hs : e.susceptibility with _ | x <;> rcases hr : e.remanent_mag with _ | y
    · simp only [Py.bind_ok]
      rw [ih']
      refine congrArg Except.ok ?_
      have := h0 e (by simp) ⟨hs, hr⟩
      simp [this, hs, hr, Nat.add_assoc, Nat.add_comm 1]
    all_goals
      simp only
      rw [hstep (by simp [hs, hr]), Py.bind_ok, ih']
      refine congrArg Except.ok ?_
      simp [hs, hr, add_assoc]

/-- `ellipsoid_magnetic` when the field of each body is known. -/
theorem ellipsoidMagnetic_eq (mu0 : ℝ) (shape : List ℕ) (pts : List P3)
    (hshape : pts.length = shape.prod) (bodies : Bodies) (B0 : V3) (field : Ellipsoid → V3 → V3)
    (h : ∀ e ∈ bodies.toList, ¬(e.susceptibility = none ∧ e.remanent_mag = none) →
      singleEllipsoidMagnetic mu0 (.ok (pts.map vec)) e ((1e-9 / mu0) • B0) =
        .ok ((pts.map vec).map (field e)))
    (h0 : ∀ e ∈ bodies.toList, e.susceptibility = none ∧ e.remanent_mag = none → field e = 0) :
    ellipsoidMagnetic mu0 (arrays shape pts) bodies B0 =
      .ok (magneticResult shape pts (fun p => (bodies.toList.map fun e => field e p).sum),
        bodies.toList.countP fun e => e.susceptibility.isNone && e.remanent_mag.isNone) := by
  unfold ellipsoidMagnetic
  rw [npBroadcast_arrays]
  have h1 := magneticLoop_eq mu0 _ (pts.map vec) bodies.toList field h h0 0 0
  have h2 : List.replicate (pts.map (·.x)).length (0 : V3) = (pts.map vec).map (0 : V3 → V3) := by
    rw [show (0 : V3 → V3) = fun _ => 0 from rfl, List.map_const']
    simp
  have h3 : (B0 * fun _ => (1e-9 : ℝ)) / (fun _ => mu0) = (1e-9 / mu0) • B0 := by
    ext i; simp only [Pi.div_apply, Pi.mul_apply, Pi.smul_apply, smul_eq_mul]; ring
  simp only [Py.bind_ok, arrays, vstack_arrays, h3]
  rw [h2, h1]
  simp only [Py.bind_ok, Py.pure_eq, reshape, List.length_map, hshape, if_true]
  refine congrArg Except.ok ?_
  simp only [magneticResult, List.map_map, Pi.zero_apply, zero_add]
  norm_num [Function.comp_def]

/-- The bodies that are skipped. -/
def Ellipsoid.Plain (e : Ellipsoid) : Prop := e.susceptibility = none ∧ e.remanent_mag = none

/-- Fields of the bodies, for an external field. -/
theorem magneticFields_exist (mu0 : ℝ) (H0 : V3) : ∃ field : Ellipsoid → V3 → V3,
    ∀ e : Ellipsoid, e.Valid → e.Passive →
      (¬e.Plain → ∀ pts, singleEllipsoidMagnetic mu0 (.ok pts) e H0 = .ok (pts.map (field e))) ∧
      (e.Plain → field e = 0) ∧
      (e.Exact → ∃ M, SolvedByCode (e.toSpace e.chi) (e.toSpace (demagInside e.axes)) H0 e.remanence M ∧
        field e = e.magneticField mu0 M) := by
  classical
  have key : ∀ e : Ellipsoid, ∃ f : V3 → V3, e.Valid → e.Passive →
      (¬e.Plain → ∀ pts, singleEllipsoidMagnetic mu0 (.ok pts) e H0 = .ok (pts.map f)) ∧
      (e.Plain → f = 0) ∧
      (e.Exact → ∃ M, SolvedByCode (e.toSpace e.chi) (e.toSpace (demagInside e.axes)) H0 e.remanence M ∧
        f = e.magneticField mu0 M) := by
    intro e
    by_cases hpl : e.Plain
    · refine ⟨0, fun _ _ => ⟨fun h => absurd hpl h, fun _ => rfl, fun _ => ⟨0, ?_, ?_⟩⟩⟩
      · have h1 : e.chi = 0 := by unfold Ellipsoid.chi; rw [hpl.1]
        have h2 : e.remanence = 0 := by unfold Ellipsoid.remanence; rw [hpl.2]; rfl
        unfold SolvedByCode Ellipsoid.toSpace
        rw [h1, h2]; simp
      · funext p
        unfold Ellipsoid.magneticField
        simp
    · by_cases hv : e.Valid
      · by_cases hp : e.Passive
        · obtain ⟨n, T, hsol, hE, P, ν, hP, hν, hsum, hn⟩ := singleMagnetic_total hv
          obtain ⟨M, hM, hf⟩ := hsol H0 e.remanent_mag (by rw [hn]; exact passive_det hp hP hν hsum)
          rw [withRemanence_self] at hf
          refine ⟨_, fun _ _ => ⟨fun _ pts => hf mu0 pts, fun h => absurd h hpl, fun hex => ⟨M, ?_, ?_⟩⟩⟩
          · rw [← (hE hex).1]; exact hM
          · funext p; exact (hE hex).2 mu0 M p
        · exact ⟨0, fun _ h => absurd h hp⟩
      · exact ⟨0, fun h => absurd h hv⟩
  choose field hfield using key
  exact ⟨field, hfield⟩

end Verif.Ellipsoids
