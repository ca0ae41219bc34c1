import Verif.Ellipsoids.PropsC
import Verif.Ellipsoids.LemmasJ

/-!
Property C147: how far the results are from those of the bodies when two semiaxes are almost equal without
being equal, and the code takes the ellipsoid as a spheroid or a sphere.
-/

namespace Verif.Ellipsoids
open Verif.Forward Verif.Distance

/-! ### The magnetization and the field of a body -/

theorem isotropic_chi {e : Ellipsoid} (h : e.Isotropic) :
    ∃ x : ℝ, 0 ≤ x ∧ e.chi = x • (1 : M3) ∧ e.Passive := by
  unfold Ellipsoid.chi Ellipsoid.Passive
  rcases h with h | ⟨x, hx, h⟩
  · exact ⟨0, le_rfl, by rw [h]; simp, by rw [h]; trivial⟩
  · refine ⟨x, hx, by rw [h], ?_⟩
    rw [h]
    change -1 < x
    linarith

theorem toSpace_smul_one (e : Ellipsoid) (x : ℝ) : e.toSpace (x • (1 : M3)) = x • (1 : M3) := by
  unfold Ellipsoid.toSpace
  rw [Matrix.mul_smul, Matrix.mul_one, Matrix.smul_mul, (body_proper e).1]

/-- Quotient of the magnetizations along an axis. -/
theorem almost_magnetization {x n k : ℝ} (hx : 0 ≤ x) (hn : 0 < n) (hk : Almost k)
    (hk' : Almost (1 / k)) : Almost ((1 + x * n) / (1 + x * (k * n))) := by
  have k0 : 0 < k := lt_of_lt_of_le (by norm_num) hk.1
  have y0 : 0 ≤ x * n := by positivity
  have e : x * (k * n) = k * (x * n) := by ring
  rw [e]
  set y := x * n
  have hpos : 0 < 1 + k * y := by positivity
  obtain ⟨h1, h2⟩ := hk
  obtain ⟨h3, h4⟩ := hk'
  rw [le_div_iff₀ k0] at h3
  rw [div_le_iff₀ k0] at h4
  constructor
  · rw [le_div_iff₀ hpos]
    nlinarith [mul_le_mul_of_nonneg_right h3 y0]
  · rw [div_le_iff₀ hpos]
    nlinarith [mul_le_mul_of_nonneg_right h4 y0]

theorem outside_bound {a b c : ℝ} (hc : 0 < c) (hbc : c ≤ b) (hab : b ≤ a) {v : V3}
    (hv : 1 ≤ quadric a b c v) {N : M3} (hN : getDemagnetizationTensorExternal v a b c = .ok N)
    {m m' : V3} (hdiff : magnitude (m' - m) ≤ 1e-4 * magnitude m)
    (hm' : magnitude m' ≤ (1 + 1e-4) * magnitude m) :
    magnitude (-(N.mulVec m') - -((demagOutside ![a, b, c] v).mulVec m)) ≤ 6e-4 * magnitude m := by
  have b1 := demagExternal_almost hc hbc hab hv hN m'
  have b2 := demagOutside_bound hc hbc hab hv (m' - m)
  generalize demagOutside ![a, b, c] v = D at b1 b2 ⊢
  have e1 : -(N.mulVec m') - -(D.mulVec m) =
      (-1 : ℝ) • ((N - D).mulVec m' + D.mulVec (m' - m)) := by
    rw [Matrix.sub_mulVec, Matrix.mulVec_sub]
    ext i
    simp only [Pi.sub_apply, Pi.neg_apply, Pi.add_apply, Pi.smul_apply, smul_eq_mul]
    ring
  have b3 := magnitude_add ((N - D).mulVec m') (D.mulVec (m' - m))
  have hm0 := magnitude_nonneg m
  rw [e1, magnitude_smul, abs_neg, abs_one, one_mul]
  linarith

theorem field_almost {e : Ellipsoid} {P : M3} {σ : Fin 3 → Fin 3} {a b c : ℝ}
    (F : SortedFrame e P σ a b c) {k t M M' : V3} (hk : ∀ i, Almost (k i))
    (hν : ∀ i, 0 < insideFactor a b c i) (hν1 : ∀ i, insideFactor a b c i ≤ 1)
    (ht : ∀ i, Almost (t i))
    (hmt : ∀ i, (toSorted e P).mulVec M' i = t i * (toSorted e P).mulVec M i) (mu0 : ℝ) (p : V3) :
    ∃ g, magneticAt mu0 e (toSorted e P, Matrix.diagonal fun i => k i * insideFactor a b c i,
        (toSorted e P).mulVec M') p = .ok g ∧
      magnitude (g - e.magneticField mu0 M p) ≤ 6e-4 * (|mu0| * magnitude M) := by
  classical
  set n : V3 := fun i => k i * insideFactor a b c i with hndef
  obtain ⟨q1, q2⟩ := toSorted_proper (e := e) F.proper
  set Q := toSorted e P with hQ
  have hin : Q.transpose * Matrix.diagonal (insideFactor a b c) * Q = e.toSpace (demagInside e.axes) :=
    toSorted_tensor e P _ _ F.inside
  have hin' : Q.transpose * Matrix.diagonal n * Q =
      e.toSpace (P * Matrix.diagonal n * P.transpose) := toSorted_tensor e P _ _ rfl
  have hQQ' : ∀ w : V3, Q.transpose.mulVec (Q.mulVec w) = w := fun w => by
    rw [Matrix.mulVec_mulVec, q2, Matrix.one_mulVec]
  have hconj : ∀ (A : M3) (w : V3), (Q.transpose * A * Q).mulVec w =
      Q.transpose.mulVec (A.mulVec (Q.mulVec w)) := fun A w => by
    rw [← Matrix.mulVec_mulVec, ← Matrix.mulVec_mulVec]
  set m := Q.mulVec M with hmdef
  set m' := Q.mulVec M' with hmdef'
  have hmag : magnitude m = magnitude M := magnitude_rotate q2 M
  have hdiff : magnitude (m' - m) ≤ 1e-4 * magnitude m := by
    refine magnitude_mono (by norm_num) fun i => ?_
    rw [Pi.sub_apply, hmt i]
    exact almost_sub (ht i)
  have hm' : magnitude m' ≤ (1 + 1e-4) * magnitude m := by
    have := magnitude_add (m' - m) m
    rw [sub_add_cancel] at this
    linarith
  have hm0 := magnitude_nonneg m
  have hscale : ∀ A B : V3, magnitude (A - B) ≤ 6e-4 * magnitude m →
      magnitude (mu0 • Q.transpose.mulVec A - mu0 • Q.transpose.mulVec B) ≤
        6e-4 * (|mu0| * magnitude M) := by
    intro A B h
    rw [← smul_sub, ← Matrix.mulVec_sub, magnitude_smul,
      magnitude_rotate (by rw [Matrix.transpose_transpose]; exact q1), ← hmag]
    calc |mu0| * magnitude (A - B) ≤ |mu0| * (6e-4 * magnitude m) :=
          mul_le_mul_of_nonneg_left h (abs_nonneg _)
      _ = _ := by ring
  by_cases hip : e.Inside p
  · refine ⟨_, (magneticAt_spec F n mu0 M' p).1 hip, ?_⟩
    unfold Ellipsoid.magneticField
    rw [if_pos hip, ← hin, ← hin', hconj, hconj, ← hmdef, ← hmdef']
    have e1 : M' - Q.transpose.mulVec ((Matrix.diagonal n).mulVec m') =
        Q.transpose.mulVec (m' - (Matrix.diagonal n).mulVec m') := by
      rw [Matrix.mulVec_sub, hmdef', hQQ']
    have e2 : M - Q.transpose.mulVec ((Matrix.diagonal (insideFactor a b c)).mulVec m) =
        Q.transpose.mulVec (m - (Matrix.diagonal (insideFactor a b c)).mulVec m) := by
      rw [Matrix.mulVec_sub, hmdef, hQQ']
    rw [e1, e2]
    refine hscale _ _ (magnitude_mono (by norm_num) fun i => ?_)
    simp only [Pi.sub_apply, Matrix.mulVec_diagonal]
    have d1 : |m' i - m i| ≤ 1e-4 * |m i| := by rw [hmt i]; exact almost_sub (ht i)
    have d2 : |n i - insideFactor a b c i| ≤ 1e-4 := by
      refine (almost_sub (hk i)).trans ?_
      rw [abs_of_pos (hν i)]
      have := hν1 i
      linarith
    have d3 : |1 - n i| ≤ 1 + 1e-4 := by
      have h1 := hν i
      have h2 := hν1 i
      rw [abs_le] at d2 ⊢
      constructor <;> linarith [d2.1, d2.2]
    calc |m' i - n i * m' i - (m i - insideFactor a b c i * m i)|
        = |(1 - n i) * (m' i - m i) - (n i - insideFactor a b c i) * m i| := by congr 1; ring
      _ ≤ |(1 - n i) * (m' i - m i)| + |(n i - insideFactor a b c i) * m i| := abs_sub _ _
      _ = |1 - n i| * |m' i - m i| + |n i - insideFactor a b c i| * |m i| := by
        rw [abs_mul, abs_mul]
      _ ≤ (1 + 1e-4) * (1e-4 * |m i|) + 1e-4 * |m i| := by
        refine add_le_add (mul_le_mul d3 d1 (abs_nonneg _) (by norm_num))
          (mul_le_mul_of_nonneg_right d2 (abs_nonneg _))
      _ ≤ 6e-4 * |m i| := by have := abs_nonneg (m i); linarith
  · obtain ⟨N, _, hN, hg, _⟩ := (magneticAt_spec F n mu0 M' p).2 hip
    refine ⟨_, hg, ?_⟩
    unfold Ellipsoid.magneticField
    have hout : Q.transpose * demagOutside ![a, b, c] (P.transpose.mulVec (e.local p)) * Q =
        e.toSpace (demagOutside e.axes (e.local p)) := toSorted_tensor e P _ _ (F.outside _)
    have hout' : Q.transpose * N * Q = e.toSpace (P * N * P.transpose) :=
      toSorted_tensor e P _ _ rfl
    rw [if_neg hip, ← hout, ← hout', hconj, hconj, ← hmdef, ← hmdef']
    have e3 : ∀ w : V3, -(mu0 • Q.transpose.mulVec w) = mu0 • Q.transpose.mulVec (-w) := fun w => by
      rw [Matrix.mulVec_neg, smul_neg]
    rw [e3, e3]
    have hvq : 1 ≤ quadric a b c (P.transpose.mulVec (e.local p)) := by
      rw [F.internal]
      rw [inside_iff] at hip
      exact not_lt.1 hip
    exact hscale (-(N.mulVec m'))
      (-((demagOutside ![a, b, c] (P.transpose.mulVec (e.local p))).mulVec m))
      (outside_bound F.hc F.hbc F.hab hvq hN hdiff hm')

theorem single_almost {e : Ellipsoid} (hv : e.Valid) (hi : e.Isotropic) (H0 : V3) :
    ∃ M, SelfConsistent (e.toSpace e.chi) (e.toSpace (demagInside e.axes)) H0 e.remanence M ∧
      (∀ M', SelfConsistent (e.toSpace e.chi) (e.toSpace (demagInside e.axes)) H0 e.remanence M' →
        M' = M) ∧
      ∀ mu0, ∃ f : V3 → V3,
        (∀ pts, singleEllipsoidMagnetic mu0 (.ok pts) e H0 = .ok (pts.map f)) ∧
        ∀ p, magnitude (f p - e.magneticField mu0 M p) ≤ 6e-4 * (|mu0| * magnitude M) := by
  classical
  obtain ⟨x, hx, hchi, hpass⟩ := isotropic_chi hi
  obtain ⟨P, σ, a, b, c, F⟩ := sortedFrame_exists hv
  obtain ⟨k, hk, hk', hn⟩ := demagInternal_almost F.hc F.hbc F.hab
  set n : V3 := fun i => k i * insideFactor a b c i with hndef
  obtain ⟨q1, q2⟩ := toSorted_proper (e := e) F.proper
  set Q := toSorted e P with hQ
  have hdet : (1 + (P * Matrix.diagonal n * P.transpose) * e.chi).det ≠ 0 := by
    obtain ⟨n', hn', hpos, hsum, _⟩ := demagInternal_total F.hc F.hbc F.hab
    have : n' = n := Matrix.diagonal_injective (Except.ok.inj (hn'.symm.trans hn))
    subst this
    exact passive_det hpass F.proper hpos hsum
  obtain ⟨M', hM', hsol⟩ := magnetization_spec F hn H0 hdet
  rw [← hQ] at hM'
  -- the equations in the sorted frame
  have hin : Q.transpose * Matrix.diagonal (insideFactor a b c) * Q = e.toSpace (demagInside e.axes) :=
    toSorted_tensor e P _ _ F.inside
  have hin' : Q.transpose * Matrix.diagonal n * Q =
      e.toSpace (P * Matrix.diagonal n * P.transpose) := toSorted_tensor e P _ _ rfl
  have hQQ : ∀ w : V3, Q.mulVec (Q.transpose.mulVec w) = w := fun w => by
    rw [Matrix.mulVec_mulVec, q1, Matrix.one_mulVec]
  have hQQ' : ∀ w : V3, Q.transpose.mulVec (Q.mulVec w) = w := fun w => by
    rw [Matrix.mulVec_mulVec, q2, Matrix.one_mulVec]
  have hconj : ∀ (A : M3) (w : V3), (Q.transpose * A * Q).mulVec w =
      Q.transpose.mulVec (A.mulVec (Q.mulVec w)) := fun A w => by
    rw [← Matrix.mulVec_mulVec, ← Matrix.mulVec_mulVec]
  set r := Q.mulVec (e.remanence + x • H0) with hr
  have heq' : ∀ i, (1 + x * n i) * Q.mulVec M' i = r i := by
    intro i
    unfold SolvedByCode at hsol
    rw [hchi, toSpace_smul_one, ← hin', Matrix.mul_smul, Matrix.mul_one, Matrix.add_mulVec,
      Matrix.one_mulVec, Matrix.smul_mulVec, Matrix.smul_mulVec, Matrix.one_mulVec, hconj] at hsol
    have := congrFun (congrArg Q.mulVec hsol) i
    rw [← hr, Matrix.mulVec_add, Matrix.mulVec_smul, hQQ, Pi.add_apply, Pi.smul_apply,
      Matrix.mulVec_diagonal, smul_eq_mul] at this
    rw [← this]; ring
  have hcons : ∀ w, SelfConsistent (e.toSpace e.chi) (e.toSpace (demagInside e.axes)) H0 e.remanence w ↔
      ∀ i, (1 + x * insideFactor a b c i) * Q.mulVec w i = r i := by
    intro w
    rw [selfConsistent_iff, hchi, toSpace_smul_one, ← hin, Matrix.smul_mul, Matrix.one_mul,
      Matrix.add_mulVec, Matrix.one_mulVec, Matrix.smul_mulVec, Matrix.smul_mulVec,
      Matrix.one_mulVec, hconj]
    constructor
    · intro h i
      have := congrFun (congrArg Q.mulVec h) i
      rw [← hr, Matrix.mulVec_add, Matrix.mulVec_smul, hQQ, Pi.add_apply, Pi.smul_apply,
        Matrix.mulVec_diagonal, smul_eq_mul] at this
      rw [← this]; ring
    · intro h
      rw [← hQQ' (w + _), ← hQQ' (e.remanence + x • H0), ← hr]
      congr 1
      ext i
      rw [Matrix.mulVec_add, Matrix.mulVec_smul, hQQ, Pi.add_apply, Pi.smul_apply,
        Matrix.mulVec_diagonal, smul_eq_mul, ← h i]
      ring
  have hν := insideFactor_pos F.hc F.hbc F.hab
  have hν1 := insideFactor_le F.hc F.hbc F.hab
  have hpos : ∀ i, 0 < 1 + x * insideFactor a b c i := fun i => by have := hν i; positivity
  have kpos : ∀ i, 0 < k i := fun i => lt_of_lt_of_le (by norm_num) (hk i).1
  have hpos' : ∀ i, 0 < 1 + x * n i := fun i => by
    have := hν i; have := kpos i
    simp only [hndef]; positivity
  let M : V3 := Q.transpose.mulVec fun i => r i / (1 + x * insideFactor a b c i)
  have hMc : SelfConsistent (e.toSpace e.chi) (e.toSpace (demagInside e.axes)) H0 e.remanence M := by
    rw [hcons]
    intro i
    simp only [M, hQQ]
    have := (hpos i).ne'
    field_simp
  have hm := (hcons M).1 hMc
  refine ⟨M, hMc, fun w hw => ?_, fun mu0 => ?_⟩
  · have h1 := (hcons w).1 hw
    rw [← hQQ' w, ← hQQ' M]
    congr 1
    ext i
    exact mul_left_cancel₀ (hpos i).ne' ((h1 i).trans (hm i).symm)
  -- the magnetizations
  let t : V3 := fun i => (1 + x * insideFactor a b c i) / (1 + x * n i)
  have ht : ∀ i, Almost (t i) := fun i => almost_magnetization hx (hν i) (hk i) (hk' i)
  have hmt : ∀ i, Q.mulVec M' i = t i * Q.mulVec M i := by
    intro i
    have h1 := heq' i
    have h2 := hm i
    have := (hpos' i).ne'
    simp only [t]
    field_simp
    linarith
  set m := Q.mulVec M with hmdef
  set m' := Q.mulVec M' with hmdef'
  have key := fun p => field_almost F hk hν hν1 ht hmt mu0 p
  choose f hf hbound using key
  refine ⟨f, fun pts => ?_, hbound⟩
  unfold singleEllipsoidMagnetic
  rw [Py.bind_ok, hM', Py.bind_ok]
  exact mapM_ok _ f pts fun p _ => hf p

/-! ### C147 -/

/-- Sums of vectors. -/
theorem magnitude_sum {l : List Ellipsoid} {f g : Ellipsoid → V3} {B : Ellipsoid → ℝ}
    (h : ∀ e ∈ l, magnitude (f e - g e) ≤ B e) :
    magnitude ((l.map f).sum - (l.map g).sum) ≤ (l.map B).sum := by
  induction l with
  | nil => simp [magnitude_zero]
  | cons e l ih =>
    simp only [List.map_cons, List.sum_cons]
    rw [add_sub_add_comm]
    refine (magnitude_add _ _).trans (add_le_add (h e (by simp)) (ih fun e he => h e (by simp [he])))

/-- C147: `ellipsoid_gravity` is total, and its field at each point is that of the bodies within one part
in ten thousand of the sum of the lengths of their attractions, whatever the semiaxes: also when they
are almost equal without being equal. -/
theorem C147_gravity (shape : List ℕ) (pts : List P3) (hshape : pts.length = shape.prod)
    (bodies : Bodies) (h : ∀ e ∈ bodies.toList, e.Valid) : ∃ field : V3 → V3,
      ellipsoidGravity (arrays shape pts) bodies = .ok (gravityResult shape pts field,
        bodies.toList.countP fun e => e.density.isNone) ∧
      ∀ p, magnitude (field p - (bodies.toList.map fun e => e.gravity p).sum) ≤
        1e-4 * (bodies.toList.map fun e => magnitude (e.gravity p)).sum := by
  classical
  have key : ∀ e : Ellipsoid, ∃ f : V3 → V3, e.Valid →
      (∀ pts density, e.density = some density →
        gravityOne (.ok pts) e density = .ok (pts.map f)) ∧ (e.density = none → f = 0) ∧
      ∀ p, magnitude (f p - e.gravity p) ≤ 1e-4 * magnitude (e.gravity p) := by
    intro e
    by_cases hv : e.Valid
    swap
    · exact ⟨0, fun h => absurd h hv⟩
    rcases hd : e.density with _ | d
    · refine ⟨0, fun _ => ⟨fun _ _ h => (nomatch h), fun _ => rfl, fun p => ?_⟩⟩
      unfold Ellipsoid.gravity
      rw [hd]
      simp [magnitude_zero]
    · obtain ⟨P, hP, f, hf, _, _⟩ := gravityPoint_total hv d
      refine ⟨f, fun _ => ⟨fun pts density hde => ?_, fun h => (nomatch h), fun p => ?_⟩⟩
      · obtain rfl : d = density := Option.some.inj hde
        exact gravityOne_eq hP hf pts
      · unfold Ellipsoid.gravity
        rw [hd]
        have := gravityPoint_almost hv hP (hf p)
        refine magnitude_le (mul_nonneg (by norm_num) (magnitude_nonneg _)) ?_
        rw [mul_pow, magnitude_sq]
        exact this
  choose field hf using key
  refine ⟨_, ellipsoidGravity_eq shape pts hshape bodies field
    (fun e he d hd => (hf e (h e he)).1 _ d hd) (fun e he => (hf e (h e he)).2.1), fun p => ?_⟩
  rw [← List.sum_map_mul_left]
  exact magnitude_sum fun e he => (hf e (h e he)).2.2 p

/-- C147: `ellipsoid_magnetic`, for bodies with a susceptibility that is a number or with none: each
has exactly one self-consistent magnetization, and the field at each point is that of the bodies with
these magnetizations within `6e-4` of `μ0` times the sum of their lengths, whatever the semiaxes. -/
theorem C147_magnetic (mu0 : ℝ) (shape : List ℕ) (pts : List P3) (hshape : pts.length = shape.prod)
    (bodies : Bodies) (h : ∀ e ∈ bodies.toList, e.Valid ∧ e.Isotropic) (B0 : V3) :
    ∃ M : Ellipsoid → V3,
      (∀ e ∈ bodies.toList, ∀ m, SelfConsistent (e.toSpace e.chi) (e.toSpace (demagInside e.axes))
        (inducingH mu0 B0) e.remanence m ↔ m = M e) ∧
      ∃ field : V3 → V3, ellipsoidMagnetic mu0 (arrays shape pts) bodies B0 =
        .ok (magneticResult shape pts field,
          bodies.toList.countP fun e => e.susceptibility.isNone && e.remanent_mag.isNone) ∧
      ∀ p, magnitude (field p - (bodies.toList.map fun e => e.magneticField mu0 (M e) p).sum) ≤
        6e-4 * (bodies.toList.map fun e => |mu0| * magnitude (M e)).sum := by
  classical
  have key : ∀ e : Ellipsoid, ∃ M : V3, ∃ f : V3 → V3, e.Valid ∧ e.Isotropic →
      (∀ m, SelfConsistent (e.toSpace e.chi) (e.toSpace (demagInside e.axes))
        (inducingH mu0 B0) e.remanence m ↔ m = M) ∧
      (¬e.Plain → ∀ pts, singleEllipsoidMagnetic mu0 (.ok pts) e (inducingH mu0 B0) =
        .ok (pts.map f)) ∧ (e.Plain → f = 0) ∧
      ∀ p, magnitude (f p - e.magneticField mu0 M p) ≤ 6e-4 * (|mu0| * magnitude M) := by
    intro e
    by_cases hv : e.Valid ∧ e.Isotropic
    swap
    · exact ⟨0, 0, fun h => absurd h hv⟩
    obtain ⟨M, hM, huniq, hfield⟩ := single_almost hv.1 hv.2 (inducingH mu0 B0)
    obtain ⟨f, hf, hb⟩ := hfield mu0
    have hiff : ∀ m, SelfConsistent (e.toSpace e.chi) (e.toSpace (demagInside e.axes))
        (inducingH mu0 B0) e.remanence m ↔ m = M := fun m => ⟨huniq m, fun h => h ▸ hM⟩
    by_cases hpl : e.Plain
    · have h0 : M = 0 := by
        refine ((hiff 0).1 ?_).symm
        have h1 : e.chi = 0 := by unfold Ellipsoid.chi; rw [hpl.1]
        have h2 : e.remanence = 0 := by unfold Ellipsoid.remanence; rw [hpl.2]; rfl
        unfold SelfConsistent Ellipsoid.toSpace
        rw [h1, h2]; simp
      refine ⟨M, 0, fun _ => ⟨hiff, fun h => absurd hpl h, fun _ => rfl, fun p => ?_⟩⟩
      rw [h0]
      unfold Ellipsoid.magneticField
      simp [magnitude_zero]
    · exact ⟨M, f, fun _ => ⟨hiff, fun _ => hf, fun h => absurd h hpl, hb⟩⟩
  choose M f hf using key
  refine ⟨M, fun e he => (hf e (h e he)).1, _,
    ellipsoidMagnetic_eq mu0 shape pts hshape bodies B0 f
      (fun e he hne => (hf e (h e he)).2.1 hne _) (fun e he hpl => (hf e (h e he)).2.2.1 hpl),
    fun p => ?_⟩
  rw [← List.sum_map_mul_left]
  exact magnitude_sum fun e he => (hf e (h e he)).2.2.2 p

/-- C147: the demagnetization tensors of the code are those of the ellipsoid within the tolerance: each
element inside within one part in ten thousand, and outside within `3e-4` as operators. -/
theorem C147_tensors {a b c : ℝ} (hc : 0 < c) (hbc : c ≤ b) (hab : b ≤ a) :
    (∃ n : V3, getDemagnetizationTensorInternal a b c = .ok (Matrix.diagonal n) ∧
      ∀ i, |n i - demagInside ![a, b, c] i i| ≤ 1e-4 * demagInside ![a, b, c] i i) ∧
    ∀ v, 1 ≤ quadric a b c v → ∃ N, getDemagnetizationTensorExternal v a b c = .ok N ∧
      ∀ w, magnitude ((N - demagOutside ![a, b, c] v).mulVec w) ≤ 3e-4 * magnitude w := by
  constructor
  · obtain ⟨k, hk, _, hn⟩ := demagInternal_almost hc hbc hab
    refine ⟨_, hn, fun i => ?_⟩
    rw [demagInside_factor, Matrix.diagonal_apply_eq]
    have := almost_sub (x := insideFactor a b c i) (hk i)
    rwa [abs_of_pos (insideFactor_pos hc hbc hab i)] at this
  · intro v hv
    obtain ⟨N, hN, _, _⟩ := demagExternal_total hc hbc hab hv
    exact ⟨N, hN, demagExternal_almost hc hbc hab hv hN⟩

/-- C147: the elliptic integrals of the code are those of the ellipsoid within one part in ten thousand,
for every ellipsoid that is not almost a sphere. -/
theorem C147_integrals {a b c l : ℝ} (hc : 0 < c) (hbc : c ≤ b) (hab : b ≤ a)
    (hs : ¬(Close a b ∧ Close b c)) (hl : 0 ≤ l) : ∃ g, getEllipticalIntegrals a b c l = .ok g ∧
      ∀ i, |g i - ellipticIntegral a b c (![a, b, c] i) l| ≤
        1e-4 * ellipticIntegral a b c (![a, b, c] i) l := by
  refine ⟨_, getEllipticalIntegrals_spec hc hbc hab hs (by nlinarith), fun i => ?_⟩
  have hI := integralsOf_pos (positive_of_sorted hc hbc hab) hl i
  obtain ⟨k1, k2⟩ := effective_integrals hc hbc hab hl i
  have hk := almost_of_bounds hI (by norm_num) k1 k2 (by norm_num)
  change |_ - integralsOf ![a, b, c] l i| ≤ 1e-4 * integralsOf ![a, b, c] l i
  have := almost_sub (x := integralsOf ![a, b, c] l i) hk
  rwa [div_mul_cancel₀ _ hI.ne', abs_of_pos hI] at this

/-! ### A case: an oblate body with semiaxes that are almost equal -/

noncomputable def pebble : Ellipsoid :=
  ⟨100, 50, 100.0005, 30, 45, 10, ![100, -50, -200], some 2670, some (.scalar (1 / 10)), some ![1, 2, 3]⟩

example : pebble.Valid ∧ pebble.Isotropic ∧ ¬pebble.Exact := by
  refine ⟨by norm_num [Ellipsoid.Valid, pebble], Or.inr ⟨1 / 10, by norm_num, rfl⟩, fun h => ?_⟩
  have h1 : Close 100 100.0005 := by
    unfold Close
    rw [max_eq_right (by norm_num), abs_of_neg (by norm_num)]
    norm_num
  have : (100 : ℝ) = 100.0005 := h 0 2 h1
  norm_num at this

/-- Its semiaxes in decreasing order are those of an oblate ellipsoid for the code: its integrals are
not exactly those of the body, and they are within the bound. -/
example : ∃ g, getEllipticalIntegrals 100.0005 100 50 0 = .ok g ∧
    ∀ i, |g i - ellipticIntegral 100.0005 100 50 (![100.0005, 100, 50] i) 0| ≤
      1e-4 * ellipticIntegral 100.0005 100 50 (![100.0005, 100, 50] i) 0 := by
  refine C147_integrals (by norm_num) (by norm_num) (by norm_num) (fun h => ?_) le_rfl
  have := h.2
  unfold Close at this
  rw [max_eq_left (by norm_num), abs_of_pos (by norm_num)] at this
  norm_num at this

example : ∃ field : V3 → V3, ellipsoidGravity (arrays [1] [⟨0, 0, 10⟩]) (.one pebble) =
      .ok (gravityResult [1] [⟨0, 0, 10⟩] field, 0) ∧
    ∀ p, magnitude (field p - pebble.gravity p) ≤ 1e-4 * magnitude (pebble.gravity p) := by
  obtain ⟨field, h1, h2⟩ := C147_gravity [1] [⟨0, 0, 10⟩] rfl (.one pebble) (by
    intro e he
    obtain rfl : e = pebble := by simpa [Bodies.toList] using he
    norm_num [Ellipsoid.Valid, pebble])
  refine ⟨field, h1, fun p => ?_⟩
  simpa [Bodies.toList] using h2 p

end Verif.Ellipsoids
