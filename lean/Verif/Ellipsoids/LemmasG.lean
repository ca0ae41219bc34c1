import Verif.Ellipsoids.LemmasF
import Verif.Forward.Lemmas

/-! The loops over the bodies and the points. -/

namespace Verif.Ellipsoids
open Verif.Forward Verif.Distance

/-! ### Bodies -/

theorem valid_positive {e : Ellipsoid} (h : e.Valid) : Positive e.axes := by
  intro i; fin_cases i
  · exact h.1
  · exact h.2.1
  · exact h.2.2

/-- Everything about the sorted frame of a body. -/
structure SortedFrame (e : Ellipsoid) (P : M3) (σ : Fin 3 → Fin 3) (a b c : ℝ) : Prop where
  matrix : getSemiaxesRotationMatrix e = .ok P
  proper : ProperRotation P
  bij : Function.Bijective σ
  squares : ∀ v : V3, ∀ i, (P.transpose.mulVec v) i ^ 2 = v (σ i) ^ 2
  sorted : sortedSemiaxes e = (a, b, c)
  axes : ![a, b, c] = fun i => e.axes (σ i)
  hc : 0 < c
  hbc : c ≤ b
  hab : b ≤ a

theorem sortedFrame_exists {e : Ellipsoid} (h : e.Valid) : ∃ P σ a b c, SortedFrame e P σ a b c := by
  obtain ⟨P, hP, hproper, ⟨σ, hσ, hsq, hs⟩, h1, h2⟩ := semiaxes_spec e
  have hpos := valid_positive h
  refine ⟨P, σ, e.axes (σ 0), e.axes (σ 1), e.axes (σ 2), hP, hproper, hσ, hsq, hs, ?_, hpos _, ?_, ?_⟩
  · ext i; fin_cases i <;> rfl
  · rw [hs] at h2; exact h2
  · rw [hs] at h1; exact h1

theorem SortedFrame.resolved {e : Ellipsoid} {P : M3} {σ : Fin 3 → Fin 3} {a b c : ℝ}
    (h : SortedFrame e P σ a b c) (he : e.Exact) : Resolved a b c := by
  have ha : a = e.axes (σ 0) := congrFun h.axes 0
  have hb : b = e.axes (σ 1) := congrFun h.axes 1
  have hc : c = e.axes (σ 2) := congrFun h.axes 2
  constructor
  · rw [ha, hb]; exact he _ _
  · rw [hb, hc]; exact he _ _

/-- Dirichlet's formula does not depend on the order of the axes. -/
theorem SortedFrame.dirichlet {e : Ellipsoid} {P : M3} {σ : Fin 3 → Fin 3} {a b c : ℝ}
    (h : SortedFrame e P σ a b c) (density : ℝ) (v : V3) :
    P.mulVec (dirichletAttraction ![a, b, c] density (P.transpose.mulVec v)) =
      dirichletAttraction e.axes density v := by
  let k : V3 := fun j => attractionFactor e.axes density *
    integralsOf e.axes (confocalParameter e.axes v) j
  have h1 : dirichletAttraction ![a, b, c] density (P.transpose.mulVec v) = fun i =>
      k (σ i) * (P.transpose.mulVec v) i := by
    ext i
    rw [dirichlet_apply, h.axes, integralsOf_perm e.axes h.bij,
      confocalParameter_perm e.axes v _ h.bij (h.squares v)]
    have : attractionFactor (fun i => e.axes (σ i)) density = attractionFactor e.axes density := by
      unfold attractionFactor
      have := prod3_perm e.axes h.bij
      unfold prod3 at this
      rw [this]
    rw [this]
    simp only [k]
    ring
  rw [h1, sorted_frame h.proper h.squares]
  ext j
  rw [dirichlet_apply]
  simp only [k]
  ring

/-- Field of a body at a point, in space. -/
noncomputable def gravityPoint (e : Ellipsoid) (P : M3) (density : ℝ) (p : V3) : Py V3 := do
  let s := sortedSemiaxes e
  let rotation := P.transpose * e.rotationMatrix.transpose
  let g ← computeGravityEllipsoid (rotation.mulVec (p - e.center)) s.1 s.2.1 s.2.2 density
  return rotation.transpose.mulVec g

theorem computeGravity_total {a b c : ℝ} (hc : 0 < c) (hbc : c ≤ b) (hab : b ≤ a) (density : ℝ) :
    ∃ f : V3 → V3, (∀ v, computeGravityEllipsoid v a b c density = .ok (f v)) ∧
      ∀ k d v, computeGravityEllipsoid v a b c d = .ok (f v) →
        computeGravityEllipsoid v a b c (k * d) = .ok (k • f v) := by
  by_cases hs : Close a b ∧ Close b c
  · refine ⟨_, fun v => computeGravity_sphere hc hbc hab hs density v, fun k d v h => ?_⟩
    rw [computeGravity_sphere hc hbc hab hs] at h ⊢
    rw [← Except.ok.inj h]
    refine congrArg Except.ok ?_
    ext i; simp only [Pi.smul_apply, smul_eq_mul]; ring
  · refine ⟨_, fun v => computeGravity_spec hc hbc hab hs density v, fun k d v h => ?_⟩
    rw [computeGravity_spec hc hbc hab hs] at h ⊢
    rw [← Except.ok.inj h]
    refine congrArg Except.ok ?_
    ext i; simp only [Pi.smul_apply, smul_eq_mul, attractionFactor]; ring

/-- The field of every body is computed without errors. -/
theorem gravityPoint_total {e : Ellipsoid} (h : e.Valid) (density : ℝ) :
    ∃ P, getSemiaxesRotationMatrix e = .ok P ∧
      ∃ f : V3 → V3, (∀ p, gravityPoint e P density p = .ok (f p)) ∧
        (∀ k p, gravityPoint e P (k * density) p = .ok (k • f p)) ∧
        (e.Exact → f = e.attraction density) := by
  obtain ⟨P, σ, a, b, c, F⟩ := sortedFrame_exists h
  obtain ⟨f, hf, hk⟩ := computeGravity_total F.hc F.hbc F.hab density
  refine ⟨P, F.matrix, fun p => (P.transpose * e.rotationMatrix.transpose).transpose.mulVec
    (f ((P.transpose * e.rotationMatrix.transpose).mulVec (p - e.center))), fun p => ?_, fun k p => ?_,
    fun hE => ?_⟩
  · unfold gravityPoint
    simp only [F.sorted, hf, Py.bind_ok, Py.pure_eq]
  · unfold gravityPoint
    simp only [F.sorted, hk k density _ (hf _), Py.bind_ok, Py.pure_eq, Matrix.mulVec_smul]
  · ext1 p
    have h1 : ∀ v, f v = dirichletAttraction ![a, b, c] density v := fun v => by
      have := hf v
      rw [computeGravity_resolved F.hc F.hbc F.hab (F.resolved hE)] at this
      exact (Except.ok.inj this).symm
    rw [h1]
    simp only [Matrix.transpose_mul, Matrix.transpose_transpose, ← Matrix.mulVec_mulVec]
    rw [F.dirichlet]
    rfl

/-! ### Loops -/

theorem mapM_ok {α β : Type} (f : α → Py β) (g : α → β) (l : List α) (h : ∀ x ∈ l, f x = .ok (g x)) :
    l.mapM f = .ok (l.map g) := by
  induction l with
  | nil => rfl
  | cons x xs ih =>
    rw [List.mapM_cons, h x (by simp), ih fun y hy => h y (by simp [hy])]
    rfl

theorem gravityOne_eq {e : Ellipsoid} {P : M3} (hP : getSemiaxesRotationMatrix e = .ok P) {density : ℝ}
    {f : V3 → V3} (hf : ∀ p, gravityPoint e P density p = .ok (f p)) (pts : List V3) :
    gravityOne (.ok pts) e density = .ok (pts.map f) := by
  unfold gravityOne
  rw [hP]
  exact mapM_ok _ f pts fun p _ => hf p

theorem addV_map {α : Type} (l : List α) (f g : α → V3) :
    addV (l.map f) (l.map g) = l.map fun x => f x + g x := by
  induction l with
  | nil => rfl
  | cons x xs ih => simp [addV] at ih ⊢

/-- The loop adds the fields of the bodies with a density and counts the others. -/
theorem gravityLoop_eq (pts : List V3) (es : List Ellipsoid) (field : Ellipsoid → V3 → V3)
    (h : ∀ e ∈ es, ∀ density, e.density = some density →
      gravityOne (.ok pts) e density = .ok (pts.map (field e)))
    (h0 : ∀ e ∈ es, e.density = none → field e = 0) (init : V3 → V3) (n : ℕ) :
    gravityLoop (.ok pts) es (pts.map init, n) =
      .ok (pts.map fun p => init p + (es.map fun e => field e p).sum,
        n + es.countP fun e => e.density.isNone) := by
  induction es generalizing init n with
  | nil => simp [gravityLoop, Py.pure_eq]
  | cons e es ih =>
    have ih' := ih (fun e he => h e (by simp [he])) fun e he => h0 e (by simp [he])
    unfold gravityLoop at ih' ⊢
    rw [List.foldlM_cons]
    cases hd : e.density with
    | none =>
      simp only [Py.bind_ok]
      rw [ih']
      refine congrArg Except.ok ?_
      have := h0 e (by simp) hd
      simp [this, hd, Nat.add_assoc, Nat.add_comm 1]
    | some density =>
      have hone := h e (by simp) density hd
      have hstep : (do
          let g ← gravityOne (Except.ok pts) e density
          pure (addV (pts.map init) g, n) : Py (List V3 × ℕ)) =
          .ok (pts.map (fun x => init x + field e x), n) := by
        rw [hone, Py.bind_ok, addV_map]; rfl
      simp only
      rw [hstep, Py.bind_ok, ih']
      refine congrArg Except.ok ?_
      simp [hd, add_assoc]

theorem vstack_arrays (pts : List P3) :
    vstack (pts.map (·.x)) (pts.map (·.y)) (pts.map (·.z)) = .ok (pts.map vec) := by
  unfold vstack
  rw [if_pos (by simp)]
  refine congrArg Except.ok ?_
  induction pts with
  | nil => rfl
  | cons q qs ih => simpa [vec] using ih

/-- `ellipsoid_gravity` when the field of each body is known. -/
theorem ellipsoidGravity_eq (shape : List ℕ) (pts : List P3) (hshape : pts.length = shape.prod)
    (bodies : Bodies) (field : Ellipsoid → V3 → V3)
    (h : ∀ e ∈ bodies.toList, ∀ density, e.density = some density →
      gravityOne (.ok (pts.map vec)) e density = .ok ((pts.map vec).map (field e)))
    (h0 : ∀ e ∈ bodies.toList, e.density = none → field e = 0) :
    ellipsoidGravity (arrays shape pts) bodies =
      .ok (gravityResult shape pts (fun p => (bodies.toList.map fun e => field e p).sum),
        bodies.toList.countP fun e => e.density.isNone) := by
  unfold ellipsoidGravity
  rw [npBroadcast_arrays]
  have h1 := gravityLoop_eq (pts.map vec) bodies.toList field h h0 0 0
  have h2 : List.replicate (pts.map (·.x)).length (0 : V3) = (pts.map vec).map (0 : V3 → V3) := by
    rw [show (0 : V3 → V3) = fun _ => 0 from rfl, List.map_const']
    simp
  simp only [Py.bind_ok, arrays, vstack_arrays]
  rw [h2, h1]
  simp only [Py.bind_ok, Py.pure_eq, reshape, List.length_map, hshape, if_true]
  refine congrArg Except.ok ?_
  simp only [gravityResult, List.map_map, Pi.zero_apply, zero_add]
  norm_num [Function.comp_def]

/-- The fields of valid bodies. -/
theorem fields_exist : ∃ field : Ellipsoid → V3 → V3, ∀ e : Ellipsoid, e.Valid →
    (∀ pts density, e.density = some density → gravityOne (.ok pts) e density = .ok (pts.map (field e))) ∧
    (e.density = none → field e = 0) ∧ (e.Exact → field e = e.gravity) ∧
    (∀ k e', e' = { e with density := e.density.map (k * ·) } → ∀ p, field e' p = k • field e p) := by
  classical
  have key : ∀ (e : Ellipsoid) (density : ℝ), ∃ f : V3 → V3, e.Valid →
      (∀ pts, gravityOne (.ok pts) e density = .ok (pts.map f)) ∧
      (e.Exact → f = e.attraction density) ∧
      ∀ k pts, gravityOne (.ok pts) e (k * density) = .ok (pts.map (k • f)) := by
    intro e density
    by_cases h : e.Valid
    · obtain ⟨P, hP, f, hf, hk, hE⟩ := gravityPoint_total h density
      exact ⟨f, fun _ => ⟨gravityOne_eq hP hf, hE, fun k => gravityOne_eq hP (hk k)⟩⟩
    · exact ⟨0, fun h' => absurd h' h⟩
  choose f hf using key
  refine ⟨fun e => match e.density with | none => 0 | some d => f e d, fun e he => ⟨?_, ?_, ?_, ?_⟩⟩
  · intro pts density hd
    simp only [hd]
    exact (hf e density he).1 pts
  · intro hd; simp only [hd]
  · intro hE
    ext1 p
    unfold Ellipsoid.gravity
    rcases hd : e.density with _ | d
    · simp only [hd]; rfl
    · simp only [hd, (hf e d he).2.1 hE]
  · intro k e' he' p
    subst he'
    rcases hd : e.density with _ | d
    · simp [hd]
    · simp only [Option.map_some, hd]
      have h1 := (hf e d he).2.2 k [p]
      have h2 := (hf { e with density := some (k * d) } (k * d) he).1 [p]
      have h3 : gravityOne (.ok [p]) { e with density := some (k * d) } (k * d) =
          gravityOne (.ok [p]) e (k * d) := rfl
      rw [h3, h1] at h2
      have := Except.ok.inj h2
      simp only [List.map_cons, List.map_nil, List.cons.injEq, and_true, Pi.smul_apply] at this
      exact this.symm

end Verif.Ellipsoids
