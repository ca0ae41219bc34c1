import Verif.Ellipsoids.Props
import Mathlib.Analysis.Complex.ExponentialBounds

/-! Properties C68, C69 and C02 for ellipsoids: the forward models. -/

namespace Verif.Ellipsoids
open Filter Topology Verif.Forward Verif.Distance

/-! ### C69: gravity -/

/-- C69: `ellipsoid_gravity` returns, for every list of bodies and array of points, the sum of the
attractions (Dirichlet's formula) of exactly the bodies with a density, in mGal, with the last component
downward and the shape of the coordinates, and warns once for each of the other bodies. The bodies are
valid and their semiaxes are not almost equal without being equal. -/
theorem C69_value (shape : List ℕ) (pts : List P3) (hshape : pts.length = shape.prod) (bodies : Bodies)
    (h : ∀ e ∈ bodies.toList, e.Valid ∧ e.Exact) : ellipsoidGravity (arrays shape pts) bodies =
      .ok (gravityResult shape pts (fun p => (bodies.toList.map fun e => e.gravity p).sum),
        bodies.toList.countP fun e => e.density.isNone) := by
  obtain ⟨field, hf⟩ := fields_exist
  rw [ellipsoidGravity_eq shape pts hshape bodies field
    (fun e he d hd => (hf e (h e he).1).1 _ d hd) (fun e he => (hf e (h e he).1).2.1)]
  have : ∀ p, (bodies.toList.map fun e => field e p).sum =
      (bodies.toList.map fun e => e.gravity p).sum := fun p =>
    congrArg List.sum (List.map_congr_left fun e he => by rw [(hf e (h e he).1).2.2.1 (h e he).2])
  simp only [this]

/-- C69: for valid bodies it never fails, whatever the points and the shapes of the bodies. -/
theorem C69_total (shape : List ℕ) (pts : List P3) (hshape : pts.length = shape.prod) (bodies : Bodies)
    (h : ∀ e ∈ bodies.toList, e.Valid) : ∃ field : V3 → V3,
      ellipsoidGravity (arrays shape pts) bodies = .ok (gravityResult shape pts field,
        bodies.toList.countP fun e => e.density.isNone) := by
  obtain ⟨field, hf⟩ := fields_exist
  exact ⟨_, ellipsoidGravity_eq shape pts hshape bodies field
    (fun e he d hd => (hf e (h e he)).1 _ d hd) (fun e he => (hf e (h e he)).2.1)⟩

/-- C69: bodies without a density do not contribute. -/
theorem C69_skip (shape : List ℕ) (pts : List P3) (hshape : pts.length = shape.prod)
    (es : List Ellipsoid) (h : ∀ e ∈ es, e.Valid) : ∃ r,
      ellipsoidGravity (arrays shape pts) (.many es) = .ok (r, es.countP fun e => e.density.isNone) ∧
      ellipsoidGravity (arrays shape pts) (.many (es.filter fun e => e.density.isSome)) = .ok (r, 0) := by
  obtain ⟨field, hf⟩ := fields_exist
  refine ⟨_, ellipsoidGravity_eq shape pts hshape (.many es) field
    (fun e he d hd => (hf e (h e he)).1 _ d hd) (fun e he => (hf e (h e he)).2.1), ?_⟩
  rw [ellipsoidGravity_eq shape pts hshape (.many _) field
    (fun e he d hd => (hf e (h e (List.mem_of_mem_filter he))).1 _ d hd)
    (fun e he => (hf e (h e (List.mem_of_mem_filter he))).2.1)]
  have h1 : ∀ p, ((es.filter fun e => e.density.isSome).map fun e => field e p).sum =
      (es.map fun e => field e p).sum := by
    intro p
    clear hshape
    induction es with
    | nil => rfl
    | cons e es ih =>
      have ih' := ih fun e he => h e (by simp [he])
      rcases hd : e.density with _ | d
      · rw [List.filter_cons_of_neg (by simp [hd]), ih', List.map_cons, List.sum_cons,
          (hf e (h e (by simp))).2.1 hd]
        simp
      · rw [List.filter_cons_of_pos (by simp [hd]), List.map_cons, List.sum_cons, ih', List.map_cons,
          List.sum_cons]
  have h2 : (es.filter fun e => e.density.isSome).countP (fun e => e.density.isNone) = 0 := by
    rw [List.countP_eq_zero]
    intro e he
    have := List.of_mem_filter he
    rcases hd : e.density with _ | d <;> simp_all
  simp only [Bodies.toList, h1, h2]

/-- C69: the order of the bodies does not matter. -/
theorem C69_order (shape : List ℕ) (pts : List P3) (hshape : pts.length = shape.prod)
    {es es' : List Ellipsoid} (hperm : es.Perm es') (h : ∀ e ∈ es, e.Valid) :
    ellipsoidGravity (arrays shape pts) (.many es) = ellipsoidGravity (arrays shape pts) (.many es') := by
  obtain ⟨field, hf⟩ := fields_exist
  rw [ellipsoidGravity_eq shape pts hshape (.many es) field
    (fun e he d hd => (hf e (h e he)).1 _ d hd) (fun e he => (hf e (h e he)).2.1),
    ellipsoidGravity_eq shape pts hshape (.many es') field
    (fun e he d hd => (hf e (h e (hperm.mem_iff.2 he))).1 _ d hd)
    (fun e he => (hf e (h e (hperm.mem_iff.2 he))).2.1)]
  have h1 : ∀ p, (es.map fun e => field e p).sum = (es'.map fun e => field e p).sum := fun p =>
    (hperm.map _).sum_eq
  simp only [Bodies.toList, h1, hperm.countP_eq]

/-- C69: one body is a list with one body. -/
theorem C69_single (coordinates : NdArray × NdArray × NdArray) (e : Ellipsoid) :
    ellipsoidGravity coordinates (.one e) = ellipsoidGravity coordinates (.many [e]) := rfl

theorem confocalParameter_neg (s v : V3) : confocalParameter s (-v) = confocalParameter s v := by
  unfold confocalParameter
  simp

theorem quadric_neg (a b c : ℝ) (v : V3) : quadric a b c (-v) = quadric a b c v := by
  unfold quadric; simp

theorem computeGravity_odd {a b c : ℝ} (hc : 0 < c) (hbc : c ≤ b) (hab : b ≤ a) (density : ℝ) (v g : V3)
    (h : computeGravityEllipsoid v a b c density = .ok g) :
    computeGravityEllipsoid (-v) a b c density = .ok (-g) := by
  by_cases hs : Close a b ∧ Close b c
  · rw [computeGravity_sphere hc hbc hab hs] at h ⊢
    injection h with h
    rw [← h]
    refine congrArg _ (funext fun i => ?_)
    simp only [quadric_neg, Pi.neg_apply, neg_sq]
    ring
  · rw [computeGravity_spec hc hbc hab hs] at h ⊢
    injection h with h
    rw [← h]
    refine congrArg _ (funext fun i => ?_)
    simp only [confocalParameter_neg, Pi.neg_apply]
    ring

/-- Reflection of a point about the center of the body. -/
noncomputable def reflect (e : Ellipsoid) (q : P3) : P3 :=
  ⟨2 * e.center 0 - q.x, 2 * e.center 1 - q.y, 2 * e.center 2 - q.z⟩

/-- C69: the field of a body is odd about its center. -/
theorem C69_odd (shape : List ℕ) (pts : List P3) (hshape : pts.length = shape.prod) (e : Ellipsoid)
    (h : e.Valid) : ∃ r w, ellipsoidGravity (arrays shape pts) (.one e) = .ok (r, w) ∧
      ellipsoidGravity (arrays shape (pts.map (reflect e))) (.one e) = .ok (scaleResult (-1) r, w) := by
  obtain ⟨field, hf⟩ := fields_exist
  have hodd : ∀ q : P3, field e (vec (reflect e q)) = -field e (vec q) := by
    intro q
    rcases hd : e.density with _ | d
    · rw [(hf e h).2.1 hd]; simp
    · obtain ⟨P, σ, a, b, c, F⟩ := sortedFrame_exists h
      have h1 := (hf e h).1 [vec q] d hd
      have h2 := (hf e h).1 [vec (reflect e q)] d hd
      unfold gravityOne at h1 h2
      simp only [F.matrix, F.sorted, Py.bind_ok, List.mapM_cons, List.mapM_nil, List.map_cons,
        List.map_nil] at h1 h2
      have hrefl : vec (reflect e q) - e.center = -(vec q - e.center) := by
        ext i
        fin_cases i <;> simp only [vec, reflect, Pi.sub_apply, Pi.neg_apply, Matrix.cons_val_zero,
          Matrix.cons_val_one, Matrix.cons_val, Fin.zero_eta, Fin.mk_one, Fin.reduceFinMk] <;> ring
      rw [hrefl, Matrix.mulVec_neg] at h2
      obtain ⟨f, hfv, _⟩ := computeGravity_total F.hc F.hbc F.hab d
      have h3 := computeGravity_odd F.hc F.hbc F.hab d _ _
        (hfv ((P.transpose * e.rotationMatrix.transpose).mulVec (vec q - e.center)))
      rw [hfv] at h1
      rw [h3] at h2
      simp only [Py.bind_ok, Py.pure_eq, Except.ok.injEq, List.cons.injEq, and_true] at h1 h2
      rw [← h1, ← h2, Matrix.mulVec_neg]
  refine ⟨_, _, ellipsoidGravity_eq shape pts hshape (.one e) field
    (fun e' he d hd => ?_) (fun e' he => ?_), ?_⟩
  · obtain rfl : e' = e := by simpa [Bodies.toList] using he
    exact (hf _ h).1 _ d hd
  · obtain rfl : e' = e := by simpa [Bodies.toList] using he
    exact (hf _ h).2.1
  · rw [ellipsoidGravity_eq shape _ (by simpa using hshape) (.one e) field
      (fun e' he d hd => by
        obtain rfl : e' = e := by simpa [Bodies.toList] using he
        exact (hf _ h).1 _ d hd)
      (fun e' he => by
        obtain rfl : e' = e := by simpa [Bodies.toList] using he
        exact (hf _ h).2.1)]
    refine congrArg Except.ok (Prod.ext ?_ rfl)
    simp only [gravityResult, scaleResult, Bodies.toList, List.map_cons, List.map_nil, List.sum_cons,
      List.sum_nil, add_zero, List.map_map, Function.comp_def, hodd, Pi.neg_apply]
    norm_num

/-- C69: the field of a body whose semiaxes are not almost equal without being equal is continuous
everywhere, the surface included. -/
theorem C69_continuous_partial (e : Ellipsoid) (h : e.Valid) (hE : e.Exact) :
    ∃ field : V3 → V3, Continuous field ∧ ∀ shape pts, pts.length = shape.prod →
      ∃ w, ellipsoidGravity (arrays shape pts) (.one e) = .ok (gravityResult shape pts field, w) := by
  refine ⟨e.gravity, ?_, fun shape pts hs => ?_⟩
  · unfold Ellipsoid.gravity
    rcases e.density with _ | d
    · exact continuous_const
    · unfold Ellipsoid.attraction
      simp only [← Matrix.mulVecLin_apply]
      have h1 : Continuous fun p => (e.rotationMatrix.transpose.mulVecLin) (p - e.center) :=
        (LinearMap.continuous_of_finiteDimensional _).comp (continuous_id.sub continuous_const)
      exact (LinearMap.continuous_of_finiteDimensional _).comp
        ((dirichlet_continuous (valid_positive h) d).comp h1)
  · refine ⟨[e].countP fun e => e.density.isNone, ?_⟩
    rw [C69_value shape pts hs (.one e) (by simpa [Bodies.toList] using ⟨h, hE⟩)]
    simp only [Bodies.toList, List.map_cons, List.map_nil, List.sum_cons, List.sum_nil, add_zero]

/-- An ellipsoid that is almost a sphere. -/
noncomputable def almostSphere : Ellipsoid :=
  { a := 1, b := 1, c := 1 - 5e-6, yaw := 0, pitch := 0, roll := 0, center := 0, density := some 1,
    susceptibility := none, remanent_mag := none }

theorem gravitationalConst_pos : 0 < gravitationalConst := by
  unfold gravitationalConst; norm_num

/-- C69: the field of a body that is almost a sphere is not continuous across the surface: it is
taken as a sphere with the largest semiaxis, inside of the ellipsoid and outside. -/
theorem C69_not_full : almostSphere.Valid ∧ ∀ field : V3 → V3,
    (∀ q : P3, ellipsoidGravity (arrays [1] [q]) (.one almostSphere) =
      .ok (gravityResult [1] [q] field, 0)) → ¬Continuous field := by
  have hc : (0 : ℝ) < 1 - 5e-6 := by norm_num
  have hv : almostSphere.Valid := ⟨one_pos, one_pos, hc⟩
  refine ⟨hv, fun field hfield hcont => ?_⟩
  have hclose : Close 1 1 ∧ Close 1 (1 - 5e-6) := by
    refine ⟨close_self one_pos, ?_⟩
    unfold Close
    rw [max_eq_left (by norm_num), abs_of_pos (by norm_num)]; norm_num
  have hR : almostSphere.rotationMatrix = 1 := C71_identity
  have hP : getSemiaxesRotationMatrix almostSphere = .ok 1 := by
    unfold getSemiaxesRotationMatrix
    rw [if_pos]
    exact ⟨le_rfl, (by norm_num : (1 - 5e-6 : ℝ) ≤ 1)⟩
  have hs : sortedSemiaxes almostSphere = (1, 1, 1 - 5e-6) :=
    sorted_eq _ le_rfl (by norm_num) (List.Perm.refl _)
  have hval : ∀ t : ℝ, field ![0, 0, t] 2 =
      -(4 / 3 * Real.pi * 1 ^ 3 * 1) * gravitationalConst * t /
        (if quadric 1 1 (1 - 5e-6) ![0, 0, t] < 1 then 1 ^ 3 else √(t ^ 2) ^ 3) := by
    intro t
    have h1 := hfield ⟨0, 0, t⟩
    have h2 : gravityOne (.ok ([(⟨0, 0, t⟩ : P3)].map vec)) almostSphere 1 =
        .ok (([(⟨0, 0, t⟩ : P3)].map vec).map fun v => (fun i =>
          -(4 / 3 * Real.pi * 1 ^ 3 * 1) * gravitationalConst * v i /
        (if quadric 1 1 (1 - 5e-6) v < 1 then 1 ^ 3 else √(v 0 ^ 2 + v 1 ^ 2 + v 2 ^ 2) ^ 3) : V3)) := by
      unfold gravityOne
      rw [hP, hs]
      simp only [Py.bind_ok]
      refine mapM_ok _ _ _ fun v _ => ?_
      rw [hR, show v - almostSphere.center = v from sub_zero v]
      simp only [Matrix.transpose_one, Matrix.mul_one, Matrix.one_mulVec]
      rw [computeGravity_sphere hc (by norm_num) le_rfl hclose]
      rfl
    rw [ellipsoidGravity_eq [1] [⟨0, 0, t⟩] rfl (.one almostSphere) (fun _ v => fun i =>
          -(4 / 3 * Real.pi * 1 ^ 3 * 1) * gravitationalConst * v i /
        (if quadric 1 1 (1 - 5e-6) v < 1 then 1 ^ 3 else √(v 0 ^ 2 + v 1 ^ 2 + v 2 ^ 2) ^ 3))
      (fun e he d hd => by
        obtain rfl : e = almostSphere := by simpa [Bodies.toList] using he
        obtain rfl : (1 : ℝ) = d := by injection hd
        exact h2)
      (fun e he hd => by
        obtain rfl : e = almostSphere := by simpa [Bodies.toList] using he
        exact absurd hd (by simp [almostSphere]))] at h1
    simp only [Except.ok.injEq, Prod.mk.injEq, gravityResult, Bodies.toList, List.map_cons,
      List.map_nil, List.sum_cons, List.sum_nil, add_zero, NdArray.mk.injEq, List.cons.injEq,
      and_true, true_and, vec] at h1
    have h3 := h1.1.2.2
    have h4 : field ![0, 0, t] 2 = _ := (neg_injective (mul_right_cancel₀ (by norm_num) h3)).symm
    rw [h4]
    simp
  have hq : ∀ t : ℝ, quadric 1 1 (1 - 5e-6) ![0, 0, t] = t ^ 2 / (1 - 5e-6) ^ 2 := by
    intro t; unfold quadric; simp
  set c : ℝ := 1 - 5e-6 with hcdef
  set K : ℝ := -(4 / 3 * Real.pi * 1 ^ 3 * 1) * gravitationalConst with hK
  have hK0 : K ≠ 0 := by
    have := Real.pi_pos
    have := gravitationalConst_pos
    have : 0 < 4 / 3 * Real.pi * gravitationalConst := by positivity
    rw [hK]; intro h; nlinarith
  have hline : Continuous fun t : ℝ => field ![0, 0, t] 2 := by
    have : Continuous fun t : ℝ => (![0, 0, t] : V3) := by
      refine continuous_pi fun i => ?_
      fin_cases i <;> simp <;> fun_prop
    exact (continuous_apply 2).comp (hcont.comp this)
  have h1 : Tendsto (fun t : ℝ => field ![0, 0, t] 2) (𝓝[<] c) (𝓝 (K * c)) := by
    have hlin : Tendsto (fun t : ℝ => K * t) (𝓝[<] c) (𝓝 (K * c)) :=
      ((continuous_const.mul continuous_id).tendsto c).mono_left nhdsWithin_le_nhds
    refine hlin.congr' ?_
    have : Set.Ioo 0 c ∈ 𝓝[<] c := Ioo_mem_nhdsLT hc
    filter_upwards [this] with t ht
    rw [hval, hq, if_pos]
    · simp
    · rw [div_lt_one (by positivity)]
      exact pow_lt_pow_left₀ ht.2 ht.1.le (by norm_num)
  have h2 : Tendsto (fun t : ℝ => field ![0, 0, t] 2) (𝓝[<] c) (𝓝 (field ![0, 0, c] 2)) :=
    (hline.tendsto c).mono_left nhdsWithin_le_nhds
  have h3 := tendsto_nhds_unique h1 h2
  rw [hval, hq, div_self (by positivity), if_neg (lt_irrefl _), Real.sqrt_sq hc.le] at h3
  have h4 : c ^ 3 = 1 := by
    have : K * c * c ^ 3 = K * c := by
      have h6 := congrArg (· * c ^ 3) h3
      rw [h6, div_mul_cancel₀ _ (pow_pos hc 3).ne']
    have h5 : K * c ≠ 0 := mul_ne_zero hK0 hc.ne'
    exact mul_left_cancel₀ h5 (by rw [this, mul_one])
  rw [hcdef] at h4
  norm_num at h4

/-- Distance from the center of the body. -/
noncomputable def Ellipsoid.distance (e : Ellipsoid) (p : V3) : ℝ :=
  √((p 0 - e.center 0) ^ 2 + (p 1 - e.center 1) ^ 2 + (p 2 - e.center 2) ^ 2)

/-- C69: a sphere attracts the points outside as a point mass at its center would, and the points
inside with a force proportional to the distance. -/
theorem C69_sphere (e : Ellipsoid) (h : e.Valid) (hab : e.a = e.b) (hbc : e.b = e.c) (density : ℝ)
    (hd : e.density = some density) (p : V3) :
    (¬e.Inside p → e.gravity p = -(gravitationalConst * (4 / 3 * Real.pi * e.a ^ 3 * density) /
      e.distance p ^ 3) • (p - e.center)) ∧
    (e.Inside p → e.gravity p = -(gravitationalConst * (4 / 3 * Real.pi * density)) • (p - e.center)) := by
  have ha := h.1
  have hax : e.axes = ![e.a, e.a, e.a] := by
    unfold Ellipsoid.axes; rw [← hbc, ← hab]
  have hR := body_proper e
  have hRloc : e.rotationMatrix.mulVec (e.local p) = p - e.center := by
    unfold Ellipsoid.local
    rw [Matrix.mulVec_mulVec, hR.1, Matrix.one_mulVec]
  have hnorm : (e.local p) 0 ^ 2 + (e.local p) 1 ^ 2 + (e.local p) 2 ^ 2 =
      (p 0 - e.center 0) ^ 2 + (p 1 - e.center 1) ^ 2 + (p 2 - e.center 2) ^ 2 := by
    have h1 : dotProduct (e.local p) (e.local p) = dotProduct (p - e.center) (p - e.center) := by
      unfold Ellipsoid.local
      rw [Matrix.dotProduct_mulVec, ← Matrix.mulVec_transpose, Matrix.transpose_transpose,
        Matrix.mulVec_mulVec, hR.1, Matrix.one_mulVec]
    simp only [dotProduct, Fin.sum_univ_three, Pi.sub_apply] at h1
    nlinarith [h1]
  have hg : e.gravity p = e.rotationMatrix.mulVec (dirichletAttraction e.axes density (e.local p)) := by
    unfold Ellipsoid.gravity; rw [hd]; rfl
  have hin : e.Inside p ↔ quadric e.a e.a e.a (e.local p) < 1 := by
    rw [inside_iff, ← hbc, ← hab]
  have hsm : ∀ k : ℝ, (fun i => k * e.local p i) = k • e.local p := fun k => rfl
  constructor
  · intro ho
    rw [hg, hax, dirichlet_sphere ha]
    simp only [if_neg (fun h => ho (hin.2 h)), hnorm]
    rw [show (fun i => -(4 / 3 * Real.pi * e.a ^ 3 * density) * gravitationalConst * e.local p i /
      √((p 0 - e.center 0) ^ 2 + (p 1 - e.center 1) ^ 2 + (p 2 - e.center 2) ^ 2) ^ 3) =
      (-(gravitationalConst * (4 / 3 * Real.pi * e.a ^ 3 * density) / e.distance p ^ 3)) • e.local p by
      funext i; simp only [Pi.smul_apply, smul_eq_mul, Ellipsoid.distance]; ring]
    rw [Matrix.mulVec_smul, hRloc]
  · intro hi
    rw [hg, hax, dirichlet_sphere ha]
    simp only [if_pos (hin.1 hi)]
    rw [show (fun i => -(4 / 3 * Real.pi * e.a ^ 3 * density) * gravitationalConst * e.local p i /
      e.a ^ 3) = (-(gravitationalConst * (4 / 3 * Real.pi * density))) • e.local p by
      funext i; simp only [Pi.smul_apply, smul_eq_mul]; field_simp]
    rw [Matrix.mulVec_smul, hRloc]

/-! ### C02: superposition -/

/-- C02: the gravity of the bodies of two lists is the sum of the gravities of the lists, and no bodies
give zero. -/
theorem C02_ellipsoid_gravity (shape : List ℕ) (pts : List P3) (hshape : pts.length = shape.prod)
    (es es' : List Ellipsoid) (h : ∀ e ∈ es ++ es', e.Valid) : ∃ r r' w w',
      ellipsoidGravity (arrays shape pts) (.many es) = .ok (r, w) ∧
      ellipsoidGravity (arrays shape pts) (.many es') = .ok (r', w') ∧
      ellipsoidGravity (arrays shape pts) (.many (es ++ es')) = .ok (addResults r r', w + w') := by
  obtain ⟨field, hf⟩ := fields_exist
  have hall : ∀ l : List Ellipsoid, (∀ e ∈ l, e.Valid) → _ := fun l hl =>
    ellipsoidGravity_eq shape pts hshape (.many l) field
      (fun e he d hd => (hf e (hl e he)).1 _ d hd) (fun e he => (hf e (hl e he)).2.1)
  refine ⟨_, _, _, _, hall es fun e he => h e (by simp [he]), hall es' fun e he => h e (by simp [he]), ?_⟩
  rw [hall (es ++ es') h]
  simp only [Bodies.toList, List.map_append, List.sum_append, List.countP_append]
  refine congrArg Except.ok (Prod.ext ?_ rfl)
  simp only [gravityResult, addResults, Pi.add_apply]
  simp only [List.zipWith_map_left, List.zipWith_map_right, List.zipWith_self, ← add_mul, neg_add_rev]
  simp only [add_comm]

/-- C02: scaling the densities scales the gravity. -/
theorem C02_ellipsoid_density (shape : List ℕ) (pts : List P3) (hshape : pts.length = shape.prod)
    (es : List Ellipsoid) (h : ∀ e ∈ es, e.Valid) (k : ℝ) : ∃ r w,
      ellipsoidGravity (arrays shape pts) (.many es) = .ok (r, w) ∧
      ellipsoidGravity (arrays shape pts)
        (.many (es.map fun e => { e with density := e.density.map (k * ·) })) =
        .ok (scaleResult k r, w) := by
  obtain ⟨field, hf⟩ := fields_exist
  have hall : ∀ l : List Ellipsoid, (∀ e ∈ l, e.Valid) → _ := fun l hl =>
    ellipsoidGravity_eq shape pts hshape (.many l) field
      (fun e he d hd => (hf e (hl e he)).1 _ d hd) (fun e he => (hf e (hl e he)).2.1)
  refine ⟨_, _, hall es h, ?_⟩
  rw [hall _ (by
    intro e he
    obtain ⟨e', he', rfl⟩ := List.mem_map.1 he
    exact h e' he')]
  have h1 : ∀ p, ((es.map fun e => ({ e with density := e.density.map (k * ·) } : Ellipsoid)).map
      fun e => field e p).sum = k • (es.map fun e => field e p).sum := by
    intro p
    rw [List.map_map, List.smul_sum, List.map_map]
    exact congrArg List.sum (List.map_congr_left fun e he => (hf e (h e he)).2.2.2 k _ rfl p)
  have h2 : (es.map fun e => ({ e with density := e.density.map (k * ·) } : Ellipsoid)).countP
      (fun e => e.density.isNone) = es.countP fun e => e.density.isNone := by
    rw [List.countP_map]
    congr 1
    funext e
    rcases hd : e.density with _ | d <;> simp [hd]
  simp only [Bodies.toList, h1, h2]
  refine congrArg Except.ok (Prod.ext ?_ rfl)
  simp only [gravityResult, scaleResult, List.map_map, Function.comp_def, Pi.smul_apply, smul_eq_mul,
    mul_assoc, mul_neg, neg_mul]

end Verif.Ellipsoids
