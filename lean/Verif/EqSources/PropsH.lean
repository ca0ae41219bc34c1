import Verif.EqSources.PropsG

/-! C101: the order of the data does not matter to equivalent sources. -/

namespace Verif.EqSources
open Verif.Forward Verif.Engine Verif.Distance Verif.Layers

/-! ### Specification -/

/-- The external functions do not depend on the order of the data: the order of the rows of a system does
not change its solution, the coefficients follow the order of the columns (each column, of the `ks`,
keeps its coefficient), the block medians and the mean distance between neighbours do not depend on
the order of the points. -/
structure OrderFree (env : Env) : Prop where
  rows : ∀ (l l' : List (List ℝ × ℝ × ℝ)) (n : ℕ) (damping : Option ℝ), (∀ r ∈ l, r.1.length = n) → l.Perm l' →
    env.leastSquares (l.map (·.1)) (l.map (·.2.1)) none damping =
      env.leastSquares (l'.map (·.1)) (l'.map (·.2.1)) none damping ∧
    env.leastSquares (l.map (·.1)) (l.map (·.2.1)) (some (l.map (·.2.2))) damping =
      env.leastSquares (l'.map (·.1)) (l'.map (·.2.1)) (some (l'.map (·.2.2))) damping
  columns : ∀ (κ : Type) (fs : List (κ → ℝ)) (ks ks' : List κ) (d : List ℝ) (w : Option (List ℝ))
    (damping : Option ℝ) (c : List ℝ), fs ≠ [] → ks.Perm ks' →
    env.leastSquares (fs.map fun f => ks.map f) d w damping = .ok c →
    ∃ c', env.leastSquares (fs.map fun f => ks'.map f) d w damping = .ok c' ∧
      c.length = ks.length ∧ c'.length = ks'.length ∧ (ks.zip c).Perm (ks'.zip c')
  blocks : ∀ (b : ℝ × ℝ) (l l' : List P3), l.Perm l' →
    env.blockMedian b (pointArrs l) = env.blockMedian b (pointArrs l')
  neighbours : ∀ (l l' : List P3), l.Perm l' →
    env.meanNeighbour (l.map (·.x)) (l.map (·.y)) = env.meanNeighbour (l'.map (·.x)) (l'.map (·.y))

/-- The weights of a list of data (point, value, weight), if they are given. -/
def weightsOf (weighted : Bool) (dtype : DType) (shape : List ℕ) (l : List (P3 × ℝ × ℝ)) : Option CArr :=
  if weighted then some ⟨dtype, shape, l.map (·.2.2)⟩ else none

/-! ### Lemmas -/

theorem foldl_min_perm {l l' : List ℝ} {a a' : ℝ} (h : l.Perm l') (ha : a ∈ l) (ha' : a' ∈ l') :
    l.foldl min a = l'.foldl min a' := by
  have key : ∀ (l : List ℝ) (a : ℝ), l.foldl min a ≤ a ∧ (∀ x ∈ l, l.foldl min a ≤ x) ∧
      (l.foldl min a = a ∨ l.foldl min a ∈ l) := by
    intro l
    induction l with
    | nil => intro a; simp
    | cons b l ih =>
      intro a
      obtain ⟨h1, h2, h3⟩ := ih (min a b)
      rw [List.foldl_cons]
      refine ⟨h1.trans (min_le_left _ _), ?_, ?_⟩
      · intro x hx
        rcases List.mem_cons.1 hx with rfl | hx
        · exact h1.trans (min_le_right _ _)
        · exact h2 x hx
      · rcases h3 with h3 | h3
        · rcases min_choice a b with h | h
          · exact Or.inl (by rw [h3, h])
          · exact Or.inr (by rw [h3, h]; simp)
        · exact Or.inr (by simp [h3])
  obtain ⟨-, h2, h3⟩ := key l a
  obtain ⟨-, g2, g3⟩ := key l' a'
  have m1 : l.foldl min a ∈ l := h3.elim (fun e => by rw [e]; exact ha) id
  have m2 : l'.foldl min a' ∈ l' := g3.elim (fun e => by rw [e]; exact ha') id
  exact le_antisymm (h2 _ (h.mem_iff.2 m2)) (g2 _ (h.mem_iff.1 m1))

theorem foldl_max_neg (l : List ℝ) (a : ℝ) : l.foldl max a = -(l.map (-·)).foldl min (-a) := by
  induction l generalizing a with
  | nil => simp
  | cons b l ih => rw [List.foldl_cons, ih, List.map_cons, List.foldl_cons, min_neg_neg]

theorem foldl_max_perm {l l' : List ℝ} {a a' : ℝ} (h : l.Perm l') (ha : a ∈ l) (ha' : a' ∈ l') :
    l.foldl max a = l'.foldl max a' := by
  rw [foldl_max_neg, foldl_max_neg, foldl_min_perm (h.map (-·)) (List.mem_map_of_mem ha)
    (List.mem_map_of_mem ha')]

theorem getRegion_perm {obs obs' : List P3} (h : obs.Perm obs') :
    getRegion (obs.map (·.x)) (obs.map (·.y)) = getRegion (obs'.map (·.x)) (obs'.map (·.y)) := by
  cases obs with
  | nil => rw [List.nil_perm.1 h]
  | cons q l =>
    cases obs' with
    | nil => exact absurd h.length_eq (by simp)
    | cons q' l' =>
      have hx := h.map (·.x)
      have hy := h.map (·.y)
      simp only [List.map_cons] at hx hy
      simp only [getRegion, List.map_cons]
      rw [foldl_min_perm hx (a := q.x) (a' := q'.x) (by simp) (by simp),
        foldl_max_perm hx (a := q.x) (a' := q'.x) (by simp) (by simp),
        foldl_min_perm hy (a := q.y) (a' := q'.y) (by simp) (by simp),
        foldl_max_perm hy (a := q.y) (a' := q'.y) (by simp) (by simp)]

theorem pointArrs_inj {l l' : List P3} (h : pointArrs l = pointArrs l') : l = l' := by
  unfold pointArrs at h
  simp only [Prod.mk.injEq] at h
  obtain ⟨h1, h2, h3⟩ := h
  have hl : l.length = l'.length := by simpa using congrArg List.length h1
  apply List.ext_getElem hl
  intro i hi hi'
  have e1 : (l.map (·.x))[i]? = (l'.map (·.x))[i]? := by rw [h1]
  have e2 : (l.map (·.y))[i]? = (l'.map (·.y))[i]? := by rw [h2]
  have e3 : (l.map (·.z))[i]? = (l'.map (·.z))[i]? := by rw [h3]
  simp [hi, hi'] at e1 e2 e3
  cases h4 : l[i]; cases h5 : l'[i]
  rw [h4, h5] at e1 e2 e3
  simp at e1 e2 e3
  rw [e1, e2, e3]

/-- The sources below points in another order are the same sources in another order. -/
theorem choosePoints_perm {env : Env} (hE : OrderFree env) (P : Params) (hd : P.dtype.IsFloat)
    {obs obs' : List P3} (hperm : obs.Perm obs') {d : Option ℝ} {pts : List P3}
    (h : ∀ s, choosePoints env P (pointArrs obs) s = ({ s with depth_ := some d }, .ok (pointArrs pts))) :
    ∃ pts', pts.Perm pts' ∧
      ∀ s, choosePoints env P (pointArrs obs') s = ({ s with depth_ := some d }, .ok (pointArrs pts')) := by
  unfold choosePoints buildPoints blockCoordinates sourceDepth at h ⊢
  cases hp : P.points with
  | some p =>
    rw [hp] at h
    exact ⟨pts, List.Perm.refl _, h⟩
  | none =>
    rw [hp] at h
    cases hb : P.block_size with
    | some b =>
      rw [hb] at h
      refine ⟨pts, List.Perm.refl _, ?_⟩
      intro s
      have := h s
      simp only [hE.blocks b _ _ hperm] at this
      exact this
    | none =>
      rw [hb] at h
      have hn := hE.neighbours _ _ hperm
      have h0 := h {}
      have key : ∀ depth : ℝ, castArrs P.dtype ((pointArrs obs).1, (pointArrs obs).2.1,
          (pointArrs obs).2.2.map fun u => u - depth) = pointArrs (obs.map fun q => ⟨q.x, q.y, q.z - depth⟩) := by
        intro depth
        rw [castArrs_float hd]
        simp [pointArrs]
      have key' : ∀ depth : ℝ, castArrs P.dtype ((pointArrs obs').1, (pointArrs obs').2.1,
          (pointArrs obs').2.2.map fun u => u - depth) =
            pointArrs (obs'.map fun q => ⟨q.x, q.y, q.z - depth⟩) := by
        intro depth
        rw [castArrs_float hd]
        simp [pointArrs]
      cases hdep : P.depth with
      | num x =>
        simp only [hdep, key] at h0 ⊢
        simp only [Prod.mk.injEq, Except.ok.injEq] at h0
        obtain rfl := pointArrs_inj h0.2
        refine ⟨_, hperm.map _, fun s => ?_⟩
        simp only [key']
        have hx := h s
        simp only [hdep, key] at hx
        simp only [Prod.mk.injEq, and_true] at hx ⊢
        exact hx
      | str t =>
        have e1 : env.meanNeighbour (pointArrs obs).1 (pointArrs obs).2.1 =
            env.meanNeighbour (pointArrs obs').1 (pointArrs obs').2.1 := hn
        simp only [hdep] at h0 ⊢
        cases hm : env.meanNeighbour (pointArrs obs).1 (pointArrs obs).2.1 with
        | error e =>
          rw [hm] at h0
          simp [Except.map] at h0
        | ok m =>
          rw [hm] at h0
          rw [← e1, hm]
          simp only [Except.map, key] at h0 ⊢
          simp only [Prod.mk.injEq, Except.ok.injEq] at h0
          obtain rfl := pointArrs_inj h0.2
          refine ⟨_, hperm.map _, fun s => ?_⟩
          simp only [key']
          have hx := h s
          simp only [hdep, hm, Except.map, key] at hx
          simp only [Prod.mk.injEq, and_true] at hx ⊢
          exact hx

/-- The solution of a system of data in another order and sources in another order. -/
theorem leastSquares_perm {env : Env} (hE : OrderFree env) (g : P3 → P3 → ℝ) {l l' : List (P3 × ℝ × ℝ)}
    (hl : l.Perm l') (hne : l ≠ []) {pts pts' : List P3} (hp : pts.Perm pts') (weighted : Bool)
    (damping : Option ℝ) {c : List ℝ}
    (h : env.leastSquares ((l.map (·.1)).map fun q => pts.map fun p => g q p) (l.map (·.2.1))
      (if weighted then some (l.map (·.2.2)) else none) damping = .ok c) :
    ∃ c', env.leastSquares ((l'.map (·.1)).map fun q => pts'.map fun p => g q p) (l'.map (·.2.1))
        (if weighted then some (l'.map (·.2.2)) else none) damping = .ok c' ∧
      c.length = pts.length ∧ c'.length = pts'.length ∧ (pts.zip c).Perm (pts'.zip c') := by
  have hfs : ((l.map (·.1)).map g) ≠ [] := by simpa using hne
  have hcol := hE.columns P3 ((l.map (·.1)).map g) pts pts' (l.map (·.2.1))
    (if weighted then some (l.map (·.2.2)) else none) damping c hfs hp (by
      rw [List.map_map]; exact h)
  obtain ⟨c', h1, h2, h3, h4⟩ := hcol
  refine ⟨c', ?_, h2, h3, h4⟩
  rw [← h1]
  have hrow := hE.rows (l'.map fun r => (pts'.map (g r.1), r.2)) (l.map fun r => (pts'.map (g r.1), r.2))
    pts'.length damping (by
      intro r hr
      obtain ⟨r0, -, rfl⟩ := List.mem_map.1 hr
      simp) (hl.symm.map _)
  simp only [List.map_map, Function.comp_def] at hrow ⊢
  cases weighted with
  | false => exact hrow.1
  | true => exact hrow.2

theorem field_perm (pos : P3 → E3) {l l' : List (P3 × ℝ)} (h : l.Perm l') : field pos l = field pos l' := by
  funext q
  exact (h.map _).sum_eq

/-! ### C101 -/

/-- C101: if `fit` returns with data in some order, it returns with the same data in any other order (each
value with its point and weight), with the same region and depth, and `predict` gives the same values
at any points. -/
theorem C101_cartesian (env : Env) (hE : OrderFree env) (junk : Junk) (mode mode' : Mode) (P : Params)
    (hd : P.dtype.IsFloat) (d1 d2 d3 dd dw : DType) (shape shape' : List ℕ) (weighted : Bool)
    (l l' : List (P3 × ℝ × ℝ)) (hl : l.Perm l') (pts : List P3) (s s1 : State)
    (h : fit env junk mode P (coordArrs d1 d2 d3 shape (l.map (·.1))) ⟨dd, shape, l.map (·.2.1)⟩
      (weightsOf weighted dw shape l) s = (s1, .ok ()))
    (hpts : s1.points_ = some (pointArrs pts))
    (hm : mode.Full l.length pts.length) (hm' : mode'.Full l.length pts.length) :
    ∃ s2, fit env junk mode' P (coordArrs d1 d2 d3 shape' (l'.map (·.1))) ⟨dd, shape', l'.map (·.2.1)⟩
        (weightsOf weighted dw shape' l') s = (s2, .ok ()) ∧
      s2.region_ = s1.region_ ∧ s2.depth_ = s1.depth_ ∧
      (∃ pts', s2.points_ = some (pointArrs pts') ∧ pts.Perm pts') ∧
      ∀ (q q' : Mode) (e1 e2 e3 : DType) (gridShape : List ℕ) (grid : List P3),
        gridShape.prod = grid.length → q.Full grid.length (2 * pts.length) →
        q'.Full grid.length (2 * pts.length) →
        predict junk q' P (coordArrs e1 e2 e3 gridShape grid) s2 =
          predict junk q P (coordArrs e1 e2 e3 gridShape grid) s1 ∧
        ∃ r, predict junk q P (coordArrs e1 e2 e3 gridShape grid) s1 = .ok r := by
  obtain ⟨region, d, p1, c, f1, f2, f3, f4, f5, f6⟩ := fit_ok _ _ _ _ _ _ _ _ _ h
  have es := h.symm.trans (f6 s)
  simp only [Prod.mk.injEq, and_true] at es
  rw [es] at hpts
  simp only [Option.some.injEq] at hpts
  subst hpts
  have hobs := hl.map (·.1)
  rw [castArrs_float hd, n1dArrays_coordArrs] at f2 f3 f4 f5
  obtain ⟨pts', hp, f3'⟩ := choosePoints_perm hE P hd hobs f3
  have hne : l ≠ [] := by rintro rfl; cases f2
  have hw : ∀ (shape : List ℕ) (l : List (P3 × ℝ × ℝ)), ((weightsOf weighted dw shape l).map
      fun w => w.data.map P.dtype.cast) = if weighted then some (l.map (·.2.2)) else none := by
    intro shape l
    unfold weightsOf
    cases weighted <;> simp [cast_float_fun hd]
  rw [hw, jacobian_eq junk mode _ hd _ _ (by simpa using hm)] at f5
  simp only [cast_float_fun hd, List.map_id] at f5
  obtain ⟨c', k1, k2, k3, k4⟩ := leastSquares_perm hE greensFuncCartesian hl hne hp weighted P.damping f5
  have hlen : (pointArrs (l'.map (·.1))).1.length = (pointArrs (l.map (·.1))).1.length := by
    simp [pointArrs, hl.length_eq]
  have hlen' : (pointArrs pts').1.length = (pointArrs pts).1.length := by
    simp [pointArrs, hp.length_eq]
  refine ⟨{ s with
    region_ := some region, depth_ := some d, points_ := some (pointArrs pts'),
    coefs_ := some c',
    allocs := s.allocs ++ [(pointArrs (l'.map (·.1))).1.length * (pointArrs pts').1.length *
      P.dtype.itemsize] }, ?_, by rw [es], by rw [es], ⟨pts', rfl, hp⟩, ?_⟩
  · have hc : checkFitInput (coordArrs d1 d2 d3 shape' (l'.map (·.1))) ⟨dd, shape', l'.map (·.2.1)⟩
        (weightsOf weighted dw shape' l') = .ok () := by
      unfold checkFitInput weightsOf coordArrs
      cases weighted <;> simp
    have hr : getRegion (pointArrs (l'.map (·.1))).1 (pointArrs (l'.map (·.1))).2.1 = .ok region := by
      rw [← f2]; exact (getRegion_perm hobs).symm
    unfold fit solve
    rw [hc]
    simp only [castArrs_float hd, n1dArrays_coordArrs, hr, f3', hw]
    rw [hlen, hlen', f4, jacobian_eq junk mode' _ hd _ _ (by
      simpa [← hl.length_eq, ← hp.length_eq] using hm')]
    simp only [cast_float_fun hd, List.map_id, k1]
  · intro q q' e1 e2 e3 gs grid hg hq hq'
    rw [predict_eq junk q P hd e1 e2 e3 gs grid hg (pts.zip c) (by rw [List.length_zip, k2, min_self]; exact hq)
        s1 (by rw [es, List.map_fst_zip (by omega)]) (by rw [es, List.map_snd_zip (by omega)]),
      predict_eq junk q' P hd e1 e2 e3 gs grid hg (pts'.zip c')
        (by rw [List.length_zip, k3, min_self, ← hp.length_eq]; exact hq') _
        (by rw [List.map_fst_zip (by omega)]) (by rw [List.map_snd_zip (by omega)]),
      field_perm cartPos k4]
    exact ⟨rfl, _, rfl⟩

/-- C101 for spherical sources. -/
theorem C101_spherical (env : Env) (hE : OrderFree env) (junk : Junk) (mode mode' : Mode) (P : SphParams)
    (d1 d2 d3 dd dw : DType) (shape shape' : List ℕ) (weighted : Bool)
    (l l' : List (P3 × ℝ × ℝ)) (hl : l.Perm l') (pts : List P3) (s s1 : State)
    (h : fitSph env junk mode P (coordArrs d1 d2 d3 shape (l.map (·.1))) ⟨dd, shape, l.map (·.2.1)⟩
      (weightsOf weighted dw shape l) s = (s1, .ok ()))
    (hpts : s1.points_ = some (pointArrs pts))
    (hm : mode.Full l.length pts.length) (hm' : mode'.Full l.length pts.length) :
    ∃ s2, fitSph env junk mode' P (coordArrs d1 d2 d3 shape' (l'.map (·.1))) ⟨dd, shape', l'.map (·.2.1)⟩
        (weightsOf weighted dw shape' l') s = (s2, .ok ()) ∧
      s2.region_ = s1.region_ ∧
      (∃ pts', s2.points_ = some (pointArrs pts') ∧ pts.Perm pts') ∧
      ∀ (q q' : Mode) (e1 e2 e3 : DType) (_ : e1.IsFloat) (gridShape : List ℕ) (grid : List P3),
        gridShape.prod = grid.length → q.Full grid.length (2 * pts.length) →
        q'.Full grid.length (2 * pts.length) →
        predictSph junk q' (coordArrs e1 e2 e3 gridShape grid) s2 =
          predictSph junk q (coordArrs e1 e2 e3 gridShape grid) s1 ∧
        ∃ r, predictSph junk q (coordArrs e1 e2 e3 gridShape grid) s1 = .ok r := by
  obtain ⟨region, c, f1, f2, f5, f6⟩ := fitSph_ok _ _ _ _ _ _ _ _ _ h
  have es := h.symm.trans (f6 s)
  simp only [Prod.mk.injEq, and_true] at es
  rw [es] at hpts
  simp only [Option.some.injEq] at hpts
  rw [hpts] at es f5
  rw [n1dArrays_coordArrs] at f2 f5 hpts es
  have halloc : env.alloc ((pointArrs (l.map (·.1))).1.length * (pointArrs pts).1.length * 8) = .ok () := by
    have := congrArg Prod.snd h
    unfold fitSph solve at this
    rw [f1] at this
    simp only [n1dArrays_coordArrs, f2, hpts] at this
    cases ha : env.alloc ((pointArrs (l.map (·.1))).1.length * (pointArrs pts).1.length *
        DType.itemsize .float64) with
    | error e => rw [ha] at this; cases this
    | ok _ => exact ha
  have hobs := hl.map (·.1)
  obtain ⟨pts', hp, hpts'⟩ : ∃ pts', pts.Perm pts' ∧ sphPoints P (pointArrs (l'.map (·.1))) = pointArrs pts' := by
    unfold sphPoints at hpts ⊢
    cases hP : P.points with
    | some p => rw [hP] at hpts; exact ⟨pts, List.Perm.refl _, hpts⟩
    | none =>
      rw [hP] at hpts
      refine ⟨(l'.map (·.1)).map fun q => ⟨q.x, q.y, q.z - P.relative_depth⟩, ?_, by simp [pointArrs]⟩
      have : pts = (l.map (·.1)).map fun q => (⟨q.x, q.y, q.z - P.relative_depth⟩ : P3) := by
        apply pointArrs_inj
        rw [← hpts]
        simp [pointArrs]
      rw [this]
      exact hobs.map _
  have hne : l ≠ [] := by rintro rfl; cases f2
  have hw : ∀ (shape : List ℕ) (l : List (P3 × ℝ × ℝ)), ((weightsOf weighted dw shape l).map
      (·.data)) = if weighted then some (l.map (·.2.2)) else none := by
    intro shape l
    unfold weightsOf
    cases weighted <;> simp
  rw [hw, jacobian_eq junk mode _ (d := .float64) trivial _ _ (by simpa using hm)] at f5
  obtain ⟨c', k1, k2, k3, k4⟩ := leastSquares_perm hE greensFuncSpherical hl hne hp weighted P.damping f5
  have hlen : (pointArrs (l'.map (·.1))).1.length = (pointArrs (l.map (·.1))).1.length := by
    simp [pointArrs, hl.length_eq]
  have hlen' : (pointArrs pts').1.length = (pointArrs pts).1.length := by
    simp [pointArrs, hp.length_eq]
  refine ⟨{ s with
    region_ := some region, points_ := some (pointArrs pts'), coefs_ := some c',
    allocs := s.allocs ++ [(pointArrs (l'.map (·.1))).1.length * (pointArrs pts').1.length *
      DType.itemsize .float64] }, ?_, by rw [es], ⟨pts', rfl, hp⟩, ?_⟩
  · have hc : checkFitInput (coordArrs d1 d2 d3 shape' (l'.map (·.1))) ⟨dd, shape', l'.map (·.2.1)⟩
        (weightsOf weighted dw shape' l') = .ok () := by
      unfold checkFitInput weightsOf coordArrs
      cases weighted <;> simp
    have hr : getRegion (pointArrs (l'.map (·.1))).1 (pointArrs (l'.map (·.1))).2.1 = .ok region := by
      rw [← f2]; exact (getRegion_perm hobs).symm
    unfold fitSph solve
    rw [hc]
    simp only [n1dArrays_coordArrs, hr, hpts', hw]
    rw [hlen, hlen', show DType.itemsize .float64 = 8 from rfl, halloc,
      jacobian_eq junk mode' _ (d := .float64) trivial _ _ (by
      simpa [← hl.length_eq, ← hp.length_eq] using hm')]
    simp only [k1]
  · intro q q' e1 e2 e3 he gs grid hg hq hq'
    rw [predictSph_eq junk q e1 e2 e3 he gs grid hg (pts.zip c) (by rw [List.length_zip, k2, min_self]; exact hq)
        s1 (by rw [es, List.map_fst_zip (by omega)]) (by rw [es, List.map_snd_zip (by omega)]),
      predictSph_eq junk q' e1 e2 e3 he gs grid hg (pts'.zip c')
        (by rw [List.length_zip, k3, min_self, ← hp.length_eq]; exact hq') _
        (by rw [List.map_fst_zip (by omega)]) (by rw [List.map_snd_zip (by omega)]),
      field_perm sphPos k4]
    exact ⟨rfl, _, rfl⟩

end Verif.EqSources
