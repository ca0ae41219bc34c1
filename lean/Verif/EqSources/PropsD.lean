import Verif.EqSources.PropsB
import Verif.Tesseroid.Symmetry

/-! C93: the equivalent sources do not depend on the origin nor on the orientation of the coordinates. -/

namespace Verif.EqSources
open Verif.Forward Verif.Engine Verif.Distance Verif.Tesseroid

/-! ### Specification -/

/-- A rigid motion that keeps the vertical: a horizontal rotation or reflection (an orthogonal matrix)
followed by a translation. -/
structure Motion where
  a : ℝ
  b : ℝ
  c : ℝ
  d : ℝ
  tx : ℝ
  ty : ℝ
  tz : ℝ
  unit1 : a ^ 2 + c ^ 2 = 1
  unit2 : b ^ 2 + d ^ 2 = 1
  orth : a * b + c * d = 0

/-- where a point goes -/
def Motion.move (m : Motion) (q : P3) : P3 :=
  ⟨m.a * q.x + m.b * q.y + m.tx, m.c * q.x + m.d * q.y + m.ty, q.z + m.tz⟩

/-- the mean distance to the nearest neighbour does not depend on the frame -/
def KeepsNeighbours (env : Env) (m : Motion) : Prop :=
  ∀ pts : List P3, env.meanNeighbour ((pts.map m.move).map (·.x)) ((pts.map m.move).map (·.y)) =
    env.meanNeighbour (pts.map (·.x)) (pts.map (·.y))

/-- the block medians move with the points -/
def KeepsBlocks (env : Env) (m : Motion) (b : ℝ × ℝ) : Prop :=
  ∀ pts : List P3,
    (∃ e, env.blockMedian b (pointArrs pts) = .error e ∧
      env.blockMedian b (pointArrs (pts.map m.move)) = .error e) ∨
    ∃ med : List P3, env.blockMedian b (pointArrs pts) = .ok (pointArrs med) ∧
      env.blockMedian b (pointArrs (pts.map m.move)) = .ok (pointArrs (med.map m.move))

/-- A translation. -/
def translation (x y z : ℝ) : Motion := ⟨1, 0, 0, 1, x, y, z, by norm_num, by norm_num, by norm_num⟩

/-- the windows contain the same points when the points and the region are translated -/
def KeepsWindows (env : Env) (x y : ℝ) : Prop :=
  ∀ (xs ys : List ℝ) (w e s n size overlap : ℝ),
    env.rollingWindow (xs.map (· + x)) (ys.map (· + y)) (w + x, e + x, s + y, n + y) size overlap =
      env.rollingWindow xs ys (w, e, s, n) size overlap

/-! ### Lemmas -/

theorem rd_point (junk : Junk) (n1 n2 n3 : String) (l : List P3) (i : ℕ) (h : i < l.length) :
    (⟨rd junk n1 (l.map (·.x)) i, rd junk n2 (l.map (·.y)) i, rd junk n3 (l.map (·.z)) i⟩ : P3) = l[i] := by
  simp [rd, h]

theorem jacobian_rel (junk : Junk) (mode mode' : Mode) (g : P3 → P3 → ℝ) {d : DType} (hd : d.IsFloat)
    (R : P3 → P3 → Prop) (hg : ∀ q q' p p', R q q' → R p p' → g q' p' = g q p) {obs obs' pts pts' : List P3}
    (ho : List.Forall₂ R obs obs') (hp : List.Forall₂ R pts pts')
    (hm : mode.Full obs.length pts.length) (hm' : mode'.Full obs'.length pts'.length) :
    jacobian junk mode' g d (pointArrs obs') (pointArrs pts') =
      jacobian junk mode g d (pointArrs obs) (pointArrs pts) := by
  rw [jacobian_eq junk mode' g hd obs' pts' hm', jacobian_eq junk mode g hd obs pts hm]
  have row : ∀ q q', R q q' → pts'.map (g q') = pts.map (g q) := by
    intro q q' hq
    clear hm hm'
    induction hp with
    | nil => rfl
    | cons h0 _ ih => simp only [List.map_cons, ih, hg _ _ _ _ hq h0]
  clear hm hm'
  induction ho with
  | nil => rfl
  | cons h0 _ ih => simp only [List.map_cons, ih, row _ _ h0]

theorem predictKernel_rel (junk : Junk) (mode mode' : Mode) (g : P3 → P3 → ℝ) {d d' : DType}
    (hd : d.IsFloat) (hd' : d'.IsFloat)
    (R : P3 → P3 → Prop) (hg : ∀ q q' p p', R q q' → R p p' → g q' p' = g q p) {obs obs' pts pts' : List P3}
    (ho : List.Forall₂ R obs obs') (hp : List.Forall₂ R pts pts') (coefs : List ℝ) (size : ℕ)
    (hm : mode.Full obs.length (2 * pts.length)) (hm' : mode'.Full obs'.length (2 * pts'.length)) :
    predictKernel junk mode' g d' (pointArrs obs') (pointArrs pts') coefs size =
      predictKernel junk mode g d (pointArrs obs) (pointArrs pts) coefs size := by
  rw [predictKernel_float junk mode' g hd' _ _ _ _ (by simpa [pointArrs] using hm'),
    predictKernel_float junk mode g hd _ _ _ _ (by simpa [pointArrs] using hm)]
  rw [List.forall₂_iff_get] at ho hp
  apply List.map_congr_left
  intro i _
  have e1 : (pointArrs obs).1.length = obs.length := by simp [pointArrs]
  have e2 : (pointArrs obs').1.length = obs'.length := by simp [pointArrs]
  have e3 : (pointArrs pts).1.length = pts.length := by simp [pointArrs]
  have e4 : (pointArrs pts').1.length = pts'.length := by simp [pointArrs]
  rw [e1, e2, e3, e4, ← ho.1, ← hp.1]
  by_cases hi : i < obs.length
  · rw [if_pos hi, if_pos hi]
    congr 1
    apply List.map_congr_left
    intro j hj
    rw [List.mem_range] at hj
    simp only [pointArrs]
    rw [rd_point _ _ _ _ obs' i (by rw [← ho.1]; exact hi), rd_point _ _ _ _ obs i hi,
      rd_point _ _ _ _ pts' j (by rw [← hp.1]; exact hj), rd_point _ _ _ _ pts j hj]
    have := hg _ _ _ _ (ho.2 i hi (by rw [← ho.1]; exact hi)) (hp.2 j hj (by rw [← hp.1]; exact hj))
    simp only [List.get_eq_getElem] at this
    rw [this]
  · rw [if_neg hi, if_neg hi]

theorem Motion.greens (m : Motion) (q p : P3) :
    greensFuncCartesian (m.move q) (m.move p) = greensFuncCartesian q p := by
  unfold greensFuncCartesian distanceCartesian Motion.move
  simp only
  congr 2
  have h1 := m.unit1
  have h2 := m.unit2
  have h3 := m.orth
  linear_combination ((q.x - p.x) ^ 2) * h1 + ((q.y - p.y) ^ 2) * h2 + (2 * (q.x - p.x) * (q.y - p.y)) * h3

theorem forall2_move (m : Motion) (l : List P3) : List.Forall₂ (fun q q' => q' = m.move q) l (l.map m.move) := by
  rw [List.forall₂_map_right_iff, List.forall₂_same]
  exact fun _ _ => rfl

theorem Motion.greens_rel (m : Motion) (q q' p p' : P3) (h : q' = m.move q) (h' : p' = m.move p) :
    greensFuncCartesian q' p' = greensFuncCartesian q p := by
  subst h h'
  exact m.greens q p

theorem Motion.down (m : Motion) (q : P3) (d : ℝ) :
    m.move ⟨q.x, q.y, q.z - d⟩ = ⟨(m.move q).x, (m.move q).y, (m.move q).z - d⟩ := by
  unfold Motion.move
  simp only [P3.mk.injEq, true_and]
  ring

theorem getRegion_cases (l l' : List P3) (h : l.length = l'.length) :
    (getRegion (pointArrs l).1 (pointArrs l).2.1 = .error .ValueError ∧
      getRegion (pointArrs l').1 (pointArrs l').2.1 = .error .ValueError) ∨
    ∃ r r', getRegion (pointArrs l).1 (pointArrs l).2.1 = .ok r ∧
      getRegion (pointArrs l').1 (pointArrs l').2.1 = .ok r' := by
  cases l with
  | nil =>
    cases l' with
    | nil => exact .inl ⟨rfl, rfl⟩
    | cons _ _ => simp at h
  | cons _ _ =>
    cases l' with
    | nil => simp at h
    | cons _ _ => exact .inr ⟨_, _, rfl, rfl⟩

theorem checkFitInput_coordArrs (d1 d2 d3 : DType) (shape : List ℕ) (l l' : List P3) (data : CArr)
    (weights : Option CArr) :
    checkFitInput (coordArrs d1 d2 d3 shape l') data weights =
      checkFitInput (coordArrs d1 d2 d3 shape l) data weights := rfl

/-- the parameters with the sources given by the user, if any -/
def withPoints (P : Params) (points : Option (DType × DType × DType × List ℕ × List P3)) : Params :=
  { P with points := points.map fun p => coordArrs p.1 p.2.1 p.2.2.1 p.2.2.2.1 p.2.2.2.2 }

/-- the points of the user, moved -/
def movePoints (m : Motion) (points : Option (DType × DType × DType × List ℕ × List P3)) :
    Option (DType × DType × DType × List ℕ × List P3) :=
  points.map fun p => (p.1, p.2.1, p.2.2.1, p.2.2.2.1, p.2.2.2.2.map m.move)

theorem choosePoints_move (env : Env) (m : Motion) (P : Params) (hd : P.dtype.IsFloat)
    (points : Option (DType × DType × DType × List ℕ × List P3))
    (hn : points = none → (∃ t, P.depth = .str t) → KeepsNeighbours env m)
    (hb : points = none → ∀ b, P.block_size = some b → KeepsBlocks env m b) (obs : List P3) :
    (∃ e, (∀ s, choosePoints env (withPoints P points) (pointArrs obs) s = (s, .error e)) ∧
      ∀ s, choosePoints env (withPoints P (movePoints m points)) (pointArrs (obs.map m.move)) s =
        (s, .error e)) ∨
    ∃ d pts, (∀ s, choosePoints env (withPoints P points) (pointArrs obs) s =
        ({ s with depth_ := some d }, .ok (pointArrs pts))) ∧
      ∀ s, choosePoints env (withPoints P (movePoints m points)) (pointArrs (obs.map m.move)) s =
        ({ s with depth_ := some d }, .ok (pointArrs (pts.map m.move))) := by
  cases points with
  | some p =>
    refine .inr ⟨none, p.2.2.2.2, fun s => ?_, fun s => ?_⟩
    · simp [choosePoints, withPoints, castArrs_float hd, n1dArrays_coordArrs]
    · simp [choosePoints, withPoints, movePoints, castArrs_float hd, n1dArrays_coordArrs]
  | none =>
    have hbase : (∃ e, blockCoordinates env P (pointArrs obs) = .error e ∧
        blockCoordinates env P (pointArrs (obs.map m.move)) = .error e) ∨
        ∃ med : List P3, blockCoordinates env P (pointArrs obs) = .ok (pointArrs med) ∧
        blockCoordinates env P (pointArrs (obs.map m.move)) = .ok (pointArrs (med.map m.move)) := by
      unfold blockCoordinates
      cases h : P.block_size with
      | none => exact .inr ⟨obs, rfl, rfl⟩
      | some b => exact hb rfl b h obs
    have hbase' : ∀ c, blockCoordinates env (withPoints P none) c = blockCoordinates env P c := fun _ => rfl
    have hdep' : ∀ c, sourceDepth env (withPoints P none) c = sourceDepth env P c := fun _ => rfl
    have hd' : (withPoints P none).dtype.IsFloat := hd
    rcases hbase with ⟨e, h1, h2⟩ | ⟨med, h1, h2⟩
    · refine .inl ⟨e, fun s => ?_, fun s => ?_⟩
      · unfold choosePoints buildPoints
        rw [hbase', h1]; rfl
      · show choosePoints env (withPoints P none) _ s = _
        unfold choosePoints buildPoints
        rw [hbase', h2]; rfl
    · have hdep : sourceDepth env P (pointArrs (med.map m.move)) = sourceDepth env P (pointArrs med) := by
        unfold sourceDepth
        cases h : P.depth with
        | num x => rfl
        | str t =>
          simp only [pointArrs]
          rw [hn rfl ⟨t, h⟩ med]
      cases h3 : sourceDepth env P (pointArrs med) with
      | error e =>
        refine .inl ⟨e, fun s => ?_, fun s => ?_⟩
        · unfold choosePoints buildPoints
          rw [hbase', h1]; simp only [hdep', h3]; rfl
        · show choosePoints env (withPoints P none) _ s = _
          unfold choosePoints buildPoints
          rw [hbase', h2]; simp only [hdep', hdep, h3]; rfl
      | ok depth =>
        refine .inr ⟨some depth, med.map fun q => ⟨q.x, q.y, q.z - depth⟩, fun s => ?_, fun s => ?_⟩
        · unfold choosePoints buildPoints
          rw [hbase', h1]; simp only [hdep', h3]
          show (_, Except.ok (castArrs (withPoints P none).dtype _)) = _
          rw [castArrs_float hd']
          simp [pointArrs, Function.comp_def]
        · show choosePoints env (withPoints P none) _ s = _
          unfold choosePoints buildPoints
          rw [hbase', h2]; simp only [hdep', hdep, h3]
          show (_, Except.ok (castArrs (withPoints P none).dtype _)) = _
          rw [castArrs_float hd']
          simp [pointArrs, Function.comp_def, Motion.move]
          intros
          ring

/-! ### C93 -/

/-- C93: moving the data points (and the sources, if the user gives them) does not change the fitted
coefficients, moves the sources, and the predictions at moved points are those at the original points.
If `fit` raises, the moved `fit` raises the same. -/
theorem C93_cartesian (env : Env) (junk : Junk) (mode mode' : Mode) (m : Motion) (P : Params)
    (hd : P.dtype.IsFloat) (points : Option (DType × DType × DType × List ℕ × List P3))
    (hn : points = none → (∃ t, P.depth = .str t) → KeepsNeighbours env m)
    (hb : points = none → ∀ b, P.block_size = some b → KeepsBlocks env m b)
    (d1 d2 d3 : DType) (shape : List ℕ) (obs : List P3) (data : CArr) (weights : Option CArr)
    (s t : State) (k : ℕ) (hk : ∀ d pts, choosePoints env (withPoints P points) (pointArrs obs) s = (d, .ok pts) →
      pts.1.length ≤ k) (hm : mode.Full obs.length k) (hm' : mode'.Full obs.length k) :
    (∃ s' t' e, fit env junk mode (withPoints P points) (coordArrs d1 d2 d3 shape obs) data weights s =
        (s', .error e) ∧
      fit env junk mode' (withPoints P (movePoints m points)) (coordArrs d1 d2 d3 shape (obs.map m.move)) data
        weights t = (t', .error e)) ∨
    ∃ s' t' pts coefs,
      fit env junk mode (withPoints P points) (coordArrs d1 d2 d3 shape obs) data weights s = (s', .ok ()) ∧
      fit env junk mode' (withPoints P (movePoints m points)) (coordArrs d1 d2 d3 shape (obs.map m.move)) data
        weights t = (t', .ok ()) ∧
      s'.coefs_ = some coefs ∧ t'.coefs_ = some coefs ∧
      s'.points_ = some (pointArrs pts) ∧ t'.points_ = some (pointArrs (pts.map m.move)) ∧
      s'.depth_ = t'.depth_ ∧
      ∀ (mode1 mode2 : Mode) (e1 e2 e3 : DType) (shape' : List ℕ) (grid : List P3),
        mode1.Full grid.length (2 * pts.length) → mode2.Full grid.length (2 * pts.length) →
        predict junk mode2 (withPoints P (movePoints m points)) (coordArrs e1 e2 e3 shape' (grid.map m.move)) t' =
          predict junk mode1 (withPoints P points) (coordArrs e1 e2 e3 shape' grid) s' := by
  have full_le : ∀ {mode : Mode} {n a b : ℕ}, a ≤ b → mode.Full n b → mode.Full n a := by
    intro mode n a b hab h
    cases mode with
    | serial => trivial
    | parallel sched => exact ⟨h.1, fun i hi => le_trans hab (h.2 i hi)⟩
  have hd1 : (withPoints P points).dtype.IsFloat := hd
  have hd2 : (withPoints P (movePoints m points)).dtype.IsFloat := hd
  unfold fit
  rw [checkFitInput_coordArrs d1 d2 d3 shape obs (obs.map m.move)]
  cases hc : checkFitInput (coordArrs d1 d2 d3 shape obs) data weights with
  | error e => exact .inl ⟨_, _, e, rfl, rfl⟩
  | ok _ =>
  simp only [castArrs_float hd1, castArrs_float hd2, n1dArrays_coordArrs]
  rcases getRegion_cases obs (obs.map m.move) (by simp) with ⟨h1, h2⟩ | ⟨r, r', h1, h2⟩
  · rw [h1, h2]
    exact .inl ⟨_, _, _, rfl, rfl⟩
  rw [h1, h2]
  simp only
  rcases choosePoints_move env m P hd points hn hb obs with ⟨e, h3, h4⟩ | ⟨d, pts, h3, h4⟩
  · rw [h3, h4]
    exact .inl ⟨_, _, _, rfl, rfl⟩
  rw [h3, h4]
  simp only
  have hlen : pts.length ≤ k := by
    have := hk _ _ (h3 s)
    simpa [pointArrs] using this
  have hjac := jacobian_rel junk mode mode' greensFuncCartesian (d := P.dtype) hd _ m.greens_rel
    (forall2_move m obs) (forall2_move m pts) (full_le hlen hm) (by simpa using full_le hlen hm')
  have ed1 : (withPoints P points).dtype = P.dtype := rfl
  have ed2 : (withPoints P (movePoints m points)).dtype = P.dtype := rfl
  have ep1 : (withPoints P points).damping = P.damping := rfl
  have ep2 : (withPoints P (movePoints m points)).damping = P.damping := rfl
  rw [ed1, ed2, ep1, ep2]
  have ec : ∀ a, castArrs P.dtype a = a := castArrs_float hd
  have el1 : (pointArrs (obs.map m.move)).1.length = (pointArrs obs).1.length := by simp [pointArrs]
  have el2 : (pointArrs (pts.map m.move)).1.length = (pointArrs pts).1.length := by simp [pointArrs]
  unfold solve
  rw [hjac, el1, el2]
  simp only
  cases ha : env.alloc ((pointArrs obs).1.length * (pointArrs pts).1.length * P.dtype.itemsize) with
  | error e => exact .inl ⟨_, _, _, rfl, rfl⟩
  | ok _ =>
  simp only
  cases hl : env.leastSquares (jacobian junk mode greensFuncCartesian P.dtype (pointArrs obs) (pointArrs pts))
      (data.data.map P.dtype.cast) (weights.map fun w => w.data.map P.dtype.cast) P.damping with
  | error e => exact .inl ⟨_, _, _, rfl, rfl⟩
  | ok coefs =>
  refine .inr ⟨_, _, pts, coefs, rfl, rfl, rfl, rfl, rfl, rfl, rfl, ?_⟩
  intro mode1 mode2 e1 e2 e3 shape' grid hm1 hm2
  unfold predict
  simp only [npBroadcast_coordArrs, Py.bind_ok, Py.pure_eq, n1dArrays_coordArrs, ed1, ed2, ec]
  rw [predictKernel_rel junk mode1 mode2 greensFuncCartesian hd hd _ m.greens_rel (forall2_move m grid)
    (forall2_move m pts) coefs _ hm1 (by simpa using hm2)]

/-- the Green's function of spherical equivalent sources only depends on the difference of longitudes,
modulo whole turns -/
theorem greensSph_rel (α : ℝ) (q q' p p' : P3) (h : RotatedPoint α q q') (h' : RotatedPoint α p p') :
    greensFuncSpherical q' p' = greensFuncSpherical q p := by
  obtain ⟨⟨k, hk⟩, hy, hz⟩ := h
  obtain ⟨⟨l, hl⟩, hy', hz'⟩ := h'
  have := coreOf_lon q p q' p' hy hz hy' hz' (l - k) (Or.inl (by rw [hk, hl]; push_cast; ring))
  unfold greensFuncSpherical
  have h2 : distanceSpherical q' p' = distanceSpherical q p := congrArg Prod.fst this
  rw [h2]

/-- C93 for spherical sources: turning the data points (and the sources, if the user gives them) around the
axis of the poles, with the longitudes written with any number of turns, does not change the fitted
coefficients, and the predictions at turned points are those at the original points. If `fit` raises, the
turned `fit` raises the same. -/
theorem C93_spherical (env : Env) (junk : Junk) (mode mode' : Mode) (α : ℝ) (P : SphParams)
    (d1 d2 d3 e1 e2 e3 : DType) (shape shapep : List ℕ) (obs obs' pts pts' : List P3)
    (hobs : List.Forall₂ (RotatedPoint α) obs obs') (hpts : List.Forall₂ (RotatedPoint α) pts pts')
    (given : Bool) (data : CArr) (weights : Option CArr) (s t : State) (P1 P2 : SphParams)
    (hP1 : P1 = { P with points := if given then some (coordArrs e1 e2 e3 shapep pts) else none })
    (hP2 : P2 = { P with points := if given then some (coordArrs e1 e2 e3 shapep pts') else none })
    (hm : mode.Full obs.length (if given then pts.length else obs.length))
    (hm' : mode'.Full obs.length (if given then pts.length else obs.length)) :
    (∃ s' t' e, fitSph env junk mode P1 (coordArrs d1 d2 d3 shape obs) data weights s = (s', .error e) ∧
      fitSph env junk mode' P2 (coordArrs d1 d2 d3 shape obs') data weights t = (t', .error e)) ∨
    ∃ s' t' coefs,
      fitSph env junk mode P1 (coordArrs d1 d2 d3 shape obs) data weights s = (s', .ok ()) ∧
      fitSph env junk mode' P2 (coordArrs d1 d2 d3 shape obs') data weights t = (t', .ok ()) ∧
      s'.coefs_ = some coefs ∧ t'.coefs_ = some coefs ∧
      ∀ (mode1 mode2 : Mode) (e1 e2 e3 : DType) (_ : e1.IsFloat) (shape' : List ℕ) (grid grid' : List P3),
        List.Forall₂ (RotatedPoint α) grid grid' →
        mode1.Full grid.length (2 * if given then pts.length else obs.length) →
        mode2.Full grid.length (2 * if given then pts.length else obs.length) →
        predictSph junk mode2 (coordArrs e1 e2 e3 shape' grid') t' =
          predictSph junk mode1 (coordArrs e1 e2 e3 shape' grid) s' := by
  subst hP1 hP2
  obtain ⟨q, q', hq, hs1, hs2, hlq⟩ : ∃ q q', List.Forall₂ (RotatedPoint α) q q' ∧
      sphPoints { P with points := if given then some (coordArrs e1 e2 e3 shapep pts) else none }
        (pointArrs obs) = pointArrs q ∧
      sphPoints { P with points := if given then some (coordArrs e1 e2 e3 shapep pts') else none }
        (pointArrs obs') = pointArrs q' ∧ q.length = if given then pts.length else obs.length := by
    cases given with
    | true => exact ⟨pts, pts', hpts, rfl, rfl, rfl⟩
    | false =>
      refine ⟨obs.map fun q => ⟨q.x, q.y, q.z - P.relative_depth⟩,
        obs'.map fun q => ⟨q.x, q.y, q.z - P.relative_depth⟩, ?_, ?_, ?_, by simp⟩
      · rw [List.forall₂_map_left_iff, List.forall₂_map_right_iff]
        exact hobs.imp fun a b h => ⟨h.1, h.2.1, by simp only [h.2.2]⟩
      · simp [sphPoints, pointArrs, Function.comp_def]
      · simp [sphPoints, pointArrs, Function.comp_def]
  rw [← hlq] at hm hm'
  have hlo := hobs.length_eq
  have hlp := hq.length_eq
  unfold fitSph
  rw [show checkFitInput (coordArrs d1 d2 d3 shape obs') data weights =
    checkFitInput (coordArrs d1 d2 d3 shape obs) data weights from rfl]
  cases hc : checkFitInput (coordArrs d1 d2 d3 shape obs) data weights with
  | error e => exact .inl ⟨_, _, e, rfl, rfl⟩
  | ok _ =>
  simp only [n1dArrays_coordArrs]
  rcases getRegion_cases obs obs' hlo with ⟨h1, h2⟩ | ⟨r, r', h1, h2⟩
  · rw [h1, h2]
    exact .inl ⟨_, _, _, rfl, rfl⟩
  rw [h1, h2]
  simp only [hs1, hs2]
  have hjac := jacobian_rel junk mode mode' greensFuncSpherical (d := .float64) trivial _ (greensSph_rel α)
    hobs hq hm (by rw [← hlo, ← hlp]; exact hm')
  have el1 : (pointArrs obs').1.length = (pointArrs obs).1.length := by simp [pointArrs, hlo]
  have el2 : (pointArrs q').1.length = (pointArrs q).1.length := by simp [pointArrs, hlp]
  unfold solve
  rw [hjac, el1, el2]
  simp only
  cases ha : env.alloc ((pointArrs obs).1.length * (pointArrs q).1.length * DType.itemsize .float64) with
  | error e => exact .inl ⟨_, _, _, rfl, rfl⟩
  | ok _ =>
  simp only
  cases hl : env.leastSquares (jacobian junk mode greensFuncSpherical .float64 (pointArrs obs) (pointArrs q))
      data.data (weights.map (·.data)) P.damping with
  | error e => exact .inl ⟨_, _, _, rfl, rfl⟩
  | ok coefs =>
  refine .inr ⟨_, _, coefs, rfl, rfl, rfl, rfl, ?_⟩
  intro mode1 mode2 f1 f2 f3 hf shape' grid grid' hgrid hm1 hm2
  rw [← hlq] at hm1 hm2
  unfold predictSph
  simp only [npBroadcast_coordArrs, Py.bind_ok, Py.pure_eq, n1dArrays_coordArrs]
  rw [predictKernel_rel junk mode1 mode2 greensFuncSpherical (d := (coordArrs f1 f2 f3 shape' grid).1.dtype)
    (d' := (coordArrs f1 f2 f3 shape' grid').1.dtype) hf hf _ (greensSph_rel α) hgrid hq coefs _ hm1
    (by rw [← hgrid.length_eq, ← hlp]; exact hm2)]

/-! ### Gradient boosting -/

theorem fancyIndex_rel {α β : Type} (R : α → β → Prop) {a : List α} {b : List β} (h : List.Forall₂ R a b)
    (l : List ℕ) :
    (∃ e, fancyIndex a l = .error e ∧ fancyIndex b l = .error e) ∨
    ∃ r r', fancyIndex a l = .ok r ∧ fancyIndex b l = .ok r' ∧ List.Forall₂ R r r' ∧ r.length = l.length := by
  induction l with
  | nil => exact .inr ⟨[], [], rfl, rfl, .nil, rfl⟩
  | cons i l ih =>
    rw [fancyIndex_cons, fancyIndex_cons]
    rw [List.forall₂_iff_get] at h
    by_cases hi : i < a.length
    · have hi' : i < b.length := by rw [← h.1]; exact hi
      rw [List.getElem?_eq_getElem hi, List.getElem?_eq_getElem hi']
      simp only
      rcases ih with ⟨e, h1, h2⟩ | ⟨r, r', h1, h2, h3, h4⟩
      · rw [h1, h2]; exact .inl ⟨e, rfl, rfl⟩
      · rw [h1, h2]
        exact .inr ⟨_, _, rfl, rfl, .cons (h.2 i hi hi') h3, by simp [h4]⟩
    · have hi' : ¬ i < b.length := by rw [← h.1]; exact hi
      rw [List.getElem?_eq_none (not_lt.1 hi), List.getElem?_eq_none (not_lt.1 hi')]
      exact .inl ⟨_, rfl, rfl⟩

theorem chunks_rel (R : P3 → P3 → Prop) {obs obs' pts pts' : List P3} (ho : List.Forall₂ R obs obs')
    (hp : List.Forall₂ R pts pts') (weights : Option (List ℝ)) (residue : List ℝ) (pw dw : List ℕ) :
    (∃ e, chunks (pointArrs obs) (pointArrs pts) weights residue pw dw = .error e ∧
      chunks (pointArrs obs') (pointArrs pts') weights residue pw dw = .error e) ∨
    ∃ ps ps' cs cs' wc rc,
      chunks (pointArrs obs) (pointArrs pts) weights residue pw dw = .ok (pointArrs ps, pointArrs cs, wc, rc) ∧
      chunks (pointArrs obs') (pointArrs pts') weights residue pw dw =
        .ok (pointArrs ps', pointArrs cs', wc, rc) ∧
      List.Forall₂ R ps ps' ∧ List.Forall₂ R cs cs' ∧ ps.length = pw.length ∧ cs.length = dw.length := by
  unfold chunks
  simp only [fancyArrs_points]
  rcases fancyIndex_rel R hp pw with ⟨e, h1, h2⟩ | ⟨ps, ps', h1, h2, hps, hlp⟩
  · rw [h1, h2]; exact .inl ⟨e, rfl, rfl⟩
  rw [h1, h2]
  rcases fancyIndex_rel R ho dw with ⟨e, h3, h4⟩ | ⟨cs, cs', h3, h4, hcs, hlc⟩
  · rw [h3, h4]; exact .inl ⟨e, rfl, rfl⟩
  rw [h3, h4]
  simp only [Except.map, Py.bind_ok]
  cases weights with
  | none =>
    cases h5 : fancyIndex residue dw with
    | error e => exact .inl ⟨e, rfl, rfl⟩
    | ok rc => exact .inr ⟨ps, ps', cs, cs', none, rc, rfl, rfl, hps, hcs, hlp, hlc⟩
  | some w =>
    simp only
    cases h6 : fancyIndex w dw with
    | error e => exact .inl ⟨e, rfl, rfl⟩
    | ok wc =>
      cases h5 : fancyIndex residue dw with
      | error e => exact .inl ⟨e, rfl, rfl⟩
      | ok rc => exact .inr ⟨ps, ps', cs, cs', some wc, rc, rfl, rfl, hps, hcs, hlp, hlc⟩

theorem boostLoop_rel (env : Env) (junk : Junk) (modes modes' : ℕ → Mode × Mode) (P P' : Params)
    (hd : P.dtype.IsFloat) (hdt : P'.dtype = P.dtype) (hdamp : P'.damping = P.damping)
    (R : P3 → P3 → Prop)
    (hg : ∀ q q' p p', R q q' → R p p' → greensFuncCartesian q' p' = greensFuncCartesian q p)
    {obs obs' pts pts' : List P3} (ho : List.Forall₂ R obs obs') (hp : List.Forall₂ R pts pts')
    (weights : Option (List ℝ)) (W : List (List ℕ × List ℕ)) :
    ∀ (k : ℕ) (b : Boost) (s t : State),
      (∀ i pw dw, W[i]? = some (pw, dw) → (modes (k + i)).1.Full dw.length pw.length ∧
        (modes (k + i)).2.Full obs.length (2 * pw.length)) →
      (∀ i pw dw, W[i]? = some (pw, dw) → (modes' (k + i)).1.Full dw.length pw.length ∧
        (modes' (k + i)).2.Full obs.length (2 * pw.length)) →
      s.coefs_ = t.coefs_ →
      (boostLoop env junk modes' P' (pointArrs obs') (pointArrs pts') weights W k b t).2 =
        (boostLoop env junk modes P (pointArrs obs) (pointArrs pts) weights W k b s).2 ∧
      (boostLoop env junk modes' P' (pointArrs obs') (pointArrs pts') weights W k b t).1.coefs_ =
        (boostLoop env junk modes P (pointArrs obs) (pointArrs pts) weights W k b s).1.coefs_ ∧
      (boostLoop env junk modes' P' (pointArrs obs') (pointArrs pts') weights W k b t).1.points_ = t.points_ ∧
      (boostLoop env junk modes P (pointArrs obs) (pointArrs pts) weights W k b s).1.points_ = s.points_ := by
  induction W with
  | nil => intro k b s t _ _ hst; exact ⟨rfl, hst.symm, rfl, rfl⟩
  | cons w W ih =>
    obtain ⟨pw, dw⟩ := w
    intro k b s t hmod hmod' hst
    have hm0 := hmod 0 pw dw rfl
    have hm0' := hmod' 0 pw dw rfl
    rw [Nat.add_zero] at hm0 hm0'
    simp only [boostLoop]
    rcases chunks_rel R ho hp weights b.residue pw dw with ⟨e, h1, h2⟩ |
      ⟨ps, ps', cs, cs', wc, rc, h1, h2, hps, hcs, hlp, hlc⟩
    · rw [h1, h2]; exact ⟨rfl, hst.symm, rfl, rfl⟩
    rw [h1, h2]
    simp only
    have hlp' := hps.length_eq
    have hlc' := hcs.length_eq
    have hlo := ho.length_eq
    have hjac := jacobian_rel junk (modes k).1 (modes' k).1 greensFuncCartesian (d := P.dtype) hd _ hg
      hcs hps (by rw [hlc, hlp]; exact hm0.1) (by rw [← hlc', ← hlp', hlc, hlp]; exact hm0'.1)
    have hpred := predictKernel_rel junk (modes k).2 (modes' k).2 greensFuncCartesian (d := P.dtype)
      (d' := P.dtype) hd hd _ hg ho hps
    have el1 : (pointArrs cs').1.length = (pointArrs cs).1.length := by simp [pointArrs, hlc']
    have el2 : (pointArrs ps').1.length = (pointArrs ps).1.length := by simp [pointArrs, hlp']
    unfold solve
    rw [hdt, hdamp, hjac, el1, el2]
    simp only
    cases ha : env.alloc ((pointArrs cs).1.length * (pointArrs ps).1.length * P.dtype.itemsize) with
    | error e => exact ⟨rfl, hst.symm, rfl, rfl⟩
    | ok _ =>
    simp only
    cases hl : env.leastSquares (jacobian junk (modes k).1 greensFuncCartesian P.dtype (pointArrs cs)
        (pointArrs ps)) rc wc P.damping with
    | error e => exact ⟨rfl, hst.symm, rfl, rfl⟩
    | ok coefs =>
    simp only
    unfold boostUpdate
    rw [hpred coefs b.residue.length (by rw [hlp]; exact hm0.2)
      (by rw [← hlp', ← hlo, hlp]; exact hm0'.2)]
    simp only
    cases hf : fancyAdd b.coefs pw coefs with
    | error e => exact ⟨rfl, hst.symm, rfl, rfl⟩
    | ok cf =>
      simp only [Py.bind_ok, Py.pure_eq]
      refine ih (k + 1) _ _ _ ?_ ?_ rfl
      · intro i pw dw hi
        have := hmod (i + 1) pw dw hi
        rwa [show k + (i + 1) = k + 1 + i by omega] at this
      · intro i pw dw hi
        have := hmod' (i + 1) pw dw hi
        rwa [show k + (i + 1) = k + 1 + i by omega] at this

theorem boostLoop_coefs (env : Env) (junk : Junk) (modes : ℕ → Mode × Mode) (P : Params) (c p : Arrs)
    (weights : Option (List ℝ)) (W : List (List ℕ × List ℕ)) :
    ∀ (k : ℕ) (b : Boost) (s : State), s.coefs_.isSome →
      (boostLoop env junk modes P c p weights W k b s).1.coefs_.isSome := by
  induction W with
  | nil => intro k b s hs; exact hs
  | cons w W ih =>
    obtain ⟨pw, dw⟩ := w
    intro k b s hs
    rw [boostLoop]
    split
    · exact hs
    · split
      · rename_i h
        have := congrArg (fun r => r.1.coefs_) h
        simp only [solve] at this
        split at this <;> (simp only at this ⊢; rw [← this]; exact hs)
      · split
        · rename_i h _ _ _
          have := congrArg (fun r => r.1.coefs_) h
          simp only [solve] at this
          split at this <;> (simp only at this ⊢; rw [← this]; exact hs)
        · exact ih _ _ _ rfl

theorem foldl_min_add (l : List ℝ) (a t : ℝ) : (l.map (· + t)).foldl min (a + t) = l.foldl min a + t := by
  induction l generalizing a with
  | nil => rfl
  | cons b l ih => simp only [List.map_cons, List.foldl_cons, ← ih, min_add_add_right]

theorem foldl_max_add (l : List ℝ) (a t : ℝ) : (l.map (· + t)).foldl max (a + t) = l.foldl max a + t := by
  induction l generalizing a with
  | nil => rfl
  | cons b l ih => simp only [List.map_cons, List.foldl_cons, ← ih, max_add_add_right]

theorem getRegion_translate (xs ys : List ℝ) (x y : ℝ) :
    getRegion (xs.map (· + x)) (ys.map (· + y)) =
      (getRegion xs ys).map fun r => (r.1 + x, r.2.1 + x, r.2.2.1 + y, r.2.2.2 + y) := by
  cases xs with
  | nil => rfl
  | cons a xs =>
    cases ys with
    | nil => rfl
    | cons b ys => simp only [List.map_cons, getRegion, List.foldl_cons, min_self, max_self, foldl_min_add, foldl_max_add, Except.map]

theorem arrs_translate (x y z : ℝ) (l : List P3) :
    (pointArrs (l.map (translation x y z).move)).1 = (pointArrs l).1.map (· + x) ∧
    (pointArrs (l.map (translation x y z).move)).2.1 = (pointArrs l).2.1.map (· + y) := by
  simp [pointArrs, translation, Motion.move, Function.comp_def]

theorem createWindows_translate (env : Env) (perm : ℕ → List ℕ) (P P' : Params) (x y z : ℝ)
    (hw : KeepsWindows env x y) (hP : P'.window_size = P.window_size) (obs pts : List P3) :
    ∃ r w, (∀ s, ∃ s', createWindows env perm P (pointArrs obs) (pointArrs pts) s = (s', r) ∧
        s'.coefs_ = s.coefs_ ∧ s'.points_ = s.points_ ∧ s'.depth_ = s.depth_ ∧
        (∀ x, r = .ok x → s'.window_size_ = w)) ∧
      ∀ s, ∃ s', createWindows env perm P' (pointArrs (obs.map (translation x y z).move))
        (pointArrs (pts.map (translation x y z).move)) s = (s', r) ∧
        s'.coefs_ = s.coefs_ ∧ s'.points_ = s.points_ ∧ s'.depth_ = s.depth_ ∧
        (∀ x, r = .ok x → s'.window_size_ = w) := by
  obtain ⟨a1, a2⟩ := arrs_translate x y z obs
  obtain ⟨b1, b2⟩ := arrs_translate x y z pts
  unfold createWindows getRegionDataSources rollingWindows
  rw [a1, a2, b1, b2, getRegion_translate, getRegion_translate]
  cases h1 : getRegion (pointArrs obs).1 (pointArrs obs).2.1 with
  | error e => exact ⟨_, none, fun s => ⟨_, rfl, rfl, rfl, rfl, by simp⟩, fun s => ⟨_, rfl, rfl, rfl, rfl, by simp⟩⟩
  | ok r =>
  cases h2 : getRegion (pointArrs pts).1 (pointArrs pts).2.1 with
  | error e => exact ⟨_, none, fun s => ⟨_, rfl, rfl, rfl, rfl, by simp⟩, fun s => ⟨_, rfl, rfl, rfl, rfl, by simp⟩⟩
  | ok q =>
  simp only [Except.map, Py.bind_ok, Py.pure_eq, min_add_add_right, max_add_add_right, List.length_map]
  have hsize : windowSize P' (min r.1 q.1 + x, max r.2.1 q.2.1 + x, min r.2.2.1 q.2.2.1 + y,
      max r.2.2.2 q.2.2.2 + y) (pointArrs obs).1.length =
      windowSize P (min r.1 q.1, max r.2.1 q.2.1, min r.2.2.1 q.2.2.1, max r.2.2.2 q.2.2.2)
        (pointArrs obs).1.length := by
    unfold windowSize
    rw [hP]
    simp only [add_sub_add_right_eq_sub]
  rw [hsize]
  cases windowSize P (min r.1 q.1, max r.2.1 q.2.1, min r.2.2.1 q.2.2.1, max r.2.2.2 q.2.2.2)
      (pointArrs obs).1.length with
  | none =>
    exact ⟨.ok ([List.range (pointArrs pts).1.length], [List.range (pointArrs obs).1.length]), some none,
      fun s => ⟨{ s with window_size_ := some none }, rfl, rfl, rfl, rfl, fun _ _ => rfl⟩,
      fun s => ⟨{ s with window_size_ := some none }, rfl, rfl, rfl, rfl, fun _ _ => rfl⟩⟩
  | some size =>
    unfold KeepsWindows at hw
    simp only [hw]
    exact ⟨_, some (some size),
      fun s => ⟨{ s with window_size_ := some (some size) }, rfl, rfl, rfl, rfl, fun _ _ => rfl⟩,
      fun s => ⟨{ s with window_size_ := some (some size) }, rfl, rfl, rfl, rfl, fun _ _ => rfl⟩⟩

/-- C93 for gradient boosting: a translation of the data points (and of the sources, if the user gives them)
does not change the windows, the coefficients nor the RMS of the iterations, moves the sources, and the
predictions at translated points are those at the original points. If `fit` raises, the translated `fit`
raises the same. -/
theorem C93_gradient_boosted (env : Env) (junk : Junk) (perm : ℕ → List ℕ) (modes modes' : ℕ → Mode × Mode)
    (x y z : ℝ) (hw : KeepsWindows env x y) (P : Params)
    (hd : P.dtype.IsFloat) (points : Option (DType × DType × DType × List ℕ × List P3))
    (hn : points = none → (∃ t, P.depth = .str t) → KeepsNeighbours env (translation x y z))
    (hb : points = none → ∀ b, P.block_size = some b → KeepsBlocks env (translation x y z) b)
    (d1 d2 d3 : DType) (shape : List ℕ) (obs : List P3) (data : CArr) (weights : Option CArr)
    (s t : State)
    (hm : ∀ d pts W, choosePoints env (withPoints P points) (pointArrs obs) s = (d, .ok pts) →
      (createWindows env perm P (pointArrs obs) pts {}).2 = .ok W →
      ∀ k pw dw, (W.1.zip W.2)[k]? = some (pw, dw) →
        ((modes k).1.Full dw.length pw.length ∧ (modes k).2.Full obs.length (2 * pw.length)) ∧
        ((modes' k).1.Full dw.length pw.length ∧ (modes' k).2.Full obs.length (2 * pw.length))) :
    (∃ s' t' e, fitGB env junk perm modes (withPoints P points) (coordArrs d1 d2 d3 shape obs) data weights s =
        (s', .error e) ∧
      fitGB env junk perm modes' (withPoints P (movePoints (translation x y z) points))
        (coordArrs d1 d2 d3 shape (obs.map (translation x y z).move)) data weights t = (t', .error e)) ∨
    ∃ s' t' pts coefs errors,
      fitGB env junk perm modes (withPoints P points) (coordArrs d1 d2 d3 shape obs) data weights s =
        (s', .ok ()) ∧
      fitGB env junk perm modes' (withPoints P (movePoints (translation x y z) points))
        (coordArrs d1 d2 d3 shape (obs.map (translation x y z).move)) data weights t = (t', .ok ()) ∧
      s'.coefs_ = some coefs ∧ t'.coefs_ = some coefs ∧
      s'.rmse_ = some errors ∧ t'.rmse_ = some errors ∧
      s'.points_ = some (pointArrs pts) ∧
      t'.points_ = some (pointArrs (pts.map (translation x y z).move)) ∧
      ∀ (mode1 mode2 : Mode) (e1 e2 e3 : DType) (shape' : List ℕ) (grid : List P3),
        mode1.Full grid.length (2 * pts.length) → mode2.Full grid.length (2 * pts.length) →
        predict junk mode2 (withPoints P (movePoints (translation x y z) points))
            (coordArrs e1 e2 e3 shape' (grid.map (translation x y z).move)) t' =
          predict junk mode1 (withPoints P points) (coordArrs e1 e2 e3 shape' grid) s' := by
  have hd1 : (withPoints P points).dtype.IsFloat := hd
  have hd2 : (withPoints P (movePoints (translation x y z) points)).dtype.IsFloat := hd
  unfold fitGB
  rw [checkFitInput_coordArrs d1 d2 d3 shape obs (obs.map (translation x y z).move)]
  cases hc : checkFitInput (coordArrs d1 d2 d3 shape obs) data weights with
  | error e => exact .inl ⟨_, _, e, rfl, rfl⟩
  | ok _ =>
  simp only [castArrs_float hd1, castArrs_float hd2, n1dArrays_coordArrs]
  rcases getRegion_cases obs (obs.map (translation x y z).move) (by simp) with ⟨h1, h2⟩ | ⟨r, r', h1, h2⟩
  · rw [h1, h2]
    exact .inl ⟨_, _, _, rfl, rfl⟩
  rw [h1, h2]
  simp only
  rcases choosePoints_move env (translation x y z) P hd points hn hb obs with ⟨e, h3, h4⟩ | ⟨d, pts, h3, h4⟩
  · rw [h3, h4]
    exact .inl ⟨_, _, _, rfl, rfl⟩
  have hm1 := fun W => hm _ _ W (h3 s)
  rw [h3, h4]
  simp only
  have ed1 : (withPoints P points).dtype = P.dtype := rfl
  have ed2 : (withPoints P (movePoints (translation x y z) points)).dtype = P.dtype := rfl
  have ec : ∀ a, castArrs P.dtype a = a := castArrs_float hd
  have el : (pointArrs (pts.map (translation x y z).move)).1.length = (pointArrs pts).1.length := by
    simp [pointArrs]
  rw [el, ed1, ed2]
  obtain ⟨R, w, c1, c2⟩ := createWindows_translate env perm (withPoints P points)
    (withPoints P (movePoints (translation x y z) points)) x y z hw rfl obs pts
  unfold gradientBoosting
  obtain ⟨s1, hs1, hs2, hs3, -⟩ := c1 { s with
    region_ := some r, depth_ := some d, points_ := some (pointArrs pts)
    coefs_ := some (List.replicate (pointArrs pts).1.length 0) }
  obtain ⟨t1, ht1, ht2, ht3, -⟩ := c2 { t with
    region_ := some r', depth_ := some d
    points_ := some (pointArrs (pts.map (translation x y z).move))
    coefs_ := some (List.replicate (pointArrs pts).1.length 0) }
  rw [hs1, ht1]
  cases R with
  | error e => exact .inl ⟨_, _, _, rfl, rfl⟩
  | ok W =>
  simp only
  have hW : (createWindows env perm P (pointArrs obs) (pointArrs pts) {}).2 = .ok W := by
    obtain ⟨s2, hs2, -⟩ := c1 {}
    exact congrArg Prod.snd hs2
  have hmm := hm1 W hW
  have hl := boostLoop_rel env junk modes modes' (withPoints P points)
    (withPoints P (movePoints (translation x y z) points)) hd rfl rfl _ (translation x y z).greens_rel
    (forall2_move _ obs) (forall2_move _ pts) (weights.map fun w => w.data.map P.dtype.cast)
    (W.1.zip W.2) 0 ⟨List.replicate (pointArrs pts).1.length 0, data.data.map P.dtype.cast,
      [rms (data.data.map P.dtype.cast)]⟩ s1 t1
    (fun i pw dw hi => by rw [Nat.zero_add]; exact (hmm i pw dw hi).1)
    (fun i pw dw hi => by rw [Nat.zero_add]; exact (hmm i pw dw hi).2) (by rw [hs2, ht2])
  generalize boostLoop env junk modes' (withPoints P (movePoints (translation x y z) points)) _ _ _ _ _ _ _ = B'
    at hl ⊢
  generalize hB : boostLoop env junk modes (withPoints P points) _ _ _ _ _ _ _ = B at hl ⊢
  obtain ⟨b1, b2⟩ := B
  obtain ⟨b1', b2'⟩ := B'
  obtain ⟨l1, l2, l3, l4⟩ := hl
  simp only at l1 l2 l3 l4
  subst l1
  cases b2' with
  | error e => exact .inl ⟨_, _, _, rfl, rfl⟩
  | ok b =>
  simp only
  obtain ⟨coefs, hcoefs⟩ : ∃ coefs, b1.coefs_ = some coefs := by
    have := boostLoop_coefs env junk modes (withPoints P points) (pointArrs obs) (pointArrs pts)
      (weights.map fun w => w.data.map P.dtype.cast) (W.1.zip W.2) 0
      ⟨List.replicate (pointArrs pts).1.length 0, data.data.map P.dtype.cast,
        [rms (data.data.map P.dtype.cast)]⟩ s1 (by rw [hs2]; rfl)
    rw [hB] at this
    exact Option.isSome_iff_exists.1 this
  refine .inr ⟨_, _, pts, coefs, b.errors, rfl, rfl, hcoefs, l2.trans hcoefs, rfl, rfl,
    l4.trans hs3, l3.trans ht3, ?_⟩
  intro mode1 mode2 e1 e2 e3 shape' grid hm1 hm2
  unfold predict
  simp only [hcoefs, l2.trans hcoefs, l4.trans hs3, l3.trans ht3]
  simp only [npBroadcast_coordArrs, Py.bind_ok, Py.pure_eq, n1dArrays_coordArrs, ed1, ed2, ec]
  rw [predictKernel_rel junk mode1 mode2 greensFuncCartesian hd hd _ (translation x y z).greens_rel
    (forall2_move _ grid) (forall2_move _ pts) coefs _ hm1 (by simpa using hm2)]

end Verif.EqSources
