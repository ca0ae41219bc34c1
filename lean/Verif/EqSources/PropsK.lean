import Verif.EqSources.ModelC
import Verif.EqSources.PropsB

/-!
C140: what a `fit` leaves in an estimator depends on its arguments and on the present parameters of
the estimator, not on what was done with the estimator before.
-/

namespace Verif.EqSources
open Verif.Forward Verif.Engine Verif.Distance

/-! ### Specification -/

/-- The last of the values that the deeds assign to a parameter, or the initial value. -/
def latest {α β : Type} (assigns : β → Option α) (deeds : List β) (initial : α) : α :=
  (deeds.filterMap assigns).getLast?.getD initial

/-- The parameters as the program last assigned them. -/
def presentParams (P : Params) (deeds : List Deed) : Params where
  damping := latest (fun | .assign (.damping v) => some v | _ => none) deeds P.damping
  points := latest (fun | .assign (.points v) => some v | _ => none) deeds P.points
  depth := latest (fun | .assign (.depth v) => some v | _ => none) deeds P.depth
  block_size := latest (fun | .assign (.block_size v) => some v | _ => none) deeds P.block_size
  dtype := latest (fun | .assign (.dtype v) => some v | _ => none) deeds P.dtype
  window_size := latest (fun | .assign (.window_size v) => some v | _ => none) deeds P.window_size

/-- The parameters of spherical sources as the program last assigned them. -/
def presentSphParams (P : SphParams) (deeds : List SphDeed) : SphParams where
  damping := latest (fun | .assign (.damping v) => some v | _ => none) deeds P.damping
  points := latest (fun | .assign (.points v) => some v | _ => none) deeds P.points
  relative_depth :=
    latest (fun | .assign (.relative_depth v) => some v | _ => none) deeds P.relative_depth

/-- Deeds that are not calls of `fit`. -/
def NotFits (deeds : List Deed) : Prop := ∀ perm modes c d w, Deed.fit perm modes c d w ∉ deeds

/-- Deeds that are not calls of `estimate_required_memory`. -/
def NotEstimates (deeds : List Deed) : Prop := ∀ perm c, Deed.estimate perm c ∉ deeds

/-- Deeds that are not calls of `fit`. -/
def NotSphFits (deeds : List SphDeed) : Prop := ∀ mode c d w, SphDeed.fit mode c d w ∉ deeds

/-! ### Lemmas -/

theorem latest_append {α β : Type} (f : β → Option α) (l : List β) (x : β) (a : α) :
    latest f (l ++ [x]) a = (f x).getD (latest f l a) := by
  unfold latest
  cases h : f x <;> simp [h]

theorem params_step (env : Env) (junk : Junk) (P : Params) (s : State) (deeds : List Deed) :
    (deeds.foldl (Deed.step env junk) ⟨P, s⟩).params = presentParams P deeds := by
  induction deeds using List.reverseRecOn with
  | nil => rfl
  | append_singleton l x ih =>
    rw [List.foldl_append]
    simp only [List.foldl_cons, List.foldl_nil]
    cases x with
    | assign a =>
      simp only [Deed.step, ih]
      cases a <;> simp only [presentParams, latest_append, Option.getD_some, Option.getD_none, Assign.set]
    | _ => simp only [Deed.step, ih, presentParams, latest_append, Option.getD_none]

theorem params_stepGB (env : Env) (junk : Junk) (P : Params) (s : State) (deeds : List Deed) :
    (deeds.foldl (Deed.stepGB env junk) ⟨P, s⟩).params = presentParams P deeds := by
  induction deeds using List.reverseRecOn with
  | nil => rfl
  | append_singleton l x ih =>
    rw [List.foldl_append]
    simp only [List.foldl_cons, List.foldl_nil]
    cases x with
    | assign a =>
      simp only [Deed.stepGB, ih]
      cases a <;> simp only [presentParams, latest_append, Option.getD_some, Option.getD_none, Assign.set]
    | _ => simp only [Deed.stepGB, ih, presentParams, latest_append, Option.getD_none]

theorem params_stepSph (env : Env) (junk : Junk) (P : SphParams) (s : State) (deeds : List SphDeed) :
    (deeds.foldl (SphDeed.step env junk) ⟨P, s⟩).params = presentSphParams P deeds := by
  induction deeds using List.reverseRecOn with
  | nil => rfl
  | append_singleton l x ih =>
    rw [List.foldl_append]
    simp only [List.foldl_cons, List.foldl_nil]
    cases x with
    | assign a =>
      simp only [SphDeed.step, ih]
      cases a <;>
        simp only [presentSphParams, latest_append, Option.getD_some, Option.getD_none, SphAssign.set]
    | _ => simp only [SphDeed.step, ih, presentSphParams, latest_append, Option.getD_none]

/-- whether `fit` returns or which error it raises does not depend on the attributes -/
theorem fit_outcome (env : Env) (junk : Junk) (mode : Mode) (P : Params) (c : Coords) (data : CArr)
    (weights : Option CArr) (s t : State) :
    (fit env junk mode P c data weights s).2 = (fit env junk mode P c data weights t).2 := by
  unfold fit
  cases h1 : checkFitInput c data weights with
  | error e => rfl
  | ok _ =>
  simp only
  cases h2 : getRegion (castArrs P.dtype (n1dArrays c)).1 (castArrs P.dtype (n1dArrays c)).2.1 with
  | error e => rfl
  | ok region =>
  simp only
  rcases choosePoints_cases env P (castArrs P.dtype (n1dArrays c)) with ⟨e, h3⟩ | ⟨d, pts, h3, -, -⟩
  · simp only [h3]
  simp only [h3]
  rcases solve_cases env junk mode greensFuncCartesian P.dtype P.damping
    (castArrs P.dtype (n1dArrays c)) pts (data.data.map P.dtype.cast)
    (weights.map fun w => w.data.map P.dtype.cast) with ⟨e, h4⟩ | h4
  · simp only [h4]
  simp only [h4]
  cases env.leastSquares (jacobian junk mode greensFuncCartesian P.dtype
        (castArrs P.dtype (n1dArrays c)) pts) (data.data.map P.dtype.cast)
        (weights.map fun w => w.data.map P.dtype.cast) P.damping <;> rfl

theorem fitSph_outcome (env : Env) (junk : Junk) (mode : Mode) (P : SphParams) (c : Coords)
    (data : CArr) (weights : Option CArr) (s t : State) :
    (fitSph env junk mode P c data weights s).2 = (fitSph env junk mode P c data weights t).2 := by
  unfold fitSph
  cases h1 : checkFitInput c data weights with
  | error e => rfl
  | ok _ =>
  simp only
  cases h2 : getRegion (n1dArrays c).1 (n1dArrays c).2.1 with
  | error e => rfl
  | ok region =>
  simp only
  rcases solve_cases env junk mode greensFuncSpherical .float64 P.damping
    (n1dArrays c) (sphPoints P (n1dArrays c)) data.data (weights.map (·.data)) with ⟨e, h4⟩ | h4
  · simp only [h4]
  simp only [h4]
  cases env.leastSquares (jacobian junk mode greensFuncSpherical .float64
        (n1dArrays c) (sphPoints P (n1dArrays c))) data.data
        (weights.map (·.data)) P.damping <;> rfl

/-- the attributes that the loop over the windows does not read -/
theorem boostLoop_outcome (env : Env) (junk : Junk) (modes : ℕ → Mode × Mode) (P : Params)
    (c p : Arrs) (weights : Option (List ℝ)) (W : List (List ℕ × List ℕ)) :
    ∀ k b s t, s.coefs_ = t.coefs_ →
      (boostLoop env junk modes P c p weights W k b s).2 =
        (boostLoop env junk modes P c p weights W k b t).2 ∧
      (boostLoop env junk modes P c p weights W k b s).1.coefs_ =
        (boostLoop env junk modes P c p weights W k b t).1.coefs_ ∧
      (boostLoop env junk modes P c p weights W k b s).1.region_ = s.region_ ∧
      (boostLoop env junk modes P c p weights W k b s).1.window_size_ = s.window_size_ := by
  induction W with
  | nil => intro k b s t h; exact ⟨rfl, h, rfl, rfl⟩
  | cons w W ih =>
    obtain ⟨pw, dw⟩ := w
    intro k b s t h
    rw [boostLoop, boostLoop]
    cases h1 : chunks c p weights b.residue pw dw with
    | error e => exact ⟨rfl, h, rfl, rfl⟩
    | ok x =>
    obtain ⟨pc, cc, wc, rc⟩ := x
    simp only
    rcases solve_cases env junk (modes k).1 greensFuncCartesian P.dtype P.damping cc pc rc wc with
      ⟨e, h4⟩ | h4
    · simp only [h4]; exact ⟨trivial, h, trivial, trivial⟩
    simp only [h4]
    cases env.leastSquares (jacobian junk (modes k).1 greensFuncCartesian P.dtype cc pc) rc wc
      P.damping with
    | error e => exact ⟨rfl, h, rfl, rfl⟩
    | ok co =>
    simp only
    cases boostUpdate junk (modes k).2 P.dtype c pc pw co b with
    | error e => exact ⟨rfl, h, rfl, rfl⟩
    | ok b' =>
    obtain ⟨i1, i2, i3, i4⟩ := ih (k + 1) b'
      { s with allocs := s.allocs ++ [cc.1.length * pc.1.length * P.dtype.itemsize],
               coefs_ := some b'.coefs }
      { t with allocs := t.allocs ++ [cc.1.length * pc.1.length * P.dtype.itemsize],
               coefs_ := some b'.coefs } rfl
    exact ⟨i1, i2, i3, i4⟩

/-- The attributes of two estimators of gradient-boosted sources agree. -/
def SameFitted (s t : State) : Prop :=
  s.region_ = t.region_ ∧ s.depth_ = t.depth_ ∧ s.points_ = t.points_ ∧ s.coefs_ = t.coefs_ ∧
    s.window_size_ = t.window_size_ ∧ s.rmse_ = t.rmse_

theorem fitGB_outcome (env : Env) (junk : Junk) (perm : ℕ → List ℕ) (modes : ℕ → Mode × Mode)
    (P : Params) (c : Coords) (data : CArr) (weights : Option CArr) (s t : State) :
    (fitGB env junk perm modes P c data weights s).2 =
      (fitGB env junk perm modes P c data weights t).2 ∧
    ((fitGB env junk perm modes P c data weights t).2 = .ok () →
      SameFitted (fitGB env junk perm modes P c data weights s).1
        (fitGB env junk perm modes P c data weights t).1) := by
  unfold fitGB
  cases h1 : checkFitInput c data weights with
  | error e => exact ⟨rfl, fun h => by cases h⟩
  | ok _ =>
  simp only
  cases h2 : getRegion (castArrs P.dtype (n1dArrays c)).1 (castArrs P.dtype (n1dArrays c)).2.1 with
  | error e => exact ⟨rfl, fun h => by cases h⟩
  | ok region =>
  simp only
  rcases choosePoints_cases env P (castArrs P.dtype (n1dArrays c)) with ⟨e, h3⟩ | ⟨d, pts, h3, -, -⟩
  · simp only [h3]; exact ⟨trivial, fun h => by cases h⟩
  simp only [h3]
  unfold gradientBoosting
  rcases createWindows_cases env perm P (castArrs P.dtype (n1dArrays c)) pts with
    ⟨e, h4⟩ | ⟨size, r, h4⟩
  · simp only [h4]; exact ⟨trivial, fun h => by cases h⟩
  simp only [h4]
  cases r with
  | error e => exact ⟨rfl, fun h => by cases h⟩
  | ok W =>
  simp only
  have key := fun s t hst => boostLoop_outcome env junk modes P (castArrs P.dtype (n1dArrays c)) pts
    (weights.map fun w => w.data.map P.dtype.cast) (W.1.zip W.2) 0
    ⟨List.replicate pts.1.length 0, data.data.map P.dtype.cast,
      [rms (data.data.map P.dtype.cast)]⟩ s t hst
  have frame := fun s => boostLoop_frame env junk modes P (castArrs P.dtype (n1dArrays c)) pts
    (weights.map fun w => w.data.map P.dtype.cast) (W.1.zip W.2) 0
    ⟨List.replicate pts.1.length 0, data.data.map P.dtype.cast,
      [rms (data.data.map P.dtype.cast)]⟩ s
  have hst := key
    { s with region_ := some region, depth_ := some d, points_ := some pts,
             window_size_ := some size, coefs_ := some (List.replicate pts.1.length 0) }
    { t with region_ := some region, depth_ := some d, points_ := some pts,
             window_size_ := some size, coefs_ := some (List.replicate pts.1.length 0) } rfl
  have hts := key
    { t with region_ := some region, depth_ := some d, points_ := some pts,
             window_size_ := some size, coefs_ := some (List.replicate pts.1.length 0) }
    { s with region_ := some region, depth_ := some d, points_ := some pts,
             window_size_ := some size, coefs_ := some (List.replicate pts.1.length 0) } rfl
  have fs := frame
    { s with region_ := some region, depth_ := some d, points_ := some pts,
             window_size_ := some size, coefs_ := some (List.replicate pts.1.length 0) }
  have ft := frame
    { t with region_ := some region, depth_ := some d, points_ := some pts,
             window_size_ := some size, coefs_ := some (List.replicate pts.1.length 0) }
  generalize boostLoop env junk modes P (castArrs P.dtype (n1dArrays c)) pts
    (weights.map fun w => w.data.map P.dtype.cast) (W.1.zip W.2) 0
    ⟨List.replicate pts.1.length 0, data.data.map P.dtype.cast,
      [rms (data.data.map P.dtype.cast)]⟩
    { s with region_ := some region, depth_ := some d, points_ := some pts,
             window_size_ := some size, coefs_ := some (List.replicate pts.1.length 0) } = x at *
  generalize boostLoop env junk modes P (castArrs P.dtype (n1dArrays c)) pts
    (weights.map fun w => w.data.map P.dtype.cast) (W.1.zip W.2) 0
    ⟨List.replicate pts.1.length 0, data.data.map P.dtype.cast,
      [rms (data.data.map P.dtype.cast)]⟩
    { t with region_ := some region, depth_ := some d, points_ := some pts,
             window_size_ := some size, coefs_ := some (List.replicate pts.1.length 0) } = y at *
  obtain ⟨xs, xr⟩ := x
  obtain ⟨ys, yr⟩ := y
  obtain ⟨e1, e2, e3, e4⟩ := hst
  obtain ⟨-, -, f3, f4⟩ := hts
  simp only at e1 e2 e3 e4 f3 f4 fs ft
  subst e1
  cases xr with
  | error e => exact ⟨rfl, fun h => by cases h⟩
  | ok b =>
    refine ⟨rfl, fun _ => ⟨?_, ?_, ?_, ?_, ?_, rfl⟩⟩
    · exact e3.trans f3.symm
    · exact fs.2.trans ft.2.symm
    · exact fs.1.trans ft.1.symm
    · exact e2
    · exact e4.trans f4.symm

theorem later_points (env : Env) (junk : Junk) (later : List Deed) (e : Estimator)
    (hl : NotFits later) :
    (later.foldl (Deed.step env junk) e).state.points_ = e.state.points_ ∧
      (later.foldl (Deed.step env junk) e).state.coefs_ = e.state.coefs_ := by
  induction later generalizing e with
  | nil => exact ⟨rfl, rfl⟩
  | cons x l ih =>
    have hi := ih (Deed.step env junk e x) fun perm modes c d w h =>
      hl perm modes c d w (List.mem_cons_of_mem _ h)
    rw [List.foldl_cons, hi.1, hi.2]
    cases x with
    | fit perm modes c d w => exact absurd List.mem_cons_self (hl perm modes c d w)
    | assign a => exact ⟨rfl, rfl⟩
    | predict m c => exact ⟨rfl, rfl⟩
    | estimate perm c =>
      simp only [Deed.step, estimateMemory]
      rcases buildPoints_cases env e.params (n1dArrays c) with ⟨e, h⟩ | ⟨base, depth, -, -, h⟩ <;>
        simp only [h, and_self]

theorem later_pointsGB (env : Env) (junk : Junk) (later : List Deed) (e : Estimator)
    (hl : NotFits later) (he : NotEstimates later) :
    (later.foldl (Deed.stepGB env junk) e).state = e.state := by
  induction later generalizing e with
  | nil => rfl
  | cons x l ih =>
    have hi := ih (Deed.stepGB env junk e x) (fun perm modes c d w h =>
      hl perm modes c d w (List.mem_cons_of_mem _ h)) (fun perm c h =>
      he perm c (List.mem_cons_of_mem _ h))
    rw [List.foldl_cons, hi]
    cases x with
    | fit perm modes c d w => exact absurd List.mem_cons_self (hl perm modes c d w)
    | assign a => rfl
    | predict m c => rfl
    | estimate perm c => exact absurd List.mem_cons_self (he perm c)

theorem later_pointsSph (env : Env) (junk : Junk) (later : List SphDeed) (e : SphEstimator)
    (hl : NotSphFits later) : (later.foldl (SphDeed.step env junk) e).state = e.state := by
  induction later generalizing e with
  | nil => rfl
  | cons x l ih =>
    have hi := ih (SphDeed.step env junk e x) fun mode c d w h =>
      hl mode c d w (List.mem_cons_of_mem _ h)
    rw [List.foldl_cons, hi]
    cases x with
    | fit mode c d w => exact absurd List.mem_cons_self (hl mode c d w)
    | assign a => rfl
    | predict m c => rfl
    | estimate c => rfl

/-! ### Theorems -/

/-- C140 for `EquivalentSources`: whatever was done with the object before (parameters assigned, fits
that returned or raised, estimates of the memory, predictions), `fit` returns or raises as `fit` of a
new object with the present parameters does, and if it returns the attributes are those of that new
object. -/
theorem C140_fit (env : Env) (junk : Junk) (P : Params) (deeds : List Deed) (modes : ℕ → Mode × Mode)
    (c : Coords) (data : CArr) (weights : Option CArr) :
    let e := deeds.foldl (Deed.step env junk) ⟨P, {}⟩
    let new := fit env junk (modes 0).1 (presentParams P deeds) c data weights {}
    let r := fit env junk (modes 0).1 e.params c data weights e.state
    r.2 = new.2 ∧ (new.2 = .ok () → r.1.region_ = new.1.region_ ∧ r.1.depth_ = new.1.depth_ ∧
      r.1.points_ = new.1.points_ ∧ r.1.coefs_ = new.1.coefs_) := by
  intro e new r
  have hP : e.params = presentParams P deeds := params_step env junk P {} deeds
  have ho : r.2 = new.2 := by
    simp only [r, new, hP]
    exact fit_outcome env junk _ _ c data weights _ _
  refine ⟨ho, fun hn => ?_⟩
  obtain ⟨region, d, pts, coefs, -, -, -, -, -, h⟩ :=
    fit_ok env junk (modes 0).1 (presentParams P deeds) c data weights {} new.1 (Prod.ext rfl hn)
  simp only [r, new, hP, h, and_self]

/-- C140 for `EquivalentSourcesGB`, whose `fit` also sets `window_size_` and `rmse_per_iteration_`; the
shuffle of the windows is the same for both objects. -/
theorem C140_fit_gradient_boosted (env : Env) (junk : Junk) (P : Params) (deeds : List Deed)
    (perm : ℕ → List ℕ) (modes : ℕ → Mode × Mode) (c : Coords) (data : CArr)
    (weights : Option CArr) :
    let e := deeds.foldl (Deed.stepGB env junk) ⟨P, {}⟩
    let new := fitGB env junk perm modes (presentParams P deeds) c data weights {}
    let r := fitGB env junk perm modes e.params c data weights e.state
    r.2 = new.2 ∧ (new.2 = .ok () → r.1.region_ = new.1.region_ ∧ r.1.depth_ = new.1.depth_ ∧
      r.1.points_ = new.1.points_ ∧ r.1.coefs_ = new.1.coefs_ ∧
      r.1.window_size_ = new.1.window_size_ ∧ r.1.rmse_ = new.1.rmse_) := by
  intro e new r
  have hP : e.params = presentParams P deeds := params_stepGB env junk P {} deeds
  simp only [r, new, hP]
  exact fitGB_outcome env junk perm modes _ c data weights _ _

/-- C140 for `EquivalentSourcesSph`. -/
theorem C140_fit_spherical (env : Env) (junk : Junk) (P : SphParams) (deeds : List SphDeed)
    (mode : Mode) (c : Coords) (data : CArr) (weights : Option CArr) :
    let e := deeds.foldl (SphDeed.step env junk) ⟨P, {}⟩
    let new := fitSph env junk mode (presentSphParams P deeds) c data weights {}
    let r := fitSph env junk mode e.params c data weights e.state
    r.2 = new.2 ∧ (new.2 = .ok () → r.1.region_ = new.1.region_ ∧ r.1.points_ = new.1.points_ ∧
      r.1.coefs_ = new.1.coefs_) := by
  intro e new r
  have hP : e.params = presentSphParams P deeds := params_stepSph env junk P {} deeds
  have ho : r.2 = new.2 := by
    simp only [r, new, hP]
    exact fitSph_outcome env junk _ _ c data weights _ _
  refine ⟨ho, fun hn => ?_⟩
  obtain ⟨region, coefs, -, -, -, h⟩ :=
    fitSph_ok env junk mode (presentSphParams P deeds) c data weights {} new.1 (Prod.ext rfl hn)
  simp only [r, new, hP, h, and_self]

/-- C140, the predictions: after a `fit` that returned, parameters assigned later (and estimates of the
memory) do not change the sources nor their coefficients until the next `fit`. `predict` is that of a
new object that was fitted in the same way; of the parameters it reads the present dtype alone. -/
theorem C140_predict (env : Env) (junk : Junk) (P : Params) (before later : List Deed)
    (perm : ℕ → List ℕ) (modes : ℕ → Mode × Mode) (c : Coords) (data : CArr) (weights : Option CArr)
    (hok : (fit env junk (modes 0).1 (presentParams P before) c data weights {}).2 = .ok ())
    (hl : NotFits later) (mode : Mode) (q : Coords) :
    let e := (before ++ [Deed.fit perm modes c data weights] ++ later).foldl (Deed.step env junk) ⟨P, {}⟩
    predict junk mode e.params q e.state =
      predict junk mode
        { dtype := latest (fun | .assign (.dtype v) => some v | _ => none) (before ++ later) P.dtype }
        q (fit env junk (modes 0).1 (presentParams P before) c data weights {}).1 := by
  intro e
  have hd : e.params.dtype =
      latest (fun | .assign (.dtype v) => some v | _ => none) (before ++ later) P.dtype := by
    simp only [e, params_step, presentParams, latest, List.filterMap_append]
    simp
  have hs := C140_fit env junk P before modes c data weights
  simp only at hs
  obtain ⟨-, -, hp, hc⟩ := hs.2 hok |>.imp id id
  have he : e = later.foldl (Deed.step env junk)
      (Deed.step env junk (before.foldl (Deed.step env junk) ⟨P, {}⟩)
        (.fit perm modes c data weights)) := by
    simp only [e, List.foldl_append, List.foldl_cons, List.foldl_nil]
  have hlat := later_points env junk later (Deed.step env junk
    (before.foldl (Deed.step env junk) ⟨P, {}⟩) (.fit perm modes c data weights)) hl
  rw [← he] at hlat
  have h1 : e.state.points_ =
      (fit env junk (modes 0).1 (presentParams P before) c data weights {}).1.points_ :=
    hlat.1.trans hp
  have h2 : e.state.coefs_ =
      (fit env junk (modes 0).1 (presentParams P before) c data weights {}).1.coefs_ :=
    hlat.2.trans hc
  unfold predict
  rw [h1, h2, hd]

/-- C140, the predictions of `EquivalentSourcesGB` (until the next `fit` or
`estimate_required_memory`: see `C29_not_gradient_boosted`). -/
theorem C140_predict_gradient_boosted (env : Env) (junk : Junk) (P : Params) (before later : List Deed)
    (perm : ℕ → List ℕ) (modes : ℕ → Mode × Mode) (c : Coords) (data : CArr) (weights : Option CArr)
    (hok : (fitGB env junk perm modes (presentParams P before) c data weights {}).2 = .ok ())
    (hl : NotFits later) (he : NotEstimates later) (mode : Mode) (q : Coords) :
    let e :=
      (before ++ [Deed.fit perm modes c data weights] ++ later).foldl (Deed.stepGB env junk) ⟨P, {}⟩
    predict junk mode e.params q e.state =
      predict junk mode
        { dtype := latest (fun | .assign (.dtype v) => some v | _ => none) (before ++ later) P.dtype }
        q (fitGB env junk perm modes (presentParams P before) c data weights {}).1 := by
  intro e
  have hd : e.params.dtype =
      latest (fun | .assign (.dtype v) => some v | _ => none) (before ++ later) P.dtype := by
    simp only [e, params_stepGB, presentParams, latest, List.filterMap_append]
    simp
  have hs := C140_fit_gradient_boosted env junk P before perm modes c data weights
  simp only at hs
  obtain ⟨-, -, hp, hc, -, -⟩ := hs.2 hok
  have he' : e = later.foldl (Deed.stepGB env junk)
      (Deed.stepGB env junk (before.foldl (Deed.stepGB env junk) ⟨P, {}⟩)
        (.fit perm modes c data weights)) := by
    simp only [e, List.foldl_append, List.foldl_cons, List.foldl_nil]
  have hlat := later_pointsGB env junk later (Deed.stepGB env junk
    (before.foldl (Deed.stepGB env junk) ⟨P, {}⟩) (.fit perm modes c data weights)) hl he
  rw [← he'] at hlat
  have h1 : e.state.points_ =
      (fitGB env junk perm modes (presentParams P before) c data weights {}).1.points_ := by
    rw [hlat]; exact hp
  have h2 : e.state.coefs_ =
      (fitGB env junk perm modes (presentParams P before) c data weights {}).1.coefs_ := by
    rw [hlat]; exact hc
  unfold predict
  rw [h1, h2, hd]

/-- C140, the predictions of `EquivalentSourcesSph`. -/
theorem C140_predict_spherical (env : Env) (junk : Junk) (P : SphParams)
    (before later : List SphDeed) (m : Mode) (c : Coords) (data : CArr) (weights : Option CArr)
    (hok : (fitSph env junk m (presentSphParams P before) c data weights {}).2 = .ok ())
    (hl : NotSphFits later) (mode : Mode) (q : Coords) :
    let e := (before ++ [SphDeed.fit m c data weights] ++ later).foldl (SphDeed.step env junk) ⟨P, {}⟩
    predictSph junk mode q e.state =
      predictSph junk mode q (fitSph env junk m (presentSphParams P before) c data weights {}).1 := by
  intro e
  have hs := C140_fit_spherical env junk P before m c data weights
  simp only at hs
  obtain ⟨-, hp, hc⟩ := hs.2 hok
  have he : e = later.foldl (SphDeed.step env junk)
      (SphDeed.step env junk (before.foldl (SphDeed.step env junk) ⟨P, {}⟩)
        (.fit m c data weights)) := by
    simp only [e, List.foldl_append, List.foldl_cons, List.foldl_nil]
  have hlat := later_pointsSph env junk later (SphDeed.step env junk
    (before.foldl (SphDeed.step env junk) ⟨P, {}⟩) (.fit m c data weights)) hl
  rw [← he] at hlat
  have h1 : e.state.points_ =
      (fitSph env junk m (presentSphParams P before) c data weights {}).1.points_ := by
    rw [hlat]; exact hp
  have h2 : e.state.coefs_ =
      (fitSph env junk m (presentSphParams P before) c data weights {}).1.coefs_ := by
    rw [hlat]; exact hc
  unfold predictSph
  rw [h1, h2]

/-- The hypothesis of `C140_predict` is met, and the parameters matter: an object that was fitted with
sources 1 m deep and whose depth is then set to 2 predicts 1 at the data point until it is fitted
again, and 1/2 then. -/
example (junk : Junk) :
    let modes := fun _ : ℕ => (Mode.serial, Mode.serial)
    let fit1 : Deed := .fit List.range modes (atHeight 0) ⟨.float64, [1], [1]⟩ none
    let e1 := [fit1, .assign (.depth (.num 2))].foldl (Deed.step toyEnv junk) ⟨depth1, {}⟩
    let e2 := [fit1, .assign (.depth (.num 2)), fit1].foldl (Deed.step toyEnv junk) ⟨depth1, {}⟩
    (fit toyEnv junk .serial depth1 (atHeight 0) ⟨.float64, [1], [1]⟩ none {}).2 = .ok () ∧
    predict junk .serial e1.params (atHeight 0) e1.state = .ok ⟨[1], [1]⟩ ∧
    predict junk .serial e2.params (atHeight 0) e2.state = .ok ⟨[1], [1 / 2]⟩ := by
  intro modes fit1 e1 e2
  have hs : e1.state.points_ = some ([0], [0], [-1]) ∧ e1.state.coefs_ = some [1] := by
    simp [e1, fit1, modes, Deed.step, fit, checkFitInput, coordArrs, castArrs, n1dArrays, getRegion,
      choosePoints, buildPoints, blockCoordinates, sourceDepth, solve, toyEnv, DType.cast, jacobian,
      depth1, atHeight]
  have hr : e2.state.points_ = some ([0], [0], [-2]) ∧ e2.state.coefs_ = some [1] := by
    simp [e2, fit1, modes, Deed.step, Assign.set, fit, checkFitInput, coordArrs, castArrs, n1dArrays,
      getRegion, choosePoints, buildPoints, blockCoordinates, sourceDepth, solve, toyEnv, DType.cast,
      jacobian, depth1, atHeight]
  have hd : ∀ (P : Params) (s : State), P.dtype = .float64 →
      predict junk .serial P (atHeight 0) s = predict junk .serial depth1 (atHeight 0) s := by
    intro P s h
    unfold predict
    rw [h]
    rfl
  refine ⟨?_, ?_, ?_⟩
  · simp [fit, checkFitInput, coordArrs, castArrs, n1dArrays, getRegion, choosePoints,
      buildPoints, blockCoordinates, sourceDepth, solve, toyEnv, DType.cast, jacobian, depth1,
      atHeight]
  · rw [hd _ _ rfl, predict_atHeight junk _ (-1) hs.1 hs.2]; norm_num
  · rw [hd _ _ rfl, predict_atHeight junk _ (-2) hr.1 hr.2]; norm_num

end Verif.EqSources
