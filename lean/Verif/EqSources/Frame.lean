import Verif.EqSources.Boost
import Mathlib.Tactic.Linarith

/-! Lemmas: which attributes each method changes, and what successful calls computed. -/

namespace Verif.EqSources
open Verif.Forward Verif.Engine Verif.Distance

theorem buildPoints_cases (env : Env) (P : Params) (c : Arrs) :
    (∃ e, (∀ s, buildPoints env P c s = (s, .error e))) ∨
    (∃ base depth, blockCoordinates env P c = .ok base ∧ sourceDepth env P base = .ok depth ∧
      ∀ s, buildPoints env P c s = ({ s with depth_ := some (some depth) },
        .ok (base.1, base.2.1, base.2.2.map fun u => u - depth))) := by
  unfold buildPoints
  cases h1 : blockCoordinates env P c with
  | error e => exact .inl ⟨e, fun s => rfl⟩
  | ok base =>
    cases h2 : sourceDepth env P base with
    | error e => exact .inl ⟨e, fun s => by simp [h2]⟩
    | ok depth => exact .inr ⟨base, depth, rfl, h2, fun s => by simp [h2]⟩

theorem choosePoints_cases (env : Env) (P : Params) (c : Arrs) :
    (∃ e, (∀ s, choosePoints env P c s = (s, .error e))) ∨
    (∃ d pts, (∀ s, choosePoints env P c s = ({ s with depth_ := some d }, .ok pts)) ∧
      (∀ p, P.points = some p → d = none ∧ pts = castArrs P.dtype (n1dArrays p)) ∧
      (P.points = none → ∃ base depth, blockCoordinates env P c = .ok base ∧
        sourceDepth env P base = .ok depth ∧ d = some depth ∧
        pts = castArrs P.dtype (base.1, base.2.1, base.2.2.map fun u => u - depth))) := by
  unfold choosePoints
  cases hp : P.points with
  | some p =>
    refine .inr ⟨none, castArrs P.dtype (n1dArrays p), fun s => rfl, ?_, ?_⟩
    · intro q hq; cases hq; exact ⟨rfl, rfl⟩
    · intro h; cases h
  | none =>
    rcases buildPoints_cases env P c with ⟨e, h⟩ | ⟨base, depth, h1, h2, h3⟩
    · exact .inl ⟨e, fun s => by simp [h s]⟩
    · refine .inr ⟨some depth, castArrs P.dtype (base.1, base.2.1, base.2.2.map fun u => u - depth),
        fun s => by simp only [h3 s], ?_, ?_⟩
      · intro q hq; cases hq
      · intro _; exact ⟨base, depth, h1, h2, rfl, rfl⟩

theorem createWindows_cases (env : Env) (perm : ℕ → List ℕ) (P : Params) (c p : Arrs) :
    (∃ e, ∀ s, createWindows env perm P c p s = (s, .error e)) ∨
    (∃ size r, ∀ s, createWindows env perm P c p s = ({ s with window_size_ := some size }, r)) := by
  unfold createWindows
  cases h1 : getRegionDataSources c p with
  | error e => exact .inl ⟨e, fun s => rfl⟩
  | ok region =>
    cases h2 : windowSize P region c.1.length with
    | none => exact .inr ⟨none, .ok ([List.range p.1.length], [List.range c.1.length]),
        fun s => by simp only [h2]⟩
    | some size => exact .inr ⟨some size, rollingWindows env perm region size c p,
        fun s => by simp only [h2]⟩

theorem solve_cases (env : Env) (junk : Junk) (mode : Mode) (g : P3 → P3 → ℝ) (d : DType)
    (damping : Option ℝ) (c p : Arrs) (data : List ℝ) (weights : Option (List ℝ)) :
    (∃ e, ∀ s, solve env junk mode g d damping c p data weights s = (s, .error e)) ∨
    (∀ s, solve env junk mode g d damping c p data weights s =
      ({ s with allocs := s.allocs ++ [c.1.length * p.1.length * d.itemsize] },
        env.leastSquares (jacobian junk mode g d c p) data weights damping)) := by
  unfold solve
  cases h : env.alloc (c.1.length * p.1.length * d.itemsize) with
  | error e => exact .inl ⟨e, fun s => by simp [h]⟩
  | ok _ => exact .inr fun s => by simp [h]

/-- a successful `fit` of `EquivalentSources` -/
theorem fit_ok (env : Env) (junk : Junk) (mode : Mode) (P : Params) (c : Coords) (data : CArr)
    (weights : Option CArr) (s s' : State) (h : fit env junk mode P c data weights s = (s', .ok ())) :
    ∃ region d pts coefs, checkFitInput c data weights = .ok () ∧
      getRegion (castArrs P.dtype (n1dArrays c)).1 (castArrs P.dtype (n1dArrays c)).2.1 = .ok region ∧
      (∀ s, choosePoints env P (castArrs P.dtype (n1dArrays c)) s =
        ({ s with depth_ := some d }, .ok pts)) ∧
      env.alloc ((castArrs P.dtype (n1dArrays c)).1.length * pts.1.length * P.dtype.itemsize)
        = .ok () ∧
      env.leastSquares (jacobian junk mode greensFuncCartesian P.dtype
        (castArrs P.dtype (n1dArrays c)) pts) (data.data.map P.dtype.cast)
        (weights.map fun w => w.data.map P.dtype.cast) P.damping = .ok coefs ∧
      (∀ s, fit env junk mode P c data weights s = ({ s with
        region_ := some region, depth_ := some d, points_ := some pts, coefs_ := some coefs,
        allocs := s.allocs ++ [(castArrs P.dtype (n1dArrays c)).1.length * pts.1.length
          * P.dtype.itemsize] }, .ok ())) := by
  unfold fit at h ⊢
  cases h1 : checkFitInput c data weights with
  | error e => rw [h1] at h; cases h
  | ok _ =>
  rw [h1] at h; simp only at h
  cases h2 : getRegion (castArrs P.dtype (n1dArrays c)).1 (castArrs P.dtype (n1dArrays c)).2.1 with
  | error e => rw [h2] at h; cases h
  | ok region =>
  rw [h2] at h; simp only at h
  rcases choosePoints_cases env P (castArrs P.dtype (n1dArrays c)) with ⟨e, h3⟩ | ⟨d, pts, h3, -, -⟩
  · rw [h3] at h; cases h
  rw [h3] at h; simp only at h
  unfold solve at h ⊢
  cases h4 : env.alloc ((castArrs P.dtype (n1dArrays c)).1.length * pts.1.length
      * P.dtype.itemsize) with
  | error e => simp only [h4] at h; cases h
  | ok u =>
  simp only [h4] at h
  cases h5 : env.leastSquares (jacobian junk mode greensFuncCartesian P.dtype
        (castArrs P.dtype (n1dArrays c)) pts) (data.data.map P.dtype.cast)
        (weights.map fun w => w.data.map P.dtype.cast) P.damping with
  | error e => rw [h5] at h; cases h
  | ok coefs =>
  exact ⟨region, d, pts, coefs, rfl, rfl, h3, h4, h5, fun s => by simp only [h2, h3, h4, h5]⟩

theorem boostLoop_frame (env : Env) (junk : Junk) (modes : ℕ → Mode × Mode) (P : Params)
    (c p : Arrs) (weights : Option (List ℝ)) (W : List (List ℕ × List ℕ)) :
    ∀ k b s, (boostLoop env junk modes P c p weights W k b s).1.points_ = s.points_ ∧
      (boostLoop env junk modes P c p weights W k b s).1.depth_ = s.depth_ := by
  induction W with
  | nil => intro k b s; exact ⟨rfl, rfl⟩
  | cons w W ih =>
    obtain ⟨pw, dw⟩ := w
    intro k b s
    rw [boostLoop]
    cases h1 : chunks c p weights b.residue pw dw with
    | error e => exact ⟨rfl, rfl⟩
    | ok x =>
      obtain ⟨a1, a2, a3, a4⟩ := x
      simp only
      rcases solve_cases env junk (modes k).1 greensFuncCartesian P.dtype P.damping a2 a1 a4 a3 with
        ⟨e, h2⟩ | h2
      · rw [h2]; exact ⟨rfl, rfl⟩
      · rw [h2]
        cases env.leastSquares (jacobian junk (modes k).1 greensFuncCartesian P.dtype a2 a1) a4 a3
          P.damping with
        | error e => exact ⟨rfl, rfl⟩
        | ok v =>
          simp only
          cases boostUpdate junk (modes k).2 P.dtype c a1 pw v b with
          | error e => exact ⟨rfl, rfl⟩
          | ok b' => simp only; exact ih _ _ _

/-- a successful `fit` of `EquivalentSourcesGB` -/
theorem fitGB_ok (env : Env) (junk : Junk) (perm : ℕ → List ℕ) (modes : ℕ → Mode × Mode)
    (P : Params) (c : Coords) (data : CArr) (weights : Option CArr) (s s' : State)
    (h : fitGB env junk perm modes P c data weights s = (s', .ok ())) :
    ∃ region d pts W size b s1, checkFitInput c data weights = .ok () ∧
      getRegion (castArrs P.dtype (n1dArrays c)).1 (castArrs P.dtype (n1dArrays c)).2.1 = .ok region ∧
      (∀ s, choosePoints env P (castArrs P.dtype (n1dArrays c)) s =
        ({ s with depth_ := some d }, .ok pts)) ∧
      (∀ s, createWindows env perm P (castArrs P.dtype (n1dArrays c)) pts s =
        ({ s with window_size_ := some size }, .ok W)) ∧
      boostLoop env junk modes P (castArrs P.dtype (n1dArrays c)) pts
        (weights.map fun w => w.data.map P.dtype.cast) (W.1.zip W.2) 0
        ⟨List.replicate pts.1.length 0, data.data.map P.dtype.cast,
          [rms (data.data.map P.dtype.cast)]⟩
        { s with region_ := some region, depth_ := some d, points_ := some pts, window_size_ := some size, coefs_ := some (List.replicate pts.1.length 0) } = (s1, .ok b) ∧
      s' = { s1 with rmse_ := some b.errors } ∧ s'.points_ = some pts ∧ s'.depth_ = some d := by
  unfold fitGB at h
  cases h1 : checkFitInput c data weights with
  | error e => rw [h1] at h; cases h
  | ok _ =>
  rw [h1] at h; simp only at h
  cases h2 : getRegion (castArrs P.dtype (n1dArrays c)).1 (castArrs P.dtype (n1dArrays c)).2.1 with
  | error e => rw [h2] at h; cases h
  | ok region =>
  rw [h2] at h; simp only at h
  rcases choosePoints_cases env P (castArrs P.dtype (n1dArrays c)) with ⟨e, h3⟩ | ⟨d, pts, h3, -, -⟩
  · rw [h3] at h; cases h
  rw [h3] at h; simp only at h
  unfold gradientBoosting at h
  rcases createWindows_cases env perm P (castArrs P.dtype (n1dArrays c)) pts with
    ⟨e, h4⟩ | ⟨size, r, h4⟩
  · rw [h4] at h; cases h
  cases r with
  | error e => rw [h4] at h; cases h
  | ok W =>
  rw [h4] at h; simp only at h
  cases h5 : boostLoop env junk modes P (castArrs P.dtype (n1dArrays c)) pts
        (weights.map fun w => w.data.map P.dtype.cast) (W.1.zip W.2) 0
        ⟨List.replicate pts.1.length 0, data.data.map P.dtype.cast,
          [rms (data.data.map P.dtype.cast)]⟩
        { s with region_ := some region, depth_ := some d, points_ := some pts, window_size_ := some size, coefs_ := some (List.replicate pts.1.length 0) } with
  | mk s1 r =>
  rw [h5] at h
  cases r with
  | error e => cases h
  | ok b =>
  simp only [Prod.mk.injEq, and_true] at h
  have hf := boostLoop_frame env junk modes P (castArrs P.dtype (n1dArrays c)) pts
        (weights.map fun w => w.data.map P.dtype.cast) (W.1.zip W.2) 0
        ⟨List.replicate pts.1.length 0, data.data.map P.dtype.cast,
          [rms (data.data.map P.dtype.cast)]⟩
        { s with region_ := some region, depth_ := some d, points_ := some pts, window_size_ := some size, coefs_ := some (List.replicate pts.1.length 0) }
  rw [h5] at hf
  refine ⟨region, d, pts, W, size, b, s1, rfl, rfl, h3, h4, h5, h.symm, ?_, ?_⟩
  · rw [← h]; exact hf.1
  · rw [← h]; exact hf.2

/-- a successful `fit` of `EquivalentSourcesSph` -/
theorem fitSph_ok (env : Env) (junk : Junk) (mode : Mode) (P : SphParams) (c : Coords) (data : CArr)
    (weights : Option CArr) (s s' : State)
    (h : fitSph env junk mode P c data weights s = (s', .ok ())) :
    ∃ region coefs, checkFitInput c data weights = .ok () ∧
      getRegion (n1dArrays c).1 (n1dArrays c).2.1 = .ok region ∧
      env.leastSquares (jacobian junk mode greensFuncSpherical .float64
        (n1dArrays c) (sphPoints P (n1dArrays c))) data.data
        (weights.map (·.data)) P.damping = .ok coefs ∧
      (∀ s, fitSph env junk mode P c data weights s = ({ s with
        region_ := some region, points_ := some (sphPoints P (n1dArrays c)), coefs_ := some coefs,
        allocs := s.allocs ++ [(n1dArrays c).1.length * (sphPoints P (n1dArrays c)).1.length * 8] },
          .ok ())) := by
  unfold fitSph at h ⊢
  cases h1 : checkFitInput c data weights with
  | error e => rw [h1] at h; cases h
  | ok _ =>
  rw [h1] at h; simp only at h
  cases h2 : getRegion (n1dArrays c).1 (n1dArrays c).2.1 with
  | error e => rw [h2] at h; cases h
  | ok region =>
  rw [h2] at h; simp only at h
  unfold solve at h ⊢
  simp only at h ⊢
  cases h4 : env.alloc ((n1dArrays c).1.length * (sphPoints P (n1dArrays c)).1.length
      * DType.float64.itemsize) with
  | error e => rw [h4] at h; cases h
  | ok u =>
  rw [h4] at h; simp only at h
  cases h5 : env.leastSquares (jacobian junk mode greensFuncSpherical .float64
        (n1dArrays c) (sphPoints P (n1dArrays c))) data.data
        (weights.map (·.data)) P.damping with
  | error e => rw [h5] at h; cases h
  | ok coefs =>
  exact ⟨region, coefs, trivial, rfl, rfl, fun s => by simp only [h2]; rfl⟩

end Verif.EqSources
