import Verif.EqSources.Frame
import Verif.Forward.Props

/-!
C01 and C24, C25, C30, C31 for the equivalent sources. The specification is in `Spec.lean`.
-/

namespace Verif.EqSources
open Verif.Forward Verif.Engine Verif.Distance Verif.Layers

/-! ### C01 -/

/-- C01: the parallel Jacobian is the serial one, for any input (any lengths) and schedule. -/
theorem C01_jacobian (junk : Junk) (g : P3 → P3 → ℝ) (d : DType) (c p : Arrs) (sched : List ℕ)
    (hs : (Mode.parallel sched).Full c.1.length p.1.length) :
    jacobian junk (.parallel sched) g d c p = jacobian junk .serial g d c p := by
  unfold jacobian jacobianLoop
  rw [C01_assignment_loop c.1.length p.1.length (fun i j => (⟨d.cast (g
    ⟨rd junk "east" c.1 i, rd junk "north" c.2.1 i, rd junk "upward" c.2.2 i⟩
    ⟨rd junk "point_east" p.1 j, rd junk "point_north" p.2.1 j,
      rd junk "point_upward" p.2.2 j⟩)⟩ : Acc d)) ⟨0⟩ (fun _ => ⟨0⟩) sched hs]

/-- C01: `predict` in parallel is the serial one, for any input, dtype and schedule. -/
theorem C01_predict (junk : Junk) (P : Params) (c : Coords) (s : State) (sched : List ℕ)
    (hs : ∀ p, s.points_ = some p →
      (Mode.parallel sched).Full c.1.data.length (2 * p.1.length)) :
    predict junk (.parallel sched) P c s = predict junk .serial P c s := by
  unfold predict
  cases hc : s.coefs_ with
  | none => rfl
  | some coefs =>
    cases hp : s.points_ with
    | none => rfl
    | some p =>
      simp only
      have : ∀ size, predictKernel junk (.parallel sched) greensFuncCartesian P.dtype
          (castArrs P.dtype (n1dArrays c)) p coefs size = predictKernel junk .serial
          greensFuncCartesian P.dtype (castArrs P.dtype (n1dArrays c)) p coefs size := by
        intro size
        unfold predictKernel predictLoop
        rw [C01_accumulation_loop _ p.1.length (fun i j => (_ : Acc P.dtype)) _ _ sched]
        have := hs p hp
        simpa [castArrs, n1dArrays] using this
      simp only [this]

/-- C01 for the spherical `predict`. -/
theorem C01_predict_spherical (junk : Junk) (c : Coords) (s : State) (sched : List ℕ)
    (hs : ∀ p, s.points_ = some p →
      (Mode.parallel sched).Full c.1.data.length (2 * p.1.length)) :
    predictSph junk (.parallel sched) c s = predictSph junk .serial c s := by
  unfold predictSph
  cases hc : s.coefs_ with
  | none => rfl
  | some coefs =>
    cases hp : s.points_ with
    | none => rfl
    | some p =>
      simp only
      have : ∀ size, predictKernel junk (.parallel sched) greensFuncSpherical c.1.dtype
          (n1dArrays c) p coefs size = predictKernel junk .serial
          greensFuncSpherical c.1.dtype (n1dArrays c) p coefs size := by
        intro size
        unfold predictKernel predictLoop
        rw [C01_accumulation_loop _ p.1.length (fun i j => (_ : Acc c.1.dtype)) _ _ sched]
        exact hs p hp
      simp only [this]

example : (Mode.parallel [1, 0, 1, 0]).Full 2 (2 * 1) := by
  refine ⟨by decide, ?_⟩
  decide

/-! ### C24 -/

/-- C24: `predict` of Cartesian equivalent sources at any points, in any dtype of the coordinates, is
the sum of coefficient over Euclidean distance. -/
theorem C24_predict (junk : Junk) (mode : Mode) (P : Params) (hd : P.dtype.IsFloat)
    (d1 d2 d3 : DType) (shape : List ℕ) (obs : List P3) (hshape : shape.prod = obs.length)
    (srcs : List (P3 × ℝ)) (hm : mode.Full obs.length (2 * srcs.length)) (s : State)
    (hp : s.points_ = some (pointArrs (srcs.map (·.1)))) (hc : s.coefs_ = some (srcs.map (·.2))) :
    predict junk mode P (coordArrs d1 d2 d3 shape obs) s =
      .ok ⟨shape, obs.map (field cartPos srcs)⟩ :=
  predict_eq junk mode P hd d1 d2 d3 shape obs hshape srcs hm s hp hc

/-- C24 for spherical equivalent sources, when the longitudes are floats. (Missing: integer
longitudes, for which it is false, see `C24_not_spherical_integers`.) -/
theorem C24_predict_spherical_partial (junk : Junk) (mode : Mode) (d1 d2 d3 : DType)
    (hd : d1.IsFloat) (shape : List ℕ) (obs : List P3) (hshape : shape.prod = obs.length)
    (srcs : List (P3 × ℝ)) (hm : mode.Full obs.length (2 * srcs.length)) (s : State)
    (hp : s.points_ = some (pointArrs (srcs.map (·.1)))) (hc : s.coefs_ = some (srcs.map (·.2))) :
    predictSph junk mode (coordArrs d1 d2 d3 shape obs) s =
      .ok ⟨shape, obs.map (field sphPos srcs)⟩ :=
  predictSph_eq junk mode d1 d2 d3 hd shape obs hshape srcs hm s hp hc

/-- C24: the Jacobian has one row per data point and one column per source, with entries one over
the Euclidean distance. -/
theorem C24_jacobian (junk : Junk) (mode : Mode) (d : DType) (hd : d.IsFloat) (obs pts : List P3)
    (hm : mode.Full obs.length pts.length) :
    jacobian junk mode greensFuncCartesian d (pointArrs obs) (pointArrs pts) =
      (obs.map fun q => pts.map fun p => 1 / dist (cartPos q) (cartPos p)) ∧
    jacobian junk mode greensFuncSpherical d (pointArrs obs) (pointArrs pts) =
      (obs.map fun q => pts.map fun p => 1 / dist (sphPos q) (sphPos p)) := by
  rw [jacobian_eq junk mode _ hd obs pts hm, jacobian_eq junk mode _ hd obs pts hm]
  simp only [greensCart1, greensSph1, and_self]

theorem matVec_field (pos : P3 → E3) (obs : List P3) (srcs : List (P3 × ℝ)) :
    matVec (obs.map fun q => (srcs.map (·.1)).map fun p => 1 / dist (pos q) (pos p))
      (srcs.map (·.2)) = obs.map (field pos srcs) := by
  unfold matVec field
  rw [List.map_map]
  congr 1
  funext q
  simp only [Function.comp_apply, List.map_map, List.zipWith_map, List.zipWith_self]
  congr 1
  apply List.map_congr_left
  intro s _
  ring

/-- C24: predictions are the Jacobian times the coefficients. -/
theorem C24_matrix (junk : Junk) (mode mode' : Mode) (P : Params) (hd : P.dtype.IsFloat)
    (d1 d2 d3 : DType) (shape : List ℕ) (obs : List P3) (hshape : shape.prod = obs.length)
    (srcs : List (P3 × ℝ)) (hm : mode.Full obs.length (2 * srcs.length))
    (hm' : mode'.Full obs.length srcs.length) (s : State)
    (hp : s.points_ = some (pointArrs (srcs.map (·.1)))) (hc : s.coefs_ = some (srcs.map (·.2))) :
    predict junk mode P (coordArrs d1 d2 d3 shape obs) s =
      .ok ⟨shape, matVec (jacobian junk mode' greensFuncCartesian P.dtype (pointArrs obs)
        (pointArrs (srcs.map (·.1)))) (srcs.map (·.2))⟩ := by
  rw [(C24_jacobian junk mode' P.dtype hd obs (srcs.map (·.1)) (by simpa using hm')).1,
    matVec_field]
  exact predict_eq junk mode P hd d1 d2 d3 shape obs hshape srcs hm s hp hc

/-- C24: predictions are linear in the coefficients: sources at `pts`, with the coefficients
`a c₁ + b c₂`. -/
theorem C24_linear (junk : Junk) (mode : Mode) (P : Params) (hd : P.dtype.IsFloat)
    (d1 d2 d3 : DType) (shape : List ℕ) (obs : List P3) (hshape : shape.prod = obs.length)
    (srcs : List (P3 × ℝ × ℝ)) (hm : mode.Full obs.length (2 * srcs.length)) (a b : ℝ)
    (s s1 s2 : State)
    (hp : s.points_ = some (pointArrs (srcs.map (·.1))))
    (hp1 : s1.points_ = some (pointArrs (srcs.map (·.1))))
    (hp2 : s2.points_ = some (pointArrs (srcs.map (·.1))))
    (hc : s.coefs_ = some (srcs.map fun x => a * x.2.1 + b * x.2.2))
    (hc1 : s1.coefs_ = some (srcs.map (·.2.1))) (hc2 : s2.coefs_ = some (srcs.map (·.2.2))) :
    ∃ r1 r2, predict junk mode P (coordArrs d1 d2 d3 shape obs) s1 = .ok ⟨shape, r1⟩ ∧
      predict junk mode P (coordArrs d1 d2 d3 shape obs) s2 = .ok ⟨shape, r2⟩ ∧
      predict junk mode P (coordArrs d1 d2 d3 shape obs) s =
        .ok ⟨shape, List.zipWith (fun x y => a * x + b * y) r1 r2⟩ := by
  have key : ∀ (f : P3 × ℝ × ℝ → ℝ) (s : State),
      s.points_ = some (pointArrs (srcs.map (·.1))) → s.coefs_ = some (srcs.map f) →
      predict junk mode P (coordArrs d1 d2 d3 shape obs) s =
        .ok ⟨shape, obs.map (field cartPos (srcs.map fun x => (x.1, f x)))⟩ := by
    intro f s hp hc
    refine predict_eq junk mode P hd d1 d2 d3 shape obs hshape (srcs.map fun x => (x.1, f x))
      (by simpa using hm) s ?_ ?_
    · simpa [List.map_map, Function.comp_def] using hp
    · simpa [List.map_map, Function.comp_def] using hc
  refine ⟨_, _, key _ s1 hp1 hc1, key _ s2 hp2 hc2, ?_⟩
  rw [key _ s hp hc]
  congr 2
  rw [List.zipWith_map, List.zipWith_self]
  apply List.map_congr_left
  intro q _
  unfold field
  simp only [List.map_map, Function.comp_def]
  rw [← List.sum_map_mul_left, ← List.sum_map_mul_left, ← List.sum_map_add]
  congr 1
  apply List.map_congr_left
  intro x _
  ring

/-- predicting before fitting raises -/
theorem C24_not_fitted (junk : Junk) (mode : Mode) (P : Params) (c : Coords) (s : State)
    (h : s.coefs_ = none) : predict junk mode P c s = .error .ValueError ∧
      predictSph junk mode c s = .error .ValueError := by
  simp [predict, predictSph, h]

/-- one source below one point: the prediction is coefficient / depth -/
example (junk : Junk) : predict junk .serial {} (coordArrs .float64 .int64 .float32 [1] [⟨0, 0, 0⟩])
    { points_ := some (pointArrs [⟨0, 0, -2⟩]), coefs_ := some [6] } = .ok ⟨[1], [3]⟩ := by
  rw [C24_predict junk .serial {} trivial .float64 .int64 .float32 [1] [⟨0, 0, 0⟩] rfl
    [(⟨0, 0, -2⟩, 6)] trivial _ rfl rfl]
  simp only [List.map_cons, List.map_nil, field, List.sum_cons, List.sum_nil]
  rw [← C10_distance_cartesian]
  simp only [distanceCartesian]
  norm_num
  rw [show (4 : ℝ) = 2 ^ 2 by norm_num, Real.sqrt_sq (by norm_num)]
  norm_num

/-! ### C31 -/

/-- C31 for Cartesian sources: neither the fit nor the predictions depend on the dtype of the
coordinates. -/
theorem C31_cartesian (env : Env) (junk : Junk) (perm : ℕ → List ℕ) (mode : Mode)
    (modes : ℕ → Mode × Mode) (P : Params)
    (d1 d2 d3 d1' d2' d3' dd dd' : DType) (shape : List ℕ) (obs : List P3)
    (data : List ℝ) (weights : Option CArr) (s : State) :
    fit env junk mode P (coordArrs d1 d2 d3 shape obs) ⟨dd, shape, data⟩ weights s =
      fit env junk mode P (coordArrs d1' d2' d3' shape obs) ⟨dd', shape, data⟩ weights s ∧
    fitGB env junk perm modes P (coordArrs d1 d2 d3 shape obs) ⟨dd, shape, data⟩ weights s =
      fitGB env junk perm modes P (coordArrs d1' d2' d3' shape obs) ⟨dd', shape, data⟩ weights s ∧
    predict junk mode P (coordArrs d1 d2 d3 shape obs) s =
      predict junk mode P (coordArrs d1' d2' d3' shape obs) s := ⟨rfl, rfl, rfl⟩

/-- C31 for spherical sources: no dependence on the dtypes of latitude, radius and data, nor on
which float dtype is used for the longitude. (Missing: integer longitudes in `predict`.) -/
theorem C31_spherical_partial (env : Env) (junk : Junk) (mode : Mode) (P : SphParams)
    (d1 d2 d3 d1' d2' d3' dd dd' : DType) (h1 : d1.IsFloat) (h1' : d1'.IsFloat)
    (shape : List ℕ) (obs : List P3) (data : List ℝ) (weights : Option CArr) (s : State)
    (hm : ∀ p, s.points_ = some p → mode.Full obs.length (2 * p.1.length)) :
    fitSph env junk mode P (coordArrs d1 d2 d3 shape obs) ⟨dd, shape, data⟩ weights s =
      fitSph env junk mode P (coordArrs d1' d2' d3' shape obs) ⟨dd', shape, data⟩ weights s ∧
    predictSph junk mode (coordArrs d1 d2 d3 shape obs) s =
      predictSph junk mode (coordArrs d1' d2' d3' shape obs) s := by
  refine ⟨rfl, ?_⟩
  unfold predictSph
  cases hc : s.coefs_ with
  | none => rfl
  | some coefs =>
    cases hp : s.points_ with
    | none => rfl
    | some p =>
      simp only
      rw [show (coordArrs d1 d2 d3 shape obs).1.dtype = d1 from rfl,
        show (coordArrs d1' d2' d3' shape obs).1.dtype = d1' from rfl,
        n1dArrays_coordArrs, n1dArrays_coordArrs, npBroadcast_coordArrs, npBroadcast_coordArrs]
      simp only [Py.bind_ok]
      have hm' : mode.Full (pointArrs obs).1.length (2 * p.1.length) := by
        simpa [pointArrs] using hm p hp
      rw [predictKernel_float junk mode _ h1 _ _ _ _ hm',
        predictKernel_float junk mode _ h1' _ _ _ _ hm']

/-- The point of longitude 0, latitude 0 and radius 1, and a source of coefficient 1 at the radius 3:
the true prediction is 1/2. -/
noncomputable def sphState : State :=
  { points_ := some (pointArrs [⟨0, 0, 3⟩]), coefs_ := some [1] }

theorem sph_value : field sphPos [(⟨0, 0, 3⟩, 1)] ⟨0, 0, 1⟩ = 1 / 2 := by
  unfold field
  simp only [List.map_cons, List.map_nil, List.sum_cons, List.sum_nil]
  rw [← C10_distance_spherical]
  simp [distanceSpherical, distanceSphericalCore, radians]
  rw [show ((1 - 3) ^ 2 : ℝ) = 2 ^ 2 by norm_num, Real.sqrt_sq (by norm_num)]

theorem sph_int (junk : Junk) :
    predictSph junk .serial (coordArrs .int64 .float64 .float64 [1] [⟨0, 0, 1⟩]) sphState =
      .ok ⟨[1], [0]⟩ := by
  have hg : greensFuncSpherical ⟨0, 0, 1⟩ ⟨0, 0, 3⟩ = 1 / 2 := by
    have := sph_value
    simp only [field, List.map_cons, List.map_nil, List.sum_cons, List.sum_nil, add_zero] at this
    rw [greensSph1, this]
  have h : (fun c => (run .serial 1 (predictLoop junk greensFuncSpherical .int64
      (pointArrs [⟨0, 0, 1⟩]) (pointArrs [⟨0, 0, 3⟩]) [1]) ⟨0⟩ (fun _ => ⟨0⟩) c : Acc .int64)) 0
        = ⟨0⟩ := by
    simp only [run, runSerial, predictLoop, pointArrs, List.map_cons, List.map_nil, List.length_cons,
      List.length_nil, Nat.zero_add, List.range_one, List.flatMap_cons, List.flatMap_nil,
      List.append_nil, List.foldl_cons, List.foldl_nil, runOps, accum, Op.exec, if_true, rd,
      List.getElem?_cons_zero, Option.getD_some, hg]
    show Acc.mk (DType.cast .int64 (0 + _)) = _
    simp [DType.cast, truncZ]
    norm_num
  unfold predictSph sphState
  simp only [npBroadcast_coordArrs, Py.bind_ok, Py.pure_eq, n1dArrays_coordArrs]
  congr 2
  unfold predictKernel
  simp only [List.prod_cons, List.prod_nil, mul_one, List.range_one, List.map_cons, List.map_nil,
    List.cons.injEq, and_true]
  exact congrArg Acc.val h

/-- The full C31 is false for spherical sources: with an integer longitude the prediction is
truncated (here 0 instead of 1/2). -/
theorem C31_not_spherical_integers (junk : Junk) :
    predictSph junk .serial (coordArrs .float64 .float64 .float64 [1] [⟨0, 0, 1⟩]) sphState =
      .ok ⟨[1], [1 / 2]⟩ ∧
    predictSph junk .serial (coordArrs .int64 .float64 .float64 [1] [⟨0, 0, 1⟩]) sphState =
      .ok ⟨[1], [0]⟩ := by
  refine ⟨?_, sph_int junk⟩
  rw [predictSph_eq junk .serial .float64 .float64 .float64 trivial [1] [⟨0, 0, 1⟩] rfl
    [(⟨0, 0, 3⟩, 1)] trivial sphState rfl rfl]
  simp only [List.map_cons, List.map_nil, sph_value]

/-- The full C24 is false for spherical sources and integer longitudes. -/
theorem C24_not_spherical_integers (junk : Junk) :
    predictSph junk .serial (coordArrs .int64 .float64 .float64 [1] [⟨0, 0, 1⟩]) sphState ≠
      .ok ⟨[1], [field sphPos [(⟨0, 0, 3⟩, 1)] ⟨0, 0, 1⟩]⟩ := by
  rw [sph_int, sph_value]
  simp

/-! ### C25 -/

/-- C25: the constructors reject exactly the depths that are zero or a string other than "default",
and `EquivalentSourcesGB` also window sizes that are a string other than "default". -/
theorem C25_init (P : Params) :
    (initCartesian P = .error .ValueError ↔
      P.depth = .num 0 ∨ ∃ t, t ≠ "default" ∧ P.depth = .str t) ∧
    (initGB P = .error .ValueError ↔
      P.depth = .num 0 ∨ (∃ t, t ≠ "default" ∧ P.depth = .str t) ∨
        ∃ t, t ≠ "default" ∧ P.window_size = .str t) ∧
    (∀ Q, initCartesian P = .ok Q → Q = P) ∧ (∀ Q, initGB P = .ok Q → Q = P) := by
  have h1 : ∀ P : Params, (initCartesian P = .error .ValueError ↔
      P.depth = .num 0 ∨ ∃ t, t ≠ "default" ∧ P.depth = .str t) := by
    intro P
    unfold initCartesian
    cases h : P.depth with
    | str t => by_cases ht : t = "default" <;> simp [ht]
    | num x => by_cases hx : x = 0 <;> simp [hx]
  have h3 : ∀ Q, initCartesian P = .ok Q → Q = P := by
    intro Q
    unfold initCartesian
    cases P.depth with
    | str t => by_cases ht : t = "default" <;> simp [ht]; exact fun h => h.symm
    | num x => by_cases hx : x = 0 <;> simp [hx]; exact fun h => h.symm
  refine ⟨h1 P, ?_, h3, ?_⟩
  · unfold initGB
    cases h : P.window_size with
    | str t => by_cases ht : t = "default" <;> simp [ht, h1]
    | num x => simp [h1]
  · intro Q
    unfold initGB
    cases P.window_size with
    | str t =>
      by_cases ht : t = "default"
      · simpa [ht] using h3 Q
      · simp [ht]
    | num x => exact h3 Q

/-- What C25 says of the attributes of a fitted Cartesian estimator. -/
def Placed (env : Env) (P : Params) (obs : List P3) (s : State) : Prop :=
  match P.points with
  -- user points are used unchanged
  | some p => s.points_ = some (p.1.data, p.2.1.data, p.2.2.data) ∧ s.depth_ = some none
  -- sources are `depth_` below the data (or the block medians of the data)
  | none => ∃ (base : Arrs) (depth : ℝ),
      (match P.block_size with
        | none => base = pointArrs obs
        | some b => env.blockMedian b (pointArrs obs) = .ok base) ∧
      (match P.depth with
        | .num x => depth = x
        | .str _ => ∃ m, env.meanNeighbour base.1 base.2.1 = .ok m ∧ depth = 4.5 * m) ∧
      s.points_ = some (base.1, base.2.1, base.2.2.map fun u => u - depth) ∧
      s.depth_ = some (some depth)

theorem placed_of (env : Env) (P : Params) (hd : P.dtype.IsFloat) (obs : List P3) (s s' : State)
    (d : Option ℝ) (pts : Arrs)
    (h : choosePoints env P (pointArrs obs) s = ({ s with depth_ := some d }, .ok pts))
    (hp : s'.points_ = some pts) (hdep : s'.depth_ = some d) : Placed env P obs s' := by
  rcases choosePoints_cases env P (pointArrs obs) with ⟨e, h'⟩ | ⟨d', pts', h', h1, h2⟩
  · rw [h'] at h; simp at h
  rw [h'] at h
  simp only [Prod.mk.injEq, State.mk.injEq, Except.ok.injEq, true_and, and_true,
    Option.some.injEq] at h
  obtain ⟨rfl, rfl⟩ := h
  unfold Placed
  cases hP : P.points with
  | some p =>
    obtain ⟨rfl, rfl⟩ := h1 p hP
    rw [castArrs_float hd] at hp
    exact ⟨hp, hdep⟩
  | none =>
    obtain ⟨base, depth, h3, h4, rfl, rfl⟩ := h2 hP
    rw [castArrs_float hd] at hp
    refine ⟨base, depth, ?_, ?_, hp, hdep⟩
    · unfold blockCoordinates at h3
      cases hb : P.block_size with
      | none => rw [hb] at h3; cases h3; rfl
      | some b => rw [hb] at h3; exact h3
    · unfold sourceDepth at h4
      cases hb : P.depth with
      | num x => rw [hb] at h4; cases h4; rfl
      | str t =>
        rw [hb] at h4
        simp only at h4
        cases hm : env.meanNeighbour base.1 base.2.1 with
        | error e => rw [hm] at h4; cases h4
        | ok m => rw [hm] at h4; cases h4; exact ⟨m, rfl, rfl⟩

/-- C25: positions of the sources after any successful `fit`. -/
theorem C25_fit (env : Env) (junk : Junk) (mode : Mode) (P : Params) (hd : P.dtype.IsFloat)
    (d1 d2 d3 : DType) (shape : List ℕ) (obs : List P3) (data : CArr) (weights : Option CArr)
    (s s' : State)
    (h : fit env junk mode P (coordArrs d1 d2 d3 shape obs) data weights s = (s', .ok ())) :
    Placed env P obs s' := by
  obtain ⟨region, d, pts, coefs, -, -, h3, -, -, h6⟩ := fit_ok _ _ _ _ _ _ _ _ _ h
  rw [castArrs_float hd, n1dArrays_coordArrs] at h3
  rw [h6] at h
  cases h
  exact placed_of env P hd obs s _ d pts (h3 s) rfl rfl

/-- C25: positions of the sources after any successful `fit` of `EquivalentSourcesGB`. -/
theorem C25_fit_gradient_boosted (env : Env) (junk : Junk) (perm : ℕ → List ℕ)
    (modes : ℕ → Mode × Mode) (P : Params) (hd : P.dtype.IsFloat)
    (d1 d2 d3 : DType) (shape : List ℕ) (obs : List P3) (data : CArr) (weights : Option CArr)
    (s s' : State)
    (h : fitGB env junk perm modes P (coordArrs d1 d2 d3 shape obs) data weights s = (s', .ok ())) :
    Placed env P obs s' := by
  obtain ⟨region, d, pts, W, size, b, s1, -, -, h3, -, -, -, hp, hdep⟩ :=
    fitGB_ok _ _ _ _ _ _ _ _ _ _ h
  rw [castArrs_float hd, n1dArrays_coordArrs] at h3
  exact placed_of env P hd obs s _ d pts (h3 s) hp hdep

/-- C25: positions of the sources after any successful `fit` of `EquivalentSourcesSph`. -/
theorem C25_fit_spherical (env : Env) (junk : Junk) (mode : Mode) (P : SphParams)
    (d1 d2 d3 : DType) (shape : List ℕ) (obs : List P3) (data : CArr) (weights : Option CArr)
    (s s' : State)
    (h : fitSph env junk mode P (coordArrs d1 d2 d3 shape obs) data weights s = (s', .ok ())) :
    (P.points = none → s'.points_ =
      some (pointArrs (obs.map fun q => ⟨q.x, q.y, q.z - P.relative_depth⟩))) ∧
    ∀ p, P.points = some p → s'.points_ = some (p.1.data, p.2.1.data, p.2.2.data) := by
  obtain ⟨region, coefs, -, -, -, h6⟩ := fitSph_ok _ _ _ _ _ _ _ _ _ h
  rw [h6] at h
  cases h
  constructor
  · intro hp
    simp [sphPoints, hp, n1dArrays_coordArrs, pointArrs, List.map_map, Function.comp_def]
  · intro p hp
    simp [sphPoints, hp, n1dArrays]

/-! ### C30 -/

open Matrix in
theorem solve_square {n : ℕ} (J : Matrix (Fin n) (Fin n) ℝ) (hJ : J.det ≠ 0) (w d c : Fin n → ℝ)
    (hw : ∀ i, 0 < w i) (h : Jᵀ *ᵥ (fun i => w i * ((J *ᵥ c) i - d i)) = 0) : J *ᵥ c = d := by
  have hJt : Jᵀ.det ≠ 0 := by rwa [Matrix.det_transpose]
  have h0 : (fun i => w i * ((J *ᵥ c) i - d i)) = 0 :=
    Matrix.eq_zero_of_mulVec_eq_zero hJt h
  funext i
  have := congrFun h0 i
  simp only [Pi.zero_apply, mul_eq_zero, (hw i).ne', false_or] at this
  linarith

/-- matrix of the inverse distances of two lists of the same length -/
noncomputable def distMatrix (pos : P3 → E3) {n : ℕ} (obs pts : Fin n → P3) :
    Matrix (Fin n) (Fin n) ℝ := Matrix.of fun i j => 1 / dist (pos (obs i)) (pos (pts j))

theorem rows_distMatrix (pos : P3 → E3) {n : ℕ} (obs pts : Fin n → P3) :
    ((List.ofFn obs).map fun q => (List.ofFn pts).map fun p => 1 / dist (pos q) (pos p)) =
      toRows (distMatrix pos obs pts) := by
  simp only [toRows, distMatrix, List.map_ofFn, Function.comp_def]
  rfl

theorem field_ofFn (pos : P3 → E3) {n : ℕ} (obs pts : Fin n → P3) (c : Fin n → ℝ) (i : Fin n) :
    field pos (List.ofFn fun j => (pts j, c j)) (obs i) =
      (distMatrix pos obs pts).mulVec c i := by
  unfold field
  rw [List.map_ofFn, List.sum_ofFn]
  simp only [Function.comp_apply, Matrix.mulVec, dotProduct, distMatrix, Matrix.of_apply]
  apply Finset.sum_congr rfl
  intro j _
  ring

/-- C30: if there are as many sources as data, the matrix of inverse distances is not singular,
there is no damping and the weights (if any) are positive, then after a successful `fit`,
`predict` at the data points returns the data exactly (any solver of the normal equations). -/
theorem C30_interpolation (env : Env) (hls : SolvesNormalEquations env) (junk : Junk)
    (mode mode' : Mode) (P : Params) (hd : P.dtype.IsFloat) (hdamp : P.damping = none)
    (d1 d2 d3 dd : DType) (n : ℕ) (obs pts : Fin n → P3)
    (hJ : (distMatrix cartPos obs pts).det ≠ 0)
    (data : Fin n → ℝ) (w : Option (Fin n → ℝ)) (hw : ∀ w' ∈ w, ∀ i, 0 < w' i)
    (hm : mode.Full n n) (hm' : mode'.Full n (2 * n)) (s s' : State)
    (h : fit env junk mode P (coordArrs d1 d2 d3 [n] (List.ofFn obs)) ⟨dd, [n], List.ofFn data⟩
      (w.map fun w => ⟨dd, [n], List.ofFn w⟩) s = (s', .ok ()))
    (hpts : s'.points_ = some (pointArrs (List.ofFn pts))) :
    predict junk mode' P (coordArrs d1 d2 d3 [n] (List.ofFn obs)) s' =
      .ok ⟨[n], List.ofFn data⟩ := by
  obtain ⟨region, d, pts', coefs, -, -, -, -, h5, h6⟩ := fit_ok _ _ _ _ _ _ _ _ _ h
  rw [h6] at h
  cases h
  simp only [Option.some.injEq] at hpts
  subst hpts
  rw [castArrs_float hd, n1dArrays_coordArrs, jacobian_eq junk mode _ hd _ _
    (by simpa using hm), hdamp] at h5
  simp only [greensCart1, cast_float_fun hd, List.map_id, rows_distMatrix, Option.map_map] at h5
  obtain ⟨c', rfl, hne⟩ := hls n n _ data w coefs (by
    rw [← h5]; cases w <;> rfl)
  have hsol := solve_square _ hJ _ _ _ (by
    intro i
    cases w with
    | none => simp
    | some w' => exact hw w' rfl i) hne
  have := predict_eq junk mode' P hd d1 d2 d3 [n] (List.ofFn obs) (by simp)
    (List.ofFn fun j => (pts j, c' j)) (by simpa using hm')
    { s with region_ := some region, depth_ := some d, points_ := some (pointArrs (List.ofFn pts)), coefs_ := some (List.ofFn c'), allocs := s.allocs ++ [(castArrs P.dtype (n1dArrays (coordArrs d1 d2 d3 [n] (List.ofFn obs)))).1.length * (pointArrs (List.ofFn pts)).1.length * P.dtype.itemsize] }
    (by simp [List.map_ofFn, Function.comp_def]) (by simp [List.map_ofFn, Function.comp_def])
  rw [this, List.map_ofFn]
  congr 2
  congr 1
  funext i
  rw [Function.comp_apply, field_ofFn, hsol]

end Verif.EqSources
