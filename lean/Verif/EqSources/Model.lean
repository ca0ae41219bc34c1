import Verif.Layers.Model

/-!
Model of the equivalent sources: src/harmonica/_equivalent_sources/cartesian.py
(`EquivalentSources`), gradient_boosted.py (`EquivalentSourcesGB`), spherical.py
(`EquivalentSourcesSph`) and utils.py.

An estimator is its parameters together with its fitted attributes (`State`); methods take the
state and return the new state with the outcome, so that an exception keeps the attributes that
were set before it.

External functions are fields of `Env`. Rounding of floating point dtypes is not modelled: casting
to `float32` or `float64` does not change a value, casting to an integer dtype truncates.

Not modelled here: `grid`, `profile` and `scatter` (see Gridder.lean), progress output, extra coordinates after
the third.
-/

namespace Verif.EqSources
open Verif.Forward Verif.Engine Verif.Distance Verif.Layers

/-! ### dtypes and arrays -/

/-- numpy dtypes of coordinates, data and Jacobians.
The argument `dtype`: cartesian.py 165-191, and the dtype of `coordinates[0]`: spherical.py 174, 245. -/
inductive DType where
  | float32
  | float64
  | int32
  | int64
  deriving DecidableEq

/-- `np.dtype(..).itemsize` in bytes.
cartesian.py 234, spherical.py 174, gradient_boosted.py 186. -/
def DType.itemsize : DType → ℕ
  | .float32 => 4
  | .float64 => 8
  | .int32 => 4
  | .int64 => 8

/-- Floating dtypes; see cartesian.py 165-191. -/
def DType.IsFloat : DType → Prop
  | .float32 => True
  | .float64 => True
  | _ => False

/-- value stored in an array of a dtype (overflow of integers is not modelled).
`astype` at _equivalent_sources/utils.py 35-38, and stores to arrays at spherical.py 244-248. -/
noncomputable def DType.cast : DType → ℝ → ℝ
  | .float32, x => x
  | .float64, x => x
  | .int32, x => truncZ x
  | .int64, x => truncZ x

/-- A numpy array with its dtype. Arguments of cartesian.py 236-281, spherical.py 176-217. -/
structure CArr where
  dtype : DType
  shape : List ℕ
  data : List ℝ

/-- The tuple `coordinates` (easting, northing, upward): cartesian.py 236-281. -/
abbrev Coords := CArr × CArr × CArr

/-- Three 1d arrays (`vdb.n_1d_arrays(coordinates, 3)` ravels each one).
cartesian.py 269, spherical.py 206, gradient_boosted.py 224. -/
abbrev Arrs := List ℝ × List ℝ × List ℝ

/-- `vdb.n_1d_arrays(coordinates, 3)`.
cartesian.py 226, 269, 277; spherical.py 159, 206; gradient_boosted.py 175, 224. -/
def n1dArrays (c : Coords) : Arrs := (c.1.data, c.2.1.data, c.2.2.data)

/-- `tuple(a.astype(dtype) for a in ..)`. cartesian.py 276-281, gradient_boosted.py 230-237. -/
noncomputable def castArrs (d : DType) (a : Arrs) : Arrs :=
  (a.1.map d.cast, a.2.1.map d.cast, a.2.2.map d.cast)

/-- Elements of an array of dtype `d` under `+=`: the sum is converted back to the dtype.
`result[i] += ...` at _equivalent_sources/utils.py 88-103. -/
structure Acc (d : DType) where
  val : ℝ

/-- Instance for `+=` at _equivalent_sources/utils.py 88-103. -/
noncomputable instance (d : DType) : Add (Acc d) := ⟨fun a b => ⟨d.cast (a.val + b.val)⟩⟩

/-! ### loops (utils.py) -/

/-- `jacobian`, utils.py 54-74: iteration `i`. -/
noncomputable def jacobianLoop (junk : Junk) (g : P3 → P3 → ℝ) (d : DType) (c p : Arrs) (i : ℕ) :
    List (Op (ℕ × ℕ) (Acc d)) :=
  (List.range p.1.length).map fun j => .put (i, j) ⟨d.cast (g
    ⟨rd junk "east" c.1 i, rd junk "north" c.2.1 i, rd junk "upward" c.2.2 i⟩
    ⟨rd junk "point_east" p.1 j, rd junk "point_north" p.2.1 j, rd junk "point_upward" p.2.2 j⟩)⟩

/-- `predict`, utils.py 77-97: iteration `i`. -/
noncomputable def predictLoop (junk : Junk) (g : P3 → P3 → ℝ) (d : DType) (c p : Arrs)
    (coeffs : List ℝ) (i : ℕ) : List (Op ℕ (Acc d)) :=
  (List.range p.1.length).flatMap fun j => accum i ⟨rd junk "coeffs" coeffs j * g
    ⟨rd junk "east" c.1 i, rd junk "north" c.2.1 i, rd junk "upward" c.2.2 i⟩
    ⟨rd junk "point_east" p.1 j, rd junk "point_north" p.2.1 j, rd junk "point_upward" p.2.2 j⟩⟩

/-- method `jacobian`, cartesian.py 385-415 (`d = self.dtype`) and spherical.py 250-282
(`d = float64`): rows of the matrix. -/
noncomputable def jacobian (junk : Junk) (mode : Mode) (g : P3 → P3 → ℝ) (d : DType) (c p : Arrs) :
    List (List ℝ) :=
  let n_data := c.1.length
  let n_points := p.1.length
  let jac := run mode c.1.length (jacobianLoop junk g d c p) ⟨0⟩ (fun _ => ⟨0⟩)
  (List.range n_data).map fun i => (List.range n_points).map fun j => (jac (i, j)).val

/-- `kernel(coordinates, points, coeffs, result, greens_function)` on an array of zeros of the given
size and dtype.
_equivalent_sources/utils.py 77-103, called at cartesian.py 377-383 and spherical.py 244-248. -/
noncomputable def predictKernel (junk : Junk) (mode : Mode) (g : P3 → P3 → ℝ) (d : DType) (c p : Arrs)
    (coeffs : List ℝ) (size : ℕ) : List ℝ :=
  let out := run mode c.1.length (predictLoop junk g d c p coeffs) ⟨0⟩ (fun _ => ⟨0⟩)
  (List.range size).map fun i => (out i).val

/-- `greens_func_cartesian`, cartesian.py 634-644. -/
noncomputable def greensFuncCartesian (q p : P3) : ℝ := 1 / distanceCartesian q p

/-- `greens_func_spherical`, spherical.py 412-424. -/
noncomputable def greensFuncSpherical (q p : P3) : ℝ := 1 / distanceSpherical q p

/-! ### external functions -/

/-- External functions used by the estimators.
verde, bordado and scikit-learn as called at cartesian.py 263-281, 315-351, gradient_boosted.py 217-373. -/
structure Env where
  /-- `vdb.least_squares(jacobian, data, weights, damping)` -/
  leastSquares : List (List ℝ) → List ℝ → Option (List ℝ) → Option ℝ → Py (List ℝ)
  /-- `np.zeros((n_data, n_points), dtype)` of the Jacobian, given its size in bytes -/
  alloc : ℕ → Py Unit
  /-- `vd.BlockReduce(spacing, np.median, drop_coords=False).filter(coordinates, zeros)[0]` -/
  blockMedian : ℝ × ℝ → Arrs → Py Arrs
  /-- `np.mean(bd.neighbor_distance_statistics(coordinates[:2], "median", k=1))` -/
  meanNeighbour : List ℝ → List ℝ → Py ℝ
  /-- `bd.rolling_window(coordinates[:2], region, window_size, overlap)[1]`: indices of the points in
  each window, raveled -/
  rollingWindow : List ℝ → List ℝ → ℝ × ℝ × ℝ × ℝ → ℝ → ℝ → Py (List (List ℕ))

/-- `bd.get_region(coordinates[:2])`.
cartesian.py 268, spherical.py 205, gradient_boosted.py 222, 389-390. -/
noncomputable def getRegion (x y : List ℝ) : Py (ℝ × ℝ × ℝ × ℝ) :=
  match x, y with
  | x0 :: _, y0 :: _ => .ok (x.foldl min x0, x.foldl max x0, y.foldl min y0, y.foldl max y0)
  | _, _ => .error .ValueError

/-- `vdb.check_fit_input(coordinates, data, weights)`.
cartesian.py 263, spherical.py 203, gradient_boosted.py 217. -/
def checkFitInput (c : Coords) (data : CArr) (weights : Option CArr) : Py Unit :=
  if c.2.1.shape ≠ c.1.shape ∨ c.2.2.shape ≠ c.1.shape ∨ data.shape ≠ c.1.shape then
    .error .ValueError
  else if ∃ w ∈ weights, w.shape ≠ data.shape then .error .ValueError
  else .ok ()

/-! ### parameters and attributes -/

/-- The argument `depth` (or `window_size`): a string or a number.
cartesian.py 165-191, gradient_boosted.py 114-140. -/
inductive StrNum where
  | str (s : String)
  | num (x : ℝ)

/-- Parameters of `EquivalentSources` and `EquivalentSourcesGB` (the last one of which is not used
by the former). cartesian.py 165-191, gradient_boosted.py 114-140. -/
structure Params where
  damping : Option ℝ := none
  points : Option Coords := none
  depth : StrNum := .str "default"
  block_size : Option (ℝ × ℝ) := none
  dtype : DType := .float64
  window_size : StrNum := .str "default"

open Classical in
/-- `EquivalentSources.__init__`, cartesian.py 165-191. -/
noncomputable def initCartesian (P : Params) : Py Params :=
  match P.depth with
  | .str s => if s ≠ "default" then .error .ValueError else .ok P
  | .num x => if x = 0 then .error .ValueError else .ok P

/-- `EquivalentSourcesGB.__init__`, gradient_boosted.py 114-140. -/
noncomputable def initGB (P : Params) : Py Params :=
  match P.window_size with
  | .str s => if s ≠ "default" then .error .ValueError else initCartesian P
  | .num _ => initCartesian P

/-- Fitted attributes; `none` is an attribute that is not set. `allocs` is the list of the sizes in
bytes of the Jacobians built so far (not an attribute: a record for C28).
Attributes set at cartesian.py 268-281, spherical.py 205-217, gradient_boosted.py 222-239, 293, 338-344. -/
structure State where
  region_ : Option (ℝ × ℝ × ℝ × ℝ) := none
  depth_ : Option (Option ℝ) := none
  points_ : Option Arrs := none
  coefs_ : Option (List ℝ) := none
  window_size_ : Option (Option ℝ) := none
  rmse_ : Option (List ℝ) := none
  allocs : List ℕ := []

/-- `_block_average_coordinates` if `block_size` is not None, cartesian.py 312-313, 326-351. -/
def blockCoordinates (env : Env) (P : Params) (c : Arrs) : Py Arrs :=
  match P.block_size with
  | none => .ok c
  | some b => env.blockMedian b c

/-- cartesian.py 314-319: the depth. -/
noncomputable def sourceDepth (env : Env) (P : Params) (c : Arrs) : Py ℝ :=
  match P.depth with
  | .str _ => (env.meanNeighbour c.1 c.2.1).map (4.5 * ·)
  | .num x => .ok x

/-- `_build_points`, cartesian.py 283-324. -/
noncomputable def buildPoints (env : Env) (P : Params) (c : Arrs) (s : State) : State × Py Arrs :=
  match blockCoordinates env P c with
  | .error e => (s, .error e)
  | .ok c =>
    match sourceDepth env P c with
    | .error e => (s, .error e)
    | .ok depth => ({ s with depth_ := some (some depth) },
        .ok (c.1, c.2.1, c.2.2.map fun u => u - depth))

/-- cartesian.py 270-278 and gradient_boosted.py 229-237: the new value of `points_`. -/
noncomputable def choosePoints (env : Env) (P : Params) (c : Arrs) (s : State) : State × Py Arrs :=
  match P.points with
  | none =>
    match buildPoints env P c s with
    | (s, .error e) => (s, .error e)
    | (s, .ok p) => (s, .ok (castArrs P.dtype p))
  | some p => ({ s with depth_ := some none }, .ok (castArrs P.dtype (n1dArrays p)))

/-- cartesian.py 279-280 and spherical.py 215-216, gradient_boosted.py 270-277: build the Jacobian
and solve. -/
noncomputable def solve (env : Env) (junk : Junk) (mode : Mode) (g : P3 → P3 → ℝ) (d : DType)
    (damping : Option ℝ) (c p : Arrs) (data : List ℝ) (weights : Option (List ℝ)) (s : State) :
    State × Py (List ℝ) :=
  let bytes := c.1.length * p.1.length * d.itemsize
  match env.alloc bytes with
  | .error e => (s, .error e)
  | .ok _ =>
    let s := { s with allocs := s.allocs ++ [bytes] }
    (s, env.leastSquares (jacobian junk mode g d c p) data weights damping)

/-- `EquivalentSources.fit`, cartesian.py 236-281. -/
noncomputable def fit (env : Env) (junk : Junk) (mode : Mode) (P : Params) (coordinates : Coords)
    (data : CArr) (weights : Option CArr) (s : State) : State × Py Unit :=
  match checkFitInput coordinates data weights with
  | .error e => (s, .error e)
  | .ok _ =>
    let c := castArrs P.dtype (n1dArrays coordinates)
    let data := data.data.map P.dtype.cast
    let weights := weights.map fun w => w.data.map P.dtype.cast
    match getRegion c.1 c.2.1 with
    | .error e => (s, .error e)
    | .ok region =>
      let s := { s with region_ := some region }
      match choosePoints env P c s with
      | (s, .error e) => (s, .error e)
      | (s, .ok points) =>
        let s := { s with points_ := some points }
        match solve env junk mode greensFuncCartesian P.dtype P.damping c points data weights s with
        | (s, .error e) => (s, .error e)
        | (s, .ok coefs) => ({ s with coefs_ := some coefs }, .ok ())

/-- `EquivalentSources.estimate_required_memory`, cartesian.py 193-234. -/
noncomputable def estimateMemory (env : Env) (P : Params) (coordinates : Coords) (s : State) :
    State × Py ℕ :=
  let c := n1dArrays coordinates
  match buildPoints env P c s with
  | (s, .error e) => (s, .error e)
  | (s, .ok points) => (s, .ok (c.1.length * points.1.length * P.dtype.itemsize))

/-- `predict`, cartesian.py 353-383. `check_is_fitted` raises NotFittedError, a subclass of
ValueError. -/
noncomputable def predict (junk : Junk) (mode : Mode) (P : Params) (coordinates : Coords)
    (s : State) : Py NdArray :=
  match s.coefs_, s.points_ with
  | some coefs, some points => do
    let shape ← npBroadcast ⟨coordinates.1.shape, coordinates.1.data⟩
      ⟨coordinates.2.1.shape, coordinates.2.1.data⟩ ⟨coordinates.2.2.shape, coordinates.2.2.data⟩
    let c := castArrs P.dtype (n1dArrays coordinates)
    return ⟨shape, predictKernel junk mode greensFuncCartesian P.dtype c points coefs shape.prod⟩
  | none, _ => .error .ValueError
  | some _, none => .error .AttributeError

/-! ### gradient boosting -/

/-- `_get_region_data_sources`, gradient_boosted.py 376-397. -/
noncomputable def getRegionDataSources (c p : Arrs) : Py (ℝ × ℝ × ℝ × ℝ) := do
  let data_region ← getRegion c.1 c.2.1
  let sources_region ← getRegion p.1 p.2.1
  return (min data_region.1 sources_region.1, max data_region.2.1 sources_region.2.1,
    min data_region.2.2.1 sources_region.2.2.1, max data_region.2.2.2 sources_region.2.2.2)

/-- `a[indices]` for a numpy array. gradient_boosted.py 264-268, 274. -/
def fancyIndex {α : Type} (a : List α) (indices : List ℕ) : Py (List α) :=
  indices.mapM fun i => match a[i]? with
    | some x => .ok x
    | none => .error .IndexError

/-- `sklearn.utils.shuffle(a, b, random_state)`: the same order for both lists; `perm n` is the order
drawn for lists of length `n`. gradient_boosted.py 363-365. -/
def shuffle2 {α β : Type} (perm : ℕ → List ℕ) (a : List α) (b : List β) : Py (List α × List β) := do
  if a.length ≠ b.length then throw .ValueError
  let a' ← fancyIndex a (perm a.length)
  let b' ← fancyIndex b (perm b.length)
  return (a', b')

/-- gradient_boosted.py 366-373: drop the windows without sources or without data. -/
def dropEmpty : List (List ℕ × List ℕ) → List (List ℕ) × List (List ℕ)
  | [] => ([], [])
  | (src, data) :: rest =>
    let r := dropEmpty rest
    if src.length > 0 ∧ data.length > 0 then (src :: r.1, data :: r.2) else r

/-- gradient_boosted.py 327-344: `none` for a single window, else the window size. -/
noncomputable def windowSize (P : Params) (region : ℝ × ℝ × ℝ × ℝ) (ndata : ℕ) : Option ℝ :=
  match P.window_size with
  | .str _ =>
    let area := (region.2.1 - region.1) * (region.2.2.2 - region.2.2.1)
    if ndata ≤ 5000 then none
    else
      let points_per_m2 := ndata / area
      let window_area := 5000 / points_per_m2
      some (Real.sqrt window_area)
  | .num x => some x

/-- gradient_boosted.py 345-373 (the windows for a given size). `overlapping` is 0.5. -/
noncomputable def rollingWindows (env : Env) (perm : ℕ → List ℕ) (region : ℝ × ℝ × ℝ × ℝ)
    (size : ℝ) (c points : Arrs) : Py (List (List ℕ) × List (List ℕ)) := do
  let source_windows ← env.rollingWindow points.1 points.2.1 region size (1 / 2)
  let data_windows ← env.rollingWindow c.1 c.2.1 region size (1 / 2)
  let r ← shuffle2 perm source_windows data_windows
  return dropEmpty (r.1.zip r.2)

/-- `_create_windows`, gradient_boosted.py 295-373, with `shuffle=True`. -/
noncomputable def createWindows (env : Env) (perm : ℕ → List ℕ) (P : Params) (c points : Arrs)
    (s : State) : State × Py (List (List ℕ) × List (List ℕ)) :=
  match getRegionDataSources c points with
  | .error e => (s, .error e)
  | .ok region =>
    match windowSize P region c.1.length with
    | none => ({ s with window_size_ := some none },
        .ok ([List.range points.1.length], [List.range c.1.length]))
    | some size => ({ s with window_size_ := some (some size) },
        rollingWindows env perm region size c points)

/-- `np.sqrt(np.mean(a**2))`. gradient_boosted.py 253, 290. -/
noncomputable def rms (a : List ℝ) : ℝ := Real.sqrt ((a.map (· ^ 2)).sum / a.length)

/-- `a[indices] += values`: numpy reads all old values first, then writes in order (of repeated
indices the last one remains). Different lengths do not broadcast (ValueError; a single value
would broadcast, which least squares never returns for several sources). Simplification: with an
integer `dtype` numpy raises UFuncTypeError here, which is not modelled (what is proved about the
coefficients of gradient boosting assumes a floating dtype). gradient_boosted.py 292. -/
def fancyAdd (a : List ℝ) (indices : List ℕ) (values : List ℝ) : Py (List ℝ) := do
  let old ← fancyIndex a indices
  if values.length ≠ indices.length then throw .ValueError
  return (indices.zip (List.zipWith (· + ·) old values)).foldl (fun a iv => a.set iv.1 iv.2) a

/-- `tuple(a[indices] for a in arrays)`. gradient_boosted.py 264-265. -/
def fancyArrs (a : Arrs) (indices : List ℕ) : Py Arrs := do
  let x ← fancyIndex a.1 indices
  let y ← fancyIndex a.2.1 indices
  let z ← fancyIndex a.2.2 indices
  return (x, y, z)

/-- Variables of the loop of `_gradient_boosting`. gradient_boosted.py 253-293. -/
structure Boost where
  coefs : List ℝ
  residue : List ℝ
  errors : List ℝ

/-- gradient_boosted.py 264-277: the chunks of points, coordinates, weights and residue of a
window. -/
def chunks (c points : Arrs) (weights : Option (List ℝ)) (residue : List ℝ) (pw dw : List ℕ) :
    Py (Arrs × Arrs × Option (List ℝ) × List ℝ) := do
  let points_chunk ← fancyArrs points pw
  let coords_chunk ← fancyArrs c dw
  let weights_chunk ← match weights with
    | none => pure none
    | some w => (fancyIndex w dw).map some
  let residue_chunk ← fancyIndex residue dw
  return (points_chunk, coords_chunk, weights_chunk, residue_chunk)

/-- gradient_boosted.py 278-292: the updates after the solution of a window. The prediction always
runs `predict_numba_parallel`. -/
noncomputable def boostUpdate (junk : Junk) (mode : Mode) (d : DType) (c points_chunk : Arrs)
    (pw : List ℕ) (coeffs_chunk : List ℝ) (b : Boost) : Py Boost := do
  let predicted := predictKernel junk mode greensFuncCartesian d c points_chunk coeffs_chunk
    b.residue.length
  let residue := List.zipWith (· - ·) b.residue predicted
  let errors := b.errors ++ [rms residue]
  let coefs ← fancyAdd b.coefs pw coeffs_chunk
  return ⟨coefs, residue, errors⟩

/-- gradient_boosted.py 260-292: the loop over the windows. `modes` are the schedules of the parallel
loops, one for the Jacobian and one for the prediction of each window. When a step fails the
coefficients of the previous steps stay in the attribute. -/
noncomputable def boostLoop (env : Env) (junk : Junk) (modes : ℕ → Mode × Mode) (P : Params)
    (c points : Arrs) (weights : Option (List ℝ)) :
    List (List ℕ × List ℕ) → ℕ → Boost → State → State × Py Boost
  | [], _, b, s => (s, .ok b)
  | (pw, dw) :: rest, k, b, s =>
    match chunks c points weights b.residue pw dw with
    | .error e => (s, .error e)
    | .ok (points_chunk, coords_chunk, weights_chunk, residue_chunk) =>
      match solve env junk (modes k).1 greensFuncCartesian P.dtype P.damping coords_chunk points_chunk
          residue_chunk weights_chunk s with
      | (s, .error e) => (s, .error e)
      | (s, .ok coeffs_chunk) =>
        match boostUpdate junk (modes k).2 P.dtype c points_chunk pw coeffs_chunk b with
        | .error e => (s, .error e)
        | .ok b => boostLoop env junk modes P c points weights rest (k + 1) b
            { s with coefs_ := some b.coefs }

/-- `_gradient_boosting`, gradient_boosted.py 244-293; `coefs` is the content of `coefs_`. -/
noncomputable def gradientBoosting (env : Env) (junk : Junk) (perm : ℕ → List ℕ)
    (modes : ℕ → Mode × Mode) (P : Params) (c points : Arrs) (data : List ℝ)
    (weights : Option (List ℝ)) (coefs : List ℝ) (s : State) : State × Py Unit :=
  match createWindows env perm P c points s with
  | (s, .error e) => (s, .error e)
  | (s, .ok windows) =>
    match boostLoop env junk modes P c points weights (windows.1.zip windows.2) 0
        ⟨coefs, data, [rms data]⟩ s with
    | (s, .error e) => (s, .error e)
    | (s, .ok b) => ({ s with rmse_ := some b.errors }, .ok ())

/-- `EquivalentSourcesGB.fit`, gradient_boosted.py 188-242. -/
noncomputable def fitGB (env : Env) (junk : Junk) (perm : ℕ → List ℕ) (modes : ℕ → Mode × Mode)
    (P : Params) (coordinates : Coords) (data : CArr) (weights : Option CArr) (s : State) :
    State × Py Unit :=
  match checkFitInput coordinates data weights with
  | .error e => (s, .error e)
  | .ok _ =>
    let c := castArrs P.dtype (n1dArrays coordinates)
    let data := data.data.map P.dtype.cast
    let weights := weights.map fun w => w.data.map P.dtype.cast
    match getRegion c.1 c.2.1 with
    | .error e => (s, .error e)
    | .ok region =>
      let s := { s with region_ := some region }
      match choosePoints env P c s with
      | (s, .error e) => (s, .error e)
      | (s, .ok points) =>
        let coefs := List.replicate points.1.length 0
        let s := { s with points_ := some points, coefs_ := some coefs }
        gradientBoosting env junk perm modes P c points data weights coefs s

/-- `jacobian_sizes.max() * itemsize`; the maximum of no windows raises ValueError.
gradient_boosted.py 186. -/
def maxBytes (windows : List (List ℕ × List ℕ)) (itemsize : ℕ) : Py ℕ :=
  match windows.map fun w => w.1.length * w.2.length with
  | [] => .error .ValueError
  | x :: l => .ok (l.foldl max x * itemsize)

/-- `EquivalentSourcesGB.estimate_required_memory`, gradient_boosted.py 142-186. -/
noncomputable def estimateMemoryGB (env : Env) (perm : ℕ → List ℕ) (P : Params) (coordinates : Coords)
    (s : State) : State × Py ℕ :=
  let c := n1dArrays coordinates
  match buildPoints env P c s with
  | (s, .error e) => (s, .error e)
  | (s, .ok points) =>
    let s := { s with points_ := some points }
    match createWindows env perm P c points s with
    | (s, .error e) => (s, .error e)
    | (s, .ok windows) => (s, maxBytes (windows.1.zip windows.2) P.dtype.itemsize)

/-! ### spherical -/

/-- Parameters of `EquivalentSourcesSph`, spherical.py 112-124. -/
structure SphParams where
  damping : Option ℝ := none
  points : Option Coords := none
  relative_depth : ℝ := 500

/-- spherical.py 160-167 and 207-214: the sources. -/
noncomputable def sphPoints (P : SphParams) (c : Arrs) : Arrs :=
  match P.points with
  | none => (c.1, c.2.1, c.2.2.map fun r => r - P.relative_depth)
  | some p => n1dArrays p

/-- `EquivalentSourcesSph.fit`, spherical.py 176-217. -/
noncomputable def fitSph (env : Env) (junk : Junk) (mode : Mode) (P : SphParams) (coordinates : Coords)
    (data : CArr) (weights : Option CArr) (s : State) : State × Py Unit :=
  match checkFitInput coordinates data weights with
  | .error e => (s, .error e)
  | .ok _ =>
    let c := n1dArrays coordinates
    match getRegion c.1 c.2.1 with
    | .error e => (s, .error e)
    | .ok region =>
      let points := sphPoints P c
      let s := { s with region_ := some region, points_ := some points }
      match solve env junk mode greensFuncSpherical .float64 P.damping c points data.data
          (weights.map (·.data)) s with
      | (s, .error e) => (s, .error e)
      | (s, .ok coefs) => ({ s with coefs_ := some coefs }, .ok ())

/-- `EquivalentSourcesSph.estimate_required_memory`, spherical.py 126-174. -/
noncomputable def estimateMemorySph (P : SphParams) (coordinates : Coords) : ℕ :=
  let c := n1dArrays coordinates
  let points := sphPoints P c
  c.1.length * points.1.length * coordinates.1.dtype.itemsize

/-- `EquivalentSourcesSph.predict`, spherical.py 219-248: the result has the dtype of the
longitude. -/
noncomputable def predictSph (junk : Junk) (mode : Mode) (coordinates : Coords) (s : State) :
    Py NdArray :=
  match s.coefs_, s.points_ with
  | some coefs, some points => do
    let shape ← npBroadcast ⟨coordinates.1.shape, coordinates.1.data⟩
      ⟨coordinates.2.1.shape, coordinates.2.1.data⟩ ⟨coordinates.2.2.shape, coordinates.2.2.data⟩
    let c := n1dArrays coordinates
    return ⟨shape, predictKernel junk mode greensFuncSpherical coordinates.1.dtype c points coefs
      shape.prod⟩
  | none, _ => .error .ValueError
  | some _, none => .error .AttributeError

end Verif.EqSources
