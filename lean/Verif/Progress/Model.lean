import Verif.Engine.Model
import Verif.Forward.Model
import Verif.Layers.Model
import Verif.Tesseroid.Model

/-!
The progress bar of the forward models.

Each forward model with a `progressbar` argument opens the bar with the number of computation points
and every iteration of its loop ends with `progress_proxy.update(1)`:
prisms/gravity.py 223-226 and 538-540, prisms/magnetic.py 192-193, 261-269, 336-338 and 398-400,
dipole.py 192-193, 260-268, 345-347 and 399-401, prisms/layer.py 410-422 and 623-625,
tesseroid_gravity.py 193-206, 334-336 and 437-439.

`numba_progress` is outside /repo: `update` is an atomic addition to the number shown
(simplification: drawing the bar is not modelled).
-/
namespace Verif.Progress

open Verif Verif.Engine Verif.Forward Verif.Distance

/-- A progress bar: its length and the number of updates shown.
numba_progress, used by _forward/utils.py 333-392. -/
structure Bar where
  total : ℕ
  shown : ℕ
  deriving DecidableEq, Repr

/-- `initialize_progressbar`, _forward/utils.py 333-389: `none` is the null context.
`installed` tells whether `numba_progress` can be imported. -/
def initializeProgressbar (installed : Bool) (total : ℕ) (use_progressbar : Bool) :
    Py (Option Bar) := do
  if !use_progressbar then return none
  if !installed then throw .ImportError
  return some ⟨total, 0⟩

variable {C F : Type} [DecidableEq C] [Add F]

/-- One step of a loop iteration: an access to the output arrays, or `progress_proxy.update(k)`.
e.g. _forward/prisms/gravity.py 524-540. -/
inductive Step (C F : Type) where
  | access (op : Op C F)
  | update (k : ℕ)

/-- Body of a loop: the accesses of iteration `i`, then
`if update_progressbar: progress_proxy.update(1)`. e.g. _forward/prisms/gravity.py 524-540. -/
def body (update_progressbar : Bool) (prog : ℕ → List (Op C F)) (i : ℕ) : List (Step C F) :=
  (prog i).map .access ++ if update_progressbar then [.update 1] else []

/-- Effect of one step on the shared memory, the private register and the bar.
e.g. _forward/prisms/gravity.py 524-540. -/
def Step.exec (st : Step C F) (s : (C → F) × F × ℕ) : (C → F) × F × ℕ :=
  match st with
  | .access op => let r := op.exec (s.1, s.2.1); (r.1, r.2, s.2.2)
  | .update k => (s.1, s.2.1, s.2.2 + k)

/-- State of a parallel execution with a bar. e.g. _forward/prisms/gravity.py 524-540. -/
structure BState (C F : Type) where
  mem : C → F
  reg : ℕ → F
  pc : ℕ → ℕ
  shown : ℕ

/-- Iteration `i` executes its next step (nothing happens if it is finished).
e.g. _forward/prisms/gravity.py 524-540. -/
def tick (steps : ℕ → List (Step C F)) (s : BState C F) (i : ℕ) : BState C F :=
  match (steps i)[s.pc i]? with
  | none => s
  | some st =>
    let r := st.exec (s.mem, s.reg i, s.shown)
    { mem := r.1
      reg := fun j => if j = i then r.2.1 else s.reg j
      pc := fun j => if j = i then s.pc i + 1 else s.pc j
      shown := r.2.2 }

/-- Run a loop of `n` iterations whose bodies end with the update of the bar: the output memory and
the number shown by the bar. e.g. _forward/prisms/gravity.py 524-540. -/
def barRun (mode : Mode) (n : ℕ) (update_progressbar : Bool) (prog : ℕ → List (Op C F)) (r0 : F)
    (mem : C → F) (shown : ℕ) : (C → F) × ℕ :=
  match mode with
  | .serial =>
    (List.range n).foldl (fun s i =>
      let r := (body update_progressbar prog i).foldl (fun s st => st.exec s) (s.1, r0, s.2)
      (r.1, r.2.2)) (mem, shown)
  | .parallel sched =>
    let s := sched.foldl (tick (body update_progressbar prog))
      { mem := mem, reg := fun _ => r0, pc := fun _ => 0, shown := shown }
    (s.mem, s.shown)

/-- `with initialize_progressbar(total, progressbar) as progress_proxy: loop(..., progress_proxy)`:
the output memory and the bar as it is left. e.g. _forward/prisms/gravity.py 222-226. -/
def withBar (installed progressbar : Bool) (total : ℕ) (mode : Mode) (n : ℕ)
    (prog : ℕ → List (Op C F)) (r0 : F) (mem : C → F) : Py ((C → F) × Option Bar) := do
  match ← initializeProgressbar installed total progressbar with
  | none => return ((barRun mode n false prog r0 mem 0).1, none)
  | some bar =>
    let r := barRun mode n true prog r0 mem bar.shown
    return (r.1, some { bar with shown := r.2 })

/-! ### The forward models with their `progressbar` argument -/

/-- prisms/gravity.py 51-236 `prism_gravity` with `progressbar`. -/
noncomputable def prismGravity (installed progressbar : Bool) (junk : Junk) (mode : Mode)
    (K : PrismKernels) (coordinates : NdArray × NdArray × NdArray) (prisms : List Prism)
    (density : List ℝ) (field : String) (disableChecks : Bool) :
    Py ((Bool × NdArray) × Option Bar) :=
  match (prismFields K).lookup field with
  | none => .error .ValueError
  | some kernel => do
    let shape ← npBroadcast coordinates.1 coordinates.2.1 coordinates.2.2
    let size := shape.prod
    let e := coordinates.1.data
    let n := coordinates.2.1.data
    let u := coordinates.2.2.data
    if !disableChecks && density.length ≠ prisms.length then throw .ValueError
    if !disableChecks then checkPrisms prisms
    let warn := !disableChecks && checkSingularPoints junk e n u prisms field
    let (prisms, density) ← discardNullPrisms prisms density
    let (out, bar) ← withBar installed progressbar e.length mode e.length
      (prismLoop junk kernel e n u prisms density) 0 (fun _ => 0)
    let result := (List.range size).map out
    let result := scaleIf field ["g_z", "g_ez", "g_nz"] (-1) result
    let result := scaleIf field ["g_e", "g_n", "g_z"] 1e5 result
    let result := scaleIf field ["g_ee", "g_nn", "g_zz", "g_en", "g_ez", "g_nz"] 1e9 result
    return ((warn, { shape := shape, data := result }), bar)

/-- dipole.py 140-271, prisms/magnetic.py 139-272 with `progressbar`. -/
noncomputable def magCompute {S : Type} (installed progressbar : Bool) (junk : Junk) (mode : Mode)
    (K : MagKernels S) (shape : List ℕ) (e n u : List ℝ) (nsrc : ℕ) (src : ℕ → S)
    (me mn mu : List ℝ) (field : String) : Py (MagResult × Option Bar) :=
  let size := shape.prod
  if field = "b" then do
    let (out, bar) ← withBar installed progressbar e.length mode e.length
      (magVectorLoop junk K.field e n u nsrc src me mn mu) 0 (fun _ => 0)
    let comp (c : Fin 3) : NdArray :=
      { shape := shape, data := (List.range size).map fun i => out (c, i) * 1e9 }
    return (.vector (comp 0) (comp 1) (comp 2), bar)
  else
    match (magComponents K).lookup field with
    | none => .error .KeyError
    | some kernel => do
      let (out, bar) ← withBar installed progressbar e.length mode e.length
        (magComponentLoop junk kernel e n u nsrc src me mn mu) 0 (fun _ => 0)
      return (.single { shape := shape, data := (List.range size).map fun i => out i * 1e9 }, bar)

/-- dipole.py 27-137 `dipole_magnetic` with `progressbar`. -/
noncomputable def dipoleMagnetic (installed progressbar : Bool) (junk : Junk) (mode : Mode)
    (K : MagKernels P3) (coordinates dipoles : NdArray × NdArray × NdArray)
    (moments : List (List ℝ)) (field : String) (disableChecks : Bool) :
    Py (MagResult × Option Bar) := do
  if field ∉ ["b", "b_e", "b_n", "b_u"] then throw .ValueError
  let shape ← npBroadcast coordinates.1 coordinates.2.1 coordinates.2.2
  let ep := dipoles.1.data
  let np := dipoles.2.1.data
  let up := dipoles.2.2.data
  if !disableChecks && moments.length ≠ 3 then throw .ValueError
  if !disableChecks && (moments.headD []).length ≠ ep.length then throw .ValueError
  match moments with
  | [me, mn, mu] =>
    magCompute installed progressbar junk mode K shape coordinates.1.data coordinates.2.1.data
      coordinates.2.2.data ep.length
      (fun j => ⟨rd junk "easting_p" ep j, rd junk "northing_p" np j, rd junk "upward_p" up j⟩)
      me mn mu field
  | _ => throw .ValueError

/-- prisms/magnetic.py 28-136 `prism_magnetic` with `progressbar`. -/
noncomputable def prismMagnetic (installed progressbar : Bool) (junk : Junk) (mode : Mode)
    (K : MagKernels Prism) (coordinates : NdArray × NdArray × NdArray) (prisms : List Prism)
    (magnetization : List (List ℝ)) (field : String) (disableChecks : Bool) :
    Py (MagResult × Option Bar) := do
  if field ∉ ["b", "b_e", "b_n", "b_u"] then throw .ValueError
  let shape ← npBroadcast coordinates.1 coordinates.2.1 coordinates.2.2
  if !disableChecks && magnetization.length ≠ 3 then throw .ValueError
  if !disableChecks && (magnetization.headD []).length ≠ prisms.length then throw .ValueError
  if !disableChecks then checkPrisms prisms
  match magnetization with
  | [me, mn, mu] =>
    let (prisms, me, mn, mu) ← discardNullPrismsMag prisms me mn mu
    magCompute installed progressbar junk mode K shape coordinates.1.data coordinates.2.1.data
      coordinates.2.2.data prisms.length (fun j => prisms.getD j nullPrism) me mn mu field
  | _ => throw .ValueError

open Verif.Layers in
/-- `prism_layer.gravity`, prisms/layer.py 314-433, with `progressbar`. -/
noncomputable def layerGravity (installed progressbar : Bool) (junk : Junk) (mode : Mode)
    (K : PrismKernels) (layer : Layer) (coordinates : NdArray × NdArray × NdArray)
    (field : String) (density_name : String := "density")
    (thickness_threshold : Option ℝ := none) : Py (NdArray × Option Bar) :=
  match (prismFields K).lookup field with
  | none => .error .ValueError
  | some kernel => do
    checkRegularGrid layer.easting layer.northing
    let shape ← npBroadcast coordinates.1 coordinates.2.1 coordinates.2.2
    let size := shape.prod
    let e := coordinates.1.data
    let n := coordinates.2.1.data
    let u := coordinates.2.2.data
    let threshold := thickness_threshold.getD 0
    match layer.vars.lookup density_name, layer.easting, layer.northing with
    | none, _, _ => throw .KeyError
    | some density, e0 :: e1 :: _, n0 :: n1 :: _ =>
      let (out, bar) ← withBar installed progressbar e.length mode e.length
        (layerLoop junk kernel e n u layer.easting layer.northing
        layer.bottom layer.top density ((e1 - e0) / 2) ((n1 - n0) / 2) threshold) 0 (fun _ => 0)
      let result := (List.range size).map out
      let result := scaleIf field ["g_z", "g_ez", "g_nz"] (-1) result
      let result := scaleIf field ["g_e", "g_n", "g_z"] 1e5 result
      let result := scaleIf field ["g_ee", "g_nn", "g_zz", "g_en", "g_ez", "g_nz"] 1e9 result
      return ({ shape := shape, data := result }, bar)
    | _, _, _ => throw .IndexError

open Verif.Tesseroid in
/-- tesseroid_gravity.py 35-213 `tesseroid_gravity` with `progressbar`. The bar is opened before the
loop, so a missing library is noticed before the errors of the adaptive discretization. -/
noncomputable def tesseroidGravity (installed progressbar : Bool) (junk : Junk) (mode : Mode)
    (M : Minimizer) (fuel : ℕ) (stack0 small0 : ℕ → Tess)
    (coordinates : NdArray × NdArray × NdArray) (ts : List Tess) (density : Density)
    (field : String) (radial disableChecks : Bool) : Option (Py (NdArray × Option Bar)) :=
  match tessKernels.lookup field with
  | none => some (.error .ValueError)
  | some kernel =>
    let lon := coordinates.1.data
    let lat := coordinates.2.1.data
    let rad := coordinates.2.2.data
    match (do
        let shape ← npBroadcast coordinates.1 coordinates.2.1 coordinates.2.2
        let ts ← (if disableChecks then .ok ts else checkTesseroids ts)
        (if disableChecks then .ok () else checkPointsOutside junk lon lat rad ts)
        return (shape, ts) : Py (List ℕ × List Tess)) with
    | .error e => some (.error e)
    | .ok (shape, ts) =>
      let compute (ts : List Tess) (quad : ℝ → ℝ → ℝ → ℝ → ℕ → Tess → ℝ) :
          Py (NdArray × Option Bar) := do
        let vals := fun i =>
          let lonr := radians (rd junk "longitude" lon i)
          let latr := radians (rd junk "latitude" lat i)
          let r := rd junk "radius" rad i
          tessValues
            ⟨⟨rd junk "longitude" lon i, rd junk "latitude" lat i, r⟩,
              distanceSizeRatio field, STACK_SIZE, MAX_DISCRETIZATIONS, radial⟩
            (quad lonr (Real.cos latr) (Real.sin latr) r) stack0 small0 ts.zipIdx
        let (out, bar) ← withBar installed progressbar lon.length mode lon.length
          (fun i => (okValues vals i).flatMap (accum i)) 0 (fun _ => 0)
        firstError vals (Tesseroid.Mode.order lon.length mode)
        let result := (List.range shape.prod).map out
        let result := scaleIf field ["g_z"] (-1) result
        let result := scaleIf field ["g_z"] 1e5 result
        return (⟨shape, result⟩, bar)
      match density with
      | .func f =>
        match densityDiscretization M f fuel ts with
        | none => none
        | some ts => some (do
          if ts.length = 0 ∧ lon.length ≠ 0 then throw .ValueError
          compute ts fun lonr cosphi sinphi r _ t =>
            glqVariable lonr cosphi sinphi r t f glq2 kernel)
      | .values d => some (do
        if !disableChecks && d.length ≠ ts.length then throw .ValueError
        let r ← discardNullTess ts d
        compute r.1 fun lonr cosphi sinphi radius j t =>
          glq lonr cosphi sinphi radius t (rd junk "density" r.2 j) glq2 kernel)

end Verif.Progress
