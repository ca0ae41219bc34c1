import Verif.Forward.PropsB
import Mathlib.Analysis.Convex.Segment
import Mathlib.Analysis.Convex.Topology
import Mathlib.Tactic.FinCases
import Mathlib.Analysis.Calculus.Deriv.Pow
import Mathlib.Analysis.Calculus.Deriv.Mul
import Mathlib.Analysis.Calculus.Deriv.Add

/-! Properties C07, C08, C09 and C11 for point masses, dipoles and prisms. -/

namespace Verif.Forward
open Verif.Engine Verif.Distance

/-! ## C07: sizes of the physical property arrays -/

theorem npBroadcast_cases (a b c : NdArray) :
    npBroadcast a b c = .error .ValueError ∨ ∃ r, npBroadcast a b c = .ok r := by
  unfold npBroadcast
  split
  · exact .inl rfl
  · exact .inr ⟨_, rfl⟩

theorem checkCoordinateSystem_cases (s : String) (l : List String) :
    checkCoordinateSystem s l = .error .ValueError ∨ checkCoordinateSystem s l = .ok () := by
  unfold checkCoordinateSystem
  split <;> simp

/-- C07: `point_gravity` with a number of masses different from the number of points. -/
theorem C07_point_gravity_masses (junk : Junk) (mode : Mode) (K : PointKernels)
    (coordinates points : NdArray × NdArray × NdArray) (masses : NdArray) (field system : String)
    (h : masses.data.length ≠ points.1.data.length) :
    pointGravity junk mode K coordinates points masses field system = .error .ValueError := by
  unfold pointGravity
  rcases checkCoordinateSystem_cases system ["cartesian", "spherical"] with h0 | h0
  · rw [h0]; rfl
  · rcases npBroadcast_cases coordinates.1 coordinates.2.1 coordinates.2.2 with h1 | ⟨r, h1⟩
    · rw [h0, h1]; rfl
    · rw [h0, h1]
      simp only [Py.bind_ok, h, ne_eq, not_false_eq_true, if_true]; rfl

/-- C07: `prism_gravity` with a number of densities different from the number of prisms: ValueError
with the checks on; an exception (never a value computed from wrong memory) with the checks off. -/
theorem C07_prism_gravity_density (junk : Junk) (mode : Mode) (K : PrismKernels)
    (coordinates : NdArray × NdArray × NdArray) (prisms : List Prism) (density : List ℝ)
    (field : String) (h : density.length ≠ prisms.length) :
    prismGravity junk mode K coordinates prisms density field false = .error .ValueError ∧
    ∃ e, prismGravity junk mode K coordinates prisms density field true = .error e := by
  unfold prismGravity
  cases (prismFields K).lookup field with
  | none => exact ⟨rfl, _, rfl⟩
  | some kernel =>
    simp only
    rcases npBroadcast_cases coordinates.1 coordinates.2.1 coordinates.2.2 with h1 | ⟨r, h1⟩
    · rw [h1]; exact ⟨rfl, _, rfl⟩
    · rw [h1]
      constructor
      · simp only [Py.bind_ok, h, ne_eq, not_false_eq_true, decide_true, Bool.not_false,
          Bool.true_and, if_true]
        rfl
      · refine ⟨.IndexError, ?_⟩
        simp only [Py.bind_ok, Bool.not_true, Bool.false_and]
        unfold discardNullPrisms maskSetTrue
        simp only [List.length_map, Ne.symm h, if_false, Py.bind_error]
        rfl

/-- C07: `dipole_magnetic` (checks on) rejects anything but three components, and a first component
of the wrong size. -/
theorem C07_dipole_magnetic_moments (junk : Junk) (mode : Mode) (K : MagKernels P3)
    (coordinates dipoles : NdArray × NdArray × NdArray) (moments : List (List ℝ)) (field : String)
    (h : moments.length ≠ 3 ∨ (moments.headD []).length ≠ dipoles.1.data.length) :
    dipoleMagnetic junk mode K coordinates dipoles moments field false = .error .ValueError := by
  unfold dipoleMagnetic
  by_cases hf : field ∈ ["b", "b_e", "b_n", "b_u"]
  · rcases npBroadcast_cases coordinates.1 coordinates.2.1 coordinates.2.2 with h1 | ⟨r, h1⟩
    · simp [hf, h1, Py.bind_error]
    · simp only [hf, not_true_eq_false, if_false, h1, Py.bind_ok, Bool.not_false, Bool.true_and]
      by_cases h3 : moments.length ≠ 3
      · simp [h3, Py.throw_eq, Py.bind_error]
      · have h4 := h.resolve_left h3
        simp only [h3, h4, ne_eq, not_false_eq_true, decide_true, if_true, decide_false]
        rfl
  · simp [hf, Py.throw_eq, Py.bind_error]

theorem maskIndex_ok {α : Type} (a : List α) (mask : List Bool) (r : List α)
    (h : maskIndex a mask = .ok r) : a.length = mask.length := by
  unfold maskIndex at h
  split at h
  · assumption
  · simp at h

theorem maskSetTrue_ok (a mask r : List Bool)
    (h : maskSetTrue a mask = .ok r) : a.length = r.length := by
  unfold maskSetTrue at h
  split at h
  · simp only [Except.ok.injEq] at h
    subst h
    simp [*]
  · simp at h

theorem discardMag_ok (prisms : List Prism) (me mn mu : List ℝ) (r)
    (h : discardNullPrismsMag prisms me mn mu = .ok r) :
    me.length = prisms.length ∧ mn.length = prisms.length ∧ mu.length = prisms.length := by
  unfold discardNullPrismsMag at h
  simp only at h
  cases h1 : andBroadcast (me.map fun x => decide (x = 0)) (mn.map fun x => decide (x = 0)) with
  | error e => rw [h1] at h; simp [Py.bind_error] at h
  | ok a =>
  rw [h1] at h; simp only [Py.bind_ok] at h
  cases h2 : andBroadcast a (mu.map fun x => decide (x = 0)) with
  | error e => rw [h2] at h; simp [Py.bind_error] at h
  | ok b =>
  rw [h2] at h; simp only [Py.bind_ok] at h
  cases h3 : maskSetTrue (prisms.map zeroVolume) b with
  | error e => rw [h3] at h; simp [Py.bind_error] at h
  | ok null =>
  rw [h3] at h; simp only [Py.bind_ok] at h
  have hl := maskSetTrue_ok _ _ _ h3
  simp only [List.length_map] at hl
  cases h4 : maskIndex prisms (null.map (!·)) with
  | error e => rw [h4] at h; simp [Py.bind_error] at h
  | ok p =>
  rw [h4] at h; simp only [Py.bind_ok] at h
  cases h5 : maskIndex me (null.map (!·)) with
  | error e => rw [h5] at h; simp [Py.bind_error] at h
  | ok p1 =>
  rw [h5] at h; simp only [Py.bind_ok] at h
  cases h6 : maskIndex mn (null.map (!·)) with
  | error e => rw [h6] at h; simp [Py.bind_error] at h
  | ok p2 =>
  rw [h6] at h; simp only [Py.bind_ok] at h
  cases h7 : maskIndex mu (null.map (!·)) with
  | error e => rw [h7] at h; simp [Py.bind_error] at h
  | ok p3 =>
  have e5 := maskIndex_ok _ _ _ h5
  have e6 := maskIndex_ok _ _ _ h6
  have e7 := maskIndex_ok _ _ _ h7
  simp only [List.length_map] at e5 e6 e7
  omega

/-- C07: `prism_magnetic` never returns a value when some magnetization component does not have one
entry per prism, with or without checks. -/
theorem C07_prism_magnetic_sizes (junk : Junk) (mode : Mode) (K : MagKernels Prism)
    (coordinates : NdArray × NdArray × NdArray) (prisms : List Prism) (me mn mu : List ℝ)
    (field : String) (dis : Bool)
    (h : ¬ (me.length = prisms.length ∧ mn.length = prisms.length ∧ mu.length = prisms.length)) :
    ∃ e, prismMagnetic junk mode K coordinates prisms [me, mn, mu] field dis = .error e := by
  cases hr : prismMagnetic junk mode K coordinates prisms [me, mn, mu] field dis with
  | error e => exact ⟨e, rfl⟩
  | ok r =>
    exfalso
    apply h
    have key : ∀ x : Py Unit, (∃ v, x = .ok v) ∨ ∃ e, x = .error e := fun x => by
      cases x with
      | ok v => exact .inl ⟨v, rfl⟩
      | error e => exact .inr ⟨e, rfl⟩
    unfold prismMagnetic at hr
    cases hd : discardNullPrismsMag prisms me mn mu with
    | ok r' => exact discardMag_ok _ _ _ _ _ hd
    | error e =>
      exfalso
      rcases npBroadcast_cases coordinates.1 coordinates.2.1 coordinates.2.2 with h1 | ⟨s, h1⟩ <;>
        rcases key (checkPrisms prisms) with ⟨v, hv⟩ | ⟨e, hv⟩ <;>
        simp only [h1, hv, hd, Py.bind_ok, Py.bind_error, Py.throw_eq] at hr <;>
        (repeat' split at hr) <;> simp at hr

/-- C07: `prism_magnetic` (checks on) raises `ValueError` for anything but three components, and for a first
component of the wrong size. -/
theorem C07_prism_magnetic_checked (junk : Junk) (mode : Mode) (K : MagKernels Prism)
    (coordinates : NdArray × NdArray × NdArray) (prisms : List Prism) (magnetization : List (List ℝ))
    (field : String)
    (h : magnetization.length ≠ 3 ∨ (magnetization.headD []).length ≠ prisms.length) :
    prismMagnetic junk mode K coordinates prisms magnetization field false = .error .ValueError := by
  unfold prismMagnetic
  by_cases hf : field ∈ ["b", "b_e", "b_n", "b_u"]
  · rcases npBroadcast_cases coordinates.1 coordinates.2.1 coordinates.2.2 with h1 | ⟨r, h1⟩
    · simp [hf, h1, Py.bind_error]
    · simp only [hf, not_true_eq_false, if_false, h1, Py.bind_ok, Bool.not_false, Bool.true_and]
      by_cases h3 : magnetization.length ≠ 3
      · simp [h3, Py.throw_eq, Py.bind_error]
      · have h4 := h.resolve_left h3
        simp only [h3, h4, ne_eq, not_false_eq_true, decide_true, if_true, decide_false]
        rfl
  · simp [hf, Py.throw_eq, Py.bind_error]

/-- Two prisms and a first component of three numbers. -/
example (junk : Junk) (mode : Mode) (K : MagKernels Prism) (coordinates : NdArray × NdArray × NdArray) :
    prismMagnetic junk mode K coordinates [⟨0, 1, 0, 1, 0, 1⟩, ⟨1, 2, 0, 1, 0, 1⟩] [[1, 1, 1], [1, 1], [1, 1]]
      "b_u" false = .error .ValueError :=
  C07_prism_magnetic_checked _ _ _ _ _ _ _ (Or.inr (by simp))

/-- C07: with a wrong component size other than the first, `prism_magnetic` fails with IndexError,
not with the documented ValueError. -/
theorem C07_prism_magnetic_index_error :
    ∃ (K : MagKernels Prism) (coordinates : NdArray × NdArray × NdArray) (prisms : List Prism)
      (me mn mu : List ℝ), ∀ junk mode,
      prismMagnetic junk mode K coordinates prisms [me, mn, mu] "b" false = .error .IndexError := by
  refine ⟨⟨fun _ _ _ => (0, 0, 0), fun _ _ _ => 0, fun _ _ _ => 0, fun _ _ _ => 0⟩,
    arrays [1] [⟨0, 0, 0⟩], [⟨0, 1, 0, 1, 0, 1⟩, ⟨1, 2, 0, 1, 0, 1⟩], [1, 1], [1], [1, 1], ?_⟩
  intro junk mode
  have hc : checkPrisms [⟨0, 1, 0, 1, 0, 1⟩, ⟨1, 2, 0, 1, 0, 1⟩] = .ok () := by
    rw [(C06_check_prisms _).1]; simp
  unfold prismMagnetic
  simp only [npBroadcast_arrays, hc, Py.bind_ok]
  simp [discardNullPrismsMag, andBroadcast, maskSetTrue, maskIndex, Py.bind_ok, Py.bind_error,
    zeroVolume]

/-- C07, negation: `dipole_magnetic` does not check the second and third components, and then the
result depends on memory past the end of the array (checks on). -/
theorem C07_dipole_reads_out_of_bounds :
    ∃ (K : MagKernels P3) (coordinates dipoles : NdArray × NdArray × NdArray)
      (moments : List (List ℝ)) (junk junk' : Junk),
      dipoleMagnetic junk .serial K coordinates dipoles moments "b_n" false ≠
        dipoleMagnetic junk' .serial K coordinates dipoles moments "b_n" false := by
  refine ⟨⟨fun _ _ m => (m.x, m.y, m.z), fun _ _ m => m.x, fun _ _ m => m.y, fun _ _ m => m.z⟩,
    arrays [1] [⟨0, 0, 0⟩], arrays [1] [⟨0, 0, 1⟩], [[1], [], [1]], fun _ _ => 0, fun _ _ => 1, ?_⟩
  unfold dipoleMagnetic
  simp only [npBroadcast_arrays, Py.bind_ok]
  simp [magCompute, magComponents, List.lookup, arrays, magComponentLoop, run, runSerial, runOps,
    accum, Op.exec, rd]
  norm_num

/-- C07, negation: `point_gravity` does not compare the sizes of the coordinates of the masses. -/
theorem C07_point_reads_out_of_bounds :
    ∃ (K : PointKernels) (coordinates points : NdArray × NdArray × NdArray) (masses : NdArray)
      (junk junk' : Junk),
      pointGravity junk .serial K coordinates points masses "potential" "cartesian" ≠
        pointGravity junk' .serial K coordinates points masses "potential" "cartesian" := by
  refine ⟨⟨fun _ p _ => p.y, fun _ _ _ => 0, fun _ _ _ => 0, fun _ _ _ => 0, fun _ _ _ => 0,
    fun _ _ _ => 0, fun _ _ _ => 0, fun _ _ _ => 0, fun _ _ _ => 0, fun _ _ _ => 0⟩,
    arrays [1] [⟨0, 0, 0⟩], (array1 [1], array1 [], array1 [1]), array1 [1],
    fun _ _ => 0, fun _ _ => 1, ?_⟩
  unfold pointGravity
  simp only [npBroadcast_arrays, Py.bind_ok]
  simp [checkCoordinateSystem, getKernel, cartesianKernels, Py.bind_ok, Py.pure_eq,
    arrays, array1, pointLoop, run, runSerial, runOps, accum, Op.exec, rd, scaleIf]

/-- C07: on inputs where every source has all its coordinates and properties, nothing outside the
arrays is read: the results do not depend on it. -/
theorem C07_no_out_of_bounds_partial (junk junk' : Junk) (mode : Mode) (shape ps : List ℕ)
    (obs : List P3) (hshape : shape.prod = obs.length) (field system : String) (dis : Bool) :
    (∀ K (srcs : List (P3 × ℝ)), mode.Full obs.length (2 * srcs.length) →
      pointGravity junk mode K (arrays shape obs) (arrays ps (srcs.map (·.1)))
        (array1 (srcs.map (·.2))) field system =
      pointGravity junk' mode K (arrays shape obs) (arrays ps (srcs.map (·.1)))
        (array1 (srcs.map (·.2))) field system) ∧
    (∀ K (srcs : List (P3 × V3)), mode.Full obs.length (6 * srcs.length) →
      dipoleMagnetic junk mode K (arrays shape obs) (arrays ps (srcs.map (·.1)))
        [(srcs.map (·.2)).map (·.x), (srcs.map (·.2)).map (·.y), (srcs.map (·.2)).map (·.z)]
        field dis =
      dipoleMagnetic junk' mode K (arrays shape obs) (arrays ps (srcs.map (·.1)))
        [(srcs.map (·.2)).map (·.x), (srcs.map (·.2)).map (·.y), (srcs.map (·.2)).map (·.z)]
        field dis) ∧
    (∀ K (srcs : List (Prism × ℝ)), mode.Full obs.length (2 * srcs.length) →
      prismGravity junk mode K (arrays shape obs) (srcs.map (·.1)) (srcs.map (·.2)) field dis =
      prismGravity junk' mode K (arrays shape obs) (srcs.map (·.1)) (srcs.map (·.2)) field dis) ∧
    (∀ K (srcs : List (Prism × V3)), mode.Full obs.length (6 * srcs.length) →
      prismMagnetic junk mode K (arrays shape obs) (srcs.map (·.1))
        [(srcs.map (·.2)).map (·.x), (srcs.map (·.2)).map (·.y), (srcs.map (·.2)).map (·.z)]
        field dis =
      prismMagnetic junk' mode K (arrays shape obs) (srcs.map (·.1))
        [(srcs.map (·.2)).map (·.x), (srcs.map (·.2)).map (·.y), (srcs.map (·.2)).map (·.z)]
        field dis) := by
  refine ⟨fun K srcs hm => ?_, fun K srcs hm => ?_, fun K srcs hm => ?_, fun K srcs hm => ?_⟩
  · rw [array1, pointGravity_eq junk mode K shape obs hshape srcs ps _ hm,
      pointGravity_eq junk' mode K shape obs hshape srcs ps _ hm]
  · rw [dipoleMagnetic_eq junk mode K shape ps obs hshape srcs hm,
      dipoleMagnetic_eq junk' mode K shape ps obs hshape srcs hm]
  · rw [prismGravity_eq junk mode K shape obs hshape srcs hm,
      prismGravity_eq junk' mode K shape obs hshape srcs hm]
    simp only [checkSingularPoints_eq]
  · rw [prismMagnetic_eq junk mode K shape obs hshape srcs hm,
      prismMagnetic_eq junk' mode K shape obs hshape srcs hm]

/-! ## C08: shapes -/

/-- Full statement of C08 for `point_gravity` (Cartesian potential): for all mutually
broadcastable coordinate arrays, the output has the broadcast shape and each entry is the field at
the corresponding broadcast point. -/
def C08_full : Prop :=
  ∀ (junk : Junk) (K : PointKernels) (a b c : NdArray) (shape : List ℕ) (srcs : List (P3 × ℝ)),
    a.Wf → b.Wf → c.Wf → npBroadcast a b c = .ok shape →
    pointGravity junk .serial K (a, b, c) (arrays1 (srcs.map (·.1))) (array1 (srcs.map (·.2)))
        "potential" "cartesian" =
      .ok ⟨shape, (zipPoints (a.broadcastTo shape) (b.broadcastTo shape) (c.broadcastTo shape)).map
        (total (fun q s => K.pot q s.1 s.2) srcs)⟩

theorem flatten_chunks (x k : ℕ) (d : List ℝ) (h : d.length = x * k) :
    ((List.range x).map fun i => (d.drop (i * k)).take k).flatten = d := by
  induction x generalizing d with
  | zero => simp at h; simp [h]
  | succ x ih =>
    rw [List.range_succ_eq_map, List.map_cons, List.flatten_cons, List.map_map]
    have := ih (d.drop k) (by rw [List.length_drop, h]; simp [Nat.succ_mul])
    simp only [List.drop_drop] at this
    have hfun : ((fun i => (d.drop (i * k)).take k) ∘ Nat.succ)
        = fun i => (d.drop (k + i * k)).take k := by
      funext i
      simp only [Function.comp, Nat.succ_mul]
      rw [Nat.add_comm]
    rw [hfun, this]
    simp

theorem broadcastTo_self (s : List ℕ) (d : List ℝ) (h : d.length = s.prod) :
    broadcastTo s s d = d := by
  induction s generalizing d with
  | nil => rfl
  | cons x s ih =>
    simp only [broadcastTo, if_true]
    have : ((List.range x).map fun i => broadcastTo s s ((d.drop (i * s.prod)).take s.prod))
        = (List.range x).map fun i => (d.drop (i * s.prod)).take s.prod := by
      apply List.map_congr_left
      intro i hi
      apply ih
      rw [List.length_take, List.length_drop, h, List.prod_cons]
      have hi := List.mem_range.1 hi
      have : (i + 1) * s.prod ≤ x * s.prod := Nat.mul_le_mul_right _ hi
      rw [Nat.succ_mul] at this
      omega
    rw [this]
    exact flatten_chunks x s.prod d (by rw [h, List.prod_cons])

theorem NdArray.broadcastTo_self (a : NdArray) (h : a.Wf) : a.broadcastTo a.shape = a.data := by
  unfold NdArray.broadcastTo
  simp [Forward.broadcastTo_self _ _ h]

theorem arrays_zipPoints (s : List ℕ) (x y z : List ℝ) (hy : y.length = x.length)
    (hz : z.length = x.length) : arrays s (zipPoints x y z) = (⟨s, x⟩, ⟨s, y⟩, ⟨s, z⟩) := by
  unfold arrays zipPoints
  refine Prod.ext ?_ (Prod.ext ?_ ?_) <;> simp only <;> congr 1 <;> apply List.ext_getElem <;>
    simp [hy, hz]

/-- C08 for coordinate arrays of a common shape (same form as the full statement). What is missing:
arrays of different, broadcastable shapes, for which the property is false, see below. -/
theorem C08_point_gravity_partial (junk : Junk) (K : PointKernels) (a b c : NdArray)
    (shape : List ℕ) (srcs : List (P3 × ℝ)) (ha : a.Wf) (hb : b.Wf) (hc : c.Wf)
    (hbc : npBroadcast a b c = .ok shape) (h1 : b.shape = a.shape) (h2 : c.shape = a.shape) :
    pointGravity junk .serial K (a, b, c) (arrays1 (srcs.map (·.1))) (array1 (srcs.map (·.2)))
        "potential" "cartesian" =
      .ok ⟨shape, (zipPoints (a.broadcastTo shape) (b.broadcastTo shape) (c.broadcastTo shape)).map
        (total (fun q s => K.pot q s.1 s.2) srcs)⟩ := by
  have hs : shape = a.shape := by
    unfold npBroadcast at hbc
    rw [h1, h2] at hbc
    simp only [broadcastRev_self, Option.bind, List.reverse_reverse, Except.ok.injEq] at hbc
    exact hbc.symm
  obtain ⟨sa, da⟩ := a
  obtain ⟨sb, db⟩ := b
  obtain ⟨sc, dc⟩ := c
  simp only at h1 h2 hs
  subst h1 h2 hs
  rw [NdArray.broadcastTo_self ⟨shape, da⟩ ha, NdArray.broadcastTo_self ⟨shape, db⟩ hb,
    NdArray.broadcastTo_self ⟨shape, dc⟩ hc]
  have hla : da.length = shape.prod := ha
  have hlb : db.length = shape.prod := hb
  have hlc : dc.length = shape.prod := hc
  have harr := arrays_zipPoints shape da db dc (by omega) (by omega)
  rw [← harr]
  have hprod : shape.prod = (zipPoints da db dc).length := by
    simp [zipPoints, hla, hlb, hlc]
  have h := C04_point_gravity_cartesian junk .serial K shape [(srcs.map (·.1)).length]
    [(srcs.map (·.2)).length] _ hprod srcs trivial "potential"
  rw [arrays1, array1, h]
  simp [pointFieldTable]

/-- C08, negation: with a scalar easting and arrays of northing and upward the remaining entries of
the output are silently zero. -/
theorem C08_broadcast_not_honoured : ¬ C08_full := by
  intro h
  have := h (fun _ _ => 0) ⟨fun _ _ m => m, fun _ _ _ => 0, fun _ _ _ => 0, fun _ _ _ => 0,
    fun _ _ _ => 0, fun _ _ _ => 0, fun _ _ _ => 0, fun _ _ _ => 0, fun _ _ _ => 0,
    fun _ _ _ => 0⟩ ⟨[], [0]⟩ ⟨[2], [0, 0]⟩ ⟨[2], [0, 0]⟩ [2] [(⟨0, 0, 1⟩, 1)]
    (by simp [NdArray.Wf]) (by simp [NdArray.Wf]) (by simp [NdArray.Wf])
    (by simp [npBroadcast, broadcastRev])
  unfold pointGravity at this
  simp [npBroadcast, broadcastRev, checkCoordinateSystem, getKernel, cartesianKernels,
    Py.bind_ok, Py.pure_eq, arrays1, arrays, array1, pointLoop, run, runSerial, runOps, accum,
    Op.exec, rd, scaleIf, NdArray.broadcastTo, broadcastTo, zipPoints, total,
    List.range_succ] at this
  norm_num [List.take] at this

/-- C08, negation, second symptom: a scalar upward coordinate with arrays of easting and northing
makes the compiled loop read past the end of the upward array. -/
theorem C08_broadcast_out_of_bounds :
    ∃ (K : PointKernels) (a b c : NdArray) (junk junk' : Junk), a.Wf ∧ b.Wf ∧ c.Wf ∧
      npBroadcast a b c = .ok [2] ∧
      pointGravity junk .serial K (a, b, c) (arrays1 [⟨0, 0, 1⟩]) (array1 [1]) "potential"
        "cartesian" ≠
      pointGravity junk' .serial K (a, b, c) (arrays1 [⟨0, 0, 1⟩]) (array1 [1]) "potential"
        "cartesian" := by
  refine ⟨⟨fun q _ _ => q.z, fun _ _ _ => 0, fun _ _ _ => 0, fun _ _ _ => 0,
    fun _ _ _ => 0, fun _ _ _ => 0, fun _ _ _ => 0, fun _ _ _ => 0, fun _ _ _ => 0,
    fun _ _ _ => 0⟩, ⟨[2], [0, 0]⟩, ⟨[2], [0, 0]⟩, ⟨[], [0]⟩, fun _ _ => 0, fun _ _ => 1,
    by simp [NdArray.Wf], by simp [NdArray.Wf], by simp [NdArray.Wf],
    by simp [npBroadcast, broadcastRev], ?_⟩
  unfold pointGravity
  simp [npBroadcast, broadcastRev, checkCoordinateSystem, getKernel, cartesianKernels,
    Py.bind_ok, Py.pure_eq, arrays1, arrays, array1, pointLoop, run, runSerial, runOps, accum,
    Op.exec, rd, scaleIf, List.range_succ]

/-! ## C09: singular points -/

/-- Vertex of a prism: lower (`false`) or upper (`true`) boundary in each direction. -/
def Prism.vertex (p : Prism) (e n u : Bool) : ℝ × ℝ × ℝ :=
  (if e then p.east else p.west, if n then p.north else p.south, if u then p.top else p.bottom)

/-- The point lies on an edge of the prism parallel to the given axis (0 easting, 1 northing,
2 upward): the segment between two vertices that differ only in that direction. -/
def OnEdge (axis : Fin 3) (q : P3) (p : Prism) : Prop :=
  ∃ i j : Bool, (q.x, q.y, q.z) ∈
    match axis with
    | 0 => segment ℝ (p.vertex false i j) (p.vertex true i j)
    | 1 => segment ℝ (p.vertex i false j) (p.vertex i true j)
    | 2 => segment ℝ (p.vertex i j false) (p.vertex i j true)

/-- Axes of a tensor component. -/
def tensorAxes (field : String) : Option (List (Fin 3)) :=
  if field = "g_ee" then some [0]
  else if field = "g_nn" then some [1]
  else if field = "g_zz" then some [2]
  else if field = "g_en" then some [0, 1]
  else if field = "g_ez" then some [0, 2]
  else if field = "g_nz" then some [1, 2]
  else none

/-- A tensor component is singular on the edges that are parallel to an axis other than its own:
diagonal components on the edges perpendicular to their axis, off-diagonal ones on the edges parallel
to the remaining axis. No other field is singular. -/
def Singular (field : String) (q : P3) (p : Prism) : Prop :=
  ∃ axes, tensorAxes field = some axes ∧ ∃ axis, axis ∉ axes ∧ OnEdge axis q p

theorem onEdge_easting (q : P3) (p : Prism) (hp : p.Ordered) :
    OnEdge 0 q p ↔ onEastingEdge q p := by
  have key : ∀ y z : ℝ, (q.x, q.y, q.z) ∈ segment ℝ (p.west, y, z) (p.east, y, z) ↔
      (p.west ≤ q.x ∧ q.x ≤ p.east) ∧ q.y = y ∧ q.z = z := by
    intro y z
    rw [← Prod.image_mk_segment_left, segment_eq_Icc hp.1]
    simp only [Set.mem_image, Set.mem_Icc, Prod.mk.injEq]
    constructor
    · rintro ⟨x, hx, rfl, rfl, rfl⟩; exact ⟨hx, rfl, rfl⟩
    · rintro ⟨hx, rfl, rfl⟩; exact ⟨_, hx, rfl, rfl, rfl⟩
  unfold OnEdge onEastingEdge Prism.vertex
  simp [key]

theorem onEdge_northing (q : P3) (p : Prism) (hp : p.Ordered) :
    OnEdge 1 q p ↔ onNorthingEdge q p := by
  have key : ∀ x z : ℝ, (q.x, q.y, q.z) ∈ segment ℝ (x, p.south, z) (x, p.north, z) ↔
      q.x = x ∧ (p.south ≤ q.y ∧ q.y ≤ p.north) ∧ q.z = z := by
    intro x z
    rw [← Prod.image_mk_segment_right, ← Prod.image_mk_segment_left, segment_eq_Icc hp.2.1]
    simp only [Set.mem_image, Set.mem_Icc, Prod.mk.injEq]
    constructor
    · rintro ⟨_, ⟨y, hy, rfl⟩, rfl, h2⟩
      simp only [Prod.mk.injEq] at h2
      exact ⟨rfl, h2.1 ▸ hy, h2.2.symm⟩
    · rintro ⟨rfl, hy, rfl⟩; exact ⟨_, ⟨_, hy, rfl⟩, rfl, rfl⟩
  unfold OnEdge onNorthingEdge Prism.vertex
  simp [key]

theorem onEdge_upward (q : P3) (p : Prism) (hp : p.Ordered) :
    OnEdge 2 q p ↔ onUpwardEdge q p := by
  have key : ∀ x y : ℝ, (q.x, q.y, q.z) ∈ segment ℝ (x, y, p.bottom) (x, y, p.top) ↔
      q.x = x ∧ q.y = y ∧ (p.bottom ≤ q.z ∧ q.z ≤ p.top) := by
    intro x y
    rw [← Prod.image_mk_segment_right, ← Prod.image_mk_segment_right, segment_eq_Icc hp.2.2]
    simp only [Set.mem_image, Set.mem_Icc, Prod.mk.injEq]
    constructor
    · rintro ⟨_, ⟨z, hz, rfl⟩, rfl, h2⟩
      simp only [Prod.mk.injEq] at h2
      exact ⟨rfl, h2.1.symm, h2.2 ▸ hz⟩
    · rintro ⟨rfl, rfl, hz⟩; exact ⟨_, ⟨_, hz, rfl⟩, rfl, rfl⟩
  unfold OnEdge onUpwardEdge Prism.vertex
  simp [key]

theorem singular_iff (field : String) (q : P3) (p : Prism) (hp : p.Ordered) :
    Singular field q p ↔ ∃ test, singularTests.lookup field = some test ∧ test q p := by
  have h0 := onEdge_easting q p hp
  have h1 := onEdge_northing q p hp
  have h2 := onEdge_upward q p hp
  unfold Singular singularTests tensorAxes
  by_cases h : field ∈ ["g_ee", "g_nn", "g_zz", "g_en", "g_ez", "g_nz"]
  · simp only [List.mem_cons, List.not_mem_nil, or_false] at h
    rcases h with rfl | rfl | rfl | rfl | rfl | rfl <;>
      simp [List.lookup, Fin.exists_fin_succ, h0, h1, h2]
  · simp only [List.mem_cons, List.not_mem_nil, or_false, not_or] at h
    simp [h, List.lookup, beq_eq_false_iff_ne.2]

/-- C09: `prism_gravity` (checks on, valid prisms) warns exactly when some computation point is
singular for the requested field. -/
theorem C09_warns_iff_singular (junk : Junk) (mode : Mode) (K : PrismKernels) (shape : List ℕ)
    (obs : List P3) (hshape : shape.prod = obs.length) (srcs : List (Prism × ℝ))
    (hm : mode.Full obs.length (2 * srcs.length)) (field : String) (warn : Bool) (r : NdArray)
    (h : prismGravity junk mode K (arrays shape obs) (srcs.map (·.1)) (srcs.map (·.2)) field false
      = .ok (warn, r)) :
    warn = true ↔ ∃ q ∈ obs, ∃ s ∈ srcs, Singular field q s.1 := by
  rw [prismGravity_eq junk mode K shape obs hshape srcs hm] at h
  split at h
  · simp at h
  · split at h
    · simp at h
    · rename_i hn
      have hord : ∀ s ∈ srcs, s.1.Ordered := by
        by_contra hb
        exact hn ⟨rfl, hb⟩
      simp only [Bool.not_false, Bool.true_and, Except.ok.injEq, Prod.mk.injEq] at h
      rw [← h.1, checkSingularPoints_eq]
      classical
      constructor
      · intro hw
        split at hw
        · simp at hw
        · rename_i test hl
          obtain ⟨q, hq, p, hp, ht⟩ := of_decide_eq_true hw
          obtain ⟨s, hs, rfl⟩ := List.mem_map.1 hp
          exact ⟨q, hq, s, hs, (singular_iff field q s.1 (hord s hs)).2 ⟨test, hl, ht⟩⟩
      · rintro ⟨q, hq, s, hs, hsing⟩
        obtain ⟨test, hl, ht⟩ := (singular_iff field q s.1 (hord s hs)).1 hsing
        rw [hl]
        exact decide_eq_true ⟨q, hq, s.1, List.mem_map_of_mem hs, ht⟩

/-- C09: with the checks disabled there is never a warning. -/
theorem C09_no_warning_unchecked (junk : Junk) (mode : Mode) (K : PrismKernels)
    (coordinates : NdArray × NdArray × NdArray) (prisms : List Prism) (density : List ℝ)
    (field : String) (warn : Bool) (r : NdArray)
    (h : prismGravity junk mode K coordinates prisms density field true = .ok (warn, r)) :
    warn = false := by
  unfold prismGravity at h
  split at h
  · simp at h
  · rcases npBroadcast_cases coordinates.1 coordinates.2.1 coordinates.2.2 with h1 | ⟨s, h1⟩
    · rw [h1] at h; simp [Py.bind_error] at h
    · rw [h1] at h
      simp only [Py.bind_ok, Bool.not_true, Bool.false_and] at h
      cases hd : discardNullPrisms prisms density with
      | error e => rw [hd] at h; simp [Py.bind_error] at h
      | ok r' =>
        rw [hd] at h
        simp [Py.bind_ok, Py.pure_eq] at h
        exact h.1

/-- C09, concrete: the middle of a vertical edge is singular for `g_en`, not for `g_ez`. -/
example : Singular "g_en" ⟨0, 0, 1⟩ ⟨0, 2, 0, 2, 0, 2⟩ ∧
    ¬ Singular "g_ez" ⟨0, 0, 1⟩ ⟨0, 2, 0, 2, 0, 2⟩ := by
  have ho : Prism.Ordered ⟨0, 2, 0, 2, 0, 2⟩ := by simp [Prism.Ordered]
  rw [singular_iff _ _ _ ho, singular_iff _ _ _ ho]
  constructor
  · simp [singularTests, List.lookup, onUpwardEdge]
  · simp [singularTests, List.lookup, onNorthingEdge]

/-! ## C11: spherical point masses -/

/-- C11: the kernel of `g_z` is the radial derivative of the Newtonian potential. -/
theorem C11_gravity_u_spherical (q p : P3) (m : ℝ) (h : sphPos q ≠ sphPos p) :
    HasDerivAt (fun r => newtonPotential { q with z := r } p m)
      ((PointKernel.spherical gravityUSpherical).eval q p m) q.z := by
  set ψ := Real.sin (radians p.y) * Real.sin (radians q.y)
    + Real.cos (radians p.y) * Real.cos (radians q.y) * Real.cos (radians p.x - radians q.x)
  have hd : ∀ r, dist (sphPos { q with z := r }) (sphPos p)
      = Real.sqrt ((r - p.z) ^ 2 + 2 * r * p.z * (1 - ψ)) := by
    intro r
    rw [← C10_distance_spherical]; rfl
  have hpos : 0 < (q.z - p.z) ^ 2 + 2 * q.z * p.z * (1 - ψ) := by
    have h1 : dist (sphPos q) (sphPos p) ≠ 0 := by rwa [Ne, dist_eq_zero]
    have h2 := hd q.z
    rw [show ({ q with z := q.z } : P3) = q from rfl] at h2
    rw [h2] at h1
    by_contra hle
    exact h1 (Real.sqrt_eq_zero_of_nonpos (not_lt.1 hle))
  have hfun : (fun r => newtonPotential { q with z := r } p m)
      = fun r => gravitationalConst * m / Real.sqrt ((r - p.z) ^ 2 + 2 * r * p.z * (1 - ψ)) := by
    funext r
    simp only [newtonPotential_eq, hd]
  rw [hfun]
  have hpoly : HasDerivAt (fun r : ℝ => (r - p.z) ^ 2 + 2 * r * p.z * (1 - ψ))
      (2 * (q.z - p.z) + 2 * p.z * (1 - ψ)) q.z := by
    have h1 : HasDerivAt (fun r : ℝ => (r - p.z) ^ 2) (2 * (q.z - p.z)) q.z := by
      have := ((hasDerivAt_id q.z).sub_const p.z).fun_pow 2
      simpa using this
    have h2 : HasDerivAt (fun r : ℝ => 2 * r * p.z * (1 - ψ)) (2 * p.z * (1 - ψ)) q.z := by
      have := (((hasDerivAt_id q.z).const_mul 2).mul_const p.z).mul_const (1 - ψ)
      simpa using this
    exact h1.fun_add h2
  have hs := hpoly.sqrt hpos.ne'
  have hsq : Real.sqrt ((q.z - p.z) ^ 2 + 2 * q.z * p.z * (1 - ψ)) ≠ 0 :=
    (Real.sqrt_pos.2 hpos).ne'
  have hfin := (hasDerivAt_const q.z (gravitationalConst * m)).div hs hsq
  refine hfin.congr_deriv ?_
  simp only [PointKernel.eval, gravityUSpherical, distanceSphericalCore]
  have hc : Real.cos (radians p.x - radians q.x) = Real.cos (radians p.x - radians q.x) := rfl
  rw [show Real.sin (radians p.y) * Real.sin (radians q.y)
    + Real.cos (radians p.y) * Real.cos (radians q.y) * Real.cos (radians p.x - radians q.x) = ψ
    from rfl]
  field_simp
  ring

/-- C11 for the API: away from the masses, `point_gravity` in spherical coordinates returns for
"g_z" minus the radial derivative of the potential, in mGal. -/
theorem C11_point_gravity_spherical (junk : Junk) (mode : Mode) (K : PointKernels)
    (shape ps ms : List ℕ) (obs : List P3) (hshape : shape.prod = obs.length)
    (srcs : List (P3 × ℝ)) (hm : mode.Full obs.length (2 * srcs.length))
    (hne : ∀ q ∈ obs, ∀ s ∈ srcs, sphPos q ≠ sphPos s.1) :
    pointGravity junk mode K (arrays shape obs) (arrays ps (srcs.map (·.1)))
        ⟨ms, srcs.map (·.2)⟩ "g_z" "spherical" =
      .ok ⟨shape, obs.map fun q => 10 ^ 5 *
        -deriv (fun r => total (fun q s => newtonPotential q s.1 s.2) srcs { q with z := r }) q.z⟩ := by
  rw [C04_point_gravity_spherical junk mode K shape ps ms obs hshape srcs hm]
  simp only [show ("g_z" = "potential") = False by simp, if_false, if_true]
  congr 2
  apply List.map_congr_left
  intro q hq
  have : HasDerivAt
      (fun r => total (fun q s => newtonPotential q s.1 s.2) srcs { q with z := r })
      (total (fun q s => (PointKernel.spherical gravityUSpherical).eval q s.1 s.2) srcs q) q.z := by
    have hne' := hne q hq
    clear hm
    induction srcs with
    | nil => simpa [total] using hasDerivAt_const q.z (0 : ℝ)
    | cons s srcs ih =>
      simp only [total, List.map_cons, List.sum_cons] at ih ⊢
      refine (C11_gravity_u_spherical q s.1 s.2 (hne' s (by simp))).fun_add (ih ?_ ?_)
      · intro q hq s hs; exact hne q hq s (List.mem_cons_of_mem _ hs)
      · intro s hs; exact hne' s (List.mem_cons_of_mem _ hs)
  rw [this.deriv]
  ring

/-- C11: the hypothesis is met by any point above a mass -/
example : sphPos ⟨0, 0, 2⟩ ≠ sphPos ⟨0, 0, 1⟩ := by
  intro h
  have := congrArg (fun v : E3 => v 0) h
  simp [sphPos, radians] at this

end Verif.Forward
