import Verif.Forward.Lemmas
import Mathlib.Analysis.Calculus.Deriv.Inv
import Mathlib.Analysis.SpecialFunctions.Sqrt
import Mathlib.Analysis.Convex.Segment

/-!
Properties C01 to C09 and C11 for point masses, dipoles and prisms (tesseroids are in
Verif/Tesseroid/Props.lean).
-/

namespace Verif.Forward
open Verif.Engine Verif.Distance

/-! ## C01: parallel = serial -/

section C01
variable {F : Type} [Add F]

/-- C01, accumulation loops, for any number type and any `+` (so, bit for bit): with `n` points and
`m` sources, the loop `prange(n): for j: out[i] += val i j` yields the serial result under every
interleaving of the loads and stores of its iterations. -/
theorem C01_accumulation_loop (n m : ℕ) (val : ℕ → ℕ → F) (r0 : F) (mem : ℕ → F)
    (sched : List ℕ) (hs : (Mode.parallel sched).Full n (2 * m)) :
    let prog := fun i => (List.range m).flatMap fun j => accum i (val i j)
    run (.parallel sched) n prog r0 mem = run .serial n prog r0 mem := by
  intro prog
  refine run_eq_serial (fun c => c) n (2 * m) prog ?_ r0 mem _ hs ?_
  · intro i op hop
    simp only [prog, List.mem_flatMap, accum] at hop
    obtain ⟨v, -, hv⟩ := hop
    simp at hv
    rcases hv with rfl | rfl <;> rfl
  · intro i hi
    simp [prog, accum, List.length_flatMap]
    omega

/-- C01, loops that accumulate on three output arrays (field "b"). -/
theorem C01_vector_loop (n m : ℕ) (val : ℕ → ℕ → F × F × F) (r0 : F) (mem : Fin 3 × ℕ → F)
    (sched : List ℕ) (hs : (Mode.parallel sched).Full n (6 * m)) :
    let prog := fun i => (List.range m).flatMap fun j => accum3 i (val i j)
    run (.parallel sched) n prog r0 mem = run .serial n prog r0 mem := by
  intro prog
  refine run_eq_serial (fun c => c.2) n (6 * m) prog ?_ r0 mem _ hs ?_
  · intro i op hop
    refine accum3_owner i ((List.range m).map (val i)) op ?_
    simpa [prog, List.flatMap_map] using hop
  · intro i hi
    simp [prog, accum3, accum, List.length_flatMap]
    omega

/-- C01, loops that fill a matrix by assignment (Jacobians). -/
theorem C01_assignment_loop (n m : ℕ) (val : ℕ → ℕ → F) (r0 : F) (mem : ℕ × ℕ → F)
    (sched : List ℕ) (hs : (Mode.parallel sched).Full n m) :
    let prog := fun i => (List.range m).map fun j => Op.put (i, j) (val i j)
    run (.parallel sched) n prog r0 mem = run .serial n prog r0 mem := by
  intro prog
  refine run_eq_serial (fun c => c.1) n m prog ?_ r0 mem _ hs ?_
  · intro i op hop
    simp only [prog, List.mem_map] at hop
    obtain ⟨j, -, rfl⟩ := hop
    rfl
  · intro i hi
    simp [prog]

/-- Sharing matters: two iterations that accumulate on the same cell do lose updates under some
interleaving, so the theorems above are about the ownership of the cells, not about the engine. -/
theorem C01_shared_cell_would_race :
    ∃ (prog : ℕ → List (Op ℕ ℕ)) (sched : List ℕ), (Mode.parallel sched).Full 2 2 ∧
      (∀ i, prog i = accum 0 1) ∧
      run (.parallel sched) 2 prog 0 (fun _ => 0) ≠ run .serial 2 prog 0 (fun _ => 0) := by
  refine ⟨fun _ => accum 0 1, [0, 1, 0, 1], ⟨by simp, ?_⟩, fun _ => rfl, ?_⟩
  · intro i hi
    interval_cases i <;> simp
  · intro h
    have := congrFun h 0
    revert this
    decide

/-- the schedules quantified over include genuinely interleaved ones -/
example : (Mode.parallel [0, 1, 2, 2, 1, 0, 1, 0, 2, 0, 1, 2]).Full 3 4 :=
  ⟨by simp, by intro i hi; interval_cases i <;> decide⟩
end C01

/-- C01 for `point_gravity`, any input (well-formed or not). -/
theorem C01_point_gravity (junk : Junk) (sched : List ℕ) (K : PointKernels)
    (coordinates points : NdArray × NdArray × NdArray) (masses : NdArray) (field system : String)
    (hs : (Mode.parallel sched).Full coordinates.1.data.length (2 * points.1.data.length)) :
    pointGravity junk (.parallel sched) K coordinates points masses field system =
      pointGravity junk .serial K coordinates points masses field system := by
  have key : ∀ kernel e n u np up m,
      run (.parallel sched) coordinates.1.data.length
        (pointLoop junk kernel e n u points.1.data np up m) (0 : ℝ) (fun _ => 0)
      = run .serial coordinates.1.data.length
        (pointLoop junk kernel e n u points.1.data np up m) (0 : ℝ) (fun _ => 0) := by
    intro kernel e n u np up m
    cases kernel <;> exact C01_accumulation_loop _ _ (fun i j => _) _ _ sched hs
  unfold pointGravity
  simp only [key]

/-- C01 for `dipole_magnetic`, any input. -/
theorem C01_dipole_magnetic (junk : Junk) (sched : List ℕ) (K : MagKernels P3)
    (coordinates dipoles : NdArray × NdArray × NdArray) (moments : List (List ℝ))
    (field : String) (disableChecks : Bool)
    (hs : (Mode.parallel sched).Full coordinates.1.data.length (6 * dipoles.1.data.length)) :
    dipoleMagnetic junk (.parallel sched) K coordinates dipoles moments field disableChecks =
      dipoleMagnetic junk .serial K coordinates dipoles moments field disableChecks := by
  have hs' : (Mode.parallel sched).Full coordinates.1.data.length (2 * dipoles.1.data.length) :=
    ⟨hs.1, fun i hi => by have := hs.2 i hi; omega⟩
  have key1 : ∀ kernel e n u src me mn mu,
      run (.parallel sched) coordinates.1.data.length
        (magVectorLoop (S := P3) junk kernel e n u dipoles.1.data.length src me mn mu) (0 : ℝ)
        (fun _ => 0)
      = run .serial coordinates.1.data.length
        (magVectorLoop (S := P3) junk kernel e n u dipoles.1.data.length src me mn mu) (0 : ℝ)
        (fun _ => 0) := fun kernel e n u src me mn mu =>
    C01_vector_loop _ _ (fun i j => _) _ _ sched hs
  have key2 : ∀ kernel e n u src me mn mu,
      run (.parallel sched) coordinates.1.data.length
        (magComponentLoop (S := P3) junk kernel e n u dipoles.1.data.length src me mn mu) (0 : ℝ)
        (fun _ => 0)
      = run .serial coordinates.1.data.length
        (magComponentLoop (S := P3) junk kernel e n u dipoles.1.data.length src me mn mu) (0 : ℝ)
        (fun _ => 0) := fun kernel e n u src me mn mu =>
    C01_accumulation_loop _ _ (fun i j => _) _ _ sched hs'
  unfold dipoleMagnetic magCompute
  simp only [key1, key2]

/-- C01 for `prism_gravity` on well-formed inputs. -/
theorem C01_prism_gravity (junk : Junk) (sched : List ℕ) (K : PrismKernels) (shape : List ℕ)
    (obs : List P3) (hshape : shape.prod = obs.length) (srcs : List (Prism × ℝ))
    (hs : (Mode.parallel sched).Full obs.length (2 * srcs.length)) (field : String) (dis : Bool) :
    prismGravity junk (.parallel sched) K (arrays shape obs) (srcs.map (·.1)) (srcs.map (·.2))
        field dis =
      prismGravity junk .serial K (arrays shape obs) (srcs.map (·.1)) (srcs.map (·.2))
        field dis := by
  rw [prismGravity_eq junk _ K shape obs hshape srcs hs,
    prismGravity_eq junk .serial K shape obs hshape srcs trivial]

/-- C01 for `prism_magnetic` on well-formed inputs. -/
theorem C01_prism_magnetic (junk : Junk) (sched : List ℕ) (K : MagKernels Prism) (shape : List ℕ)
    (obs : List P3) (hshape : shape.prod = obs.length) (srcs : List (Prism × V3))
    (hs : (Mode.parallel sched).Full obs.length (6 * srcs.length)) (field : String) (dis : Bool) :
    prismMagnetic junk (.parallel sched) K (arrays shape obs) (srcs.map (·.1))
        [(srcs.map (·.2)).map (·.x), (srcs.map (·.2)).map (·.y), (srcs.map (·.2)).map (·.z)]
        field dis =
      prismMagnetic junk .serial K (arrays shape obs) (srcs.map (·.1))
        [(srcs.map (·.2)).map (·.x), (srcs.map (·.2)).map (·.y), (srcs.map (·.2)).map (·.z)]
        field dis := by
  rw [prismMagnetic_eq junk _ K shape obs hshape srcs hs,
    prismMagnetic_eq junk .serial K shape obs hshape srcs trivial]

/-! ## C04: field names, signs and units -/

/-- C04 for `point_gravity` in Cartesian coordinates: every string. -/
theorem C04_point_gravity_cartesian (junk : Junk) (mode : Mode) (K : PointKernels)
    (shape ps ms : List ℕ) (obs : List P3) (hshape : shape.prod = obs.length)
    (srcs : List (P3 × ℝ)) (hm : mode.Full obs.length (2 * srcs.length)) (field : String) :
    pointGravity junk mode K (arrays shape obs) (arrays ps (srcs.map (·.1)))
        ⟨ms, srcs.map (·.2)⟩ field "cartesian" =
      match pointFieldTable K field with
      | none => .error .ValueError
      | some (k, factor) =>
        .ok ⟨shape, obs.map fun q => factor * total (fun q s => k q s.1 s.2) srcs q⟩ := by
  rw [pointGravity_eq junk mode K shape obs hshape srcs ps ms hm]
  unfold pointFieldTable getKernel checkCoordinateSystem cartesianKernels scaleIf
  simp only [List.lookup, List.mem_cons, List.not_mem_nil, or_false]
  by_cases hp : field = "potential"
  · subst hp; simp [bind, Except.bind, pure, Except.pure, PointKernel.eval]
  by_cases h : field ∈ ["g_e", "g_n", "g_z", "g_ee", "g_nn", "g_zz", "g_en", "g_ez", "g_nz",
    "g_ne", "g_ze", "g_zn"]
  · simp only [List.mem_cons, List.not_mem_nil, or_false] at h
    rcases h with rfl | rfl | rfl | rfl | rfl | rfl | rfl | rfl | rfl | rfl | rfl | rfl <;>
      simp [bind, Except.bind, pure, Except.pure, PointKernel.eval] <;> intro a ha <;>
      norm_num <;> ring
  · simp only [List.mem_cons, List.not_mem_nil, or_false, not_or] at h
    simp [bind, Except.bind, h, hp, beq_eq_false_iff_ne.2]

/-- C04 for `point_gravity` in spherical coordinates: only the potential and the radial component
are available; the horizontal components are not implemented and any other name is an error.
(C11 identifies the kernel of `g_z`.) -/
theorem C04_point_gravity_spherical (junk : Junk) (mode : Mode) (K : PointKernels)
    (shape ps ms : List ℕ) (obs : List P3) (hshape : shape.prod = obs.length)
    (srcs : List (P3 × ℝ)) (hm : mode.Full obs.length (2 * srcs.length)) (field : String) :
    pointGravity junk mode K (arrays shape obs) (arrays ps (srcs.map (·.1)))
        ⟨ms, srcs.map (·.2)⟩ field "spherical" =
      if field = "potential" then
        .ok ⟨shape, obs.map fun q => total (fun q s => newtonPotential q s.1 s.2) srcs q⟩
      else if field = "g_z" then
        .ok ⟨shape, obs.map fun q => -10 ^ 5 *
          total (fun q s => (PointKernel.spherical gravityUSpherical).eval q s.1 s.2) srcs q⟩
      else if field = "g_n" ∨ field = "g_e" then .error .NotImplementedError
      else .error .ValueError := by
  rw [pointGravity_eq junk mode K shape obs hshape srcs ps ms hm]
  unfold getKernel checkCoordinateSystem sphericalKernels scaleIf
  simp only [List.lookup, List.mem_cons, List.not_mem_nil, or_false]
  have hpot : ∀ (q p : P3) (m : ℝ),
      (PointKernel.spherical potentialSpherical).eval q p m = newtonPotential q p m := by
    intro q p m
    have := C10_distance_spherical q p
    unfold distanceSpherical at this
    simp only at this
    simp only [PointKernel.eval, potentialSpherical, newtonPotential_eq, this]
    ring
  by_cases hp : field = "potential"
  · subst hp; simp [bind, Except.bind, pure, Except.pure, hpot]
  by_cases h : field ∈ ["g_z", "g_n", "g_e"]
  · simp only [List.mem_cons, List.not_mem_nil, or_false] at h
    rcases h with rfl | rfl | rfl
    · simp [bind, Except.bind, pure, Except.pure]; intro a ha; norm_num; ring
    · simp [bind, Except.bind]
    · simp [bind, Except.bind]
  · simp only [List.mem_cons, List.not_mem_nil, or_false, not_or] at h
    simp [bind, Except.bind, h, hp, beq_eq_false_iff_ne.2]

/-- C04: any other coordinate system name is rejected. -/
theorem C04_point_gravity_other_system (junk : Junk) (mode : Mode) (K : PointKernels)
    (coordinates points : NdArray × NdArray × NdArray) (masses : NdArray) (field system : String)
    (h1 : system ≠ "cartesian") (h2 : system ≠ "spherical") :
    pointGravity junk mode K coordinates points masses field system = .error .ValueError := by
  unfold pointGravity checkCoordinateSystem
  simp [h1, h2, bind, Except.bind]

open Classical in
/-- C04 for `prism_gravity`: every string. Bodies that do not contribute are covered by C03, the
warning by C09. -/
theorem C04_prism_gravity (junk : Junk) (mode : Mode) (K : PrismKernels) (shape : List ℕ)
    (obs : List P3) (hshape : shape.prod = obs.length) (srcs : List (Prism × ℝ))
    (dis : Bool) (hord : dis = true ∨ ∀ s ∈ srcs, s.1.Ordered)
    (hm : mode.Full obs.length (2 * srcs.length)) (field : String) :
    (prismGravity junk mode K (arrays shape obs) (srcs.map (·.1)) (srcs.map (·.2)) field dis).map
        (·.2) =
      match prismFieldTable K field with
      | none => .error .ValueError
      | some (k, factor) =>
        .ok ⟨shape, obs.map fun q => factor * total (fun q s => k q s.1 s.2)
          (srcs.filter fun s => s.1.volume ≠ 0 ∧ s.2 ≠ 0) q⟩ := by
  rw [prismGravity_eq junk mode K shape obs hshape srcs hm]
  have hkeep : srcs.filter keepPrism = srcs.filter fun s => s.1.volume ≠ 0 ∧ s.2 ≠ 0 := by
    apply List.filter_congr
    intro s hs
    unfold keepPrism zeroVolume Prism.volume
    rw [Bool.eq_iff_iff]
    have h1 : s.1.east - s.1.west = 0 ↔ s.1.west = s.1.east := by rw [sub_eq_zero, eq_comm]
    have h2 : s.1.north - s.1.south = 0 ↔ s.1.south = s.1.north := by rw [sub_eq_zero, eq_comm]
    have h3 : s.1.top - s.1.bottom = 0 ↔ s.1.bottom = s.1.top := by rw [sub_eq_zero, eq_comm]
    simp [h1, h2, h3, not_or, and_assoc]
  have hn : ¬ (dis = false ∧ ¬ ∀ s ∈ srcs, s.1.Ordered) := by
    rintro ⟨h1, h2⟩
    rcases hord with h | h
    · simp [h] at h1
    · exact h2 h
  rw [hkeep]
  simp only [if_neg hn]
  generalize srcs.filter (fun s => s.1.volume ≠ 0 ∧ s.2 ≠ 0) = kept
  generalize checkSingularPoints junk _ _ _ _ field = w
  unfold prismFieldTable prismFields scaleIf
  simp only [List.lookup, List.mem_cons, List.not_mem_nil, or_false]
  by_cases hp : field = "potential"
  · subst hp; simp [Except.map]
  by_cases h : field ∈ ["g_e", "g_n", "g_z", "g_ee", "g_nn", "g_zz", "g_en", "g_ez", "g_nz"]
  · simp only [List.mem_cons, List.not_mem_nil, or_false] at h
    rcases h with rfl | rfl | rfl | rfl | rfl | rfl | rfl | rfl | rfl <;>
      simp [Except.map] <;> intro a ha <;> norm_num <;> ring
  · simp only [List.mem_cons, List.not_mem_nil, or_false, not_or] at h
    simp [Except.map, h, hp, beq_eq_false_iff_ne.2]

/-- C04: in `prism_gravity` an unknown field is reported before anything else, whatever the rest of
the input. -/
theorem C04_prism_gravity_unknown_field (junk : Junk) (mode : Mode) (K : PrismKernels)
    (coordinates : NdArray × NdArray × NdArray) (prisms : List Prism) (density : List ℝ)
    (field : String) (dis : Bool) (h : prismFieldTable K field = none) :
    prismGravity junk mode K coordinates prisms density field dis = .error .ValueError := by
  have : (prismFields K).lookup field = none := by
    unfold prismFieldTable at h
    unfold prismFields
    repeat' split at h
    all_goals try contradiction
    simp_all [List.lookup, beq_eq_false_iff_ne.2]
  unfold prismGravity
  rw [this]

/-- concrete case: one prism of mass 2 as a constant kernel, `g_z` in mGal positive downwards -/
example (K : PrismKernels) (hK : ∀ q p d, K.u q p d = d) (junk : Junk) :
    (prismGravity junk .serial K (arrays [1] [⟨0, 0, 10⟩]) [⟨0, 1, 0, 1, -1, 0⟩] [2] "g_z" false).map
      (·.2) = .ok ⟨[1], [-200000]⟩ := by
  have h := C04_prism_gravity junk .serial K [1] [⟨0, 0, 10⟩] rfl [(⟨0, 1, 0, 1, -1, 0⟩, 2)]
    false (by simp [Prism.Ordered]) trivial "g_z"
  simp only [List.map_cons, List.map_nil] at h
  rw [h]
  simp [prismFieldTable, total, Prism.volume, hK]
  norm_num

end Verif.Forward
