import Verif.Tesseroid.Props
import Verif.Forward.PropsC

/-! Properties C01 to C04 for `tesseroid_gravity`. -/

namespace Verif.Tesseroid
open Verif.Distance Verif.Forward Verif.Engine

theorem tessKernels_lookup (field : String) :
    tessKernels.lookup field = (tessFieldTable field).map (·.1) := by
  unfold tessKernels tessFieldTable
  by_cases h1 : field = "potential"
  · subst h1; rfl
  by_cases h2 : field = "g_z"
  · subst h2; rfl
  simp [List.lookup, beq_eq_false_iff_ne.2, h1, h2]

/-- the tesseroids that are used: boundaries in order unless the checks are disabled -/
noncomputable def usedTess (dis : Bool) (t : Tess) : Tess := if dis then t else normLon t

noncomputable def usedSrc (dis : Bool) (s : Tess × ℝ) : Tess × ℝ := (usedTess dis s.1, s.2)

/-- the checks pass -/
def ChecksPass (dis : Bool) (obs : List P3) (ts : List Tess) : Prop :=
  dis = true ∨ ((∀ t ∈ ts, t.ValidRange ∧ t.ValidLon) ∧
    ¬ ∃ q ∈ obs, ∃ t ∈ ts.map (usedTess dis), conflict q t)

theorem usedTess_true : usedTess true = id := by funext t; simp [usedTess]

theorem usedTess_false : usedTess false = normLon := by funext t; simp [usedTess]

open Classical in
theorem checks_eq (junk : Junk) (shape : List ℕ) (obs : List P3) (ts : List Tess) (dis : Bool) :
    (do
        let sh ← npBroadcast (arrays shape obs).1 (arrays shape obs).2.1 (arrays shape obs).2.2
        let ts ← (if dis then .ok ts else checkTesseroids ts)
        (if dis then .ok () else checkPointsOutside junk (arrays shape obs).1.data
          (arrays shape obs).2.1.data (arrays shape obs).2.2.data ts)
        return (sh, ts) : Py (List ℕ × List Tess)) =
      if ChecksPass dis obs ts then .ok (shape, ts.map (usedTess dis))
      else .error .ValueError := by
  rw [npBroadcast_arrays]
  simp only [Py.bind_ok]
  cases dis with
  | true =>
    rw [if_pos (c := ChecksPass true obs ts) (Or.inl rfl), usedTess_true, List.map_id]
    rfl
  | false =>
    unfold ChecksPass
    rw [checkTesseroids_eq, usedTess_false]
    simp only [Bool.false_eq_true, if_false, false_or, arrays]
    by_cases h1 : ∀ t ∈ ts, t.ValidRange ∧ t.ValidLon
    · rw [if_pos h1]
      simp only [Py.bind_ok]
      rw [checkPointsOutside_eq]
      by_cases h2 : ∃ q ∈ obs, ∃ t ∈ ts.map normLon, conflict q t
      · rw [if_pos h2, if_neg (fun h => h.2 h2)]; rfl
      · rw [if_neg h2, if_pos ⟨h1, h2⟩]; rfl
    · rw [if_neg h1, if_neg (fun h => h1 h.1)]; rfl

open Classical in
/-- `tesseroid_gravity` with density values: the call as a decision. -/
theorem tesseroidGravity_values (junk : Junk) (mode : Mode) (M : Minimizer) (fuel : ℕ)
    (stack0 small0 : ℕ → Tess) (shape : List ℕ) (obs : List P3) (srcs : List (Tess × ℝ))
    (field : String) (radial dis : Bool) :
    tesseroidGravity junk mode M fuel stack0 small0 (arrays shape obs) (srcs.map (·.1))
        (.values (srcs.map (·.2))) field radial dis =
      match tessFieldTable field with
      | none => some (.error .ValueError)
      | some kc =>
        if ChecksPass dis obs (srcs.map (·.1)) then
          let kept := (srcs.map (usedSrc dis)).filter keepTess
          some (tessCompute junk mode stack0 small0 (obs.map (·.x)) (obs.map (·.y)) (obs.map (·.z))
            shape field radial (kept.map (·.1)) fun lonr cosphi sinphi radius j t =>
              glq lonr cosphi sinphi radius t (rd junk "density" (kept.map (·.2)) j) glq2 kc.1)
        else some (.error .ValueError) := by
  unfold tesseroidGravity
  rw [tessKernels_lookup]
  cases htab : tessFieldTable field with
  | none => rfl
  | some kc =>
    simp only [Option.map_some]
    have := checks_eq junk shape obs (srcs.map (·.1)) dis
    by_cases hc : ChecksPass dis obs (srcs.map (·.1))
    · rw [if_pos hc] at this
      rw [if_pos hc]
      simp only [this]
      have e1 : (srcs.map (·.1)).map (usedTess dis) = (srcs.map (usedSrc dis)).map (·.1) := by
        simp [usedSrc, Function.comp_def]
      have e2 : srcs.map (·.2) = (srcs.map (usedSrc dis)).map (·.2) := by
        simp [usedSrc, Function.comp_def]
      rw [e1, e2, discardNullTess_eq]
      simp only [List.length_map, Bool.and_false, Bool.false_eq_true, if_false,
        ne_eq, not_true_eq_false, decide_false]
      rfl
    · rw [if_neg hc] at this
      rw [if_neg hc]
      simp only [this]

open Classical in
/-- `tesseroid_gravity` with a density function. -/
theorem tesseroidGravity_func (junk : Junk) (mode : Mode) (M : Minimizer) (fuel : ℕ)
    (stack0 small0 : ℕ → Tess) (shape : List ℕ) (obs : List P3) (ts : List Tess) (f : ℝ → ℝ)
    (field : String) (radial dis : Bool) :
    tesseroidGravity junk mode M fuel stack0 small0 (arrays shape obs) ts
        (.func f) field radial dis =
      match tessFieldTable field with
      | none => some (.error .ValueError)
      | some kc =>
        if ChecksPass dis obs ts then
          match densityDiscretization M f fuel (ts.map (usedTess dis)) with
          | none => none
          | some ts' =>
            if ts'.length = 0 ∧ obs.length ≠ 0 then some (.error .ValueError)
            else some (tessCompute junk mode stack0 small0 (obs.map (·.x)) (obs.map (·.y))
              (obs.map (·.z)) shape field radial ts' fun lonr cosphi sinphi radius _ t =>
                glqVariable lonr cosphi sinphi radius t f glq2 kc.1)
        else some (.error .ValueError) := by
  unfold tesseroidGravity
  rw [tessKernels_lookup]
  cases htab : tessFieldTable field with
  | none => rfl
  | some kc =>
    simp only [Option.map_some]
    have := checks_eq junk shape obs ts dis
    by_cases hc : ChecksPass dis obs ts
    · rw [if_pos hc] at this
      rw [if_pos hc]
      simp only [this]
      cases densityDiscretization M f fuel (ts.map (usedTess dis)) with
      | none => rfl
      | some ts' =>
        simp only [arrays, List.length_map]
        by_cases hl : ts'.length = 0 ∧ obs.length ≠ 0
        · rw [if_pos hl, if_pos hl]; rfl
        · rw [if_neg hl, if_neg hl]
          unfold tessCompute
          simp only [List.length_map]
    · rw [if_neg hc] at this
      rw [if_neg hc]
      simp only [this]

/-! ## C01 -/

/-- The outcome of the loop does not depend on the schedule. -/
theorem tessCompute_mode (junk : Junk) (mode mode' : Mode) (stack0 small0 stack1 small1 : ℕ → Tess)
    (obs : List P3) (shape : List ℕ) (hshape : shape.prod = obs.length) (field : String)
    (radial : Bool) (ts : List Tess) (k : ℕ) (hk : 2 * (MAX_DISCRETIZATIONS * ts.length) ≤ k)
    (hm : mode.Full obs.length k) (hm' : mode'.Full obs.length k)
    (quad : ℝ → ℝ → ℝ → ℝ → ℕ → Tess → ℝ) (r : NdArray) :
    tessCompute junk mode stack0 small0 (obs.map (·.x)) (obs.map (·.y)) (obs.map (·.z)) shape field
        radial ts quad = .ok r →
    tessCompute junk mode' stack1 small1 (obs.map (·.x)) (obs.map (·.y)) (obs.map (·.z)) shape field
        radial ts quad = .ok r := by
  have hts : ts = ts.zipIdx.map (·.1) := by rw [List.zipIdx_map_fst]
  by_cases hall : ∀ q ∈ obs, ∀ s ∈ ts.zipIdx, ∃ p, tessPieces (tessParams field radial q) s.1 = .ok p
  · let pcs : P3 → Tess → List Tess := fun q t =>
      match tessPieces (tessParams field radial q) t with | .ok p => p | .error _ => []
    have hp : ∀ q ∈ obs, ∀ s ∈ ts.zipIdx,
        tessPieces (tessParams field radial q) s.1 = .ok (pcs q s.1) := by
      intro q hq s hs
      obtain ⟨p, hp⟩ := hall q hq s hs
      simp only [pcs, hp]
    have key := fun m (h : Mode.Full obs.length k m) st sm => tessCompute_ok junk m st sm obs shape hshape field
      radial ts.zipIdx (·.1) k (by simpa using hk) h quad
      (fun q s t => quad (radians q.x) (Real.cos (radians q.y)) (Real.sin (radians q.y)) q.z s.2 t)
      (by intro q j hj t; simp) pcs hp
    rw [← hts] at key
    rw [key mode hm, key mode' hm']
    exact id
  · push Not at hall
    obtain ⟨q, hq, s, hs, h⟩ := hall
    obtain ⟨e, he⟩ : ∃ e, tessPieces (tessParams field radial q) s.1 = .error e := by
      cases hh : tessPieces (tessParams field radial q) s.1 with
      | ok p => exact absurd hh (h p)
      | error e => exact ⟨e, rfl⟩
    obtain ⟨-, -, -, -, e1, -, h1⟩ := tessCompute_error junk mode stack0 small0 obs shape field radial
      ts.zipIdx (·.1) k hm quad q hq s hs e he
    rw [← hts] at h1
    rw [h1]
    intro h; simp at h

/-- C01, `tesseroid_gravity` with density values: the parallel call returns an array iff the serial
one does, and it is the same, whatever the schedule and the contents of uninitialised memory. -/
theorem C01_tesseroid_gravity (junk : Junk) (sched : List ℕ) (M : Minimizer) (fuel : ℕ)
    (stack0 small0 stack1 small1 : ℕ → Tess) (shape : List ℕ) (obs : List P3)
    (hshape : shape.prod = obs.length) (srcs : List (Tess × ℝ)) (field : String)
    (radial dis : Bool)
    (hs : (Mode.parallel sched).Full obs.length (2 * (100000 * srcs.length))) (r : NdArray) :
    tesseroidGravity junk (.parallel sched) M fuel stack0 small0 (arrays shape obs)
        (srcs.map (·.1)) (.values (srcs.map (·.2))) field radial dis = some (.ok r) ↔
      tesseroidGravity junk .serial M fuel stack1 small1 (arrays shape obs) (srcs.map (·.1))
        (.values (srcs.map (·.2))) field radial dis = some (.ok r) := by
  rw [tesseroidGravity_values, tesseroidGravity_values]
  cases tessFieldTable field with
  | none => simp
  | some kc =>
    simp only
    split
    · simp only [Option.some.injEq]
      have hl : ((srcs.map (usedSrc dis)).filter keepTess).length ≤ srcs.length := by
        refine (List.length_filter_le _ _).trans (by simp)
      have hk : 2 * (MAX_DISCRETIZATIONS *
          (((srcs.map (usedSrc dis)).filter keepTess).map (·.1)).length) ≤
          2 * (100000 * srcs.length) := by
        rw [List.length_map]
        unfold MAX_DISCRETIZATIONS
        omega
      constructor
      · exact tessCompute_mode junk _ .serial _ _ _ _ obs shape hshape field radial _ _ hk hs trivial _ r
      · exact tessCompute_mode junk .serial _ _ _ _ _ obs shape hshape field radial _ _ hk trivial hs _ r
    · simp

/-- C01, `tesseroid_gravity` with a density function. -/
theorem C01_tesseroid_gravity_func (junk : Junk) (sched : List ℕ) (M : Minimizer) (fuel : ℕ)
    (stack0 small0 stack1 small1 : ℕ → Tess) (shape : List ℕ) (obs : List P3)
    (hshape : shape.prod = obs.length) (ts : List Tess) (f : ℝ → ℝ) (field : String)
    (radial dis : Bool) (k : ℕ)
    (hk : ∀ ts', densityDiscretization M f fuel (ts.map (usedTess dis)) = some ts' →
      2 * (100000 * ts'.length) ≤ k)
    (hs : (Mode.parallel sched).Full obs.length k) (r : NdArray) :
    tesseroidGravity junk (.parallel sched) M fuel stack0 small0 (arrays shape obs) ts (.func f)
        field radial dis = some (.ok r) ↔
      tesseroidGravity junk .serial M fuel stack1 small1 (arrays shape obs) ts (.func f)
        field radial dis = some (.ok r) := by
  rw [tesseroidGravity_func, tesseroidGravity_func]
  cases tessFieldTable field with
  | none => simp
  | some kc =>
    simp only
    split
    · cases hd : densityDiscretization M f fuel (ts.map (usedTess dis)) with
      | none => simp
      | some ts' =>
        simp only
        split
        · simp
        · simp only [Option.some.injEq]
          have hk' : 2 * (MAX_DISCRETIZATIONS * ts'.length) ≤ k := hk ts' hd
          constructor
          · exact tessCompute_mode junk _ .serial _ _ _ _ obs shape hshape field radial _ _ hk' hs trivial _ r
          · exact tessCompute_mode junk .serial _ _ _ _ _ obs shape hshape field radial _ _ hk' trivial hs _ r
    · simp

/-! ## C03 -/

/-- C03 for tesseroids: exactly the tesseroids with a null extent or density are removed, the rest
keep their order and their own densities. -/
theorem C03_tesseroid_discard_exact (srcs : List (Tess × ℝ)) :
    ∃ kept : List (Tess × ℝ),
      discardNullTess (srcs.map (·.1)) (srcs.map (·.2)) = .ok (kept.map (·.1), kept.map (·.2)) ∧
      kept.Sublist srcs ∧
      ∀ s, s ∈ kept ↔ s ∈ srcs ∧ s.1.w ≠ s.1.e ∧ s.1.s ≠ s.1.n ∧ s.1.bottom ≠ s.1.top ∧ s.2 ≠ 0 := by
  refine ⟨srcs.filter keepTess, discardNullTess_eq srcs, List.filter_sublist, ?_⟩
  intro s
  rw [List.mem_filter]
  unfold keepTess nullTess
  simp [and_assoc]

/-- C03: what is removed has no effect: all its point masses are null. -/
theorem C03_tesseroid_null_has_no_mass (t : Tess) (ρ : ℝ)
    (h : t.w = t.e ∨ t.s = t.n ∨ t.bottom = t.top ∨ ρ = 0) :
    ∀ s ∈ pointMasses t (fun _ => ρ), s.2 = 0 := by
  intro s hs
  unfold pointMasses at hs
  simp only [List.mem_flatMap, List.mem_map] at hs
  obtain ⟨a, -, b, -, c, -, rfl⟩ := hs
  rcases h with h | h | h | h <;> simp [h]

/-! ## C04 and C02 -/

theorem quad_masses (kc : SphKernel × ℝ) (q : P3) (p : Tess) (ρ : ℝ → ℝ) :
    glqVariable (radians q.x) (Real.cos (radians q.y)) (Real.sin (radians q.y)) q.z p ρ glq2 kc.1 =
      total (fun q m => (PointKernel.spherical kc.1).eval q m.1 m.2) (pointMasses p ρ) q := by
  rw [glqVariable_eq, glqMasses_glq2]

theorem scale_tess (field : String) (kc : SphKernel × ℝ) (h : tessFieldTable field = some kc)
    (l : List ℝ) :
    scaleIf field ["g_z"] 1e5 (scaleIf field ["g_z"] (-1) l) = l.map (kc.2 * ·) := by
  unfold tessFieldTable at h
  unfold scaleIf
  split at h
  · rename_i hf
    simp at h; subst h; subst hf
    simp
  · split at h
    · rename_i hf
      simp at h; subst h; subst hf
      simp only [List.mem_singleton, if_true, List.map_map]
      apply List.map_congr_left
      intro x _
      simp only [Function.comp_apply]
      norm_num
      ring
    · simp at h

/-- pieces used for an observation point -/
noncomputable def usedPieces (field : String) (radial : Bool) (q : P3) (t : Tess) : List Tess :=
  match tessPieces (tessParams field radial q) t with
  | .ok p => p
  | .error _ => []

/-- conditions under which the call returns -/
def Returns (field : String) (radial dis : Bool) (obs : List P3) (srcs : List (Tess × ℝ)) : Prop :=
  ChecksPass dis obs (srcs.map (·.1)) ∧
    ∀ q ∈ obs, ∀ s ∈ (srcs.map (usedSrc dis)).filter keepTess,
      ∃ p, tessPieces (tessParams field radial q) s.1 = .ok p

/-- effect of one tesseroid -/
noncomputable def tessEffect (field : String) (radial : Bool) (kernel : SphKernel) (q : P3)
    (s : Tess × ℝ) : ℝ :=
  ((usedPieces field radial q s.1).map fun p =>
    total (fun q m => (PointKernel.spherical kernel).eval q m.1 m.2) (pointMasses p fun _ => s.2)
      q).sum

open Classical in
/-- The call with density values: returned array or an exception. -/
theorem tesseroidGravity_form (field : String) (kc : SphKernel × ℝ)
    (htab : tessFieldTable field = some kc)
    (junk : Junk) (mode : Mode) (M : Minimizer) (fuel : ℕ)
    (stack0 small0 : ℕ → Tess) (shape : List ℕ) (obs : List P3)
    (hshape : shape.prod = obs.length) (srcs : List (Tess × ℝ))
    (radial dis : Bool) (hm : mode.Full obs.length (2 * (100000 * srcs.length))) :
    (Returns field radial dis obs srcs →
      tesseroidGravity junk mode M fuel stack0 small0 (arrays shape obs) (srcs.map (·.1))
        (.values (srcs.map (·.2))) field radial dis =
      some (.ok ⟨shape, obs.map fun q => kc.2 * total (tessEffect field radial kc.1)
        ((srcs.map (usedSrc dis)).filter keepTess) q⟩)) ∧
    (¬ Returns field radial dis obs srcs →
      ∃ e, tesseroidGravity junk mode M fuel stack0 small0 (arrays shape obs) (srcs.map (·.1))
        (.values (srcs.map (·.2))) field radial dis = some (.error e) ∧
        (e = .ValueError ∨ ∃ q ∈ obs, ∃ s ∈ (srcs.map (usedSrc dis)).filter keepTess,
          tessPieces (tessParams field radial q) s.1 = .error e)) := by
  rw [tesseroidGravity_values, htab]
  simp only
  have hl : ((srcs.map (usedSrc dis)).filter keepTess).length ≤ srcs.length :=
    (List.length_filter_le _ _).trans (by simp)
  constructor
  · rintro ⟨hc, hp⟩
    rw [if_pos hc]
    have := tessCompute_ok junk mode stack0 small0 obs shape hshape field radial
      ((srcs.map (usedSrc dis)).filter keepTess) (·.1) (2 * (100000 * srcs.length))
      (by unfold MAX_DISCRETIZATIONS; omega) hm
      (fun lonr cosphi sinphi radius j t =>
        glq lonr cosphi sinphi radius t
          (rd junk "density" (((srcs.map (usedSrc dis)).filter keepTess).map (·.2)) j) glq2 kc.1)
      (fun q s p => total (fun q m => (PointKernel.spherical kc.1).eval q m.1 m.2)
        (pointMasses p fun _ => s.2) q)
      (by
        intro q j hj t
        rw [rd_map junk _ _ _ j hj, glq_eq_variable, quad_masses kc])
      (usedPieces field radial) (by
        intro q hq s hs
        obtain ⟨p, hp⟩ := hp q hq s hs
        simp only [usedPieces, hp])
    rw [this, scale_tess field kc htab, List.map_map]
    rfl
  · intro hn
    by_cases hc : ChecksPass dis obs (srcs.map (·.1))
    · rw [if_pos hc]
      have : ∃ q ∈ obs, ∃ s ∈ (srcs.map (usedSrc dis)).filter keepTess, ∃ e,
          tessPieces (tessParams field radial q) s.1 = .error e := by
        by_contra hne
        apply hn
        refine ⟨hc, fun q hq s hs => ?_⟩
        cases hh : tessPieces (tessParams field radial q) s.1 with
        | ok p => exact ⟨p, rfl⟩
        | error e => exact absurd ⟨q, hq, s, hs, e, hh⟩ hne
      obtain ⟨q, hq, s, hs, e, he⟩ := this
      obtain ⟨q', hq', s', hs', e', h1, h2⟩ := tessCompute_error junk mode stack0 small0 obs shape
        field radial ((srcs.map (usedSrc dis)).filter keepTess) (·.1) _ hm
        (fun lonr cosphi sinphi radius j t =>
          glq lonr cosphi sinphi radius t
            (rd junk "density" (((srcs.map (usedSrc dis)).filter keepTess).map (·.2)) j) glq2 kc.1)
        q hq s hs e he
      exact ⟨e', by rw [h2], Or.inr ⟨q', hq', s', hs', h1⟩⟩
    · rw [if_neg hc]
      exact ⟨_, rfl, Or.inl rfl⟩

theorem returns_of_ok {field : String} {kc : SphKernel × ℝ}
    (htab : tessFieldTable field = some kc)
    {junk : Junk} {mode : Mode} {M : Minimizer} {fuel : ℕ}
    {stack0 small0 : ℕ → Tess} {shape : List ℕ} {obs : List P3}
    (hshape : shape.prod = obs.length) {srcs : List (Tess × ℝ)}
    {radial dis : Bool} (hm : mode.Full obs.length (2 * (100000 * srcs.length))) {r : NdArray}
    (h : tesseroidGravity junk mode M fuel stack0 small0 (arrays shape obs) (srcs.map (·.1))
        (.values (srcs.map (·.2))) field radial dis = some (.ok r)) :
    Returns field radial dis obs srcs ∧
    r = ⟨shape, obs.map fun q => kc.2 * total (tessEffect field radial kc.1)
        ((srcs.map (usedSrc dis)).filter keepTess) q⟩ := by
  have hf := tesseroidGravity_form field kc htab junk mode M fuel stack0 small0 shape obs hshape srcs
    radial dis hm
  by_cases hr : Returns field radial dis obs srcs
  · refine ⟨hr, ?_⟩
    rw [hf.1 hr] at h
    simpa using h.symm
  · obtain ⟨e, he, -⟩ := hf.2 hr
    rw [he] at h
    simp at h

/-- C04: any name other than "potential" and "g_z" is an error, before anything else is looked at. -/
theorem C04_tesseroid_gravity_unknown_field (junk : Junk) (mode : Mode) (M : Minimizer) (fuel : ℕ)
    (stack0 small0 : ℕ → Tess) (coordinates : NdArray × NdArray × NdArray) (ts : List Tess)
    (density : Density) (field : String) (radial dis : Bool) (h1 : field ≠ "potential")
    (h2 : field ≠ "g_z") :
    tesseroidGravity junk mode M fuel stack0 small0 coordinates ts density field radial dis =
      some (.error .ValueError) := by
  unfold tesseroidGravity
  rw [tessKernels_lookup]
  simp [tessFieldTable, h1, h2]

/-- C04 for `tesseroid_gravity`: the returned array has the shape of the coordinates and each value
is the one of `point_gravity` in spherical coordinates, sign and units included, for point masses
that replace the pieces of a partition of each tesseroid (eight per piece). The partition depends
on the observation point: the distance to each piece is at least its size (potential) or 2.5 times
its size (g_z). Sources with null extent or density take no part. -/
theorem C04_tesseroid_gravity (junk : Junk) (mode : Mode) (M : Minimizer) (fuel : ℕ)
    (stack0 small0 : ℕ → Tess) (shape : List ℕ) (obs : List P3)
    (hshape : shape.prod = obs.length) (srcs : List (Tess × ℝ)) (field : String)
    (radial dis : Bool) (hm : mode.Full obs.length (2 * (100000 * srcs.length)))
    (hord : ∀ s ∈ srcs, s.1.Ordered) (r : NdArray)
    (h : tesseroidGravity junk mode M fuel stack0 small0 (arrays shape obs) (srcs.map (·.1))
        (.values (srcs.map (·.2))) field radial dis = some (.ok r)) :
    ∃ (kept : List (Tess × ℝ)) (pieces : P3 → Tess → List Tess),
      (∀ s, s ∈ kept ↔ s ∈ srcs ∧ s.1.w ≠ s.1.e ∧ s.1.s ≠ s.1.n ∧ s.1.bottom ≠ s.1.top ∧ s.2 ≠ 0) ∧
      kept.Sublist srcs ∧
      (∀ q ∈ obs, ∀ s ∈ kept, IsPartition (pieces q s.1) s.1 ∧ (s.1.Proper →
        ∀ p ∈ pieces q s.1,
          (if field = "potential" then 1 else 2.5) * p.sizeLon ≤ p.centreDistance q ∧
          (if field = "potential" then 1 else 2.5) * p.sizeLat ≤ p.centreDistance q ∧
          (radial = true →
            (if field = "potential" then 1 else 2.5) * p.sizeRad ≤ p.centreDistance q))) ∧
      r.shape = shape ∧ r.data.length = obs.length ∧
      ∀ i (hi : i < obs.length), ∀ K : PointKernels,
        pointGravity junk .serial K (arrays [1] [obs[i]])
          (arrays1 ((kept.flatMap fun s => (pieces obs[i] s.1).flatMap fun p =>
            pointMasses p fun _ => s.2).map (·.1)))
          (array1 ((kept.flatMap fun s => (pieces obs[i] s.1).flatMap fun p =>
            pointMasses p fun _ => s.2).map (·.2))) field "spherical" =
        .ok ⟨[1], [r.data.getD i 0]⟩ := by
  cases htab : tessFieldTable field with
  | none =>
    rw [tesseroidGravity_values, htab] at h
    simp at h
  | some kc =>
  obtain ⟨⟨hc, hp⟩, rfl⟩ := returns_of_ok htab hshape hm h
  have hu : srcs.map (usedSrc dis) = srcs := by
    conv_rhs => rw [← List.map_id srcs]
    apply List.map_congr_left
    intro s hs
    unfold usedSrc usedTess
    rw [normLon_of_le (hord s hs).1]
    simp
  rw [hu] at hp ⊢
  have hmem : ∀ s, s ∈ srcs.filter keepTess ↔
      s ∈ srcs ∧ s.1.w ≠ s.1.e ∧ s.1.s ≠ s.1.n ∧ s.1.bottom ≠ s.1.top ∧ s.2 ≠ 0 := by
    intro s
    rw [List.mem_filter]
    unfold keepTess nullTess
    simp [and_assoc]
  refine ⟨srcs.filter keepTess, usedPieces field radial, hmem, List.filter_sublist, ?_, rfl,
    by simp, ?_⟩
  · intro q hq s hs
    obtain ⟨p, hp⟩ := hp q hq s hs
    have hP : 1 ≤ (tessParams field radial q).stackSize := by
      show 1 ≤ STACK_SIZE; unfold STACK_SIZE; omega
    rcases adaptive_cases (tessParams field radial q) hP stack0 small0 s.1 with
      ⟨n, small, h1, h2⟩ | ⟨e, -, h2⟩
    · have := (C16_partition _ hP stack0 small0 _ s.1 (hord s (List.mem_filter.1 hs).1) n small h1).1
      unfold usedPieces
      rw [h2]
      refine ⟨this, fun hprop p hpm => ?_⟩
      obtain ⟨i, hi, rfl⟩ := List.mem_map.1 hpm
      obtain ⟨c1, c2, c3, -⟩ := C16_criterion _ hP stack0 small0 _ s.1 hprop n small h1 i
        (List.mem_range.1 hi)
      exact ⟨c1, c2, c3⟩
    · rw [hp] at h2; simp at h2
  · intro i hi K
    rw [arrays1, array1, C04_point_gravity_spherical junk .serial K [1] _ _ [obs[i]] (by simp) _
      trivial field]
    simp only [List.getD_eq_getElem?_getD, List.getElem?_map, List.getElem?_eq_getElem hi,
      Option.map_some, Option.getD_some]
    have hpot : ∀ (q p : P3) (m : ℝ),
        (PointKernel.spherical potentialSpherical).eval q p m = newtonPotential q p m := by
      intro q p m
      have := C10_distance_spherical q p
      unfold distanceSpherical at this
      simp only at this
      simp only [PointKernel.eval, potentialSpherical, newtonPotential_eq, this]
      ring
    have hsum : ∀ kernel : SphKernel, total (tessEffect field radial kernel) (srcs.filter keepTess)
        obs[i] = total (fun q m => (PointKernel.spherical kernel).eval q m.1 m.2)
          ((srcs.filter keepTess).flatMap fun s => (usedPieces field radial obs[i] s.1).flatMap
            fun p => pointMasses p fun _ => s.2) obs[i] := by
      intro kernel
      unfold total tessEffect total
      rw [map_flatMap', sum_flatMap]
      congr 1
      apply List.map_congr_left
      intro s _
      rw [map_flatMap', sum_flatMap]
    unfold tessFieldTable at htab
    split at htab
    · rename_i hf
      simp at htab; subst htab
      rw [if_pos hf, hsum]
      simp [hpot]
    · rename_i hf
      split at htab
      · rename_i hg
        simp at htab; subst htab
        rw [if_neg hf, if_pos hg, hsum]
        simp
      · simp at htab

/-- C02, `tesseroid_gravity`: union of two sets of tesseroids. -/
theorem C02_tesseroid_gravity_split (junk : Junk) (m m1 m2 : Mode) (M : Minimizer) (fuel : ℕ)
    (stack0 small0 : ℕ → Tess) (shape : List ℕ) (obs : List P3)
    (hshape : shape.prod = obs.length) (srcs1 srcs2 : List (Tess × ℝ)) (field : String)
    (radial dis : Bool) (hm : m.Full obs.length (2 * (100000 * (srcs1 ++ srcs2).length)))
    (hm1 : m1.Full obs.length (2 * (100000 * srcs1.length)))
    (hm2 : m2.Full obs.length (2 * (100000 * srcs2.length))) (r1 r2 : NdArray)
    (h1 : tesseroidGravity junk m1 M fuel stack0 small0 (arrays shape obs) (srcs1.map (·.1))
        (.values (srcs1.map (·.2))) field radial dis = some (.ok r1))
    (h2 : tesseroidGravity junk m2 M fuel stack0 small0 (arrays shape obs) (srcs2.map (·.1))
        (.values (srcs2.map (·.2))) field radial dis = some (.ok r2)) :
    tesseroidGravity junk m M fuel stack0 small0 (arrays shape obs) ((srcs1 ++ srcs2).map (·.1))
        (.values ((srcs1 ++ srcs2).map (·.2))) field radial dis =
      some (.ok ⟨shape, List.zipWith (· + ·) r1.data r2.data⟩) := by
  cases htab : tessFieldTable field with
  | none =>
    rw [tesseroidGravity_values, htab] at h1
    simp at h1
  | some kc =>
  obtain ⟨⟨c1, p1⟩, rfl⟩ := returns_of_ok htab hshape hm1 h1
  obtain ⟨⟨c2, p2⟩, rfl⟩ := returns_of_ok htab hshape hm2 h2
  rw [(tesseroidGravity_form field kc htab junk m M fuel stack0 small0 shape obs hshape _
    radial dis hm).1]
  · simp only [List.zipWith_map, List.zipWith_self, List.map_append, List.filter_append]
    congr 3
    apply List.map_congr_left
    intro q _
    rw [total_append, mul_add]
  · refine ⟨?_, ?_⟩
    · unfold ChecksPass at c1 c2 ⊢
      rcases c1 with c1 | ⟨a1, b1⟩
      · exact Or.inl c1
      · rcases c2 with c2 | ⟨a2, b2⟩
        · exact Or.inl c2
        · refine Or.inr ⟨?_, ?_⟩
          · rw [List.map_append]
            intro t ht
            rcases List.mem_append.1 ht with ht | ht
            · exact a1 t ht
            · exact a2 t ht
          · rintro ⟨q, hq, t, ht, hcf⟩
            rw [List.map_append, List.map_append, List.mem_append] at ht
            rcases ht with ht | ht
            · exact b1 ⟨q, hq, t, ht, hcf⟩
            · exact b2 ⟨q, hq, t, ht, hcf⟩
    · intro q hq s hs
      rw [List.map_append, List.filter_append, List.mem_append] at hs
      rcases hs with hs | hs
      · exact p1 q hq s hs
      · exact p2 q hq s hs

/-- C02, `tesseroid_gravity`: the order of the tesseroids is irrelevant. -/
theorem C02_tesseroid_gravity_perm (junk : Junk) (m m' : Mode) (M : Minimizer) (fuel : ℕ)
    (stack0 small0 : ℕ → Tess) (shape : List ℕ) (obs : List P3)
    (hshape : shape.prod = obs.length) (srcs srcs' : List (Tess × ℝ)) (hp : srcs.Perm srcs')
    (field : String) (radial dis : Bool)
    (hm : m.Full obs.length (2 * (100000 * srcs.length)))
    (hm' : m'.Full obs.length (2 * (100000 * srcs'.length))) (r : NdArray)
    (h : tesseroidGravity junk m M fuel stack0 small0 (arrays shape obs) (srcs.map (·.1))
        (.values (srcs.map (·.2))) field radial dis = some (.ok r)) :
    tesseroidGravity junk m' M fuel stack0 small0 (arrays shape obs) (srcs'.map (·.1))
        (.values (srcs'.map (·.2))) field radial dis = some (.ok r) := by
  cases htab : tessFieldTable field with
  | none =>
    rw [tesseroidGravity_values, htab] at h
    simp at h
  | some kc =>
  obtain ⟨⟨c1, p1⟩, rfl⟩ := returns_of_ok htab hshape hm h
  have hperm := (hp.map (usedSrc dis)).filter keepTess
  rw [(tesseroidGravity_form field kc htab junk m' M fuel stack0 small0 shape obs hshape _
    radial dis hm').1]
  · congr 3
    apply List.map_congr_left
    intro q _
    rw [total_perm _ _ _ hperm]
  · refine ⟨?_, fun q hq s hs => p1 q hq s (hperm.mem_iff.2 hs)⟩
    rcases c1 with c1 | ⟨a1, b1⟩
    · exact Or.inl c1
    · refine Or.inr ⟨fun t ht => a1 t ((hp.map _).mem_iff.2 ht), ?_⟩
      rintro ⟨q, hq, t, ht, hcf⟩
      exact b1 ⟨q, hq, t, ((hp.map _).map _).mem_iff.2 ht, hcf⟩

theorem pointMasses_smul (t : Tess) (a ρ : ℝ) :
    pointMasses t (fun _ => a * ρ) = (pointMasses t fun _ => ρ).map fun m => (m.1, a * m.2) := by
  unfold pointMasses
  simp only [List.flatMap_cons, List.flatMap_nil, List.map_cons, List.map_nil, List.append_nil,
    List.cons_append, List.nil_append]
  simp only [mul_assoc, mul_div_assoc]

theorem tessEffect_smul (field : String) (radial : Bool) (kernel : SphKernel) (q : P3) (t : Tess)
    (a ρ : ℝ) :
    tessEffect field radial kernel q (t, a * ρ) = a * tessEffect field radial kernel q (t, ρ) := by
  unfold tessEffect
  rw [← List.sum_map_mul_left]
  congr 1
  apply List.map_congr_left
  intro p _
  unfold total
  rw [pointMasses_smul, ← List.sum_map_mul_left, List.map_map]
  congr 1
  apply List.map_congr_left
  intro m _
  simp only [Function.comp_apply, PointKernel.eval]
  ring

/-- C02, `tesseroid_gravity` is homogeneous in the density. -/
theorem C02_tesseroid_gravity_scale (junk : Junk) (m m' : Mode) (M : Minimizer) (fuel : ℕ)
    (stack0 small0 : ℕ → Tess) (shape : List ℕ) (obs : List P3)
    (hshape : shape.prod = obs.length) (srcs : List (Tess × ℝ)) (a : ℝ)
    (field : String) (radial dis : Bool)
    (hm : m.Full obs.length (2 * (100000 * srcs.length)))
    (hm' : m'.Full obs.length (2 * (100000 * srcs.length))) (r : NdArray)
    (h : tesseroidGravity junk m M fuel stack0 small0 (arrays shape obs) (srcs.map (·.1))
        (.values (srcs.map (·.2))) field radial dis = some (.ok r)) :
    tesseroidGravity junk m' M fuel stack0 small0 (arrays shape obs) (srcs.map (·.1))
        (.values (srcs.map fun s => a * s.2)) field radial dis =
      some (.ok ⟨shape, r.data.map (a * ·)⟩) := by
  cases htab : tessFieldTable field with
  | none =>
    rw [tesseroidGravity_values, htab] at h
    simp at h
  | some kc =>
  obtain ⟨⟨c1, p1⟩, rfl⟩ := returns_of_ok htab hshape hm h
  have e1 : srcs.map (·.1) = (srcs.map fun s => (s.1, a * s.2)).map (·.1) := by
    simp [Function.comp_def]
  have e2 : (srcs.map fun s => a * s.2) = (srcs.map fun s => (s.1, a * s.2)).map (·.2) := by
    simp [Function.comp_def]
  have e3 : (srcs.map fun s => (s.1, a * s.2)).map (usedSrc dis) =
      (srcs.map (usedSrc dis)).map fun s => (s.1, a * s.2) := by
    simp [Function.comp_def, usedSrc]
  rw [e2]
  conv_lhs => rw [e1]
  rw [(tesseroidGravity_form field kc htab junk m' M fuel stack0 small0 shape obs hshape _
    radial dis (by simpa using hm')).1]
  · rw [e3]
    simp only
    rw [List.map_map (l := obs)]
    congr 3
    apply List.map_congr_left
    intro q _
    simp only [Function.comp_apply]
    have key : ∀ l : List (Tess × ℝ), total (tessEffect field radial kc.1)
        ((l.map fun s => (s.1, a * s.2)).filter keepTess) q =
        a * total (tessEffect field radial kc.1) (l.filter keepTess) q := by
      intro l
      induction l with
      | nil => simp [total]
      | cons s l ih =>
        rw [List.map_cons, List.filter_cons, List.filter_cons]
        by_cases ha : a = 0
        · subst ha
          have : keepTess (s.1, 0 * s.2) = false := by simp [keepTess]
          rw [this, if_neg (by simp), ih]
          simp
        · have : keepTess (s.1, a * s.2) = keepTess s := by simp [keepTess, ha]
          rw [this]
          by_cases hk : keepTess s = true
          · rw [if_pos hk, if_pos hk]
            unfold total at ih ⊢
            rw [List.map_cons, List.sum_cons, List.map_cons, List.sum_cons, mul_add, ih,
              tessEffect_smul]
          · rw [if_neg hk, if_neg hk, ih]
    rw [key]
    ring
  · refine ⟨by rw [← e1]; exact c1, fun q hq s hs => ?_⟩
    rw [e3, List.mem_filter, List.mem_map] at hs
    obtain ⟨⟨s', hs', rfl⟩, hk⟩ := hs
    refine p1 q hq s' (List.mem_filter.2 ⟨hs', ?_⟩)
    simp only [keepTess, Bool.not_eq_true', Bool.or_eq_false_iff, decide_eq_false_iff_not,
      mul_eq_zero, not_or] at hk ⊢
    exact ⟨hk.1, hk.2.2⟩

/-- C02, no sources: zero everywhere. -/
theorem C02_tesseroid_gravity_empty (junk : Junk) (m : Mode) (M : Minimizer) (fuel : ℕ)
    (stack0 small0 : ℕ → Tess) (shape : List ℕ) (obs : List P3)
    (hshape : shape.prod = obs.length) (field : String) (hf : field = "potential" ∨ field = "g_z")
    (radial dis : Bool) (hm : m.Full obs.length 0) :
    tesseroidGravity junk m M fuel stack0 small0 (arrays shape obs) [] (.values []) field radial dis
      = some (.ok ⟨shape, obs.map fun _ => 0⟩) := by
  obtain ⟨kc, htab⟩ : ∃ kc, tessFieldTable field = some kc := by
    rcases hf with rfl | rfl <;> simp [tessFieldTable]
  have := (tesseroidGravity_form field kc htab junk m M fuel stack0 small0 shape obs hshape []
    radial dis (by simpa using hm)).1 ⟨by
      unfold ChecksPass; right; simp, by simp⟩
  simpa [total] using this

/-- C16 at the API: with valid tesseroids of positive volume that are not complete turns, the only
exceptions of `tesseroid_gravity` are the documented ones: ValueError from the checks and
OverflowError from the discretization. -/
theorem C16_tesseroid_gravity_errors_partial (junk : Junk) (mode : Mode) (M : Minimizer) (fuel : ℕ)
    (stack0 small0 : ℕ → Tess) (shape : List ℕ) (obs : List P3)
    (hshape : shape.prod = obs.length) (srcs : List (Tess × ℝ)) (field : String)
    (radial dis : Bool) (hm : mode.Full obs.length (2 * (100000 * srcs.length)))
    (hprop : ∀ s ∈ srcs, s.1.Proper) (e : PyErr)
    (h : tesseroidGravity junk mode M fuel stack0 small0 (arrays shape obs) (srcs.map (·.1))
        (.values (srcs.map (·.2))) field radial dis = some (.error e)) :
    e = .ValueError ∨ e = .OverflowError := by
  cases htab : tessFieldTable field with
  | none =>
    rw [tesseroidGravity_values, htab] at h
    left; simpa using h.symm
  | some kc =>
  have hf := tesseroidGravity_form field kc htab junk mode M fuel stack0 small0 shape obs hshape srcs
    radial dis hm
  by_cases hr : Returns field radial dis obs srcs
  · rw [hf.1 hr] at h; simp at h
  · obtain ⟨e', h1, h2⟩ := hf.2 hr
    rw [h] at h1
    simp at h1
    subst h1
    rcases h2 with h2 | ⟨q, -, s, hs, hse⟩
    · exact Or.inl h2
    · right
      obtain ⟨s', hs', rfl⟩ := List.mem_map.1 (List.mem_filter.1 hs).1
      have hpr : (usedSrc dis s').1 = s'.1 := by
        unfold usedSrc usedTess
        rw [normLon_of_le (hprop s' hs').we.le]; simp
      rw [hpr] at hse
      have hP : 1 ≤ (tessParams field radial q).stackSize := by
        show 1 ≤ STACK_SIZE; unfold STACK_SIZE; omega
      rcases adaptive_cases (tessParams field radial q) hP stack0 small0 s'.1 with
        ⟨n, small, h1, h2⟩ | ⟨e2, h1, h2⟩
      · rw [hse] at h2; simp at h2
      · rw [hse] at h2
        simp at h2
        subst h2
        exact C16_only_overflow_partial _ hP stack0 small0 _ _ (hprop s' hs') _ h1

/-- C14 at the API: with the checks enabled, a point strictly inside of a tesseroid (narrower than
one turn) is an error. -/
theorem C14_tesseroid_gravity_rejects (junk : Junk) (mode : Mode) (M : Minimizer) (fuel : ℕ)
    (stack0 small0 : ℕ → Tess) (shape : List ℕ) (obs : List P3) (srcs : List (Tess × ℝ))
    (field : String) (radial : Bool) (q : P3) (hq : q ∈ obs) (s : Tess × ℝ) (hs : s ∈ srcs)
    (hw : s.1.w ≤ s.1.e) (h360 : s.1.e - s.1.w ≠ 360) (h : s.1.Inside q) :
    tesseroidGravity junk mode M fuel stack0 small0 (arrays shape obs) (srcs.map (·.1))
        (.values (srcs.map (·.2))) field radial false = some (.error .ValueError) := by
  rw [tesseroidGravity_values]
  cases tessFieldTable field with
  | none => rfl
  | some kc =>
    simp only
    rw [if_neg]
    rintro (h0 | ⟨h1, h2⟩)
    · simp at h0
    · apply h2
      refine ⟨q, hq, s.1, ?_, ?_⟩
      · rw [List.mem_map]
        exact ⟨s.1, List.mem_map_of_mem hs, by rw [usedTess_false, normLon_of_le hw]⟩
      · have hv := (h1 s.1 (List.mem_map_of_mem hs)).1
        rw [conflict_iff _ _ hv.lon_w.1 hv.lon_e.2]
        exact ⟨h.1.resolve_left h360, h.2⟩

/-- the schedule hypotheses of this file are met by a serial run and by a parallel run of one
thread after the other -/
example (n k : ℕ) : Mode.Full n k .serial := trivial

example (k : ℕ) : Mode.Full 2 k (.parallel (List.replicate k 0 ++ List.replicate k 1)) := by
  refine ⟨?_, ?_⟩
  · intro i hi
    rcases List.mem_append.1 hi with h | h <;> have := List.eq_of_mem_replicate h <;> omega
  · intro i hi
    have : i = 0 ∨ i = 1 := by omega
    rcases this with rfl | rfl <;> simp [List.count_replicate]

/-- a call that returns: a tesseroid seen from far away is not split -/
theorem far_call_returns (junk : Junk) (M : Minimizer) (stack0 small0 : ℕ → Tess) :
    let srcs : List (Tess × ℝ) := [(⟨-1, 1, -1, 1, 1, 2⟩, 1)]
    ∃ r, tesseroidGravity junk .serial M 0 stack0 small0 (arrays [1] [⟨0, 0, 1000⟩])
      (srcs.map (·.1)) (.values (srcs.map (·.2))) "g_z" true false = some (.ok r) := by
  intro srcs
  refine ⟨_, (tesseroidGravity_form "g_z" (gravityUSpherical, -10 ^ 5) rfl junk .serial M 0 stack0
    small0 [1] [⟨0, 0, 1000⟩] (by simp) srcs true false trivial).1 ⟨Or.inr ⟨?_, ?_⟩, ?_⟩⟩
  · simp only [srcs, List.map_cons, List.map_nil, List.mem_singleton, forall_eq]
    exact ⟨⟨by norm_num, by norm_num, by norm_num, by norm_num, by norm_num,
        by norm_num, by norm_num⟩, Or.inl ⟨by norm_num, by norm_num⟩⟩
  · rintro ⟨q, hq, t, ht, hc⟩
    simp only [srcs, List.map_cons, List.map_nil, List.mem_singleton] at hq ht
    subst hq ht
    rw [usedTess_false, normLon_of_le (by norm_num), conflict_iff _ _ (by norm_num) (by norm_num)] at hc
    have := hc.2.2.2
    norm_num at this
  · intro q hq s hs
    obtain ⟨s', hs', rfl⟩ := List.mem_map.1 (List.mem_filter.1 hs).1
    simp only [srcs, List.mem_singleton] at hq hs'
    subst hq hs'
    have hu : (usedSrc false ((⟨-1, 1, -1, 1, 1, 2⟩ : Tess), (1 : ℝ))).1 = ⟨-1, 1, -1, 1, 1, 2⟩ := by
      unfold usedSrc
      rw [usedTess_false, normLon_of_le (by norm_num)]
    rw [hu]
    have hP : 1 ≤ (tessParams "g_z" true ⟨0, 0, 1000⟩).stackSize := by
      show 1 ≤ STACK_SIZE; unfold STACK_SIZE; omega
    have hS : 1 ≤ (tessParams "g_z" true ⟨0, 0, 1000⟩).smallSize := by
      show 1 ≤ MAX_DISCRETIZATIONS; unfold MAX_DISCRETIZATIONS; omega
    have hd : (⟨-1, 1, -1, 1, 1, 2⟩ : Tess).centreDistance ⟨0, 0, 1000⟩ = 998.5 := by
      unfold Tess.centreDistance
      rw [← C10_distance_spherical]
      norm_num [distanceSpherical, distanceSphericalCore, radians]
      rw [show (3988009 : ℝ) = 1997 ^ 2 by norm_num, show (4 : ℝ) = 2 ^ 2 by norm_num,
        Real.sqrt_sq (by norm_num), Real.sqrt_sq (by norm_num)]
    have hr : (tessParams "g_z" true ⟨0, 0, 1000⟩).ratio = 2.5 := by
      simp [tessParams, distanceSizeRatio]
    have hpi := Real.pi_le_four
    obtain ⟨small, h1, -⟩ := C16_far_not_split (tessParams "g_z" true ⟨0, 0, 1000⟩) hP hS stack0
      small0 ⟨-1, 1, -1, 1, 1, 2⟩ ⟨by norm_num, by norm_num, by norm_num, by norm_num, by norm_num,
        by norm_num, by norm_num⟩
      (by
        rw [hr]
        show _ ≤ (⟨-1, 1, -1, 1, 1, 2⟩ : Tess).centreDistance ⟨0, 0, 1000⟩
        rw [hd]
        unfold Tess.sizeLon
        have := InnerProductGeometry.angle_le_pi (unitPos (-1) ((-1 + 1) / 2)) (unitPos 1 ((-1 + 1) / 2))
        simp only
        linarith)
      (by
        rw [hr]
        show _ ≤ (⟨-1, 1, -1, 1, 1, 2⟩ : Tess).centreDistance ⟨0, 0, 1000⟩
        rw [hd]
        unfold Tess.sizeLat radians
        simp only
        linarith)
      (by
        intro _
        rw [hr]
        show _ ≤ (⟨-1, 1, -1, 1, 1, 2⟩ : Tess).centreDistance ⟨0, 0, 1000⟩
        rw [hd]
        unfold Tess.sizeRad
        norm_num)
    rcases adaptive_cases _ hP stack0 small0 ⟨-1, 1, -1, 1, 1, 2⟩ with ⟨n, sm, -, h2⟩ | ⟨e, h2, -⟩
    · exact ⟨_, h2⟩
    · unfold adaptiveFuel at h2
      rw [h1] at h2
      simp at h2

end Verif.Tesseroid
