import Verif.Forward.Spec
import Verif.Engine.Lemmas
import Mathlib.Tactic.NormNum
import Mathlib.Algebra.BigOperators.Ring.List

namespace Verif.Forward
open Verif.Engine Verif.Distance

theorem gravitationalConst_eq : gravitationalConst = 6.6743e-11 := by norm_num [gravitationalConst]

theorem newtonPotential_eq (q p : P3) (m : ℝ) :
    newtonPotential q p m = gravitationalConst * m / dist (sphPos q) (sphPos p) := by
  rw [gravitationalConst_eq]
  rfl

theorem broadcastRev_self (s : List ℕ) : broadcastRev s s = some s := by
  induction s with
  | nil => rfl
  | cons x s ih => simp [broadcastRev, ih]

theorem npBroadcast_arrays (shape : List ℕ) (pts : List P3) :
    npBroadcast (arrays shape pts).1 (arrays shape pts).2.1 (arrays shape pts).2.2 = .ok shape := by
  simp [npBroadcast, arrays, broadcastRev_self]

theorem rd_map {α : Type} (junk : Junk) (name : String) (f : α → ℝ) (l : List α) (i : ℕ)
    (h : i < l.length) : rd junk name (l.map f) i = f l[i] := by
  simp [rd, h]

theorem range_map_eq {α β : Type} (l : List α) (g : ℕ → β) (F : α → β)
    (h : ∀ i (hi : i < l.length), g i = F l[i]) : (List.range l.length).map g = l.map F := by
  apply List.ext_getElem
  · simp
  · intro i h1 h2
    simp at h1
    simp [h i h1]

/-- the accumulation loop over zero initialised arrays, as a list -/
theorem accum_result {α : Type} (obs : List α) (k : ℕ) (vals : ℕ → List ℝ) (mode : Mode)
    (hm : mode.Full obs.length k) (hk : ∀ i < obs.length, 2 * (vals i).length ≤ k)
    (F : α → ℝ) (hF : ∀ i (hi : i < obs.length), (vals i).sum = F obs[i]) :
    (List.range obs.length).map
      (run mode obs.length (fun i => (vals i).flatMap (accum i)) 0 (fun _ => 0)) = obs.map F := by
  apply range_map_eq
  intro i hi
  rw [run_accum obs.length k vals 0 _ mode hm hk i, if_pos hi, foldl_add_eq_sum, hF i hi, zero_add]

/-- contribution of a source in a given kind of kernel -/
noncomputable def PointKernel.eval : PointKernel → P3 → P3 → ℝ → ℝ
  | .cartesian f, q, p, m => f q p m
  | .spherical f, q, p, m =>
    m * f (radians q.x) (Real.cos (radians q.y)) (Real.sin (radians q.y)) q.z
      (radians p.x) (Real.cos (radians p.y)) (Real.sin (radians p.y)) p.z

theorem pointLoop_result (junk : Junk) (kernel : PointKernel) (mode : Mode) (obs : List P3)
    (srcs : List (P3 × ℝ)) (hm : mode.Full obs.length (2 * srcs.length)) :
    (List.range obs.length).map (run mode (obs.map (·.x)).length
      (pointLoop junk kernel (obs.map (·.x)) (obs.map (·.y)) (obs.map (·.z))
        ((srcs.map (·.1)).map (·.x)) ((srcs.map (·.1)).map (·.y)) ((srcs.map (·.1)).map (·.z))
        (srcs.map (·.2))) 0 (fun _ => 0))
      = obs.map (total (fun q s => kernel.eval q s.1 s.2) srcs) := by
  have hprog : (pointLoop junk kernel (obs.map (·.x)) (obs.map (·.y)) (obs.map (·.z))
        ((srcs.map (·.1)).map (·.x)) ((srcs.map (·.1)).map (·.y)) ((srcs.map (·.1)).map (·.z))
        (srcs.map (·.2)))
      = fun i => (srcs.map (fun s => kernel.eval
          ⟨rd junk "easting" (obs.map (·.x)) i, rd junk "northing" (obs.map (·.y)) i,
            rd junk "upward" (obs.map (·.z)) i⟩ s.1 s.2)).flatMap (accum i) := by
    funext i
    unfold pointLoop
    simp only [List.length_map]
    rw [List.flatMap_def, List.flatMap_def]
    congr 1
    refine (range_map_eq srcs _ (fun s => accum i (kernel.eval
          ⟨rd junk "easting" (obs.map (·.x)) i, rd junk "northing" (obs.map (·.y)) i,
            rd junk "upward" (obs.map (·.z)) i⟩ s.1 s.2)) ?_).trans (by simp)
    intro j hj
    have h1 := rd_map junk "easting_p" (fun p : P3 => p.x) (srcs.map (·.1)) j (by simpa using hj)
    have h2 := rd_map junk "northing_p" (fun p : P3 => p.y) (srcs.map (·.1)) j (by simpa using hj)
    have h3 := rd_map junk "upward_p" (fun p : P3 => p.z) (srcs.map (·.1)) j (by simpa using hj)
    have h4 := rd_map junk "masses" (·.2) srcs j hj
    cases kernel <;> simp only [PointKernel.eval, h1, h2, h3, h4, List.getElem_map]
  rw [hprog, List.length_map]
  apply accum_result obs (2 * srcs.length) _ mode hm
  · intro i hi; simp
  · intro i hi
    rw [rd_map junk _ _ obs i hi, rd_map junk _ _ obs i hi, rd_map junk _ _ obs i hi]
    rfl

/-- General form of `point_gravity` on well-formed inputs. -/
theorem pointGravity_eq (junk : Junk) (mode : Mode) (K : PointKernels) (shape : List ℕ)
    (obs : List P3) (hshape : shape.prod = obs.length) (srcs : List (P3 × ℝ)) (ps ms : List ℕ)
    (hm : mode.Full obs.length (2 * srcs.length)) (field system : String) :
    pointGravity junk mode K (arrays shape obs) (arrays ps (srcs.map (·.1)))
        ⟨ms, srcs.map (·.2)⟩ field system = (do
      checkCoordinateSystem system ["cartesian", "spherical"]
      let kernel ← getKernel K system field
      let result := obs.map (total (fun q s => kernel.eval q s.1 s.2) srcs)
      let result := scaleIf field ["g_z", "g_ez", "g_ze", "g_nz", "g_zn"] (-1) result
      let result := scaleIf field ["g_e", "g_n", "g_z"] 1e5 result
      let result := scaleIf field
        ["g_ee", "g_nn", "g_zz", "g_en", "g_ez", "g_nz", "g_ne", "g_ze", "g_zn"] 1e9 result
      return ⟨shape, result⟩) := by
  unfold pointGravity
  rw [npBroadcast_arrays]
  cases checkCoordinateSystem system ["cartesian", "spherical"] with
  | error e => rfl
  | ok u =>
    cases hk : getKernel K system field with
    | error e => simp [bind, Except.bind, arrays]
    | ok kernel =>
      have := pointLoop_result junk kernel mode obs srcs hm
      simp only [arrays, bind, Except.bind, pure, Except.pure, List.length_map, ne_eq,
        not_true_eq_false, if_false, hshape]
      simp only [List.length_map] at this
      rw [this]

/-! ### prisms -/

theorem maskIndex_map {α β : Type} (l : List α) (f : α → β) (g : α → Bool) :
    maskIndex (l.map f) (l.map g) = .ok ((l.filter g).map f) := by
  unfold maskIndex
  simp only [List.length_map, if_true, List.zip_map', List.filterMap_map]
  congr 1
  induction l with
  | nil => rfl
  | cons a l ih =>
    by_cases h : g a <;> simp [h] <;> simpa [Function.comp_def] using ih

theorem maskSetTrue_map {α : Type} (l : List α) (f g : α → Bool) :
    maskSetTrue (l.map f) (l.map g) = .ok (l.map fun a => f a || g a) := by
  simp [maskSetTrue, List.zip_map']

open Classical in
/-- bodies that contribute: positive extent in every direction and non-zero density -/
noncomputable def keepPrism (s : Prism × ℝ) : Bool := !(zeroVolume s.1 || decide (s.2 = 0))

theorem discardNullPrisms_eq (srcs : List (Prism × ℝ)) :
    discardNullPrisms (srcs.map (·.1)) (srcs.map (·.2)) =
      .ok ((srcs.filter keepPrism).map (·.1), (srcs.filter keepPrism).map (·.2)) := by
  unfold discardNullPrisms
  simp only [List.map_map, maskSetTrue_map, bind, Except.bind]
  rw [maskIndex_map]
  simp only
  rw [maskIndex_map]
  rfl

theorem zipIdx_map_eq {α β γ : Type} (l : List α) (f : α → β) (g : β × ℕ → γ) (F : α → γ)
    (h : ∀ i (hi : i < l.length), g (f l[i], i) = F l[i]) :
    (l.map f).zipIdx.map g = l.map F := by
  apply List.ext_getElem
  · simp
  · intro i h1 h2
    simp at h1
    simp [h i h1]

theorem prismLoop_result (junk : Junk) (kernel : P3 → Prism → ℝ → ℝ) (mode : Mode)
    (obs : List P3) (srcs : List (Prism × ℝ)) (k : ℕ) (hk : 2 * srcs.length ≤ k)
    (hm : mode.Full obs.length k) :
    (List.range obs.length).map (run mode (obs.map (·.x)).length
      (prismLoop junk kernel (obs.map (·.x)) (obs.map (·.y)) (obs.map (·.z))
        (srcs.map (·.1)) (srcs.map (·.2))) 0 (fun _ => 0))
      = obs.map (total (fun q s => kernel q s.1 s.2) srcs) := by
  have hprog : (prismLoop junk kernel (obs.map (·.x)) (obs.map (·.y)) (obs.map (·.z))
        (srcs.map (·.1)) (srcs.map (·.2)))
      = fun i => (srcs.map (fun s => kernel
          ⟨rd junk "easting" (obs.map (·.x)) i, rd junk "northing" (obs.map (·.y)) i,
            rd junk "upward" (obs.map (·.z)) i⟩ s.1 s.2)).flatMap (accum i) := by
    funext i
    unfold prismLoop
    rw [List.flatMap_def, List.flatMap_def]
    congr 1
    refine (zipIdx_map_eq srcs (·.1) _ (fun s => accum i (kernel
          ⟨rd junk "easting" (obs.map (·.x)) i, rd junk "northing" (obs.map (·.y)) i,
            rd junk "upward" (obs.map (·.z)) i⟩ s.1 s.2)) ?_).trans (by simp)
    intro j hj
    have h4 := rd_map junk "density" (·.2) srcs j hj
    simp only [h4]
  rw [hprog, List.length_map]
  apply accum_result obs k _ mode hm
  · intro i hi; simpa using hk
  · intro i hi
    rw [rd_map junk _ _ obs i hi, rd_map junk _ _ obs i hi, rd_map junk _ _ obs i hi]
    rfl

open Classical in
theorem checkPrisms_eq (prisms : List Prism) :
    checkPrisms prisms = if ∀ p ∈ prisms, p.Ordered then .ok () else .error .ValueError := by
  unfold checkPrisms Prism.Ordered
  by_cases h1 : ∃ p ∈ prisms, p.west > p.east
  · have : ¬ ∀ p ∈ prisms, p.west ≤ p.east ∧ p.south ≤ p.north ∧ p.bottom ≤ p.top := by
      obtain ⟨p, hp, h⟩ := h1
      exact fun hh => absurd (hh p hp).1 (not_le.2 h)
    rw [if_pos h1, if_neg this]; rfl
  by_cases h2 : ∃ p ∈ prisms, p.south > p.north
  · have : ¬ ∀ p ∈ prisms, p.west ≤ p.east ∧ p.south ≤ p.north ∧ p.bottom ≤ p.top := by
      obtain ⟨p, hp, h⟩ := h2
      exact fun hh => absurd (hh p hp).2.1 (not_le.2 h)
    rw [if_neg h1, if_pos h2, if_neg this]; rfl
  by_cases h3 : ∃ p ∈ prisms, p.bottom > p.top
  · have : ¬ ∀ p ∈ prisms, p.west ≤ p.east ∧ p.south ≤ p.north ∧ p.bottom ≤ p.top := by
      obtain ⟨p, hp, h⟩ := h3
      exact fun hh => absurd (hh p hp).2.2 (not_le.2 h)
    rw [if_neg h1, if_neg h2, if_pos h3, if_neg this]; rfl
  · have : ∀ p ∈ prisms, p.west ≤ p.east ∧ p.south ≤ p.north ∧ p.bottom ≤ p.top := by
      push Not at h1 h2 h3
      exact fun p hp => ⟨h1 p hp, h2 p hp, h3 p hp⟩
    rw [if_neg h1, if_neg h2, if_neg h3, if_pos this]; rfl

open Classical in
/-- the singular point check on well-formed coordinates -/
theorem checkSingularPoints_eq (junk : Junk) (obs : List P3) (prisms : List Prism)
    (field : String) :
    checkSingularPoints junk (obs.map (·.x)) (obs.map (·.y)) (obs.map (·.z)) prisms field =
      match singularTests.lookup field with
      | none => false
      | some test => decide (∃ q ∈ obs, ∃ p ∈ prisms, test q p) := by
  unfold checkSingularPoints
  cases singularTests.lookup field with
  | none => rfl
  | some test =>
    simp only [List.length_map]
    congr 1
    apply propext
    constructor
    · rintro ⟨i, hi, p, hp, h⟩
      rw [rd_map junk _ _ obs i hi, rd_map junk _ _ obs i hi, rd_map junk _ _ obs i hi] at h
      exact ⟨obs[i], List.getElem_mem hi, p, hp, h⟩
    · rintro ⟨q, hq, p, hp, h⟩
      obtain ⟨i, hi, rfl⟩ := List.getElem_of_mem hq
      refine ⟨i, hi, p, hp, ?_⟩
      rw [rd_map junk _ _ obs i hi, rd_map junk _ _ obs i hi, rd_map junk _ _ obs i hi]
      exact h

open Classical in
/-- General form of `prism_gravity` on well-formed inputs. -/
theorem prismGravity_eq (junk : Junk) (mode : Mode) (K : PrismKernels) (shape : List ℕ)
    (obs : List P3) (hshape : shape.prod = obs.length) (srcs : List (Prism × ℝ))
    (hm : mode.Full obs.length (2 * srcs.length)) (field : String) (disableChecks : Bool) :
    prismGravity junk mode K (arrays shape obs) (srcs.map (·.1)) (srcs.map (·.2)) field
        disableChecks =
      match (prismFields K).lookup field with
      | none => .error .ValueError
      | some kernel =>
        if disableChecks = false ∧ ¬ ∀ s ∈ srcs, s.1.Ordered then .error .ValueError
        else
          let result := obs.map (total (fun q s => kernel q s.1 s.2) (srcs.filter keepPrism))
          let result := scaleIf field ["g_z", "g_ez", "g_nz"] (-1) result
          let result := scaleIf field ["g_e", "g_n", "g_z"] 1e5 result
          let result := scaleIf field ["g_ee", "g_nn", "g_zz", "g_en", "g_ez", "g_nz"] 1e9 result
          .ok (!disableChecks && checkSingularPoints junk (obs.map (·.x)) (obs.map (·.y))
            (obs.map (·.z)) (srcs.map (·.1)) field, ⟨shape, result⟩) := by
  unfold prismGravity
  cases (prismFields K).lookup field with
  | none => rfl
  | some kernel =>
    simp only
    rw [npBroadcast_arrays]
    have := prismLoop_result junk kernel mode obs (srcs.filter keepPrism) (2 * srcs.length)
      (by have := List.length_filter_le keepPrism srcs; omega) hm
    simp only [List.length_map] at this
    have hchk : checkPrisms (srcs.map (·.1)) =
        if ∀ s ∈ srcs, s.1.Ordered then .ok () else .error .ValueError := by
      rw [checkPrisms_eq]
      congr 1
      exact propext ⟨fun h s hs => h s.1 (List.mem_map_of_mem hs), fun h p hp => by
        obtain ⟨s, hs, rfl⟩ := List.mem_map.1 hp; exact h s hs⟩
    simp only [arrays, bind, Except.bind, pure, Except.pure, List.length_map, ne_eq,
      not_true_eq_false, decide_false, Bool.and_false, hshape, discardNullPrisms_eq, this]
    by_cases hP : ∀ s ∈ srcs, s.1.Ordered
    · rw [if_pos hP] at hchk
      rw [if_neg (show ¬ (disableChecks = false ∧ ¬ ∀ s ∈ srcs, s.1.Ordered) from fun h => h.2 hP)]
      cases disableChecks <;> simp [hchk]
    · rw [if_neg hP] at hchk
      cases disableChecks
      · rw [if_pos (show false = false ∧ ¬ ∀ s ∈ srcs, s.1.Ordered from ⟨rfl, hP⟩)]; simp [hchk]
      · rw [if_neg (show ¬ (true = false ∧ ¬ ∀ s ∈ srcs, s.1.Ordered) from fun h => by simp at h)]
        simp

/-! ### magnetic sources -/

theorem magVectorLoop_result {S : Type} (junk : Junk) (kernel : P3 → S → V3 → ℝ × ℝ × ℝ)
    (mode : Mode) (obs : List P3) (srcs : List (S × V3)) (src : ℕ → S)
    (hsrc : ∀ j (hj : j < srcs.length), src j = srcs[j].1) (k : ℕ) (hk : 6 * srcs.length ≤ k)
    (hm : mode.Full obs.length k) :
    let out := run mode (obs.map (·.x)).length
      (magVectorLoop junk kernel (obs.map (·.x)) (obs.map (·.y)) (obs.map (·.z)) srcs.length src
        ((srcs.map (·.2)).map (·.x)) ((srcs.map (·.2)).map (·.y)) ((srcs.map (·.2)).map (·.z)))
      0 (fun _ => 0)
    (List.range obs.length).map (fun i => out (0, i) * 1e9)
      = obs.map (fun q => total (fun q s => (kernel q s.1 s.2).1) srcs q * 1e9) ∧
    (List.range obs.length).map (fun i => out (1, i) * 1e9)
      = obs.map (fun q => total (fun q s => (kernel q s.1 s.2).2.1) srcs q * 1e9) ∧
    (List.range obs.length).map (fun i => out (2, i) * 1e9)
      = obs.map (fun q => total (fun q s => (kernel q s.1 s.2).2.2) srcs q * 1e9) := by
  have hprog : (magVectorLoop junk kernel (obs.map (·.x)) (obs.map (·.y)) (obs.map (·.z))
        srcs.length src
        ((srcs.map (·.2)).map (·.x)) ((srcs.map (·.2)).map (·.y)) ((srcs.map (·.2)).map (·.z)))
      = fun i => (srcs.map (fun s => kernel
          ⟨rd junk "easting" (obs.map (·.x)) i, rd junk "northing" (obs.map (·.y)) i,
            rd junk "upward" (obs.map (·.z)) i⟩ s.1 s.2)).flatMap (accum3 i) := by
    funext i
    unfold magVectorLoop
    rw [List.flatMap_def, List.flatMap_def]
    congr 1
    refine (range_map_eq srcs _ (fun s => accum3 i (kernel
          ⟨rd junk "easting" (obs.map (·.x)) i, rd junk "northing" (obs.map (·.y)) i,
            rd junk "upward" (obs.map (·.z)) i⟩ s.1 s.2)) ?_).trans (by simp)
    intro j hj
    have h1 := rd_map junk "mag_e" (fun p : V3 => p.x) (srcs.map (·.2)) j (by simpa using hj)
    have h2 := rd_map junk "mag_n" (fun p : V3 => p.y) (srcs.map (·.2)) j (by simpa using hj)
    have h3 := rd_map junk "mag_u" (fun p : V3 => p.z) (srcs.map (·.2)) j (by simpa using hj)
    simp only [h1, h2, h3, List.getElem_map, hsrc j hj]
  intro out
  have hout := run_accum3 obs.length k (fun i => srcs.map (fun s => kernel
          ⟨rd junk "easting" (obs.map (·.x)) i, rd junk "northing" (obs.map (·.y)) i,
            rd junk "upward" (obs.map (·.z)) i⟩ s.1 s.2)) (0 : ℝ) (fun _ => 0) mode hm
      (by intro i hi; simpa using hk)
  have hout' : out = run mode obs.length (fun i => (srcs.map (fun s => kernel
          ⟨rd junk "easting" (obs.map (·.x)) i, rd junk "northing" (obs.map (·.y)) i,
            rd junk "upward" (obs.map (·.z)) i⟩ s.1 s.2)).flatMap (accum3 i)) 0 (fun _ => 0) := by
    simp only [out, hprog, List.length_map]
  rw [← hout'] at hout
  refine ⟨range_map_eq obs _ _ fun i hi => ?_, range_map_eq obs _ _ fun i hi => ?_,
    range_map_eq obs _ _ fun i hi => ?_⟩
  · rw [(hout i).1, if_pos hi, foldl_add_eq_sum, rd_map junk _ _ obs i hi,
      rd_map junk _ _ obs i hi, rd_map junk _ _ obs i hi, zero_add, List.map_map]; rfl
  · rw [(hout i).2.1, if_pos hi, foldl_add_eq_sum, rd_map junk _ _ obs i hi,
      rd_map junk _ _ obs i hi, rd_map junk _ _ obs i hi, zero_add, List.map_map]; rfl
  · rw [(hout i).2.2, if_pos hi, foldl_add_eq_sum, rd_map junk _ _ obs i hi,
      rd_map junk _ _ obs i hi, rd_map junk _ _ obs i hi, zero_add, List.map_map]; rfl

theorem magComponentLoop_result {S : Type} (junk : Junk) (kernel : P3 → S → V3 → ℝ)
    (mode : Mode) (obs : List P3) (srcs : List (S × V3)) (src : ℕ → S)
    (hsrc : ∀ j (hj : j < srcs.length), src j = srcs[j].1) (k : ℕ) (hk : 2 * srcs.length ≤ k)
    (hm : mode.Full obs.length k) :
    let out := run mode (obs.map (·.x)).length
      (magComponentLoop junk kernel (obs.map (·.x)) (obs.map (·.y)) (obs.map (·.z)) srcs.length src
        ((srcs.map (·.2)).map (·.x)) ((srcs.map (·.2)).map (·.y)) ((srcs.map (·.2)).map (·.z)))
      0 (fun _ => 0)
    (List.range obs.length).map (fun i => out i * 1e9)
      = obs.map (fun q => total (fun q s => kernel q s.1 s.2) srcs q * 1e9) := by
  have hprog : (magComponentLoop junk kernel (obs.map (·.x)) (obs.map (·.y)) (obs.map (·.z))
        srcs.length src
        ((srcs.map (·.2)).map (·.x)) ((srcs.map (·.2)).map (·.y)) ((srcs.map (·.2)).map (·.z)))
      = fun i => (srcs.map (fun s => kernel
          ⟨rd junk "easting" (obs.map (·.x)) i, rd junk "northing" (obs.map (·.y)) i,
            rd junk "upward" (obs.map (·.z)) i⟩ s.1 s.2)).flatMap (accum i) := by
    funext i
    unfold magComponentLoop
    rw [List.flatMap_def, List.flatMap_def]
    congr 1
    refine (range_map_eq srcs _ (fun s => accum i (kernel
          ⟨rd junk "easting" (obs.map (·.x)) i, rd junk "northing" (obs.map (·.y)) i,
            rd junk "upward" (obs.map (·.z)) i⟩ s.1 s.2)) ?_).trans (by simp)
    intro j hj
    have h1 := rd_map junk "mag_e" (fun p : V3 => p.x) (srcs.map (·.2)) j (by simpa using hj)
    have h2 := rd_map junk "mag_n" (fun p : V3 => p.y) (srcs.map (·.2)) j (by simpa using hj)
    have h3 := rd_map junk "mag_u" (fun p : V3 => p.z) (srcs.map (·.2)) j (by simpa using hj)
    simp only [h1, h2, h3, List.getElem_map, hsrc j hj]
  intro out
  have hout := accum_result obs k (fun i => srcs.map (fun s => kernel
          ⟨rd junk "easting" (obs.map (·.x)) i, rd junk "northing" (obs.map (·.y)) i,
            rd junk "upward" (obs.map (·.z)) i⟩ s.1 s.2)) mode hm
      (by intro i hi; simpa using hk) (total (fun q s => kernel q s.1 s.2) srcs) (by
        intro i hi
        rw [rd_map junk _ _ obs i hi, rd_map junk _ _ obs i hi, rd_map junk _ _ obs i hi]; rfl)
  have hout' : out = run mode obs.length (fun i => (srcs.map (fun s => kernel
          ⟨rd junk "easting" (obs.map (·.x)) i, rd junk "northing" (obs.map (·.y)) i,
            rd junk "upward" (obs.map (·.z)) i⟩ s.1 s.2)).flatMap (accum i)) 0 (fun _ => 0) := by
    simp only [out, hprog, List.length_map]
  rw [← hout'] at hout
  have : (List.range obs.length).map (fun i => out i * 1e9)
      = ((List.range obs.length).map out).map (· * 1e9) := by simp
  rw [this, hout, List.map_map]; rfl

theorem magCompute_eq {S : Type} (junk : Junk) (mode : Mode) (K : MagKernels S) (shape : List ℕ)
    (obs : List P3) (hshape : shape.prod = obs.length) (srcs : List (S × V3)) (src : ℕ → S)
    (hsrc : ∀ j (hj : j < srcs.length), src j = srcs[j].1) (k : ℕ) (hk : 6 * srcs.length ≤ k)
    (hm : mode.Full obs.length k) (field : String) (hf : field ∈ ["b", "b_e", "b_n", "b_u"]) :
    magCompute junk mode K shape (obs.map (·.x)) (obs.map (·.y)) (obs.map (·.z)) srcs.length src
        ((srcs.map (·.2)).map (·.x)) ((srcs.map (·.2)).map (·.y)) ((srcs.map (·.2)).map (·.z)) field
      = magSpec K shape obs srcs field := by
  unfold magCompute magSpec
  rw [← show (1e9 : ℝ) = 10 ^ 9 by norm_num]
  simp only [List.mem_cons, List.not_mem_nil, or_false] at hf
  by_cases hb : field = "b"
  · obtain ⟨h0, h1, h2⟩ := magVectorLoop_result junk K.field mode obs srcs src hsrc k hk hm
    simp only [hb, if_true, hshape, h0, h1, h2]
  · have hc := fun kk => magComponentLoop_result junk kk mode obs srcs src hsrc k (by omega) hm
    simp only [List.map_map, List.length_map] at hc
    rcases hf with rfl | rfl | rfl | rfl
    · exact absurd rfl hb
    all_goals simp [hshape, hc, magComponents, List.lookup]

open Classical in
/-- prisms that are kept by the magnetic forward model -/
noncomputable def keepMag (s : Prism × V3) : Bool :=
  !(zeroVolume s.1 || (decide (s.2.x = 0) && decide (s.2.y = 0) && decide (s.2.z = 0)))

theorem andBroadcast_map {α : Type} (l : List α) (f g : α → Bool) :
    andBroadcast (l.map f) (l.map g) = .ok (l.map fun a => f a && g a) := by
  simp [andBroadcast, List.zip_map']

theorem discardNullPrismsMag_eq (srcs : List (Prism × V3)) :
    discardNullPrismsMag (srcs.map (·.1)) ((srcs.map (·.2)).map (·.x)) ((srcs.map (·.2)).map (·.y))
        ((srcs.map (·.2)).map (·.z)) =
      .ok ((srcs.filter keepMag).map (·.1), ((srcs.filter keepMag).map (·.2)).map (·.x),
        ((srcs.filter keepMag).map (·.2)).map (·.y),
        ((srcs.filter keepMag).map (·.2)).map (·.z)) := by
  unfold discardNullPrismsMag
  simp only [List.map_map, andBroadcast_map, maskSetTrue_map, bind, Except.bind]
  rw [maskIndex_map]
  simp only
  rw [maskIndex_map]
  simp only
  rw [maskIndex_map]
  simp only
  rw [maskIndex_map]
  rfl

/-- General form of `dipole_magnetic` on well-formed inputs. -/
theorem dipoleMagnetic_eq (junk : Junk) (mode : Mode) (K : MagKernels P3) (shape ps : List ℕ)
    (obs : List P3) (hshape : shape.prod = obs.length) (srcs : List (P3 × V3))
    (hm : mode.Full obs.length (6 * srcs.length)) (field : String) (disableChecks : Bool) :
    dipoleMagnetic junk mode K (arrays shape obs) (arrays ps (srcs.map (·.1)))
        [(srcs.map (·.2)).map (·.x), (srcs.map (·.2)).map (·.y), (srcs.map (·.2)).map (·.z)]
        field disableChecks = magSpec K shape obs srcs field := by
  unfold dipoleMagnetic
  by_cases hf : field ∈ ["b", "b_e", "b_n", "b_u"]
  · rw [npBroadcast_arrays]
    have h := magCompute_eq junk mode K shape obs hshape srcs
      (fun j => ⟨rd junk "easting_p" ((srcs.map (·.1)).map (·.x)) j,
        rd junk "northing_p" ((srcs.map (·.1)).map (·.y)) j,
        rd junk "upward_p" ((srcs.map (·.1)).map (·.z)) j⟩) (by
          intro j hj
          have hj' : j < (srcs.map (·.1)).length := by simpa using hj
          rw [rd_map junk _ _ _ j hj', rd_map junk _ _ _ j hj', rd_map junk _ _ _ j hj']
          simp) _ (le_refl _) hm field hf
    simp only [arrays, bind, Except.bind]
    simp only [hf, not_true_eq_false, if_false, List.length_cons, List.length_nil, List.headD_cons,
      List.length_map, ne_eq, decide_false, Bool.and_false]
    simpa using h
  · have : magSpec K shape obs srcs field = .error .ValueError := by
      simp only [List.mem_cons, List.not_mem_nil, or_false, not_or] at hf
      simp [magSpec, hf]
    rw [this]
    simp only [hf, not_false_eq_true, if_true]; rfl

open Classical in
/-- General form of `prism_magnetic` on well-formed inputs. -/
theorem prismMagnetic_eq (junk : Junk) (mode : Mode) (K : MagKernels Prism) (shape : List ℕ)
    (obs : List P3) (hshape : shape.prod = obs.length) (srcs : List (Prism × V3))
    (hm : mode.Full obs.length (6 * srcs.length)) (field : String) (disableChecks : Bool) :
    prismMagnetic junk mode K (arrays shape obs) (srcs.map (·.1))
        [(srcs.map (·.2)).map (·.x), (srcs.map (·.2)).map (·.y), (srcs.map (·.2)).map (·.z)]
        field disableChecks =
      if disableChecks = false ∧ ¬ ∀ s ∈ srcs, s.1.Ordered then .error .ValueError
      else magSpec K shape obs (srcs.filter keepMag) field := by
  unfold prismMagnetic
  by_cases hf : field ∈ ["b", "b_e", "b_n", "b_u"]
  · rw [npBroadcast_arrays]
    have h := magCompute_eq junk mode K shape obs hshape (srcs.filter keepMag)
      (fun j => ((srcs.filter keepMag).map (·.1)).getD j nullPrism) (by
          intro j hj
          simp [hj]) _ (by
            have := List.length_filter_le keepMag srcs
            show 6 * (srcs.filter keepMag).length ≤ 6 * srcs.length
            omega) hm field hf
    have hchk : checkPrisms (srcs.map (·.1)) =
        if ∀ s ∈ srcs, s.1.Ordered then .ok () else .error .ValueError := by
      rw [checkPrisms_eq]
      congr 1
      exact propext ⟨fun h s hs => h s.1 (List.mem_map_of_mem hs), fun h p hp => by
        obtain ⟨s, hs, rfl⟩ := List.mem_map.1 hp; exact h s hs⟩
    simp only [arrays, bind, Except.bind, discardNullPrismsMag_eq]
    simp only [hf, not_true_eq_false, if_false, List.length_cons, List.length_nil, List.headD_cons,
      List.length_map, ne_eq, decide_false, Bool.and_false, h]
    by_cases hP : ∀ s ∈ srcs, s.1.Ordered
    · rw [if_pos hP] at hchk
      rw [if_neg (show ¬ (disableChecks = false ∧ ¬ ∀ s ∈ srcs, s.1.Ordered) from fun h => h.2 hP)]
      cases disableChecks <;> simp [hchk]
    · rw [if_neg hP] at hchk
      cases disableChecks
      · rw [if_pos (show false = false ∧ ¬ ∀ s ∈ srcs, s.1.Ordered from ⟨rfl, hP⟩)]; simp [hchk]
      · rw [if_neg (show ¬ (true = false ∧ ¬ ∀ s ∈ srcs, s.1.Ordered) from fun h => by simp at h)]
        simp
  · have : magSpec K shape obs (srcs.filter keepMag) field = .error .ValueError := by
      simp only [List.mem_cons, List.not_mem_nil, or_false, not_or] at hf
      simp [magSpec, hf]
    rw [this, ite_self]
    simp only [hf, not_false_eq_true, if_true]; rfl

end Verif.Forward
