import Verif.Ellipsoids.PropsD
import Verif.Ellipsoids.Props

/-!
C70: the exceptions of the setters, and the body that the forward models see of an object.
C08: coordinates of different sizes.
-/

namespace Verif.Ellipsoids
open Verif.Forward Verif.Distance

/-- C70: what the setters of the semiaxes raise: TypeError for values that cannot be compared with
zero, ValueError for numbers that are zero or negative and for arrays, unless they have one element
that is positive or not a number. -/
theorem C70_semiaxis_exceptions (o : Obj) (attr : Attr) (h : attr = .a ∨ attr = .b ∨ attr = .c)
    (v : PyVal) :
    ((o.assign attr v).2 = some .TypeError ↔ v = .none ∨ (∃ s, v = .seq s) ∨ v = .other) ∧
    ((o.assign attr v).2 = some .ValueError ↔ (∃ x ≤ 0, v = .real (some x)) ∨
      ∃ shape data, v = .array shape data ∧ data ≠ [none] ∧ ∀ x > 0, data ≠ [some x]) ∧
    ((o.assign attr v).2 = none ∨ (o.assign attr v).2 = some .TypeError ∨
      (o.assign attr v).2 = some .ValueError) := by
  have key : (o.assign attr v).2 = match checkPositiveSemiaxis v with
      | .ok _ => none
      | .error e => some e := by
    rcases h with rfl | rfl | rfl <;> unfold Obj.assign <;> cases checkPositiveSemiaxis v <;> rfl
  rw [key]
  cases v with
  | none => simp [checkPositiveSemiaxis]
  | seq s => simp [checkPositiveSemiaxis]
  | other => simp [checkPositiveSemiaxis]
  | real x =>
    cases x with
    | none => simp [checkPositiveSemiaxis, nonPositive]
    | some x => by_cases hx : x ≤ 0 <;> simp [checkPositiveSemiaxis, nonPositive, hx]
  | array shape data =>
    rcases data with _ | ⟨x, _ | ⟨y, l⟩⟩
    · simp [checkPositiveSemiaxis]
    · cases x with
      | none => simp [checkPositiveSemiaxis, nonPositive]
      | some x =>
        by_cases hx : x ≤ 0
        · simp [checkPositiveSemiaxis, nonPositive, hx]
          intro y hy h
          subst h
          exact absurd hx (not_le.2 hy)
        · simp [checkPositiveSemiaxis, nonPositive, hx]
          exact not_le.1 hx
    · simp [checkPositiveSemiaxis]

open Classical in
/-- C70: what the other setters raise: an array (or a sequence, for the remanence) of a wrong shape
raises ValueError, a value of another type TypeError; a sequence that is no array raises what numpy
raises. -/
theorem C70_property_exceptions (o : Obj) (v : PyVal) :
    ((o.assign .density v).2 = none ∨ (o.assign .density v).2 = some .TypeError) ∧
    (∀ e, (o.assign .susceptibility v).2 = some e →
      e = if ∃ shape data, v = .array shape data then .ValueError else .TypeError) ∧
    (∀ e, (o.assign .remanent_mag v).2 = some e → v ≠ .seq (.error e) →
      e = if (∃ shape data, v = .array shape data) ∨ ∃ s, v = .seq s then .ValueError else .TypeError) := by
  refine ⟨?_, ?_, ?_⟩
  · cases v <;> simp [Obj.assign, castDensity]
  · intro e
    cases v with
    | array shape data =>
      by_cases hs : shape = [3, 3] <;> simp [Obj.assign, castSusceptibilityValue, hs, eq_comm]
    | _ => simp [Obj.assign, castSusceptibilityValue, eq_comm]
  · intro e
    cases v with
    | array shape data =>
      by_cases hs : shape = [3] <;> simp [Obj.assign, castRemanentValue, checkRemanent, hs, eq_comm]
    | seq asarray =>
      rcases asarray with e' | ⟨shape, data⟩
      · simp [Obj.assign, castRemanentValue, Py.bind_error]
        intro h h'
        exact absurd h h'
      · by_cases hs : shape = [3] <;>
          simp [Obj.assign, castRemanentValue, checkRemanent, Py.bind_ok, hs, eq_comm]
    | _ => simp [Obj.assign, castRemanentValue, checkRemanent, eq_comm]

/-- A vector, a matrix and optional values as a user writes them. -/
def vectorSeq (v : V3) : PyVal := .seq (.ok ([3], [some (v 0), some (v 1), some (v 2)]))

/-- A matrix as an array. -/
def matrixArray (t : M3) : PyVal :=
  .array [3, 3] [some (t 0 0), some (t 0 1), some (t 0 2), some (t 1 0), some (t 1 1), some (t 1 2),
    some (t 2 0), some (t 2 1), some (t 2 2)]

/-- A susceptibility as an argument. -/
def susceptibilityArg : Option Susceptibility → PyVal
  | none => .none
  | some (.scalar x) => .real (some x)
  | some (.tensor t) => matrixArray t

/-- C70: with positive semiaxes and numbers the construction succeeds, and the forward models see the
body with the given values. -/
theorem C70_view (e : Ellipsoid) (ha : 0 < e.a) (hb : 0 < e.b) (hc : 0 < e.c) :
    ∃ o, construct (.real (some e.a)) (.real (some e.b)) (.real (some e.c)) (.real (some e.yaw))
        (.real (some e.pitch)) (.real (some e.roll)) (vectorSeq e.center)
        (e.density.elim .none fun x => .real (some x)) (susceptibilityArg e.susceptibility)
        (e.remanent_mag.elim .none vectorSeq) = .ok o ∧
      o.view = some e := by
  have hv : ∀ v : V3, ![v 0, v 1, v 2] = v := by
    intro v; ext i; fin_cases i <;> rfl
  have hm : ∀ t : M3, !![t 0 0, t 0 1, t 0 2; t 1 0, t 1 1, t 1 2; t 2 0, t 2 1, t 2 2] = t := by
    intro t; ext i j; fin_cases i <;> fin_cases j <;> rfl
  have h1 : ∀ x : ℝ, 0 < x → checkPositiveSemiaxis (.real (some x)) = .ok () := by
    intro x hx
    simp [checkPositiveSemiaxis, nonPositive, hx]
  have h2 : ∀ d : Option ℝ, castDensity (d.elim .none fun x => .real (some x)) =
      .ok (d.elim .none fun x => .real (some x)) := by rintro (_ | d) <;> rfl
  have h3 : ∀ s, castSusceptibilityValue (susceptibilityArg s) = .ok (susceptibilityArg s) := by
    rintro (_ | (x | t)) <;> rfl
  have h4 : ∀ r : Option V3, castRemanentValue (r.elim .none vectorSeq) =
      .ok (r.elim .none fun v => .array [3] [some (v 0), some (v 1), some (v 2)]) := by
    rintro (_ | r) <;> rfl
  refine ⟨⟨.real (some e.a), .real (some e.b), .real (some e.c), .real (some e.yaw),
    .real (some e.pitch), .real (some e.roll), vectorSeq e.center,
    e.density.elim .none fun x => .real (some x), susceptibilityArg e.susceptibility,
    e.remanent_mag.elim .none fun v => .array [3] [some (v 0), some (v 1), some (v 2)]⟩, ?_, ?_⟩
  · unfold construct
    rw [h1 _ ha, h1 _ hb, h1 _ hc, h2, h3, h4]
    rfl
  · have g1 : ∀ d : Option ℝ, (d.elim .none fun x => .real (some x) : PyVal).optional PyVal.number =
        some d := by rintro (_ | d) <;> rfl
    have g2 : ∀ s, (susceptibilityArg s).optional PyVal.susceptibilityValue = some s := by
      rintro (_ | (x | t))
      · rfl
      · rfl
      · show some (some (Susceptibility.tensor _)) = _
        rw [hm]
    have g3 : ∀ r : Option V3, (r.elim .none fun v => .array [3] [some (v 0), some (v 1), some (v 2)] :
        PyVal).optional PyVal.vector = some r := by
      rintro (_ | r)
      · rfl
      · show some (some _) = _
        rw [hv]
    have g4 : (vectorSeq e.center).vector = some e.center := by
      show some _ = _
      rw [hv]
    unfold Obj.view
    simp only [PyVal.number, g1, g2, g3, g4, Option.bind_eq_bind, Option.bind_some, Option.pure_def]

theorem vstack_sizes {x y z : List ℝ} (h : ¬(x.length = y.length ∧ x.length = z.length)) :
    vstack x y z = .error .ValueError := by
  unfold vstack; rw [if_neg h]

/-- C08: coordinates of different sizes raise ValueError, even when their shapes broadcast, if there
is a body to compute (for a single body or several). -/
theorem C08_sizes_ellipsoid_gravity (coordinates : NdArray × NdArray × NdArray) (bodies : Bodies)
    (hb : ∃ e ∈ bodies.toList, e.density ≠ none)
    (h : ¬(coordinates.1.data.length = coordinates.2.1.data.length ∧
      coordinates.1.data.length = coordinates.2.2.data.length)) :
    ellipsoidGravity coordinates bodies = .error .ValueError := by
  have hone : ∀ (e : Ellipsoid) d, gravityOne (.error .ValueError) e d = .error .ValueError := by
    intro e d
    obtain ⟨P, a, b, c, hP, -⟩ := C63_sorted e
    simp [gravityOne, hP, Py.bind_ok, Py.bind_error]
  have hloop : ∀ (l : List Ellipsoid) init, (∃ e ∈ l, e.density ≠ none) →
      gravityLoop (.error .ValueError) l init = .error .ValueError := by
    intro l
    induction l with
    | nil => rintro _ ⟨e, he, -⟩; cases he
    | cons x l ih =>
      intro init hl
      unfold gravityLoop
      rw [List.foldlM_cons]
      cases hx : x.density with
      | some d => simp only [hone, Py.bind_error]
      | none =>
        simp only [Py.bind_ok]
        refine ih _ ?_
        obtain ⟨e, he, hd⟩ := hl
        rcases List.mem_cons.1 he with rfl | he
        · exact absurd hx hd
        · exact ⟨e, he, hd⟩
  unfold ellipsoidGravity
  simp only [vstack_sizes h]
  rcases hn : npBroadcast coordinates.1 coordinates.2.1 coordinates.2.2 with e | shape
  · unfold npBroadcast at hn
    split at hn
    · cases hn; rfl
    · cases hn
  · simp only [Py.bind_ok, hloop _ _ hb, Py.bind_error]

/-- C08, the same for `ellipsoid_magnetic`. -/
theorem C08_sizes_ellipsoid_magnetic (mu0 : ℝ) (coordinates : NdArray × NdArray × NdArray)
    (bodies : Bodies) (B0 : V3)
    (hb : ∃ e ∈ bodies.toList, e.susceptibility ≠ none ∨ e.remanent_mag ≠ none)
    (h : ¬(coordinates.1.data.length = coordinates.2.1.data.length ∧
      coordinates.1.data.length = coordinates.2.2.data.length)) :
    ellipsoidMagnetic mu0 coordinates bodies B0 = .error .ValueError := by
  have hloop : ∀ (H : V3) (l : List Ellipsoid) init,
      (∃ e ∈ l, e.susceptibility ≠ none ∨ e.remanent_mag ≠ none) →
      magneticLoop mu0 (.error .ValueError) H l init = .error .ValueError := by
    intro H l
    induction l with
    | nil => rintro _ ⟨e, he, -⟩; cases he
    | cons x l ih =>
      intro init hl
      unfold magneticLoop
      rw [List.foldlM_cons]
      cases hx : x.susceptibility with
      | some d => simp only [singleEllipsoidMagnetic, Py.bind_error]
      | none =>
        cases hy : x.remanent_mag with
        | some r => simp only [singleEllipsoidMagnetic, Py.bind_error]
        | none =>
          simp only [Py.bind_ok]
          refine ih _ ?_
          obtain ⟨e, he, hd⟩ := hl
          rcases List.mem_cons.1 he with rfl | he
          · simp [hx, hy] at hd
          · exact ⟨e, he, hd⟩
  unfold ellipsoidMagnetic
  simp only [vstack_sizes h]
  rcases hn : npBroadcast coordinates.1 coordinates.2.1 coordinates.2.2 with e | shape
  · unfold npBroadcast at hn
    split at hn
    · cases hn; rfl
    · cases hn
  · simp only [Py.bind_ok, hloop _ _ _ hb, Py.bind_error]

theorem reshape_size {data : List ℝ} {shape : List ℕ} (h : shape.prod ≠ data.length) :
    reshape data shape = .error .ValueError := by
  unfold reshape
  rw [if_neg (Ne.symm h)]

/-- C08: coordinates of the same size whose shapes broadcast to another one, such as (2, 1), (1, 2) and (2,),
raise ValueError. -/
theorem C08_shapes_ellipsoid_gravity (pts : List P3) (s1 s2 s3 : List ℕ) (bodies : Bodies)
    (hb : ∀ e ∈ bodies.toList, e.Valid)
    (h : ∀ shape, npBroadcast ⟨s1, pts.map (·.x)⟩ ⟨s2, pts.map (·.y)⟩ ⟨s3, pts.map (·.z)⟩ = .ok shape →
      shape.prod ≠ pts.length) :
    ellipsoidGravity (⟨s1, pts.map (·.x)⟩, ⟨s2, pts.map (·.y)⟩, ⟨s3, pts.map (·.z)⟩) bodies =
      .error .ValueError := by
  obtain ⟨field, hf⟩ := fields_exist
  unfold ellipsoidGravity
  dsimp only
  rcases hn : npBroadcast ⟨s1, pts.map (·.x)⟩ ⟨s2, pts.map (·.y)⟩ ⟨s3, pts.map (·.z)⟩ with e | shape
  · rw [hn]
    unfold npBroadcast at hn
    split at hn
    · cases hn; rfl
    · cases hn
  rw [hn]
  have h1 := gravityLoop_eq (pts.map vec) bodies.toList field
    (fun e he d hd => (hf e (hb e he)).1 _ d hd) (fun e he => (hf e (hb e he)).2.1) 0 0
  have h2 : List.replicate (pts.map (·.x)).length (0 : V3) = (pts.map vec).map (0 : V3 → V3) := by
    rw [show (0 : V3 → V3) = fun _ => 0 from rfl, List.map_const']
    simp
  simp only [Py.bind_ok, vstack_arrays]
  rw [h2, h1]
  simp only [Py.bind_ok]
  rw [reshape_size (by simpa using h shape hn), Py.bind_error]

/-- C08, the same for `ellipsoid_magnetic`. -/
theorem C08_shapes_ellipsoid_magnetic (mu0 : ℝ) (pts : List P3) (s1 s2 s3 : List ℕ) (bodies : Bodies)
    (B0 : V3) (hb : ∀ e ∈ bodies.toList, e.Valid ∧ e.Passive)
    (h : ∀ shape, npBroadcast ⟨s1, pts.map (·.x)⟩ ⟨s2, pts.map (·.y)⟩ ⟨s3, pts.map (·.z)⟩ = .ok shape →
      shape.prod ≠ pts.length) :
    ellipsoidMagnetic mu0 (⟨s1, pts.map (·.x)⟩, ⟨s2, pts.map (·.y)⟩, ⟨s3, pts.map (·.z)⟩) bodies B0 =
      .error .ValueError := by
  obtain ⟨field, hf⟩ := magneticFields_exist mu0 ((B0 * fun _ => (1e-9 : ℝ)) / (fun _ => mu0))
  unfold ellipsoidMagnetic
  dsimp only
  rcases hn : npBroadcast ⟨s1, pts.map (·.x)⟩ ⟨s2, pts.map (·.y)⟩ ⟨s3, pts.map (·.z)⟩ with e | shape
  · rw [hn]
    unfold npBroadcast at hn
    split at hn
    · cases hn; rfl
    · cases hn
  rw [hn]
  have h1 := magneticLoop_eq mu0 _ (pts.map vec) bodies.toList field
    (fun e he hd => (hf e (hb e he).1 (hb e he).2).1 hd _)
    (fun e he => (hf e (hb e he).1 (hb e he).2).2.1) 0 0
  have h2 : List.replicate (pts.map (·.x)).length (0 : V3) = (pts.map vec).map (0 : V3 → V3) := by
    rw [show (0 : V3 → V3) = fun _ => 0 from rfl, List.map_const']
    simp
  simp only [Py.bind_ok, vstack_arrays]
  rw [h2, h1]
  simp only [Py.bind_ok]
  rw [reshape_size (by simpa using h shape hn), Py.bind_error]

/-- Shapes (2, 1), (1, 2) and (2,) broadcast to four points, and there are two. -/
example (p q : P3) : ∀ shape,
    npBroadcast ⟨[2, 1], [p, q].map (·.x)⟩ ⟨[1, 2], [p, q].map (·.y)⟩ ⟨[2], [p, q].map (·.z)⟩ = .ok shape →
      shape.prod ≠ [p, q].length := by
  intro shape h
  have : npBroadcast ⟨[2, 1], [p, q].map (·.x)⟩ ⟨[1, 2], [p, q].map (·.y)⟩ ⟨[2], [p, q].map (·.z)⟩ =
      .ok [2, 2] := rfl
  rw [this] at h
  injection h with h
  rw [← h]
  simp

/-- A body with a tensor as susceptibility. -/
example : ∃ o, construct (.real (some 3)) (.real (some 2)) (.real (some 1)) (.real (some 0))
    (.real (some 0)) (.real (some 0)) (vectorSeq 0) (.real (some 2670)) (matrixArray 1) .none = .ok o ∧
    o.view = some ⟨3, 2, 1, 0, 0, 0, 0, some 2670, some (.tensor 1), none⟩ :=
  C70_view ⟨3, 2, 1, 0, 0, 0, 0, some 2670, some (.tensor 1), none⟩ (by norm_num) (by norm_num)
    (by norm_num)

/-- Two eastings and one northing and height: the shapes broadcast, the sizes differ. -/
example (e : Ellipsoid) (he : e.density = some 1) :
    ellipsoidGravity (⟨[2], [0, 1]⟩, ⟨[1], [0]⟩, ⟨[1], [100]⟩) (.one e) = .error .ValueError :=
  C08_sizes_ellipsoid_gravity _ _ ⟨e, by simp [Bodies.toList], by simp [he]⟩ (by simp)

end Verif.Ellipsoids
