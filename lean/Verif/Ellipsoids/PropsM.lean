import Verif.Ellipsoids.ObjectB
import Verif.Ellipsoids.PropsD

/-!
C138: the attributes of an `Ellipsoid` do not change when the program goes on using, and writing into, the
arrays and lists that it passed.
-/

namespace Verif.Ellipsoids

/-! ### Lemmas -/

theorem storeRef_prefix (mem : List Cell) (attr : Attr) (v : Ref) :
    (storeRef mem attr v).1 = mem ∨ ∃ x, (storeRef mem attr v).1 = mem ++ [x] := by
  unfold storeRef
  split
  · exact .inr ⟨_, rfl⟩
  · exact .inl rfl

theorem prefix_get {mem mem' : List Cell} (h : mem' = mem ∨ ∃ x, mem' = mem ++ [x]) {a : ℕ} {y : Cell}
    (hy : mem[a]? = some y) : mem'[a]? = some y := by
  rcases h with rfl | ⟨x, rfl⟩
  · exact hy
  · rw [List.getElem?_append_left (List.getElem?_eq_some_iff.1 hy).1, hy]

/-- a cell keeps its value in an event other than a write to it, and its kind in all events -/
theorem step_get (w : RefWorld) (ev : RefEvent) {a : ℕ} {y : Cell} (hy : w.mem[a]? = some y) :
    (∃ y', (w.step ev).mem[a]? = some y' ∧ (y' = y ∨ y.sameKind y' = true)) ∧
    ((a ∈ w.hidden ∨ ∀ x, ev ≠ .write a x) → (w.step ev).mem[a]? = some y) ∧
    (a ∈ w.hidden → a ∈ (w.step ev).hidden) := by
  cases ev with
  | new x =>
    have := prefix_get (.inr ⟨x, rfl⟩) hy
    exact ⟨⟨y, this, .inl rfl⟩, fun _ => this, fun h => h⟩
  | assign attr v =>
    simp only [RefWorld.step]
    split
    · exact ⟨⟨y, hy, .inl rfl⟩, fun _ => hy, fun h => h⟩
    · have := prefix_get (storeRef_prefix w.mem attr v) hy
      exact ⟨⟨y, this, .inl rfl⟩, fun _ => this, fun h => List.mem_append_left _ h⟩
  | write b x =>
    simp only [RefWorld.step]
    split
    · exact ⟨⟨y, hy, .inl rfl⟩, fun _ => hy, fun h => h⟩
    case isFalse hb =>
      rw [not_or] at hb
      by_cases hab : b = a
      · subst hab
        refine ⟨⟨x, ?_, .inr ?_⟩, fun h => ?_, fun h => h⟩
        · simp only [List.getElem?_set_self (List.getElem?_eq_some_iff.1 hy).1]
        · have := hb.2
          rw [hy] at this
          simpa using this
        · rcases h with h | h
          · exact absurd h hb.1
          · exact absurd rfl (h x)
      · have : (w.mem.set b x)[a]? = some y := by rw [List.getElem?_set_ne hab, hy]
        exact ⟨⟨y, this, .inl rfl⟩, fun _ => this, fun h => h⟩

theorem later_get (later : List RefEvent) (w : RefWorld) {a : ℕ} {y : Cell} (hy : w.mem[a]? = some y)
    (h : a ∈ w.hidden ∨ ∀ x, RefEvent.write a x ∉ later) :
    (later.foldl RefWorld.step w).mem[a]? = some y := by
  induction later generalizing w with
  | nil => exact hy
  | cons ev later ih =>
    obtain ⟨-, h1, h2⟩ := step_get w ev hy
    refine ih (w.step ev) (h1 ?_) ?_
    · exact h.imp id fun h x hx => h x (hx ▸ List.mem_cons_self)
    · exact h.imp h2 fun h x hx => h x (List.mem_cons_of_mem _ hx)

theorem later_attr (later : List RefEvent) (w : RefWorld) (attr : Attr)
    (h : ∀ v, RefEvent.assign attr v ∉ later) :
    (later.foldl RefWorld.step w).obj attr = w.obj attr := by
  induction later generalizing w with
  | nil => rfl
  | cons ev later ih =>
    rw [List.foldl_cons, ih (w.step ev) fun v hv => h v (List.mem_cons_of_mem _ hv)]
    cases ev with
    | new x => rfl
    | write a x =>
      simp only [RefWorld.step]
      split <;> rfl
    | assign attr' v =>
      simp only [RefWorld.step]
      split
      · rfl
      · refine Function.update_of_ne (fun h' => ?_) _ _
        subst h'
        exact h v List.mem_cons_self

theorem read_get (mem : List Cell) (o : RefObj) (attr : Attr) :
    (RefObj.read mem o).get attr = (o attr).read mem := by cases attr <;> rfl

/-- the value that is read after an assignment that does not raise -/
theorem assign_get (o : Obj) (attr : Attr) (v : PyVal) (h : (o.assign attr v).2 = none) :
    (∀ x, attr = .remanent_mag → v = .seq (.ok x) → (o.assign attr v).1.get attr = .array x.1 x.2) ∧
    ((attr ≠ .remanent_mag ∨ ∀ x, v ≠ .seq (.ok x)) → (o.assign attr v).1.get attr = v) := by
  cases attr
  case remanent_mag =>
    unfold Obj.assign at h ⊢
    simp only at h ⊢
    cases hc : castRemanentValue v with
    | error e => rw [hc] at h; cases h
    | ok u =>
      simp only [Obj.get]
      refine ⟨?_, ?_⟩
      · rintro x - rfl
        exact (checkRemanent_ok (v := .array x.1 x.2) hc).1
      · intro h'
        have hv : ∀ x, v ≠ .seq (.ok x) := h'.resolve_left fun h => h rfl
        cases v with
        | seq asarray =>
          cases asarray with
          | error e => cases hc
          | ok x => exact absurd rfl (hv x)
        | none => exact (checkRemanent_ok (v := .none) hc).1
        | real x => exact (checkRemanent_ok (v := .real x) hc).1
        | array s d => exact (checkRemanent_ok (v := .array s d) hc).1
        | other => exact (checkRemanent_ok (v := .other) hc).1
  case density =>
    unfold Obj.assign at h ⊢
    simp only at h ⊢
    cases hc : castDensity v with
    | error e => rw [hc] at h; cases h
    | ok u => exact ⟨fun x hx => (by cases hx), fun _ => (castDensity_ok hc).1⟩
  case susceptibility =>
    unfold Obj.assign at h ⊢
    simp only at h ⊢
    cases hc : castSusceptibilityValue v with
    | error e => rw [hc] at h; cases h
    | ok u => exact ⟨fun x hx => (by cases hx), fun _ => (castSusceptibility_ok hc).1⟩
  case a =>
    unfold Obj.assign at h ⊢
    simp only at h ⊢
    cases hc : checkPositiveSemiaxis v with
    | error e => rw [hc] at h; cases h
    | ok u => exact ⟨fun x hx => (by cases hx), fun _ => rfl⟩
  case b =>
    unfold Obj.assign at h ⊢
    simp only at h ⊢
    cases hc : checkPositiveSemiaxis v with
    | error e => rw [hc] at h; cases h
    | ok u => exact ⟨fun x hx => (by cases hx), fun _ => rfl⟩
  case c =>
    unfold Obj.assign at h ⊢
    simp only at h ⊢
    cases hc : checkPositiveSemiaxis v with
    | error e => rw [hc] at h; cases h
    | ok u => exact ⟨fun x hx => (by cases hx), fun _ => rfl⟩
  all_goals exact ⟨fun x hx => (by cases hx), fun _ => rfl⟩

/-- what a setter stores, read later -/
theorem store_later (mem : List Cell) (attr : Attr) (v : Ref) (w : RefWorld)
    (hmem : w.mem = (storeRef mem attr v).1) (hobj : w.obj attr = (storeRef mem attr v).2)
    (hhid : ∀ a ∈ newAddr mem (storeRef mem attr v).1, a ∈ w.hidden)
    (hv : ∀ a, v = .addr a → a < mem.length) (later : List RefEvent)
    (hassign : ∀ u, RefEvent.assign attr u ∉ later)
    (hsafe : ∀ a, v = .addr a → (attr = .remanent_mag ∧ ∃ l, mem[a]? = some (.list l)) ∨
      ∀ x, RefEvent.write a x ∉ later) (o : Obj) (h : (o.assign attr (v.read mem)).2 = none) :
    ((later.foldl RefWorld.step w).obj attr).read (later.foldl RefWorld.step w).mem =
      (o.assign attr (v.read mem)).1.get attr := by
  obtain ⟨g1, g2⟩ := assign_get o attr (v.read mem) h
  rw [later_attr later w attr hassign, hobj]
  by_cases hs : ∃ x, attr = .remanent_mag ∧ v.read mem = .seq (.ok x)
  · obtain ⟨x, rfl, hx⟩ := hs
    have hst : storeRef mem .remanent_mag v = (mem ++ [.array x.1 x.2], .addr mem.length) := by
      unfold storeRef
      rw [hx]
    rw [g1 x rfl hx, hst]
    rw [hst] at hmem hhid
    have := later_get later w (a := mem.length) (y := .array x.1 x.2) (by rw [hmem]; simp)
      (.inl (hhid _ (by simp [newAddr])))
    simp only [Ref.read, this, Option.elim_some, Cell.val]
  · have hne : attr ≠ .remanent_mag ∨ ∀ x, v.read mem ≠ .seq (.ok x) := by
      by_cases ha : attr = .remanent_mag
      · exact .inr fun x hx => hs ⟨x, ha, hx⟩
      · exact .inl ha
    have hst : storeRef mem attr v = (mem, v) := by
      unfold storeRef
      split
      · rename_i x hx
        exact absurd ⟨x, rfl, hx⟩ hs
      · rfl
    rw [g2 hne, hst]
    rw [hst] at hmem
    cases v with
    | val u => rfl
    | addr a =>
      obtain ⟨y, hy⟩ : ∃ y, mem[a]? = some y := ⟨_, List.getElem?_eq_getElem (hv a rfl)⟩
      have := later_get later w (a := a) (y := y) (by rw [hmem]; exact hy) (.inr ?_)
      · simp only [Ref.read, this, hy]
      · rcases hsafe a rfl with ⟨h1, l, hl⟩ | h2
        · subst h1
          exfalso
          -- a list given as `remanent_mag` that numpy could not convert was refused
          have hr : Ref.read mem (.addr a) = .seq l := by simp only [Ref.read, hl]; rfl
          rw [hr] at h
          cases l with
          | error e => cases h
          | ok x => exact hs ⟨x, rfl, hr⟩
        · exact h2

/-! ### C138 -/

/-- C138: an attribute that was assigned keeps the value it was given until it is assigned again, whatever
else the program does, when that value was a number, None, a tuple or a list given as `remanent_mag`, or
an array or list that the program does not write to. Missing: arrays and lists that it does write to (see
`C138_not_full`). -/
theorem C138_assignment_partial (w : RefWorld) (attr : Attr) (v : Ref)
    (hv : ∀ a, v = .addr a → a < w.mem.length)
    (hok : ((RefObj.read w.mem w.obj).assign attr (v.read w.mem)).2 = none)
    (later : List RefEvent) (hassign : ∀ u, RefEvent.assign attr u ∉ later)
    (hsafe : ∀ a, v = .addr a → (attr = .remanent_mag ∧ ∃ l, w.mem[a]? = some (.list l)) ∨
      ∀ x, RefEvent.write a x ∉ later) :
    let w' := later.foldl RefWorld.step (w.step (.assign attr v))
    (RefObj.read w'.mem w'.obj).get attr =
      ((RefObj.read w.mem w.obj).assign attr (v.read w.mem)).1.get attr := by
  intro w'
  have hstep : w.step (.assign attr v) = ⟨(storeRef w.mem attr v).1,
      Function.update w.obj attr (storeRef w.mem attr v).2,
      w.hidden ++ newAddr w.mem (storeRef w.mem attr v).1⟩ := by
    simp only [RefWorld.step, hok]
  rw [read_get]
  refine store_later w.mem attr v (w.step (.assign attr v)) ?_ ?_ ?_ hv later hassign hsafe _ hok
  · rw [hstep]
  · rw [hstep]; exact Function.update_self ..
  · intro a ha
    rw [hstep]
    exact List.mem_append_right _ ha

/-- construction and assignment of the same value give the same attribute -/
theorem construct_assign {args : Attr → PyVal} {o : Obj}
    (h : construct (args .a) (args .b) (args .c) (args .yaw) (args .pitch) (args .roll) (args .center)
      (args .density) (args .susceptibility) (args .remanent_mag) = .ok o) (attr : Attr) :
    (o.assign attr (args attr)).2 = none ∧ (o.assign attr (args attr)).1.get attr = o.get attr := by
  unfold construct at h
  rcases ha : checkPositiveSemiaxis (args .a) with e | u <;> rw [ha] at h
  · cases h
  rcases hb : checkPositiveSemiaxis (args .b) with e | u <;> rw [hb] at h
  · cases h
  rcases hc : checkPositiveSemiaxis (args .c) with e | u <;> rw [hc] at h
  · cases h
  rcases hd : castDensity (args .density) with e | u <;> rw [hd] at h
  · cases h
  rcases hs : castSusceptibilityValue (args .susceptibility) with e | u <;> rw [hs] at h
  · cases h
  rcases hm : castRemanentValue (args .remanent_mag) with e | u <;> rw [hm] at h
  · cases h
  injection h with h
  subst h
  cases attr <;> simp only [Obj.assign, Obj.get, ha, hb, hc, hd, hs, hm, and_self]

/-- The attribute of an object that is constructed with arguments (given by their values). -/
theorem C138_construction_partial (mem : List Cell) (args : RefObj) (w : RefWorld)
    (h : constructRef mem args = .ok w) (attr : Attr) (hv : ∀ a, args attr = .addr a → a < mem.length)
    (later : List RefEvent) (hassign : ∀ u, RefEvent.assign attr u ∉ later)
    (hsafe : ∀ a, args attr = .addr a → (attr = .remanent_mag ∧ ∃ l, mem[a]? = some (.list l)) ∨
      ∀ x, RefEvent.write a x ∉ later) :
    let w' := later.foldl RefWorld.step w
    ∃ o, construct ((args .a).read mem) ((args .b).read mem) ((args .c).read mem)
        ((args .yaw).read mem) ((args .pitch).read mem) ((args .roll).read mem)
        ((args .center).read mem) ((args .density).read mem) ((args .susceptibility).read mem)
        ((args .remanent_mag).read mem) = .ok o ∧
      (RefObj.read w'.mem w'.obj).get attr = o.get attr := by
  intro w'
  unfold constructRef at h
  rcases ho : construct ((args .a).read mem) ((args .b).read mem) ((args .c).read mem)
    ((args .yaw).read mem) ((args .pitch).read mem) ((args .roll).read mem)
    ((args .center).read mem) ((args .density).read mem) ((args .susceptibility).read mem)
    ((args .remanent_mag).read mem) with e | o
  · rw [ho] at h; cases h
  rw [ho] at h
  injection h with h
  refine ⟨o, rfl, ?_⟩
  obtain ⟨k1, k2⟩ := construct_assign (args := fun attr => (args attr).read mem) ho attr
  rw [read_get, ← k2]
  by_cases hr : attr = .remanent_mag
  · subst hr
    refine store_later mem .remanent_mag (args .remanent_mag) w ?_ ?_ ?_ hv later hassign hsafe o k1
    · rw [← h]
    · rw [← h]; simp only [Function.update_self]
    · intro a ha
      rw [← h]
      exact ha
  · -- the other attributes hold the argument itself; the memory has at most one more array
    have g2 := (assign_get o attr ((args attr).read mem) k1).2 (.inl hr)
    rw [g2]
    change ((later.foldl RefWorld.step w).obj attr).read (later.foldl RefWorld.step w).mem = _
    rw [later_attr later w attr hassign, ← h]
    simp only [Function.update_of_ne hr]
    rcases hra : args attr with u | a
    · rfl
    · obtain ⟨y, hy⟩ : ∃ y, mem[a]? = some y := ⟨_, List.getElem?_eq_getElem (hv a hra)⟩
      have := later_get later w (a := a) (y := y)
        (by rw [← h]; exact prefix_get (storeRef_prefix ..) hy)
        (.inr ((hsafe a hra).resolve_left fun h' => hr h'.1))
      rw [← h] at this
      simp only [Ref.read, this, hy]

/-! ### validity -/

theorem sameKind_valid {y y' : Cell} (h : y' = y ∨ y.sameKind y' = true) :
    (ValidDensity y.val → ValidDensity y'.val) ∧
    (ValidSusceptibility y.val → ValidSusceptibility y'.val) ∧
    (ValidRemanence y.val → ValidRemanence y'.val) := by
  rcases h with rfl | h
  · exact ⟨id, id, id⟩
  · cases y <;> cases y' <;> simp only [Cell.sameKind, Bool.false_eq_true, decide_eq_true_eq] at h
    · subst h; exact ⟨id, id, id⟩
    · exact ⟨id, id, id⟩

/-- the physical properties have the documented types -/
def Valid (o : Obj) : Prop :=
  ValidDensity o.density ∧ ValidSusceptibility o.susceptibility ∧ ValidRemanence o.remanent_mag

theorem read_step (w : RefWorld) (ev : RefEvent) (r : Ref) :
    (ValidDensity (r.read w.mem) → ValidDensity (r.read (w.step ev).mem)) ∧
    (ValidSusceptibility (r.read w.mem) → ValidSusceptibility (r.read (w.step ev).mem)) ∧
    (ValidRemanence (r.read w.mem) → ValidRemanence (r.read (w.step ev).mem)) := by
  cases r with
  | val v => exact ⟨id, id, id⟩
  | addr a =>
    cases hy : w.mem[a]? with
    | none =>
      simp only [Ref.read, hy, Option.elim_none]
      exact ⟨False.elim, False.elim, False.elim⟩
    | some y =>
      obtain ⟨⟨y', h1, h2⟩, -⟩ := step_get w ev hy
      simp only [Ref.read, hy, h1, Option.elim_some]
      exact sameKind_valid h2

theorem read_prefix {mem mem' : List Cell} (h : mem' = mem ∨ ∃ x, mem' = mem ++ [x]) (r : Ref)
    {p : PyVal → Prop} (hp : ¬ p .other) (hr : p (r.read mem)) : r.read mem' = r.read mem := by
  cases r with
  | val v => rfl
  | addr a =>
    cases hy : mem[a]? with
    | none => simp only [Ref.read, hy, Option.elim_none] at hr; exact absurd hr hp
    | some y => simp only [Ref.read, hy, prefix_get h hy]

theorem storeRef_other (mem : List Cell) (attr : Attr) (v : Ref) (h : attr ≠ .remanent_mag) :
    storeRef mem attr v = (mem, v) := by
  unfold storeRef
  split
  · exact absurd rfl h
  · rfl

theorem storeRef_remanent (mem : List Cell) (v : Ref) {u : PyVal}
    (h : castRemanentValue (v.read mem) = .ok u) :
    ValidRemanence ((storeRef mem .remanent_mag v).2.read (storeRef mem .remanent_mag v).1) := by
  have hu := castRemanent_ok h
  cases hv : v.read mem with
  | seq asarray =>
    rw [hv] at h
    cases asarray with
    | error e => cases h
    | ok x =>
      have hst : storeRef mem .remanent_mag v = (mem ++ [.array x.1 x.2], .addr mem.length) := by
        unfold storeRef
        rw [hv]
      have : u = .array x.1 x.2 := (checkRemanent_ok (v := .array x.1 x.2) h).1
      rw [hst]
      simp only [Ref.read, List.getElem?_concat_length, Option.elim_some, Cell.val]
      rw [← this]; exact hu
  | _ =>
    have hst : storeRef mem .remanent_mag v = (mem, v) := by
      unfold storeRef
      split
      · rename_i x hx
        rw [hv] at hx
        cases hx
      · rfl
    rw [hst]
    simp only [hv]
    rw [hv] at h
    first
      | exact (checkRemanent_ok (v := .none) h).1 ▸ hu
      | exact (checkRemanent_ok (v := .real _) h).1 ▸ hu
      | exact (checkRemanent_ok (v := .array _ _) h).1 ▸ hu
      | exact (checkRemanent_ok (v := .other) h).1 ▸ hu

theorem valid_step (w : RefWorld) (ev : RefEvent) (h : Valid (RefObj.read w.mem w.obj)) :
    Valid (RefObj.read (w.step ev).mem (w.step ev).obj) := by
  obtain ⟨h1, h2, h3⟩ := h
  have hold : (w.step ev).obj = w.obj → Valid (RefObj.read (w.step ev).mem (w.step ev).obj) := by
    intro he
    rw [he]
    exact ⟨(read_step w ev _).1 h1, (read_step w ev _).2.1 h2, (read_step w ev _).2.2 h3⟩
  cases ev with
  | new x => exact hold rfl
  | write a x => exact hold (by simp only [RefWorld.step]; split <;> rfl)
  | assign attr v =>
    cases ho : ((RefObj.read w.mem w.obj).assign attr (v.read w.mem)).2 with
    | some e => exact hold (by simp only [RefWorld.step, ho])
    | none =>
      have hd := (read_step w (.assign attr v) (w.obj .density)).1 h1
      have hs := (read_step w (.assign attr v) (w.obj .susceptibility)).2.1 h2
      have hm := (read_step w (.assign attr v) (w.obj .remanent_mag)).2.2 h3
      simp only [RefWorld.step, ho] at hd hs hm ⊢
      by_cases e1 : attr = .density
      · subst e1
        rw [storeRef_other _ _ _ (by decide)] at hs hm ⊢
        refine ⟨?_, hs, hm⟩
        simp only [RefObj.read, Function.update_self]
        unfold Obj.assign at ho
        simp only at ho
        cases hc : castDensity (v.read w.mem) with
        | error e => rw [hc] at ho; cases ho
        | ok u => obtain ⟨q1, q2⟩ := castDensity_ok hc; rw [q1] at q2; exact q2
      by_cases e2 : attr = .susceptibility
      · subst e2
        rw [storeRef_other _ _ _ (by decide)] at hd hm ⊢
        refine ⟨hd, ?_, hm⟩
        simp only [RefObj.read, Function.update_self]
        unfold Obj.assign at ho
        simp only at ho
        cases hc : castSusceptibilityValue (v.read w.mem) with
        | error e => rw [hc] at ho; cases ho
        | ok u => obtain ⟨q1, q2⟩ := castSusceptibility_ok hc; rw [q1] at q2; exact q2
      by_cases e3 : attr = .remanent_mag
      · subst e3
        refine ⟨hd, hs, ?_⟩
        simp only [RefObj.read, Function.update_self]
        unfold Obj.assign at ho
        simp only at ho
        cases hc : castRemanentValue (v.read w.mem) with
        | error e => rw [hc] at ho; cases ho
        | ok u => exact storeRef_remanent w.mem v hc
      · refine ⟨?_, ?_, ?_⟩ <;> simp only [RefObj.read]
        · rw [Function.update_of_ne (Ne.symm e1)]; exact hd
        · rw [Function.update_of_ne (Ne.symm e2)]; exact hs
        · rw [Function.update_of_ne (Ne.symm e3)]; exact hm

/-- C138: whatever the program does with its arrays and lists and with the object, the density is a number or
None, the susceptibility a number, a (3, 3) array or None, and the remanent magnetization an array of
three elements or None. -/
theorem C138_types (mem : List Cell) (args : RefObj) (w : RefWorld) (h : constructRef mem args = .ok w)
    (later : List RefEvent) :
    let w' := later.foldl RefWorld.step w
    Valid (RefObj.read w'.mem w'.obj) := by
  intro w'
  have h0 : Valid (RefObj.read w.mem w.obj) := by
    unfold constructRef at h
    rcases ho : construct ((args .a).read mem) ((args .b).read mem) ((args .c).read mem)
      ((args .yaw).read mem) ((args .pitch).read mem) ((args .roll).read mem)
      ((args .center).read mem) ((args .density).read mem) ((args .susceptibility).read mem)
      ((args .remanent_mag).read mem) with e | o
    · rw [ho] at h; cases h
    have hk := construct_assign (args := fun attr => (args attr).read mem) ho
    rw [ho] at h
    injection h with h
    rw [← h]
    have kd := (hk .density).1
    have ks := (hk .susceptibility).1
    have km := (hk .remanent_mag).1
    unfold Obj.assign at kd ks km
    simp only at kd ks km
    refine ⟨?_, ?_, ?_⟩
    · simp only [RefObj.read, Function.update_of_ne (show Attr.density ≠ .remanent_mag by decide)]
      cases hc : castDensity ((args .density).read mem) with
      | error e => rw [hc] at kd; cases kd
      | ok u =>
        obtain ⟨q1, q2⟩ := castDensity_ok hc
        rw [q1] at q2
        rw [read_prefix (storeRef_prefix mem .remanent_mag _) (args .density) (p := ValidDensity) id q2]
        exact q2
    · simp only [RefObj.read, Function.update_of_ne (show Attr.susceptibility ≠ .remanent_mag by decide)]
      cases hc : castSusceptibilityValue ((args .susceptibility).read mem) with
      | error e => rw [hc] at ks; cases ks
      | ok u =>
        obtain ⟨q1, q2⟩ := castSusceptibility_ok hc
        rw [q1] at q2
        rw [read_prefix (storeRef_prefix mem .remanent_mag _) (args .susceptibility)
          (p := ValidSusceptibility) id q2]
        exact q2
    · simp only [RefObj.read, Function.update_self]
      cases hc : castRemanentValue ((args .remanent_mag).read mem) with
      | error e => rw [hc] at km; cases km
      | ok u => exact storeRef_remanent mem _ hc
  clear h
  induction later generalizing w with
  | nil => exact h0
  | cons ev later ih => exact ih (w.step ev) (valid_step w ev h0)

/-! ### arrays of the program inside of the object -/

/-- an ellipsoid with semiaxes 3, 2, 1 and the arguments given -/
noncomputable def exampleArgs (a center remanent_mag : Ref) : RefObj
  | .a => a
  | .b => .val (.real (some 2))
  | .c => .val (.real (some 1))
  | .center => center
  | .density => .val .none
  | .susceptibility => .val .none
  | .remanent_mag => remanent_mag
  | _ => .val (.real (some 0))

noncomputable def tuple3 (x y z : ℝ) : Ref := .val (.seq (.ok ([3], [some x, some y, some z])))

theorem constructRef_eq (mem : List Cell) (args : RefObj) {o : Obj}
    (h : construct ((args .a).read mem) ((args .b).read mem) ((args .c).read mem)
      ((args .yaw).read mem) ((args .pitch).read mem) ((args .roll).read mem)
      ((args .center).read mem) ((args .density).read mem) ((args .susceptibility).read mem)
      ((args .remanent_mag).read mem) = .ok o)
    (hs : storeRef mem .remanent_mag (args .remanent_mag) = (mem, args .remanent_mag)) :
    constructRef mem args = .ok ⟨mem, args, []⟩ := by
  unfold constructRef
  rw [h, hs]
  simp only [Function.update_eq_self]
  simp [newAddr]

/-- The full C138 is false: the remanent magnetization of an object is the array of the program, so that the
program changes it from (1, 2, 3) to (0, 0, 0) without an assignment. -/
theorem C138_not_full :
    let m := Cell.array [3] [some 1, some 2, some 3]
    let zero := Cell.array [3] [some 0, some 0, some 0]
    ∃ w, constructRef [m] (exampleArgs (.val (.real (some 3))) (tuple3 0 0 0) (.addr 0)) = .ok w ∧
      (RefObj.read w.mem w.obj).remanent_mag = m.val ∧
      (RefObj.read (w.step (.write 0 zero)).mem (w.step (.write 0 zero)).obj).remanent_mag = zero.val := by
  intro m zero
  refine ⟨⟨[m], exampleArgs (.val (.real (some 3))) (tuple3 0 0 0) (.addr 0), []⟩,
    constructRef_eq _ _ (o := RefObj.read [m] (exampleArgs (.val (.real (some 3))) (tuple3 0 0 0) (.addr 0)))
      ?_ rfl, rfl, ?_⟩
  · simp [RefObj.read, exampleArgs, tuple3, Ref.read, construct, checkPositiveSemiaxis, nonPositive,
      castDensity, castSusceptibilityValue, castRemanentValue, checkRemanent, m, Cell.val]
    rw [if_neg (by norm_num), if_neg (by norm_num), if_neg (by norm_num)]
    rfl
  · simp [RefWorld.step, m, zero, Cell.sameKind, RefObj.read, exampleArgs, Ref.read]

/-- The same with a list given as `center`. -/
theorem C138_center :
    let c := Cell.list (.ok ([3], [some 1, some 2, some 3]))
    let c' := Cell.list (.ok ([3], [some 1, some 2, some 50]))
    ∃ w, constructRef [c] (exampleArgs (.val (.real (some 3))) (.addr 0) (.val .none)) = .ok w ∧
      (RefObj.read w.mem w.obj).center = c.val ∧
      (RefObj.read (w.step (.write 0 c')).mem (w.step (.write 0 c')).obj).center = c'.val := by
  intro c c'
  refine ⟨⟨[c], exampleArgs (.val (.real (some 3))) (.addr 0) (.val .none), []⟩,
    constructRef_eq _ _ (o := RefObj.read [c] (exampleArgs (.val (.real (some 3))) (.addr 0) (.val .none)))
      ?_ rfl, rfl, ?_⟩
  · simp [RefObj.read, exampleArgs, Ref.read, construct, checkPositiveSemiaxis, nonPositive,
      castDensity, castSusceptibilityValue, castRemanentValue, checkRemanent, c, Cell.val]
    rw [if_neg (by norm_num), if_neg (by norm_num), if_neg (by norm_num)]
    rfl
  · simp [RefWorld.step, c, c', Cell.sameKind, RefObj.read, exampleArgs, Ref.read]

/-- With an array of one element as a semiaxis, which the constructor accepts, the program gives the object a
negative semiaxis, which the setter would have refused. -/
theorem C138_negative_semiaxis :
    let x := Cell.array [1] [some 3]
    let x' := Cell.array [1] [some (-3)]
    ∃ w, constructRef [x] (exampleArgs (.addr 0) (tuple3 0 0 0) (.val .none)) = .ok w ∧
      (RefObj.read (w.step (.write 0 x')).mem (w.step (.write 0 x')).obj).a = x'.val ∧
      ¬ AcceptedSemiaxis x'.val := by
  intro x x'
  refine ⟨⟨[x], exampleArgs (.addr 0) (tuple3 0 0 0) (.val .none), []⟩,
    constructRef_eq _ _ (o := RefObj.read [x] (exampleArgs (.addr 0) (tuple3 0 0 0) (.val .none)))
      ?_ rfl, ?_, ?_⟩
  · simp [RefObj.read, exampleArgs, tuple3, Ref.read, construct, checkPositiveSemiaxis, nonPositive,
      castDensity, castSusceptibilityValue, castRemanentValue, checkRemanent, x, Cell.val]
    rw [if_neg (by norm_num), if_neg (by norm_num), if_neg (by norm_num)]
    rfl
  · simp [RefWorld.step, x, x', Cell.sameKind, RefObj.read, exampleArgs, Ref.read]
  · simp only [x', Cell.val, AcceptedSemiaxis]
    intro h
    have := h (-3) rfl
    norm_num at this

/-! ### Examples -/

/-- the hypotheses of `C138_construction_partial` with a list as `remanent_mag`, which the program changes
afterwards: the object keeps (1, 2, 3) -/
example :
    let l := Cell.list (.ok ([3], [some 1, some 2, some 3]))
    let args := exampleArgs (.val (.real (some 3))) (tuple3 0 0 0) (.addr 0)
    ∃ w, constructRef [l] args = .ok w ∧
      (RefObj.read (w.step (.write 0 (.list (.ok ([0], []))))).mem
        (w.step (.write 0 (.list (.ok ([0], []))))).obj).remanent_mag =
        .array [3] [some 1, some 2, some 3] := by
  intro l args
  have hc : construct ((args .a).read [l]) ((args .b).read [l]) ((args .c).read [l])
      ((args .yaw).read [l]) ((args .pitch).read [l]) ((args .roll).read [l])
      ((args .center).read [l]) ((args .density).read [l]) ((args .susceptibility).read [l])
      ((args .remanent_mag).read [l]) = .ok ⟨.real (some 3), .real (some 2), .real (some 1),
        .real (some 0), .real (some 0), .real (some 0), .seq (.ok ([3], [some 0, some 0, some 0])),
        .none, .none, .array [3] [some 1, some 2, some 3]⟩ := by
    simp [args, exampleArgs, tuple3, Ref.read, construct, checkPositiveSemiaxis, nonPositive,
      castDensity, castSusceptibilityValue, castRemanentValue, checkRemanent, l, Cell.val]
    rw [if_neg (by norm_num), if_neg (by norm_num), if_neg (by norm_num)]
    rfl
  obtain ⟨w, hw⟩ : ∃ w, constructRef [l] args = .ok w := by
    unfold constructRef
    rw [hc]
    exact ⟨_, rfl⟩
  refine ⟨w, hw, ?_⟩
  obtain ⟨o, h1, h2⟩ := C138_construction_partial [l] args w hw .remanent_mag
    (by intro a ha; simp [args, exampleArgs] at ha; simp [← ha]) [.write 0 (.list (.ok ([0], [])))]
    (by simp) (by
      intro a ha
      simp [args, exampleArgs] at ha
      exact .inl ⟨rfl, _, by rw [← ha]; rfl⟩)
  rw [hc] at h1
  injection h1 with h1
  rw [← h1] at h2
  exact h2

/-- the hypotheses of `C138_assignment_partial` -/
example (w : RefWorld) : ((RefObj.read w.mem w.obj).assign .density ((Ref.val (.real (some 2))).read w.mem)).2
    = none := rfl

end Verif.Ellipsoids
