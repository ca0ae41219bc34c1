import Verif.Layers.ModelE
import Verif.Layers.Props

/-! C156: layers and the arrays they were made from. -/

namespace Verif.Layers

/-! ### Specification -/

/-- The operation only uses the first `n` arrays of the memory (those of the program itself, not those that layers
made for themselves). -/
def Op.Uses (n : ℕ) : Op → Prop
  | .write a _ => a < n
  | .make _ _ _ a b props => a < n ∧ b < n ∧ ∀ p ∈ props, p.2 < n
  | .update _ a b => a < n ∧ b < n

/-- C156: whatever a program does with its arrays after making layers, the layers show the same. -/
def C156_full : Prop :=
  ∀ (heap : Heap) (ops writes : List Op), (∀ op ∈ ops, op.Uses heap.length) →
    (∀ op ∈ writes, op.Uses heap.length ∧ ∃ a v, op = .write a v) →
    ∀ l ∈ (Session.run ⟨heap, []⟩ ops).layers,
      l.read ((Session.run ⟨heap, []⟩ ops).run writes).heap = l.read (Session.run ⟨heap, []⟩ ops).heap

/-! ### Lemmas -/

/-- Layers have arrays of their own as top and bottom, and arrays of the program as properties. -/
structure Good (n : ℕ) (s : Session) : Prop where
  len : n ≤ s.heap.length
  own : ∀ l ∈ s.layers, n ≤ l.top ∧ l.top < s.heap.length ∧ n ≤ l.bottom ∧ l.bottom < s.heap.length
  vars : ∀ l ∈ s.layers, ∀ p ∈ l.vars, p.2 < n
  grid : ∀ l ∈ s.layers, checkRegularGrid l.easting l.northing = .ok () ∧
    ∀ p ∈ l.vars, (s.heap[p.2]?).map Arr.shape = some (layerShape l.easting l.northing)

theorem updateTopBottom_fresh {shape : List ℕ} {heap heap' : Heap} {a b t bt : ℕ}
    (h : updateTopBottom shape heap a b = .ok (heap', t, bt)) :
    (∀ i < heap.length, heap'[i]? = heap[i]?) ∧ heap.length ≤ t ∧ heap.length ≤ bt ∧ t < heap'.length ∧
      bt < heap'.length ∧ heap.length ≤ heap'.length := by
  obtain ⟨h1, h2, h3, h4⟩ := C19_inputs_untouched shape heap heap' a b t bt h
  cases hS : heap[a]? with
  | none => simp [updateTopBottom, hS] at h
  | some S =>
    cases hR : heap[b]? with
    | none => simp [updateTopBottom, hS, hR] at h
    | some R =>
      by_cases hs : S.shape = shape
      swap
      · simp [updateTopBottom, hS, hR, hs] at h
      by_cases hr : R.shape = [] ∨ R.shape = shape
      swap
      · rw [not_or] at hr
        simp [updateTopBottom, hS, hR, hs, hr] at h
      obtain ⟨heap'', t', bt', R1, h', -, -, -, -, ht, hb⟩ := updateTopBottom_ok shape heap a b S R hS hR hs hr
      rw [h'] at h
      cases h
      have l1 := (List.getElem?_eq_some_iff.1 ht).1
      have l2 := (List.getElem?_eq_some_iff.1 hb).1
      exact ⟨h1, h2, h3, l1, l2, by omega⟩

theorem makeRef_fresh {ov : Bool} {heap heap' : Heap} {e n : List ℝ} {a b : ℕ} {props : List (String × ℕ)}
    {l : LayerRef} (h : makeRef ov heap e n a b props = .ok (heap', l)) :
    updateTopBottom (layerShape e n) heap a b = .ok (heap', l.top, l.bottom) ∧ l.vars = props ∧ l.easting = e ∧
      l.northing = n ∧ checkRegularGrid e n = .ok () ∧
      ∀ p ∈ props, (heap[p.2]?).map Arr.shape = some (layerShape e n) := by
  unfold makeRef at h
  simp only [bind, Except.bind, pure, Except.pure, throw, throwThe, MonadExceptOf.throw] at h
  split_ifs at h with hany
  all_goals
    have hp : ∀ p ∈ props, (heap[p.2]?).map Arr.shape = some (layerShape e n) := by
      intro p hp
      by_contra h0
      exact hany (List.any_eq_true.2 ⟨p, hp, by simpa using h0⟩)
    cases h1 : checkRegularGrid e n with
    | error x => simp [h1] at h
    | ok u =>
      simp only [h1] at h
      first
        | (cases h2 : checkOverlap e with
          | error x => simp [h2] at h
          | ok u2 =>
            simp only [h2] at h
            cases h3 : updateTopBottom (layerShape e n) heap a b with
            | error x => simp [h3] at h
            | ok r =>
              simp only [h3] at h
              cases h
              exact ⟨rfl, rfl, rfl, rfl, rfl, hp⟩)
        | (cases h3 : updateTopBottom (layerShape e n) heap a b with
          | error x => simp [h3] at h
          | ok r =>
            simp only [h3] at h
            cases h
            exact ⟨rfl, rfl, rfl, rfl, rfl, hp⟩)

theorem update_fresh {heap heap' : Heap} {l l' : LayerRef} {a b : ℕ} (h : l.update heap a b = .ok (heap', l')) :
    updateTopBottom (layerShape l.easting l.northing) heap a b = .ok (heap', l'.top, l'.bottom) ∧ l'.vars = l.vars ∧
      l'.easting = l.easting ∧ l'.northing = l.northing := by
  unfold LayerRef.update at h
  simp only [bind, Except.bind, pure, Except.pure] at h
  cases h3 : updateTopBottom (layerShape l.easting l.northing) heap a b with
  | error x => simp [h3] at h
  | ok r =>
    simp only [h3] at h
    cases h
    exact ⟨rfl, rfl, rfl, rfl⟩

theorem step_good {n : ℕ} {s : Session} (hs : Good n s) {op : Op} (hu : op.Uses n) : Good n (s.step op) := by
  cases op with
  | write a v =>
    simp only [Session.step]
    split
    · split_ifs
      · rename_i old hold hkind
        refine ⟨by simpa using hs.len, by simpa using hs.own, hs.vars, fun l hl => ⟨(hs.grid l hl).1, fun p hp => ?_⟩⟩
        have := (hs.grid l hl).2 p hp
        simp only
        by_cases h : a = p.2
        · subst h
          rw [List.getElem?_set_self (List.getElem?_eq_some_iff.1 hold).1]
          rw [hold] at this
          simpa [hkind.2] using this
        · rwa [List.getElem?_set_ne h]
      · exact hs
    · exact hs
  | make ov e nn a b props =>
    simp only [Session.step]
    split
    · rename_i heap l h
      obtain ⟨h1, h2, h3, h4, h5, h6⟩ := makeRef_fresh h
      obtain ⟨f1, f2, f3, f4, f5, f6⟩ := updateTopBottom_fresh h1
      have := hs.len
      refine ⟨by simp only; omega, fun l' hl' => ?_, fun l' hl' p hp => ?_, fun l' hl' => ?_⟩
      · rcases List.mem_append.1 hl' with hl' | hl'
        · have := hs.own l' hl'
          simp only
          omega
        · rw [List.mem_singleton] at hl'
          subst hl'
          simp only
          omega
      · rcases List.mem_append.1 hl' with hl' | hl'
        · exact hs.vars l' hl' p hp
        · rw [List.mem_singleton] at hl'
          subst hl'
          rw [h2] at hp
          exact hu.2.2 p hp
      · rcases List.mem_append.1 hl' with hl' | hl'
        · refine ⟨(hs.grid l' hl').1, fun p hp => ?_⟩
          rw [← (hs.grid l' hl').2 p hp, f1 _ ((hs.vars l' hl' p hp).trans_le hs.len)]
        · rw [List.mem_singleton] at hl'
          subst hl'
          rw [h2, h3, h4]
          refine ⟨h5, fun p hp => ?_⟩
          rw [← h6 p hp, f1 _ ((hu.2.2 p hp).trans_le hs.len)]
    · exact hs
  | update i a b =>
    simp only [Session.step]
    split
    · exact hs
    · rename_i l hl
      split
      · rename_i heap l' h
        obtain ⟨h1, h2, h3, h4⟩ := update_fresh h
        obtain ⟨f1, f2, f3, f4, f5, f6⟩ := updateTopBottom_fresh h1
        have := hs.len
        refine ⟨by simp only; omega, fun l'' hl' => ?_, fun l'' hl' p hp => ?_, fun l'' hl' => ?_⟩
        · rcases List.mem_or_eq_of_mem_set hl' with hl' | hl'
          · have := hs.own l'' hl'
            simp only
            omega
          · subst hl'
            simp only
            omega
        · rcases List.mem_or_eq_of_mem_set hl' with hl' | hl'
          · exact hs.vars l'' hl' p hp
          · subst hl'
            rw [h2] at hp
            exact hs.vars l (List.mem_of_getElem? hl) p hp
        · rcases List.mem_or_eq_of_mem_set hl' with hl' | hl'
          · refine ⟨(hs.grid l'' hl').1, fun p hp => ?_⟩
            rw [← (hs.grid l'' hl').2 p hp, f1 _ ((hs.vars l'' hl' p hp).trans_le hs.len)]
          · subst hl'
            have hm := List.mem_of_getElem? hl
            rw [h2, h3, h4]
            refine ⟨(hs.grid l hm).1, fun p hp => ?_⟩
            rw [← (hs.grid l hm).2 p hp, f1 _ ((hs.vars l hm p hp).trans_le hs.len)]
      · exact hs

theorem run_good {n : ℕ} (ops : List Op) : ∀ {s : Session}, Good n s → (∀ op ∈ ops, op.Uses n) → Good n (s.run ops) := by
  induction ops with
  | nil => exact fun hs _ => hs
  | cons op ops ih =>
    intro s hs h
    exact ih (step_good hs (h op (by simp))) fun o ho => h o (by simp [ho])

theorem fresh_good (heap : Heap) : Good heap.length ⟨heap, []⟩ := ⟨le_rfl, by simp, by simp, by simp⟩

theorem read_congr {heap heap' : Heap} {l : LayerRef} (h1 : heap'[l.top]? = heap[l.top]?)
    (h2 : heap'[l.bottom]? = heap[l.bottom]?) (h3 : ∀ p ∈ l.vars, heap'[p.2]? = heap[p.2]?) :
    l.read heap' = l.read heap := by
  unfold LayerRef.read dataAt
  rw [h1, h2]
  congr 1
  apply List.map_congr_left
  intro p hp
  rw [h3 p hp]

/-! ### C156 -/

/-- C156: right after it was made, a layer shows the values of the arrays that were passed: it is the layer of `makeLayer`
(whose top, bottom and properties are the subject of C19, C20, C115 and others). -/
theorem C156_make (ov : Bool) (heap : Heap) (e n : List ℝ) (a b : ℕ) (props : List (String × ℕ))
    (arrs : List (String × Arr)) (hp : props.map (fun p => (p.1, heap[p.2]?)) = arrs.map fun p => (p.1, some p.2)) :
    makeLayer ov heap e n a b arrs = (makeRef ov heap e n a b props).map fun r => (r.1, r.2.read r.1) := by
  have hl : arrs.length = props.length := by
    have := congrArg List.length hp
    simpa using this.symm
  have hi : ∀ i (h1 : i < props.length) (h2 : i < arrs.length), arrs[i].1 = props[i].1 ∧
      heap[props[i].2]? = some arrs[i].2 := by
    intro i h1 h2
    have := congrArg (fun l => l[i]?) hp
    simp only [List.getElem?_map, List.getElem?_eq_getElem h1, List.getElem?_eq_getElem h2, Option.map_some,
      Option.some.injEq, Prod.mk.injEq] at this
    exact ⟨this.1.symm, this.2⟩
  have hany : arrs.any (fun p => p.2.shape ≠ layerShape e n) =
      props.any (fun p => (heap[p.2]?).map Arr.shape ≠ some (layerShape e n)) := by
    rw [Bool.eq_iff_iff, List.any_eq_true, List.any_eq_true]
    constructor
    · rintro ⟨p, hpm, h⟩
      obtain ⟨i, h2, rfl⟩ := List.mem_iff_getElem.1 hpm
      refine ⟨props[i]'(by omega), List.getElem_mem _, ?_⟩
      rw [(hi i (by omega) h2).2]
      simpa using h
    · rintro ⟨p, hpm, h⟩
      obtain ⟨i, h1, rfl⟩ := List.mem_iff_getElem.1 hpm
      refine ⟨arrs[i]'(by omega), List.getElem_mem _, ?_⟩
      rw [(hi i h1 (by omega)).2] at h
      simpa using h
  unfold makeLayer makeRef
  rw [hany]
  simp only [bind, Except.bind, pure, Except.pure, throw, throwThe, MonadExceptOf.throw]
  have key : ∀ r, updateTopBottom (layerShape e n) heap a b = .ok r → ∃ top bottom, r.1[r.2.1]? = some top ∧
      r.1[r.2.2]? = some bottom ∧
      (⟨e, n, top.data, bottom.data, arrs.map fun p => (p.1, p.2.data)⟩ : Layer) =
        (⟨e, n, r.2.1, r.2.2, props⟩ : LayerRef).read r.1 := by
    intro r h
    obtain ⟨f1, f2, f3, f4, f5, f6⟩ := updateTopBottom_fresh (heap' := r.1) (t := r.2.1) (bt := r.2.2) h
    refine ⟨_, _, List.getElem?_eq_getElem f4, List.getElem?_eq_getElem f5, ?_⟩
    simp only [LayerRef.read, dataAt, List.getElem?_eq_getElem f4, List.getElem?_eq_getElem f5,
      Option.map_some, Option.getD_some]
    congr 1
    refine List.ext_getElem (by simpa using hl) fun i h1 h2 => ?_
    simp only [List.length_map] at h1 h2
    obtain ⟨g1, g2⟩ := hi i h2 h1
    have hlt := (List.getElem?_eq_some_iff.1 g2).1
    simp only [List.getElem_map, g1]
    rw [f1 _ hlt, g2]
    rfl
  have fin : ∀ r, updateTopBottom (layerShape e n) heap a b = .ok r →
      (match r.1[r.2.1]?, r.1[r.2.2]? with
        | some top, some bottom => .ok (r.1, (⟨e, n, top.data, bottom.data, arrs.map fun p => (p.1, p.2.data)⟩ : Layer))
        | _, _ => .error .IndexError : Py (Heap × Layer)) =
      .ok (r.1, (⟨e, n, r.2.1, r.2.2, props⟩ : LayerRef).read r.1) := by
    intro r h
    obtain ⟨top, bottom, k1, k2, k3⟩ := key r h
    simp only [k1, k2, k3]
  split_ifs
  · rfl
  · cases h1 : checkRegularGrid e n with
    | error x => rfl
    | ok u =>
      cases h2 : checkOverlap e with
      | error x => rfl
      | ok u2 =>
        cases h3 : updateTopBottom (layerShape e n) heap a b with
        | error x => rfl
        | ok r => exact fin r h3
  · cases h1 : checkRegularGrid e n with
    | error x => rfl
    | ok u =>
      cases h3 : updateTopBottom (layerShape e n) heap a b with
      | error x => rfl
      | ok r => exact fin r h3

/-- C156, partial: whatever a program writes into its arrays after making (and updating) any number of layers, also
into the surfaces and references that layers were made from, a layer shows the same if none of its properties is
written. Missing: the properties (see `C156_shared`). -/
theorem C156_heights_partial (heap : Heap) (ops writes : List Op) (ho : ∀ op ∈ ops, op.Uses heap.length)
    (hw : ∀ op ∈ writes, op.Uses heap.length ∧ ∃ a v, op = .write a v) (l : LayerRef)
    (hl : l ∈ (Session.run ⟨heap, []⟩ ops).layers) (hv : ∀ p ∈ l.vars, ∀ v, Op.write p.2 v ∉ writes) :
    l.read ((Session.run ⟨heap, []⟩ ops).run writes).heap = l.read (Session.run ⟨heap, []⟩ ops).heap := by
  have hg := run_good ops (fresh_good heap) ho
  have : ∀ (writes : List Op) (s : Session), (∀ op ∈ writes, op.Uses heap.length ∧ ∃ a v, op = .write a v) →
      (∀ p ∈ l.vars, ∀ v, Op.write p.2 v ∉ writes) → Good heap.length s → l ∈ s.layers →
      l.read (s.run writes).heap = l.read s.heap := by
    intro writes
    induction writes with
    | nil => intro s _ _ _ _; rfl
    | cons op writes ih =>
      intro s hw hv hs hl
      obtain ⟨hu, a, v, rfl⟩ := hw op (by simp)
      have hl' : l ∈ (s.step (.write a v)).layers := by
        simp only [Session.step]
        split
        · split_ifs <;> exact hl
        · exact hl
      refine (ih (s.step (.write a v)) (fun o h => hw o (by simp [h])) (fun p hp v h => hv p hp v (by simp [h]))
        (step_good hs hu) hl').trans ?_
      have ha : a < heap.length := hu
      have hown := hs.own l hl
      have hne : ∀ i, i ≠ a → (s.step (.write a v)).heap[i]? = s.heap[i]? := by
        intro i hi
        simp only [Session.step]
        split
        · split_ifs
          · exact List.getElem?_set_ne (Ne.symm hi)
          · rfl
        · rfl
      refine read_congr (hne _ (by omega)) (hne _ (by omega)) fun p hp => hne _ ?_
      rintro rfl
      exact hv p hp v (by simp)
  exact this writes _ hw hv hg hl

/-- C156: a layer shares the arrays of its properties with the program. What is written into one of them (with the same
dtype and shape) is from then on the property of every layer that was made with it; nothing else of the layers
changes. -/
theorem C156_shared (heap : Heap) (ops : List Op) (ho : ∀ op ∈ ops, op.Uses heap.length) (a : ℕ) (old v : Arr)
    (ha : a < heap.length) (hold : (Session.run ⟨heap, []⟩ ops).heap[a]? = some old)
    (hv : v.kind = old.kind ∧ v.shape = old.shape) (l : LayerRef) (hl : l ∈ (Session.run ⟨heap, []⟩ ops).layers) :
    let before := l.read (Session.run ⟨heap, []⟩ ops).heap
    let after := l.read ((Session.run ⟨heap, []⟩ ops).step (.write a v)).heap
    after = { before with vars := l.vars.map fun p =>
      (p.1, if p.2 = a then v.data else dataAt (Session.run ⟨heap, []⟩ ops).heap p.2) } := by
  have hg := run_good ops (fresh_good heap) ho
  have hown := hg.own l hl
  intro before after
  simp only [before, after, Session.step, hold, if_pos hv, LayerRef.read, dataAt]
  rw [List.getElem?_set_ne (by omega), List.getElem?_set_ne (by omega)]
  congr 1
  apply List.map_congr_left
  intro p hp
  by_cases h : p.2 = a
  · rw [if_pos h, h, List.getElem?_set_self (List.getElem?_eq_some_iff.1 hold).1]
    rfl
  · rw [if_neg h, List.getElem?_set_ne (Ne.symm h)]

/-- C156: updating a layer is making it again. After any history, `update_top_bottom` of a layer with new arrays raises
if and only if making a layer with the same coordinates, these arrays and the same properties raises, and otherwise
puts what this would make in the place of the layer. No other layer changes what it shows, and no array of the program
changes. -/
theorem C156_update (heap : Heap) (ops : List Op) (ho : ∀ op ∈ ops, op.Uses heap.length) (i : ℕ) (l : LayerRef)
    (hl : (Session.run ⟨heap, []⟩ ops).layers[i]? = some l) (a b : ℕ) (ov : Bool)
    (hov : ov = true → checkOverlap l.easting = .ok ()) :
    let s := Session.run ⟨heap, []⟩ ops
    let s' := s.step (.update i a b)
    (s' = match makeRef ov s.heap l.easting l.northing a b l.vars with
      | .ok (heap', l') => ⟨heap', s.layers.set i l'⟩
      | .error _ => s) ∧
    (∀ k < heap.length, s'.heap[k]? = s.heap[k]?) ∧
    ∀ j l', j ≠ i → s.layers[j]? = some l' → s'.layers[j]? = some l' ∧ l'.read s'.heap = l'.read s.heap := by
  intro s s'
  have hg : Good heap.length s := run_good ops (fresh_good heap) ho
  have hmem : l ∈ s.layers := List.mem_of_getElem? hl
  have hi := (List.getElem?_eq_some_iff.1 hl).1
  have hany : l.vars.any (fun p => (s.heap[p.2]?).map Arr.shape ≠ some (layerShape l.easting l.northing)) = false := by
    rw [List.any_eq_false]
    intro p hp
    simpa using (hg.grid l hmem).2 p hp
  have hmake : makeRef ov s.heap l.easting l.northing a b l.vars = l.update s.heap a b := by
    unfold makeRef LayerRef.update
    rw [hany, (hg.grid l hmem).1]
    cases ov with
    | false => rfl
    | true =>
      rw [hov rfl]
      rfl
  rw [hmake]
  cases h : l.update s.heap a b with
  | error x =>
    have hs' : s' = s := by
      simp only [s', Session.step]
      rw [hl]
      simp only [h]
    rw [hs']
    exact ⟨rfl, fun _ _ => rfl, fun j l' _ hj => ⟨hj, rfl⟩⟩
  | ok r =>
    obtain ⟨heap', l'⟩ := r
    have hs' : s' = ⟨heap', s.layers.set i l'⟩ := by
      simp only [s', Session.step]
      rw [hl]
      simp only [h]
    obtain ⟨f1, f2, f3, f4, f5, f6⟩ := updateTopBottom_fresh (update_fresh h).1
    rw [hs']
    refine ⟨rfl, fun k hk => f1 k (hk.trans_le hg.len), fun j l' hj hjl => ⟨?_, ?_⟩⟩
    · simp only
      rw [List.getElem?_set_ne (Ne.symm hj)]
      exact hjl
    · have hm := List.mem_of_getElem? hjl
      have hown := hg.own l' hm
      exact read_congr (f1 _ hown.2.1) (f1 _ hown.2.2.2) fun p hp => f1 _ ((hg.vars l' hm p hp).trans_le hg.len)

/-! ### A layer of 2 by 2 elements -/

/-- Surface, reference and density of a layer. -/
noncomputable def threeArrays : Heap :=
  [⟨.float, [2, 2], [some 1, some 2, some 3, some 4]⟩, ⟨.float, [], [some 0]⟩,
    ⟨.float, [2, 2], [some 10, some 20, some 30, some 40]⟩]

noncomputable def makeThree : Op := .make false [0, 1] [0, 1] 0 1 [("density", 2)]

theorem three_layer : ∃ l, (Session.run ⟨threeArrays, []⟩ [makeThree]).layers = [l] ∧ l.vars = [("density", 2)] ∧
    (Session.run ⟨threeArrays, []⟩ [makeThree]).heap[2]? =
      some ⟨.float, [2, 2], [some 10, some 20, some 30, some 40]⟩ := by
  have hreg : checkRegularGrid ([0, 1] : List ℝ) [0, 1] = .ok () := by
    have : evenlySpaced ([0, 1] : List ℝ) = .ok true := by
      simp only [evenlySpaced, Except.ok.injEq, decide_eq_true_eq]
      intro i x hx y hy
      match i, hx, hy with
      | 0, hx, hy =>
        simp only [List.getElem?_cons_zero, List.getElem?_cons_succ, Option.mem_def, Option.some.injEq, zero_add] at hx hy
        subst hx hy
        norm_num
      | k + 1, hx, hy => simp at hy
    simp [checkRegularGrid, this, bind, Except.bind, pure, Except.pure]
  obtain ⟨heap', t, bt, R1, h, f1, -, -, -, -, -⟩ := updateTopBottom_ok [2, 2] threeArrays 0 1 _ _ rfl rfl rfl (.inl rfl)
  have hm : makeRef false threeArrays [0, 1] [0, 1] 0 1 [("density", 2)] =
      .ok (heap', ⟨[0, 1], [0, 1], t, bt, [("density", 2)]⟩) := by
    unfold makeRef
    rw [hreg, if_neg (by simp [threeArrays, layerShape])]
    have hsh : layerShape ([0, 1] : List ℝ) [0, 1] = [2, 2] := rfl
    rw [hsh]
    simp only [bind, Except.bind, pure, Except.pure, h]
    rfl
  refine ⟨⟨[0, 1], [0, 1], t, bt, [("density", 2)]⟩, ?_, rfl, ?_⟩
  · simp [Session.run, makeThree, Session.step, hm]
  · simp only [Session.run, makeThree, List.foldl_cons, List.foldl_nil, Session.step, hm]
    exact f1 2 (by simp [threeArrays])

/-- C156_heights_partial: writing other heights into the surface does not change the layer. -/
example (v : Arr) : ∃ l ∈ (Session.run ⟨threeArrays, []⟩ [makeThree]).layers,
    l.read ((Session.run ⟨threeArrays, []⟩ [makeThree]).run [.write 0 v]).heap =
      l.read (Session.run ⟨threeArrays, []⟩ [makeThree]).heap := by
  obtain ⟨l, h1, h2, -⟩ := three_layer
  refine ⟨l, by simp [h1], C156_heights_partial _ _ _ (by simp [makeThree, Op.Uses, threeArrays]) ?_ l (by simp [h1]) ?_⟩
  · simp [Op.Uses, threeArrays]
  · simp [h2]

/-- C156_update: updating that layer with its own density as surface. -/
example (l : LayerRef) (hl : (Session.run ⟨threeArrays, []⟩ [makeThree]).layers = [l]) :=
  C156_update threeArrays [makeThree] (by simp [makeThree, Op.Uses, threeArrays]) 0 l (by simp [hl]) 2 1 false (by simp)

/-- C156_make: that layer. -/
example := C156_make false threeArrays [0, 1] [0, 1] 0 1 [("density", 2)]
  [("density", ⟨.float, [2, 2], [some 10, some 20, some 30, some 40]⟩)] rfl

/-- C156 is false: writing into the array of densities changes the densities of the layer. -/
theorem C156_not_full : ¬ C156_full := by
  intro h
  obtain ⟨l, h1, h2, h3⟩ := three_layer
  have hu : ∀ op ∈ [makeThree], op.Uses threeArrays.length := by simp [makeThree, Op.Uses, threeArrays]
  have hl : l ∈ (Session.run ⟨threeArrays, []⟩ [makeThree]).layers := by simp [h1]
  have e1 := h threeArrays [makeThree] [.write 2 ⟨.float, [2, 2], [some 11, some 20, some 30, some 40]⟩] hu
    (by simp [Op.Uses, threeArrays]) l hl
  have e2 := C156_shared threeArrays [makeThree] hu 2 _ ⟨.float, [2, 2], [some 11, some 20, some 30, some 40]⟩
    (by simp [threeArrays]) h3 ⟨rfl, rfl⟩ l hl
  have e3 := congrArg Layer.vars (e2.symm.trans e1)
  simp [LayerRef.read, h2, dataAt, h3] at e3

end Verif.Layers
