import Verif.Utils.ModelB
import Verif.Utils.Spec
import Mathlib.Tactic.FieldSimp
import Mathlib.Tactic.LinearCombination
import Mathlib.Data.List.Nodup

/-! C135: Airy's Moho for DataArrays. -/

namespace Verif.Utils

/-! ## Specification -/

/-- A point (a label for every dimension) belongs to a DataArray; every point belongs to a number. -/
def XVal.Has (v : XVal) (p : String → ℝ) : Prop := ∀ d ∈ v.dims, p d.1 ∈ d.2

/-- Operands as xarray makes them: the names of the dimensions are different; numbers have no dimensions. -/
def XVal.Valid (v : XVal) : Prop := (v.dims.map (·.1)).Nodup ∧ (v.array = false → v.dims = [])

/-- The labels that are common to two coordinates, in some order. -/
def IsInner (join : List ℝ → List ℝ → List ℝ) : Prop := ∀ a b x, x ∈ join a b ↔ x ∈ a ∧ x ∈ b

/-! ## Lemmas -/

private theorem lookup_some {α : Type} : ∀ (l : List (String × α)) (k : String) (v : α),
    l.lookup k = some v → (k, v) ∈ l
  | [], _, _, h => by simp at h
  | (k', v') :: l, k, v, h => by
    rw [List.lookup_cons] at h
    by_cases hk : k = k'
    · subst hk
      simp only [beq_self_eq_true, Option.some.injEq] at h
      subst h; simp
    · rw [beq_eq_false_iff_ne.2 hk] at h
      exact List.mem_cons_of_mem _ (lookup_some l k v h)

private theorem lookup_none {α : Type} : ∀ (l : List (String × α)) (k : String),
    l.lookup k = none ↔ k ∉ l.map (·.1)
  | [], _ => by simp
  | (k', v') :: l, k => by
    rw [List.lookup_cons]
    by_cases hk : k = k'
    · subst hk; simp
    · rw [beq_eq_false_iff_ne.2 hk]
      simp only [lookup_none l k, List.map_cons, List.mem_cons, hk, false_or]

private theorem lookup_mem {α : Type} : ∀ (l : List (String × α)), (l.map (·.1)).Nodup →
    ∀ d ∈ l, l.lookup d.1 = some d.2
  | [], _, _, h => by cases h
  | (k', v') :: l, hn, d, h => by
    simp only [List.map_cons, List.nodup_cons] at hn
    rw [List.lookup_cons]
    rcases List.mem_cons.1 h with h | h
    · subst h; simp
    · have hk : d.1 ≠ k' := fun hh => hn.1 (hh ▸ List.mem_map_of_mem h)
      rw [beq_eq_false_iff_ne.2 hk]
      exact lookup_mem l hn.2 d h

private theorem joinDims_has {join} (hj : IsInner join) (a b : List (String × List ℝ))
    (hb : (b.map (·.1)).Nodup) (p : String → ℝ) :
    (∀ d ∈ joinDims join a b, p d.1 ∈ d.2) ↔ (∀ d ∈ a, p d.1 ∈ d.2) ∧ ∀ d ∈ b, p d.1 ∈ d.2 := by
  unfold joinDims
  simp only [List.mem_append, List.mem_map, List.mem_filter]
  constructor
  · intro h
    have key : ∀ d ∈ a, p d.1 ∈ d.2 ∧ ∀ l, b.lookup d.1 = some l → p d.1 ∈ l := by
      intro d hd
      have := h _ (Or.inl ⟨d, hd, rfl⟩)
      unfold joinDim at this
      cases hl : b.lookup d.1 with
      | none => rw [hl] at this; exact ⟨this, fun l h => by cases h⟩
      | some l =>
        rw [hl] at this
        simp only at this
        split_ifs at this with he
        · exact ⟨this, fun l' h => by cases h; exact he ▸ this⟩
        · rw [hj] at this
          exact ⟨this.1, fun l' h => by cases h; exact this.2⟩
    refine ⟨fun d hd => (key d hd).1, fun d hd => ?_⟩
    cases hl : a.lookup d.1 with
    | none => exact h d (Or.inr ⟨hd, by rw [hl]; rfl⟩)
    | some l => exact (key _ (lookup_some _ _ _ hl)).2 d.2 (lookup_mem b hb d hd)
  · rintro ⟨h1, h2⟩ d (⟨d', hd', rfl⟩ | ⟨hd, -⟩)
    · unfold joinDim
      cases hl : b.lookup d'.1 with
      | none => exact h1 _ hd'
      | some l =>
        have hm := h2 _ (lookup_some _ _ _ hl)
        simp only
        split_ifs
        · exact h1 _ hd'
        · exact (hj _ _ _).2 ⟨h1 _ hd', hm⟩
    · exact h2 d hd

private theorem joinDims_names {join} (a b : List (String × List ℝ)) (ha : (a.map (·.1)).Nodup)
    (hb : (b.map (·.1)).Nodup) : ((joinDims join a b).map (·.1)).Nodup := by
  unfold joinDims
  rw [List.map_append, List.map_map]
  have e : ((fun d : String × List ℝ => d.1) ∘ joinDim join b) = fun d => d.1 := by
    funext d
    simp only [Function.comp, joinDim]
    cases b.lookup d.1 <;> rfl
  rw [e]
  refine List.Nodup.append ha (hb.sublist (List.filter_sublist.map _)) ?_
  intro k hk hk'
  obtain ⟨d, hd, rfl⟩ := List.mem_map.1 hk'
  obtain ⟨-, hn⟩ := List.mem_filter.1 hd
  rw [Option.isNone_iff_eq_none, lookup_none] at hn
  exact hn hk

private theorem op_valid {join f k} {a b : XVal} (ha : a.Valid) (hb : b.Valid) : (XVal.op join f k a b).Valid := by
  refine ⟨joinDims_names _ _ ha.1 hb.1, fun h => ?_⟩
  simp only [XVal.op, Bool.or_eq_false_iff] at h
  simp only [XVal.op, ha.2 h.1, hb.2 h.2]
  rfl

private theorem op_has {join f k} (hj : IsInner join) {a b : XVal} (hb : b.Valid) (p : String → ℝ) :
    (XVal.op join f k a b).Has p ↔ a.Has p ∧ b.Has p := joinDims_has hj _ _ hb.1 p

private theorem inplace_spec {join f k} (hj : IsInner join) {a b r : XVal} (ha : a.Valid) (hb : b.Valid)
    (h : XVal.inplace join f k a b = .ok r) :
    r.Valid ∧ (∀ p, r.val p = f (a.val p) (b.val p)) ∧ ∀ p, r.Has p ↔ a.Has p ∧ b.Has p := by
  unfold XVal.inplace at h
  split_ifs at h with h1 h2 h3 h4
  · cases h
    exact ⟨op_valid ha hb, fun _ => rfl, op_has hj hb⟩
  · cases h
    refine ⟨⟨ha.1, fun h => by cases h⟩, fun _ => rfl, fun p => ⟨fun hp => ⟨hp, fun d hd => ?_⟩, fun hp => hp.1⟩⟩
    simp only [List.any_eq_true, not_exists, not_and] at h2 h3
    have h2 := h2 d hd
    have h3 := h3 d hd
    cases hl : a.dims.lookup d.1 with
    | none => rw [hl] at h3; simp at h3
    | some l =>
      rw [hl] at h2
      simp only [Option.any_some, ne_eq, decide_not, Bool.not_eq_true', decide_eq_false_iff_not, not_not] at h2
      subst h2
      exact hp _ (lookup_some _ _ _ hl)

private theorem loop_spec {join} (hj : IsInner join) : ∀ (layers : List (XVal × XVal)) (acc r : XVal),
    (∀ l ∈ layers, l.1.Valid ∧ l.2.Valid) → acc.Valid → airyLoopX join layers acc = .ok r →
    r.Valid ∧ (∀ p, r.val p = acc.val p +
      ((layers.map fun l => (l.1.val p, l.2.val p)).map fun l => l.1 * l.2).sum) ∧
    ∀ p, r.Has p ↔ acc.Has p ∧ ∀ l ∈ layers, l.1.Has p ∧ l.2.Has p
  | [], acc, r, _, ha, h => by
    simp only [airyLoopX, Except.ok.injEq] at h; subst h
    exact ⟨ha, fun p => by simp, fun p => by simp⟩
  | (t, d) :: rest, acc, r, hl, ha, h => by
    simp only [airyLoopX] at h
    have hv := hl (t, d) (by simp)
    cases hi : XVal.inplace join (· + ·) (acc.kind.join (XVal.op join (· * ·) (t.kind.join d.kind) t d).kind) acc
        (XVal.op join (· * ·) (t.kind.join d.kind) t d) with
    | error e => rw [hi] at h; cases h
    | ok acc' =>
      rw [hi] at h; simp only [Py.bind_ok] at h
      obtain ⟨hv', e1, e2⟩ := inplace_spec hj ha (op_valid hv.1 hv.2) hi
      obtain ⟨hr, e3, e4⟩ := loop_spec hj rest acc' r (fun l h => hl l (by simp [h])) hv' h
      refine ⟨hr, fun p => ?_, fun p => ?_⟩
      · rw [e3, e1]
        simp only [XVal.op, List.map_cons, List.sum_cons]; ring
      · rw [e4, e2, op_has hj hv.2]
        simp only [List.mem_cons, forall_eq_or_imp]
        tauto

private theorem zero_valid : XVal.zero.Valid := ⟨List.nodup_nil, fun _ => rfl⟩

private theorem topography_spec {join} (hj : IsInner join) (layers : Option (List (XVal × XVal))) (rho_c r : XVal)
    (hl : ∀ ls ∈ layers, ∀ l ∈ ls, l.1.Valid ∧ l.2.Valid) (hc : rho_c.Valid)
    (h : layersEquivalentTopographyX join layers rho_c = .ok r) :
    r.Valid ∧ (∀ p, rho_c.val p ≠ 0 → r.val p * rho_c.val p =
      (((layers.getD []).map fun l => (l.1.val p, l.2.val p)).map fun l => l.1 * l.2).sum) ∧
    ∀ p, rho_c.Has p → (r.Has p ↔ ∀ l ∈ layers.getD [], l.1.Has p ∧ l.2.Has p) := by
  cases layers with
  | none =>
    simp only [layersEquivalentTopographyX, Except.ok.injEq] at h; subst h
    exact ⟨zero_valid, fun p _ => by simp [XVal.zero], fun p _ => by simp [XVal.zero, XVal.Has]⟩
  | some ls =>
    simp only [layersEquivalentTopographyX] at h
    cases ha : airyLoopX join ls XVal.zero with
    | error e => rw [ha] at h; cases h
    | ok acc =>
      rw [ha] at h; simp only [Py.bind_ok] at h
      obtain ⟨hv, e1, e2⟩ := loop_spec hj ls _ _ (hl ls rfl) zero_valid ha
      obtain ⟨hr, e3, e4⟩ := inplace_spec hj hv hc h
      refine ⟨hr, fun p hp => ?_, fun p hp => ?_⟩
      · rw [e3, e1, div_mul_cancel₀ _ hp]
        simp [XVal.zero]
      · rw [e4, e2]
        simp [XVal.zero, XVal.Has] at hp ⊢
        tauto

/-! ## C135 -/

/-- C135: whenever the function returns, the value at every point is the one and only Moho depth for which the column
of the layers, the basement and the root that have the labels of that point has the mass of the reference column: the
DataArrays are matched by their coordinates, whatever the order of their dimensions and labels. -/
theorem C135_balance (join : List ℝ → List ℝ → List ℝ) (hj : IsInner join) (basement : XVal)
    (layers : Option (List (XVal × XVal))) (rho_c rho_m ref moho : XVal)
    (hl : ∀ ls ∈ layers, ∀ l ∈ ls, l.1.Valid ∧ l.2.Valid) (hv : rho_c.Valid)
    (h : isostaticMohoAiryX join basement layers rho_c rho_m ref = .ok moho) (p : String → ℝ)
    (hc : rho_c.val p ≠ 0) (hm : rho_m.val p ≠ rho_c.val p) (D M : ℝ) :
    columnMass ((layers.getD []).map fun l => (l.1.val p, l.2.val p)) (rho_c.val p) (rho_m.val p)
        (basement.val p) M D
      = columnMass [] (rho_c.val p) (rho_m.val p) 0 (ref.val p) D
    ↔ M = moho.val p := by
  unfold isostaticMohoAiryX at h
  cases ht : layersEquivalentTopographyX join layers rho_c with
  | error e => rw [ht] at h; cases h
  | ok l =>
    rw [ht] at h
    simp only [Py.bind_ok, Py.pure_eq, Except.ok.injEq] at h
    subst h
    obtain ⟨-, e, -⟩ := topography_spec hj layers rho_c l hl hv ht
    have e := e p hc
    simp only [XVal.op, columnMass, List.map_nil, List.sum_nil]
    rw [← e]
    have hne : rho_m.val p - rho_c.val p ≠ 0 := sub_ne_zero.2 hm
    constructor
    · intro hh
      field_simp
      linear_combination -hh
    · intro hh
      subst hh
      field_simp
      ring

/-- C135: the points of the result are the ones that belong to every DataArray that is passed. -/
theorem C135_points (join : List ℝ → List ℝ → List ℝ) (hj : IsInner join) (basement : XVal)
    (layers : Option (List (XVal × XVal))) (rho_c rho_m ref moho : XVal)
    (hl : ∀ ls ∈ layers, ∀ l ∈ ls, l.1.Valid ∧ l.2.Valid) (hvc : rho_c.Valid) (hvm : rho_m.Valid)
    (hvr : ref.Valid) (h : isostaticMohoAiryX join basement layers rho_c rho_m ref = .ok moho) (p : String → ℝ) :
    moho.Has p ↔ basement.Has p ∧ (∀ l ∈ layers.getD [], l.1.Has p ∧ l.2.Has p) ∧ rho_c.Has p ∧ rho_m.Has p ∧
      ref.Has p := by
  unfold isostaticMohoAiryX at h
  cases ht : layersEquivalentTopographyX join layers rho_c with
  | error e => rw [ht] at h; cases h
  | ok l =>
    rw [ht] at h
    simp only [Py.bind_ok, Py.pure_eq, Except.ok.injEq] at h
    subst h
    obtain ⟨hv, -, e⟩ := topography_spec hj layers rho_c l hl hvc ht
    have e := e p
    rw [op_has hj hvr, op_has hj (op_valid hvc (op_valid hvm hvc)), op_has hj hv,
      op_has hj (op_valid hvm hvc), op_has hj hvc]
    tauto

/-- The operand is a number or a DataArray of floats with the dimensions and labels `s`, its dimensions in any
order. -/
def XVal.On (s : List (String × List ℝ)) (v : XVal) : Prop :=
  (v.array = false ∧ v.dims = []) ∨ (v.array = true ∧ v.kind = .float ∧ v.dims.Perm s)

private theorem join_self (join : List ℝ → List ℝ → List ℝ) (s a b : List (String × List ℝ))
    (hs : (s.map (·.1)).Nodup) (ha : a.Perm s) (hb : b.Perm s) : joinDims join a b = a := by
  unfold joinDims
  have ha' : (a.map (·.1)).Nodup := ((ha.map _).nodup_iff).2 hs
  have hb' : (b.map (·.1)).Nodup := ((hb.map _).nodup_iff).2 hs
  have h1 : a.map (joinDim join b) = a := by
    conv_rhs => rw [← List.map_id a]
    refine List.map_congr_left fun d hd => ?_
    unfold joinDim
    rw [lookup_mem b hb' d (hb.mem_iff.2 (ha.mem_iff.1 hd))]; simp
  have h2 : b.filter (fun d => (a.lookup d.1).isNone) = [] := by
    rw [List.filter_eq_nil_iff]
    intro d hd
    rw [lookup_mem a ha' d (ha.mem_iff.2 (hb.mem_iff.1 hd))]; simp
  rw [h1, h2, List.append_nil]

private theorem join_nil_left (join : List ℝ → List ℝ → List ℝ) (s : List (String × List ℝ)) :
    joinDims join [] s = s := by
  unfold joinDims; simp

private theorem join_nil_right (join : List ℝ → List ℝ → List ℝ) (s : List (String × List ℝ)) :
    joinDims join s [] = s := by
  have : joinDim join [] = id := rfl
  unfold joinDims; simp [this]

/-- A number, or a DataArray on the grid that is of floats. -/
private theorem op_on {join f k} {s : List (String × List ℝ)} (hs : (s.map (·.1)).Nodup) {a b : XVal} (ha : a.On s)
    (hb : b.On s) (hk : k = .float ∨ k = a.kind.join b.kind) : (XVal.op join f k a b).On s := by
  have hkk : (a.array = true ∨ b.array = true) → k = .float := by
    intro h
    rcases hk with hk | hk
    · exact hk
    · rw [hk]
      rcases ha with ⟨h1, -⟩ | ⟨-, h1, -⟩ <;> rcases hb with ⟨h2, -⟩ | ⟨-, h2, -⟩ <;> simp_all <;>
        (try cases a.kind) <;> (try cases b.kind) <;> rfl
  unfold XVal.On XVal.op
  rcases ha with ⟨h1, h1'⟩ | ⟨h1, -, h1'⟩ <;> rcases hb with ⟨h2, h2'⟩ | ⟨h2, -, h2'⟩
  · left; simp only [h1, h1', h2, h2', join_nil_left, Bool.or_self, and_self]
  · right; simp only [h1, h1', h2, join_nil_left, Bool.or_true, true_and]; exact ⟨hkk (Or.inr h2), h2'⟩
  · right; simp only [h1, h2, h2', join_nil_right, Bool.true_or, true_and]; exact ⟨hkk (Or.inl h1), h1'⟩
  · right; simp only [h1, h2, join_self join s _ _ hs h1' h2', Bool.true_or, true_and]
    exact ⟨hkk (Or.inl h1), h1'⟩

private theorem inplace_on {join f k} {s : List (String × List ℝ)} (hs : (s.map (·.1)).Nodup) {a b : XVal}
    (ha : a.On s) (hb : b.On s) (hk : k = .float ∨ k = a.kind.join b.kind) :
    ∃ r, XVal.inplace join f k a b = .ok r ∧ r.On s := by
  rcases ha with ⟨h1, h1'⟩ | ⟨h1, hf, h1'⟩
  · exact ⟨_, by unfold XVal.inplace; rw [if_pos h1], op_on hs (Or.inl ⟨h1, h1'⟩) hb hk⟩
  · refine ⟨⟨true, a.kind, a.dims, fun p => f (a.val p) (b.val p)⟩, ?_, Or.inr ⟨rfl, hf, h1'⟩⟩
    unfold XVal.inplace
    have hd : ∀ d ∈ b.dims, a.dims.lookup d.1 = some d.2 := by
      intro d hd
      rcases hb with ⟨-, h2⟩ | ⟨-, -, h2⟩
      · rw [h2] at hd; cases hd
      · exact lookup_mem _ (((h1'.map _).nodup_iff).2 hs) d (h1'.mem_iff.2 (h2.mem_iff.1 hd))
    rw [if_neg (by simp [h1]), if_neg, if_neg, if_neg (by simp [hf])]
    · simp only [List.any_eq_true, not_exists, not_and]
      intro d hm; rw [hd d hm]; simp
    · simp only [List.any_eq_true, not_exists, not_and]
      intro d hm; rw [hd d hm]; simp

private theorem loop_on {join} {s : List (String × List ℝ)} (hs : (s.map (·.1)).Nodup) :
    ∀ (layers : List (XVal × XVal)) (acc : XVal), (∀ l ∈ layers, l.1.On s ∧ l.2.On s) → acc.On s →
    ∃ r, airyLoopX join layers acc = .ok r ∧ r.On s
  | [], acc, _, ha => ⟨acc, rfl, ha⟩
  | (t, d) :: rest, acc, hl, ha => by
    have ht := hl (t, d) (by simp)
    obtain ⟨acc', h1, h2⟩ := inplace_on (join := join) (f := (· + ·)) hs ha
      (op_on (join := join) (f := (· * ·)) hs ht.1 ht.2 (Or.inr rfl)) (Or.inr rfl)
    obtain ⟨r, h3, h4⟩ := loop_on hs rest acc' (fun l h => hl l (by simp [h])) h2
    exact ⟨r, by simp only [airyLoopX]; rw [h1, Py.bind_ok, h3], h4⟩

/-- The full claim: for DataArrays of floats the function returns and gives a Moho depth at every point of the
basement. -/
def C135_full : Prop :=
  ∀ (join : List ℝ → List ℝ → List ℝ), IsInner join → ∀ (basement : XVal) (layers : Option (List (XVal × XVal)))
    (rho_c rho_m ref : XVal),
    (∀ v ∈ [basement, rho_c, rho_m, ref] ++ (layers.getD []).flatMap (fun l => [l.1, l.2]),
      v.Valid ∧ v.kind = .float) →
    ∃ moho, isostaticMohoAiryX join basement layers rho_c rho_m ref = .ok moho ∧
      ∀ p, basement.Has p → moho.Has p

/-- C135: it returns when the thicknesses, their densities and the density of the crust are numbers or arrays of
floats on one grid, whatever the grids of the others; and every point of the basement has a depth when all of them
are on the grid of the basement. -/
theorem C135_returns_partial (join : List ℝ → List ℝ → List ℝ) (hj : IsInner join) (s : List (String × List ℝ))
    (hs : (s.map (·.1)).Nodup) (basement : XVal) (layers : Option (List (XVal × XVal))) (rho_c rho_m ref : XVal)
    (hl : ∀ ls ∈ layers, ∀ l ∈ ls, l.1.On s ∧ l.2.On s) (hc : rho_c.On s) :
    ∃ moho, isostaticMohoAiryX join basement layers rho_c rho_m ref = .ok moho ∧
      (basement.dims.Perm s → rho_m.On s → ref.On s → ∀ p, basement.Has p → moho.Has p) := by
  have hval : ∀ v : XVal, v.On s → v.Valid := by
    rintro v (⟨h1, h2⟩ | ⟨h1, -, h2⟩)
    · exact ⟨by rw [h2]; exact List.nodup_nil, fun _ => h2⟩
    · exact ⟨((h2.map _).nodup_iff).2 hs, fun h => by rw [h1] at h; cases h⟩
  have ht : ∃ r, layersEquivalentTopographyX join layers rho_c = .ok r := by
    cases layers with
    | none => exact ⟨_, rfl⟩
    | some ls =>
      obtain ⟨acc, h1, h2⟩ := loop_on (join := join) hs ls XVal.zero (hl ls rfl) (Or.inl ⟨rfl, rfl⟩)
      obtain ⟨r, h3, -⟩ := inplace_on (join := join) (f := (· / ·)) hs h2 hc (Or.inl rfl)
      exact ⟨r, by simp only [layersEquivalentTopographyX, h1, Py.bind_ok, h3]⟩
  obtain ⟨r, ht⟩ := ht
  have hret : ∃ moho, isostaticMohoAiryX join basement layers rho_c rho_m ref = .ok moho := by
    unfold isostaticMohoAiryX; rw [ht]; exact ⟨_, rfl⟩
  obtain ⟨moho, hret⟩ := hret
  refine ⟨moho, hret, fun hb hm hr p hp => ?_⟩
  have hon : ∀ v : XVal, v.On s → v.Has p := by
    rintro v (⟨-, h⟩ | ⟨-, -, h⟩) d hd
    · rw [h] at hd; cases hd
    · exact hp d (hb.mem_iff.2 (h.mem_iff.1 hd))
  rw [C135_points join hj basement layers rho_c rho_m ref moho
    (fun ls h l h' => ⟨hval _ (hl ls h l h').1, hval _ (hl ls h l h').2⟩) (hval _ hc) (hval _ hm) (hval _ hr) hret]
  refine ⟨hp, fun l h => ?_, hon _ hc, hon _ hm, hon _ hr⟩
  cases layers with
  | none => cases h
  | some ls => exact ⟨hon _ (hl ls rfl l h).1, hon _ (hl ls rfl l h).2⟩

/-- C135: the sum over the layers is done in place: `ValueError` (xarray's MergeError) when the second layer has other
labels than the first one, or the same ones in another order. -/
theorem C135_second_layer_other_grid (join : List ℝ → List ℝ → List ℝ) (basement : XVal) (t t' d d' : XVal)
    (rest : List (XVal × XVal)) (rho_c rho_m ref : XVal) (name : String) (labels labels' : List ℝ)
    (hn : labels ≠ labels') (ht : t.array = true)
    (htd : t.dims = [(name, labels)]) (htd' : t'.dims = [(name, labels')]) (hdd : d.dims = []) (hdd' : d'.dims = []) :
    isostaticMohoAiryX join basement (some ((t, d) :: (t', d') :: rest)) rho_c rho_m ref = .error .ValueError := by
  have h1 : ∀ a b : XVal, b.dims = [] → (XVal.op join (· * ·) (a.kind.join b.kind) a b).dims = a.dims := by
    intro a b hb
    simp only [XVal.op, hb, join_nil_right]
  unfold isostaticMohoAiryX layersEquivalentTopographyX airyLoopX
  simp only [airyLoopX]
  rw [show XVal.inplace join (· + ·) _ XVal.zero (XVal.op join (· * ·) (t.kind.join d.kind) t d) =
    .ok (XVal.op join (· + ·) (XVal.zero.kind.join (XVal.op join (· * ·) (t.kind.join d.kind) t d).kind) XVal.zero
      (XVal.op join (· * ·) (t.kind.join d.kind) t d)) from by unfold XVal.inplace; rw [if_pos (show XVal.zero.array = false from rfl)]]
  simp only [Py.bind_ok]
  rw [show XVal.inplace join (· + ·) _ (XVal.op join (· + ·) _ XVal.zero
    (XVal.op join (· * ·) (t.kind.join d.kind) t d)) (XVal.op join (· * ·) (t'.kind.join d'.kind) t' d') =
    .error .ValueError from ?_]
  · rfl
  · unfold XVal.inplace
    rw [if_neg (by simp [XVal.op, ht]), if_pos]
    rw [h1 t' d' hdd', htd']
    have : (XVal.op join (· + ·) (XVal.zero.kind.join (XVal.op join (· * ·) (t.kind.join d.kind) t d).kind) XVal.zero
      (XVal.op join (· * ·) (t.kind.join d.kind) t d)).dims = [(name, labels)] := by
      rw [← htd, ← h1 t d hdd]
      simp only [XVal.op, XVal.zero, join_nil_left]
    rw [this]
    simp [hn]

/-- C135: the same when the second layer has another dimension than the first one. -/
theorem C135_second_layer_other_dimension (join : List ℝ → List ℝ → List ℝ) (basement : XVal) (t t' d d' : XVal)
    (rest : List (XVal × XVal)) (rho_c rho_m ref : XVal) (name name' : String) (labels labels' : List ℝ)
    (hn : name ≠ name') (ht : t.array = true)
    (htd : t.dims = [(name, labels)]) (htd' : t'.dims = [(name', labels')]) (hdd : d.dims = []) (hdd' : d'.dims = []) :
    isostaticMohoAiryX join basement (some ((t, d) :: (t', d') :: rest)) rho_c rho_m ref = .error .ValueError := by
  have h1 : ∀ a b : XVal, b.dims = [] → (XVal.op join (· * ·) (a.kind.join b.kind) a b).dims = a.dims := by
    intro a b hb
    simp only [XVal.op, hb, join_nil_right]
  unfold isostaticMohoAiryX layersEquivalentTopographyX airyLoopX
  simp only [airyLoopX]
  rw [show XVal.inplace join (· + ·) _ XVal.zero (XVal.op join (· * ·) (t.kind.join d.kind) t d) =
    .ok (XVal.op join (· + ·) (XVal.zero.kind.join (XVal.op join (· * ·) (t.kind.join d.kind) t d).kind) XVal.zero
      (XVal.op join (· * ·) (t.kind.join d.kind) t d)) from by unfold XVal.inplace; rw [if_pos (show XVal.zero.array = false from rfl)]]
  simp only [Py.bind_ok]
  rw [show XVal.inplace join (· + ·) _ (XVal.op join (· + ·) _ XVal.zero
    (XVal.op join (· * ·) (t.kind.join d.kind) t d)) (XVal.op join (· * ·) (t'.kind.join d'.kind) t' d') =
    .error .ValueError from ?_]
  · rfl
  · have : (XVal.op join (· + ·) (XVal.zero.kind.join (XVal.op join (· * ·) (t.kind.join d.kind) t d).kind) XVal.zero
      (XVal.op join (· * ·) (t.kind.join d.kind) t d)).dims = [(name, labels)] := by
      rw [← htd, ← h1 t d hdd]
      simp only [XVal.op, XVal.zero, join_nil_left]
    unfold XVal.inplace
    rw [if_neg (by simp [XVal.op, ht]), if_neg, if_pos]
    · rw [h1 t' d' hdd', htd', this]
      simp [List.lookup, beq_eq_false_iff_ne.2 (Ne.symm hn)]
    · rw [h1 t' d' hdd', htd', this]
      simp [List.lookup, beq_eq_false_iff_ne.2 (Ne.symm hn)]

/-- A number, or a DataArray on the grid, of integers. -/
def XVal.IntOn (s : List (String × List ℝ)) (v : XVal) : Prop :=
  v.kind = .int ∧ ((v.array = false ∧ v.dims = []) ∨ (v.array = true ∧ v.dims.Perm s))

private theorem op_int {join f k} {s : List (String × List ℝ)} (hs : (s.map (·.1)).Nodup) {a b : XVal}
    (ha : a.IntOn s) (hb : b.IntOn s) (hk : k = a.kind.join b.kind) : (XVal.op join f k a b).IntOn s := by
  obtain ⟨ka, ha⟩ := ha
  obtain ⟨kb, hb⟩ := hb
  rw [ka, kb] at hk
  refine ⟨by rw [XVal.op, hk]; rfl, ?_⟩
  unfold XVal.op
  rcases ha with ⟨h1, h1'⟩ | ⟨h1, h1'⟩ <;> rcases hb with ⟨h2, h2'⟩ | ⟨h2, h2'⟩
  · left; simp only [h1, h1', h2, h2', join_nil_left, Bool.or_self, and_self]
  · right; simp only [h1, h1', h2, join_nil_left, Bool.or_true, true_and]; exact h2'
  · right; simp only [h1, h2, h2', join_nil_right, Bool.true_or, true_and]; exact h1'
  · right; simp only [h1, h2, join_self join s _ _ hs h1' h2', Bool.true_or, true_and]; exact h1'

private theorem loop_int {join} {s : List (String × List ℝ)} (hs : (s.map (·.1)).Nodup) :
    ∀ (layers : List (XVal × XVal)) (acc : XVal), (∀ l ∈ layers, l.1.IntOn s ∧ l.2.IntOn s) → acc.IntOn s →
    ∃ r, airyLoopX join layers acc = .ok r ∧ r.IntOn s ∧
      ((acc.array = true ∨ ∃ l ∈ layers, l.1.array = true) → r.array = true)
  | [], acc, _, ha => ⟨acc, rfl, ha, by simp⟩
  | (t, d) :: rest, acc, hl, ha => by
    have ht := hl (t, d) (by simp)
    have hp := op_int (join := join) (f := (· * ·)) hs ht.1 ht.2 rfl
    set p := XVal.op join (· * ·) (t.kind.join d.kind) t d with hpd
    have h0 : ∃ acc', XVal.inplace join (· + ·) (acc.kind.join p.kind) acc p = .ok acc' ∧ acc'.IntOn s ∧
        ((acc.array = true ∨ t.array = true) → acc'.array = true) := by
      unfold XVal.inplace
      by_cases hacc : acc.array = false
      · rw [if_pos hacc]
        refine ⟨_, rfl, op_int hs ha hp rfl, ?_⟩
        rintro (h | h)
        · rw [h] at hacc; cases hacc
        · simp [XVal.op, hpd, h]
      · have hacc' : acc.array = true := by simpa using hacc
        have had : acc.dims.Perm s := by
          rcases ha.2 with h | h
          · exact absurd h.1 hacc
          · exact h.2
        have hd : ∀ d ∈ p.dims, acc.dims.lookup d.1 = some d.2 := by
          intro d hd
          rcases hp.2 with ⟨-, h2⟩ | ⟨-, h2⟩
          · rw [h2] at hd; cases hd
          · exact lookup_mem _ (((had.map _).nodup_iff).2 hs) d (had.mem_iff.2 (h2.mem_iff.1 hd))
        rw [if_neg hacc, if_neg, if_neg, if_neg (by rw [ha.1, hp.1]; simp [Kind.join])]
        · exact ⟨_, rfl, ⟨ha.1, .inr ⟨rfl, had⟩⟩, fun _ => rfl⟩
        · simp only [List.any_eq_true, not_exists, not_and]
          intro d hm; rw [hd d hm]; simp
        · simp only [List.any_eq_true, not_exists, not_and]
          intro d hm; rw [hd d hm]; simp
    obtain ⟨acc', h1, h2, h3⟩ := h0
    obtain ⟨r, h4, h5, h6⟩ := loop_int hs rest acc' (fun l h => hl l (by simp [h])) h2
    refine ⟨r, by simp only [airyLoopX]; rw [← hpd, h1, Py.bind_ok, h4], h5, fun h => h6 ?_⟩
    rcases h with h | ⟨l, hm, h⟩
    · exact .inl (h3 (.inl h))
    · rcases List.mem_cons.1 hm with rfl | hm
      · exact .inl (h3 (.inr h))
      · exact .inr ⟨l, hm, h⟩

/-- C135: the division by the density of the crust is done in place: thicknesses and densities of integers (numbers or
DataArrays on one grid, at least one thickness a DataArray) raise UFuncTypeError, whatever the number of layers. -/
theorem C135_integer_layers (join : List ℝ → List ℝ → List ℝ) (s : List (String × List ℝ))
    (hs : (s.map (·.1)).Nodup) (basement : XVal) (layers : List (XVal × XVal)) (rho_c rho_m ref : XVal)
    (hl : ∀ l ∈ layers, l.1.IntOn s ∧ l.2.IntOn s) (ha : ∃ l ∈ layers, l.1.array = true)
    (hc : rho_c.dims = []) :
    isostaticMohoAiryX join basement (some layers) rho_c rho_m ref = .error .UFuncTypeError := by
  obtain ⟨r, h1, h2, h3⟩ := loop_int (join := join) hs layers XVal.zero hl ⟨rfl, .inl ⟨rfl, rfl⟩⟩
  have hr := h3 (.inr ha)
  unfold isostaticMohoAiryX layersEquivalentTopographyX
  simp only [h1, Py.bind_ok]
  rw [show XVal.inplace join (· / ·) .float r rho_c = .error .UFuncTypeError from ?_]
  · rfl
  · unfold XVal.inplace
    rw [if_neg (by simp [hr]), if_neg (by simp [hc]), if_neg (by simp [hc]), if_pos ⟨rfl, h2.1⟩]

/-- A concrete case of `C135_integer_layers`: two layers of integers on one grid. -/
example : ∀ l ∈ [((⟨true, .int, [("x", [0, 1])], fun _ => 100⟩ : XVal), (⟨false, .int, [], fun _ => 1040⟩ : XVal)),
      (⟨true, .int, [("x", [0, 1])], fun _ => 50⟩, ⟨false, .int, [], fun _ => 2400⟩)],
    l.1.IntOn [("x", [0, 1])] ∧ l.2.IntOn [("x", [0, 1])] := by
  intro l hl
  simp only [List.mem_cons, List.not_mem_nil, or_false] at hl
  rcases hl with rfl | rfl <;>
    exact ⟨⟨rfl, .inr ⟨rfl, List.Perm.refl _⟩⟩, ⟨rfl, .inl ⟨rfl, rfl⟩⟩⟩

/-- C135: so the full claim is false. With the basement at the points 0 and 1 and the reference depth at the points 2 and
3 (of one dimension) no error is raised, and the result is empty. -/
theorem C135_points_lost (join : List ℝ → List ℝ → List ℝ) (hj : IsInner join) :
    ∃ basement ref moho : XVal, basement.Valid ∧ ref.Valid ∧ basement.kind = .float ∧ ref.kind = .float ∧
      isostaticMohoAiryX join basement none ⟨false, .float, [], fun _ => 2800⟩ ⟨false, .float, [], fun _ => 3300⟩ ref =
        .ok moho ∧
      (∃ p, basement.Has p) ∧ ¬ ∃ p, moho.Has p := by
  have hv : ∀ l : List ℝ, XVal.Valid ⟨true, .float, [("easting", l)], fun _ => 0⟩ :=
    fun l => ⟨by simp, fun h => by cases h⟩
  have hn : ∀ x : ℝ, XVal.Valid ⟨false, .float, [], fun _ => x⟩ := fun x => ⟨List.nodup_nil, fun _ => rfl⟩
  refine ⟨⟨true, .float, [("easting", [0, 1])], fun _ => 0⟩, ⟨true, .float, [("easting", [2, 3])], fun _ => 0⟩, _,
    hv _, hv _, rfl, rfl, rfl, ⟨fun _ => 0, by simp [XVal.Has]⟩, ?_⟩
  rintro ⟨p, hp⟩
  rw [C135_points join hj _ none _ _ _ _ (fun _ h => by cases h) (hn _) (hn _) (hv _) rfl] at hp
  have h1 := hp.1
  have h2 := hp.2.2.2.2
  simp only [XVal.Has, forall_eq, List.mem_cons, List.not_mem_nil, or_false] at h1 h2
  rcases h1 with h1 | h1 <;> rw [h1] at h2 <;> norm_num at h2

/-- An inner join: the labels of the first coordinate that are in the second one. -/
private noncomputable def keep (a b : List ℝ) : List ℝ := open Classical in a.filter (· ∈ b)

private theorem keep_inner : IsInner keep := by
  intro a b x; simp [keep]

theorem C135_not_full : ¬ C135_full := by
  intro h
  obtain ⟨b, r, moho, hb, hr, kb, kr, he, ⟨p, hp⟩, hno⟩ := C135_points_lost keep keep_inner
  have hn : ∀ x : ℝ, XVal.Valid ⟨false, .float, [], fun _ => x⟩ := fun x => ⟨List.nodup_nil, fun _ => rfl⟩
  obtain ⟨moho', he', hm⟩ := h keep keep_inner b none ⟨false, .float, [], fun _ => 2800⟩
    ⟨false, .float, [], fun _ => 3300⟩ r (by
      intro v hv
      simp only [Option.getD_none, List.flatMap_nil, List.append_nil, List.mem_cons, List.not_mem_nil,
        or_false] at hv
      rcases hv with rfl | rfl | rfl | rfl
      · exact ⟨hb, kb⟩
      · exact ⟨hn _, rfl⟩
      · exact ⟨hn _, rfl⟩
      · exact ⟨hr, kr⟩)
  rw [he] at he'
  cases he'
  exact hno ⟨p, hm p hp⟩

/-- The hypotheses are met: two layers on a grid of 2 × 2 points, the water with its dimensions in the other order, and
a basement on a larger grid; the result is at the common points, with the depth that balances the columns. -/
example : ∃ moho, isostaticMohoAiryX keep
      ⟨true, .float, [("northing", [0, 1]), ("easting", [10, 20, 30])], fun p => -p "easting"⟩
      (some [(⟨true, .float, [("northing", [0, 1]), ("easting", [10, 20])], fun p => p "northing"⟩,
          ⟨false, .int, [], fun _ => 2300⟩),
        (⟨true, .float, [("easting", [10, 20]), ("northing", [0, 1])], fun p => p "easting"⟩,
          ⟨false, .int, [], fun _ => 1040⟩)])
      ⟨false, .float, [], fun _ => 2800⟩ ⟨false, .float, [], fun _ => 3300⟩ ⟨false, .float, [], fun _ => 30000⟩ =
        .ok moho ∧
    moho.Has (fun d => if d = "easting" then 20 else 1) ∧ ¬ moho.Has (fun d => if d = "easting" then 30 else 1) := by
  have hn : ∀ k x, XVal.On [("northing", [0, 1]), ("easting", [10, 20])] ⟨false, k, [], fun _ => x⟩ :=
    fun k x => Or.inl ⟨rfl, rfl⟩
  have hv : ∀ k x, XVal.Valid ⟨false, k, [], fun _ => x⟩ := fun k x => ⟨List.nodup_nil, fun _ => rfl⟩
  obtain ⟨moho, h, -⟩ := C135_returns_partial keep keep_inner [("northing", [0, 1]), ("easting", [10, 20])] (by simp)
      ⟨true, .float, [("northing", [0, 1]), ("easting", [10, 20, 30])], fun p => -p "easting"⟩
      (some [(⟨true, .float, [("northing", [0, 1]), ("easting", [10, 20])], fun p => p "northing"⟩,
          ⟨false, .int, [], fun _ => 2300⟩),
        (⟨true, .float, [("easting", [10, 20]), ("northing", [0, 1])], fun p => p "easting"⟩,
          ⟨false, .int, [], fun _ => 1040⟩)])
      ⟨false, .float, [], fun _ => 2800⟩ ⟨false, .float, [], fun _ => 3300⟩ ⟨false, .float, [], fun _ => 30000⟩
    (by
      intro ls hls l hl
      cases hls
      simp only [List.mem_cons, List.not_mem_nil, or_false] at hl
      rcases hl with rfl | rfl
      · exact ⟨Or.inr ⟨rfl, rfl, List.Perm.refl _⟩, hn _ _⟩
      · exact ⟨Or.inr ⟨rfl, rfl, List.Perm.swap _ _ _⟩, hn _ _⟩) (hn _ _)
  refine ⟨moho, h, ?_, ?_⟩
  all_goals
    rw [C135_points keep keep_inner _ _ _ _ _ moho (by
      intro ls hls l hl
      cases hls
      simp only [List.mem_cons, List.not_mem_nil, or_false] at hl
      rcases hl with rfl | rfl
      · exact ⟨⟨by simp, fun h => by cases h⟩, hv _ _⟩
      · exact ⟨⟨by simp, fun h => by cases h⟩, hv _ _⟩) (hv _ _) (hv _ _) (hv _ _) h]
    simp only [XVal.Has, List.forall_mem_cons, Option.getD_some, List.not_mem_nil, false_imp_iff, implies_true,
      and_true, if_neg (show ¬ "northing" = "easting" by decide)]
    norm_num

end Verif.Utils
