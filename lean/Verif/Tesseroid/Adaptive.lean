import Verif.Tesseroid.Model
import Mathlib.Tactic.IntervalCases

/-! Lemmas on the adaptive discretization: refinement of the loop on arrays by a loop on lists. -/

namespace Verif.Tesseroid
open Verif.Distance

/-- The loop of the adaptive discretization on lists (top of the stack first). -/
noncomputable def adList (P : AParams) : ℕ → List Tess → List Tess → Option (Py (List Tess))
  | 0, _, _ => none
  | _ + 1, [], out => some (.ok out)
  | fuel + 1, t :: rest, out =>
    match divisions P t with
    | .error e => some (.error e)
    | .ok (a, b, c) =>
      if a * b * c > 1 then
        if rest.length + a * b * c > P.stackSize then some (.error .OverflowError)
        else adList P fuel ((splitPieces t a b c).reverse ++ rest) out
      else if out.length + 1 > P.smallSize then some (.error .OverflowError)
      else adList P fuel rest (out ++ [t])

/-- first `n` elements of an array -/
def prefixList (a : ℕ → Tess) (n : ℕ) : List Tess := (List.range n).map a

theorem prefixList_length (a : ℕ → Tess) (n : ℕ) : (prefixList a n).length = n := by
  simp [prefixList]

theorem prefixList_succ (a : ℕ → Tess) (n : ℕ) :
    prefixList a (n + 1) = prefixList a n ++ [a n] := by
  simp [prefixList, List.range_succ]

theorem prefixList_congr (a b : ℕ → Tess) (n : ℕ) (h : ∀ i < n, a i = b i) :
    prefixList a n = prefixList b n := by
  unfold prefixList
  exact List.map_congr_left fun i hi => h i (List.mem_range.1 hi)

theorem pushAll_eq (size : ℕ) (ps : List Tess) : ∀ (stack : ℕ → Tess) (count : ℕ),
    count + ps.length ≤ size →
    ∃ stack', pushAll size stack count ps = some (stack', count + ps.length) ∧
      prefixList stack' (count + ps.length) = prefixList stack count ++ ps := by
  induction ps with
  | nil => intro stack count _; exact ⟨stack, rfl, by simp⟩
  | cons p ps ih =>
    intro stack count h
    simp only [List.length_cons] at h
    have hc : count < size := by omega
    obtain ⟨stack', h1, h2⟩ := ih (fun j => if j = count then p else stack j) (count + 1) (by omega)
    refine ⟨stack', ?_, ?_⟩
    · simp only [pushAll, wr, hc, if_true]
      rw [h1]
      simp only [List.length_cons]
      congr 2
      omega
    · have : count + (p :: ps).length = count + 1 + ps.length := by simp only [List.length_cons]; omega
      rw [this, h2, prefixList_succ, prefixList_congr _ stack count]
      · simp
      · intro i hi; simp [ne_of_lt hi]

theorem splitPieces_length (t : Tess) (a b c : ℕ) : (splitPieces t a b c).length = a * b * c := by
  simp [splitPieces, List.length_flatMap, Nat.mul_assoc]

/-- the exception or the list of pieces -/
def Halt.toPy : Halt → Option (Py (List Tess))
  | .ok n small => some (.ok (prefixList small n))
  | .raised e => some (.error e)
  | .fault => none

theorem aloop_eq (P : AParams) : ∀ (fuel : ℕ) (st : AState), st.count ≤ P.stackSize →
    (aloop P fuel st).bind Halt.toPy =
      adList P fuel (prefixList st.stack st.count).reverse (prefixList st.small st.n_splits) ∧
    aloop P fuel st ≠ some .fault := by
  intro fuel
  induction fuel with
  | zero => intro st _; simp [aloop, adList]
  | succ fuel ih =>
    intro st hc
    obtain ⟨stack, count, small, n⟩ := st
    cases count with
    | zero => simp [aloop, astep, adList, prefixList, Halt.toPy]
    | succ count =>
      simp only at hc
      rw [prefixList_succ, List.reverse_append]
      simp only [List.reverse_singleton, List.singleton_append, aloop, astep, Nat.succ_ne_zero,
        if_false, Nat.add_sub_cancel, adList]
      cases hd : divisions P (stack count) with
      | error e => simp [Halt.toPy]
      | ok d =>
        obtain ⟨a, b, c⟩ := d
        simp only [List.length_reverse, prefixList_length]
        by_cases h1 : a * b * c > 1
        · simp only [h1, if_true]
          by_cases h2 : count + a * b * c > P.stackSize
          · simp [h2, Halt.toPy]
          · simp only [h2, if_false]
            obtain ⟨stack', e1, e2⟩ := pushAll_eq P.stackSize (splitPieces (stack count) a b c) stack
              count (by rw [splitPieces_length]; omega)
            rw [e1]
            have := ih ⟨stack', count + (splitPieces (stack count) a b c).length, small, n⟩
              (by simp only [splitPieces_length]; omega)
            simp only [e2] at this
            simpa [List.reverse_append] using this
        · simp only [h1, if_false]
          by_cases h2 : n + 1 > P.smallSize
          · simp [h2, Halt.toPy]
          · simp only [h2, if_false, wr]
            have hn : n < P.smallSize := by omega
            simp only [hn, if_true]
            have := ih ⟨stack, count, fun j => if j = n then stack count else small j, n + 1⟩
              (by simp only; omega)
            simp only [prefixList_succ] at this
            rw [prefixList_congr (fun j => if j = n then stack count else small j) small n
              (by intro i hi; simp [ne_of_lt hi])] at this
            simpa using this

/-- The adaptive discretization never writes outside of its arrays and does not depend on their
previous contents. -/
theorem adaptive_eq (P : AParams) (hP : 1 ≤ P.stackSize) (stack0 small0 : ℕ → Tess) (fuel : ℕ)
    (t : Tess) :
    (adaptive P stack0 small0 fuel t).bind Halt.toPy = adList P fuel [t] [] ∧
    adaptive P stack0 small0 fuel t ≠ some .fault := by
  unfold adaptive wr
  have : 0 < P.stackSize := by omega
  simp only [this, if_true]
  have h := aloop_eq P fuel ⟨fun j => if j = 0 then t else stack0 j, 1, small0, 0⟩ (by simpa using hP)
  simpa [prefixList] using h

theorem divisions_ok_pos {P : AParams} {t : Tess} {a b c : ℕ} (h : divisions P t = .ok (a, b, c)) :
    1 ≤ a ∧ 1 ≤ b ∧ 1 ≤ c ∧ a ≤ 2 ∧ b ≤ 2 ∧ c ≤ 2 := by
  unfold divisions divLt at h
  simp only [bind, Except.bind, pure, Except.pure] at h
  split at h <;> try simp at h
  split at h <;> try simp at h
  split at h <;> try simp at h
  obtain ⟨h1, h2, h3⟩ := h
  subst h1 h2 h3
  refine ⟨?_, ?_, ?_, ?_, ?_, ?_⟩ <;> split_ifs <;> omega

/-- Enough fuel. -/
theorem adList_terminates (P : AParams) : ∀ (fuel : ℕ) (stk out : List Tess),
    stk.length ≤ P.stackSize → out.length ≤ P.smallSize →
    (P.smallSize - out.length) * (P.stackSize + 2) + (P.stackSize + 1 - stk.length) < fuel →
    adList P fuel stk out ≠ none := by
  intro fuel
  induction fuel with
  | zero => intro stk out _ _ h; omega
  | succ fuel ih =>
    intro stk out h1 h2 h3
    cases stk with
    | nil => simp [adList]
    | cons t rest =>
      simp only [adList]
      cases hd : divisions P t with
      | error e => simp
      | ok d =>
        obtain ⟨a, b, c⟩ := d
        simp only [List.length_cons] at h1 h3
        simp only
        by_cases hk : a * b * c > 1
        · simp only [hk, if_true]
          by_cases ho : rest.length + a * b * c > P.stackSize
          · simp [ho]
          · simp only [ho, if_false]
            apply ih
            · simp [splitPieces_length]; omega
            · exact h2
            · simp only [List.length_append, List.length_reverse, splitPieces_length]; omega
        · simp only [hk, if_false]
          by_cases ho : out.length + 1 > P.smallSize
          · simp [ho]
          · simp only [ho, if_false]
            apply ih
            · omega
            · simp; omega
            · simp only [List.length_append, List.length_singleton]
              have : P.smallSize - out.length = (P.smallSize - (out.length + 1)) + 1 := by omega
              rw [this, Nat.add_mul] at h3
              omega

theorem adList_mono (P : AParams) : ∀ (fuel fuel' : ℕ) (stk out : List Tess) (r : Py (List Tess)),
    fuel ≤ fuel' → adList P fuel stk out = some r → adList P fuel' stk out = some r := by
  intro fuel
  induction fuel with
  | zero => intro fuel' stk out r _ h; simp [adList] at h
  | succ fuel ih =>
    intro fuel' stk out r hf h
    obtain ⟨f', rfl⟩ : ∃ f', fuel' = f' + 1 := ⟨fuel' - 1, by omega⟩
    cases stk with
    | nil => simpa [adList] using h
    | cons t rest =>
      simp only [adList] at h ⊢
      cases hd : divisions P t with
      | error e => simpa [hd] using h
      | ok d =>
        obtain ⟨a, b, c⟩ := d
        simp only [hd] at h ⊢
        split_ifs at h ⊢ <;> first | exact h | exact ih _ _ _ _ (by omega) h

/-- Invariant principle: `Q` holds of every tesseroid reached, `R` of every piece put in the
output, and every functional that is additive under splitting is conserved. -/
theorem adList_invariant (P : AParams) (Q : Tess → Prop) (F : Tess → ℝ)
    (hQ : ∀ t a b c, Q t → divisions P t = .ok (a, b, c) → a * b * c > 1 →
      (∀ p ∈ splitPieces t a b c, Q p) ∧ ((splitPieces t a b c).map F).sum = F t) :
    ∀ (fuel : ℕ) (stk out pieces : List Tess), (∀ t ∈ stk, Q t) →
      (∀ t ∈ out, Q t ∧ divisions P t = .ok (1, 1, 1)) → out.length ≤ P.smallSize →
      adList P fuel stk out = some (.ok pieces) →
      (∀ t ∈ pieces, Q t ∧ divisions P t = .ok (1, 1, 1)) ∧ pieces.length ≤ P.smallSize ∧
        (pieces.map F).sum = (stk.map F).sum + (out.map F).sum := by
  intro fuel
  induction fuel with
  | zero => intro stk out pieces _ _ _ h; simp [adList] at h
  | succ fuel ih =>
    intro stk out pieces hs ho hl h
    cases stk with
    | nil =>
      simp [adList] at h; subst h
      exact ⟨ho, hl, by simp⟩
    | cons t rest =>
      simp only [adList] at h
      have ht := hs t (by simp)
      have hrest : ∀ t ∈ rest, Q t := fun x hx => hs x (by simp [hx])
      cases hd : divisions P t with
      | error e => simp [hd] at h
      | ok d =>
        obtain ⟨a, b, c⟩ := d
        simp only [hd] at h
        by_cases hk : a * b * c > 1
        · simp only [hk, if_true] at h
          by_cases hov : rest.length + a * b * c > P.stackSize
          · simp [hov] at h
          · simp only [hov, if_false] at h
            obtain ⟨q1, q2⟩ := hQ t a b c ht hd hk
            obtain ⟨r1, r2, r3⟩ := ih _ _ _ (by
              intro x hx
              rcases List.mem_append.1 hx with hx | hx
              · exact q1 x (List.mem_reverse.1 hx)
              · exact hrest x hx) ho hl h
            refine ⟨r1, r2, ?_⟩
            rw [r3]
            simp only [List.map_append, List.map_reverse, List.sum_append, List.sum_reverse,
              List.map_cons, List.sum_cons, q2]
        · simp only [hk, if_false] at h
          by_cases hov : out.length + 1 > P.smallSize
          · simp [hov] at h
          · simp only [hov, if_false] at h
            obtain ⟨p1, p2, p3, p4, p5, p6⟩ := divisions_ok_pos hd
            have habc : a = 1 ∧ b = 1 ∧ c = 1 := by
              interval_cases a <;> interval_cases b <;> interval_cases c <;> simp_all
            obtain ⟨rfl, rfl, rfl⟩ := habc
            obtain ⟨r1, r2, r3⟩ := ih _ _ _ hrest (by
              intro x hx
              rcases List.mem_append.1 hx with hx | hx
              · exact ho x hx
              · rw [List.mem_singleton] at hx; subst hx; exact ⟨ht, hd⟩) (by simp; omega) h
            refine ⟨r1, r2, ?_⟩
            rw [r3]
            simp only [List.map_append, List.map_cons, List.map_nil, List.sum_append, List.sum_cons,
              List.sum_nil]
            ring

/-- errors of the loop -/
theorem adList_error (P : AParams) (Q : Tess → Prop)
    (hQ : ∀ t a b c, Q t → divisions P t = .ok (a, b, c) → a * b * c > 1 →
      ∀ p ∈ splitPieces t a b c, Q p) (hne : ∀ t, Q t → ∀ e, divisions P t ≠ .error e) :
    ∀ (fuel : ℕ) (stk out : List Tess) (e : PyErr), (∀ t ∈ stk, Q t) →
      adList P fuel stk out = some (.error e) → e = .OverflowError := by
  intro fuel
  induction fuel with
  | zero => intro stk out e _ h; simp [adList] at h
  | succ fuel ih =>
    intro stk out e hs h
    cases stk with
    | nil => simp [adList] at h
    | cons t rest =>
      simp only [adList] at h
      have ht := hs t (by simp)
      have hrest : ∀ t ∈ rest, Q t := fun x hx => hs x (by simp [hx])
      cases hd : divisions P t with
      | error e' => exact absurd hd (hne t ht e')
      | ok d =>
        obtain ⟨a, b, c⟩ := d
        simp only [hd] at h
        split_ifs at h with hk hov hov
        · simpa using h.symm
        · refine ih _ _ _ ?_ h
          intro x hx
          rcases List.mem_append.1 hx with hx | hx
          · exact hQ t a b c ht hd hk x (List.mem_reverse.1 hx)
          · exact hrest x hx
        · simpa using h.symm
        · exact ih _ _ _ hrest h

end Verif.Tesseroid
