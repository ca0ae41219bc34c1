import Verif.Progress.Model
import Verif.Engine.Lemmas

namespace Verif.Progress

open Verif Verif.Engine Verif.Forward

variable {C F : Type} [DecidableEq C] [Add F]

theorem foldl_access (ops : List (Op C F)) (s : (C → F) × F × ℕ) :
    (ops.map Step.access).foldl (fun s st => Step.exec st s) s
      = ((runOps ops (s.1, s.2.1)).1, (runOps ops (s.1, s.2.1)).2, s.2.2) := by
  induction ops generalizing s with
  | nil => rfl
  | cons op ops ih =>
    simp only [List.map_cons, List.foldl_cons]
    rw [ih]; rfl

theorem body_foldl (b : Bool) (prog : ℕ → List (Op C F)) (i : ℕ) (s : (C → F) × F × ℕ) :
    (body b prog i).foldl (fun s st => Step.exec st s) s
      = ((runOps (prog i) (s.1, s.2.1)).1, (runOps (prog i) (s.1, s.2.1)).2,
          s.2.2 + if b then 1 else 0) := by
  unfold body
  rw [List.foldl_append, foldl_access]
  cases b <;> simp [Step.exec]

omit [DecidableEq C] [Add F] in
theorem body_length (b : Bool) (prog : ℕ → List (Op C F)) (i : ℕ) :
    (body b prog i).length = (prog i).length + if b then 1 else 0 := by
  unfold body; cases b <;> simp

theorem serial_eq (b : Bool) (prog : ℕ → List (Op C F)) (r0 : F) (mem : C → F) (shown n : ℕ) :
    barRun .serial n b prog r0 mem shown
      = (run .serial n prog r0 mem, shown + if b then n else 0) := by
  simp only [barRun, body_foldl, run]
  induction n with
  | zero => simp [runSerial]
  | succ n ih =>
    rw [List.range_succ, List.foldl_append, ih]
    simp only [List.foldl_cons, List.foldl_nil, runSerial, List.range_succ, List.foldl_append]
    cases b <;> simp [Nat.add_assoc]

/-- The accesses of a loop with a bar are those of the loop without it, for every schedule. -/
theorem schedule_sim (b : Bool) (prog : ℕ → List (Op C F)) (r0 : F) (mem : C → F) (shown : ℕ)
    (sched : List ℕ) :
    let s := sched.foldl (Engine.tick prog) { mem := mem, reg := fun _ => r0, pc := fun _ => 0 }
    let t := sched.foldl (tick (body b prog))
      { mem := mem, reg := fun _ => r0, pc := fun _ => 0, shown := shown }
    t.mem = s.mem ∧ t.reg = s.reg ∧ (∀ i, s.pc i = min (t.pc i) (prog i).length) ∧
      (∀ i, t.pc i = min (sched.count i) (body b prog i).length) ∧
      ∀ n, (∀ i ∈ sched, i < n) →
        t.shown = shown + ∑ i ∈ Finset.range n, (t.pc i - (prog i).length) := by
  induction sched using List.reverseRecOn with
  | nil => simp
  | append_singleton sched i ih =>
    rw [List.foldl_append, List.foldl_append]
    simp only [List.foldl_cons, List.foldl_nil]
    generalize sched.foldl (Engine.tick prog)
      { mem := mem, reg := fun _ => r0, pc := fun _ => 0 } = s at ih
    generalize sched.foldl (tick (body b prog))
      { mem := mem, reg := fun _ => r0, pc := fun _ => 0, shown := shown } = t at ih
    obtain ⟨h1, h2, h3, h4, h5⟩ := ih
    have hcount : ∀ j, (sched ++ [i]).count j = sched.count j + if j = i then 1 else 0 := by
      intro j
      rw [List.count_append]
      by_cases hj : j = i
      · subst hj; simp
      · have : List.count j [i] = 0 := by simp [List.count_eq_zero, hj]
        simp [this, hj]
    have hbl := body_length b prog i
    have h5' : (∀ n, (∀ j ∈ sched ++ [i], j < n) →
        t.shown = shown + ∑ j ∈ Finset.range n, (t.pc j - (prog j).length)) :=
      fun n hn => h5 n fun j hj => hn j (by simp [hj])
    by_cases hlt : t.pc i < (prog i).length
    · -- an access
      have hs : s.pc i = t.pc i := by rw [h3 i]; omega
      have hop : (prog i)[s.pc i]? = some (prog i)[t.pc i] := by
        rw [hs]; exact List.getElem?_eq_getElem hlt
      have hst : (body b prog i)[t.pc i]? = some (.access (prog i)[t.pc i]) := by
        unfold body
        rw [List.getElem?_append_left (by simpa using hlt)]
        simp [List.getElem?_map, List.getElem?_eq_getElem hlt]
      unfold Engine.tick tick
      simp only [hop, hst, Step.exec, h1, h2]
      refine ⟨trivial, trivial, fun j => ?_, fun j => ?_, fun n hn => ?_⟩
      · by_cases hj : j = i
        · subst hj; simp only [if_true]; omega
        · simp only [hj, if_false]; exact h3 j
      · rw [hcount]
        by_cases hj : j = i
        · subst hj
          have h4i := h4 j
          simp only [if_true]
          omega
        · simp only [hj, if_false, Nat.add_zero]; exact h4 j
      · rw [h5' n hn]
        congr 1
        refine Finset.sum_congr rfl fun j _ => ?_
        by_cases hj : j = i
        · subst hj; simp only [if_true]; omega
        · simp only [hj, if_false]
    · -- the update, or nothing
      have hop : (prog i)[s.pc i]? = none := by
        rw [h3 i]; simp; omega
      by_cases hb : t.pc i < (body b prog i).length
      · have hbt : b = true := by
          cases b with
          | true => rfl
          | false => simp at hbl; omega
        subst hbt
        simp only [if_true] at hbl
        have heq : t.pc i = (prog i).length := by omega
        have hst : (body true prog i)[t.pc i]? = some (.update 1) := by
          unfold body
          rw [heq, List.getElem?_append_right (by simp)]
          simp
        unfold Engine.tick tick
        simp only [hop, hst, Step.exec]
        refine ⟨h1, ?_, fun j => ?_, fun j => ?_, fun n hn => ?_⟩
        · rw [← h2]; funext j
          by_cases hj : j = i
          · subst hj; simp
          · simp [hj]
        · by_cases hj : j = i
          · subst hj; simp only [if_true]; rw [h3 j]; omega
          · simp only [hj, if_false]; exact h3 j
        · rw [hcount]
          by_cases hj : j = i
          · subst hj
            have h4i := h4 j
            simp only [if_true]
            omega
          · simp only [hj, if_false, Nat.add_zero]; exact h4 j
        · rw [h5' n hn, Nat.add_assoc]
          congr 1
          have hi : i ∈ Finset.range n := Finset.mem_range.2 (hn i (by simp))
          rw [← Finset.add_sum_erase _ _ hi, ← Finset.add_sum_erase _ _ hi]
          have : ∑ x ∈ (Finset.range n).erase i, ((if x = i then t.pc i + 1 else t.pc x) -
              (prog x).length) = ∑ x ∈ (Finset.range n).erase i, (t.pc x - (prog x).length) :=
            Finset.sum_congr rfl fun j hj => by
              rw [if_neg (Finset.ne_of_mem_erase hj)]
          rw [this]
          simp only [if_true]
          omega
      · have hst : (body b prog i)[t.pc i]? = none := by simp; omega
        unfold Engine.tick tick
        simp only [hop, hst]
        refine ⟨h1, h2, h3, fun j => ?_, h5'⟩
        rw [hcount]
        by_cases hj : j = i
        · subst hj
          have h4i := h4 j
          simp only [if_true]
          omega
        · simp only [hj, if_false, Nat.add_zero]; exact h4 j

/-- The output of a loop does not depend on the bar, for every schedule, complete or not. -/
theorem barRun_fst (mode : Mode) (n : ℕ) (b : Bool) (prog : ℕ → List (Op C F)) (r0 : F)
    (mem : C → F) (shown : ℕ) : (barRun mode n b prog r0 mem shown).1 = run mode n prog r0 mem := by
  cases mode with
  | serial => rw [serial_eq]
  | parallel sched =>
    exact (schedule_sim b prog r0 mem shown sched).1

/-- A bar counts the iterations of a complete run. -/
theorem barRun_snd (mode : Mode) (n k : ℕ) (prog : ℕ → List (Op C F)) (r0 : F)
    (mem : C → F) (shown : ℕ) (hm : mode.Full n k) (hk : ∀ i < n, (prog i).length + 1 ≤ k) :
    (barRun mode n true prog r0 mem shown).2 = shown + n := by
  cases mode with
  | serial => rw [serial_eq]; simp
  | parallel sched =>
    obtain ⟨-, -, -, h4, h5⟩ := schedule_sim true prog r0 mem shown sched
    simp only [barRun]
    rw [h5 n hm.1]
    congr 1
    have : ∀ i ∈ Finset.range n, ((sched.foldl (tick (body true prog))
        { mem := mem, reg := fun _ => r0, pc := fun _ => 0, shown := shown }).pc i
          - (prog i).length) = 1 := by
      intro i hi
      have hi' := Finset.mem_range.1 hi
      rw [h4 i, body_length]
      have := hm.2 i hi'
      have := hk i hi'
      simp only [if_true]
      omega
    rw [Finset.sum_congr rfl this]; simp

theorem withBar_false (installed : Bool) (total : ℕ) (mode : Mode) (n : ℕ)
    (prog : ℕ → List (Op C F)) (r0 : F) (mem : C → F) :
    withBar installed false total mode n prog r0 mem = .ok (run mode n prog r0 mem, none) := by
  simp only [withBar, initializeProgressbar, Bool.not_false, if_true, Py.pure_eq, Py.bind_ok,
    barRun_fst]

theorem withBar_missing (total : ℕ) (mode : Mode) (n : ℕ)
    (prog : ℕ → List (Op C F)) (r0 : F) (mem : C → F) :
    withBar false true total mode n prog r0 mem = .error .ImportError := rfl

theorem withBar_true (total : ℕ) (mode : Mode) (n k : ℕ)
    (prog : ℕ → List (Op C F)) (r0 : F) (mem : C → F) (hm : mode.Full n k)
    (hk : ∀ i < n, (prog i).length + 1 ≤ k) :
    withBar true true total mode n prog r0 mem
      = .ok (run mode n prog r0 mem, some ⟨total, n⟩) := by
  simp only [withBar, initializeProgressbar, Bool.not_true, Py.pure_eq,
    barRun_fst, barRun_snd mode n k prog r0 mem _ hm hk]
  simp [Py.bind_ok]

end Verif.Progress
