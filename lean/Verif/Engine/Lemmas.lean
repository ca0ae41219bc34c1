import Verif.Engine.Model
import Mathlib.Data.List.Induction
import Mathlib.Algebra.BigOperators.Group.List.Basic

namespace Verif.Engine

variable {C F : Type} [DecidableEq C] [Add F]

/-- The loop iteration `i` accesses only cells owned by `i`. -/
def Disjoint (owner : C → Nat) (prog : Nat → List (Op C F)) : Prop :=
  ∀ i, ∀ op ∈ prog i, owner op.cell = i

theorem exec_other (op : Op C F) (s : (C → F) × F) (c : C) (h : c ≠ op.cell) :
    (op.exec s).1 c = s.1 c := by
  cases op <;> simp_all [Op.exec, Op.cell]

/-- agreement of two states on the cells owned by `i` and on the register -/
def Agree (owner : C → Nat) (i : Nat) (s t : (C → F) × F) : Prop :=
  (∀ c, owner c = i → s.1 c = t.1 c) ∧ s.2 = t.2

theorem exec_agree (owner : C → Nat) (i : Nat) (op : Op C F) (h : owner op.cell = i)
    (s t : (C → F) × F) (ha : Agree owner i s t) : Agree owner i (op.exec s) (op.exec t) := by
  obtain ⟨h1, h2⟩ := ha
  cases op with
  | load c => exact ⟨h1, h1 c h⟩
  | store c v =>
    refine ⟨fun c' hc' => ?_, h2⟩
    simp only [Op.exec]; split
    · rw [h2]
    · exact h1 c' hc'
  | put c v =>
    refine ⟨fun c' hc' => ?_, h2⟩
    simp only [Op.exec]; split
    · rfl
    · exact h1 c' hc'
  | apply c f =>
    refine ⟨fun c' hc' => ?_, h2⟩
    simp only [Op.exec]; split
    · rw [h2]
    · exact h1 c' hc'

theorem runOps_agree (owner : C → Nat) (i : Nat) (ops : List (Op C F))
    (h : ∀ op ∈ ops, owner op.cell = i)
    (s t : (C → F) × F) (ha : Agree owner i s t) :
    Agree owner i (runOps ops s) (runOps ops t) := by
  induction ops generalizing s t with
  | nil => exact ha
  | cons op ops ih =>
    exact ih (fun o ho => h o (List.mem_cons_of_mem _ ho)) _ _
      (exec_agree owner i op (h op (by simp)) s t ha)

theorem runOps_other (owner : C → Nat) (i : Nat) (ops : List (Op C F))
    (h : ∀ op ∈ ops, owner op.cell = i) (s : (C → F) × F) (c : C) (hc : owner c ≠ i) :
    (runOps ops s).1 c = s.1 c := by
  induction ops generalizing s with
  | nil => rfl
  | cons op ops ih =>
    have h1 := ih (fun o ho => h o (List.mem_cons_of_mem _ ho)) (op.exec s)
    rw [show runOps (op :: ops) s = runOps ops (op.exec s) from rfl, h1]
    apply exec_other
    intro hcc
    exact hc (hcc ▸ h op (by simp))

theorem runOps_append (a b : List (Op C F)) (s : (C → F) × F) :
    runOps (a ++ b) s = runOps b (runOps a s) := by
  simp [runOps]

/-- Value of a cell after the serial loop. -/
theorem runSerial_cell (owner : C → Nat) (n : Nat) (prog : Nat → List (Op C F))
    (hd : Disjoint owner prog) (r0 : F) (mem : C → F) (c : C) :
    runSerial n prog r0 mem c =
      if owner c < n then (runOps (prog (owner c)) (mem, r0)).1 c else mem c := by
  induction n with
  | zero => simp [runSerial]
  | succ n ih =>
    have hstep : runSerial (n + 1) prog r0 mem
        = (runOps (prog n) (runSerial n prog r0 mem, r0)).1 := by
      simp [runSerial, List.range_succ]
    rw [hstep]
    by_cases hc : owner c = n
    · have := (runOps_agree owner n (prog n) (hd n) (runSerial n prog r0 mem, r0) (mem, r0)
        ⟨?_, rfl⟩).1 c hc
      · rw [this]; simp [hc]
      · intro c' hc'
        have : ∀ m ≤ n, runSerial m prog r0 mem c' = mem c' := by
          intro m hm
          induction m with
          | zero => rfl
          | succ m ihm =>
            have : runSerial (m + 1) prog r0 mem
                = (runOps (prog m) (runSerial m prog r0 mem, r0)).1 := by
              simp [runSerial, List.range_succ]
            rw [this, runOps_other owner m (prog m) (hd m) _ c' (by omega)]
            exact ihm (by omega)
        exact this n (Nat.le_refl n)
    · rw [runOps_other owner n (prog n) (hd n) _ c hc]
      show runSerial n prog r0 mem c = _
      rw [ih]
      by_cases h : owner c < n
      · simp [h, Nat.lt_succ_of_lt h]
      · have : ¬ owner c < n + 1 := by omega
        simp [h, this]

/-- Invariant of a parallel execution. -/
theorem schedule_inv (owner : C → Nat) (prog : Nat → List (Op C F))
    (hd : Disjoint owner prog) (r0 : F) (mem : C → F) (sched : List Nat) :
    let s := sched.foldl (tick prog) { mem := mem, reg := fun _ => r0, pc := fun _ => 0 }
    (∀ i, s.pc i = min (sched.count i) (prog i).length) ∧
    (∀ i, s.reg i = (runOps ((prog i).take (s.pc i)) (mem, r0)).2) ∧
    (∀ c, s.mem c = (runOps ((prog (owner c)).take (s.pc (owner c))) (mem, r0)).1 c) := by
  induction sched using List.reverseRecOn with
  | nil =>
    refine ⟨by intro i; simp, by intro i; simp [runOps], by intro c; simp [runOps]⟩
  | append_singleton sched i ih =>
    rw [List.foldl_append]
    simp only [List.foldl_cons, List.foldl_nil]
    generalize hs : sched.foldl (tick prog)
      { mem := mem, reg := fun _ => r0, pc := fun _ => 0 } = s at ih
    obtain ⟨h1, h2, h3⟩ := ih
    unfold tick
    rcases hop : (prog i)[s.pc i]? with _ | op
    · -- finished
      simp only
      refine ⟨fun j => ?_, h2, h3⟩
      rw [h1 j]
      have hlen : (prog i).length ≤ s.pc i := by
        simpa using hop
      by_cases hj : j = i
      · subst hj
        rw [h1 j] at hlen
        simp only [List.count_append, List.count_singleton_self]
        omega
      · have : List.count j [i] = 0 := by simp [List.count_eq_zero, hj]
        simp [List.count_append, this]
    · simp only
      have hlt : s.pc i < (prog i).length := (List.getElem?_eq_some_iff.1 hop).1
      have hget : (prog i)[s.pc i] = op := (List.getElem?_eq_some_iff.1 hop).2
      have htake : (prog i).take (s.pc i + 1) = (prog i).take (s.pc i) ++ [op] := by
        rw [List.take_add_one, hop]; rfl
      have hmemop : op ∈ prog i := hget ▸ List.getElem_mem hlt
      have howner : owner op.cell = i := hd i op hmemop
      -- agreement of the current state with the private run of iteration i
      have hag : Agree owner i (s.mem, s.reg i)
          (runOps ((prog i).take (s.pc i)) (mem, r0)) := by
        refine ⟨fun c hc => ?_, h2 i⟩
        have := h3 c; rw [hc] at this; exact this
      have hag' := exec_agree owner i op howner _ _ hag
      refine ⟨fun j => ?_, fun j => ?_, fun c => ?_⟩
      · by_cases hj : j = i
        · subst hj
          rw [h1 j] at hlt
          simp only [if_true, List.count_append, List.count_singleton_self]
          rw [h1 j]; omega
        · have : List.count j [i] = 0 := by simp [List.count_eq_zero, hj]
          simp [hj, List.count_append, this, h1 j]
      · by_cases hj : j = i
        · subst hj
          simp only [if_true]
          rw [htake, runOps_append]
          exact hag'.2
        · simp only [hj, if_false]; exact h2 j
      · by_cases hc : owner c = i
        · simp only [hc, if_true]
          rw [htake, runOps_append]
          exact hag'.1 c hc
        · simp only [hc, if_false]
          rw [exec_other]
          · exact h3 c
          · intro hcc; exact hc (hcc ▸ howner)

/-- Parallel execution under any complete schedule gives the memory of the serial execution. -/
theorem run_parallel_eq_serial (owner : C → Nat) (n : Nat) (prog : Nat → List (Op C F))
    (hd : Disjoint owner prog) (r0 : F) (mem : C → F)
    (sched : List Nat) (hc : Complete n prog sched) :
    run (.parallel sched) n prog r0 mem = run .serial n prog r0 mem := by
  funext c
  obtain ⟨h1, -, h3⟩ := schedule_inv owner prog hd r0 mem sched
  simp only [run]
  rw [runSerial_cell owner n prog hd r0 mem c]
  unfold runSchedule
  rw [h3 c, h1]
  by_cases h : owner c < n
  · rw [if_pos h, Nat.min_eq_right (hc.2 _ h), List.take_length]
  · have : List.count (owner c) sched = 0 :=
      List.count_eq_zero.2 (fun hm => h (hc.1 _ hm))
    rw [if_neg h, this]; simp [runOps]

/-- `out[c] += v` for each `v` of a list, seen from the cell. -/
theorem runOps_accum (c : C) (vs : List F) (mem : C → F) (r : F) :
    (runOps (vs.flatMap (fun v => accum c v)) (mem, r)).1 c = vs.foldl (· + ·) (mem c) := by
  induction vs generalizing mem r with
  | nil => rfl
  | cons v vs ih =>
    rw [List.flatMap_cons, runOps_append]
    rw [show runOps (accum c v) (mem, r)
      = (fun c' => if c' = c then mem c + v else mem c', mem c) from rfl]
    rw [ih]; simp

/-- A loop whose iterations own disjoint cells gives the serial result in every mode. -/
theorem run_eq_serial (owner : C → Nat) (n k : Nat) (prog : Nat → List (Op C F))
    (hd : Disjoint owner prog) (r0 : F) (mem : C → F) (mode : Mode) (hm : mode.Full n k)
    (hk : ∀ i < n, (prog i).length ≤ k) :
    run mode n prog r0 mem = runSerial n prog r0 mem := by
  cases mode with
  | serial => rfl
  | parallel sched =>
    exact run_parallel_eq_serial owner n prog hd r0 mem sched
      ⟨hm.1, fun i hi => Nat.le_trans (hk i hi) (hm.2 i hi)⟩

/-- Result of the accumulation loop `for i: for v in vals i: out[i] += v`. -/
theorem run_accum (n k : Nat) (vals : Nat → List F) (r0 : F) (mem : Nat → F)
    (mode : Mode) (hm : mode.Full n k) (hk : ∀ i < n, 2 * (vals i).length ≤ k) (i : Nat) :
    run mode n (fun i => (vals i).flatMap (accum i)) r0 mem i =
      if i < n then (vals i).foldl (· + ·) (mem i) else mem i := by
  rw [run_eq_serial (fun c => c) n k _ _ r0 mem mode hm]
  · rw [runSerial_cell (fun c => c)]
    · split
      · exact runOps_accum i (vals i) mem r0
      · rfl
    · intro i op hop
      simp only [List.mem_flatMap, accum] at hop
      obtain ⟨v, -, hv⟩ := hop
      simp at hv
      rcases hv with rfl | rfl <;> rfl
  · intro i hi
    have := hk i hi
    simp only [List.length_flatMap, accum]
    simp
    omega
  · intro i op hop
    simp only [List.mem_flatMap, accum] at hop
    obtain ⟨v, -, hv⟩ := hop
    simp at hv
    rcases hv with rfl | rfl <;> rfl

omit [Add F] in
theorem accum3_owner (i : Nat) (vs : List (F × F × F)) (op : Op (Fin 3 × Nat) F)
    (h : op ∈ vs.flatMap (accum3 i)) : op.cell.2 = i := by
  simp only [List.mem_flatMap, accum3, accum] at h
  obtain ⟨v, -, hv⟩ := h
  simp at hv
  rcases hv with rfl | rfl | rfl | rfl | rfl | rfl <;> rfl

theorem runOps_accum3 (i : Nat) (vs : List (F × F × F)) (mem : Fin 3 × Nat → F) (r : F) :
    let out := (runOps (vs.flatMap (accum3 i)) (mem, r)).1
    out (0, i) = (vs.map (·.1)).foldl (· + ·) (mem (0, i)) ∧
    out (1, i) = (vs.map (·.2.1)).foldl (· + ·) (mem (1, i)) ∧
    out (2, i) = (vs.map (·.2.2)).foldl (· + ·) (mem (2, i)) := by
  induction vs generalizing mem r with
  | nil => exact ⟨rfl, rfl, rfl⟩
  | cons v vs ih =>
    intro out
    have : out = (runOps (vs.flatMap (accum3 i)) (runOps (accum3 i v) (mem, r))).1 := by
      simp only [out, List.flatMap_cons, runOps_append]
    rw [this]
    obtain ⟨h0, h1, h2⟩ := ih (runOps (accum3 i v) (mem, r)).1 (runOps (accum3 i v) (mem, r)).2
    refine ⟨h0.trans ?_, h1.trans ?_, h2.trans ?_⟩ <;>
      simp [accum3, accum, runOps, Op.exec]

/-- Result of the vector accumulation loop. -/
theorem run_accum3 (n k : Nat) (vals : Nat → List (F × F × F)) (r0 : F) (mem : Fin 3 × Nat → F)
    (mode : Mode) (hm : mode.Full n k) (hk : ∀ i < n, 6 * (vals i).length ≤ k) (i : Nat) :
    let out := run mode n (fun i => (vals i).flatMap (accum3 i)) r0 mem
    out (0, i) = (if i < n then ((vals i).map (·.1)).foldl (· + ·) (mem (0, i)) else mem (0, i)) ∧
    out (1, i) =
      (if i < n then ((vals i).map (·.2.1)).foldl (· + ·) (mem (1, i)) else mem (1, i)) ∧
    out (2, i) =
      (if i < n then ((vals i).map (·.2.2)).foldl (· + ·) (mem (2, i)) else mem (2, i)) := by
  intro out
  have h : out = runSerial n (fun i => (vals i).flatMap (accum3 i)) r0 mem := by
    refine run_eq_serial (fun c => c.2) n k _ ?_ r0 mem mode hm ?_
    · intro i op hop; exact accum3_owner i _ op hop
    · intro i hi
      have := hk i hi
      simp only [List.length_flatMap, accum3, accum]
      simp
      omega
  have hd : Disjoint (fun c : Fin 3 × Nat => c.2) (fun i => (vals i).flatMap (accum3 i)) :=
    fun i op hop => accum3_owner i _ op hop
  obtain ⟨a0, a1, a2⟩ := runOps_accum3 i (vals i) mem r0
  rw [h]
  refine ⟨?_, ?_, ?_⟩ <;> rw [runSerial_cell (fun c => c.2) n _ hd] <;> simp only <;> split <;>
    simp_all

/-- foldl with addition is the sum -/
theorem foldl_add_eq_sum {M : Type} [AddCommMonoid M] (l : List M) (a : M) :
    l.foldl (· + ·) a = a + l.sum := by
  induction l generalizing a with
  | nil => simp
  | cons x l ih => simp [ih, add_assoc]

end Verif.Engine
