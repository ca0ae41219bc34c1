import Verif.Igrf.LemmasB

/-! Helper lemmas for C58 and C01: the grid. -/

namespace Verif.Igrf

open Verif.Legendre Verif.Engine

noncomputable section

/-- Segments of a program that touch different cells. -/
theorem runOps_segments {C : Type} [DecidableEq C] (key : C → ℕ) (seg : ℕ → List (Op C ℝ))
    (hseg : ∀ j, ∀ op ∈ seg j, key op.cell = j) (l : List ℕ) (hl : l.Nodup) (c : C) (F : ℝ → ℝ)
    (hF : ∀ mem r, (runOps (seg (key c)) (mem, r)).1 c = F (mem c)) (mem : C → ℝ) (r : ℝ) :
    (runOps (l.flatMap seg) (mem, r)).1 c = if key c ∈ l then F (mem c) else mem c := by
  induction l generalizing mem r with
  | nil => simp [runOps]
  | cons j l ih =>
    rw [List.flatMap_cons, runOps_append]
    rw [List.nodup_cons] at hl
    rw [show runOps (seg j) (mem, r) = ((runOps (seg j) (mem, r)).1, (runOps (seg j) (mem, r)).2) from rfl,
      ih hl.2]
    by_cases h : key c = j
    · subst h
      rw [if_neg hl.1, if_pos (by simp), hF]
    · rw [runOps_other key j (seg j) (hseg j) _ c h]
      by_cases h' : key c ∈ l
      · rw [if_pos h', if_pos (by simp [h'])]
      · rw [if_neg h', if_neg (by simp [h, h'])]

/-! ### the table of sines and cosines -/

theorem trig_disjoint (junk : Junk) (lon : List ℝ) (N : ℕ) :
    Engine.Disjoint (fun c : Fin 2 × ℕ × ℕ => c.2.1) (trigProgram junk lon N) := by
  intro j op hop
  simp only [trigProgram, List.mem_flatMap] at hop
  obtain ⟨m, -, hm⟩ := hop
  simp at hm
  rcases hm with rfl | rfl <;> rfl

theorem trig_run (mode : Mode) (junk : Junk) (lon : List ℝ) (N : ℕ) (mem : Fin 2 × ℕ × ℕ → ℝ)
    (hm : mode.Full lon.length (2 * (N + 1))) :
    run mode lon.length (trigProgram junk lon N) 0 mem = run .serial lon.length (trigProgram junk lon N) 0 mem :=
  run_eq_serial (fun c => c.2.1) lon.length (2 * (N + 1)) _ (trig_disjoint junk lon N) 0 _ mode hm (by
    intro i _
    simp only [trigProgram, List.length_flatMap]
    simp
    omega)

theorem trig_value (junk : Junk) (lon : List ℝ) (N : ℕ) (hN : 1 ≤ N) (mem : Fin 2 × ℕ × ℕ → ℝ) (j m : ℕ)
    (hj : j < lon.length) (hm : m ≤ N) :
    run .serial lon.length (trigProgram junk lon N) 0 mem (0, j, m) = Real.cos (m * lon.getD j 0) ∧
    run .serial lon.length (trigProgram junk lon N) 0 mem (1, j, m) = Real.sin (m * lon.getD j 0) := by
  obtain ⟨h1, h2⟩ := cosSin_spec (lon.getD j 0) N (junk.c j) (junk.s j) hN m hm
  have hs : ∀ i, ∀ op ∈ (fun m => [Op.put ((0 : Fin 2), j, m) ((cosSin (lon.getD j 0) N (junk.c j)
      (junk.s j)).1 m), Op.put ((1 : Fin 2), j, m) ((cosSin (lon.getD j 0) N (junk.c j) (junk.s j)).2 m)]) i,
      (fun c : Fin 2 × ℕ × ℕ => c.2.2) op.cell = i := by
    intro i op hop
    simp at hop
    rcases hop with rfl | rfl <;> rfl
  simp only [run, runSerial_cell (fun c : Fin 2 × ℕ × ℕ => c.2.1) lon.length _ (trig_disjoint junk lon N), hj,
    if_true]
  unfold trigProgram
  constructor
  · have := runOps_segments (fun c : Fin 2 × ℕ × ℕ => c.2.2) _ hs (List.range (N + 1)) List.nodup_range
      (0, j, m) (fun _ => Real.cos (m * lon.getD j 0)) (by
        intro mem r
        rw [← h1]
        generalize cosSin (lon.getD j 0) N (junk.c j) (junk.s j) = cs
        simp [runOps, Op.exec]) mem 0
    rw [if_pos (by simpa using by omega)] at this
    exact this
  · have := runOps_segments (fun c : Fin 2 × ℕ × ℕ => c.2.2) _ hs (List.range (N + 1)) List.nodup_range
      (1, j, m) (fun _ => Real.sin (m * lon.getD j 0)) (by
        intro mem r
        rw [← h2]
        generalize cosSin (lon.getD j 0) N (junk.c j) (junk.s j) = cs
        simp [runOps, Op.exec]) mem 0
    rw [if_pos (by simpa using by omega)] at this
    exact this

/-! ### the loop on the parallels -/

theorem gridProgram_blocks (junk : Junk) (n_lon : ℕ) (colat : List ℝ) (nr : ℕ → ℕ → ℝ) (g h : Arr)
    (c s : ℕ → ℕ → ℝ) (a N : ℕ) (hN : 1 ≤ N) (i : ℕ) : ∃ vs : ℕ → List V3,
    gridProgram junk n_lon colat nr g h c s a N i =
      (List.range n_lon).flatMap (fun j => block (i, j) (vs j) (Real.sin (colat.getD i 0))) ∧
    ∀ j, (vs j).length ≤ (N + 1) * (N + 1) := by
  unfold gridProgram
  have : ∃ p dp, legendreAt (colat.getD i 0) N (junk.p i) (junk.dp i) = .ok (p, dp) := by
    unfold legendreAt associatedLegendreSchmidt associatedLegendreSchmidtDerivative
    rw [if_neg (by omega), Py.bind_ok, if_neg (by omega), Py.bind_ok]
    exact ⟨_, _, rfl⟩
  obtain ⟨p, dp, hp⟩ := this
  simp only [hp]
  exact ⟨_, rfl, fun _ => synthesis_length _ _ _ _ _ _ _ _ _⟩

theorem grid_disjoint (junk : Junk) (n_lon : ℕ) (colat : List ℝ) (nr : ℕ → ℕ → ℝ) (g h : Arr)
    (c s : ℕ → ℕ → ℝ) (a N : ℕ) (hN : 1 ≤ N) :
    Engine.Disjoint (fun c : Fin 3 × ℕ × ℕ => c.2.1) (gridProgram junk n_lon colat nr g h c s a N) := by
  intro i op hop
  obtain ⟨vs, e, -⟩ := gridProgram_blocks junk n_lon colat nr g h c s a N hN i
  rw [e, List.mem_flatMap] at hop
  obtain ⟨j, -, hj⟩ := hop
  have := block_cells (i, j) (vs j) _ op hj
  simp only [this]

theorem grid_run (mode : Mode) (junk : Junk) (n_lon : ℕ) (colat : List ℝ) (nr : ℕ → ℕ → ℝ) (g h : Arr)
    (c s : ℕ → ℕ → ℝ) (a N : ℕ) (hN : 1 ≤ N) (mem : Fin 3 × ℕ × ℕ → ℝ)
    (hm : mode.Full colat.length (n_lon * accesses N)) :
    run mode colat.length (gridProgram junk n_lon colat nr g h c s a N) 0 mem =
      run .serial colat.length (gridProgram junk n_lon colat nr g h c s a N) 0 mem :=
  run_eq_serial (fun c => c.2.1) colat.length (n_lon * accesses N) _
    (grid_disjoint junk n_lon colat nr g h c s a N hN) 0 _ mode hm (by
    intro i _
    obtain ⟨vs, e, hl⟩ := gridProgram_blocks junk n_lon colat nr g h c s a N hN i
    rw [e, List.length_flatMap]
    have : ∀ l : List ℕ, (l.map fun j => (block (i, j) (vs j) (Real.sin (colat.getD i 0))).length).sum ≤
        l.length * accesses N := by
      intro l
      induction l with
      | nil => simp
      | cons j l ih =>
        have h1 := (block_length (i, j) (vs j) (Real.sin (colat.getD i 0))).trans
          (show 6 * (vs j).length + 2 ≤ accesses N by have := hl j; unfold accesses; omega)
        simp only [List.map_cons, List.sum_cons, List.length_cons]
        nlinarith
    simpa using this (List.range n_lon))

theorem grid_value (junk : Junk) (lon colat : List ℝ) (nr : ℕ → ℕ → ℝ) (g h : Arr) (c s : ℕ → ℕ → ℝ)
    (a N : ℕ) (hN : 1 ≤ N) (i j : ℕ) (hi : i < colat.length) (hj : j < lon.length)
    (hθ : colat.getD i 0 ∈ Set.Icc 0 Real.pi)
    (hc : ∀ m ≤ N, c j m = Real.cos (m * lon.getD j 0) ∧ s j m = Real.sin (m * lon.getD j 0)) :
    let out := run .serial colat.length (gridProgram junk lon.length colat nr g h c s a N) 0 (fun _ => 0)
    (out (0, i, j), out (1, i, j), out (2, i, j)) =
      field g h a N (lon.getD j 0, colat.getD i 0, nr i j) := by
  intro out
  obtain ⟨p, dp, hp, hv⟩ := legendreAt_spec (colat.getD i 0) hθ N hN (junk.p i) (junk.dp i)
  have e : gridProgram junk lon.length colat nr g h c s a N i = (List.range lon.length).flatMap fun j =>
      block (i, j) (synthesis (nr i j) g h p dp (c j) (s j) a N) (Real.sin (colat.getD i 0)) := by
    unfold gridProgram
    simp only [hp]
    rfl
  have hs : ∀ k, ∀ op ∈ (fun j => block (i, j) (synthesis (nr i j) g h p dp (c j) (s j) a N)
      (Real.sin (colat.getD i 0))) k, (fun c : Fin 3 × ℕ × ℕ => c.2.2) op.cell = k := by
    intro k op hop
    have := block_cells (i, k) _ _ op hop
    simp only [this]
  have hb := fun mem r => runOps_block (i, j) (synthesis (nr i j) g h p dp (c j) (s j) a N)
    (Real.sin (colat.getD i 0)) mem r
  have hcell : ∀ q : Fin 3, out (q, i, j) = (runOps (block (i, j) (synthesis (nr i j) g h p dp (c j) (s j) a N)
      (Real.sin (colat.getD i 0))) (fun _ => 0, 0)).1 (q, i, j) := by
    have hcell' : ∀ (q : Fin 3) (F : ℝ → ℝ), (∀ mem r, (runOps (block (i, j) (synthesis (nr i j) g h p dp
        (c j) (s j) a N) (Real.sin (colat.getD i 0))) (mem, r)).1 (q, i, j) = F (mem (q, i, j))) →
        out (q, i, j) = F 0 := by
      intro q F hF
      simp only [out, run, runSerial_cell (fun c : Fin 3 × ℕ × ℕ => c.2.1) colat.length _
        (grid_disjoint junk lon.length colat nr g h c s a N hN), hi, if_true]
      rw [e]
      have := runOps_segments (fun c : Fin 3 × ℕ × ℕ => c.2.2) _ hs (List.range lon.length) List.nodup_range
        (q, i, j) F hF (fun _ => 0) 0
      rw [if_pos (by simpa using hj)] at this
      exact this
    intro q
    match q with
    | 0 => rw [hcell' 0 (fun y => if |Real.sin (colat.getD i 0)| < 1e-10 then 0 else (y + ((synthesis (nr i j) g h p dp
        (c j) (s j) a N).map (·.1)).sum) * (-1 / Real.sin (colat.getD i 0))) (fun mem r => (hb mem r).1), (hb (fun _ => 0) 0).1]
    | 1 => rw [hcell' 1 (fun y => y + ((synthesis (nr i j) g h p dp (c j) (s j) a N).map (·.2.1)).sum) (fun mem r => (hb mem r).2.1), (hb (fun _ => 0) 0).2.1]
    | 2 => rw [hcell' 2 (fun y => y + ((synthesis (nr i j) g h p dp (c j) (s j) a N).map (·.2.2)).sum) (fun mem r => (hb mem r).2.2), (hb (fun _ => 0) 0).2.2]
  rw [hcell, hcell, hcell]
  exact point_value (lon.getD j 0) (colat.getD i 0) (nr i j) g h a N p dp _ _
    (fun n m hn hm => ⟨(hv n m hn hm).1, (hv n m hn hm).2.1⟩) hc (i, j) _ (fun _ => rfl) 0

theorem magneticFieldGrid_field (mode mode' : Mode) (junk : Junk) (lon colat : List ℝ) (nr : ℕ → ℕ → ℝ)
    (g h : Arr) (a N : ℕ) (hN : 1 ≤ N) (hm : mode.Full lon.length (2 * (N + 1)))
    (hm' : mode'.Full colat.length (lon.length * accesses N))
    (hθ : ∀ t ∈ colat, t ∈ Set.Icc 0 Real.pi) :
    ∃ b, magneticFieldGrid mode mode' junk lon colat nr g h a N = .ok b ∧
      ∀ i j, i < colat.length → j < lon.length →
        b i j = field g h a N (lon.getD j 0, colat.getD i 0, nr i j) := by
  unfold magneticFieldGrid
  rw [if_neg (by omega)]
  refine ⟨_, rfl, fun i j hi hj => ?_⟩
  rw [trig_run mode junk lon N _ hm, grid_run mode' junk lon.length colat nr g h _ _ a N hN _ hm']
  refine grid_value junk lon colat nr g h _ _ a N hN i j hi hj ?_
    (fun m hm => trig_value junk lon N hN _ j m hj hm)
  rw [List.getD_eq_getElem?_getD, List.getElem?_eq_getElem hi, Option.getD_some]
  exact hθ _ (List.getElem_mem hi)

theorem magneticFieldGrid_eq (mode mode' : Mode) (junk : Junk) (lon colat : List ℝ) (nr : ℕ → ℕ → ℝ)
    (g h : Arr) (a N : ℕ) (hN : 1 ≤ N) (hm : mode.Full lon.length (2 * (N + 1)))
    (hm' : mode'.Full colat.length (lon.length * accesses N)) :
    magneticFieldGrid mode mode' junk lon colat nr g h a N =
      magneticFieldGrid .serial .serial junk lon colat nr g h a N := by
  unfold magneticFieldGrid
  rw [if_neg (by omega), if_neg (by omega), trig_run mode junk lon N _ hm]
  simp only [grid_run mode' junk lon.length colat nr g h _ _ a N hN _ hm']

end

end Verif.Igrf
