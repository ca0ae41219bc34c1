import Verif.Tesseroid.Lemmas

/-! Properties C12 to C17: validation, splitting, adaptive discretization and quadrature. -/

namespace Verif.Tesseroid
open Verif.Distance Verif.Forward Verif.Engine

/-! ## C12: validation -/

/-- C12: `_check_tesseroids` accepts exactly the lists in which every tesseroid satisfies the
documented conditions; otherwise it raises ValueError. -/
theorem C12_accepts_iff (ts : List Tess) :
    ((∃ ts', checkTesseroids ts = .ok ts') ↔ ∀ t ∈ ts, t.ValidRange ∧ t.ValidLon) ∧
    (∀ e, checkTesseroids ts = .error e → e = .ValueError) := by
  rw [checkTesseroids_eq]
  constructor
  · constructor
    · rintro ⟨ts', h⟩
      by_contra hc
      rw [if_neg hc] at h
      simp at h
    · intro h; exact ⟨_, if_pos h⟩
  · intro e h
    split at h <;> simp at h
    exact h.symm

/-- C12: the tesseroids that are returned describe the same bodies, one by one, with boundaries in
order and not wider than one turn; tesseroids that were already in order are not touched. -/
theorem C12_same_bodies (ts ts' : List Tess) (h : checkTesseroids ts = .ok ts') :
    List.Forall₂ (fun t t' => (∀ q, t'.Body q ↔ t.Body q) ∧ t'.w ≤ t'.e ∧ t'.e - t'.w ≤ 360 ∧
      t'.ValidRange ∧ (t.w ≤ t.e → t' = t) ∧
      t'.s = t.s ∧ t'.n = t.n ∧ t'.bottom = t.bottom ∧ t'.top = t.top) ts ts' := by
  rw [checkTesseroids_eq] at h
  split at h
  · rename_i hv
    simp at h
    subst h
    rw [List.forall₂_map_right_iff, List.forall₂_same]
    intro t ht
    have hl := (normLon_valid_iff t).1 (hv t ht).2
    refine ⟨normLon_body t (hv t ht).2, hl.1, hl.2, normLon_range t (hv t ht).1,
      normLon_of_le, ?_⟩
    unfold normLon
    split <;> simp
  · simp at h

/-- C12: the returned tesseroids are valid, so that checking twice is the same as checking once. -/
theorem C12_idempotent (ts ts' : List Tess) (h : checkTesseroids ts = .ok ts') :
    checkTesseroids ts' = .ok ts' := by
  have hf := C12_same_bodies ts ts' h
  have hm : ∀ t' ∈ ts', t'.w ≤ t'.e ∧ t'.e - t'.w ≤ 360 ∧ t'.ValidRange := by
    intro t' ht'
    obtain ⟨i, hi, rfl⟩ := List.getElem_of_mem ht'
    have := hf.get (i := i) (by rw [hf.length_eq]; exact hi) hi
    simp only [List.get_eq_getElem] at this
    exact ⟨this.2.1, this.2.2.1, this.2.2.2.1⟩
  rw [checkTesseroids_eq, if_pos fun t ht => ⟨(hm t ht).2.2, Or.inl ⟨(hm t ht).1, (hm t ht).2.1⟩⟩]
  rw [map_normLon_id ts']
  rintro ⟨t, ht, hlt⟩
  exact absurd (hm t ht).1 (not_le.2 hlt)

/-- a tesseroid written with west > east -/
example : checkTesseroids [⟨350, 10, -5, 5, 6000, 7000⟩] = .ok [⟨-10, 10, -5, 5, 6000, 7000⟩] := by
  have h1 : to180 350 = -10 := rep180_unique (to180_rep 350) ⟨by norm_num, by norm_num, -1, by norm_num⟩
  have h2 : to180 10 = 10 := rep180_unique (to180_rep 10) ⟨by norm_num, by norm_num, 0, by norm_num⟩
  rw [checkTesseroids_eq, if_pos]
  · norm_num [normLon, h1, h2]
  · simp only [List.mem_singleton, forall_eq]
    refine ⟨⟨by norm_num, by norm_num, by norm_num, by norm_num, by norm_num, by norm_num,
      by norm_num⟩, Or.inr ⟨by norm_num, -10, 10, ?_, ?_, by norm_num⟩⟩
    · exact ⟨by norm_num, by norm_num, -1, by norm_num⟩
    · exact ⟨by norm_num, by norm_num, 0, by norm_num⟩

/-- an invalid one: the south boundary above the north one -/
example : checkTesseroids [⟨0, 10, 5, -5, 6000, 7000⟩] = .error .ValueError := by
  rw [checkTesseroids_eq, if_neg]
  simp only [List.mem_singleton, forall_eq]
  intro h
  have := h.1.sn
  norm_num at this

/-! ## C13: longitude conventions -/

/-- C13, full statement: every arc written with west > east, less than one turn, both boundaries in
the allowed interval, is accepted. -/
def C13_full : Prop :=
  ∀ t : Tess, t.ValidRange → t.w > t.e → t.w - t.e < 360 → ∃ ts', checkTesseroids [t] = .ok ts'

/-- C13 is false of the code: the arc from 350° eastwards to 180° crosses the 0/360 meridian and is
rejected, and so is the arc from 170° to -170°, which crosses the ±180 meridian. -/
theorem C13_not_all_arcs_accepted : ¬ C13_full ∧
    checkTesseroids [⟨350, 180, -5, 5, 6000, 7000⟩] = .error .ValueError ∧
    checkTesseroids [⟨170, -170, -5, 5, 6000, 7000⟩] = .error .ValueError := by
  have a1 : checkTesseroids [⟨350, 180, -5, 5, 6000, 7000⟩] = .error .ValueError := by
    rw [checkTesseroids_eq, if_neg]
    simp only [List.mem_singleton, forall_eq]
    rintro ⟨-, (⟨h, -⟩ | ⟨-, w', e', hw, he, h⟩)⟩
    · norm_num at h
    · have := rep180_unique hw (r' := -10) ⟨by norm_num, by norm_num, -1, by norm_num⟩
      have := rep180_unique he (r' := -180) ⟨by norm_num, by norm_num, -1, by norm_num⟩
      subst_vars; norm_num at h
  refine ⟨?_, a1, ?_⟩
  · intro hf
    obtain ⟨ts', h⟩ := hf ⟨350, 180, -5, 5, 6000, 7000⟩ ⟨by norm_num, by norm_num, by norm_num,
      by norm_num, by norm_num, by norm_num, by norm_num⟩ (by norm_num) (by norm_num)
    rw [a1] at h; simp at h
  · rw [checkTesseroids_eq, if_neg]
    simp only [List.mem_singleton, forall_eq]
    rintro ⟨-, (⟨h, -⟩ | ⟨-, w', e', hw, he, h⟩)⟩
    · norm_num at h
    · have := rep180_unique hw (r' := 170) ⟨by norm_num, by norm_num, 0, by norm_num⟩
      have := rep180_unique he (r' := -170) ⟨by norm_num, by norm_num, 0, by norm_num⟩
      subst_vars; norm_num at h

/-- C13, what holds: an arc written with west > east is accepted exactly when west is at least 180,
east is below 180 and the arc moved to [-180, 180) does not wrap again. Missing with respect to
`C13_full`: the arcs that do not satisfy this. -/
theorem C13_wrap_accepted_partial (t : Tess) (ht : t.ValidRange) (hwe : t.w > t.e) :
    (∃ ts', checkTesseroids [t] = .ok ts') ↔ (180 ≤ t.w ∧ t.e < 180 ∧ t.w - 360 ≤ t.e) := by
  rw [(C12_accepts_iff [t]).1]
  simp only [List.mem_singleton, forall_eq, ht, true_and]
  unfold Tess.ValidLon
  have hw := ht.lon_w
  have he := ht.lon_e
  have low : ∀ x : ℝ, -180 ≤ x → x < 180 → IsRep180 x x :=
    fun x h1 h2 => ⟨h1, h2, 0, by norm_num⟩
  have high : ∀ x : ℝ, 180 ≤ x → x ≤ 360 → IsRep180 x (x - 360) :=
    fun x h1 h2 => ⟨by linarith, by linarith, -1, by push_cast; ring⟩
  constructor
  · rintro (⟨h, -⟩ | ⟨-, w', e', h1, h2, h3⟩)
    · exact absurd h (not_le.2 hwe)
    · by_cases c1 : t.w < 180
      · have a := rep180_unique h1 (low _ hw.1 c1)
        have b := rep180_unique h2 (low _ he.1 (by linarith))
        linarith
      · have a := rep180_unique h1 (high _ (not_lt.1 c1) hw.2)
        by_cases c2 : t.e < 180
        · have b := rep180_unique h2 (low _ he.1 c2)
          exact ⟨not_lt.1 c1, c2, by linarith⟩
        · have b := rep180_unique h2 (high _ (not_lt.1 c2) he.2)
          linarith
  · rintro ⟨h1, h2, h3⟩
    exact Or.inr ⟨hwe, _, _, high _ h1 hw.2, low _ he.1 h2, h3⟩

example : ∃ ts', checkTesseroids [⟨350, 10, -5, 5, 6000, 7000⟩] = .ok ts' :=
  (C13_wrap_accepted_partial _ ⟨by norm_num, by norm_num, by norm_num, by norm_num, by norm_num,
    by norm_num, by norm_num⟩ (by norm_num)).2 (by norm_num)

/-! ## C14: points inside tesseroids -/

/-- C14, full statement: for validated tesseroids, the check raises iff some point is strictly
inside of some tesseroid. -/
def C14_full : Prop :=
  ∀ (junk : Junk) (obs : List P3) (ts0 ts : List Tess), checkTesseroids ts0 = .ok ts →
    (checkPointsOutside junk (obs.map (·.x)) (obs.map (·.y)) (obs.map (·.z)) ts = .error .ValueError
      ↔ ∃ q ∈ obs, ∃ t ∈ ts, t.Inside q)

/-- C14 is false of the code for complete turns: the points on the meridian where a shell starts
are inside of it, and they are not detected. -/
theorem C14_seam_not_detected : ¬ C14_full := by
  intro hf
  let t : Tess := ⟨0, 360, -90, 90, 6000, 7000⟩
  have hc : checkTesseroids [t] = .ok [t] := by
    rw [checkTesseroids_eq, if_pos]
    · rw [map_normLon_id]; simp [t]
    · simp only [List.mem_singleton, forall_eq]
      exact ⟨⟨by norm_num [t], by norm_num [t], by norm_num [t], by norm_num [t], by norm_num [t],
        by norm_num [t], by norm_num [t]⟩, Or.inl ⟨by norm_num [t], by norm_num [t]⟩⟩
  have h := (hf (fun _ _ => 0) [⟨0, 0, 6500⟩] [t] [t] hc).2
    ⟨_, List.mem_singleton_self _, t, List.mem_singleton_self _,
      Or.inl (by norm_num [t]), by norm_num [t], by norm_num [t]⟩
  rw [checkPointsOutside_eq, if_neg] at h
  · simp at h
  · rintro ⟨q, hq, t', ht', h⟩
    rw [List.mem_singleton] at hq ht'
    subst hq ht'
    rw [conflict_iff _ _ (by norm_num [t]) (by norm_num [t])] at h
    obtain ⟨⟨k, h1, h2⟩, -⟩ := h
    simp only [t, zero_add] at h1 h2
    have e1 : (0 : ℝ) < k := by linarith
    have e2 : (k : ℝ) < 1 := by linarith
    have e1' : 0 < k := by exact_mod_cast e1
    have e2' : k < 1 := by exact_mod_cast e2
    omega

/-- C14, what holds: for tesseroids narrower than one turn the check raises iff some point is
strictly inside of some tesseroid, whatever the number of turns in the longitudes of the points.
Missing: complete turns (see `C14_seam_not_detected`). -/
theorem C14_detects_inside_partial (junk : Junk) (obs : List P3) (ts0 ts : List Tess)
    (h : checkTesseroids ts0 = .ok ts) (hw : ∀ t ∈ ts, t.e - t.w ≠ 360) :
    checkPointsOutside junk (obs.map (·.x)) (obs.map (·.y)) (obs.map (·.z)) ts = .error .ValueError
      ↔ ∃ q ∈ obs, ∃ t ∈ ts, t.Inside q := by
  have hv : ∀ t ∈ ts, t.ValidRange := by
    have hf := C12_same_bodies ts0 ts h
    intro t' ht'
    obtain ⟨i, hi, rfl⟩ := List.getElem_of_mem ht'
    have := hf.get (i := i) (by rw [hf.length_eq]; exact hi) hi
    simp only [List.get_eq_getElem] at this
    exact this.2.2.2.1
  have key : (∃ q ∈ obs, ∃ t ∈ ts, conflict q t) ↔ ∃ q ∈ obs, ∃ t ∈ ts, t.Inside q := by
    constructor
    · rintro ⟨q, hq, t, ht, hc⟩
      rw [conflict_iff _ _ (hv t ht).lon_w.1 (hv t ht).lon_e.2] at hc
      exact ⟨q, hq, t, ht, Or.inr hc.1, hc.2⟩
    · rintro ⟨q, hq, t, ht, hc⟩
      refine ⟨q, hq, t, ht, ?_⟩
      rw [conflict_iff _ _ (hv t ht).lon_w.1 (hv t ht).lon_e.2]
      exact ⟨hc.1.resolve_left (hw t ht), hc.2⟩
  rw [← key, checkPointsOutside_eq]
  constructor
  · intro h
    by_contra hc
    rw [if_neg hc] at h
    simp at h
  · intro h; rw [if_pos h]

/-- C14 for complete turns: no false alarms, and only the seam meridian is missed. -/
theorem C14_full_turn (junk : Junk) (q : P3) (t : Tess) (hw : -180 ≤ t.w) (he : t.e ≤ 360)
    (h360 : t.e - t.w = 360) :
    checkPointsOutside junk [q.x] [q.y] [q.z] [t] = .error .ValueError ↔
      t.Inside q ∧ ¬ ∃ k : ℤ, q.x + 360 * k = t.w := by
  have := checkPointsOutside_eq junk [q] [t]
  simp only [List.map_cons, List.map_nil] at this
  rw [this]
  have hc := conflict_iff q t hw he
  have h2 : conflict q t ↔ t.Inside q ∧ ¬ ∃ k : ℤ, q.x + 360 * k = t.w := by
    rw [hc]
    unfold Tess.Inside
    constructor
    · rintro ⟨⟨k, h1, h2⟩, h3⟩
      refine ⟨⟨Or.inl h360, h3⟩, ?_⟩
      rintro ⟨m, hm⟩
      have e1 : (0 : ℝ) < (k - m : ℤ) := by push_cast; linarith
      have e2 : ((k - m : ℤ) : ℝ) < 1 := by push_cast; linarith
      have e1' : 0 < k - m := by exact_mod_cast e1
      have e2' : k - m < 1 := by exact_mod_cast e2
      omega
    · rintro ⟨⟨-, h3⟩, hn⟩
      refine ⟨?_, h3⟩
      obtain ⟨a1, a2⟩ := pymod_bounds (q.x - t.w)
      obtain ⟨a, ha⟩ := pymod_eq (q.x - t.w)
      refine ⟨a, ?_, ?_⟩
      · rcases lt_or_eq_of_le (show t.w ≤ q.x + 360 * a by linarith) with h | h
        · exact h
        · exact absurd ⟨a, h.symm⟩ hn
      · linarith
  rw [← h2]
  constructor
  · intro h
    by_contra hc
    rw [if_neg (by simpa using hc)] at h
    simp at h
  · intro h; rw [if_pos (by simpa using h)]

/-- a point many turns away is detected -/
example (junk : Junk) : checkPointsOutside junk [3605] [0] [6500] [⟨0, 10, -5, 5, 6000, 7000⟩]
    = .error .ValueError := by
  have := (C14_detects_inside_partial junk [⟨3605, 0, 6500⟩] [⟨0, 10, -5, 5, 6000, 7000⟩]
    [⟨0, 10, -5, 5, 6000, 7000⟩] (by
      rw [checkTesseroids_eq, if_pos]
      · rw [map_normLon_id]; simp
      · simp only [List.mem_singleton, forall_eq]
        exact ⟨⟨by norm_num, by norm_num, by norm_num, by norm_num, by norm_num,
          by norm_num, by norm_num⟩, Or.inl ⟨by norm_num, by norm_num⟩⟩) (by simp)).2
  apply this
  exact ⟨_, List.mem_singleton_self _, _, List.mem_singleton_self _,
    Or.inr ⟨-10, by norm_num, by norm_num⟩, by norm_num, by norm_num⟩

/-! ## C15: splitting -/

/-- C15: the pieces pushed by `_split_tesseroid` are an exact partition of the tesseroid, each one
inside of it, as many as requested, and their volumes add up to its volume. -/
theorem C15_split_partition (t : Tess) (ht : t.Ordered) (a b c : ℕ) (ha : 1 ≤ a) (hb : 1 ≤ b)
    (hc : 1 ≤ c) :
    IsPartition (splitPieces t a b c) t ∧
    ((splitPieces t a b c).map Tess.volume).sum = t.volume ∧
    (splitPieces t a b c).length = a * b * c ∧
    ∀ p ∈ splitPieces t a b c, p.Ordered ∧ t.w ≤ p.w ∧ p.e ≤ t.e ∧ t.s ≤ p.s ∧ p.n ≤ t.n ∧
      t.bottom ≤ p.bottom ∧ p.top ≤ t.top := by
  refine ⟨partition_of_sum _ _ (fun p hp => (splitPieces_within ht hp).1) ht
      (fun g h k => splitPieces_sum g h k t a b c ha hb hc), ?_, splitPieces_length t a b c,
    fun p hp => splitPieces_within ht hp⟩
  have := splitPieces_sum radians (fun φ => Real.sin (radians φ)) (fun r => r ^ 3 / 3) t a b c
    ha hb hc
  rw [volume_eq_prodF, ← this]
  congr 1
  exact List.map_congr_left fun p _ => volume_eq_prodF p

/-- C15: the pieces have equal extents along every direction. -/
theorem C15_split_equal (t : Tess) (a b c : ℕ) (p : Tess) (hp : p ∈ splitPieces t a b c) :
    p.e - p.w = (t.e - t.w) / a ∧ p.n - p.s = (t.n - t.s) / b ∧
      p.top - p.bottom = (t.top - t.bottom) / c := by
  obtain ⟨i, j, k, -, -, -, rfl⟩ := splitPieces_mem hp
  refine ⟨?_, ?_, ?_⟩ <;> simp only <;> ring

/-- C15: what is pushed on the stack is this list, above what was already there. -/
theorem C15_pushed (size : ℕ) (stack : ℕ → Tess) (count : ℕ) (t : Tess) (a b c : ℕ)
    (h : count + a * b * c ≤ size) :
    ∃ stack', pushAll size stack count (splitPieces t a b c) = some (stack', count + a * b * c) ∧
      (List.range (count + a * b * c)).map stack' =
        (List.range count).map stack ++ splitPieces t a b c := by
  have := pushAll_eq size (splitPieces t a b c) stack count (by rw [splitPieces_length]; exact h)
  simpa only [splitPieces_length, prefixList] using this

example : splitPieces ⟨0, 10, 0, 20, 0, 30⟩ 2 1 1 =
    [⟨0, 5, 0, 20, 0, 30⟩, ⟨5, 10, 0, 20, 0, 30⟩] := by
  unfold splitPieces
  norm_num [List.range_succ]

/-! ## C16: adaptive discretization -/

/-- C16: the algorithm terminates for every input, within an explicit number of turns, and more
turns do not change the outcome. -/
theorem C16_terminates (P : AParams) (hP : 1 ≤ P.stackSize) (stack0 small0 : ℕ → Tess) (t : Tess) :
    ∃ h, ∀ fuel ≥ (P.smallSize + 1) * (P.stackSize + 2) + 1,
      adaptive P stack0 small0 fuel t = some h := by
  have mono : ∀ fuel st h, aloop P fuel st = some h → ∀ k, aloop P (fuel + k) st = some h := by
    intro fuel
    induction fuel with
    | zero => intro st h hh; simp [aloop] at hh
    | succ fuel ih =>
      intro st h hh k
      rw [Nat.succ_add]
      simp only [aloop] at hh ⊢
      cases hs : astep P st with
      | inl st' => rw [hs] at hh; exact ih _ _ hh k
      | inr h' => rw [hs] at hh; exact hh
  have fin : ∀ h, adaptive P stack0 small0 (adaptiveFuel P.stackSize P.smallSize) t = some h →
      ∀ fuel ≥ (P.smallSize + 1) * (P.stackSize + 2) + 1,
        adaptive P stack0 small0 fuel t = some h := by
    intro h h1 fuel hf
    unfold adaptiveFuel at h1
    obtain ⟨k, rfl⟩ := Nat.exists_eq_add_of_le hf
    unfold adaptive at h1 ⊢
    cases hw : wr P.stackSize stack0 0 t with
    | none => rw [hw] at h1; exact h1
    | some stack => rw [hw] at h1; exact mono _ _ _ h1 k
  rcases adaptive_cases P hP stack0 small0 t with ⟨n, small, h1, -⟩ | ⟨e, h1, -⟩
  · exact ⟨_, fin _ h1⟩
  · exact ⟨_, fin _ h1⟩

/-- C16: memory safety. No run, of any length, writes outside of the stack or of the output
array. -/
theorem C16_memory_safe (P : AParams) (hP : 1 ≤ P.stackSize) (stack0 small0 : ℕ → Tess) (fuel : ℕ)
    (t : Tess) : adaptive P stack0 small0 fuel t ≠ some .fault :=
  (adaptive_eq P hP stack0 small0 fuel t).2

/-- the pieces returned by a run -/
theorem run_pieces (P : AParams) (hP : 1 ≤ P.stackSize) (stack0 small0 : ℕ → Tess) (fuel : ℕ)
    (t : Tess) (n : ℕ) (small : ℕ → Tess)
    (h : adaptive P stack0 small0 fuel t = some (.ok n small)) :
    adList P fuel [t] [] = some (.ok ((List.range n).map small)) := by
  have := (adaptive_eq P hP stack0 small0 fuel t).1
  rw [h] at this
  exact this.symm

/-- C16: when the algorithm returns, its output is an exact partition of the tesseroid with the
same total volume; the number of pieces fits in the output array. -/
theorem C16_partition (P : AParams) (hP : 1 ≤ P.stackSize) (stack0 small0 : ℕ → Tess) (fuel : ℕ)
    (t : Tess) (ht : t.Ordered) (n : ℕ) (small : ℕ → Tess)
    (h : adaptive P stack0 small0 fuel t = some (.ok n small)) :
    IsPartition ((List.range n).map small) t ∧
    (((List.range n).map small).map Tess.volume).sum = t.volume ∧ n ≤ P.smallSize ∧
    ∀ i < n, (small i).Ordered ∧ t.w ≤ (small i).w ∧ (small i).e ≤ t.e ∧ t.s ≤ (small i).s ∧
      (small i).n ≤ t.n ∧ t.bottom ≤ (small i).bottom ∧ (small i).top ≤ t.top := by
  have hp := run_pieces P hP stack0 small0 fuel t n small h
  have inv : ∀ g h' k : ℝ → ℝ, _ := fun g h' k =>
    adList_invariant P (Within t) (prodF g h' k) (by
      intro x a b c hx hd _
      obtain ⟨h1, h2, h3, -⟩ := divisions_ok_pos hd
      exact ⟨fun p hp => hx.trans (splitPieces_within hx.1 hp), splitPieces_sum g h' k x a b c h1 h2 h3⟩)
      fuel [t] [] _ (by simp only [List.mem_singleton, forall_eq]; exact Within.refl ht) (by simp)
      (by simp) hp
  have hw : ∀ p ∈ (List.range n).map small, Within t p := fun p hp =>
    ((inv (fun _ => 0) (fun _ => 0) (fun _ => 0)).1 p hp).1
  refine ⟨partition_of_sum _ _ (fun p hp => (hw p hp).1) ht (fun g h' k => by simpa using (inv g h' k).2.2),
    ?_, by simpa using (inv (fun _ => 0) (fun _ => 0) (fun _ => 0)).2.1,
    fun i hi => hw _ (List.mem_map_of_mem (List.mem_range.2 hi))⟩
  have := (inv radians (fun φ => Real.sin (radians φ)) (fun r => r ^ 3 / 3)).2.2
  simp only [List.map_cons, List.map_nil, List.sum_cons, List.sum_nil, add_zero] at this
  rw [volume_eq_prodF, ← this]
  congr 1
  exact List.map_congr_left fun p _ => volume_eq_prodF p

/-- C16: every piece returned satisfies the distance-size criterion in every direction that is
discretized: its distance to the point is at least `ratio` times its size. Without radial
discretization the pieces keep the bottom and the top of the tesseroid. -/
theorem C16_criterion (P : AParams) (hP : 1 ≤ P.stackSize) (stack0 small0 : ℕ → Tess) (fuel : ℕ)
    (t : Tess) (ht : t.Proper) (n : ℕ) (small : ℕ → Tess)
    (h : adaptive P stack0 small0 fuel t = some (.ok n small)) (i : ℕ) (hi : i < n) :
    P.ratio * (small i).sizeLon ≤ (small i).centreDistance P.point ∧
    P.ratio * (small i).sizeLat ≤ (small i).centreDistance P.point ∧
    (P.radial = true → P.ratio * (small i).sizeRad ≤ (small i).centreDistance P.point) ∧
    (P.radial = false → (small i).bottom = t.bottom ∧ (small i).top = t.top) := by
  have hp := run_pieces P hP stack0 small0 fuel t n small h
  have inv := adList_invariant P
    (fun p => p.Proper ∧ (P.radial = false → p.bottom = t.bottom ∧ p.top = t.top))
    (prodF (fun _ => 0) (fun _ => 0) (fun _ => 0)) (by
      intro x a b c hx hd _
      obtain ⟨h1, h2, h3, -⟩ := divisions_ok_pos hd
      refine ⟨fun p hp => ⟨splitPieces_proper hx.1 hp, ?_⟩, splitPieces_sum _ _ _ x a b c h1 h2 h3⟩
      intro hr
      rw [divisions_proper P hx.1] at hd
      simp only [hr, Bool.false_eq_true, and_false, if_false, Except.ok.injEq, Prod.mk.injEq] at hd
      obtain ⟨-, -, rfl⟩ := hd
      obtain ⟨i, j, k, -, -, hk, rfl⟩ := splitPieces_mem hp
      have : k = 0 := by omega
      subst this
      obtain ⟨hb, ht⟩ := hx.2 hr
      simp [hb, ht])
      fuel [t] [] _ (by simp only [List.mem_singleton, forall_eq]; exact ⟨ht, fun _ => by trivial⟩)
      (by simp) (by simp) hp
  obtain ⟨⟨q1, q2⟩, q3⟩ := inv.1 (small i) (List.mem_map_of_mem (List.mem_range.2 hi))
  rw [divisions_proper P q1] at q3
  simp only [Except.ok.injEq, Prod.mk.injEq] at q3
  obtain ⟨d1, d2, d3⟩ := q3
  have s1 := sizeLon_pos q1
  have s2 := sizeLat_pos q1
  have s3 : 0 < (small i).sizeRad := by unfold Tess.sizeRad; linarith [q1.bt]
  refine ⟨?_, ?_, ?_, q2⟩
  · by_contra hc
    rw [if_pos (by rw [div_lt_iff₀ s1]; exact not_le.1 hc)] at d1
    omega
  · by_contra hc
    rw [if_pos (by rw [div_lt_iff₀ s2]; exact not_le.1 hc)] at d2
    omega
  · intro hr
    by_contra hc
    rw [if_pos ⟨by rw [div_lt_iff₀ s3]; exact not_le.1 hc, hr⟩] at d3
    omega

/-- C16: for a tesseroid of positive volume that is not a complete turn the only exception is
OverflowError (stack or output array too small). Missing with respect to the full property: null
tesseroids and complete turns, for which the statement is false (`C16_full_turn_zero_division`). -/
theorem C16_only_overflow_partial (P : AParams) (hP : 1 ≤ P.stackSize) (stack0 small0 : ℕ → Tess)
    (fuel : ℕ) (t : Tess) (ht : t.Proper) (e : PyErr)
    (h : adaptive P stack0 small0 fuel t = some (.raised e)) : e = .OverflowError := by
  have := (adaptive_eq P hP stack0 small0 fuel t).1
  rw [h] at this
  refine adList_error P Tess.Proper (fun x a b c hx _ _ p hp => splitPieces_proper hx hp) ?_ fuel
    [t] [] e (by simpa using ht) this.symm
  intro x hx e he
  rw [divisions_proper P hx] at he
  simp at he

/-- C16: a tesseroid that already satisfies the criterion is not split. -/
theorem C16_far_not_split (P : AParams) (hP : 1 ≤ P.stackSize) (hS : 1 ≤ P.smallSize)
    (stack0 small0 : ℕ → Tess) (t : Tess) (ht : t.Proper)
    (h1 : P.ratio * t.sizeLon ≤ t.centreDistance P.point)
    (h2 : P.ratio * t.sizeLat ≤ t.centreDistance P.point)
    (h3 : P.radial = true → P.ratio * t.sizeRad ≤ t.centreDistance P.point) :
    ∃ small, adaptive P stack0 small0 ((P.smallSize + 1) * (P.stackSize + 2) + 1) t
      = some (.ok 1 small) ∧ small 0 = t := by
  have hd : divisions P t = .ok (1, 1, 1) := by
    rw [divisions_proper P ht]
    have s1 := sizeLon_pos ht
    have s2 := sizeLat_pos ht
    have s3 : 0 < t.sizeRad := by unfold Tess.sizeRad; linarith [ht.bt]
    rw [if_neg (by rw [div_lt_iff₀ s1]; exact not_lt.2 h1),
      if_neg (by rw [div_lt_iff₀ s2]; exact not_lt.2 h2),
      if_neg (by rintro ⟨h, hr⟩; rw [div_lt_iff₀ s3] at h; exact absurd (h3 hr) (not_le.2 h))]
  have hfuel : (P.smallSize + 1) * (P.stackSize + 2) + 1
      = ((P.smallSize + 1) * (P.stackSize + 2) - 1) + 1 + 1 := by
    have : 1 ≤ (P.smallSize + 1) * (P.stackSize + 2) := Nat.mul_pos (by omega) (by omega)
    omega
  have hS0 : 0 < P.smallSize := by omega
  have hP0 : 0 < P.stackSize := by omega
  rw [hfuel]
  unfold adaptive
  simp only [wr, hP0, if_true]
  refine ⟨fun j => if j = 0 then t else small0 j, ?_, by simp⟩
  simp only [aloop, astep, one_ne_zero, if_false, Nat.sub_self, if_true, hd]
  simp [wr, hS0, not_lt.2 hS]

/-- hypotheses of C16 are met by an ordinary tesseroid -/
example : (⟨0, 10, -5, 5, 6000, 7000⟩ : Tess).Proper :=
  ⟨by norm_num, by norm_num, by norm_num, by norm_num, by norm_num, by norm_num, by norm_num⟩

/-- C16, the negation for the rest: a tesseroid that is a complete turn, valid for
`_check_tesseroids`, has a null longitudinal size and the division by it fails, instead of being
split or of an OverflowError. -/
theorem C16_full_turn_zero_division (P : AParams) (hP : 1 ≤ P.stackSize) (stack0 small0 : ℕ → Tess)
    (s n bottom top : ℝ) (w : ℝ) :
    adaptive P stack0 small0 ((P.smallSize + 1) * (P.stackSize + 2) + 1)
      ⟨w, w + 360, s, n, bottom, top⟩ = some (.raised .ZeroDivisionError) := by
  have hd : divisions P ⟨w, w + 360, s, n, bottom, top⟩ = .error .ZeroDivisionError := by
    unfold divisions divLt dimensions
    have : radians (w + 360) - radians w = 2 * Real.pi := by unfold radians; ring
    simp only [this, Real.cos_two_pi, mul_one, Real.sin_sq_add_cos_sq, Real.arccos_one, mul_zero,
      if_true]
    rfl
  have hP0 : 0 < P.stackSize := by omega
  unfold adaptive
  simp only [wr, hP0, if_true, aloop, astep, one_ne_zero, if_false, Nat.sub_self, hd]

/-! ## C17: Gauss-Legendre quadrature -/

theorem glqMasses_glq2 (t : Tess) (ρ : ℝ → ℝ) : glqMasses glq2 t ρ = pointMasses t ρ := by
  unfold glqMasses glq2 pointMasses gaussNode
  simp only [List.flatMap_cons, List.flatMap_nil, List.map_cons, List.map_nil, List.append_nil,
    List.cons_append, List.nil_append]
  have e : ∀ a b : ℝ, 0.5 * (b - a) * (-1 / Real.sqrt 3) + 0.5 * (b + a)
      = (a + b) / 2 + -1 * ((b - a) / 2 / Real.sqrt 3) := by intro a b; ring
  have e' : ∀ a b : ℝ, 0.5 * (b - a) * (1 / Real.sqrt 3) + 0.5 * (b + a)
      = (a + b) / 2 + 1 * ((b - a) / 2 / Real.sqrt 3) := by intro a b; ring
  simp only [e, e', radians_sub]
  congr 1
  · congr 1; ring
  congr 1
  · congr 1; ring
  congr 1
  · congr 1; ring
  congr 1
  · congr 1; ring
  congr 1
  · congr 1; ring
  congr 1
  · congr 1; ring
  congr 1
  · congr 1; ring
  congr 1
  congr 1; ring

/-- C17: the effect computed for a (piece of) tesseroid is the sum of the effects of its eight point
masses, for both quadrature functions and any kernel. -/
theorem C17_quadrature_is_point_masses (q : P3) (t : Tess) (kernel : SphKernel) (ρ : ℝ)
    (f : ℝ → ℝ) :
    glq (radians q.x) (Real.cos (radians q.y)) (Real.sin (radians q.y)) q.z t ρ glq2 kernel =
      ((pointMasses t fun _ => ρ).map fun s => s.2 * kernel (radians q.x) (Real.cos (radians q.y))
        (Real.sin (radians q.y)) q.z (radians s.1.x) (Real.cos (radians s.1.y))
        (Real.sin (radians s.1.y)) s.1.z).sum ∧
    glqVariable (radians q.x) (Real.cos (radians q.y)) (Real.sin (radians q.y)) q.z t f glq2 kernel =
      ((pointMasses t f).map fun s => s.2 * kernel (radians q.x) (Real.cos (radians q.y))
        (Real.sin (radians q.y)) q.z (radians s.1.x) (Real.cos (radians s.1.y))
        (Real.sin (radians s.1.y)) s.1.z).sum := by
  rw [glq_eq_variable, glqVariable_eq, glqVariable_eq, glqMasses_glq2, glqMasses_glq2]
  exact ⟨rfl, rfl⟩

/-- C17: the variable density quadrature of a constant function is the constant density one. -/
theorem C17_variable_of_constant (a b c d : ℝ) (t : Tess) (ρ : ℝ) (g : Glq) (kernel : SphKernel) :
    glqVariable a b c d t (fun _ => ρ) g kernel = glq a b c d t ρ g kernel := rfl

/-- C17: linear in the density, for any nodes, weights and kernel. -/
theorem C17_linear (q : P3) (t : Tess) (f g : ℝ → ℝ) (a b : ℝ) (G : Glq) (kernel : SphKernel) :
    glqVariable (radians q.x) (Real.cos (radians q.y)) (Real.sin (radians q.y)) q.z t
        (fun r => a * f r + b * g r) G kernel =
      a * glqVariable (radians q.x) (Real.cos (radians q.y)) (Real.sin (radians q.y)) q.z t f G kernel
      + b * glqVariable (radians q.x) (Real.cos (radians q.y)) (Real.sin (radians q.y)) q.z t g G
        kernel := by
  rw [glqVariable_eq, glqVariable_eq, glqVariable_eq]
  unfold glqMasses total
  simp only [map_flatMap', sum_flatMap, List.map_map, Function.comp_def, PointKernel.eval,
    ← List.sum_map_mul_left, ← List.sum_map_add]
  congr 1
  apply List.map_congr_left; intro lat _
  congr 1
  apply List.map_congr_left; intro rad _
  congr 1
  apply List.map_congr_left; intro lon _
  ring

theorem gaussNode_inside {a b σ : ℝ} (hab : a < b) (hσ : σ = -1 ∨ σ = 1) :
    a < gaussNode a b σ ∧ gaussNode a b σ < b := by
  unfold gaussNode
  have h3 : 1 < Real.sqrt 3 := by
    rw [show (1 : ℝ) = Real.sqrt 1 by simp]
    exact Real.sqrt_lt_sqrt (by norm_num) (by norm_num)
  have h : (b - a) / 2 / Real.sqrt 3 < (b - a) / 2 := by
    rw [div_lt_iff₀ (by linarith)]
    nlinarith
  have h0 : 0 < (b - a) / 2 / Real.sqrt 3 := by
    apply div_pos (by linarith) (by linarith)
  rcases hσ with rfl | rfl <;> constructor <;> linarith

/-- C17: the point masses are strictly inside of the tesseroid, with positive mass when the density
is positive. -/
theorem C17_masses_inside (t : Tess) (hw : t.w < t.e) (hs : -90 ≤ t.s) (hsn : t.s < t.n)
    (hn : t.n ≤ 90) (hb : 0 ≤ t.bottom) (hbt : t.bottom < t.top) (ρ : ℝ → ℝ)
    (hρ : ∀ r, t.bottom ≤ r → r ≤ t.top → 0 < ρ r) :
    ∀ s ∈ pointMasses t ρ, (t.w < s.1.x ∧ s.1.x < t.e) ∧ (t.s < s.1.y ∧ s.1.y < t.n) ∧
      (t.bottom < s.1.z ∧ s.1.z < t.top) ∧ 0 < s.2 := by
  intro s hs'
  unfold pointMasses at hs'
  simp only [List.mem_flatMap, List.mem_map, List.mem_cons, List.not_mem_nil, or_false] at hs'
  obtain ⟨σφ, h1, σr, h2, σl, h3, rfl⟩ := hs'
  have a1 := gaussNode_inside hw h3
  have a2 := gaussNode_inside hsn h1
  have a3 := gaussNode_inside hbt h2
  refine ⟨a1, a2, a3, ?_⟩
  simp only
  have c1 : 0 < Real.cos (radians (gaussNode t.s t.n σφ)) := by
    apply Real.cos_pos_of_mem_Ioo
    have hpi : radians 90 = Real.pi / 2 := by unfold radians; ring
    have h2 : radians (-90) = -(Real.pi / 2) := by unfold radians; ring
    constructor
    · rw [← h2]; exact radians_lt.2 (by linarith [a2.1])
    · rw [← hpi]; exact radians_lt.2 (by linarith [a2.2])
  have c2 := hρ _ a3.1.le a3.2.le
  have c3 : 0 < gaussNode t.bottom t.top σr := by linarith [a3.1]
  have c4 := radians_lt.2 hw
  have c5 := radians_lt.2 hsn
  have : 0 < (t.top - t.bottom) * (radians t.n - radians t.s) * (radians t.e - radians t.w) :=
    mul_pos (mul_pos (by linarith) (by linarith)) (by linarith)
  positivity

/-- C17: the total mass is exact in the radial and the longitudinal directions: it is the density
times `∫ r² dr`, times the longitudinal extent, times the two point rule for `∫ cos φ dφ`. -/
theorem C17_total_mass (t : Tess) (ρ : ℝ) :
    ((pointMasses t fun _ => ρ).map (·.2)).sum =
      ρ * (∫ r in t.bottom..t.top, r ^ 2) * (radians t.e - radians t.w) *
        ((radians t.n - radians t.s) / 2 * (Real.cos (radians (gaussNode t.s t.n (-1))) +
          Real.cos (radians (gaussNode t.s t.n 1)))) := by
  rw [integral_pow]
  unfold pointMasses
  simp only [List.flatMap_cons, List.flatMap_nil, List.map_cons, List.map_nil, List.append_nil,
    List.cons_append, List.nil_append, List.sum_cons, List.sum_nil]
  have h3 : (Real.sqrt 3)⁻¹ ^ 2 = 1 / 3 := by
    rw [inv_pow, Real.sq_sqrt (by norm_num)]; norm_num
  have hr : gaussNode t.bottom t.top (-1) ^ 2 + gaussNode t.bottom t.top 1 ^ 2
      = 2 / 3 * (t.top ^ 2 + t.top * t.bottom + t.bottom ^ 2) := by
    unfold gaussNode
    simp only [div_eq_mul_inv]
    linear_combination ((t.top - t.bottom) ^ 2 / 2) * h3
  generalize Real.cos (radians (gaussNode t.s t.n (-1))) = c1
  generalize Real.cos (radians (gaussNode t.s t.n 1)) = c2
  push_cast
  linear_combination (ρ * (c1 + c2) * ((t.top - t.bottom) * (radians t.n - radians t.s) *
    (radians t.e - radians t.w)) / 4) * hr

example : (pointMasses ⟨0, 10, -5, 5, 6000, 7000⟩ fun _ => 2670).length = 8 := by
  simp [pointMasses]

end Verif.Tesseroid
