import Verif.Icgem.Lemmas

/-! Helper lemmas for C53-C55: numbers, checks, dataset. -/

namespace Verif.Icgem

/-! ### loadtxt -/

theorem mapM_ok {α β : Type} {f : α → Py β} {l : List α} {l' : List β}
    (h : List.Forall₂ (fun x y => f x = .ok y) l l') : l.mapM f = .ok l' := by
  induction h with
  | nil => rfl
  | cons h _ ih => rw [List.mapM_cons, h, Py.bind_ok, ih]; rfl

theorem pyIndex_ok {α : Type} [Inhabited α] {l : List α} {i : ℤ} {c : ℕ} (h : IsColumn l.length i c)
    (e : PyErr) (x : α) : pyIndex l i e = .ok (l.getD c x) := by
  obtain ⟨hc, h⟩ := h
  have key : (if i < 0 then i + (l.length : ℤ) else i) = c := by
    rcases h with h | h
    · rw [if_neg (by omega), h]
    · rw [if_pos (by omega), h]
      ring
  unfold pyIndex
  simp only [key]
  rw [if_neg (by omega), Int.toNat_natCast, List.getElem?_eq_getElem hc]
  simp [hc]

theorem forall₂_map_right {α β γ : Type} {R : α → γ → Prop} {f : β → γ} {l : List α} {l' : List β}
    (h : List.Forall₂ (fun a b => R a (f b)) l l') : List.Forall₂ R l (l'.map f) := by
  induction h with
  | nil => exact .nil
  | cons h _ ih => exact .cons h ih

theorem parseRow_spec {toFloat : Str → Option ℝ} {usecols : Option (List ℤ)} {cols : List ℕ}
    {words : List Str} {row : List ℝ} (hs : Selects row.length usecols cols)
    (hw : words.map toFloat = row.map some) :
    parseRow toFloat usecols words = .ok (cols.map fun c => row.getD c 0) := by
  have hlen : words.length = row.length := by
    have := congrArg List.length hw
    simpa using this
  have hget : ∀ c (hc : c < words.length), toFloat words[c] = some (row.getD c 0) := by
    intro c hc
    have h1 : (words.map toFloat)[c]'(by simpa using hc) = (row.map some)[c]'(by simp; omega) := by
      simp only [hw]
    rw [List.getElem_map, List.getElem_map] at h1
    rw [h1]
    have hc' : c < row.length := by omega
    simp [hc']
  unfold parseRow
  cases usecols with
  | none =>
    simp only [Selects] at hs
    subst hs
    rw [selectCols, Py.bind_ok]
    apply mapM_ok
    rw [List.forall₂_iff_get]
    refine ⟨by simp [hlen], fun i h1 h2 => ?_⟩
    have : toFloat words[i] = some (row.getD i 0) := hget i h1
    simp [parseWord, this]
  | some us =>
    have h1 : selectCols (some us) words = .ok (cols.map fun c => words.getD c []) := by
      apply mapM_ok
      apply forall₂_map_right
      refine List.Forall₂.imp (fun i c h => pyIndex_ok (by rw [hlen]; exact h) _ _) hs
    rw [h1, Py.bind_ok]
    apply mapM_ok
    rw [List.forall₂_iff_get]
    refine ⟨by simp, fun i h1 h2 => ?_⟩
    simp only [List.get_eq_getElem, List.getElem_map]
    have hi : i < cols.length := by simpa using h1
    have hc : cols[i] < words.length := by
      rw [hlen]
      have := (List.forall₂_iff_get.1 hs)
      have h3 := this.2 i (by have := this.1; omega) hi
      exact h3.1
    have := hget _ hc
    rw [show words.getD cols[i] [] = words[cols[i]] by simp [hc]]
    unfold parseWord
    rw [this]

theorem takeWhile_hash {l : Str} (h : '#' ∉ l) : l.takeWhile (· ≠ '#') = l := by
  rw [List.takeWhile_eq_self_iff]
  intro c hc
  simp only [decide_eq_true_eq]
  rintro rfl
  exact h hc

theorem words_of_rows {toFloat : Str → Option ℝ} {rows : List (List ℝ)} {data : List Str}
    (hd : List.Forall₂ (IsRow toFloat) rows data) : ∃ wss : List (List Str),
      (data.map fun l => split (l.takeWhile (· ≠ '#'))).filter (· ≠ []) = wss ∧
      List.Forall₂ (fun (ws : List Str) (r : List ℝ) => ws.map toFloat = r.map some) wss rows := by
  induction hd with
  | nil => exact ⟨[], rfl, .nil⟩
  | cons h _ ih =>
    obtain ⟨words, hw, hl, hh, hr⟩ := h
    obtain ⟨wss, e, ih⟩ := ih
    refine ⟨words :: wss, ?_, .cons hr ih⟩
    rw [List.map_cons, takeWhile_hash hh, split_of_isLine _ _ hl, List.filter_cons,
      if_pos (by simpa using hw), e]

theorem loadtxt_spec {toFloat : Str → Option ℝ} {usecols : Option (List ℤ)} {cols : List ℕ} {n : ℕ}
    {rows : List (List ℝ)} {data : List Str} (hd : List.Forall₂ (IsRow toFloat) rows data)
    (hn : ∀ r ∈ rows, r.length = n) (hs : Selects n usecols cols) (hne : rows ≠ []) :
    loadtxt toFloat data usecols = .ok (cols.map fun c => rows.map fun r => r.getD c 0) := by
  obtain ⟨wss, e, h2⟩ := words_of_rows hd
  have h3 : wss.mapM (parseRow toFloat usecols) =
      .ok (rows.map fun r => cols.map fun c => r.getD c 0) := by
    apply mapM_ok
    apply forall₂_map_right
    clear e hd hne
    induction h2 with
    | nil => exact .nil
    | cons h _ ih =>
      refine .cons ?_ (ih fun r hr => hn r (by simp [hr]))
      exact parseRow_spec (by rw [hn _ (by simp)]; exact hs) h
  unfold loadtxt
  simp only [e, h3, Py.bind_ok]
  obtain ⟨r, rs, rfl⟩ := List.exists_cons_of_ne_nil hne
  rw [List.map_cons, toColumns, if_pos (by simp)]
  congr 1
  refine List.ext_getElem (by simp) fun i h1 h2 => ?_
  have hi : i < cols.length := by simpa using h2
  simp [hi]

/-! ### checks -/

/-- First word of a value. -/
def wordOf (v : Val) : Option Val :=
  match firstWord v with
  | .ok w => some (.str w)
  | .error _ => none

theorem checkNeeded_get : ∀ (args : List Str) (d d' : Dict Val), args.Nodup →
    checkNeeded args d = .ok d' → ∀ k, d'.get? k = if k ∈ args then (d.get? k).bind wordOf else d.get? k
  | [], d, d', _, h, k => by
    simp only [checkNeeded, Except.ok.injEq] at h
    subst h
    simp
  | arg :: rest, d, d', hn, h, k => by
    rw [checkNeeded] at h
    cases hv : d.get? arg with
    | none => rw [hv] at h; cases h
    | some v =>
      rw [hv] at h
      simp only at h
      cases hw : firstWord v with
      | error e => rw [hw] at h; cases h
      | ok w =>
        rw [hw, Py.bind_ok] at h
        have := checkNeeded_get rest _ d' (List.nodup_cons.1 hn).2 h k
        rw [this, get_set]
        by_cases h1 : k = arg
        · subst h1
          rw [if_neg (List.nodup_cons.1 hn).1, if_pos rfl, if_pos (by simp), hv]
          simp [wordOf, hw]
        · simp [h1]

theorem checkNeeded_ok : ∀ (args : List Str) (d : Dict Val), args.Nodup →
    (∀ a ∈ args, ∃ v w, d.get? a = some v ∧ firstWord v = .ok w) → ∃ d', checkNeeded args d = .ok d'
  | [], d, _, _ => ⟨d, rfl⟩
  | arg :: rest, d, hn, h => by
    obtain ⟨v, w, h1, h2⟩ := h arg (by simp)
    rw [checkNeeded, h1]
    simp only [h2, Py.bind_ok]
    refine checkNeeded_ok rest _ (List.nodup_cons.1 hn).2 fun a ha => ?_
    obtain ⟨v', w', h3, h4⟩ := h a (by simp [ha])
    refine ⟨v', w', ?_, h4⟩
    rw [get_set, if_neg, h3]
    rintro rfl
    exact (List.nodup_cons.1 hn).1 ha

theorem checkNeeded_missing : ∀ (args : List Str) (d : Dict Val), args.Nodup →
    (∀ a ∈ args, ∀ v, d.get? a = some v → ∃ w, firstWord v = .ok w) → (∃ a ∈ args, d.get? a = none) →
    checkNeeded args d = .error .OSError
  | [], d, _, _, h => by simp at h
  | arg :: rest, d, hn, h, hm => by
    rw [checkNeeded]
    cases hv : d.get? arg with
    | none => rfl
    | some v =>
      obtain ⟨w, hw⟩ := h arg (by simp) v hv
      simp only [hw, Py.bind_ok]
      have hne : ∀ a ∈ rest, a ≠ arg := by
        rintro a ha rfl
        exact (List.nodup_cons.1 hn).1 ha
      refine checkNeeded_missing rest _ (List.nodup_cons.1 hn).2 (fun a ha v' hv' => ?_) ?_
      · rw [get_set, if_neg (hne a ha)] at hv'
        exact h a (by simp [ha]) v' hv'
      · obtain ⟨a, ha, ha'⟩ := hm
        rcases List.mem_cons.1 ha with rfl | ha
        · rw [hv] at ha'; cases ha'
        · exact ⟨a, ha, by rw [get_set, if_neg (hne a ha), ha']⟩

theorem neededArgs_nodup : neededArgs.Nodup := by decide

theorem kUnits_not_needed : kUnits ∉ neededArgs := by decide
theorem kAttributes_not_needed : kAttributes ∉ neededArgs := by decide

/-- Inversion of the integrity check: the metadata that it leaves. -/
theorem checkGdfIntegrity_get {toInt : Str → Option ℤ} {d d' : Dict Val}
    (h : checkGdfIntegrity toInt d = .ok d') (k : Str) :
    d'.get? k = if k = kUnits then (d.get? kUnits).map fun u => .list (u.elems.map cleanUnit)
      else if k ∈ neededArgs then (d.get? k).bind wordOf else d.get? k := by
  unfold checkGdfIntegrity at h
  cases h1 : checkNeeded neededArgs d with
  | error e => rw [h1] at h; cases h
  | ok d1 =>
    rw [h1, Py.bind_ok] at h
    have g1 := checkNeeded_get _ _ _ neededArgs_nodup h1
    cases h2 : checkColumns d1 with
    | error e => rw [h2] at h; cases h
    | ok au =>
      obtain ⟨a, u⟩ := au
      rw [h2, Py.bind_ok] at h
      simp only at h
      cases h3 : checkLatLon a with
      | error e => rw [h3] at h; cases h
      | ok _ =>
        rw [h3, Py.bind_ok] at h
        cases h4 : checkSize toInt (d1.set kUnits (.list (u.elems.map cleanUnit))) with
        | error e => rw [h4] at h; cases h
        | ok _ =>
          rw [h4, Py.bind_ok, Py.pure_eq] at h
          cases h
          rw [get_set]
          by_cases hk : k = kUnits
          · rw [if_pos hk, if_pos hk]
            have hu : d.get? kUnits = some u := by
              have := g1 kUnits
              rw [if_neg kUnits_not_needed] at this
              rw [← this]
              unfold checkColumns at h2
              cases ha : d1.get? kAttributes with
              | none => simp [ha] at h2
              | some a' =>
                cases hu : d1.get? kUnits with
                | none => simp [ha, hu] at h2
                | some u' =>
                  simp only [ha, hu] at h2
                  split at h2
                  · cases h2
                  · simp only [Except.ok.injEq, Prod.mk.injEq] at h2
                    rw [h2.2]
            rw [hu]
            rfl
          · rw [if_neg hk, if_neg hk, g1]

/-! ### dataset -/

theorem set_mem {V : Type} {d : Dict V} {k : Str} {v : V} {p : Str × V} (h : p ∈ d.set k v) :
    p ∈ d ∨ p = (k, v) := by
  induction d with
  | nil => simp [Dict.set] at h; exact Or.inr h
  | cons q d ih =>
    obtain ⟨a, b⟩ := q
    rw [Dict.set] at h
    split at h
    · rename_i hk
      rcases List.mem_cons.1 h with h | h
      · exact Or.inr (by rw [h, hk])
      · exact Or.inl (by simp [h])
    · rcases List.mem_cons.1 h with h | h
      · exact Or.inl (by simp [h])
      · rcases ih h with h | h
        · exact Or.inl (by simp [h])
        · exact Or.inr h

theorem foldl_set_mem {V : Type} (l : List (Str × V)) : ∀ (d : Dict V) (p : Str × V),
    p ∈ l.foldl (fun d p => d.set p.1 p.2) d → p ∈ d ∨ p ∈ l := by
  induction l with
  | nil => intro d p h; exact Or.inl h
  | cons q l ih =>
    intro d p h
    rw [List.foldl_cons] at h
    rcases ih _ p h with h | h
    · rcases set_mem h with h | h
      · exact Or.inl h
      · exact Or.inr (by simp [h])
    · exact Or.inr (by simp [h])

theorem foldl_set_get {V : Type} (l : List (Str × V))
    (hc : ∀ p ∈ l, ∀ q ∈ l, p.1 = q.1 → p.2 = q.2) {k : Str} {v : V} (h : (k, v) ∈ l) :
    ∀ d : Dict V, (l.foldl (fun d p => d.set p.1 p.2) d).get? k = some v := by
  induction l using List.reverseRecOn with
  | nil => simp at h
  | append_singleton l q ih =>
    intro d
    rw [List.foldl_append, List.foldl_cons, List.foldl_nil, get_set]
    by_cases hk : k = q.1
    · rw [if_pos hk]
      congr 1
      exact hc q (by simp) (k, v) h hk.symm
    · rw [if_neg hk]
      refine ih (fun p hp q hq => hc p (by simp [hp]) q (by simp [hq])) ?_ d
      rcases List.mem_append.1 h with h | h
      · exact h
      · exfalso
        rw [List.mem_singleton] at h
        exact hk (by rw [← h])

/-- The array with `n` rows and `m` columns. -/
def gridOf (n m : ℕ) (l : List ℝ) : List (List ℝ) :=
  (List.range n).map fun (i : ℕ) => (List.range m).map fun (j : ℕ) => l.getD (i * m + j) 0

theorem newShape_ok {n m size : ℕ} (h : size = n * m) : newShape ((n : ℤ), (m : ℤ)) size = .ok (n, m) := by
  unfold newShape
  rw [if_neg (by simp), if_neg (by simp), if_neg (by rw [h]; push_cast; simp)]
  simp

theorem reshape_ok {n m : ℕ} {l : List ℝ} (h : l.length = n * m) :
    reshape ((n : ℤ), (m : ℤ)) l = .ok (gridOf n m l) := by
  unfold reshape
  rw [newShape_ok h]
  rfl

theorem firstRow_grid {n m : ℕ} (hn : 0 < n) (l : List ℝ) :
    firstRow (gridOf n m l) = .ok ((List.range m).map fun (j : ℕ) => l.getD j 0) := by
  obtain ⟨n, rfl⟩ : ∃ k, n = k + 1 := ⟨n - 1, by omega⟩
  simp [firstRow, gridOf, List.range_succ_eq_map]

theorem mapM_map {α β : Type} {f : α → Py β} {g : α → β} {l : List α} (h : ∀ x ∈ l, f x = .ok (g x)) :
    l.mapM f = .ok (l.map g) := by
  induction l with
  | nil => rfl
  | cons x l ih =>
    rw [List.mapM_cons, h x (by simp), Py.bind_ok, ih fun y hy => h y (by simp [hy])]
    rfl

theorem firstColumn_grid {n m : ℕ} (hm : 0 < m) (l : List ℝ) :
    firstColumn (gridOf n m l) = .ok ((List.range n).map fun (i : ℕ) => l.getD (i * m) 0) := by
  obtain ⟨m, rfl⟩ : ∃ k, m = k + 1 := ⟨m - 1, by omega⟩
  unfold firstColumn
  rw [mapM_map (g := fun row => row.getD 0 0)]
  · simp [gridOf]
  · intro row hrow
    simp only [gridOf, List.mem_map] at hrow
    obtain ⟨i, -, rfl⟩ := hrow
    simp [List.range_succ_eq_map]

theorem entry_grid_reverse {n m : ℕ} {l : List ℝ} {i j : ℕ} (hi : i < n) (hj : j < m) :
    entry (gridOf n m l).reverse i j = some (l.getD ((n - 1 - i) * m + j) 0) := by
  have h1 : n - 1 - i < n := by omega
  have h2 : (gridOf n m l).length = n := by simp [gridOf]
  unfold entry
  rw [List.getElem?_reverse (by omega), h2]
  simp [gridOf, h1, hj]

theorem dataVars_spec {n m : ℕ} : ∀ (data : Dict (List ℝ)), (∀ p ∈ data, p.2.length = n * m) →
    ∃ vars, dataVars ((n : ℤ), (m : ℤ)) data = .ok vars ∧
      ∀ k, vars.get? k = if k = "latitude".toList ∨ k = "longitude".toList then none
        else (data.get? k).map fun v => (gridOf n m v).reverse
  | [], _ => ⟨[], rfl, fun k => by split <;> rfl⟩
  | (name, value) :: rest, h => by
    obtain ⟨vars, h1, h2⟩ := dataVars_spec rest fun p hp => h p (by simp [hp])
    rw [dataVars]
    by_cases hn : name = "latitude".toList ∨ name = "longitude".toList
    · rw [if_pos hn]
      refine ⟨vars, h1, fun k => ?_⟩
      rw [h2]
      by_cases hk : k = "latitude".toList ∨ k = "longitude".toList
      · rw [if_pos hk, if_pos hk]
      · rw [if_neg hk, if_neg hk, Dict.get?, if_neg]
        rintro rfl
        exact hk hn
    · rw [if_neg hn, reshape_ok (h (name, value) (by simp)), Py.bind_ok, h1, Py.bind_ok]
      refine ⟨_, rfl, fun k => ?_⟩
      rw [Dict.get?, Dict.get?, h2]
      by_cases hk : name = k
      · subst hk
        rw [if_pos rfl, if_neg hn, if_pos rfl]
        rfl
      · rw [if_neg hk, if_neg hk]

theorem foldl_min_spec (l : List ℝ) : ∀ a : ℝ, l.foldl min a ≤ a ∧ (∀ x ∈ l, l.foldl min a ≤ x) ∧
    (l.foldl min a = a ∨ l.foldl min a ∈ l) := by
  induction l with
  | nil => intro a; simp
  | cons b l ih =>
    intro a
    obtain ⟨h1, h2, h3⟩ := ih (min a b)
    rw [List.foldl_cons]
    refine ⟨h1.trans (min_le_left _ _), ?_, ?_⟩
    · intro x hx
      rcases List.mem_cons.1 hx with rfl | hx
      · exact h1.trans (min_le_right _ _)
      · exact h2 x hx
    · rcases h3 with h3 | h3
      · rcases min_choice a b with h | h
        · exact Or.inl (by rw [h3, h])
        · exact Or.inr (by rw [h3, h]; simp)
      · exact Or.inr (by simp [h3])

theorem foldl_max_spec (l : List ℝ) : ∀ a : ℝ, a ≤ l.foldl max a ∧ (∀ x ∈ l, x ≤ l.foldl max a) ∧
    (l.foldl max a = a ∨ l.foldl max a ∈ l) := by
  induction l with
  | nil => intro a; simp
  | cons b l ih =>
    intro a
    obtain ⟨h1, h2, h3⟩ := ih (max a b)
    rw [List.foldl_cons]
    refine ⟨(le_max_left _ _).trans h1, ?_, ?_⟩
    · intro x hx
      rcases List.mem_cons.1 hx with rfl | hx
      · exact (le_max_right _ _).trans h1
      · exact h2 x hx
    · rcases h3 with h3 | h3
      · rcases max_choice a b with h | h
        · exact Or.inl (by rw [h3, h])
        · exact Or.inr (by rw [h3, h]; simp)
      · exact Or.inr (by simp [h3])

theorem minOf_spec {l : List ℝ} (h : l ≠ []) : IsLeast {x | x ∈ l} (minOf l) := by
  obtain ⟨a, t, rfl⟩ := List.exists_cons_of_ne_nil h
  obtain ⟨h1, h2, h3⟩ := foldl_min_spec (a :: t) a
  refine ⟨?_, fun x hx => h2 x hx⟩
  show (a :: t).foldl min a ∈ a :: t
  rcases h3 with h3 | h3
  · rw [h3]; simp
  · exact h3

theorem maxOf_spec {l : List ℝ} (h : l ≠ []) : IsGreatest {x | x ∈ l} (maxOf l) := by
  obtain ⟨a, t, rfl⟩ := List.exists_cons_of_ne_nil h
  obtain ⟨h1, h2, h3⟩ := foldl_max_spec (a :: t) a
  refine ⟨?_, fun x hx => h2 x hx⟩
  show (a :: t).foldl max a ∈ a :: t
  rcases h3 with h3 | h3
  · rw [h3]; simp
  · exact h3

end Verif.Icgem
