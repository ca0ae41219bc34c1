import Verif.Icgem.LemmasC

/-! Helper lemmas for C55. -/

namespace Verif.Icgem

theorem firstWord_line {s w : Str} {ws : List Str} (h : IsLine (w :: ws) s) :
    firstWord (.str s) = .ok w := by
  unfold firstWord
  simp only [split_of_isLine _ _ h]

theorem isLine_head {s w w' : Str} {ws ws' : List Str} (h : IsLine (w :: ws) s)
    (h' : IsLine (w' :: ws') s) : w = w' := by
  have := split_of_isLine _ _ h
  rw [split_of_isLine _ _ h'] at this
  exact (List.cons.inj this).1.symm

theorem integers_needed {k : Str} (h : k ∈ integers) : k ∈ neededArgs := by
  have : ∀ k ∈ integers, k ∈ neededArgs := by decide
  exact this k h

theorem integrity_classified {toInt : Str → Option ℤ} {md : Dict Val} (hr : Readable toInt md) :
    (Malformed toInt md → checkGdfIntegrity toInt md = .error .OSError) ∧
    (¬ Malformed toInt md → ∃ md', checkGdfIntegrity toInt md = .ok md') := by
  have hfw : ∀ a ∈ neededArgs, ∀ v, md.get? a = some v → ∃ w, firstWord v = .ok w := by
    intro a ha v hv
    obtain ⟨s, w, ws, rfl, hl⟩ := hr.words a ha v hv
    exact ⟨w, firstWord_line hl⟩
  by_cases hm : ∃ k ∈ neededArgs, md.get? k = none
  · have : checkGdfIntegrity toInt md = .error .OSError := by
      unfold checkGdfIntegrity
      rw [checkNeeded_missing _ _ neededArgs_nodup hfw hm]
      rfl
    refine ⟨fun _ => this, fun hn => ?_⟩
    obtain ⟨k, hk, hk'⟩ := hm
    exact absurd (.missing k hk hk') hn
  · have hpres : ∀ a ∈ neededArgs, ∃ v w, md.get? a = some v ∧ firstWord v = .ok w := by
      intro a ha
      cases hv : md.get? a with
      | none => exact absurd ⟨a, ha, hv⟩ hm
      | some v =>
        obtain ⟨w, hw⟩ := hfw a ha v hv
        exact ⟨v, w, rfl, hw⟩
    obtain ⟨d', h1⟩ := checkNeeded_ok _ _ neededArgs_nodup hpres
    have hg := checkNeeded_get _ _ _ neededArgs_nodup h1
    have hA : d'.get? kAttributes = md.get? kAttributes := by rw [hg, if_neg kAttributes_not_needed]
    have hU : d'.get? kUnits = md.get? kUnits := by rw [hg, if_neg kUnits_not_needed]
    cases hatt : md.get? kAttributes with
    | none =>
      have : checkGdfIntegrity toInt md = .error .OSError := by
        unfold checkGdfIntegrity checkColumns
        rw [h1, Py.bind_ok, hA, hatt]
        rfl
      exact ⟨fun _ => this, fun hn => absurd (.noNames hatt) hn⟩
    | some a =>
      obtain ⟨names, rfl⟩ := hr.columns kAttributes (List.mem_cons_self ..) a hatt
      cases hun : md.get? kUnits with
      | none =>
        have : checkGdfIntegrity toInt md = .error .OSError := by
          unfold checkGdfIntegrity checkColumns
          rw [h1, Py.bind_ok, hA, hatt, hU, hun]
          rfl
        exact ⟨fun _ => this, fun hn => absurd (.noUnits hun) hn⟩
      | some u =>
        obtain ⟨units, rfl⟩ := hr.columns kUnits (List.mem_cons_of_mem _ (List.mem_singleton.2 rfl)) u hun
        have hint : ∀ k : String, k.toList ∈ integers → ∃ n, IsInteger toInt md k n ∧
            intOf toInt d' k.toList = .ok n ∧ ∀ n', IsInteger toInt md k n' → n' = n := by
          intro k hk
          have hk' := integers_needed hk
          obtain ⟨v, -, hv, -⟩ := hpres _ hk'
          obtain ⟨s, w, ws, rfl, hl⟩ := hr.words _ hk' v hv
          obtain ⟨n, hn⟩ := hr.ints _ hk s w ws hv hl
          refine ⟨n, ⟨s, w, ws, hv, hl, hn⟩, ?_, ?_⟩
          · refine intOf_ok (w := w) ?_ hn
            rw [hg, if_pos hk', hv]
            show wordOf (.str s) = _
            unfold wordOf
            rw [firstWord_line hl]
          · rintro n' ⟨s', w', ws', hv', hl', hn'⟩
            rw [hv, Option.some.injEq, Val.str.injEq] at hv'
            subst hv'
            rw [← isLine_head hl hl', hn, Option.some.injEq] at hn'
            exact hn'.symm
        obtain ⟨n, n1, n2, n3⟩ := hint "latitude_parallels" (by decide)
        obtain ⟨m, m1, m2, m3⟩ := hint "longitude_parallels" (by decide)
        obtain ⟨s, s1, s2, s3⟩ := hint "number_of_gridpoints" (by decide)
        have hc := integrity_of_needed (toInt := toInt) (h := ⟨[], names, units⟩) h1
          (by rw [hA, hatt]) (by rw [hU, hun]) n2 m2 s2
        simp only at hc
        have hat : ∀ names', md.get? "attributes".toList = some (.list names') → names' = names := by
          intro names' h'
          have := hatt.symm.trans h'
          rw [Option.some.injEq, Val.list.injEq] at this
          exact this.symm
        have hut : ∀ units', md.get? "attributes_units".toList = some (.list units') →
            units' = units := by
          intro units' h'
          have := hun.symm.trans h'
          rw [Option.some.injEq, Val.list.injEq] at this
          exact this.symm
        constructor
        · intro hmal
          rw [hc, if_pos]
          cases hmal with
          | missing k hk hk' => exact absurd ⟨k, hk, hk'⟩ hm
          | noNames h' => exact absurd (hatt.symm.trans h') (by simp)
          | noUnits h' => exact absurd (hun.symm.trans h') (by simp)
          | counts a u ha hu ne => rw [hat a ha, hut u hu] at ne; exact Or.inl ne
          | noLatitude a ha hn => rw [hat a ha] at hn; exact Or.inr (Or.inl hn)
          | noLongitude a ha hn => rw [hat a ha] at hn; exact Or.inr (Or.inr (Or.inl hn))
          | size x y z hx hy hz ne =>
            rw [n3 x hx, m3 y hy, s3 z hz] at ne
            exact Or.inr (Or.inr (Or.inr ne))
        · intro hn
          rw [hc, if_neg]
          · exact ⟨_, rfl⟩
          · rintro (h' | h' | h' | h')
            · exact hn (.counts names units hatt hun h')
            · exact hn (.noLatitude names hatt h')
            · exact hn (.noLongitude names hatt h')
            · exact hn (.size n m s n1 m1 s1 h')

theorem header_readable {toInt : Str → Option ℤ} {h : Header} {d : Dict Val}
    (hw : ∀ k ws, h.words k = some ws → ∀ w ∈ ws, IsWord w) (hr : h.Readable toInt)
    (hd : ∀ k, k ≠ kUnits → k ≠ kAttributes → d.get? k = (h.words k).map fun ws => .str (spaced ws))
    (hc : ∀ k ∈ ["attributes".toList, "attributes_units".toList], ∀ v, d.get? k = some v →
      ∃ l, v = .list l) : Readable toInt d := by
  have hne : ∀ k ∈ neededArgs, d.get? k = (h.words k).map fun ws => .str (spaced ws) := by
    intro k hk
    exact hd k (fun e => kUnits_not_needed (e ▸ hk)) (fun e => kAttributes_not_needed (e ▸ hk))
  refine ⟨fun k hk v hv => ?_, fun k hk s w ws hv hl => ?_, hc⟩
  · rw [hne k hk, Option.map_eq_some_iff] at hv
    obtain ⟨ws, h1, rfl⟩ := hv
    obtain ⟨w, t, rfl⟩ := List.exists_cons_of_ne_nil (hr.words k hk ws h1)
    exact ⟨_, w, t, rfl, isLine_spaced _ (hw _ _ h1)⟩
  · rw [hne k (integers_needed hk), Option.map_eq_some_iff] at hv
    obtain ⟨ws', h1, h2⟩ := hv
    rw [Val.str.injEq] at h2
    subst h2
    obtain ⟨w', t, rfl⟩ := List.exists_cons_of_ne_nil (hr.words k (integers_needed hk) _ h1)
    have := isLine_head (isLine_spaced _ (hw _ _ h1)) hl
    subst this
    exact hr.ints k hk _ _ h1

theorem load_of_check {toInt : Str → Option ℤ} {toFloat : Str → Option ℝ} {lines data : List Str}
    {usecols : Option (List ℤ)} {d : Dict Val} {raw : List (List ℝ)}
    (h1 : headerLoop (lines ++ data) ⟨[], true, false⟩ = (d, data))
    (h2 : loadtxt toFloat data usecols = .ok raw) {e : PyErr} (h3 : checkGdfIntegrity toInt d = .error e) :
    loadIcgemGdf toInt toFloat (lines ++ data) usecols = .error e := by
  unfold loadIcgemGdf readGdfFile
  simp only [h1]
  rw [h2, Py.bind_ok, h3]
  rfl

theorem shortHeader_spec {es : List (Str × List Str)} {lines : List Str} (hh : IsShortHeader es lines)
    (data : List Str) :
    ∃ d, headerLoop (lines ++ data) ⟨[], true, false⟩ = (d, data) ∧ d.get? kUnits = none ∧
      (∀ v, d.get? kAttributes = some v → ∃ l, v = .list l) ∧
      ∀ k, k ≠ kUnits → k ≠ kAttributes →
        d.get? k = ((⟨es, [], []⟩ : Header).words k).map fun ws => .str (spaced ws) := by
  obtain ⟨hk, keyLines, blanks, nameLines, blanks', endLine, rfl, h1, h2, h3, h4, h5, w, ws, h8, h9⟩ := hh
  set D := es.foldl (fun (d : Dict Val) e => d.set e.1 (.str (join e.2))) [] with hD
  have hget : ∀ k, D.get? k = ((⟨es, [], []⟩ : Header).words k).map fun ws => .str (spaced ws) := by
    intro k
    rw [hD, foldl_entries]
    unfold Header.words
    simp only
    cases List.find? (fun e => decide (e.1 = k)) es.reverse with
    | none => rfl
    | some e => simp [join_eq]
  have hnone : ∀ k, (∀ e ∈ es, e.1 ≠ k) → D.get? k = none := by
    intro k hk
    rw [hget]
    unfold Header.words
    simp only [Option.map_eq_none_iff, List.find?_eq_none, List.mem_reverse, decide_eq_true_eq]
    exact hk
  have hA := hnone kAttributes fun e he => (hk e he).2.1
  have hU := hnone kUnits fun e he => (hk e he).2.2
  rcases h4 with rfl | ⟨n, ns, nameLine, rfl, h4, hn'⟩
  · refine ⟨D, ?_, hU, fun v hv => ?_, fun k _ _ => hget k⟩
    · simp only [List.append_assoc, List.nil_append]
      rw [headerLoop_keys es keyLines _ h1 (fun e he => (hk e he).1),
        headerLoop_blanks _ _ h3 _ _ _ (Or.inl h2), headerLoop_blanks _ _ h5 _ _ _ (Or.inr rfl)]
      rw [List.singleton_append, headerLoop, if_pos ((take_iff h9).2 h8)]
    · rw [hA] at hv
      cases hv
  · refine ⟨D.set kAttributes (.list (n :: ns)), ?_, ?_, fun v hv => ?_, fun k _ k2 => ?_⟩
    · simp only [List.append_assoc]
      rw [headerLoop_keys es keyLines _ h1 (fun e he => (hk e he).1),
        headerLoop_blanks _ _ h3 _ _ _ (Or.inl h2)]
      rw [List.singleton_append, headerLoop, if_neg (fun h0 => hn' ((take_iff h4).1 h0)),
        if_neg (strip_ne h4)]
      simp only [split_strip, split_of_isLine _ _ h4, Bool.false_eq_true, if_false, Bool.not_false,
        if_true]
      rw [headerLoop_blanks _ _ h5 _ _ _ (Or.inr rfl)]
      rw [List.singleton_append, headerLoop, if_pos ((take_iff h9).2 h8)]
    · rw [get_set, if_neg (by decide), hU]
    · rw [get_set, if_pos rfl, Option.some.injEq] at hv
      exact ⟨_, hv.symm⟩
    · rw [get_set, if_neg k2, hget]

theorem shortHeader_words {es : List (Str × List Str)} {lines : List Str} (hh : IsShortHeader es lines)
    {k : Str} {ws : List Str} (hk : (⟨es, [], []⟩ : Header).words k = some ws) : ∀ w ∈ ws, IsWord w := by
  obtain ⟨-, keyLines, blanks, nameLines, blanks', endLine, -, h1, -⟩ := hh
  unfold Header.words at hk
  rw [Option.map_eq_some_iff] at hk
  obtain ⟨e, he, rfl⟩ := hk
  have hm := List.mem_of_find?_eq_some he
  rw [List.mem_reverse] at hm
  simp only at hm
  clear he
  induction h1 with
  | nil => simp at hm
  | cons hl _ ih =>
    rcases List.mem_cons.1 hm with rfl | hm
    · exact fun w hw => words_of_isLine _ _ hl w (by simp [hw])
    · exact ih hm

end Verif.Icgem
