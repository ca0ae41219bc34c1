import Verif.Icgem.LemmasB

/-! Helper lemmas for C53-C55: from the header to the dataset. -/

namespace Verif.Icgem

theorem getD_lt {α : Type} {l : List α} {x : α} {i : ℕ} (h : i < l.length) : l.getD i x = l[i] := by
  simp [h]

theorem bind_inv {α β : Type} {x : Py α} {f : α → Py β} {b : β} (h : (x >>= f) = .ok b) :
    ∃ a, x = .ok a ∧ f a = .ok b := by
  cases x with
  | error e => cases h
  | ok a => exact ⟨a, rfl, h⟩

theorem firstWord_spaced {ws : List Str} (hw : ∀ w ∈ ws, IsWord w) {w : Str} (h : ws.head? = some w) :
    firstWord (.str (spaced ws)) = .ok w := by
  unfold firstWord
  simp only [split_spaced _ hw]
  cases ws with
  | nil => cases h
  | cons a t =>
    simp only [List.head?_cons, Option.some.injEq] at h
    subst h
    rfl

theorem wordOf_spaced {ws : List Str} (hw : ∀ w ∈ ws, IsWord w) :
    wordOf (.str (spaced ws)) = ws.head?.map .str := by
  unfold wordOf
  cases ws with
  | nil => rfl
  | cons a t => rw [firstWord_spaced hw rfl]; rfl

/-- The metadata after the checks. -/
def Header.checked (h : Header) (k : Str) : Option Val :=
  if k = kUnits then some (.list (h.units.map bare))
  else if k = kAttributes then some (.list h.names)
  else if k ∈ neededArgs then ((h.words k).bind List.head?).map .str
  else (h.words k).map fun ws => .str (spaced ws)

theorem integrity_checked {toInt : Str → Option ℤ} {h : Header} {lines : List Str}
    (hh : IsHeader h lines) {d d' : Dict Val} (hd : ∀ k, d.get? k = h.raw k)
    (hc : checkGdfIntegrity toInt d = .ok d') (k : Str) : d'.get? k = h.checked k := by
  rw [checkGdfIntegrity_get hc, Header.checked]
  by_cases hu : k = kUnits
  · rw [if_pos hu, if_pos hu, hd, Header.raw, if_pos rfl]
    simp only [Option.map_some, Val.elems, Option.some.injEq, Val.list.injEq]
    apply List.map_congr_left
    intro u hu
    obtain ⟨_, _, _, _, unitLine, _, _, -, -, -, -, -, -, h6, -⟩ := hh.lines
    exact cleanUnit_eq (words_of_isLine _ _ h6 u hu)
  · rw [if_neg hu, if_neg hu, hd, Header.raw, if_neg hu]
    by_cases ha : k = kAttributes
    · rw [if_pos ha, if_pos ha, ha, if_neg kAttributes_not_needed]
    · rw [if_neg ha, if_neg ha]
      by_cases hn : k ∈ neededArgs
      · rw [if_pos hn, if_pos hn]
        cases hw : h.words k with
        | none => rfl
        | some ws => exact wordOf_spaced (header_words hh hw)
      · rw [if_neg hn, if_neg hn]

theorem number_inv {α : Type} {h : Header} {p : Str → Option α} {k : String} {x : α}
    (hn : h.number p k = some x) :
    ∃ ws w, h.words k.toList = some ws ∧ ws.head? = some w ∧ p w = some x := by
  unfold Header.number at hn
  rw [Option.bind_eq_some_iff] at hn
  obtain ⟨w, h1, h2⟩ := hn
  rw [Option.bind_eq_some_iff] at h1
  obtain ⟨ws, h3, h4⟩ := h1
  exact ⟨ws, w, h3, h4, h2⟩

theorem checked_number {α : Type} {h : Header} {p : Str → Option α} {k : String} {x : α}
    (hk : k.toList ∈ neededArgs) (hn : h.number p k = some x) :
    ∃ w, h.checked k.toList = some (.str w) ∧ p w = some x := by
  obtain ⟨ws, w, h1, h2, h3⟩ := number_inv hn
  refine ⟨w, ?_, h3⟩
  unfold Header.checked
  rw [if_neg (show _ ≠ kUnits from fun e => kUnits_not_needed (e ▸ hk)), if_neg (show _ ≠ kAttributes from fun e => kAttributes_not_needed (e ▸ hk)),
    if_pos hk, h1]
  simp [h2]

theorem needed_toList : neededArgs = ["latitude_parallels", "longitude_parallels",
    "number_of_gridpoints", "latlimit_south", "latlimit_north", "longlimit_west",
    "longlimit_east"].map String.toList := rfl

theorem intOf_ok {toInt : Str → Option ℤ} {md : Dict Val} {key w : Str} {n : ℤ}
    (h : md.get? key = some (.str w)) (hn : toInt w = some n) : intOf toInt md key = .ok n := by
  simp [intOf, h, hn]

theorem floatOf_ok {toFloat : Str → Option ℝ} {md : Dict Val} {key w : Str} {x : ℝ}
    (h : md.get? key = some (.str w)) (hn : toFloat w = some x) : floatOf toFloat md key = .ok x := by
  simp [floatOf, h, hn]

theorem raw_needed {h : Header} {k : Str} (hk : k ∈ neededArgs) :
    h.raw k = (h.words k).map fun ws => .str (spaced ws) := by
  unfold Header.raw
  rw [if_neg (show _ ≠ kUnits from fun e => kUnits_not_needed (e ▸ hk)), if_neg (show _ ≠ kAttributes from fun e => kAttributes_not_needed (e ▸ hk))]

/-- Values of the keys that the checks look at. -/
def NeededWords (h : Header) : Prop := ∀ k ∈ neededArgs, ∃ ws w, h.words k = some ws ∧ ws.head? = some w

theorem needed_ok {h : Header} {lines : List Str} (hh : IsHeader h lines) {d : Dict Val}
    (hd : ∀ k, d.get? k = h.raw k) (hn : NeededWords h) : ∃ d', checkNeeded neededArgs d = .ok d' ∧
      d'.get? kAttributes = some (.list h.names) ∧ d'.get? kUnits = some (.list h.units) ∧
      ∀ k ∈ neededArgs, ∃ ws w, h.words k = some ws ∧ ws.head? = some w ∧ d'.get? k = some (.str w) := by
  obtain ⟨d', h1⟩ := checkNeeded_ok neededArgs d neededArgs_nodup (by
    intro a ha
    obtain ⟨ws, w, h1, h2⟩ := hn a ha
    exact ⟨.str (spaced ws), w, by rw [hd, raw_needed ha, h1]; rfl,
      firstWord_spaced (header_words hh h1) h2⟩)
  have hg := checkNeeded_get _ _ _ neededArgs_nodup h1
  refine ⟨d', h1, ?_, ?_, ?_⟩
  · rw [hg, if_neg kAttributes_not_needed, hd]
    rfl
  · rw [hg, if_neg kUnits_not_needed, hd]
    rfl
  · intro k hk
    obtain ⟨ws, w, h2, h3⟩ := hn k hk
    refine ⟨ws, w, h2, h3, ?_⟩
    rw [hg, if_pos hk, hd, raw_needed hk, h2]
    show wordOf (.str (spaced ws)) = _
    rw [wordOf_spaced (header_words hh h2), h3]
    rfl

/-- The checks after the loop over the needed keys. -/
theorem integrity_of_needed {toInt : Str → Option ℤ} {h : Header} {d d' : Dict Val} {n m size : ℤ}
    (h1 : checkNeeded neededArgs d = .ok d') (ha : d'.get? kAttributes = some (.list h.names))
    (hu : d'.get? kUnits = some (.list h.units))
    (hn : intOf toInt d' "latitude_parallels".toList = .ok n)
    (hm : intOf toInt d' "longitude_parallels".toList = .ok m)
    (hs : intOf toInt d' "number_of_gridpoints".toList = .ok size) :
    checkGdfIntegrity toInt d =
      if h.names.length ≠ h.units.length ∨ "latitude".toList ∉ h.names ∨ "longitude".toList ∉ h.names ∨
        n * m ≠ size then .error .OSError
      else .ok (d'.set kUnits (.list (h.units.map cleanUnit))) := by
  have hset : ∀ k, k ≠ kUnits → intOf toInt (d'.set kUnits (.list (h.units.map cleanUnit))) k =
      intOf toInt d' k := by
    intro k hk
    unfold intOf
    rw [get_set, if_neg hk]
  have hsize : checkSize toInt (d'.set kUnits (.list (h.units.map cleanUnit))) =
      if n * m ≠ size then .error .OSError else .ok () := by
    unfold checkSize
    rw [hset _ (by decide), hn, Py.bind_ok, hset _ (by decide), hm, Py.bind_ok, hset _ (by decide), hs,
      Py.bind_ok]
  have hcols : checkColumns d' = if h.names.length ≠ h.units.length then .error .OSError
      else .ok (.list h.names, .list h.units) := by
    unfold checkColumns
    rw [ha, hu]
    rfl
  unfold checkGdfIntegrity
  rw [h1, Py.bind_ok, hcols]
  by_cases c1 : h.names.length ≠ h.units.length
  · rw [if_pos c1, if_pos (Or.inl c1)]; rfl
  rw [if_neg c1, Py.bind_ok]
  have hll : checkLatLon (.list h.names) =
      if "latitude".toList ∉ h.names then .error .OSError
      else if "longitude".toList ∉ h.names then .error .OSError else .ok () := by
    unfold checkLatLon
    by_cases c2 : "latitude".toList ∈ h.names
    · have e2 : (Val.list h.names).contains "latitude".toList = true := decide_eq_true c2
      rw [e2, if_neg (by decide), if_neg (not_not.2 c2)]
      by_cases c3 : "longitude".toList ∈ h.names
      · have e3 : (Val.list h.names).contains "longitude".toList = true := decide_eq_true c3
        rw [e3, if_neg (by decide), if_neg (not_not.2 c3)]
      · have e3 : (Val.list h.names).contains "longitude".toList = false := decide_eq_false c3
        rw [e3, if_pos (by decide), if_pos c3]
    · have e2 : (Val.list h.names).contains "latitude".toList = false := decide_eq_false c2
      rw [e2, if_pos (by decide), if_pos c2]
  simp only [Val.elems]
  rw [hll]
  by_cases c2 : "latitude".toList ∈ h.names
  · rw [if_neg (not_not.2 c2)]
    by_cases c3 : "longitude".toList ∈ h.names
    · rw [if_neg (not_not.2 c3), Py.bind_ok, hsize]
      by_cases c4 : n * m ≠ size
      · rw [if_pos c4, if_pos (Or.inr (Or.inr (Or.inr c4)))]; rfl
      · rw [if_neg c4, if_neg (by simp only [not_or]; exact ⟨c1, not_not.2 c2, not_not.2 c3, c4⟩)]; rfl
    · rw [if_pos c3, if_pos (Or.inr (Or.inr (Or.inl c3)))]; rfl
  · rw [if_pos c2, if_pos (Or.inr (Or.inl c2))]; rfl

theorem selects_lt {n : ℕ} {usecols : Option (List ℤ)} {cols : List ℕ} (h : Selects n usecols cols) :
    ∀ c ∈ cols, c < n := by
  cases usecols with
  | none =>
    simp only [Selects] at h
    subst h
    intro c hc
    simpa using hc
  | some us =>
    have h' : List.Forall₂ (IsColumn n) us cols := h
    intro c hc
    clear h
    induction h' with
    | nil => simp at hc
    | cons h _ ih =>
      rcases List.mem_cons.1 hc with rfl | hc
      · exact h.1
      · exact ih hc

/-- The names of the columns that are read. -/
def Header.selected (h : Header) (cols : List ℕ) : List Str := cols.map fun c => h.names.getD c []

theorem selected_range (h : Header) : h.selected (List.range h.names.length) = h.names := by
  unfold Header.selected
  refine List.ext_getElem (by simp) fun i h1 h2 => ?_
  simp [h2]

theorem selectNames_ok {usecols : Option (List ℤ)} {cols : List ℕ} {h : Header} {d : Dict Val}
    (ha : d.get? kAttributes = some (.list h.names)) (hs : Selects h.names.length usecols cols) :
    ∃ d', selectNames usecols d = .ok d' ∧ ∀ k, d'.get? k =
      if k = kAttributes then some (.list (h.selected cols)) else d.get? k := by
  cases usecols with
  | none =>
    simp only [Selects] at hs
    refine ⟨d, rfl, fun k => ?_⟩
    by_cases hk : k = kAttributes
    · rw [if_pos hk, hk, ha, hs, selected_range]
    · rw [if_neg hk]
  | some us =>
    unfold selectNames
    simp only [ha, Val.elems]
    have h1 : (us.mapM fun i => pyIndex h.names i .IndexError) = .ok (h.selected cols) := by
      apply mapM_ok
      apply forall₂_map_right
      exact List.Forall₂.imp (fun i c h => pyIndex_ok h _ _) hs
    rw [h1, Py.bind_ok]
    exact ⟨_, rfl, fun k => get_set _ _ _ _⟩

/-! ### dataset -/

theorem get?_mem {V : Type} {d : Dict V} {k : Str} {v : V} (h : d.get? k = some v) : (k, v) ∈ d := by
  induction d with
  | nil => cases h
  | cons p d ih =>
    obtain ⟨a, b⟩ := p
    rw [Dict.get?] at h
    split at h
    · rename_i hk
      simp only [Option.some.injEq] at h
      subst h; subst hk
      simp
    · exact List.mem_cons_of_mem _ (ih h)

theorem build_attrs {toInt : Str → Option ℤ} {toFloat : Str → Option ℝ} {raw : List (List ℝ)}
    {md : Dict Val} {g : Dataset} (h : buildDataset toInt toFloat raw md = .ok g) {a u : List Str}
    (ha : md.get? kAttributes = some (.list a)) (hu : md.get? kUnits = some (.list u)) (k : Str) :
    g.attrs.get? k = if k = kUnits then some (.str (join u))
      else if k = kAttributes then some (.str (join a)) else md.get? k := by
  unfold buildDataset at h
  obtain ⟨_, -, h⟩ := bind_inv h
  obtain ⟨_, -, h⟩ := bind_inv h
  obtain ⟨_, -, h⟩ := bind_inv h
  obtain ⟨_, -, h⟩ := bind_inv h
  obtain ⟨_, -, h⟩ := bind_inv h
  obtain ⟨_, -, h⟩ := bind_inv h
  obtain ⟨_, -, h⟩ := bind_inv h
  obtain ⟨_, -, h⟩ := bind_inv h
  obtain ⟨_, -, h⟩ := bind_inv h
  obtain ⟨_, -, h⟩ := bind_inv h
  obtain ⟨_, -, h⟩ := bind_inv h
  obtain ⟨md1, h1, h⟩ := bind_inv h
  obtain ⟨md2, h2, h⟩ := bind_inv h
  unfold joinAt elemsOf at h1
  rw [ha] at h1
  simp only [Py.bind_ok, Py.pure_eq, Except.ok.injEq, Val.elems] at h1
  have hu' : md1.get? kUnits = some (.list u) := by rw [← h1, get_set, if_neg (by decide), hu]
  unfold joinAt elemsOf at h2
  rw [hu'] at h2
  simp only [Py.bind_ok, Py.pure_eq, Except.ok.injEq, Val.elems] at h2
  simp only [Py.pure_eq, Except.ok.injEq] at h
  subst h
  simp only
  rw [← h2, get_set, ← h1, get_set]

/-- A column of the file. -/
def columnOf (rows : List (List ℝ)) (c : ℕ) : List ℝ := rows.map fun r => r.getD c 0

theorem columnOf_getD {rows : List (List ℝ)} {c i : ℕ} {r : List ℝ} (h : rows[i]? = some r) :
    (columnOf rows c).getD i 0 = r.getD c 0 := by
  simp [columnOf, List.getD, h]

theorem addHeight_spec {toFloat : Str → Option ℝ} {md : Dict Val} {h : Header} {nlat nlon : ℕ}
    {lines : List Str} (vars : Dict (List (List ℝ)))
    (hg : md.get? "height_over_ell".toList =
      (h.words "height_over_ell".toList).map fun ws => .str (spaced ws)) (hh : IsHeader h lines)
    (hx : (h.words "height_over_ell".toList).isSome → ∃ x, h.number toFloat "height_over_ell" = some x) :
    ∃ vars', addHeight toFloat md ((nlat : ℤ), (nlon : ℤ)) vars = .ok vars' ∧
      (∀ k, (k = "height_over_ell".toList → h.words k = none) → vars'.get? k = vars.get? k) ∧
      (∀ x, h.number toFloat "height_over_ell" = some x → vars'.get? "height_over_ell".toList =
        some (List.replicate nlat (List.replicate nlon x))) := by
  unfold addHeight Header.number at *
  generalize "height_over_ell".toList = key at *
  cases hw : h.words key with
  | none =>
    rw [hg, hw]
    refine ⟨vars, rfl, fun _ _ => rfl, fun x hx => ?_⟩
    cases hx
  | some ws =>
    rw [hw] at hx
    obtain ⟨x, hx⟩ := hx rfl
    have hx' := hx
    rw [Option.bind_eq_some_iff] at hx
    obtain ⟨w, h2, h3⟩ := hx
    rw [Option.bind_some] at h2
    rw [hg, hw]
    simp only [Option.map_some]
    have hp : parseWord toFloat w = .ok x := by unfold parseWord; rw [h3]
    rw [firstWord_spaced (header_words hh hw) h2, Py.bind_ok, hp, Py.bind_ok, Int.toNat_natCast,
      Int.toNat_natCast, if_neg (by simp)]
    refine ⟨_, rfl, fun k hk => ?_, fun y hy => ?_⟩
    · rw [get_set, if_neg]
      rintro rfl
      rw [hk rfl] at hw
      cases hw
    · rw [hx', Option.some.injEq] at hy
      rw [get_set, if_pos rfl, hy]

theorem build_spec {toInt : Str → Option ℤ} {toFloat : Str → Option ℝ} {h : Header}
    {rows : List (List ℝ)} {nlat nlon : ℕ} {usecols : Option (List ℤ)} {cols : List ℕ} {clat clon : ℕ}
    (G : IsGrid toInt toFloat h rows nlat nlon usecols cols clat clon) {lines : List Str}
    (hh : IsHeader h lines) {md : Dict Val}
    (hmd : ∀ k, md.get? k = if k = kAttributes then some (.list (h.selected cols)) else h.checked k) :
    ∃ g, buildDataset toInt toFloat (cols.map fun c => rows.map fun r => r.getD c 0) md = .ok g ∧
      g.latitude = ((List.range nlat).map fun (i : ℕ) => (columnOf rows clat).getD (i * nlon) 0).reverse ∧
      g.longitude = ((List.range nlon).map fun (j : ℕ) => (columnOf rows clon).getD j 0) ∧
      (∀ c ∈ cols, ∀ name, h.names[c]? = some name → c ≠ clat → c ≠ clon →
        (name = "height_over_ell".toList → h.words name = none) →
        g.data_vars.get? name = some (gridOf nlat nlon (columnOf rows c)).reverse) ∧
      (∀ x, h.number toFloat "height_over_ell" = some x →
        g.data_vars.get? "height_over_ell".toList =
          some (List.replicate nlat (List.replicate nlon x))) ∧
      (∀ k v, g.data_vars.get? k = some v → (∃ c ∈ cols, c ≠ clat ∧ c ≠ clon ∧ h.names[c]? = some k) ∨
        k = "height_over_ell".toList ∧ (h.words k).isSome) := by
  have hlt := selects_lt G.selects
  have hname : ∀ {c : ℕ} {name : Str}, h.names[c]? = some name → h.names.getD c [] = name := by
    intro c name hc
    simp [List.getD, hc]
  have hinj : ∀ c ∈ cols, ∀ c' ∈ cols, h.names.getD c [] = h.names.getD c' [] → c = c' := by
    intro c hc c' hc' he
    have l1 := hlt c hc
    have l2 := hlt c' hc'
    rw [getD_lt l1, getD_lt l2] at he
    exact (List.Nodup.getElem_inj_iff G.distinct).1 he
  obtain ⟨wn, hwn, hwn'⟩ := checked_number (by decide) G.nlat_eq
  obtain ⟨wm, hwm, hwm'⟩ := checked_number (by decide) G.nlon_eq
  have hn : intOf toInt md "latitude_parallels".toList = .ok (nlat : ℤ) :=
    intOf_ok (by rw [hmd, if_neg (by decide), hwn]) hwn'
  have hm : intOf toInt md "longitude_parallels".toList = .ok (nlon : ℤ) :=
    intOf_ok (by rw [hmd, if_neg (by decide), hwm]) hwm'
  have ha : md.get? kAttributes = some (.list (h.selected cols)) := by rw [hmd, if_pos rfl]
  have hu : md.get? kUnits = some (.list (h.units.map bare)) := by
    rw [hmd, if_neg (by decide)]; rfl
  set pairs : List (Str × List ℝ) := cols.map fun c => (h.names.getD c [], columnOf rows c) with hpairs
  have hzip : (h.selected cols).zip (cols.map fun c => rows.map fun r => r.getD c 0) = pairs := by
    rw [Header.selected, hpairs]
    exact List.zip_map'
  set data : Dict (List ℝ) := pairs.foldl (fun d p => d.set p.1 p.2) [] with hdata
  have hmem : ∀ p ∈ data, ∃ c ∈ cols, p = (h.names.getD c [], columnOf rows c) := by
    intro p hp
    rcases foldl_set_mem _ _ _ hp with h1 | h1
    · simp at h1
    · rw [hpairs, List.mem_map] at h1
      obtain ⟨c, hc, rfl⟩ := h1
      exact ⟨c, hc, rfl⟩
  have hlen : ∀ c, (columnOf rows c).length = nlat * nlon := by
    intro c
    rw [columnOf, List.length_map, G.count]
  have hget : ∀ c ∈ cols, data.get? (h.names.getD c []) = some (columnOf rows c) := by
    intro c hc
    refine foldl_set_get pairs ?_ (by rw [hpairs]; exact List.mem_map.2 ⟨c, hc, rfl⟩) []
    intro p hp q hq he
    rw [hpairs, List.mem_map] at hp hq
    obtain ⟨c1, hc1, rfl⟩ := hp
    obtain ⟨c2, hc2, rfl⟩ := hq
    rw [hinj c1 hc1 c2 hc2 he]
  have hlat : data.get? "latitude".toList = some (columnOf rows clat) := by
    rw [← hname G.clat_name]; exact hget _ G.clat_read
  have hlon : data.get? "longitude".toList = some (columnOf rows clon) := by
    rw [← hname G.clon_name]; exact hget _ G.clon_read
  obtain ⟨vars, hv, hvars⟩ := dataVars_spec (n := nlat) (m := nlon) data (by
    intro p hp
    obtain ⟨c, -, rfl⟩ := hmem p hp
    exact hlen c)
  have hheight := addHeight_spec (toFloat := toFloat) (md := md) (h := h) (nlat := nlat) (nlon := nlon)
    vars (by
      rw [hmd, if_neg (by decide), Header.checked, if_neg (by decide), if_neg (by decide),
        if_neg (by decide)]) hh G.height
  obtain ⟨vars', hv', hvars1, hvars2⟩ := hheight
  have hjoin : ∃ md1, joinAt md kAttributes = .ok md1 ∧ ∃ md2, joinAt md1 kUnits = .ok md2 := by
    unfold joinAt elemsOf
    simp only [ha, Py.bind_ok, Py.pure_eq]
    refine ⟨_, rfl, ?_⟩
    rw [get_set, if_neg (by decide), hu]
    exact ⟨_, rfl⟩
  obtain ⟨md1, hj1, md2, hj2⟩ := hjoin
  have hnames : elemsOf md kAttributes = .ok (h.selected cols) := by
    unfold elemsOf
    rw [ha]
    rfl
  have hp1 := G.nlat_pos
  have hp2 := G.nlon_pos
  unfold buildDataset
  rw [hn, Py.bind_ok, hm, Py.bind_ok]
  simp only [hnames, Py.bind_ok, hzip]
  rw [← hdata]
  simp only [column, hlon, Py.bind_ok, reshape_ok (hlen clon), firstRow_grid hp1, hlat,
    reshape_ok (hlen clat), firstColumn_grid hp2, hv, hv', hj1, hj2, Py.pure_eq]
  refine ⟨_, rfl, ?_, ?_, ?_, ?_, ?_⟩
  · rfl
  · rfl
  · intro c hc name hn hcl hcn hh'
    simp only
    have e1 := hname hn
    have hh2 : name = "latitude".toList → False := by
      intro e
      exact hcl (hinj c hc clat G.clat_read (by rw [e1, e, hname G.clat_name]))
    have hh3 : name = "longitude".toList → False := by
      intro e
      exact hcn (hinj c hc clon G.clon_read (by rw [e1, e, hname G.clon_name]))
    rw [hvars1 name hh', hvars, if_neg (by rintro (e | e); exacts [hh2 e, hh3 e]), ← e1, hget c hc]
    rfl
  · exact hvars2
  · intro k v hk
    simp only at hk
    by_cases hh' : k = "height_over_ell".toList ∧ (h.words k).isSome
    · exact Or.inr hh'
    · left
      rw [hvars1 k (by
        intro e
        cases hw : h.words k with
        | none => rfl
        | some _ => exact absurd ⟨e, by rw [hw]; rfl⟩ hh'), hvars] at hk
      split at hk
      · cases hk
      · rename_i hne
        rw [Option.map_eq_some_iff] at hk
        obtain ⟨v', hk, -⟩ := hk
        obtain ⟨c, hc, he⟩ := hmem _ (get?_mem hk)
        simp only [Prod.mk.injEq] at he
        have hcl := hlt c hc
        have : h.names[c]? = some k := by
          rw [List.getElem?_eq_getElem hcl, he.1, getD_lt hcl]
        refine ⟨c, hc, ?_, ?_, this⟩
        · rintro rfl
          rw [G.clat_name, Option.some.injEq] at this
          exact hne (Or.inl this.symm)
        · rintro rfl
          rw [G.clon_name, Option.some.injEq] at this
          exact hne (Or.inr this.symm)

/-! ### reading -/

theorem read_spec {toInt : Str → Option ℤ} {toFloat : Str → Option ℝ} {h : Header}
    {rows : List (List ℝ)} {usecols : Option (List ℤ)} {cols : List ℕ} {lines data : List Str}
    (hh : IsHeader h lines) (hd : List.Forall₂ (IsRow toFloat) rows data) (hne : rows ≠ [])
    (hcol : ∀ r ∈ rows, r.length = h.names.length) (hs : Selects h.names.length usecols cols)
    (hu : h.units.length = h.names.length) (hlat : "latitude".toList ∈ h.names)
    (hlon : "longitude".toList ∈ h.names) (hneed : NeededWords h) {n m : ℤ}
    (hn : h.number toInt "latitude_parallels" = some n)
    (hm : h.number toInt "longitude_parallels" = some m)
    (hsize : h.number toInt "number_of_gridpoints" = some (n * m)) :
    ∃ md, readGdfFile toInt toFloat (lines ++ data) usecols =
        .ok (cols.map fun c => rows.map fun r => r.getD c 0, md) ∧
      ∀ k, md.get? k = if k = kAttributes then some (.list (h.selected cols)) else h.checked k := by
  obtain ⟨d, h1, h2⟩ := headerLoop_spec hh data
  obtain ⟨d', g1, g2, g3, g4⟩ := needed_ok hh h2 hneed
  have hint : ∀ (k : String) (x : ℤ), k.toList ∈ neededArgs → h.number toInt k = some x →
      intOf toInt d' k.toList = .ok x := by
    intro k x hk hx
    obtain ⟨ws, w, e1, e2, e3⟩ := number_inv hx
    obtain ⟨ws', w', f1, f2, f3⟩ := g4 _ hk
    rw [e1, Option.some.injEq] at f1
    subst f1
    rw [e2, Option.some.injEq] at f2
    subst f2
    exact intOf_ok f3 e3
  have hc := integrity_of_needed (toInt := toInt) (h := h) g1 g2 g3 (hint _ _ (by decide) hn)
    (hint _ _ (by decide) hm) (hint _ _ (by decide) hsize)
  rw [if_neg (by
    simp only [not_or, not_not, ne_eq]
    exact ⟨hu.symm, hlat, hlon, trivial⟩)] at hc
  have hchk := integrity_checked hh h2 hc
  obtain ⟨md, s1, s2⟩ := selectNames_ok (usecols := usecols) (cols := cols) (h := h)
    (by rw [hchk]; rfl) hs
  refine ⟨md, ?_, fun k => ?_⟩
  · unfold readGdfFile
    simp only [h1]
    rw [loadtxt_spec hd hcol hs hne, Py.bind_ok, hc, Py.bind_ok, s1, Py.bind_ok]
    unfold elemsOf
    rw [s2, if_pos rfl]
    simp only [Py.bind_ok, Val.elems, checkColumnCount]
    rw [if_neg (by simp [Header.selected]), Py.bind_ok]
    rfl
  · rw [s2]
    by_cases hk : k = kAttributes
    · rw [if_pos hk, if_pos hk]
    · rw [if_neg hk, if_neg hk, hchk]

theorem isGrid_needed {toInt : Str → Option ℤ} {toFloat : Str → Option ℝ} {h : Header}
    {rows : List (List ℝ)} {nlat nlon : ℕ} {usecols : Option (List ℤ)} {cols : List ℕ} {clat clon : ℕ}
    (G : IsGrid toInt toFloat h rows nlat nlon usecols cols clat clon) : NeededWords h := by
  have key : ∀ {α : Type} {p : Str → Option α} {k : String} {x : α}, h.number p k = some x →
      ∃ ws w, h.words k.toList = some ws ∧ ws.head? = some w := by
    intro α p k x hx
    obtain ⟨ws, w, h1, h2, -⟩ := number_inv hx
    exact ⟨ws, w, h1, h2⟩
  have l1 := fun k hk => (G.limits k hk).elim fun x hx => key hx
  intro k hk
  rw [needed_toList, List.mem_map] at hk
  obtain ⟨s, hs, rfl⟩ := hk
  rcases List.mem_cons.1 hs with e | hs
  · rw [e]; exact key G.nlat_eq
  rcases List.mem_cons.1 hs with e | hs
  · rw [e]; exact key G.nlon_eq
  rcases List.mem_cons.1 hs with e | hs
  · rw [e]; exact key G.points
  exact l1 s hs

theorem entry_some {rows : List (List ℝ)} {n m c : ℕ} (hc : ∀ r ∈ rows, r.length = n) (h : c < n)
    (hm : m < rows.length) : entry rows m c = some ((columnOf rows c).getD m 0) := by
  have h1 : rows[m]? = some rows[m] := List.getElem?_eq_getElem hm
  have h2 : rows[m].length = n := hc _ (List.getElem_mem hm)
  have h3 : c < rows[m].length := by omega
  rw [columnOf_getD h1, entry, h1]
  simp [h3]

theorem entry_lt {rows : List (List ℝ)} {m c : ℕ} {x : ℝ} (h : entry rows m c = some x) :
    m < rows.length := by
  unfold entry at h
  by_contra hm
  rw [List.getElem?_eq_none (by omega)] at h
  cases h

/-- The coordinates of the dataset are those of the rows. -/
theorem latitude_values {toInt : Str → Option ℤ} {toFloat : Str → Option ℝ} {h : Header}
    {rows : List (List ℝ)} {nlat nlon : ℕ} {usecols : Option (List ℤ)} {cols : List ℕ} {clat clon : ℕ}
    (G : IsGrid toInt toFloat h rows nlat nlon usecols cols clat clon) {l : List ℝ}
    (hl : l = ((List.range nlat).map fun (i : ℕ) => (columnOf rows clat).getD (i * nlon) 0).reverse) :
    {x | x ∈ l} = valuesOf rows clat := by
  have hlt := selects_lt G.selects _ G.clat_read
  have hp := G.nlon_pos
  ext x
  subst hl
  simp only [Set.mem_ofPred_eq, List.mem_reverse, List.mem_map, List.mem_range, valuesOf]
  constructor
  · rintro ⟨i, hi, rfl⟩
    exact ⟨i * nlon, entry_some G.columns hlt (by rw [G.count]; exact Nat.mul_lt_mul_of_pos_right hi hp)⟩
  · rintro ⟨m, hm⟩
    have hm' := entry_lt hm
    rw [G.count] at hm'
    have hi : m / nlon < nlat := Nat.div_lt_of_lt_mul (by rwa [Nat.mul_comm])
    refine ⟨m / nlon, hi, ?_⟩
    have h1 := G.parallels (m / nlon) hi (m % nlon) (Nat.mod_lt _ hp)
    rw [Nat.div_add_mod', hm, entry_some G.columns hlt (by
      rw [G.count]; exact Nat.mul_lt_mul_of_pos_right hi hp), Option.some.injEq] at h1
    exact h1.symm

theorem longitude_values {toInt : Str → Option ℤ} {toFloat : Str → Option ℝ} {h : Header}
    {rows : List (List ℝ)} {nlat nlon : ℕ} {usecols : Option (List ℤ)} {cols : List ℕ} {clat clon : ℕ}
    (G : IsGrid toInt toFloat h rows nlat nlon usecols cols clat clon) {l : List ℝ}
    (hl : l = ((List.range nlon).map fun (j : ℕ) => (columnOf rows clon).getD j 0)) :
    {x | x ∈ l} = valuesOf rows clon := by
  have hlt := selects_lt G.selects _ G.clon_read
  have hp := G.nlon_pos
  have hp1 := G.nlat_pos
  have hbound : ∀ j < nlon, j < rows.length := by
    intro j hj
    rw [G.count]
    nlinarith
  ext x
  subst hl
  simp only [Set.mem_ofPred_eq, List.mem_map, List.mem_range, valuesOf]
  constructor
  · rintro ⟨i, hi, rfl⟩
    exact ⟨i, entry_some G.columns hlt (hbound i hi)⟩
  · rintro ⟨m, hm⟩
    have hm' := entry_lt hm
    rw [G.count] at hm'
    have hi : m / nlon < nlat := Nat.div_lt_of_lt_mul (by rwa [Nat.mul_comm])
    have hj : m % nlon < nlon := Nat.mod_lt _ hp
    refine ⟨m % nlon, hj, ?_⟩
    have h1 := G.meridians (m / nlon) hi (m % nlon) hj
    rw [Nat.div_add_mod', hm, entry_some G.columns hlt (hbound _ hj), Option.some.injEq] at h1
    exact h1.symm

open Classical in
theorem checkArea_spec {toInt : Str → Option ℤ} {toFloat : Str → Option ℝ} {h : Header}
    {rows : List (List ℝ)} {nlat nlon : ℕ} {usecols : Option (List ℤ)} {cols : List ℕ} {clat clon : ℕ}
    (G : IsGrid toInt toFloat h rows nlat nlon usecols cols clat clon) {g : Dataset}
    (hlat : g.latitude =
      ((List.range nlat).map fun (i : ℕ) => (columnOf rows clat).getD (i * nlon) 0).reverse)
    (hlon : g.longitude = ((List.range nlon).map fun (j : ℕ) => (columnOf rows clon).getD j 0))
    (ha : ∀ k ∈ neededArgs, g.attrs.get? k = h.checked k) :
    checkArea toFloat g = if AreaAgrees toFloat h rows clat clon then .ok () else .error .OSError := by
  have n1 : g.latitude ≠ [] := by
    rw [hlat]
    have := G.nlat_pos
    simp
    omega
  have n2 : g.longitude ≠ [] := by
    rw [hlon]
    have := G.nlon_pos
    simp
    omega
  have a1 := minOf_spec n1
  have a2 := maxOf_spec n1
  have a3 := minOf_spec n2
  have a4 := maxOf_spec n2
  rw [latitude_values G hlat] at a1 a2
  rw [longitude_values G hlon] at a3 a4
  have key : ∀ (k : String), k.toList ∈ neededArgs → ∀ x, h.number toFloat k = some x →
      floatOf toFloat g.attrs k.toList = .ok x := by
    intro k hk x hx
    obtain ⟨w, hw, hw'⟩ := checked_number hk hx
    exact floatOf_ok (by rw [ha _ hk, hw]) hw'
  obtain ⟨x1, e1⟩ := G.limits "latlimit_south" (by simp)
  obtain ⟨x2, e2⟩ := G.limits "latlimit_north" (by simp)
  obtain ⟨x3, e3⟩ := G.limits "longlimit_west" (by simp)
  obtain ⟨x4, e4⟩ := G.limits "longlimit_east" (by simp)
  unfold checkArea
  rw [key _ (by decide) _ e1, Py.bind_ok, key _ (by decide) _ e2, Py.bind_ok, key _ (by decide) _ e3,
    Py.bind_ok, key _ (by decide) _ e4, Py.bind_ok]
  have hiff : AreaAgrees toFloat h rows clat clon ↔ (isClose x1 (minOf g.latitude) ∧
      isClose x2 (maxOf g.latitude) ∧ isClose x3 (minOf g.longitude) ∧
      isClose x4 (maxOf g.longitude)) := by
    unfold AreaAgrees
    rw [e1, e2, e3, e4]
    constructor
    · rintro ⟨⟨x, y, hx, hy, hc⟩, ⟨x', y', hx', hy', hc'⟩, ⟨x'', y'', hx'', hy'', hc''⟩,
        ⟨x3, y3, hx3, hy3, hc3⟩⟩
      rw [Option.some.injEq] at hx hx' hx'' hx3
      subst hx; subst hx'; subst hx''; subst hx3
      rw [hy.unique a1] at hc
      rw [hy'.unique a2] at hc'
      rw [hy''.unique a3] at hc''
      rw [hy3.unique a4] at hc3
      exact ⟨hc, hc', hc'', hc3⟩
    · rintro ⟨c1, c2, c3, c4⟩
      exact ⟨⟨_, _, rfl, a1, c1⟩, ⟨_, _, rfl, a2, c2⟩, ⟨_, _, rfl, a3, c3⟩, ⟨_, _, rfl, a4, c4⟩⟩
  by_cases hA : AreaAgrees toFloat h rows clat clon
  · rw [if_pos hA, if_pos (hiff.1 hA)]
  · rw [if_neg hA, if_neg (fun c => hA (hiff.2 c))]

end Verif.Icgem
