import Verif.Icgem.Props

/-! C54 and C55 for the lines of data: comments, blank lines, words that are not numbers, files without
data. -/

namespace Verif.Icgem

variable {toInt : Str → Option ℤ} {toFloat : Str → Option ℝ}

theorem mapM_error {α β : Type} {f : α → Py β} {e : PyErr} {l : List α}
    (he : ∀ x ∈ l, ∀ e', f x = .error e' → e' = e) (hx : ∃ x ∈ l, ∃ e', f x = .error e') :
    l.mapM f = .error e := by
  induction l with
  | nil => obtain ⟨x, hx, -⟩ := hx; cases hx
  | cons x l ih =>
    rw [List.mapM_cons]
    cases h : f x with
    | error e' => rw [he x (by simp) e' h]; rfl
    | ok y =>
      rw [Py.bind_ok, ih (fun z hz => he z (by simp [hz]))]
      · rfl
      · obtain ⟨z, hz, e', h'⟩ := hx
        rcases List.mem_cons.1 hz with rfl | hz
        · rw [h] at h'; cases h'
        · exact ⟨z, hz, e', h'⟩

theorem mapM_error_inv {α β : Type} {f : α → Py β} {e : PyErr} {l : List α} (h : l.mapM f = .error e) :
    ∃ x ∈ l, f x = .error e := by
  induction l with
  | nil => cases h
  | cons x l ih =>
    rw [List.mapM_cons] at h
    cases hx : f x with
    | error e' => rw [hx] at h; cases h; exact ⟨x, by simp, hx⟩
    | ok y =>
      rw [hx, Py.bind_ok] at h
      cases hl : l.mapM f with
      | error e' =>
        rw [hl] at h
        cases h
        obtain ⟨z, hz, h⟩ := ih hl
        exact ⟨z, by simp [hz], h⟩
      | ok ys => rw [hl] at h; cases h

theorem parseRow_error {usecols : Option (List ℤ)} {words : List Str} {e : PyErr}
    (h : parseRow toFloat usecols words = .error e) : e = .ValueError := by
  unfold parseRow at h
  cases hs : selectCols usecols words with
  | error e' =>
    rw [hs] at h
    cases h
    unfold selectCols at hs
    cases usecols with
    | none => cases hs
    | some us =>
      obtain ⟨i, -, hi⟩ := mapM_error_inv hs
      unfold pyIndex at hi
      dsimp only at hi
      generalize (if i < 0 then i + (words.length : ℤ) else i) = j at hi
      split at hi
      · cases hi; rfl
      · split at hi <;> cases hi; rfl
  | ok ws =>
    rw [hs, Py.bind_ok] at h
    obtain ⟨w, -, hw⟩ := mapM_error_inv h
    unfold parseWord at hw
    split at hw <;> cases hw
    rfl

/-- C53: the characters that separate words are the 29 for which `str.isspace` of Python is true. -/
theorem C53_white_space (c : Char) : isSpace c = true ↔
    c.toNat ∈ [0x9, 0xA, 0xB, 0xC, 0xD, 0x1C, 0x1D, 0x1E, 0x1F, 0x20, 0x85, 0xA0, 0x1680, 0x2000, 0x2001,
      0x2002, 0x2003, 0x2004, 0x2005, 0x2006, 0x2007, 0x2008, 0x2009, 0x200A, 0x2028, 0x2029, 0x202F, 0x205F,
      0x3000] := by
  simp only [isSpace, Bool.or_eq_true, Bool.and_eq_true, decide_eq_true_eq, beq_iff_eq, List.mem_cons,
    List.not_mem_nil, or_false]
  omega

/-- C54: lines of data that are blank or comments do not count, whatever the header and the rest of the
data. -/
theorem C54_comments {h : Header} {lines : List Str} (hh : IsHeader h lines) (data : List Str)
    (keep : Str → Bool)
    (skipped : ∀ l ∈ data, keep l = false → ∃ blank comment, l = blank ++ comment ∧ IsBlank blank ∧
      (comment = [] ∨ ∃ text, comment = '#' :: text))
    (usecols : Option (List ℤ)) :
    loadIcgemGdf toInt toFloat (lines ++ data) usecols =
      loadIcgemGdf toInt toFloat (lines ++ data.filter keep) usecols := by
  obtain ⟨d, d1, -⟩ := headerLoop_all hh
  have key : (data.map fun l => split (l.takeWhile (· ≠ '#'))).filter (· ≠ []) =
      ((data.filter keep).map fun l => split (l.takeWhile (· ≠ '#'))).filter (· ≠ []) := by
    induction data with
    | nil => rfl
    | cons x l ih =>
      have ih := ih fun y hy => skipped y (by simp [hy])
      cases hx : keep x with
      | false =>
        obtain ⟨blank, comment, e, hb, hc⟩ := skipped x (by simp) hx
        have hn : '#' ∉ blank := fun hm => by
          have := hb _ hm
          revert this
          decide
        have e1 : x.takeWhile (· ≠ '#') = blank := by
          rw [e, List.takeWhile_append_of_pos (fun c hc => by
            simp only [decide_eq_true_eq]; rintro rfl; exact hn hc)]
          rcases hc with rfl | ⟨text, rfl⟩ <;> simp
        have e2 : split (x.takeWhile (· ≠ '#')) = [] := by
          rw [e1]
          exact split_of_isLine [] blank hb
        rw [List.map_cons, List.filter_cons, if_neg (by rw [e2]; simp), ih, List.filter_cons (p := keep),
          if_neg (by simp [hx])]
      | true =>
        rw [List.filter_cons (p := keep), if_pos hx, List.map_cons, List.map_cons, List.filter_cons,
          List.filter_cons, ih]
  unfold loadIcgemGdf readGdfFile loadtxt
  simp only [d1]
  rw [key]

/-- C55: when all the columns are read, a word of the data that is not a number raises ValueError, whatever
the header and the other lines. -/
theorem C55_not_a_number {h : Header} {lines : List Str} (hh : IsHeader h lines) (data : List Str)
    {line : Str} (hl : line ∈ data) {words : List Str} (hw : IsLine words line) (hc : '#' ∉ line)
    {w : Str} (hwm : w ∈ words) (hf : toFloat w = none) :
    loadIcgemGdf toInt toFloat (lines ++ data) none = .error .ValueError := by
  obtain ⟨d, d1, -⟩ := headerLoop_spec hh data
  unfold loadIcgemGdf readGdfFile loadtxt
  simp only [d1]
  rw [mapM_error (e := .ValueError) (fun x _ e' => parseRow_error)]
  · rfl
  · refine ⟨words, ?_, ?_⟩
    · rw [List.mem_filter]
      refine ⟨List.mem_map.2 ⟨line, hl, by rw [takeWhile_hash hc, split_of_isLine _ _ hw]⟩, ?_⟩
      have : words ≠ [] := List.ne_nil_of_mem hwm
      simpa using this
    · refine ⟨.ValueError, ?_⟩
      unfold parseRow selectCols
      rw [Py.bind_ok]
      refine mapM_error (fun x _ e' h' => ?_) ⟨w, hwm, .ValueError, by rw [parseWord, hf]⟩
      unfold parseWord at h'
      split at h' <;> cases h'
      rfl

/-- C55: rows with different numbers of columns raise ValueError when all the columns are read, whatever the
header. -/
theorem C55_ragged {h : Header} {lines : List Str} (hh : IsHeader h lines) {rows : List (List ℝ)}
    {data : List Str} (hd : List.Forall₂ (IsRow toFloat) rows data) {r r' : List ℝ} (hr : r ∈ rows)
    (hr' : r' ∈ rows) (hne : r.length ≠ r'.length) :
    loadIcgemGdf toInt toFloat (lines ++ data) none = .error .ValueError := by
  obtain ⟨d, d1, -⟩ := headerLoop_spec hh data
  obtain ⟨wss, e, h2⟩ := words_of_rows hd
  have h3 : wss.mapM (parseRow toFloat none) = .ok rows := by
    apply mapM_ok
    refine h2.imp fun ws r h => ?_
    have := parseRow_spec (toFloat := toFloat) (usecols := none) (cols := List.range r.length) rfl h
    rw [this]
    congr 1
    apply List.ext_getElem (by simp)
    intro i h1 h2
    simp [List.getD_eq_getElem?_getD, List.getElem?_eq_getElem h2]
  unfold loadIcgemGdf readGdfFile loadtxt
  simp only [d1, e, h3, Py.bind_ok]
  obtain ⟨q, qs, rfl⟩ := List.exists_cons_of_ne_nil (List.ne_nil_of_mem hr)
  rw [toColumns, if_neg]
  · rfl
  · intro hall
    rw [List.all_eq_true] at hall
    have a := hall r hr
    have b := hall r' hr'
    simp only [decide_eq_true_eq] at a b
    exact hne (a.trans b.symm)

/-- C55: a file without lines of numbers (blank lines and comments at most) raises OSError when its header
can be read and names the columns of latitude and longitude. -/
theorem C55_no_data {h : Header} {lines : List Str} (hh : IsHeader h lines) {data : List Str}
    (hd : ∀ l ∈ data, ∃ blank comment, l = blank ++ comment ∧ IsBlank blank ∧
      (comment = [] ∨ ∃ text, comment = '#' :: text))
    (hr : h.Readable toInt) :
    loadIcgemGdf toInt toFloat (lines ++ data) none = .error .OSError := by
  rw [C54_comments hh data (fun _ => false) (fun l hl _ => hd l hl)]
  rw [show data.filter (fun _ => false) = [] by simp]
  refine columns_mismatch hh (raw := [[]]) rfl hr ?_
  intro hlat hlon e
  obtain ⟨n, hn⟩ := List.length_eq_one_iff.1 e.symm
  rw [hn, List.mem_singleton] at hlat hlon
  rw [← hlon] at hlat
  exact absurd hlat (by decide)

theorem mem_of_get {V : Type} {d : Dict V} {k : Str} {v : V} (h : d.get? k = some v) : (k, v) ∈ d := by
  induction d with
  | nil => cases h
  | cons p d ih =>
    obtain ⟨k', v'⟩ := p
    rw [Dict.get?] at h
    split at h
    · rename_i e
      cases h
      subst e
      simp
    · exact List.mem_cons_of_mem _ (ih h)

/-- C55: a right file read without its column of longitudes, or without that of latitudes, raises KeyError. -/
theorem C55_coordinates_not_read {h : Header} {lines : List Str} (hh : IsHeader h lines)
    {rows : List (List ℝ)} {data : List Str} (hd : List.Forall₂ (IsRow toFloat) rows data)
    (hcol : ∀ r ∈ rows, r.length = h.names.length)
    (hu : h.units.length = h.names.length) (hlat : "latitude".toList ∈ h.names)
    (hlon : "longitude".toList ∈ h.names) (hneed : NeededWords h) {n m : ℕ} (hn0 : 0 < n) (hm0 : 0 < m)
    (hn : h.number toInt "latitude_parallels" = some (n : ℤ))
    (hm : h.number toInt "longitude_parallels" = some (m : ℤ))
    (hsize : h.number toInt "number_of_gridpoints" = some ((n : ℤ) * m))
    (hcount : rows.length = n * m) {us : List ℤ} {cols : List ℕ}
    (hs : Selects h.names.length (some us) cols)
    (unread : (∀ c ∈ cols, h.names[c]? ≠ some "longitude".toList) ∨
      (∀ c ∈ cols, h.names[c]? ≠ some "latitude".toList)) :
    loadIcgemGdf toInt toFloat (lines ++ data) (some us) = .error .KeyError := by
  have hne : rows ≠ [] := by
    rintro rfl
    have := Nat.mul_pos hn0 hm0
    simp at hcount
    omega
  obtain ⟨md, r1, r2⟩ := read_spec hh hd hne hcol hs hu hlat hlon hneed hn hm hsize
  obtain ⟨wn, hwn, hwn'⟩ := checked_number (by decide) hn
  obtain ⟨wm, hwm, hwm'⟩ := checked_number (by decide) hm
  have hn' : intOf toInt md "latitude_parallels".toList = .ok n :=
    intOf_ok (by rw [r2, if_neg (by decide), hwn]) hwn'
  have hm' : intOf toInt md "longitude_parallels".toList = .ok m :=
    intOf_ok (by rw [r2, if_neg (by decide), hwm]) hwm'
  have hnames : elemsOf md kAttributes = .ok (h.selected cols) := by
    unfold elemsOf
    rw [r2, if_pos rfl]
    rfl
  have hzip : (h.selected cols).zip (cols.map fun c => rows.map fun r => r.getD c 0) =
      cols.map fun c => (h.names.getD c [], columnOf rows c) := List.zip_map'
  set D : Dict (List ℝ) := (cols.map fun c => (h.names.getD c [], columnOf rows c)).foldl
    (fun d p => d.set p.1 p.2) [] with hD
  have hlt : ∀ c ∈ cols, c < h.names.length := by
    intro c hc
    have hs' : List.Forall₂ (IsColumn h.names.length) us cols := hs
    clear hD unread hzip r1 r2 hnames hs
    induction hs' with
    | nil => cases hc
    | cons h1 _ ih =>
      rcases List.mem_cons.1 hc with rfl | hc
      · exact h1.1
      · exact ih hc
  have hmem : ∀ k v, D.get? k = some v → ∃ c ∈ cols, h.names[c]? = some k ∧ v = columnOf rows c := by
    intro k v hk
    rcases foldl_set_mem _ _ _ (mem_of_get hk) with h1 | h1
    · cases h1
    · rw [List.mem_map] at h1
      obtain ⟨c, hc, e⟩ := h1
      simp only [Prod.mk.injEq] at e
      refine ⟨c, hc, ?_, e.2.symm⟩
      rw [List.getElem?_eq_getElem (hlt c hc), ← e.1, getD_lt (hlt c hc)]
  have hnone : ∀ k, (∀ c ∈ cols, h.names[c]? ≠ some k) → D.get? k = none := by
    intro k hk
    cases hg : D.get? k with
    | none => rfl
    | some v =>
      obtain ⟨c, hc, e, -⟩ := hmem k v hg
      exact absurd e (hk c hc)
  unfold loadIcgemGdf
  rw [r1, Py.bind_ok]
  simp only
  unfold buildDataset
  rw [hn', Py.bind_ok, hm', Py.bind_ok]
  simp only
  rw [hnames, Py.bind_ok, hzip, ← hD]
  unfold column
  cases hL : D.get? "longitude".toList with
  | none => rfl
  | some v =>
    obtain ⟨c, -, -, rfl⟩ := hmem _ _ hL
    simp only [Py.bind_ok]
    rcases unread with h1 | h1
    · rw [hnone _ h1] at hL; cases hL
    · rw [reshape_ok (n := n) (m := m) (by rw [columnOf, List.length_map, hcount]), Py.bind_ok,
        firstRow_grid (by omega), Py.bind_ok, hnone _ h1]
      rfl

theorem intOf_cases {h : Header} {d : Dict Val} {k : String} {ws : List Str} {w : Str}
    (h1 : h.words k.toList = some ws) (h2 : ws.head? = some w) (h3 : d.get? k.toList = some (.str w)) :
    intOf toInt d k.toList = match h.number toInt k with
      | some n => .ok n
      | none => .error .ValueError := by
  unfold intOf Header.number
  rw [h3, h1]
  simp only [Option.bind_some, h2]
  cases toInt w <;> rfl

/-- C55: a complete header in which one of the three counts is not an integer is a ValueError, not the
OSError of a malformed header. -/
theorem C55_not_an_integer {h : Header} {lines : List Str} (hh : IsHeader h lines)
    {rows : List (List ℝ)} {data : List Str} (hd : List.Forall₂ (IsRow toFloat) rows data)
    (hne : rows ≠ []) {columns : ℕ} (hcol : ∀ r ∈ rows, r.length = columns)
    {usecols : Option (List ℤ)} {cols : List ℕ} (hs : Selects columns usecols cols)
    (hu : h.units.length = h.names.length) (hlat : "latitude".toList ∈ h.names)
    (hlon : "longitude".toList ∈ h.names) (hneed : NeededWords h) {k : String}
    (hk : k ∈ ["latitude_parallels", "longitude_parallels", "number_of_gridpoints"])
    (bad : h.number toInt k = none) :
    loadIcgemGdf toInt toFloat (lines ++ data) usecols = .error .ValueError := by
  obtain ⟨d, d1, d2⟩ := headerLoop_spec hh data
  refine load_of_check d1 (loadtxt_spec hd hcol hs hne) ?_
  obtain ⟨d', g1, g2, g3, g4⟩ := needed_ok hh d2 hneed
  have hint : ∀ k : String, k.toList ∈ neededArgs →
      intOf toInt (d'.set kUnits (.list (h.units.map cleanUnit))) k.toList =
        match h.number toInt k with
        | some n => .ok n
        | none => .error .ValueError := by
    intro k hk
    obtain ⟨ws, w, e1, e2, e3⟩ := g4 _ hk
    refine intOf_cases e1 e2 ?_
    rw [get_set, if_neg (show _ ≠ kUnits from fun e => kUnits_not_needed (e ▸ hk)), e3]
  have hcols : checkColumns d' = .ok (.list h.names, .list h.units) := by
    unfold checkColumns
    rw [g2, g3]
    exact if_neg (not_not.2 hu.symm)
  have hll : checkLatLon (.list h.names) = .ok () := by
    unfold checkLatLon
    have e2 : (Val.list h.names).contains "latitude".toList = true := decide_eq_true hlat
    have e3 : (Val.list h.names).contains "longitude".toList = true := decide_eq_true hlon
    rw [e2, e3]
    rfl
  unfold checkGdfIntegrity
  rw [g1, Py.bind_ok, hcols, Py.bind_ok]
  simp only [Val.elems]
  rw [hll, Py.bind_ok]
  unfold checkSize
  rw [hint "latitude_parallels" (by decide), hint "longitude_parallels" (by decide),
    hint "number_of_gridpoints" (by decide)]
  simp only [List.mem_cons, List.not_mem_nil, or_false] at hk
  rcases hk with rfl | rfl | rfl
  · rw [bad]; rfl
  · rw [bad]
    cases h.number toInt "latitude_parallels" <;> rfl
  · rw [bad]
    cases h.number toInt "latitude_parallels" <;> cases h.number toInt "longitude_parallels" <;> rfl

/-- The sizes that `reshape` works out to `n` and `m`. -/
def WorkedOut (n m : ℕ) (a b : ℤ) : Prop := (a = -1 ∧ b = m) ∨ (a = n ∧ b = -1)

theorem reshape_negative {n m : ℕ} (hn : 0 < n) (hm : 0 < m) {a b : ℤ} (hab : WorkedOut n m a b) {l : List ℝ}
    (h : l.length = n * m) : reshape (a, b) l = reshape ((n : ℤ), (m : ℤ)) l := by
  have h1 : newShape (a, b) l.length = .ok (n, m) := by
    unfold newShape
    rcases hab with ⟨rfl, rfl⟩ | ⟨rfl, rfl⟩
    · rw [if_pos (by simp), if_neg (by simp [h]; omega)]
      simp [h, hm]
    · rw [if_neg (by simp), if_pos (by simp), if_neg (by simp [h]; omega)]
      simp [h, hn]
  unfold reshape
  rw [h1, newShape_ok h]

theorem dataVars_negative {n m : ℕ} (hn : 0 < n) (hm : 0 < m) {a b : ℤ} (hab : WorkedOut n m a b) :
    ∀ {data : Dict (List ℝ)}, (∀ p ∈ data, p.2.length = n * m) →
      dataVars (a, b) data = dataVars ((n : ℤ), (m : ℤ)) data
  | [], _ => rfl
  | (name, value) :: rest, h => by
    rw [dataVars, dataVars, reshape_negative hn hm hab (h (name, value) (by simp)),
      dataVars_negative hn hm hab fun p hp => h p (by simp [hp])]

theorem checkArea_congr {g g' : Dataset} (h1 : g'.latitude = g.latitude) (h2 : g'.longitude = g.longitude)
    (h3 : ∀ k ∈ ["latlimit_south", "latlimit_north", "longlimit_west", "longlimit_east"],
      g'.attrs.get? k.toList = g.attrs.get? k.toList) : checkArea toFloat g' = checkArea toFloat g := by
  unfold checkArea floatOf
  rw [h1, h2, h3 _ (by simp only [List.mem_cons, true_or]), h3 _ (by simp only [List.mem_cons, true_or, or_true]),
    h3 _ (by simp only [List.mem_cons, true_or, or_true]), h3 _ (by simp only [List.mem_cons, true_or, or_true])]

/-- C55 fails for negative counts: a header with `latitude_parallels -1` and the opposite of
`longitude_parallels` as the number of points is read like the right header of the same grid, and the same
with the two counts exchanged. -/
theorem C55_negative_counts {h h' : Header} {lines lines' : List Str} (hh : IsHeader h lines)
    (hh' : IsHeader h' lines') {rows : List (List ℝ)} {data : List Str}
    (hd : List.Forall₂ (IsRow toFloat) rows data) {nlat nlon : ℕ} {usecols : Option (List ℤ)}
    {cols : List ℕ} {clat clon : ℕ} (G : IsGrid toInt toFloat h rows nlat nlon usecols cols clat clon)
    (area : AreaAgrees toFloat h rows clat clon) (names : h'.names = h.names) (units : h'.units = h.units)
    (other : ∀ k, k ≠ "latitude_parallels".toList → k ≠ "longitude_parallels".toList →
      k ≠ "number_of_gridpoints".toList → h'.words k = h.words k) {a b : ℤ}
    (counts : (a = -1 ∧ b = nlon) ∨ (a = nlat ∧ b = -1))
    (hlat' : h'.number toInt "latitude_parallels" = some a)
    (hlon' : h'.number toInt "longitude_parallels" = some b)
    (points : h'.number toInt "number_of_gridpoints" = some (a * b))
    (noheight : h.words "height_over_ell".toList = none) :
    ∃ g g', loadIcgemGdf toInt toFloat (lines ++ data) usecols = .ok g ∧
      loadIcgemGdf toInt toFloat (lines' ++ data) usecols = .ok g' ∧ g'.latitude = g.latitude ∧
      g'.longitude = g.longitude ∧ g'.data_vars = g.data_vars := by
  obtain ⟨g0, hg0, -⟩ := C54_values hh hd G area
  obtain ⟨raw, md, g, r1, b1, hraw, r2⟩ := load_ok hh hd G
  have hne : rows ≠ [] := by
    rintro rfl
    have h1 := G.count
    have h2 := Nat.mul_pos G.nlat_pos G.nlon_pos
    rw [List.length_nil] at h1
    omega
  have mem : ∀ {c : ℕ} {x : Str}, h.names[c]? = some x → x ∈ h'.names :=
    fun h => names ▸ List.mem_of_getElem? h
  have hneed : NeededWords h' := by
    intro k hk
    by_cases k1 : k = "latitude_parallels".toList
    · obtain ⟨ws, w, e1, e2, -⟩ := number_inv hlat'
      exact ⟨ws, w, k1 ▸ e1, e2⟩
    by_cases k3 : k = "longitude_parallels".toList
    · obtain ⟨ws, w, e1, e2, -⟩ := number_inv hlon'
      exact ⟨ws, w, k3 ▸ e1, e2⟩
    by_cases k2 : k = "number_of_gridpoints".toList
    · obtain ⟨ws, w, e1, e2, -⟩ := number_inv points
      exact ⟨ws, w, k2 ▸ e1, e2⟩
    rw [other k k1 k3 k2]
    exact isGrid_needed G k hk
  obtain ⟨md', r1', r2'⟩ := read_spec hh' hd hne (by rw [names]; exact G.columns)
    (by rw [names]; exact G.selects) (by rw [names, units]; exact G.units) (mem G.clat_name)
    (mem G.clon_name) hneed hlat' hlon' points
  have hsel : h'.selected cols = h.selected cols := by rw [Header.selected, Header.selected, names]
  have hchk : ∀ k, k ≠ "latitude_parallels".toList → k ≠ "longitude_parallels".toList →
      k ≠ "number_of_gridpoints".toList → md'.get? k = md.get? k := by
    intro k k1 k3 k2
    rw [r2, r2', hsel, Header.checked, Header.checked, names, units, other k k1 k3 k2]
  have hint : intOf toInt md "latitude_parallels".toList = .ok (nlat : ℤ) := by
    obtain ⟨w, hw, hw'⟩ := checked_number (by decide) G.nlat_eq
    exact intOf_ok (by rw [r2, if_neg (by decide), hw]) hw'
  have hint' : intOf toInt md' "latitude_parallels".toList = .ok a := by
    obtain ⟨w, hw, hw'⟩ := checked_number (by decide) hlat'
    exact intOf_ok (by rw [r2', if_neg (by decide), hw]) hw'
  have hintm : intOf toInt md "longitude_parallels".toList = .ok (nlon : ℤ) := by
    obtain ⟨w, hw, hw'⟩ := checked_number (by decide) G.nlon_eq
    exact intOf_ok (by rw [r2, if_neg (by decide), hw]) hw'
  have hintm' : intOf toInt md' "longitude_parallels".toList = .ok b := by
    obtain ⟨w, hw, hw'⟩ := checked_number (by decide) hlon'
    exact intOf_ok (by rw [r2', if_neg (by decide), hw]) hw'
  have hheight : md.get? "height_over_ell".toList = none := by
    rw [r2, if_neg (by decide), Header.checked, if_neg (by decide), if_neg (by decide), if_neg (by decide),
      noheight]
    rfl
  have hA : md.get? kAttributes = some (.list (h.selected cols)) := by rw [r2, if_pos rfl]
  have hU : md.get? kUnits = some (.list (h.units.map bare)) := by rw [r2, if_neg (by decide)]; rfl
  have hA' : md'.get? kAttributes = some (.list (h.selected cols)) := by
    rw [hchk _ (by decide) (by decide) (by decide), hA]
  have hU' : md'.get? kUnits = some (.list (h.units.map bare)) := by
    rw [hchk _ (by decide) (by decide) (by decide), hU]
  have hb : ∃ g', buildDataset toInt toFloat raw md' = .ok g' ∧ g'.latitude = g.latitude ∧
      g'.longitude = g.longitude ∧ g'.data_vars = g.data_vars := by
    have hmem : ∀ p ∈ ((h.selected cols).zip raw).foldl (fun (d : Dict (List ℝ)) p => d.set p.1 p.2)
        [], p.2.length = nlat * nlon := by
      intro p hp
      rcases foldl_set_mem _ _ _ hp with h1 | h1
      · simp at h1
      · have h2 := (List.of_mem_zip h1).2
        rw [hraw, List.mem_map] at h2
        obtain ⟨c, -, h2⟩ := h2
        rw [← h2, List.length_map, G.count]
    have b2 := b1
    unfold buildDataset at b2 ⊢
    have hAe : elemsOf md kAttributes = .ok (h.selected cols) := by unfold elemsOf; rw [hA]; rfl
    have hAe' : elemsOf md' kAttributes = .ok (h.selected cols) := by unfold elemsOf; rw [hA']; rfl
    rw [hint, Py.bind_ok, hintm, Py.bind_ok] at b2
    rw [hint', Py.bind_ok, hintm', Py.bind_ok]
    simp only [hAe, hAe', Py.bind_ok] at b2 ⊢
    generalize hD : ((h.selected cols).zip raw).foldl (fun (d : Dict (List ℝ)) p => d.set p.1 p.2)
      [] = D at b2 hmem ⊢
    have hcolm : ∀ {k : Str} {v : List ℝ}, column D k = .ok v → v.length = nlat * nlon := by
      intro k v hv
      unfold column at hv
      cases hg : D.get? k with
      | none => rw [hg] at hv; cases hv
      | some v' =>
        rw [hg] at hv
        cases hv
        exact hmem _ (get?_mem hg)
    obtain ⟨lon, c1, b2⟩ := bind_inv b2
    obtain ⟨lonG, c2, b2⟩ := bind_inv b2
    obtain ⟨longitude, c3, b2⟩ := bind_inv b2
    obtain ⟨lat, c4, b2⟩ := bind_inv b2
    obtain ⟨latG, c5, b2⟩ := bind_inv b2
    obtain ⟨latitude, c6, b2⟩ := bind_inv b2
    obtain ⟨vars, c7, b2⟩ := bind_inv b2
    obtain ⟨vars', c8, b2⟩ := bind_inv b2
    obtain ⟨md1, c9, b2⟩ := bind_inv b2
    obtain ⟨md2, c10, b2⟩ := bind_inv b2
    simp only [Py.pure_eq, Except.ok.injEq] at b2
    unfold addHeight at c8
    rw [hheight] at c8
    cases c8
    rw [c1, Py.bind_ok, reshape_negative G.nlat_pos G.nlon_pos counts (hcolm c1), c2, Py.bind_ok, c3, Py.bind_ok, c4,
      Py.bind_ok, reshape_negative G.nlat_pos G.nlon_pos counts (hcolm c4), c5, Py.bind_ok, c6, Py.bind_ok,
      dataVars_negative G.nlat_pos G.nlon_pos counts hmem, c7, Py.bind_ok]
    unfold addHeight joinAt
    rw [hchk _ (by decide) (by decide) (by decide), hheight, hAe']
    simp only [Py.bind_ok, Py.pure_eq]
    unfold elemsOf
    rw [get_set, if_neg (by decide), hU']
    exact ⟨_, rfl, by rw [← b2], by rw [← b2], by rw [← b2]⟩
  obtain ⟨g', b1', e1, e2, e3⟩ := hb
  have harea : checkArea toFloat g' = checkArea toFloat g := by
    refine checkArea_congr e1 e2 fun k hk => ?_
    have hk' : k.toList ∈ neededArgs ∧ k.toList ≠ "latitude_parallels".toList ∧
        k.toList ≠ "longitude_parallels".toList ∧ k.toList ≠ "number_of_gridpoints".toList := by
      simp only [List.mem_cons, List.not_mem_nil, or_false] at hk
      rcases hk with rfl | rfl | rfl | rfl <;> decide
    rw [build_attrs b1' hA' hU', build_attrs b1 hA hU, hchk _ hk'.2.1 hk'.2.2.1 hk'.2.2.2]
  have hg : loadIcgemGdf toInt toFloat (lines ++ data) usecols = .ok g0 := hg0
  unfold loadIcgemGdf at hg ⊢
  rw [r1, Py.bind_ok] at hg
  simp only at hg
  rw [b1, Py.bind_ok] at hg
  obtain ⟨u, a1, a2⟩ := bind_inv hg
  refine ⟨g, g', ?_, ?_, e1, e2, e3⟩
  · rw [r1, Py.bind_ok]
    simp only
    rw [b1, Py.bind_ok, a1]
    rfl
  · rw [r1', Py.bind_ok]
    simp only
    rw [← hraw, b1', Py.bind_ok, harea, a1]
    rfl

end Verif.Icgem
