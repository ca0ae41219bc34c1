import Verif.Icgem.LemmasD

/-!
Properties C53-C55 of the ICGEM reader. `lines` are the lines of the header and `data` the lines of
numbers; `toInt` and `toFloat` are `int` and `float` of Python.
-/

namespace Verif.Icgem

variable {toInt : Str → Option ℤ} {toFloat : Str → Option ℝ}

/-- Full C53: the attributes of the dataset are what the header says, and names and units of the columns
are those of the columns that are read. -/
def RecoversHeader : Prop :=
  ∀ (toInt : Str → Option ℤ) (toFloat : Str → Option ℝ) (h : Header) (lines data : List Str)
    (usecols : Option (List ℤ)) (cols : List ℕ) (g : Dataset),
    IsHeader h lines → Selects h.names.length usecols cols →
    loadIcgemGdf toInt toFloat (lines ++ data) usecols = .ok g →
    ∀ k, g.attrs.get? k = (h.attr (cols.map fun c => h.names.getD c []) (cols.map fun c => h.units.getD c []) k).map .str

theorem load_inv {lines : List Str} {usecols : Option (List ℤ)} {g : Dataset}
    (h : loadIcgemGdf toInt toFloat lines usecols = .ok g) :
    ∃ raw md, readGdfFile toInt toFloat lines usecols = .ok (raw, md) ∧
      buildDataset toInt toFloat raw md = .ok g := by
  unfold loadIcgemGdf at h
  obtain ⟨⟨raw, md⟩, h1, h⟩ := bind_inv h
  obtain ⟨g', h2, h⟩ := bind_inv h
  obtain ⟨_, -, h⟩ := bind_inv h
  simp only [Py.pure_eq, Except.ok.injEq] at h
  subst h
  exact ⟨raw, md, h1, h2⟩

/-- C53 with any selection of columns, except for the units: those of all the columns are kept. -/
theorem C53_usecols_partial {h : Header} {lines : List Str} (hh : IsHeader h lines) (data : List Str)
    {usecols : Option (List ℤ)} {cols : List ℕ} (hs : Selects h.names.length usecols cols) {g : Dataset}
    (hg : loadIcgemGdf toInt toFloat (lines ++ data) usecols = .ok g) (k : Str) :
    g.attrs.get? k = (h.attr (cols.map fun c => h.names.getD c []) h.units k).map .str := by
  obtain ⟨raw, md, h1, h2⟩ := load_inv hg
  unfold readGdfFile at h1
  obtain ⟨d, d1, d2⟩ := headerLoop_spec hh data
  simp only [d1] at h1
  obtain ⟨raw', -, h1⟩ := bind_inv h1
  obtain ⟨md1, c1, h1⟩ := bind_inv h1
  obtain ⟨md2, c2, h1⟩ := bind_inv h1
  obtain ⟨_, -, h1⟩ := bind_inv h1
  obtain ⟨_, -, h1⟩ := bind_inv h1
  simp only [Py.pure_eq, Except.ok.injEq, Prod.mk.injEq] at h1
  obtain ⟨rfl, rfl⟩ := h1
  have hchk := integrity_checked hh d2 c1
  obtain ⟨md', s1, s2⟩ := selectNames_ok (usecols := usecols) (cols := cols) (h := h)
    (by rw [hchk]; rfl) hs
  rw [c2, Except.ok.injEq] at s1
  subst s1
  have ha := s2 kAttributes
  rw [if_pos rfl] at ha
  have hu := s2 kUnits
  rw [if_neg (by decide), hchk] at hu
  rw [build_attrs h2 ha hu]
  unfold Header.attr
  by_cases k1 : k = kUnits
  · rw [if_pos k1, if_pos (show k = "attributes_units".toList from k1), join_eq]
    rfl
  rw [if_neg k1, if_neg (show k ≠ "attributes_units".toList from k1)]
  by_cases k2 : k = kAttributes
  · rw [if_pos k2, if_pos (show k = "attributes".toList from k2), join_eq]
    rfl
  rw [if_neg k2, if_neg (show k ≠ "attributes".toList from k2), s2, if_neg k2, hchk, Header.checked,
    if_neg k1, if_neg k2]
  by_cases k3 : k ∈ neededArgs
  · rw [if_pos k3, if_pos (show k ∈ required from k3)]
  · rw [if_neg k3, if_neg (show k ∉ required from k3)]
    cases h.words k <;> rfl

/-- C53 when all the columns are read: the attributes of the dataset are exactly those of the header. -/
theorem C53_roundtrip {h : Header} {lines : List Str} (hh : IsHeader h lines) (data : List Str)
    {g : Dataset} (hg : loadIcgemGdf toInt toFloat (lines ++ data) none = .ok g) (k : Str) :
    g.attrs.get? k = (h.attr h.names h.units k).map .str := by
  have := C53_usecols_partial hh data (usecols := none) (cols := List.range h.names.length) rfl hg k
  rwa [show (List.range h.names.length).map (fun c => h.names.getD c []) = h.names from
    selected_range h] at this

/-- Successful reads: the dataset of a regular grid. -/
theorem load_ok {h : Header} {lines : List Str} (hh : IsHeader h lines) {rows : List (List ℝ)}
    {data : List Str} (hd : List.Forall₂ (IsRow toFloat) rows data) {nlat nlon : ℕ}
    {usecols : Option (List ℤ)} {cols : List ℕ} {clat clon : ℕ}
    (G : IsGrid toInt toFloat h rows nlat nlon usecols cols clat clon) :
    ∃ raw md g, readGdfFile toInt toFloat (lines ++ data) usecols = .ok (raw, md) ∧
      buildDataset toInt toFloat raw md = .ok g ∧
      raw = (cols.map fun c => rows.map fun r => r.getD c 0) ∧
      ∀ k, md.get? k = if k = kAttributes then some (.list (h.selected cols)) else h.checked k := by
  have hne : rows ≠ [] := by
    rintro rfl
    have h1 := G.count
    have h2 := Nat.mul_pos G.nlat_pos G.nlon_pos
    rw [List.length_nil] at h1
    omega
  have mem : ∀ {c : ℕ} {x : Str}, h.names[c]? = some x → x ∈ h.names := fun h => List.mem_of_getElem? h
  obtain ⟨md, r1, r2⟩ := read_spec hh hd hne G.columns G.selects G.units (mem G.clat_name)
    (mem G.clon_name) (isGrid_needed G) G.nlat_eq G.nlon_eq G.points
  obtain ⟨g, b1, -⟩ := build_spec G hh r2
  exact ⟨_, md, g, r1, b1, rfl, r2⟩

/-- C54: a regular grid that agrees with its header is read, and the value of each variable at
(latitude i, longitude j) is on the row of the file with that latitude and longitude. Each row goes to one
node, and there are no other variables (except the height). -/
theorem C54_values {h : Header} {lines : List Str} (hh : IsHeader h lines) {rows : List (List ℝ)}
    {data : List Str} (hd : List.Forall₂ (IsRow toFloat) rows data) {nlat nlon : ℕ}
    {usecols : Option (List ℤ)} {cols : List ℕ} {clat clon : ℕ}
    (G : IsGrid toInt toFloat h rows nlat nlon usecols cols clat clon)
    (area : AreaAgrees toFloat h rows clat clon) :
    ∃ g, loadIcgemGdf toInt toFloat (lines ++ data) usecols = .ok g ∧
      g.latitude.length = nlat ∧ g.longitude.length = nlon ∧
      (∀ i < nlat, ∀ j < nlon, ∃ row, rows[(nlat - 1 - i) * nlon + j]? = some row ∧
        g.latitude[i]? = row[clat]? ∧ g.longitude[j]? = row[clon]? ∧
        ∀ c ∈ cols, c ≠ clat → c ≠ clon → ∀ name, h.names[c]? = some name →
          (name = "height_over_ell".toList → h.words name = none) →
          (g.data_vars.get? name).bind (fun v => entry v i j) = row[c]?) ∧
      (∀ c ∈ cols, c ≠ clat → c ≠ clon → ∀ name, h.names[c]? = some name →
        (name = "height_over_ell".toList → h.words name = none) →
        ∃ v, g.data_vars.get? name = some v ∧ v.length = nlat ∧ ∀ r ∈ v, r.length = nlon) ∧
      (∀ x, h.number toFloat "height_over_ell" = some x →
        g.data_vars.get? "height_over_ell".toList =
          some (List.replicate nlat (List.replicate nlon x))) ∧
      (∀ name v, g.data_vars.get? name = some v →
        (∃ c ∈ cols, c ≠ clat ∧ c ≠ clon ∧ h.names[c]? = some name) ∨
        name = "height_over_ell".toList ∧ (h.words name).isSome) := by
  obtain ⟨raw, md, g, r1, b1, rfl, r2⟩ := load_ok hh hd G
  obtain ⟨g', b1', l1, l2, l3, l4, l5⟩ := build_spec G hh r2
  rw [b1, Except.ok.injEq] at b1'
  subst b1'
  have ha : ∀ k ∈ neededArgs, g.attrs.get? k = h.checked k := by
    intro k hk
    have hu := r2 kUnits
    rw [if_neg (by decide)] at hu
    have hat := r2 kAttributes
    rw [if_pos rfl] at hat
    rw [build_attrs b1 hat hu, if_neg (show k ≠ kUnits from fun e => kUnits_not_needed (e ▸ hk)),
      if_neg (show k ≠ kAttributes from fun e => kAttributes_not_needed (e ▸ hk)), r2,
      if_neg (show k ≠ kAttributes from fun e => kAttributes_not_needed (e ▸ hk))]
  have hlt := selects_lt G.selects
  refine ⟨g, ?_, by rw [l1]; simp, by rw [l2]; simp, ?_, ?_, l4, l5⟩
  · unfold loadIcgemGdf
    rw [r1, Py.bind_ok]
    simp only
    rw [b1, Py.bind_ok, checkArea_spec G l1 l2 ha, if_pos area]
    rfl
  · intro i hi j hj
    have hp := G.nlat_pos
    have hm : (nlat - 1 - i) * nlon + j < rows.length := by
      rw [G.count]
      have : nlat - 1 - i + 1 ≤ nlat := by omega
      have := Nat.mul_le_mul_right nlon this
      rw [Nat.add_mul, Nat.one_mul] at this
      omega
    have hrow : rows[(nlat - 1 - i) * nlon + j]? = some rows[(nlat - 1 - i) * nlon + j] :=
      List.getElem?_eq_getElem hm
    have hent : ∀ c, entry rows ((nlat - 1 - i) * nlon + j) c = rows[(nlat - 1 - i) * nlon + j][c]? := by
      intro c
      rw [entry, hrow]
      rfl
    have hi' : nlat - 1 - i < nlat := by omega
    refine ⟨_, hrow, ?_, ?_, ?_⟩
    · rw [← hent, G.parallels _ hi' j hj, l1,
        entry_some G.columns (hlt _ G.clat_read) (by
          rw [G.count]; exact Nat.mul_lt_mul_of_pos_right hi' G.nlon_pos),
        List.getElem?_reverse (by simpa using hi)]
      simp [hi']
    · have hj' : j < rows.length := by
        rw [G.count]
        nlinarith [G.nlat_pos]
      rw [← hent, G.meridians _ hi' j hj, l2, entry_some G.columns (hlt _ G.clon_read) hj']
      simp [hj]
    · intro c hc c1 c2 name hn hh'
      rw [l3 c hc name hn c1 c2 hh', Option.bind_some, entry_grid_reverse hi hj, ← hent,
        entry_some G.columns (hlt _ hc) hm]
  · intro c hc c1 c2 name hn hh'
    refine ⟨_, l3 c hc name hn c1 c2 hh', by simp [gridOf], fun r hr => ?_⟩
    simp only [gridOf, List.mem_reverse, List.mem_map] at hr
    obtain ⟨_, -, rfl⟩ := hr
    simp

/-- C54, order: from a file that goes from north to south, the latitudes come out ascending. -/
theorem C54_ascending {h : Header} {lines : List Str} (hh : IsHeader h lines) {rows : List (List ℝ)}
    {data : List Str} (hd : List.Forall₂ (IsRow toFloat) rows data) {nlat nlon : ℕ}
    {usecols : Option (List ℤ)} {cols : List ℕ} {clat clon : ℕ}
    (G : IsGrid toInt toFloat h rows nlat nlon usecols cols clat clon)
    (south : ∀ m m' x x', m + nlon ≤ m' → entry rows m clat = some x → entry rows m' clat = some x' →
      x' < x)
    {g : Dataset} (hg : loadIcgemGdf toInt toFloat (lines ++ data) usecols = .ok g) :
    g.latitude.Pairwise (· < ·) := by
  obtain ⟨raw, md, g', r1, b1, rfl, r2⟩ := load_ok hh hd G
  obtain ⟨g'', b2, l1, -⟩ := build_spec G hh r2
  rw [b1, Except.ok.injEq] at b2
  subst b2
  obtain ⟨raw', md', q1, q2⟩ := load_inv hg
  rw [r1, Except.ok.injEq, Prod.mk.injEq] at q1
  obtain ⟨rfl, rfl⟩ := q1
  rw [b1, Except.ok.injEq] at q2
  subst q2
  have hlt := selects_lt G.selects _ G.clat_read
  have hb : ∀ i < nlat, i * nlon < rows.length := fun i hi => by
    rw [G.count]; exact Nat.mul_lt_mul_of_pos_right hi G.nlon_pos
  rw [l1, List.pairwise_reverse, List.pairwise_map]
  refine List.Pairwise.imp_of_mem ?_ (List.pairwise_lt_range (n := nlat))
  intro a b ha hb' hab
  rw [List.mem_range] at ha hb'
  refine south (a * nlon) (b * nlon) _ _ ?_ (entry_some G.columns hlt (hb a ha))
    (entry_some G.columns hlt (hb b hb'))
  have := Nat.mul_le_mul_right nlon hab
  rw [Nat.succ_mul] at this
  exact this

/-! ### C55 -/

/-- C55 for the metadata: when the values can be read, the check raises OSError for malformed metadata,
and only then raises an exception. -/
theorem C55_metadata_partial {metadata : Dict Val} (hr : Readable toInt metadata) :
    (Malformed toInt metadata → checkGdfIntegrity toInt metadata = .error .OSError) ∧
    (¬ Malformed toInt metadata → ∃ metadata', checkGdfIntegrity toInt metadata = .ok metadata') :=
  integrity_classified hr

theorem malformed_error {h : Header} {lines data : List Str} (hh : IsHeader h lines)
    {usecols : Option (List ℤ)} {raw : List (List ℝ)} (hraw : loadtxt toFloat data usecols = .ok raw)
    (hr : h.Readable toInt) (bad : h.Malformed toInt) :
    loadIcgemGdf toInt toFloat (lines ++ data) usecols = .error .OSError := by
  obtain ⟨d, d1, d2⟩ := headerLoop_spec hh data
  refine load_of_check d1 hraw ?_
  have hA : d.get? kAttributes = some (.list h.names) := by rw [d2]; rfl
  have hU : d.get? kUnits = some (.list h.units) := by rw [d2]; rfl
  have hR : Readable toInt d := by
    refine header_readable (fun k ws hk => header_words hh hk) hr (fun k k1 k2 => ?_) ?_
    · rw [d2, Header.raw, if_neg k1, if_neg k2]
    · intro k hk v hv
      rcases List.mem_cons.1 hk with rfl | hk
      · exact ⟨h.names, (Option.some.inj (hA.symm.trans hv)).symm⟩
      · rw [List.mem_singleton] at hk
        subst hk
        exact ⟨h.units, (Option.some.inj (hU.symm.trans hv)).symm⟩
  refine (integrity_classified hR).1 ?_
  have hint : ∀ (k : String) (x : ℤ), k.toList ∈ neededArgs → h.number toInt k = some x →
      IsInteger toInt d k x := by
    intro k x hk hx
    obtain ⟨ws, w, e1, e2, e3⟩ := number_inv hx
    obtain ⟨w', t, rfl⟩ := List.exists_cons_of_ne_nil (hr.words _ hk _ e1)
    rw [List.head?_cons, Option.some.injEq] at e2
    subst e2
    exact ⟨spaced (w' :: t), w', t, by rw [d2, raw_needed hk, e1]; rfl,
      isLine_spaced _ (header_words hh e1), e3⟩
  cases bad with
  | missing k hk hn => exact .missing k hk (by rw [d2, raw_needed hk, hn]; rfl)
  | counts ne => exact .counts _ _ hA hU ne
  | noLatitude hn => exact .noLatitude _ hA hn
  | noLongitude hn => exact .noLongitude _ hA hn
  | size x y z hx hy hz ne =>
    exact .size x y z (hint _ _ (by decide) hx) (hint _ _ (by decide) hy) (hint _ _ (by decide) hz) ne

/-- C55 for files: a malformed header raises OSError. -/
theorem C55_header_partial {h : Header} {lines : List Str} (hh : IsHeader h lines)
    {rows : List (List ℝ)} {data : List Str} (hd : List.Forall₂ (IsRow toFloat) rows data)
    (hne : rows ≠ []) {n : ℕ} (hn : ∀ r ∈ rows, r.length = n) {usecols : Option (List ℤ)}
    {cols : List ℕ} (hs : Selects n usecols cols) (hr : h.Readable toInt) (bad : h.Malformed toInt) :
    loadIcgemGdf toInt toFloat (lines ++ data) usecols = .error .OSError := by
  exact malformed_error hh (loadtxt_spec hd hn hs hne) hr bad

/-- C55: a file without the line of units, or without names and units, raises OSError. -/
theorem C55_no_columns_partial {entries : List (Str × List Str)} {lines : List Str}
    (hh : IsShortHeader entries lines)
    {rows : List (List ℝ)} {data : List Str} (hd : List.Forall₂ (IsRow toFloat) rows data)
    (hne : rows ≠ []) {n : ℕ} (hn : ∀ r ∈ rows, r.length = n) {usecols : Option (List ℤ)}
    {cols : List ℕ} (hs : Selects n usecols cols)
    (hr : (⟨entries, [], []⟩ : Header).Readable toInt) :
    loadIcgemGdf toInt toFloat (lines ++ data) usecols = .error .OSError := by
  obtain ⟨d, d1, d2, d3, d4⟩ := shortHeader_spec hh data
  refine load_of_check d1 (loadtxt_spec hd hn hs hne) ?_
  refine (integrity_classified (header_readable (fun k ws hk => shortHeader_words hh hk) hr d4 ?_)).1
    (.noUnits d2)
  intro k hk v hv
  rcases List.mem_cons.1 hk with rfl | hk
  · exact d3 v hv
  · rw [List.mem_singleton] at hk
    subst hk
    exact absurd (d2.symm.trans hv) (by simp)

/-- When the header can be read, a number of columns that is not that of the names raises OSError. -/
theorem columns_mismatch {h : Header} {lines data : List Str} (hh : IsHeader h lines)
    {raw : List (List ℝ)} (hraw : loadtxt toFloat data none = .ok raw) (hr : h.Readable toInt)
    (ne : "latitude".toList ∈ h.names → "longitude".toList ∈ h.names → raw.length ≠ h.names.length) :
    loadIcgemGdf toInt toFloat (lines ++ data) none = .error .OSError := by
  by_cases bad : h.Malformed toInt
  · exact malformed_error hh hraw hr bad
  obtain ⟨d, d1, d2⟩ := headerLoop_spec hh data
  have hA : d.get? kAttributes = some (.list h.names) := by rw [d2]; rfl
  have hU : d.get? kUnits = some (.list h.units) := by rw [d2]; rfl
  have hneed : NeededWords h := by
    intro k hk
    cases hw : h.words k with
    | none => exact absurd (.missing k hk hw) bad
    | some ws =>
      obtain ⟨w, t, rfl⟩ := List.exists_cons_of_ne_nil (hr.words _ hk _ hw)
      exact ⟨_, w, rfl, rfl⟩
  obtain ⟨d', g1, g2, g3, g4⟩ := needed_ok hh d2 hneed
  have hint : ∀ k : String, k.toList ∈ integers → ∃ x, h.number toInt k = some x ∧
      intOf toInt d' k.toList = .ok x := by
    intro k hk
    obtain ⟨ws, w, e1, e2, e3⟩ := g4 _ (integers_needed hk)
    obtain ⟨w', t, rfl⟩ := List.exists_cons_of_ne_nil (hr.words _ (integers_needed hk) _ e1)
    rw [List.head?_cons, Option.some.injEq] at e2
    subst e2
    obtain ⟨x, hx⟩ := hr.ints _ hk _ _ e1
    refine ⟨x, ?_, intOf_ok e3 hx⟩
    simp [Header.number, e1, hx]
  obtain ⟨x, x1, x2⟩ := hint "latitude_parallels" (by decide)
  obtain ⟨y, y1, y2⟩ := hint "longitude_parallels" (by decide)
  obtain ⟨z, z1, z2⟩ := hint "number_of_gridpoints" (by decide)
  have hc := integrity_of_needed (toInt := toInt) (h := h) g1 g2 g3 x2 y2 z2
  rw [if_neg (by
    rintro (h' | h' | h' | h')
    · exact bad (.counts h')
    · exact bad (.noLatitude h')
    · exact bad (.noLongitude h')
    · exact bad (.size x y z x1 y1 z1 h'))] at hc
  have ne := ne (not_not.1 fun h' => bad (.noLatitude h')) (not_not.1 fun h' => bad (.noLongitude h'))
  unfold loadIcgemGdf readGdfFile
  simp only [d1]
  rw [hraw, Py.bind_ok, hc, Py.bind_ok, selectNames, Py.bind_ok]
  unfold elemsOf
  rw [get_set, if_neg (by decide), g2]
  simp only [Py.bind_ok, Val.elems, checkColumnCount]
  rw [if_pos (Ne.symm ne)]
  rfl

/-- C55, columns: rows with a number of columns that is not that of the names raise OSError when all the
columns are read (the header being right). -/
theorem C55_columns {h : Header} {lines : List Str} (hh : IsHeader h lines)
    {rows : List (List ℝ)} {data : List Str} (hd : List.Forall₂ (IsRow toFloat) rows data)
    (hne : rows ≠ []) {n : ℕ} (hn : ∀ r ∈ rows, r.length = n) (ne : n ≠ h.names.length)
    (hr : h.Readable toInt) :
    loadIcgemGdf toInt toFloat (lines ++ data) none = .error .OSError := by
  refine columns_mismatch hh (loadtxt_spec hd hn (usecols := none) (cols := List.range n) rfl hne) hr ?_
  intro _ _
  simpa using ne

/-- C55, area: a regular grid whose coordinates are not close to the limits of the header raises
OSError. -/
theorem C55_area {h : Header} {lines : List Str} (hh : IsHeader h lines) {rows : List (List ℝ)}
    {data : List Str} (hd : List.Forall₂ (IsRow toFloat) rows data) {nlat nlon : ℕ}
    {usecols : Option (List ℤ)} {cols : List ℕ} {clat clon : ℕ}
    (G : IsGrid toInt toFloat h rows nlat nlon usecols cols clat clon)
    (area : ¬ AreaAgrees toFloat h rows clat clon) :
    loadIcgemGdf toInt toFloat (lines ++ data) usecols = .error .OSError := by
  obtain ⟨raw, md, g, r1, b1, rfl, r2⟩ := load_ok hh hd G
  obtain ⟨g', b1', l1, l2, -⟩ := build_spec G hh r2
  rw [b1, Except.ok.injEq] at b1'
  subst b1'
  have ha : ∀ k ∈ neededArgs, g.attrs.get? k = h.checked k := by
    intro k hk
    have hu := r2 kUnits
    rw [if_neg (by decide)] at hu
    have hat := r2 kAttributes
    rw [if_pos rfl] at hat
    rw [build_attrs b1 hat hu, if_neg (show k ≠ kUnits from fun e => kUnits_not_needed (e ▸ hk)),
      if_neg (show k ≠ kAttributes from fun e => kAttributes_not_needed (e ▸ hk)), r2,
      if_neg (show k ≠ kAttributes from fun e => kAttributes_not_needed (e ▸ hk))]
  unfold loadIcgemGdf
  rw [r1, Py.bind_ok]
  simp only
  rw [b1, Py.bind_ok, checkArea_spec G l1 l2 ha, if_neg area]
  rfl

/-- Full C55: every file of these kinds raises OSError. The last one: a right header, and a number of
rows that is not that of the header. -/
structure RaisesOSError : Prop where
  header : ∀ (toInt : Str → Option ℤ) (toFloat : Str → Option ℝ) (h : Header) (lines data : List Str)
    (rows : List (List ℝ)), IsHeader h lines → List.Forall₂ (IsRow toFloat) rows data → rows ≠ [] →
    (∀ r ∈ rows, r.length = h.names.length) →
    ((∃ k ∈ required, ∀ w ws, h.words k ≠ some (w :: ws)) ∨ h.Malformed toInt) →
    loadIcgemGdf toInt toFloat (lines ++ data) none = .error .OSError
  shape : ∀ (toInt : Str → Option ℤ) (toFloat : Str → Option ℝ) (h : Header) (lines data : List Str)
    (rows : List (List ℝ)) (size : ℤ), IsHeader h lines → List.Forall₂ (IsRow toFloat) rows data →
    rows ≠ [] → (∀ r ∈ rows, r.length = h.names.length) →
    h.number toInt "number_of_gridpoints" = some size → rows.length ≠ size →
    loadIcgemGdf toInt toFloat (lines ++ data) none = .error .OSError

/-- C55 fails for a required key without a value: IndexError. -/
theorem C55_empty_value {h : Header} {lines : List Str} (hh : IsHeader h lines)
    {rows : List (List ℝ)} {data : List Str} (hd : List.Forall₂ (IsRow toFloat) rows data)
    (hne : rows ≠ []) {n : ℕ} (hn : ∀ r ∈ rows, r.length = n) {usecols : Option (List ℤ)}
    {cols : List ℕ} (hs : Selects n usecols cols)
    (empty : h.words "latitude_parallels".toList = some []) :
    loadIcgemGdf toInt toFloat (lines ++ data) usecols = .error .IndexError := by
  obtain ⟨d, d1, d2⟩ := headerLoop_spec hh data
  refine load_of_check d1 (loadtxt_spec hd hn hs hne) ?_
  unfold checkGdfIntegrity neededArgs
  rw [checkNeeded, d2, raw_needed (by decide), empty]
  rfl

/-- C55 fails for a number of rows that is not that of the header: ValueError. -/
theorem C55_row_count {h : Header} {lines : List Str} (hh : IsHeader h lines)
    {rows : List (List ℝ)} {data : List Str} (hd : List.Forall₂ (IsRow toFloat) rows data)
    (hne : rows ≠ []) (hcol : ∀ r ∈ rows, r.length = h.names.length)
    (hu : h.units.length = h.names.length) (hlat : "latitude".toList ∈ h.names)
    (hlon : "longitude".toList ∈ h.names) (hneed : NeededWords h) {n m : ℤ}
    (hn : h.number toInt "latitude_parallels" = some n)
    (hm : h.number toInt "longitude_parallels" = some m)
    (hsize : h.number toInt "number_of_gridpoints" = some (n * m)) (hdist : h.names.Nodup)
    (hn0 : 0 ≤ n) (hm0 : 0 ≤ m) (hcount : n * m ≠ rows.length) :
    loadIcgemGdf toInt toFloat (lines ++ data) none = .error .ValueError := by
  obtain ⟨md, r1, r2⟩ := read_spec hh hd hne hcol (usecols := none)
    (cols := List.range h.names.length) rfl hu hlat hlon hneed hn hm hsize
  rw [selected_range] at r2
  obtain ⟨wn, hwn, hwn'⟩ := checked_number (by decide) hn
  obtain ⟨wm, hwm, hwm'⟩ := checked_number (by decide) hm
  have hn' : intOf toInt md "latitude_parallels".toList = .ok n :=
    intOf_ok (by rw [r2, if_neg (by decide), hwn]) hwn'
  have hm' : intOf toInt md "longitude_parallels".toList = .ok m :=
    intOf_ok (by rw [r2, if_neg (by decide), hwm]) hwm'
  have hnames : elemsOf md kAttributes = .ok h.names := by
    unfold elemsOf
    rw [r2, if_pos rfl]
    rfl
  obtain ⟨c, hc, hc'⟩ := List.getElem_of_mem hlon
  have hzip : h.names.zip ((List.range h.names.length).map fun c => rows.map fun r => r.getD c 0) =
      (List.range h.names.length).map fun c => (h.names.getD c [], columnOf rows c) := by
    have := congrArg (fun x => List.zip x ((List.range h.names.length).map fun c =>
      rows.map fun r => r.getD c 0)) (selected_range h)
    exact this.symm.trans List.zip_map'
  have hcolumn : Dict.get? (((List.range h.names.length).map fun c =>
      (h.names.getD c [], columnOf rows c)).foldl (fun d p => d.set p.1 p.2) []) "longitude".toList =
      some (columnOf rows c) := by
    refine foldl_set_get _ ?_ (List.mem_map.2 ⟨c, by simpa using hc, ?_⟩) []
    · intro p hp q hq he
      rw [List.mem_map] at hp hq
      obtain ⟨c1, hc1, rfl⟩ := hp
      obtain ⟨c2, hc2, rfl⟩ := hq
      rw [List.mem_range] at hc1 hc2
      simp only at he
      rw [getD_lt hc1, getD_lt hc2] at he
      rw [(List.Nodup.getElem_inj_iff hdist).1 he]
    · rw [getD_lt hc, hc']
  have hre : reshape (n, m) (columnOf rows c) = .error .ValueError := by
    unfold reshape newShape
    rw [if_neg (not_lt.2 hn0), if_neg (not_lt.2 hm0), if_pos (by simpa [columnOf] using hcount)]
    rfl
  unfold loadIcgemGdf
  rw [r1, Py.bind_ok]
  simp only
  unfold buildDataset
  rw [hn', Py.bind_ok, hm', Py.bind_ok]
  simp only
  rw [hnames, Py.bind_ok, hzip]
  unfold column
  rw [hcolumn]
  simp only [Py.bind_ok]
  rw [hre]
  rfl

end Verif.Icgem
