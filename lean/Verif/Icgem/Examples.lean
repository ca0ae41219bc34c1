import Verif.Icgem.PropsB
import Mathlib.Tactic.IntervalCases

/-!
A small file that meets the hypotheses of C53-C55, and the files for which the full properties fail.
-/

namespace Verif.Icgem

/-- Parsers for one digit. -/
noncomputable def tf (s : Str) : Option ℝ :=
  if s = ['0'] then some 0 else if s = ['1'] then some 1 else if s = ['2'] then some 2
  else if s = ['5'] then some 5 else if s = ['6'] then some 6 else none

def ti (s : Str) : Option ℤ :=
  if s = ['2'] then some 2 else if s = ['4'] then some 4 else none

/-- A writer of headers. -/
def Header.render (h : Header) : List Str :=
  h.entries.map (fun e => spaced (e.1 :: e.2)) ++ [[]] ++ [spaced h.names] ++ [] ++ [spaced h.units] ++
    [] ++ ["end_of_head".toList]

def good (w : Str) : Bool := w != [] && w.all (fun c => !isSpace c)

theorem isWord_of_good {w : Str} (h : good w = true) : IsWord w := by
  simp only [good, Bool.and_eq_true, bne_iff_ne, ne_eq, List.all_eq_true, Bool.not_eq_true'] at h
  exact h

def Header.Good (h : Header) : Prop :=
  (∀ e ∈ h.entries, ∀ w ∈ e.1 :: e.2, good w = true) ∧ (∀ w ∈ h.names, good w = true) ∧
  (∀ w ∈ h.units, good w = true) ∧ (∀ e ∈ h.entries, ¬ "end_of_head".toList <+: e.1) ∧
  (∀ w ∈ h.names, ¬ "end_of_head".toList <+: w) ∧ (∀ w ∈ h.units, ¬ "end_of_head".toList <+: w) ∧
  h.names ≠ [] ∧ h.units ≠ []

instance (h : Header) : Decidable h.Good := by unfold Header.Good; infer_instance

/-- What the writer gives is the lines of the header. -/
theorem isHeader_render {h : Header} (g : h.Good) : IsHeader h h.render := by
  obtain ⟨g1, g2, g3, g4, g5, g6, g7, g8⟩ := g
  refine ⟨⟨_, _, _, _, _, _, _, rfl, ?_, by simp, ?_, ?_, by simp, ?_, by simp, ?_⟩, g4, ?_, ?_⟩
  · apply forall₂_map_right
    rw [List.forall₂_same]
    exact fun e he => isLine_spaced _ fun w hw => isWord_of_good (g1 e he w hw)
  · intro b hb
    rw [List.mem_singleton] at hb
    subst hb
    intro c hc
    simp at hc
  · exact isLine_spaced _ fun w hw => isWord_of_good (g2 w hw)
  · exact isLine_spaced _ fun w hw => isWord_of_good (g3 w hw)
  · refine ⟨"end_of_head".toList, [], List.prefix_rfl, ?_⟩
    have := isLine_spaced ["end_of_head".toList] (fun w hw => by
      rw [List.mem_singleton] at hw
      subst hw
      exact isWord_of_good (by decide))
    rwa [show spaced ["end_of_head".toList] = "end_of_head".toList from rfl] at this
  · obtain ⟨n, ns, e⟩ := List.exists_cons_of_ne_nil g7
    exact ⟨n, ns, e, g5 n (by rw [e]; exact List.mem_cons_self ..)⟩
  · obtain ⟨n, ns, e⟩ := List.exists_cons_of_ne_nil g8
    exact ⟨n, ns, e, g6 n (by rw [e]; exact List.mem_cons_self ..)⟩

def exHeader : Header where
  entries := [("product_type".toList, ["gravity".toList, "field".toList]),
    ("height_over_ell".toList, ["5".toList, "m".toList]),
    ("latitude_parallels".toList, ["2".toList]), ("longitude_parallels".toList, ["2".toList]),
    ("number_of_gridpoints".toList, ["4".toList]), ("latlimit_south".toList, ["0".toList]),
    ("latlimit_north".toList, ["1".toList, "degree".toList]), ("longlimit_west".toList, ["0".toList]),
    ("longlimit_east".toList, ["2".toList])]
  names := ["longitude".toList, "latitude".toList, "gravity".toList]
  units := ["[degree]".toList, "[degree]".toList, "[mgal]".toList]

theorem exHeader_ok : IsHeader exHeader exHeader.render := isHeader_render (by decide)

def exWords : List (List Str) :=
  [[['0'], ['1'], ['5']], [['2'], ['1'], ['6']], [['0'], ['0'], ['1']], [['2'], ['0'], ['2']]]

noncomputable def exRows : List (List ℝ) := [[0, 1, 5], [2, 1, 6], [0, 0, 1], [2, 0, 2]]

theorem rows_of_words {words : List (List Str)} {rows : List (List ℝ)}
    (h1 : ∀ ws ∈ words, ws ≠ [] ∧ (∀ w ∈ ws, good w = true) ∧ '#' ∉ spaced ws)
    (h2 : List.Forall₂ (fun (r : List ℝ) ws => ws.map tf = r.map some) rows words) :
    List.Forall₂ (IsRow tf) rows (words.map spaced) := by
  induction h2 with
  | nil => exact .nil
  | cons h _ ih =>
    obtain ⟨a, b, c⟩ := h1 _ (List.mem_cons_self ..)
    refine .cons ⟨_, a, isLine_spaced _ fun w hw => isWord_of_good (b w hw), c, h⟩ (ih fun ws hw => ?_)
    exact h1 ws (List.mem_cons_of_mem _ hw)

theorem exData_ok : List.Forall₂ (IsRow tf) exRows (exWords.map spaced) := by
  refine rows_of_words (by decide) ?_
  simp [exRows, exWords, tf]

theorem ex_number_int : exHeader.number ti "latitude_parallels" = some 2 ∧
    exHeader.number ti "longitude_parallels" = some 2 ∧
    exHeader.number ti "number_of_gridpoints" = some 4 := by decide

theorem ex_number {k : String} {w : Str} {x : ℝ}
    (h : (exHeader.words k.toList).bind List.head? = some w) (hx : tf w = some x) :
    exHeader.number tf k = some x := by
  simp [Header.number, h, hx]

theorem ex_limits : exHeader.number tf "latlimit_south" = some 0 ∧
    exHeader.number tf "latlimit_north" = some 1 ∧ exHeader.number tf "longlimit_west" = some 0 ∧
    exHeader.number tf "longlimit_east" = some 2 ∧ exHeader.number tf "height_over_ell" = some 5 :=
  ⟨ex_number (w := ['0']) (by decide) (by simp [tf]), ex_number (w := ['1']) (by decide) (by simp [tf]),
    ex_number (w := ['0']) (by decide) (by simp [tf]), ex_number (w := ['2']) (by decide) (by simp [tf]),
    ex_number (w := ['5']) (by decide) (by simp [tf])⟩

theorem ex_grid {usecols : Option (List ℤ)} {cols : List ℕ} (hs : Selects 3 usecols cols)
    (h0 : 0 ∈ cols) (h1 : 1 ∈ cols) : IsGrid ti tf exHeader exRows 2 2 usecols cols 1 0 where
  units := rfl
  distinct := by decide
  count := by simp [exRows]
  columns := by simp [exRows, exHeader]
  nlat_pos := by norm_num
  nlon_pos := by norm_num
  selects := hs
  nlat_eq := ex_number_int.1
  nlon_eq := ex_number_int.2.1
  points := ex_number_int.2.2
  limits := by
    intro k hk
    rcases List.mem_cons.1 hk with rfl | hk
    · exact ⟨_, ex_limits.1⟩
    rcases List.mem_cons.1 hk with rfl | hk
    · exact ⟨_, ex_limits.2.1⟩
    rcases List.mem_cons.1 hk with rfl | hk
    · exact ⟨_, ex_limits.2.2.1⟩
    rw [List.mem_singleton] at hk
    subst hk
    exact ⟨_, ex_limits.2.2.2.1⟩
  clat_name := rfl
  clon_name := rfl
  clat_read := h1
  clon_read := h0
  height := fun _ => ⟨_, ex_limits.2.2.2.2⟩
  parallels := by
    intro i hi j hj
    interval_cases i <;> interval_cases j <;> simp [entry, exRows]
  meridians := by
    intro i hi j hj
    interval_cases i <;> interval_cases j <;> simp [entry, exRows]

theorem ex_entry {m c : ℕ} {x : ℝ} (h : entry exRows m c = some x) : m < 4 := by
  have := entry_lt h
  simpa [exRows] using this

theorem ex_area : AreaAgrees tf exHeader exRows 1 0 := by
  have close : ∀ x : ℝ, Close x x := by
    intro x
    unfold Close
    rw [sub_self, abs_zero]
    positivity
  refine ⟨⟨0, 0, ex_limits.1, ⟨⟨2, by simp [entry, exRows]⟩, ?_⟩, close _⟩,
    ⟨1, 1, ex_limits.2.1, ⟨⟨0, by simp [entry, exRows]⟩, ?_⟩, close _⟩,
    ⟨0, 0, ex_limits.2.2.1, ⟨⟨0, by simp [entry, exRows]⟩, ?_⟩, close _⟩,
    ⟨2, 2, ex_limits.2.2.2.1, ⟨⟨1, by simp [entry, exRows]⟩, ?_⟩, close _⟩⟩
  all_goals
    rintro x ⟨m, hm⟩
    have := ex_entry hm
    interval_cases m <;> simp [entry, exRows] at hm <;> subst hm <;> norm_num

/-- C54 on the file: the value 6 of the second row, at latitude 1 and longitude 2, goes to (1, 1). -/
example : ∃ g, loadIcgemGdf ti tf (exHeader.render ++ exWords.map spaced) none = .ok g ∧
    g.latitude[1]? = some 1 ∧ g.longitude[1]? = some 2 ∧
    (g.data_vars.get? "gravity".toList).bind (fun v => entry v 1 1) = some 6 ∧
    g.data_vars.get? "height_over_ell".toList = some [[5, 5], [5, 5]] ∧
    g.latitude.Pairwise (· < ·) := by
  have G := ex_grid (usecols := none) (cols := [0, 1, 2]) rfl (by decide) (by decide)
  obtain ⟨g, hg, -, -, hv, -, hx, -⟩ := C54_values exHeader_ok exData_ok G ex_area
  obtain ⟨row, hr, hlat, hlon, hc⟩ := hv 1 (by norm_num) 1 (by norm_num)
  have : row = [2, 1, 6] := by
    simp [exRows] at hr
    exact hr.symm
  subst this
  refine ⟨g, hg, hlat, hlon, hc 2 (by decide) (by decide) (by decide) _ rfl (fun e => ?_),
    hx 5 ex_limits.2.2.2.2, C54_ascending exHeader_ok exData_ok G ?_ hg⟩
  · exact absurd e (by decide)
  · intro m m' x x' h1 h2 h3
    have a := ex_entry h2
    have b := ex_entry h3
    interval_cases m <;> interval_cases m' <;> first
      | omega
      | (simp [entry, exRows] at h2 h3; subst h2; subst h3; norm_num)

/-- C53 on the file: the whole value of a key, the first word of a required key, and the columns. -/
example (g : Dataset) (hg : loadIcgemGdf ti tf (exHeader.render ++ exWords.map spaced) none = .ok g) :
    g.attrs.get? "product_type".toList = some (.str "gravity field".toList) ∧
    g.attrs.get? "latlimit_north".toList = some (.str "1".toList) ∧
    g.attrs.get? "attributes".toList = some (.str "longitude latitude gravity".toList) ∧
    g.attrs.get? "attributes_units".toList = some (.str "degree degree mgal".toList) ∧
    g.attrs.get? "model".toList = none := by
  refine ⟨?_, ?_, ?_, ?_, ?_⟩ <;> rw [C53_roundtrip exHeader_ok _ hg] <;> rfl

/-- C53 in full fails: reading the columns 0 and 1 keeps the three units. -/
theorem C53_not_full : ¬ RecoversHeader := by
  intro full
  have hs : Selects 3 (some [0, -2]) [0, 1] := .cons ⟨by norm_num, Or.inl rfl⟩
    (.cons ⟨by norm_num, Or.inr (by norm_num)⟩ .nil)
  have G := ex_grid hs (by decide) (by decide)
  obtain ⟨g, hg, -⟩ := C54_values exHeader_ok exData_ok G ex_area
  have h1 := full ti tf exHeader exHeader.render _ _ _ g exHeader_ok hs hg "attributes_units".toList
  rw [C53_usecols_partial exHeader_ok _ hs hg] at h1
  have h2 : exHeader.attr (([0, 1] : List ℕ).map fun c => exHeader.names.getD c []) exHeader.units
      "attributes_units".toList = some "degree degree mgal".toList := rfl
  have h3 : exHeader.attr (([0, 1] : List ℕ).map fun c => exHeader.names.getD c [])
      (([0, 1] : List ℕ).map fun c => exHeader.units.getD c [])
      "attributes_units".toList = some "degree degree".toList := rfl
  rw [h2, h3, Option.map_some, Option.map_some, Option.some.injEq, Val.str.injEq] at h1
  exact absurd h1 (by decide)

/-! ### malformed files -/

theorem ex_readable : exHeader.Readable ti := by
  constructor
  · have : ∀ k ∈ required, exHeader.words k ≠ some [] := by decide
    rintro k hk ws hw rfl
    exact this k hk hw
  · have : ∀ k ∈ integers, ((exHeader.words k).bind List.head?).bind ti ≠ none := by decide
    intro k hk w ws hw
    have h1 := this k hk
    rw [hw, Option.bind_some, List.head?_cons, Option.bind_some] at h1
    exact Option.ne_none_iff_exists'.1 h1

/-- C55: other names for the coordinates, and a missing key. -/
def exHeaderNames : Header := { exHeader with names := ["lon".toList, "lat".toList, "gravity".toList] }
def exHeaderKeys : Header := { exHeader with entries := exHeader.entries.drop 3 }

theorem exRows_columns : ∀ r ∈ exRows, r.length = 3 := by simp [exRows]

example : loadIcgemGdf ti tf (exHeaderNames.render ++ exWords.map spaced) none = .error .OSError :=
  C55_header_partial (isHeader_render (by decide)) exData_ok (by simp [exRows]) exRows_columns
    (cols := [0, 1, 2]) rfl ⟨ex_readable.words, ex_readable.ints⟩ (.noLatitude (by decide))

example : loadIcgemGdf ti tf (exHeaderKeys.render ++ exWords.map spaced) none = .error .OSError := by
  refine C55_header_partial (isHeader_render (by decide)) exData_ok (by simp [exRows]) exRows_columns
    (cols := [0, 1, 2]) rfl ⟨?_, ?_⟩ (.missing "latitude_parallels".toList (by decide) (by decide))
  · have : ∀ k ∈ required, exHeaderKeys.words k ≠ some [] := by decide
    rintro k hk ws hw rfl
    exact this k hk hw
  · have : ∀ k ∈ integers, exHeaderKeys.words k ≠ none →
        ((exHeaderKeys.words k).bind List.head?).bind ti ≠ none := by decide
    intro k hk w ws hw
    have h1 := this k hk (by rw [hw]; simp)
    rw [hw, Option.bind_some, List.head?_cons, Option.bind_some] at h1
    exact Option.ne_none_iff_exists'.1 h1

/-- A file without units. -/
example : loadIcgemGdf ti tf
    ((exHeader.entries.map (fun e => spaced (e.1 :: e.2)) ++ [[]] ++ [spaced exHeader.names] ++ [] ++
      ["end_of_head".toList]) ++ exWords.map spaced) none = .error .OSError := by
  have hk : ∀ e ∈ exHeader.entries, ¬ "end_of_head".toList <+: e.1 ∧ e.1 ≠ "attributes".toList ∧
      e.1 ≠ "attributes_units".toList := by decide
  have hw : ∀ e ∈ exHeader.entries, ∀ w ∈ e.1 :: e.2, good w = true := by decide
  refine C55_no_columns_partial (entries := exHeader.entries) ⟨hk, _, _, _, _, _, rfl, ?_, by simp, ?_,
    Or.inr ⟨"longitude".toList, ["latitude".toList, "gravity".toList], _, rfl,
      isLine_spaced _ ?_, by unfold EndsHead; decide⟩, by simp, ?_⟩
    exData_ok (by simp [exRows]) exRows_columns (cols := [0, 1, 2]) rfl
    ⟨ex_readable.words, ex_readable.ints⟩
  · apply forall₂_map_right
    rw [List.forall₂_same]
    exact fun e he => isLine_spaced _ fun w hw' => isWord_of_good (hw e he w hw')
  · intro b hb
    rw [List.mem_singleton] at hb
    subst hb
    intro c hc
    simp at hc
  · have : ∀ w ∈ exHeader.names, good w = true := by decide
    exact fun w hw => isWord_of_good (this w hw)
  · refine ⟨"end_of_head".toList, [], List.prefix_rfl, ?_⟩
    have := isLine_spaced ["end_of_head".toList] (fun w hw => by
      rw [List.mem_singleton] at hw
      subst hw
      exact isWord_of_good (by decide))
    rwa [show spaced ["end_of_head".toList] = "end_of_head".toList from rfl] at this

/-- Rows with two columns. -/
example : loadIcgemGdf ti tf (exHeader.render ++ [[['0'], ['1']], [['2'], ['1']]].map spaced) none =
    .error .OSError := by
  refine C55_columns exHeader_ok (rows := [[0, 1], [2, 1]]) (rows_of_words (by decide) ?_) (by simp)
    (n := 2) (by simp) (by decide) ex_readable
  simp [tf]

/-- A grid one degree to the south of the limits of the header. -/
def exHeaderArea : Header :=
  { exHeader with entries := exHeader.entries ++ [("latlimit_north".toList, ["2".toList])] }

example : loadIcgemGdf ti tf (exHeaderArea.render ++ exWords.map spaced) none = .error .OSError := by
  have key : ∀ {k : String} {w : Str} {x : ℝ},
      (exHeaderArea.words k.toList).bind List.head? = some w → tf w = some x →
      exHeaderArea.number tf k = some x := by
    intro k w x h hx
    simp [Header.number, h, hx]
  have G := ex_grid (usecols := none) (cols := [0, 1, 2]) rfl (by decide) (by decide)
  have e2 : exHeaderArea.number tf "latlimit_north" = some 2 :=
    key (w := ['2']) (by decide) (by simp [tf])
  have G' : IsGrid ti tf exHeaderArea exRows 2 2 none [0, 1, 2] 1 0 :=
    { G with
      nlat_eq := by decide
      nlon_eq := by decide
      points := by decide
      limits := by
        intro k hk
        rcases List.mem_cons.1 hk with rfl | hk
        · exact ⟨0, key (w := ['0']) (by decide) (by simp [tf])⟩
        rcases List.mem_cons.1 hk with rfl | hk
        · exact ⟨2, e2⟩
        rcases List.mem_cons.1 hk with rfl | hk
        · exact ⟨0, key (w := ['0']) (by decide) (by simp [tf])⟩
        rw [List.mem_singleton] at hk
        subst hk
        exact ⟨2, key (w := ['2']) (by decide) (by simp [tf])⟩
      height := fun _ => ⟨5, key (w := ['5']) (by decide) (by simp [tf])⟩ }
  refine C55_area (isHeader_render (by decide)) exData_ok G' ?_
  rintro ⟨-, ⟨x, y, hx, hy, hc⟩, -⟩
  rw [e2, Option.some.injEq] at hx
  obtain ⟨m, hm⟩ := hy.1
  have hm4 := ex_entry hm
  have : y ≤ 1 ∧ 0 ≤ y := by
    interval_cases m <;> simp [entry, exRows] at hm <;> subst hm <;> norm_num
  subst hx
  unfold Close at hc
  rw [abs_le, abs_of_nonneg this.2] at hc
  norm_num at hc
  linarith [hc.2, this.1]

/-- C55 in full fails: a required key without a value raises IndexError. -/
def exHeaderEmpty : Header :=
  { exHeader with entries := exHeader.entries ++ [("latitude_parallels".toList, [])] }

theorem C55_not_full : ¬ RaisesOSError := by
  intro full
  have h1 := full.header ti tf exHeaderEmpty exHeaderEmpty.render (exWords.map spaced) exRows
    (isHeader_render (by decide)) exData_ok (by simp [exRows]) exRows_columns
    (Or.inl ⟨"latitude_parallels".toList, by decide, fun w ws e => by
      rw [show exHeaderEmpty.words "latitude_parallels".toList = some [] by decide] at e
      cases e⟩)
  rw [C55_empty_value (isHeader_render (by decide)) exData_ok (by simp [exRows]) exRows_columns
    (usecols := none) (cols := [0, 1, 2]) rfl (by decide)] at h1
  cases h1

/-- C55 in full fails for a file with fewer rows than its header says: ValueError. -/
theorem C55_not_full_rows : ¬ RaisesOSError := by
  intro full
  have hd : List.Forall₂ (IsRow tf) [[0, 1, 5], [2, 1, 6]] ((exWords.take 2).map spaced) := by
    refine rows_of_words (by decide) ?_
    simp [exWords, tf]
  have h1 := full.shape ti tf exHeader exHeader.render ((exWords.take 2).map spaced)
    [[0, 1, 5], [2, 1, 6]] 4 exHeader_ok hd (by simp) (by simp [exHeader]) ex_number_int.2.2 (by simp)
  rw [C55_row_count (n := 2) (m := 2) exHeader_ok hd (by simp) (by simp [exHeader]) rfl (by decide)
    (by decide) (isGrid_needed (ex_grid (usecols := none) (cols := [0, 1, 2]) rfl (by decide) (by decide)))
    ex_number_int.1 ex_number_int.2.1 ex_number_int.2.2 (by decide) (by norm_num) (by norm_num) (by simp)] at h1
  cases h1

/-- C54_comments: a comment and a blank line before the data -/
example : loadIcgemGdf ti tf (exHeader.render ++ ("# units".toList :: "  ".toList :: exWords.map spaced)) none =
    loadIcgemGdf ti tf (exHeader.render ++ exWords.map spaced) none := by
  have := C54_comments (toInt := ti) (toFloat := tf) exHeader_ok
    ("# units".toList :: "  ".toList :: exWords.map spaced)
    (fun l => decide (l ≠ "# units".toList) && decide (l ≠ "  ".toList)) (by
      intro l _ h
      simp only [Bool.and_eq_false_iff, decide_eq_false_iff_not, not_not] at h
      rcases h with rfl | rfl
      · exact ⟨[], _, rfl, by simp [IsBlank], Or.inr ⟨_, rfl⟩⟩
      · exact ⟨"  ".toList, [], rfl, by unfold IsBlank; decide, Or.inl rfl⟩) none
  rw [this]
  congr 2

/-- C55_not_a_number, C55_ragged, C55_no_data -/
example : loadIcgemGdf ti tf (exHeader.render ++ (exWords.map spaced ++ [" 1 x".toList])) none =
    .error .ValueError :=
  C55_not_a_number exHeader_ok _ (line := " 1 x".toList) (by simp) (words := [['1'], ['x']])
    ⟨[' '], [' ', 'x'], rfl, by unfold IsBlank; decide, isWord_of_good (by decide), by decide,
      [' '], [], rfl, by unfold IsBlank; decide, isWord_of_good (by decide), by decide,
      by unfold IsLine IsBlank; decide⟩ (by decide) (w := ['x']) (by simp) (by simp [tf])

example : loadIcgemGdf ti tf (exHeader.render ++ [[['0'], ['1'], ['5']], [['2'], ['1']]].map spaced) none =
    .error .ValueError :=
  C55_ragged exHeader_ok (rows := [[0, 1, 5], [2, 1]]) (rows_of_words (by decide) (by simp [tf]))
    (r := [0, 1, 5]) (r' := [2, 1]) (by simp) (by simp) (by simp)

example : loadIcgemGdf ti tf (exHeader.render ++ ["# nothing".toList]) none = .error .OSError :=
  C55_no_data exHeader_ok (fun l hl => by
    rw [List.mem_singleton] at hl
    subst hl
    exact ⟨[], _, rfl, by simp [IsBlank], Or.inr ⟨_, rfl⟩⟩) ex_readable

/-- C55_coordinates_not_read: without the latitudes -/
example : loadIcgemGdf ti tf (exHeader.render ++ exWords.map spaced) (some [0, -1]) = .error .KeyError :=
  C55_coordinates_not_read exHeader_ok exData_ok (by simp [exRows, exHeader]) rfl (by decide) (by decide)
    (isGrid_needed (ex_grid (usecols := none) (cols := [0, 1, 2]) rfl (by decide) (by decide)))
    (n := 2) (m := 2) (by norm_num) (by norm_num) ex_number_int.1 ex_number_int.2.1 ex_number_int.2.2
    (by simp [exRows]) (us := [0, -1]) (cols := [0, 2])
    (.cons ⟨by decide, Or.inl rfl⟩ (.cons ⟨by decide, Or.inr rfl⟩ .nil)) (Or.inr (by decide))

/-- C55_not_an_integer: `latitude_parallels 2.5` -/
def exHeaderHalf : Header :=
  { exHeader with entries := exHeader.entries ++ [("latitude_parallels".toList, ["2.5".toList])] }

theorem exHeaderHalf_number : exHeaderHalf.number ti "latitude_parallels" = none := by decide

theorem exHeaderHalf_ok : IsHeader exHeaderHalf exHeaderHalf.render := isHeader_render (by decide)

theorem exHeaderHalf_needed : NeededWords exHeaderHalf := by
  have : ∀ k ∈ neededArgs, ((exHeaderHalf.words k).bind List.head?).isSome = true := by decide
  intro k hk
  have h1 := this k hk
  rw [Option.isSome_iff_exists] at h1
  obtain ⟨w, h1⟩ := h1
  rw [Option.bind_eq_some_iff] at h1
  obtain ⟨ws, h1, h2⟩ := h1
  exact ⟨ws, w, h1, h2⟩

example : loadIcgemGdf ti tf (exHeaderHalf.render ++ exWords.map spaced) none = .error .ValueError :=
  C55_not_an_integer (h := exHeaderHalf) (lines := exHeaderHalf.render) exHeaderHalf_ok
    (rows := exRows) (data := exWords.map spaced) exData_ok (by simp [exRows]) (columns := 3) exRows_columns
    (usecols := none) (cols := [0, 1, 2]) rfl rfl (by decide) (by decide) exHeaderHalf_needed
    (k := "latitude_parallels") List.mem_cons_self exHeaderHalf_number

/-! C55_negative_counts: the file without its height, and the same with `latitude_parallels -1` and
`number_of_gridpoints -2` -/

/-- `int` for the words of the examples. -/
def tn (s : Str) : Option ℤ := if s = "-1".toList then some (-1) else if s = "-2".toList then some (-2) else ti s

def exHeaderPlain : Header := { exHeader with entries := exHeader.entries.drop 2 }
def exHeaderNegative : Header :=
  { exHeader with entries := exHeader.entries.drop 2 ++
    [("latitude_parallels".toList, ["-1".toList]), ("number_of_gridpoints".toList, ["-2".toList])] }

theorem plain_number {k : String} {w : Str} {x : ℝ}
    (h : (exHeaderPlain.words k.toList).bind List.head? = some w) (hx : tf w = some x) :
    exHeaderPlain.number tf k = some x := by
  simp [Header.number, h, hx]

theorem plain_limits : exHeaderPlain.number tf "latlimit_south" = some 0 ∧
    exHeaderPlain.number tf "latlimit_north" = some 1 ∧ exHeaderPlain.number tf "longlimit_west" = some 0 ∧
    exHeaderPlain.number tf "longlimit_east" = some 2 :=
  ⟨plain_number (w := ['0']) (by decide) (by simp [tf]), plain_number (w := ['1']) (by decide) (by simp [tf]),
    plain_number (w := ['0']) (by decide) (by simp [tf]), plain_number (w := ['2']) (by decide) (by simp [tf])⟩

theorem plain_grid : IsGrid tn tf exHeaderPlain exRows 2 2 none [0, 1, 2] 1 0 :=
  { ex_grid (usecols := none) (cols := [0, 1, 2]) rfl (by decide) (by decide) with
    nlat_eq := by decide
    nlon_eq := by decide
    points := by decide
    limits := by
      intro k hk
      rcases List.mem_cons.1 hk with rfl | hk
      · exact ⟨_, plain_limits.1⟩
      rcases List.mem_cons.1 hk with rfl | hk
      · exact ⟨_, plain_limits.2.1⟩
      rcases List.mem_cons.1 hk with rfl | hk
      · exact ⟨_, plain_limits.2.2.1⟩
      rw [List.mem_singleton] at hk
      subst hk
      exact ⟨_, plain_limits.2.2.2⟩
    height := fun h => absurd h (by decide) }

theorem plain_area : AreaAgrees tf exHeaderPlain exRows 1 0 := by
  obtain ⟨⟨a1, a2, a3, a4⟩, ⟨b1, b2, b3, b4⟩, ⟨c1, c2, c3, c4⟩, ⟨d1, d2, d3, d4⟩⟩ := ex_area
  rw [ex_limits.1] at a3
  rw [ex_limits.2.1] at b3
  rw [ex_limits.2.2.1] at c3
  rw [ex_limits.2.2.2.1] at d3
  exact ⟨⟨a1, a2, by rw [plain_limits.1, a3], a4⟩, ⟨b1, b2, by rw [plain_limits.2.1, b3], b4⟩,
    ⟨c1, c2, by rw [plain_limits.2.2.1, c3], c4⟩, ⟨d1, d2, by rw [plain_limits.2.2.2, d3], d4⟩⟩

theorem negative_numbers : exHeaderNegative.number tn "latitude_parallels" = some (-1) ∧
    exHeaderNegative.number tn "number_of_gridpoints" = some (-2) := by decide

theorem negative_other (k : Str) (h1 : k ≠ "latitude_parallels".toList)
    (_ : k ≠ "longitude_parallels".toList) (h2 : k ≠ "number_of_gridpoints".toList) : exHeaderNegative.words k = exHeaderPlain.words k := by
  unfold Header.words exHeaderNegative exHeaderPlain
  simp only [List.reverse_append, List.reverse_cons, List.reverse_nil, List.nil_append, List.cons_append]
  rw [List.find?_cons_of_neg (by rw [decide_eq_true_eq]; exact fun e => h2 e.symm),
    List.find?_cons_of_neg (by rw [decide_eq_true_eq]; exact fun e => h1 e.symm)]

theorem plain_ok : IsHeader exHeaderPlain exHeaderPlain.render := isHeader_render (by decide)
theorem negative_ok : IsHeader exHeaderNegative exHeaderNegative.render := isHeader_render (by decide)

theorem negative_read : ∃ g g', loadIcgemGdf tn tf (exHeaderPlain.render ++ exWords.map spaced) none = .ok g ∧
    loadIcgemGdf tn tf (exHeaderNegative.render ++ exWords.map spaced) none = .ok g' ∧
    g'.latitude = g.latitude ∧ g'.longitude = g.longitude ∧ g'.data_vars = g.data_vars :=
  C55_negative_counts plain_ok negative_ok exData_ok plain_grid plain_area rfl rfl negative_other
    (a := -1) (b := 2) (Or.inl ⟨rfl, rfl⟩) negative_numbers.1 (by decide) negative_numbers.2 (by decide)

/-- C55 in full fails: a file of four rows whose header says -2 points is read. -/
theorem C55_not_full_negative : ¬ RaisesOSError := by
  intro full
  have h1 := full.shape tn tf exHeaderNegative exHeaderNegative.render (exWords.map spaced) exRows (-2)
    negative_ok exData_ok (by simp [exRows]) exRows_columns negative_numbers.2 (by simp [exRows])
  obtain ⟨g, g', -, h2, -⟩ := negative_read
  rw [h2] at h1
  cases h1

end Verif.Icgem
