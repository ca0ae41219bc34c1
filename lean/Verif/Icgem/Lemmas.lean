import Verif.Icgem.Spec
import Mathlib.Data.List.TakeWhile

/-! Helper lemmas for C53-C55: strings and dictionaries, header. -/

namespace Verif.Icgem

/-! ### strings -/

theorem splitAux_blank : ∀ (l : Str), IsBlank l → splitAux [] l = []
  | [], _ => by simp [splitAux]
  | c :: t, h => by
    rw [splitAux, if_pos (h c (by simp)), if_pos rfl]
    exact splitAux_blank t fun x hx => h x (by simp [hx])

theorem splitAux_prefix (p : Str) (h : IsBlank p) (s : Str) : splitAux [] (p ++ s) = splitAux [] s := by
  induction p with
  | nil => rfl
  | cons c t ih =>
    rw [List.cons_append, splitAux, if_pos (h c (by simp)), if_pos rfl]
    exact ih fun x hx => h x (by simp [hx])

theorem splitAux_append_blank (s : Str) : ∀ (cur b : Str), IsBlank b →
    splitAux cur (s ++ b) = splitAux cur s := by
  induction s with
  | nil =>
    intro cur b hb
    cases b with
    | nil => rfl
    | cons c t =>
      rw [List.nil_append]
      simp only [splitAux, if_pos (hb c (by simp)),
        splitAux_blank t fun x hx => hb x (by simp [hx])]
  | cons c t ih =>
    intro cur b hb
    rw [List.cons_append, splitAux, splitAux]
    simp only [ih _ b hb]

theorem splitAux_word (w : Str) : ∀ (cur rest : Str), (∀ c ∈ w, isSpace c = false) →
    splitAux cur (w ++ rest) = splitAux (cur ++ w) rest := by
  induction w with
  | nil => intro cur rest _; simp
  | cons c t ih =>
    intro cur rest h
    rw [List.cons_append, splitAux, if_neg (by simp [h c (by simp)]),
      ih _ _ fun x hx => h x (by simp [hx])]
    simp

theorem splitAux_sep {cur rest : Str} (hc : cur ≠ []) (h : ∀ c ∈ rest.head?, isSpace c = true) :
    splitAux cur rest = cur :: splitAux [] rest := by
  cases rest with
  | nil => simp [splitAux, hc]
  | cons c t =>
    have : isSpace c = true := h c (by simp)
    rw [splitAux, if_pos this, if_neg hc, splitAux, if_pos this, if_pos rfl]

theorem split_of_isLine : ∀ (ws : List Str) (line : Str), IsLine ws line → split line = ws
  | [], line, h => splitAux_blank line h
  | w :: ws, line, h => by
    obtain ⟨pre, rest, rfl, hp, hw, hs, hr⟩ := h
    have := split_of_isLine ws rest hr
    unfold split at this ⊢
    rw [splitAux_prefix pre hp, splitAux_word w _ _ hw.2, List.nil_append, splitAux_sep hw.1 hs, this]

theorem takeWhile_blank (l : Str) : IsBlank (l.takeWhile isSpace) := fun c hc =>
  List.mem_takeWhile_imp hc

theorem strip_decomp (s : Str) : ∃ p q, IsBlank p ∧ IsBlank q ∧ s = p ++ (strip s ++ q) := by
  refine ⟨s.takeWhile isSpace, ((s.dropWhile isSpace).reverse.takeWhile isSpace).reverse,
    takeWhile_blank s, ?_, ?_⟩
  · intro c hc
    exact takeWhile_blank _ c (List.mem_reverse.1 hc)
  · unfold strip
    rw [← List.reverse_append, List.takeWhile_append_dropWhile, List.reverse_reverse,
      List.takeWhile_append_dropWhile]

theorem split_strip (s : Str) : split (strip s) = split s := by
  obtain ⟨p, q, hp, hq, h⟩ := strip_decomp s
  unfold split
  conv_rhs => rw [h, splitAux_prefix p hp, splitAux_append_blank _ _ q hq]

theorem strip_blank {s : Str} (h : IsBlank s) : strip s = [] := by
  unfold strip
  rw [List.dropWhile_eq_nil_iff.2 h]
  rfl

theorem dropWhile_cons_not {c : Char} (t : Str) (h : isSpace c = false) :
    (c :: t).dropWhile isSpace = c :: t := by
  rw [List.dropWhile_cons_of_neg (by simp [h])]

theorem dropWhile_prefix (p : Str) (hp : IsBlank p) (s : Str) :
    (p ++ s).dropWhile isSpace = s.dropWhile isSpace := by
  induction p with
  | nil => rfl
  | cons c t ih =>
    rw [List.cons_append, List.dropWhile_cons_of_pos (hp c (by simp))]
    exact ih fun x hx => hp x (by simp [hx])

/-- A stripped line starts with its first word. -/
theorem strip_line {w : Str} {ws : List Str} {line : Str} (h : IsLine (w :: ws) line) :
    ∃ rest, strip line = w ++ rest ∧ (∀ c ∈ rest.head?, isSpace c = true) := by
  obtain ⟨pre, rest, rfl, hp, hw, hs, -⟩ := h
  obtain ⟨c, t, rfl⟩ := List.exists_cons_of_ne_nil hw.1
  have hc : isSpace c = false := hw.2 c (by simp)
  have h1 : (pre ++ (c :: t ++ rest)).dropWhile isSpace = c :: t ++ rest := by
    rw [dropWhile_prefix pre hp, List.cons_append, dropWhile_cons_not _ hc]
  have hrev : ∀ (w : Str), w ≠ [] → (∀ c ∈ w, isSpace c = false) → ∀ rest : Str,
      ((w ++ rest).reverse.dropWhile isSpace).reverse = w ++ (rest.reverse.dropWhile isSpace).reverse := by
    intro w hne hw rest
    rw [List.reverse_append]
    by_cases hb : IsBlank rest
    · rw [dropWhile_prefix _ (fun c hc => hb c (List.mem_reverse.1 hc)),
        List.dropWhile_eq_nil_iff.2 (fun c hc => hb c (List.mem_reverse.1 hc))]
      obtain ⟨d, u, hd⟩ := List.exists_cons_of_ne_nil (l := w.reverse) (by simpa using hne)
      rw [hd, dropWhile_cons_not _ (hw d (by rw [← List.mem_reverse, hd]; simp)), ← hd]
      simp
    · have : rest.reverse.dropWhile isSpace ≠ [] := by
        intro h0
        rw [List.dropWhile_eq_nil_iff] at h0
        exact hb fun c hc => h0 c (List.mem_reverse.2 hc)
      rw [List.dropWhile_append]
      simp [List.isEmpty_iff, this]
  refine ⟨(rest.reverse.dropWhile isSpace).reverse, ?_, ?_⟩
  · unfold strip
    rw [h1, hrev _ hw.1 hw.2]
  · intro d hd
    have hpre : (rest.reverse.dropWhile isSpace).reverse <+: rest := by
      rw [← List.reverse_suffix, List.reverse_reverse]
      exact List.dropWhile_suffix _
    apply hs d
    cases hr : (rest.reverse.dropWhile isSpace).reverse with
    | nil => rw [hr] at hd; simp at hd
    | cons x y =>
      rw [hr] at hd hpre
      obtain ⟨z, rfl⟩ := hpre
      simpa using hd

theorem endOfHead_nospace : ∀ c ∈ endOfHead, isSpace c = false := by decide

theorem take_iff {w : Str} {ws : List Str} {line : Str} (h : IsLine (w :: ws) line) :
    (strip line).take 11 = endOfHead ↔ EndsHead w := by
  obtain ⟨rest, hs, hr⟩ := strip_line h
  have h11 : endOfHead.length = 11 := by decide
  have : (strip line).take 11 = endOfHead ↔ endOfHead <+: strip line := by
    rw [List.prefix_iff_eq_take, h11]
    exact eq_comm
  rw [this, hs]
  show endOfHead <+: w ++ rest ↔ endOfHead <+: w
  constructor
  · intro hpre
    rcases le_total endOfHead.length w.length with hl | hl
    · exact List.prefix_of_prefix_length_le hpre (List.prefix_append _ _) hl
    · have hw : w <+: endOfHead := List.prefix_of_prefix_length_le (List.prefix_append _ _) hpre hl
      obtain ⟨z, hz⟩ := hw
      cases z with
      | nil => rw [← hz]; simp
      | cons c z =>
        exfalso
        rw [← hz] at hpre
        have h2 : c :: z <+: rest := (List.prefix_append_right_inj w).1 hpre
        obtain ⟨y, rfl⟩ := h2
        have h3 : isSpace c = true := hr c (by simp)
        have h4 := endOfHead_nospace c (by rw [← hz]; simp)
        rw [h3] at h4
        cases h4
  · exact fun h => h.trans (List.prefix_append _ _)

theorem strip_ne {w : Str} {ws : List Str} {line : Str} (h : IsLine (w :: ws) line) :
    strip line ≠ [] := by
  obtain ⟨rest, hs, -⟩ := strip_line h
  obtain ⟨pre, rest, -, -, hw, -, -⟩ := h
  rw [hs]
  simp [hw.1]

theorem join_eq : ∀ ws, join ws = spaced ws
  | [] => rfl
  | [w] => by simp [join, spaced]
  | w :: v :: ws => by
    have := join_eq (v :: ws)
    rw [join, this]
    · simp [spaced]
    · simp

/-- Joined words are split again. -/
theorem isLine_spaced : ∀ (ws : List Str), (∀ w ∈ ws, IsWord w) → IsLine ws (spaced ws)
  | [], _ => by intro c hc; simp [spaced] at hc
  | [w], h => ⟨[], [], by simp [spaced], by simp [IsBlank], h w (by simp), by simp, by simp [IsLine, IsBlank]⟩
  | w :: v :: ws, h => by
    have ih := isLine_spaced (v :: ws) fun x hx => h x (by simp [hx])
    refine ⟨[], (((v :: ws).map fun x => ' ' :: x).flatten), by simp [spaced], by simp [IsBlank],
      h w (by simp), ?_, ?_⟩
    · intro c hc
      simp at hc
      subst hc
      decide
    · obtain ⟨pre, rest, h1, h2, h3, h4, h5⟩ := ih
      refine ⟨' ' :: pre, rest, ?_, ?_, h3, h4, h5⟩
      · rw [List.cons_append, ← h1]
        simp [spaced]
      · intro c hc
        rcases List.mem_cons.1 hc with rfl | hc
        · decide
        · exact h2 c hc

theorem words_of_isLine : ∀ (ws : List Str) (line : Str), IsLine ws line → ∀ w ∈ ws, IsWord w
  | [], _, _ => by simp
  | v :: vs, line, h => by
    obtain ⟨pre, rest, -, -, h3, -, h5⟩ := h
    intro w hw
    rcases List.mem_cons.1 hw with rfl | hw
    · exact h3
    · exact words_of_isLine vs rest h5 w hw

theorem split_spaced (ws : List Str) (h : ∀ w ∈ ws, IsWord w) : split (spaced ws) = ws :=
  split_of_isLine _ _ (isLine_spaced ws h)

theorem strip_nospace (s : Str) (h : ∀ c ∈ s, isSpace c = false) : strip s = s := by
  have : ∀ s : Str, (∀ c ∈ s, isSpace c = false) → s.dropWhile isSpace = s := by
    intro s h
    cases s with
    | nil => rfl
    | cons c t => exact dropWhile_cons_not t (h c (by simp))
  unfold strip
  rw [this s h, this _ (fun c hc => h c (List.mem_reverse.1 hc)), List.reverse_reverse]

theorem cleanUnit_eq {u : Str} (h : IsWord u) : cleanUnit u = bare u := by
  unfold cleanUnit bare
  rw [List.filter_filter, strip_nospace]
  · congr 1
    funext c
    simp [Bool.and_comm]
  · intro c hc
    exact h.2 c (List.mem_of_mem_filter hc)

/-! ### dictionaries -/

theorem get_set {V : Type} (d : Dict V) (k : Str) (v : V) (k' : Str) :
    (d.set k v).get? k' = if k' = k then some v else d.get? k' := by
  induction d with
  | nil =>
    by_cases h : k' = k
    · subst h; simp [Dict.set, Dict.get?]
    · simp [Dict.set, Dict.get?, h, Ne.symm h]
  | cons p d ih =>
    obtain ⟨a, b⟩ := p
    rw [Dict.set]
    by_cases h1 : a = k
    · subst h1
      rw [if_pos rfl]
      by_cases h : k' = a
      · subst h; simp [Dict.get?]
      · simp [Dict.get?, h, Ne.symm h]
    · rw [if_neg h1]
      by_cases h2 : a = k'
      · subst h2
        simp [Dict.get?, h1]
      · simp [Dict.get?, h2, ih]

/-! ### header -/

theorem headerLoop_blanks (bs rest : List Str) (h : ∀ b ∈ bs, IsBlank b) (d : Dict Val)
    (ml al : Bool) (hne : bs ≠ [] ∨ ml = false) :
    headerLoop (bs ++ rest) ⟨d, ml, al⟩ = headerLoop rest ⟨d, false, al⟩ := by
  induction bs generalizing ml with
  | nil =>
    rcases hne with hne | rfl
    · exact absurd rfl hne
    · rfl
  | cons b bs ih =>
    have hb := strip_blank (h b (by simp))
    rw [List.cons_append, headerLoop, if_neg (by rw [hb]; decide), if_pos hb]
    exact ih (fun x hx => h x (by simp [hx])) false (Or.inr rfl)

theorem headerLoop_keys (es : List (Str × List Str)) : ∀ (ls rest : List Str),
    List.Forall₂ (fun (e : Str × List Str) l => IsLine (e.1 :: e.2) l) es ls →
    (∀ e ∈ es, ¬ EndsHead e.1) → ∀ (d : Dict Val),
    headerLoop (ls ++ rest) ⟨d, true, false⟩ =
      headerLoop rest ⟨es.foldl (fun d e => d.set e.1 (.str (join e.2))) d, true, false⟩ := by
  induction es with
  | nil =>
    intro ls rest h _ d
    cases h
    rfl
  | cons e es ih =>
    intro ls rest h hk d
    cases h with
    | cons hl hrest =>
      rename_i l ls
      rw [List.cons_append, headerLoop, if_neg (fun h0 => hk e (by simp) ((take_iff hl).1 h0)),
        if_neg (strip_ne hl)]
      simp only [split_strip, split_of_isLine _ _ hl, if_true]
      exact ih ls rest hrest (fun x hx => hk x (by simp [hx])) _

theorem foldl_entries (es : List (Str × List Str)) (d : Dict Val) (k : Str) :
    (es.foldl (fun d e => d.set e.1 (.str (join e.2))) d).get? k =
      match es.reverse.find? (fun e => e.1 = k) with
      | some e => some (.str (join e.2))
      | none => d.get? k := by
  induction es using List.reverseRecOn with
  | nil => rfl
  | append_singleton es e ih =>
    rw [List.foldl_append, List.foldl_cons, List.foldl_nil, get_set, ih, List.reverse_append,
      List.reverse_cons, List.reverse_nil, List.nil_append, List.singleton_append, List.find?_cons]
    by_cases h : k = e.1
    · subst h; simp
    · simp [h, Ne.symm h]

/-- What the header loop stores. -/
def Header.raw (h : Header) (k : Str) : Option Val :=
  if k = kUnits then some (.list h.units)
  else if k = kAttributes then some (.list h.names)
  else (h.words k).map fun ws => .str (spaced ws)

theorem headerLoop_all {h : Header} {lines : List Str} (hh : IsHeader h lines) :
    ∃ d, (∀ data, headerLoop (lines ++ data) ⟨[], true, false⟩ = (d, data)) ∧
      ∀ k, d.get? k = h.raw k := by
  obtain ⟨keyLines, blanks, nameLine, blanks', unitLine, blanks'', endLine, rfl, h1, h2, h3, h4, h5, h6,
    h7, w, ws, h8, h9⟩ := hh.lines
  obtain ⟨n, ns, hn, hn'⟩ := hh.names
  obtain ⟨u, us, hu, hu'⟩ := hh.units
  rw [hn] at h4
  rw [hu] at h6
  set D := h.entries.foldl (fun (d : Dict Val) e => d.set e.1 (.str (join e.2))) [] with hD
  refine ⟨(D.set kAttributes (.list h.names)).set kUnits (.list h.units), ?_, ?_⟩
  · intro data
    simp only [List.append_assoc]
    rw [headerLoop_keys h.entries keyLines _ h1 hh.keys, headerLoop_blanks _ _ h3 _ _ _ (Or.inl h2)]
    rw [List.singleton_append, headerLoop, if_neg (fun h0 => hn' ((take_iff h4).1 h0)),
      if_neg (strip_ne h4)]
    simp only [split_strip, split_of_isLine _ _ h4, Bool.false_eq_true, if_false, Bool.not_false,
      if_true]
    rw [headerLoop_blanks _ _ h5 _ _ _ (Or.inr rfl)]
    rw [List.singleton_append, headerLoop, if_neg (fun h0 => hu' ((take_iff h6).1 h0)),
      if_neg (strip_ne h6)]
    simp only [split_strip, split_of_isLine _ _ h6, Bool.false_eq_true, if_false, Bool.not_true]
    rw [headerLoop_blanks _ _ h7 _ _ _ (Or.inr rfl)]
    rw [List.singleton_append, headerLoop, if_pos ((take_iff h9).2 h8), hn, hu]
  · intro k
    rw [get_set, get_set, hD, foldl_entries]
    unfold Header.raw Header.words
    by_cases k1 : k = kUnits
    · rw [if_pos k1, if_pos k1]
    · rw [if_neg k1, if_neg k1]
      by_cases k2 : k = kAttributes
      · rw [if_pos k2, if_pos k2]
      · rw [if_neg k2, if_neg k2]
        cases List.find? (fun e => decide (e.1 = k)) h.entries.reverse with
        | none => rfl
        | some e => simp [join_eq]

theorem headerLoop_spec {h : Header} {lines : List Str} (hh : IsHeader h lines) (data : List Str) :
    ∃ d, headerLoop (lines ++ data) ⟨[], true, false⟩ = (d, data) ∧ ∀ k, d.get? k = h.raw k := by
  obtain ⟨d, h1, h2⟩ := headerLoop_all hh
  exact ⟨d, h1 data, h2⟩

/-- The values of the entries are made of words. -/
theorem header_words {h : Header} {lines : List Str} (hh : IsHeader h lines) {k : Str} {ws : List Str}
    (hk : h.words k = some ws) : ∀ w ∈ ws, IsWord w := by
  obtain ⟨keyLines, blanks, nameLine, blanks', unitLine, blanks'', endLine, rfl, h1, -⟩ := hh.lines
  unfold Header.words at hk
  rw [Option.map_eq_some_iff] at hk
  obtain ⟨e, he, rfl⟩ := hk
  have hm := List.mem_of_find?_eq_some he
  rw [List.mem_reverse] at hm
  clear he hh
  generalize h.entries = es at h1 hm
  induction h1 with
  | nil => simp at hm
  | cons hl _ ih =>
    rcases List.mem_cons.1 hm with rfl | hm
    · exact fun w hw => words_of_isLine _ _ hl w (by simp [hw])
    · exact ih hm

end Verif.Icgem
