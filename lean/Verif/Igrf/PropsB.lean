import Verif.Igrf.Props
import Verif.Icgem.Lemmas

/-!
C77: the table of coefficients has the contents of the file.
-/

namespace Verif.Igrf

open Verif.Legendre

noncomputable section

variable {toInt : Str → Option ℤ} {toFloat : Str → Option ℝ}

theorem parse_some {α : Type} {f : Str → Option α} {w : Str} {x : α} (h : f w = some x) :
    parse f w = .ok x := by simp [parse, h]

theorem mapM_parse {α : Type} {f : Str → Option α} : ∀ {ws : List Str} {xs : List α},
    ws.map f = xs.map some → ws.mapM (parse f) = .ok xs
  | [], [], _ => rfl
  | [], x :: xs, h => by simp at h
  | w :: ws, [], h => by simp at h
  | w :: ws, x :: xs, h => by
    simp only [List.map_cons, List.cons.injEq] at h
    rw [List.mapM_cons, parse_some h.1, Py.bind_ok, mapM_parse h.2]
    rfl

theorem middle_append (w1 w2 w3 : Str) (ws : List Str) (wl : Str) :
    middle (w1 :: w2 :: w3 :: (ws ++ [wl])) = ws := by
  unfold middle
  rw [show w1 :: w2 :: w3 :: (ws ++ [wl]) = (w1 :: w2 :: w3 :: ws) ++ [wl] by simp, List.dropLast_concat]
  rfl

theorem axisIndex_nat {n : ℕ} (h : n ≤ 13) : axisIndex (n : ℤ) = .ok n := by
  unfold axisIndex tableDegree
  rw [if_pos (by omega)]
  simp

theorem getLastD_append (w1 w2 w3 : Str) (ws : List Str) (wl : Str) :
    (w1 :: w2 :: w3 :: (ws ++ [wl])).getLastD [] = wl := by
  rw [show w1 :: w2 :: w3 :: (ws ++ [wl]) = (w1 :: w2 :: w3 :: ws) ++ [wl] by simp]
  generalize w1 :: w2 :: w3 :: ws = l
  simp

/-- The new contents after a row. -/
theorem readLine_row (T : Table) (r : Row) (line : Str) (h : IsRow toInt toFloat r line)
    (hl : r.values.length = T.years.length) :
    ∃ T', readLine toInt toFloat T line = .ok T' ∧ T'.years = T.years ∧
      (∀ k t n m, T'.value k t n m = if k = r.isG ∧ n = r.n ∧ m = r.m ∧ t < T.years.length then
        r.values.getD t 0 else T.value k t n m) ∧
      (∀ k n m, T'.variation k n m = if k = r.isG ∧ n = r.n ∧ m = r.m then r.sv else T.variation k n m) := by
  obtain ⟨wn, wm, ws, wsv, hline, hn, hm, hv, hsv⟩ := h.words
  have hsplit := Icgem.split_of_isLine _ _ hline
  have hi : parseIndices toInt ((if r.isG then ['g'] else ['h']) :: wn :: wm :: (ws ++ [wsv])) =
      .ok ((r.n : ℤ), (r.m : ℤ)) := by
    simp only [parseIndices, List.drop_succ_cons, List.drop_zero, List.take_succ_cons, List.take_zero]
    rw [parse_some hn, Py.bind_ok, parse_some hm, Py.bind_ok]
    rfl
  have ha : ∀ a : ℕ → Arr, assignValues a T.years.length r.values r.n r.m = .ok fun t i j =>
      if i = r.n ∧ j = r.m ∧ t < T.years.length then
        r.values.getD (if r.values.length = 1 then 0 else t) 0 else a t i j := by
    intro a
    unfold assignValues
    rw [axisIndex_nat h.degree, Py.bind_ok, axisIndex_nat h.order, Py.bind_ok, if_pos (Or.inl hl)]
  have hget : ∀ t, t < T.years.length → r.values.getD (if r.values.length = 1 then 0 else t) 0 =
      r.values.getD t 0 := by
    intro t ht
    split
    · rw [show t = 0 by omega]
    · rfl
  unfold readLine
  simp only [hsplit, List.head?_cons, Py.bind_ok, hi, middle_append, mapM_parse hv, getLastD_append,
    parse_some hsv, axisIndex_nat h.degree, axisIndex_nat h.order, ha]
  cases hg : r.isG with
  | true =>
    simp only [if_true]
    have hk : Icgem.strip ['g'] = ['g'] := Icgem.strip_nospace _ (by decide)
    rw [hk, if_pos rfl, Py.pure_eq]
    refine ⟨_, rfl, rfl, ?_, ?_⟩
    · intro k t n m
      unfold Table.value
      cases k with
      | false => simp
      | true =>
        simp only [if_true, true_and]
        by_cases hc : n = r.n ∧ m = r.m ∧ t < T.years.length
        · rw [if_pos hc, if_pos hc, hget t hc.2.2]
        · rw [if_neg hc, if_neg hc]
    · intro k n m
      unfold Table.variation
      cases k with
      | false => simp
      | true => simp only [if_true, true_and, upd]
  | false =>
    simp only [if_false, Bool.false_eq_true]
    have hk : Icgem.strip ['h'] = ['h'] := Icgem.strip_nospace _ (by decide)
    rw [hk, if_neg (by decide), if_pos rfl, Py.pure_eq]
    refine ⟨_, rfl, rfl, ?_, ?_⟩
    · intro k t n m
      unfold Table.value
      cases k with
      | true => simp
      | false =>
        simp only [if_false, Bool.false_eq_true, true_and]
        by_cases hc : n = r.n ∧ m = r.m ∧ t < T.years.length
        · rw [if_pos hc, if_pos hc, hget t hc.2.2]
        · rw [if_neg hc, if_neg hc]
    · intro k n m
      unfold Table.variation
      cases k with
      | true => simp
      | false => simp only [if_false, Bool.false_eq_true, true_and, upd]

theorem readLines (rows : List Row) : ∀ (T : Table) (body : List Str),
    List.Forall₂ (IsRow toInt toFloat) rows body → (∀ r ∈ rows, r.values.length = T.years.length) →
    (rows.Pairwise fun r r' => (r.isG, r.n, r.m) ≠ (r'.isG, r'.n, r'.m)) →
    ∃ T', body.foldlM (readLine toInt toFloat) T = .ok T' ∧ T'.years = T.years ∧
      (∀ r ∈ rows, (∀ t < T.years.length, T'.value r.isG t r.n r.m = r.values.getD t 0) ∧
        T'.variation r.isG r.n r.m = r.sv) ∧
      (∀ k n m, (∀ r ∈ rows, (r.isG, r.n, r.m) ≠ (k, n, m)) →
        (∀ t, T'.value k t n m = T.value k t n m) ∧ T'.variation k n m = T.variation k n m) ∧
      (∀ k t n m, T.years.length ≤ t → T'.value k t n m = T.value k t n m) := by
  induction rows with
  | nil =>
    intro T body hb _ _
    cases hb
    exact ⟨T, rfl, rfl, by simp, by simp, by simp⟩
  | cons r rows ih =>
    intro T body hb hlen hp
    cases hb with
    | cons h1 h2 =>
      rename_i line body
      obtain ⟨T1, e1, y1, v1, s1⟩ := readLine_row T r line h1 (hlen r (by simp))
      rw [List.pairwise_cons] at hp
      obtain ⟨T2, e2, y2, v2, k2, o2⟩ := ih T1 body h2
        (fun r' hr' => by rw [y1]; exact hlen r' (by simp [hr'])) hp.2
      refine ⟨T2, by rw [List.foldlM_cons, e1, Py.bind_ok, e2], y2.trans y1, ?_, ?_, ?_⟩
      · intro r' hr'
        rw [List.mem_cons] at hr'
        rcases hr' with rfl | hr'
        · have := k2 r'.isG r'.n r'.m (fun r'' h'' => fun e => hp.1 r'' h'' e.symm)
          refine ⟨fun t ht => ?_, ?_⟩
          · rw [this.1, v1, if_pos ⟨rfl, rfl, rfl, ht⟩]
          · rw [this.2, s1, if_pos ⟨rfl, rfl, rfl⟩]
        · rw [← y1]
          exact v2 r' hr'
      · intro k n m hn
        have h0 : ¬ (k = r.isG ∧ n = r.n ∧ m = r.m) := by
          rintro ⟨rfl, rfl, rfl⟩
          exact hn r (by simp) rfl
        have := k2 k n m (fun r' hr' => hn r' (by simp [hr']))
        refine ⟨fun t => ?_, ?_⟩
        · rw [this.1, v1, if_neg (fun hc => h0 ⟨hc.1, hc.2.1, hc.2.2.1⟩)]
        · rw [this.2, s1, if_neg h0]
      · intro k t n m ht
        rw [o2 k t n m (by rw [y1]; exact ht), v1, if_neg (fun hc => by omega)]

theorem mapM_years : ∀ {ws : List Str} {years : List ℤ},
    List.Forall₂ (fun w y => ∃ d rest, w = d ++ rest ∧ '.' ∉ d ∧ (∀ c ∈ rest.head?, c = '.') ∧
        toInt d = some y) ws years → ws.mapM (parseYear toInt) = .ok years
  | _, _, .nil => rfl
  | _, _, .cons (l₁ := ws) (l₂ := ys) h hs => by
    obtain ⟨d, rest, rfl, hd, hr, hy⟩ := h
    rw [List.mapM_cons]
    have : (d ++ rest).takeWhile (· ≠ '.') = d := by
      rw [List.takeWhile_append_of_pos]
      · cases rest with
        | nil => simp
        | cons c rest =>
          have := hr c (by simp)
          subst this
          simp
      · intro c hc
        simp only [decide_eq_true_eq]
        rintro rfl
        exact hd hc
    unfold parseYear
    rw [this, parse_some hy, Py.bind_ok]
    have := mapM_years hs
    unfold parseYear at this
    rw [this]
    rfl

/-- C77. For every file, the years, the values of each row at each epoch and their secular variations are in
the table; what has no row is zero. -/
theorem C77_round_trip (years : List ℤ) (rows : List Row) (lines : List Str)
    (h : IsFile toInt toFloat years rows lines) :
    ∃ T, loadIgrf toInt toFloat lines = .ok T ∧ T.years = years ∧
      (∀ r ∈ rows, (∀ t < years.length, r.values[t]? = some (T.value r.isG t r.n r.m)) ∧
        T.variation r.isG r.n r.m = r.sv) ∧
      ∀ k n m, (∀ r ∈ rows, (r.isG, r.n, r.m) ≠ (k, n, m)) →
        (∀ t, T.value k t n m = 0) ∧ T.variation k n m = 0 := by
  obtain ⟨l1, l2, l3, header, body, rfl, ⟨w1, w2, w3, ws, wl, hh, hy⟩, hb, hlen, hp⟩ := h
  obtain ⟨T, e, y, v, z, -⟩ := readLines rows ⟨years, fun _ _ _ => 0, fun _ _ _ => 0, fun _ _ => 0, fun _ _ => 0⟩ body hb hlen hp
  refine ⟨T, ?_, y, ?_, ?_⟩
  · unfold loadIgrf
    rw [show (l1 :: l2 :: l3 :: header :: body).getD 3 [] = header from rfl,
      Icgem.split_of_isLine _ _ hh, middle_append, mapM_years hy, Py.bind_ok]
    exact e
  · intro r hr
    refine ⟨fun t ht => ?_, (v r hr).2⟩
    rw [(v r hr).1 t ht, List.getD_eq_getElem?_getD,
      List.getElem?_eq_getElem (by rw [hlen r hr]; exact ht), Option.getD_some]
  · intro k n m hn
    obtain ⟨a, b⟩ := z k n m hn
    refine ⟨fun t => (a t).trans ?_, b.trans ?_⟩
    · unfold Table.value; split <;> rfl
    · unfold Table.variation; split <;> rfl

/-- C77. A blank line among the rows raises IndexError. -/
theorem C77_blank_line (years : List ℤ) (rows : List Row) (lines : List Str)
    (h : IsFile toInt toFloat years rows lines) (blank : Str) (hb : Icgem.IsBlank blank) (rest : List Str) :
    loadIgrf toInt toFloat (lines ++ blank :: rest) = .error .IndexError := by
  obtain ⟨l1, l2, l3, header, body, rfl, ⟨w1, w2, w3, ws, wl, hh, hy⟩, hbd, hlen, hp⟩ := h
  obtain ⟨T, e, -⟩ := readLines rows ⟨years, fun _ _ _ => 0, fun _ _ _ => 0, fun _ _ => 0, fun _ _ => 0⟩ body hbd hlen hp
  unfold loadIgrf
  simp only [List.cons_append, List.drop_succ_cons, List.drop_zero]
  rw [show (l1 :: l2 :: l3 :: header :: (body ++ blank :: rest)).getD 3 [] = header from rfl,
    Icgem.split_of_isLine _ _ hh, middle_append, mapM_years hy, Py.bind_ok, List.foldlM_append, e, Py.bind_ok,
    List.foldlM_cons]
  have : readLine toInt toFloat T blank = .error .IndexError := by
    unfold readLine
    rw [Icgem.split_of_isLine [] blank hb]
    rfl
  rw [this, Py.bind_error]

/-- Reading goes on from the table of a valid file. -/
theorem load_then (years : List ℤ) (rows : List Row) (lines : List Str)
    (h : IsFile toInt toFloat years rows lines) :
    ∃ T : Table, T.years = years ∧ loadIgrf toInt toFloat lines = .ok T ∧ ∀ line rest,
      loadIgrf toInt toFloat (lines ++ line :: rest) =
        (readLine toInt toFloat T line >>= fun T' => rest.foldlM (readLine toInt toFloat) T') := by
  obtain ⟨l1, l2, l3, header, body, rfl, ⟨w1, w2, w3, ws, wl, hh, hy⟩, hbd, hlen, hp⟩ := h
  obtain ⟨T, e, y, -⟩ := readLines rows ⟨years, fun _ _ _ => 0, fun _ _ _ => 0, fun _ _ => 0, fun _ _ => 0⟩ body hbd hlen hp
  refine ⟨T, y, ?_, fun line rest => ?_⟩
  · unfold loadIgrf
    rw [show (l1 :: l2 :: l3 :: header :: body).getD 3 [] = header from rfl,
      Icgem.split_of_isLine _ _ hh, middle_append, mapM_years hy, Py.bind_ok]
    exact e
  · unfold loadIgrf
    simp only [List.cons_append, List.drop_succ_cons, List.drop_zero]
    rw [show (l1 :: l2 :: l3 :: header :: (body ++ line :: rest)).getD 3 [] = header from rfl,
      Icgem.split_of_isLine _ _ hh, middle_append, mapM_years hy, Py.bind_ok, List.foldlM_append, e, Py.bind_ok,
      List.foldlM_cons]

theorem mapM_parse_bad {α : Type} {f : Str → Option α} : ∀ {ws : List Str},
    (∃ w ∈ ws, f w = none) → ws.mapM (parse f) = .error .ValueError
  | [], h => by simp at h
  | w :: ws, h => by
    rw [List.mapM_cons]
    cases hw : f w with
    | none => simp [parse, hw, Py.bind_error]
    | some x =>
      have : ∃ w ∈ ws, f w = none := by
        obtain ⟨v, hv, h0⟩ := h
        rcases List.mem_cons.1 hv with rfl | hv
        · rw [hw] at h0
          cases h0
        · exact ⟨v, hv, h0⟩
      rw [parse_some hw, Py.bind_ok, mapM_parse_bad this, Py.bind_error]

/-- C77. A degree, an order or a coefficient that is not a number: ValueError, whatever follows. -/
theorem C77_not_a_number (years : List ℤ) (rows : List Row) (lines : List Str)
    (h : IsFile toInt toFloat years rows lines) (key wn wm : Str) (ws : List Str) (wsv line : Str)
    (hl : Icgem.IsLine (key :: wn :: wm :: (ws ++ [wsv])) line)
    (hbad : toInt wn = none ∨ toInt wm = none ∨ ∃ w ∈ ws, toFloat w = none) (rest : List Str) :
    loadIgrf toInt toFloat (lines ++ line :: rest) = .error .ValueError := by
  obtain ⟨T, -, -, hT⟩ := load_then years rows lines h
  rw [hT]
  unfold readLine
  rw [Icgem.split_of_isLine _ _ hl]
  simp only [List.head?_cons, Py.bind_ok, middle_append, parseIndices, List.drop_succ_cons, List.drop_zero,
    List.take_succ_cons, List.take_zero]
  cases hn : toInt wn with
  | none => simp [parse, hn, Py.bind_error]
  | some n =>
    rw [parse_some hn, Py.bind_ok]
    cases hm : toInt wm with
    | none => simp [parse, hm, Py.bind_error]
    | some m =>
      have hb : ∃ w ∈ ws, toFloat w = none := by simpa [hn, hm] using hbad
      rw [parse_some hm, Py.bind_ok, Py.pure_eq, Py.bind_ok]
      simp only [mapM_parse_bad hb, Py.bind_error]

/-- C77. A secular variation that is not a number is never loaded, whatever the rest of the row is: ValueError if
the rest is that of a row of the file. -/
theorem C77_bad_variation (years : List ℤ) (rows : List Row) (lines : List Str)
    (h : IsFile toInt toFloat years rows lines) (key wn wm : Str) (ws : List Str) (wsv line : Str)
    (hl : Icgem.IsLine (key :: wn :: wm :: (ws ++ [wsv])) line) (hsv : toFloat wsv = none) (rest : List Str) :
    (∃ e, loadIgrf toInt toFloat (lines ++ line :: rest) = .error e) ∧
    ∀ (n m : ℤ) (values : List ℝ), (key = ['g'] ∨ key = ['h']) → toInt wn = some n → toInt wm = some m →
      ws.map toFloat = values.map some → (0 ≤ n ∧ n ≤ 13 ∧ 0 ≤ m ∧ m ≤ 13) → values.length = years.length →
      loadIgrf toInt toFloat (lines ++ line :: rest) = .error .ValueError := by
  obtain ⟨T, hy, -, hT⟩ := load_then years rows lines h
  have hk : Icgem.strip key = key := by
    obtain ⟨_, _, _, _, hw, _⟩ := hl
    exact Icgem.strip_nospace _ hw.2
  have hlast : (key :: wn :: wm :: (ws ++ [wsv])).getLastD [] = wsv := by
    rw [show key :: wn :: wm :: (ws ++ [wsv]) = (key :: wn :: wm :: ws) ++ [wsv] by simp,
      List.getLastD_eq_getLast?, List.getLast?_concat]
    rfl
  have hp : parse toFloat wsv = .error .ValueError := by simp [parse, hsv]
  rw [hT]
  unfold readLine
  rw [Icgem.split_of_isLine _ _ hl]
  simp only [List.head?_cons, Py.bind_ok, middle_append, parseIndices, List.drop_succ_cons, List.drop_zero,
    List.take_succ_cons, List.take_zero, hk, hlast, hp]
  constructor
  · cases parse toInt wn with
    | error e => exact ⟨e, rfl⟩
    | ok n =>
      cases parse toInt wm with
      | error e => exact ⟨e, rfl⟩
      | ok m =>
        simp only [Py.bind_ok, Py.pure_eq]
        cases ws.mapM (parse toFloat) with
        | error e => exact ⟨e, rfl⟩
        | ok values =>
          simp only [Py.bind_ok]
          split
          · cases assignValues T.g T.years.length values n m <;> simp [Py.bind_error, Py.bind_ok]
          · split
            · cases assignValues T.h T.years.length values n m <;> simp [Py.bind_error, Py.bind_ok]
            · split <;> simp [Py.bind_error]
  · rintro n m values hkey hn hm hv ⟨h1, h2, h3, h4⟩ hlen
    have hax : ∀ i : ℤ, 0 ≤ i → i ≤ 13 → ∃ k, axisIndex i = .ok k := by
      intro i h1 h2
      unfold axisIndex tableDegree
      exact ⟨_, if_pos (by omega)⟩
    obtain ⟨k, hk⟩ := hax n h1 h2
    obtain ⟨l, hl⟩ := hax m h3 h4
    simp only [parse_some hn, parse_some hm, mapM_parse hv, Py.pure_eq, Py.bind_ok, assignValues, hk, hl, hy, hlen,
      true_or, if_true, Py.bind_error]
    rcases hkey with rfl | rfl <;> simp [Py.bind_error]

/-- C77. A row whose first word is neither g nor h: KeyError (IndexError for g_sv and h_sv, which are
names of arrays with two axes). -/
theorem C77_unknown_key (years : List ℤ) (rows : List Row) (lines : List Str)
    (h : IsFile toInt toFloat years rows lines) (key wn wm : Str) (ws : List Str) (wsv line : Str)
    (hl : Icgem.IsLine (key :: wn :: wm :: (ws ++ [wsv])) line) (hkey : key ≠ ['g'] ∧ key ≠ ['h'])
    (n m : ℤ) (hn : toInt wn = some n) (hm : toInt wm = some m) (values : List ℝ)
    (hv : ws.map toFloat = values.map some) (rest : List Str) :
    loadIgrf toInt toFloat (lines ++ line :: rest) = .error
      (if key = ['g', '_', 's', 'v'] ∨ key = ['h', '_', 's', 'v'] then .IndexError else .KeyError) := by
  obtain ⟨T, -, -, hT⟩ := load_then years rows lines h
  have hk : Icgem.strip key = key := by
    obtain ⟨_, _, _, _, hw, _⟩ := hl
    exact Icgem.strip_nospace _ hw.2
  rw [hT]
  unfold readLine
  rw [Icgem.split_of_isLine _ _ hl]
  simp only [List.head?_cons, Py.bind_ok, middle_append, parseIndices, List.drop_succ_cons, List.drop_zero,
    List.take_succ_cons, List.take_zero, parse_some hn, parse_some hm, mapM_parse hv, Py.pure_eq, hk,
    if_neg hkey.1, if_neg hkey.2]
  split <;> rfl

/-- C77. A row of a degree or an order outside of −14…13, or whose number of values is neither the number of
years nor one, is refused: IndexError and ValueError. -/
theorem C77_bad_row (years : List ℤ) (rows : List Row) (lines : List Str)
    (h : IsFile toInt toFloat years rows lines) (isG : Bool) (wn wm : Str) (ws : List Str) (wsv line : Str)
    (hl : Icgem.IsLine ((if isG then ['g'] else ['h']) :: wn :: wm :: (ws ++ [wsv])) line)
    (n m : ℤ) (hn : toInt wn = some n) (hm : toInt wm = some m) (values : List ℝ)
    (hv : ws.map toFloat = values.map some) (rest : List Str) :
    ((n < -14 ∨ 13 < n ∨ m < -14 ∨ 13 < m) →
      loadIgrf toInt toFloat (lines ++ line :: rest) = .error .IndexError) ∧
    ((-14 ≤ n ∧ n ≤ 13 ∧ -14 ≤ m ∧ m ≤ 13) → values.length ≠ years.length → values.length ≠ 1 →
      loadIgrf toInt toFloat (lines ++ line :: rest) = .error .ValueError) := by
  obtain ⟨T, hy, -, hT⟩ := load_then years rows lines h
  have hk : Icgem.strip (if isG then ['g'] else ['h']) = if isG then ['g'] else ['h'] := by
    cases isG <;> exact Icgem.strip_nospace _ (by decide)
  have ok : ∀ i : ℤ, -14 ≤ i → i ≤ 13 → ∃ k, axisIndex i = .ok k := by
    intro i h1 h2
    unfold axisIndex tableDegree
    by_cases h0 : 0 ≤ i
    · exact ⟨_, if_pos (by omega)⟩
    · exact ⟨_, by rw [if_neg (by omega), if_pos (by omega)]⟩
  have bad : ∀ i : ℤ, i < -14 ∨ 13 < i → axisIndex i = .error .IndexError := by
    intro i hi
    unfold axisIndex tableDegree
    rw [if_neg (by omega), if_neg (by omega)]
  have key : ∀ e, (∀ a, assignValues a T.years.length values n m = .error e) →
      loadIgrf toInt toFloat (lines ++ line :: rest) = .error e := by
    intro e he
    rw [hT]
    unfold readLine
    rw [Icgem.split_of_isLine _ _ hl]
    simp only [List.head?_cons, Py.bind_ok, middle_append, parseIndices, List.drop_succ_cons, List.drop_zero,
      List.take_succ_cons, List.take_zero, parse_some hn, parse_some hm, mapM_parse hv, Py.pure_eq, hk]
    cases isG <;> simp [he, Py.bind_error]
  constructor
  · intro hb
    refine key _ fun a => ?_
    unfold assignValues
    by_cases h1 : n < -14 ∨ 13 < n
    · rw [bad n h1, Py.bind_error]
    · obtain ⟨k, hk⟩ := ok n (by omega) (by omega)
      rw [hk, Py.bind_ok, bad m (by omega), Py.bind_error]
  · rintro ⟨h1, h2, h3, h4⟩ hlen hlen'
    refine key _ fun a => ?_
    obtain ⟨k, hk⟩ := ok n h1 h2
    obtain ⟨k', hk'⟩ := ok m h3 h4
    unfold assignValues
    rw [hk, Py.bind_ok, hk', Py.bind_ok, if_neg (by rw [hy]; tauto)]

end

end Verif.Igrf
