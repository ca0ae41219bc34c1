import Verif.Ellipsoids.ModelStr
import Verif.Ellipsoids.PropsL

/-! C154: the text of `str` of an ellipsoid. -/

namespace Verif.Ellipsoids

/-- A character that ends the text of a number. -/
def isStop (c : Char) : Bool := c == ' ' || c == ',' || c == ')' || c == '\n'

/-- The texts of a printer: numbers of a set (the floats: Python prints as many digits as needed) are told apart, and
have no spaces, commas, parentheses or ends of lines; lines of matrices have no ends of lines. -/
structure TextPrinter.Faithful (P : TextPrinter) (F : Set ℝ) : Prop where
  float : ∀ x ∈ F, ∀ y ∈ F, P.float x = P.float y → x = y
  plain : ∀ x, ∀ c ∈ (P.float x).toList, c ≠ ' ' ∧ c ≠ ',' ∧ c ≠ ')' ∧ c ≠ '\n'
  lines : ∀ t, ∀ l ∈ P.lines t, '\n' ∉ l.toList

/-- The susceptibilities are both absent, equal numbers, or tensors that numpy prints the same. -/
def SameText (P : TextPrinter) : Option Susceptibility → Option Susceptibility → Prop
  | none, none => True
  | some (.scalar x), some (.scalar y) => x = y
  | some (.tensor s), some (.tensor t) => P.lines s = P.lines t
  | _, _ => False

theorem split_stop (p : Char → Bool) {x x' r r' : List Char} (hx : ∀ c ∈ x, p c = true) (hx' : ∀ c ∈ x', p c = true)
    (hr : ∀ c ∈ r.head?, p c = false) (hr' : ∀ c ∈ r'.head?, p c = false) :
    x ++ r = x' ++ r' ↔ x = x' ∧ r = r' := by
  refine ⟨fun h => ?_, fun ⟨h1, h2⟩ => by rw [h1, h2]⟩
  have key : ∀ {x r : List Char}, (∀ c ∈ x, p c = true) → (∀ c ∈ r.head?, p c = false) →
      (x ++ r).takeWhile p = x := by
    intro x r hx hr
    rw [List.takeWhile_append_of_pos hx]
    cases r with
    | nil => simp
    | cons c r => rw [List.takeWhile_cons_of_neg (by simp [hr c (by simp)])]; simp
  have h1 : x = x' := by
    have := congrArg (List.takeWhile p) h
    rwa [key hx hr, key hx' hr'] at this
  subst h1
  exact ⟨rfl, List.append_cancel_left h⟩

/-- The lines of a matrix as characters. -/
def lineChars (ls : List String) : List Char := (ls.map fun l => "\n        ".toList ++ l.toList).flatten

theorem foldl_lines (ls : List String) (s : String) :
    (ls.foldl (fun string line => string ++ ("\n        " ++ line)) s).toList = s.toList ++ lineChars ls := by
  induction ls generalizing s with
  | nil => simp [lineChars]
  | cons l ls ih =>
    rw [List.foldl_cons, ih]
    simp [lineChars, String.toList_append]

/-- What comes after the susceptibility. -/
def Tail (r : List Char) : Prop := r = [] ∨ ∃ r', r = "\n  • r".toList ++ r'

theorem Tail.head {r : List Char} (h : Tail r) : ∀ c ∈ r.head?, (c != '\n') = false := by
  rcases h with rfl | ⟨r', rfl⟩
  · simp
  · rw [List.head?_append_of_ne_nil _ (by decide)]
    intro c hc
    have : c = '\n' := by
      have h : "\n  • r".toList.head? = some '\n' := by decide
      rw [h] at hc
      simpa using hc.symm
    simp [this]

theorem lineChars_head (ls : List String) {r : List Char} (h : Tail r) :
    ∀ c ∈ (lineChars ls ++ r).head?, (c != '\n') = false := by
  cases ls with
  | nil => simpa [lineChars] using h.head
  | cons l ls =>
    intro c hc
    have : lineChars (l :: ls) ++ r = '\n' :: ("        ".toList ++ l.toList ++ lineChars ls ++ r) := by
      simp [lineChars]
    rw [this] at hc
    simp only [List.head?_cons, Option.mem_def, Option.some.injEq] at hc
    simp [← hc]

theorem line_ne_tail (l : List Char) {r : List Char} (h : Tail r) : "\n        ".toList ++ l ≠ r := by
  rintro rfl
  rcases h with h | ⟨r', h⟩
  · simp at h
  · have := congrArg (fun l => l[3]?) h
    simp at this

theorem lines_split (ls : List String) : ∀ (ls' : List String) {r r' : List Char}, (∀ l ∈ ls, '\n' ∉ l.toList) →
    (∀ l ∈ ls', '\n' ∉ l.toList) → Tail r → Tail r' →
    (lineChars ls ++ r = lineChars ls' ++ r' ↔ ls = ls' ∧ r = r') := by
  induction ls with
  | nil =>
    intro ls' r r' _ _ hr hr'
    cases ls' with
    | nil => simp [lineChars]
    | cons l ls' =>
      simp only [reduceCtorEq, false_and, iff_false]
      intro h
      refine line_ne_tail (l.toList ++ (lineChars ls' ++ r')) hr ?_
      rw [← List.append_assoc]
      simpa [lineChars] using h.symm
  | cons l ls ih =>
    intro ls' r r' hl hl' hr hr'
    cases ls' with
    | nil =>
      simp only [reduceCtorEq, false_and, iff_false]
      intro h
      refine line_ne_tail (l.toList ++ (lineChars ls ++ r)) hr' ?_
      rw [← List.append_assoc]
      simpa [lineChars] using h
    | cons l' ls' =>
      have e1 : ∀ (l : String) (ls : List String) (r : List Char),
          lineChars (l :: ls) ++ r = "\n        ".toList ++ (l.toList ++ (lineChars ls ++ r)) := by
        intro l ls r
        simp [lineChars]
      rw [e1, e1, List.append_cancel_left_eq, split_stop (· != '\n') ?_ ?_ (lineChars_head ls hr) (lineChars_head ls' hr'),
        ih ls' (fun l h => hl l (by simp [h])) (fun l h => hl' l (by simp [h])) hr hr', String.toList_inj,
        List.cons.injEq, and_assoc]
      · intro c hc
        have := hl l (by simp)
        simp only [bne_iff_ne, ne_eq]
        rintro rfl
        exact this hc
      · intro c hc
        have := hl' l' (by simp)
        simp only [bne_iff_ne, ne_eq]
        rintro rfl
        exact this hc

section
variable (P : TextPrinter)

/-- The characters of a number. -/
noncomputable def chars (x : ℝ) : List Char := (P.float x).toList

/-- The characters of the remanent magnetization. -/
noncomputable def remanentChars : Option V3 → List Char
  | some m => "\n  • remanent_mag: (".toList ++ (chars P (m 0) ++ (", ".toList ++ (chars P (m 1) ++ (", ".toList ++
      (chars P (m 2) ++ ") A/m".toList)))))
  | none => []

/-- The characters of the susceptibility, and what comes after. -/
noncomputable def susceptibilityChars (r : List Char) : Option Susceptibility → List Char
  | some (.scalar k) => "\n  • susceptibility:".toList ++ (" ".toList ++ (chars P k ++ r))
  | some (.tensor t) => "\n  • susceptibility:".toList ++ (lineChars (P.lines t) ++ r)
  | none => r

/-- The characters of the density, and what comes after. -/
noncomputable def densityChars (r : List Char) : Option ℝ → List Char
  | some x => "\n  • density: ".toList ++ (chars P x ++ (" kg/m³".toList ++ r))
  | none => r

theorem remanent_some (m : V3) : remanentChars P (some m) =
    "\n  • remanent_mag: (".toList ++ (chars P (m 0) ++ (", ".toList ++ (chars P (m 1) ++ (", ".toList ++
      (chars P (m 2) ++ ") A/m".toList))))) := by
  delta remanentChars
  with_reducible rfl

theorem remanent_none : remanentChars P none = [] := by
  delta remanentChars
  with_reducible rfl

theorem susceptibility_scalar (r : List Char) (k : ℝ) : susceptibilityChars P r (some (.scalar k)) =
    "\n  • susceptibility:".toList ++ (" ".toList ++ (chars P k ++ r)) := by
  delta susceptibilityChars
  with_reducible rfl

theorem susceptibility_tensor (r : List Char) (t : M3) : susceptibilityChars P r (some (.tensor t)) =
    "\n  • susceptibility:".toList ++ (lineChars (P.lines t) ++ r) := by
  delta susceptibilityChars
  with_reducible rfl

theorem susceptibility_none (r : List Char) : susceptibilityChars P r none = r := by
  delta susceptibilityChars
  with_reducible rfl

theorem density_some (r : List Char) (x : ℝ) : densityChars P r (some x) =
    "\n  • density: ".toList ++ (chars P x ++ (" kg/m³".toList ++ r)) := by
  delta densityChars
  with_reducible rfl

theorem density_none (r : List Char) : densityChars P r none = r := by
  delta densityChars
  with_reducible rfl

theorem name_space : "\n  • susceptibility: ".toList = "\n  • susceptibility:".toList ++ " ".toList := by
  simp

theorem strText_chars (e : Ellipsoid) : (strText P e).toList =
    "Ellipsoid:\n".toList ++ ("  • a:      ".toList ++ (chars P e.a ++ (" m\n".toList ++ ("  • b:      ".toList ++
    (chars P e.b ++ (" m\n".toList ++ ("  • c:      ".toList ++ (chars P e.c ++ (" m\n".toList ++
    ("  • center: (".toList ++ (chars P (e.center 0) ++ (", ".toList ++ (chars P (e.center 1) ++ (", ".toList ++
    (chars P (e.center 2) ++ (") m\n".toList ++ ("  • yaw:    ".toList ++ (chars P e.yaw ++ ("\n".toList ++
    ("  • pitch:  ".toList ++ (chars P e.pitch ++ ("\n".toList ++ ("  • roll:   ".toList ++ (chars P e.roll ++
    densityChars P (susceptibilityChars P (remanentChars P e.remanent_mag) e.susceptibility)
      e.density)))))))))))))))))))))))) := by
  unfold strText chars
  rcases e.density with _ | d <;> rcases e.susceptibility with _ | (k | t) <;> rcases e.remanent_mag with _ | m <;>
    simp only [String.toList_append, foldl_lines, density_some, density_none, susceptibility_scalar, susceptibility_tensor, susceptibility_none,
      remanent_some, remanent_none, chars,
      List.append_assoc, List.append_nil, name_space]

variable {P} {F : Set ℝ} (hP : P.Faithful F)
include hP

theorem chars_plain (x : ℝ) : ∀ c ∈ chars P x, (!isStop c) = true := by
  intro c hc
  obtain ⟨h1, h2, h3, h4⟩ := hP.plain x c hc
  simp [isStop, h1, h2, h3, h4]

/-- Two texts that begin with a number. -/
theorem chars_split {x y : ℝ} (hx : x ∈ F) (hy : y ∈ F) {r r' : List Char} (hr : ∀ c ∈ r.head?, (!isStop c) = false)
    (hr' : ∀ c ∈ r'.head?, (!isStop c) = false) : chars P x ++ r = chars P y ++ r' ↔ x = y ∧ r = r' := by
  rw [split_stop (fun c => !isStop c) (chars_plain hP x) (chars_plain hP y) hr hr']
  refine and_congr_left fun _ => ⟨fun h => hP.float x hx y hy (String.toList_inj.1 h), fun h => h ▸ rfl⟩

omit hP in
theorem stop_lit (s : String) (r : List Char) (h1 : s.toList ≠ [])
    (h2 : ∀ c ∈ s.toList.head?, (!isStop c) = false) : ∀ c ∈ (s.toList ++ r).head?, (!isStop c) = false := by
  rw [List.head?_append_of_ne_nil _ h1]
  exact h2

/-- Two texts that begin with a number and the same text. -/
theorem chars_lit {x y : ℝ} (hx : x ∈ F) (hy : y ∈ F) (s : String) {r r' : List Char} (h1 : s.toList ≠ [])
    (h2 : ∀ c ∈ s.toList.head?, (!isStop c) = false) :
    chars P x ++ (s.toList ++ r) = chars P y ++ (s.toList ++ r') ↔ x = y ∧ r = r' := by
  rw [chars_split hP hx hy (stop_lit s r h1 h2) (stop_lit s r' h1 h2), List.append_cancel_left_eq]

omit hP in
theorem remanent_tail (m : Option V3) : Tail (remanentChars P m) := by
  cases m with
  | none => exact .inl rfl
  | some m =>
    refine .inr ⟨"emanent_mag: (".toList ++ (chars P (m 0) ++ (", ".toList ++ (chars P (m 1) ++ (", ".toList ++
      (chars P (m 2) ++ ") A/m".toList))))), ?_⟩
    rw [← List.append_assoc]
    rfl

omit hP in
theorem tail_stop {r : List Char} (h : Tail r) : ∀ c ∈ r.head?, (!isStop c) = false := by
  intro c hc
  have := h.head c hc
  simp only [bne_eq_false_iff_eq] at this
  subst this
  decide

theorem remanent_split (m m' : Option V3) (hm : ∀ v ∈ m, ∀ k, v k ∈ F) (hm' : ∀ v ∈ m', ∀ k, v k ∈ F) :
    remanentChars P m = remanentChars P m' ↔ m = m' := by
  rcases m with _ | m <;> rcases m' with _ | m'
  · simp
  · simp [remanent_some, remanent_none]
  · simp [remanent_some, remanent_none]
  · have h := hm m rfl
    have h' := hm' m' rfl
    have e3 : chars P (m 2) ++ ") A/m".toList = chars P (m' 2) ++ ") A/m".toList ↔ m 2 = m' 2 := by
      have := chars_lit hP (h 2) (h' 2) ") A/m" (r := []) (r' := []) (by decide) (by decide)
      simpa using this
    simp only [remanent_some, List.append_cancel_left_eq]
    rw [chars_lit hP (h 0) (h' 0) ", " (by decide) (by decide), chars_lit hP (h 1) (h' 1) ", " (by decide) (by decide),
      e3, Option.some.injEq]
    constructor
    · rintro ⟨h0, h1, h2⟩
      funext k
      fin_cases k
      · exact h0
      · exact h1
      · exact h2
    · rintro rfl
      exact ⟨rfl, rfl, rfl⟩

omit hP in
theorem name_ne_tail (l : List Char) {r : List Char} (h : Tail r) : "\n  • susceptibility:".toList ++ l ≠ r := by
  rintro rfl
  rcases h with h | ⟨r', h⟩
  · simp at h
  · have := congrArg (fun l => l[5]?) h
    simp at this

theorem susceptibility_split (k k' : Option Susceptibility) {r r' : List Char}
    (hk : ∀ x, k = some (.scalar x) → x ∈ F) (hk' : ∀ x, k' = some (.scalar x) → x ∈ F) (hr : Tail r) (hr' : Tail r') :
    susceptibilityChars P r k = susceptibilityChars P r' k' ↔ SameText P k k' ∧ r = r' := by
  have hne : ∀ (t : M3) (l : List Char) {r : List Char}, Tail r → lineChars (P.lines t) ++ r ≠ " ".toList ++ l := by
    intro t l r hr h
    have := lineChars_head (P.lines t) hr ' ' (by rw [h]; rfl)
    exact absurd this (by decide)
  rcases k with _ | (k | t) <;> rcases k' with _ | (k' | t')
  · simp [susceptibility_scalar, susceptibility_tensor, susceptibility_none, SameText]
  · simpa only [susceptibility_scalar, susceptibility_tensor, susceptibility_none, SameText, false_and, iff_false] using (name_ne_tail _ hr).symm
  · simpa only [susceptibility_scalar, susceptibility_tensor, susceptibility_none, SameText, false_and, iff_false] using (name_ne_tail _ hr).symm
  · simpa only [susceptibility_scalar, susceptibility_tensor, susceptibility_none, SameText, false_and, iff_false] using (name_ne_tail _ hr')
  · simp only [susceptibility_scalar, susceptibility_tensor, susceptibility_none, SameText, List.append_cancel_left_eq]
    exact chars_split hP (hk _ rfl) (hk' _ rfl) (tail_stop hr) (tail_stop hr')
  · simp only [susceptibility_scalar, susceptibility_tensor, susceptibility_none, SameText, List.append_cancel_left_eq, false_and, iff_false]
    exact (hne t' _ hr').symm
  · simpa only [susceptibility_scalar, susceptibility_tensor, susceptibility_none, SameText, false_and, iff_false] using (name_ne_tail _ hr')
  · simp only [susceptibility_scalar, susceptibility_tensor, susceptibility_none, SameText, List.append_cancel_left_eq, false_and, iff_false]
    exact hne t _ hr
  · simp only [susceptibility_scalar, susceptibility_tensor, susceptibility_none, SameText, List.append_cancel_left_eq]
    exact lines_split _ _ (hP.lines t) (hP.lines t') hr hr'

omit hP in
theorem susceptibility_fifth (k : Option Susceptibility) {r : List Char} (hr : Tail r) :
    (susceptibilityChars P r k)[5]? ≠ some 'd' ∧
      ∀ c ∈ (susceptibilityChars P r k).head?, (!isStop c) = false := by
  rcases k with _ | (k | t)
  · refine ⟨?_, tail_stop hr⟩
    rcases hr with rfl | ⟨r', rfl⟩
    · simp [susceptibility_scalar, susceptibility_tensor, susceptibility_none]
    · simp [susceptibility_scalar, susceptibility_tensor, susceptibility_none]
  · exact ⟨by simp [susceptibility_scalar, susceptibility_tensor, susceptibility_none], stop_lit _ _ (by decide) (by decide)⟩
  · exact ⟨by simp [susceptibility_scalar, susceptibility_tensor, susceptibility_none], stop_lit _ _ (by decide) (by decide)⟩

theorem density_split (d d' : Option ℝ) {r r' : List Char} (hd : ∀ x ∈ d, x ∈ F) (hd' : ∀ x ∈ d', x ∈ F)
    (hr : r[5]? ≠ some 'd') (hr' : r'[5]? ≠ some 'd') :
    densityChars P r d = densityChars P r' d' ↔ d = d' ∧ r = r' := by
  have hne : ∀ (l : List Char) {r : List Char}, r[5]? ≠ some 'd' → "\n  • density: ".toList ++ l ≠ r := by
    rintro l _ h rfl
    simp at h
  rcases d with _ | d <;> rcases d' with _ | d'
  · simp [density_some, density_none]
  · simpa only [density_some, density_none, reduceCtorEq, false_and, iff_false] using (hne _ hr).symm
  · simpa only [density_some, density_none, reduceCtorEq, false_and, iff_false] using (hne _ hr')
  · simp only [density_some, List.append_cancel_left_eq, Option.some.injEq]
    exact chars_lit hP (hd d rfl) (hd' d' rfl) " kg/m³" (by decide) (by decide)

end

/-- C154: two ellipsoids have the same `str()` exactly if they have the same semiaxes, center, angles, density and
remanent magnetization, and susceptibilities that are both absent, equal numbers, or tensors that numpy prints the
same. -/
theorem C154_str (P : TextPrinter) (F : Set ℝ) (hP : P.Faithful F) (e e' : Ellipsoid) (he : e.NumbersIn F)
    (he' : e'.NumbersIn F) (hm : ∀ v ∈ e.remanent_mag, ∀ k, v k ∈ F) (hm' : ∀ v ∈ e'.remanent_mag, ∀ k, v k ∈ F) :
    strText P e = strText P e' ↔
      (e.a = e'.a ∧ e.b = e'.b ∧ e.c = e'.c) ∧ e.center = e'.center ∧
      (e.yaw = e'.yaw ∧ e.pitch = e'.pitch ∧ e.roll = e'.roll) ∧ e.density = e'.density ∧
      SameText P e.susceptibility e'.susceptibility ∧ e.remanent_mag = e'.remanent_mag := by
  obtain ⟨s1, s2⟩ := susceptibility_fifth (P := P) e.susceptibility (remanent_tail (P := P) e.remanent_mag)
  obtain ⟨s1', s2'⟩ := susceptibility_fifth (P := P) e'.susceptibility (remanent_tail (P := P) e'.remanent_mag)
  have hst : ∀ (d : Option ℝ) {r : List Char}, (∀ c ∈ r.head?, (!isStop c) = false) →
      ∀ c ∈ (densityChars P r d).head?, (!isStop c) = false := by
    intro d r hr
    cases d with
    | none => exact hr
    | some d => exact stop_lit _ _ (by decide) (by decide)
  rw [← String.toList_inj, strText_chars, strText_chars]
  simp only [List.append_cancel_left_eq]
  rw [chars_lit hP he.axes.1 he'.axes.1 " m\n" (by decide) (by decide), List.append_cancel_left_eq,
    chars_lit hP he.axes.2.1 he'.axes.2.1 " m\n" (by decide) (by decide), List.append_cancel_left_eq,
    chars_lit hP he.axes.2.2 he'.axes.2.2 " m\n" (by decide) (by decide), List.append_cancel_left_eq,
    chars_lit hP (he.center 0) (he'.center 0) ", " (by decide) (by decide),
    chars_lit hP (he.center 1) (he'.center 1) ", " (by decide) (by decide),
    chars_lit hP (he.center 2) (he'.center 2) ") m\n" (by decide) (by decide), List.append_cancel_left_eq,
    chars_lit hP he.angles.1 he'.angles.1 "\n" (by decide) (by decide), List.append_cancel_left_eq,
    chars_lit hP he.angles.2.1 he'.angles.2.1 "\n" (by decide) (by decide), List.append_cancel_left_eq,
    chars_split hP he.angles.2.2 he'.angles.2.2 (hst _ s2) (hst _ s2'),
    density_split hP _ _ he.density he'.density s1 s1',
    susceptibility_split hP _ _ he.susceptibility he'.susceptibility (remanent_tail _) (remanent_tail _),
    remanent_split hP _ _ hm hm']
  have hc : e.center 0 = e'.center 0 ∧ e.center 1 = e'.center 1 ∧ e.center 2 = e'.center 2 ↔ e.center = e'.center := by
    constructor
    · rintro ⟨h0, h1, h2⟩
      funext k
      fin_cases k
      · exact h0
      · exact h1
      · exact h2
    · rintro h
      rw [h]
      exact ⟨rfl, rfl, rfl⟩
  rw [← hc]
  tauto

/-- The lines that describe an ellipsoid: each attribute that is present with its name, its value and its unit, the
susceptibility tensor on lines of its own. -/
noncomputable def describe (P : TextPrinter) (e : Ellipsoid) : List String :=
  ["Ellipsoid:", "  • a:      " ++ P.float e.a ++ " m", "  • b:      " ++ P.float e.b ++ " m",
    "  • c:      " ++ P.float e.c ++ " m",
    "  • center: (" ++ P.float (e.center 0) ++ ", " ++ P.float (e.center 1) ++ ", " ++ P.float (e.center 2) ++ ") m",
    "  • yaw:    " ++ P.float e.yaw, "  • pitch:  " ++ P.float e.pitch, "  • roll:   " ++ P.float e.roll] ++
  (e.density.toList.map fun x => "  • density: " ++ P.float x ++ " kg/m³") ++
  (match e.susceptibility with
    | some (.scalar x) => ["  • susceptibility: " ++ P.float x]
    | some (.tensor t) => "  • susceptibility:" :: (P.lines t).map fun l => "        " ++ l
    | none => []) ++
  e.remanent_mag.toList.map fun m =>
    "  • remanent_mag: (" ++ P.float (m 0) ++ ", " ++ P.float (m 1) ++ ", " ++ P.float (m 2) ++ ") A/m"

theorem join_cons (l : String) (ls : List String) :
    ("\n".intercalate (l :: ls)).toList = l.toList ++ (ls.map fun s => '\n' :: s.toList).flatten := by
  rw [String.toList_intercalate]
  induction ls generalizing l with
  | nil => simp
  | cons l' ls ih =>
    have := ih l'
    simp only [List.map_cons, List.intercalate_cons_cons] at this ⊢
    rw [this]
    simp

/-- C154: the text consists of the lines that describe the ellipsoid. -/
theorem C154_lines (P : TextPrinter) (e : Ellipsoid) : strText P e = "\n".intercalate (describe P e) := by
  have hl : ∀ ls : List String, lineChars ls =
      ((ls.map fun l => "        " ++ l).map fun s => '\n' :: s.toList).flatten := by
    intro ls
    unfold lineChars
    rw [List.map_map]
    congr 1
    apply List.map_congr_left
    intro l _
    simp
  rw [← String.toList_inj, strText_chars]
  unfold describe
  simp only [List.cons_append, List.nil_append]
  rw [join_cons]
  simp only [List.map_append, List.map_cons, List.flatten_append, List.flatten_cons, String.toList_append, chars]
  rcases e.density with _ | d <;> rcases e.susceptibility with _ | (k | t) <;> rcases e.remanent_mag with _ | m <;>
    simp [density_some, density_none, susceptibility_scalar, susceptibility_tensor, susceptibility_none, remanent_some,
      remanent_none, chars, hl]

/-- C129: the representation is a call of the class with the attributes by name: the semiaxes, the center, the angles
and those of density, susceptibility and remanent magnetization that are present, in this order. -/
theorem C129_call (P : Printer) (e : Ellipsoid) : reprText P e = "harmonica.Ellipsoid(" ++ ", ".intercalate
    (([("a", P.float e.a), ("b", P.float e.b), ("c", P.float e.c),
        ("center", P.tuple (e.center 0) (e.center 1) (e.center 2)), ("yaw", P.float e.yaw), ("pitch", P.float e.pitch),
        ("roll", P.float e.roll)] ++ (e.density.toList.map fun x => ("density", P.float x)) ++
      (e.susceptibility.toList.map fun k : Susceptibility => ("susceptibility", match k with
        | .scalar x => P.float x
        | .tensor t => P.matrix t)) ++
      e.remanent_mag.toList.map fun m => ("remanent_mag", P.array m)).map fun p : String × String => p.1 ++ "=" ++ p.2) ++ ")" := by
  have h1 : ("harmonica." ++ "Ellipsoid" ++ "(" : String) = "harmonica.Ellipsoid(" := by decide
  unfold reprText reprAttrs
  rw [h1]
  congr 3
  rcases e.density with _ | d <;> rcases e.susceptibility with _ | (k | t) <;> rcases e.remanent_mag with _ | m <;> rfl

/-- A printer of natural numbers (as many strokes as the number says), with matrices of three lines. -/
noncomputable def strokeText : TextPrinter where
  float x := String.ofList (List.replicate ⌊x⌋₊ '|')
  lines _ := ["[[1. 0. 0.]", " [0. 2. 0.]", " [0. 0. 3.]]"]

theorem strokeText_faithful : strokeText.Faithful (Set.range (Nat.cast : ℕ → ℝ)) := by
  refine ⟨strokes_faithful.float, ?_, ?_⟩
  · intro x c hc
    simp only [strokeText, String.toList_ofList, List.mem_replicate] at hc
    rw [hc.2]
    decide
  · intro t l hl
    simp only [strokeText, List.mem_cons, List.not_mem_nil, or_false] at hl
    rcases hl with rfl | rfl | rfl <;> decide

/-- C154_str: a body with a tensor of susceptibility and one with a number have different texts, whatever their
remanent magnetizations are. -/
example (t : M3) (m m' : V3) (hm : ∀ k, m k ∈ Set.range (Nat.cast : ℕ → ℝ))
    (hm' : ∀ k, m' k ∈ Set.range (Nat.cast : ℕ → ℝ)) :
    strText strokeText ⟨3, 2, 1, 0, 0, 0, ![1, 2, 3], none, some (.tensor t), some m⟩ ≠
      strText strokeText ⟨3, 2, 1, 0, 0, 0, ![1, 2, 3], none, some (.scalar 1), some m'⟩ := by
  have num : ∀ n : ℕ, (n : ℝ) ∈ Set.range (Nat.cast : ℕ → ℝ) := fun n => ⟨n, rfl⟩
  have h0 : (0 : ℝ) ∈ Set.range (Nat.cast : ℕ → ℝ) := by simpa using num 0
  have h1 : (1 : ℝ) ∈ Set.range (Nat.cast : ℕ → ℝ) := by simpa using num 1
  have h2 : (2 : ℝ) ∈ Set.range (Nat.cast : ℕ → ℝ) := by simpa using num 2
  have h3 : (3 : ℝ) ∈ Set.range (Nat.cast : ℕ → ℝ) := by simpa using num 3
  intro h
  have := (C154_str strokeText _ strokeText_faithful _ _
    ⟨⟨h3, h2, h1⟩, fun k => by fin_cases k <;> simp [-Set.mem_range, h1, h2, h3], ⟨h0, h0, h0⟩,
      fun x hx => by simp at hx, fun x hx => by simp at hx⟩
    ⟨⟨h3, h2, h1⟩, fun k => by fin_cases k <;> simp [-Set.mem_range, h1, h2, h3], ⟨h0, h0, h0⟩,
      fun x hx => by simp at hx, fun x hx => by simp at hx; rw [← hx]; exact h1⟩
    (fun v hv => by simp at hv; exact hv ▸ hm) (fun v hv => by simp at hv; exact hv ▸ hm')).1 h
  exact this.2.2.2.2.1

end Verif.Ellipsoids
