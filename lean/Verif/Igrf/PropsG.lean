import Verif.Igrf.ModelD
import Verif.Igrf.PropsD
import Verif.Igrf.Examples

/-!
C139: assignments to the attributes of an IGRF14 object.
-/

namespace Verif.Igrf

open Verif.Legendre Verif.Engine

noncomputable section

/-! ### specification -/

/-- The attributes after an assignment. -/
def Use.assign (self : Igrf) : Use → Igrf
  | .setDate d => { self with date := d }
  | .setMinDegree n => { self with min_degree := n }
  | .setMaxDegree n => { self with max_degree := n }
  | .setEllipsoid e => { self with ellipsoid := e }
  | _ => self

/-- The attributes after a history: the last value assigned to each. -/
def attributesAfter (self : Igrf) (us : List Use) : Igrf := us.foldl Use.assign self

/-- The use needs the coefficients. -/
def Use.needs : Use → Bool
  | .write .. => true
  | .access _ => true
  | _ => false

/-- The use writes the arrays. -/
def Use.writes : Use → Bool
  | .write .. => true
  | _ => false

/-- There are coefficients for the date and degree of these attributes. -/
def Computable (file : Py Table) (self : Igrf) : Prop :=
  ∃ c, file.bind (interpolateCoefficients self.date self.max_degree) = .ok c

open Classical in
/-- The attributes that the object had on the first use that needed the coefficients and could compute them. -/
def firstUse (file : Py Table) : Igrf → List Use → Option Igrf
  | _, [] => none
  | self, u :: us => if u.needs ∧ Computable file self then some self else firstUse file (u.assign self) us

/-! ### coefficients of lower degrees -/

/-- The coefficients up to a degree agree. -/
def Agree (N : ℕ) (c c' : Arr × Arr) : Prop := ∀ n m, n ≤ N → m ≤ n → c.1 n m = c'.1 n m ∧ c.2 n m = c'.2 n m

theorem interpolate_lower {date : Date} {N N' : ℕ} {T : Table} {c : Arr × Arr} (hN : N' ≤ N)
    (h : interpolateCoefficients date N T = .ok c) :
    ∃ c', interpolateCoefficients date N' T = .ok c' ∧ Agree N' c c' := by
  unfold interpolateCoefficients at h ⊢
  cases h1 : item T.years.head? with
  | error e => rw [h1, Py.bind_error] at h; cases h
  | ok first =>
    rw [h1, Py.bind_ok] at h
    rw [Py.bind_ok]
    cases h2 : item T.years.getLast? with
    | error e => rw [h2, Py.bind_error] at h; cases h
    | ok last =>
      rw [h2, Py.bind_ok] at h
      rw [Py.bind_ok]
      cases h3 : checkDate date first last with
      | error e => rw [h3, Py.bind_error] at h; cases h
      | ok _ =>
        rw [h3, Py.bind_ok] at h
        rw [Py.bind_ok]
        dsimp only at h ⊢
        cases h4 : item T.years[((date.year - first) / 5).toNat]? with
        | error e => rw [h4, Py.bind_error] at h; cases h
        | ok year =>
          rw [h4, Py.bind_ok] at h
          rw [Py.bind_ok]
          cases h5 : newYear year with
          | error e => rw [h5, Py.bind_error] at h; cases h
          | ok start =>
            rw [h5, Py.bind_ok] at h
            rw [Py.bind_ok]
            cases h6 : date.sub start with
            | error e => rw [h6, Py.bind_error] at h; cases h
            | ok since =>
              rw [h6, Py.bind_ok] at h
              rw [Py.bind_ok]
              cases h7 : newYear (year + 5) with
              | error e => rw [h7, Py.bind_error] at h; cases h
              | ok stop =>
                rw [h7, Py.bind_ok] at h
                rw [Py.bind_ok]
                unfold checkDegree at h ⊢
                by_cases h8 : N > tableDegree
                · rw [if_pos h8, Py.bind_error] at h; cases h
                · rw [if_neg h8, Py.bind_ok, Py.pure_eq] at h
                  rw [if_neg (by omega), Py.bind_ok, Py.pure_eq]
                  refine ⟨_, rfl, fun n m hn hm => ?_⟩
                  cases h
                  have a := interpolateLoop_values N ((date.year - first) / 5).toNat T.years.length since
                    (stop - start) (365.25 * 24 * 60 * 60) T n m
                  have b := interpolateLoop_values N' ((date.year - first) / 5).toNat T.years.length since
                    (stop - start) (365.25 * 24 * 60 * 60) T n m
                  by_cases h0 : 1 ≤ n
                  · obtain ⟨a1, a2⟩ := a.1 h0 (by omega) hm
                    obtain ⟨b1, b2⟩ := b.1 h0 hn hm
                    exact ⟨a1.trans b1.symm, a2.trans b2.symm⟩
                  · obtain ⟨a1, a2⟩ := a.2 (by omega)
                    obtain ⟨b1, b2⟩ := b.2 (by omega)
                    exact ⟨a1.trans b1.symm, a2.trans b2.symm⟩

theorem degreeLoop_congr {N : ℕ} {c c' : Arr × Arr} (h : Agree N c c') (nr : ℝ) (p dp : Arr) (co si : ℕ → ℝ) :
    ∀ (l : List ℕ) (r : ℝ), (∀ n ∈ l, n ≤ N) →
      degreeLoop nr c.1 c.2 p dp co si r l = degreeLoop nr c'.1 c'.2 p dp co si r l := by
  intro l
  induction l with
  | nil => intros; rfl
  | cons n l ih =>
    intro r hl
    unfold degreeLoop
    rw [ih _ fun k hk => hl k (List.mem_cons_of_mem _ hk)]
    congr 1
    refine List.map_congr_left fun m hm => ?_
    have := h n m (hl n List.mem_cons_self) (by rw [List.mem_range] at hm; omega)
    unfold term
    rw [this.1, this.2]

theorem synthesis_congr {N : ℕ} {c c' : Arr × Arr} (h : Agree N c c') (nr : ℝ) (p dp : Arr) (co si : ℕ → ℝ)
    (a : ℕ) : synthesis nr c.1 c.2 p dp co si a N = synthesis nr c'.1 c'.2 p dp co si a N := by
  unfold synthesis
  refine degreeLoop_congr h _ _ _ _ _ _ _ fun n hn => ?_
  rw [List.mem_range'_1] at hn
  omega

theorem predictWith_congr (mode : Mode) (junk : Junk) (self : Igrf) {c c' : Arr × Arr}
    (h : Agree self.max_degree c c') (points : List (ℝ × ℝ × ℝ)) :
    predictWith mode junk self c points = predictWith mode junk self c' points := by
  unfold predictWith magneticField
  have : pointProgram junk (points.map (toKernel self.ellipsoid)) c.1 c.2 self.min_degree self.max_degree =
      pointProgram junk (points.map (toKernel self.ellipsoid)) c'.1 c'.2 self.min_degree self.max_degree := by
    funext i
    unfold pointProgram
    simp only [synthesis_congr h]
  rw [this]

theorem gridWith_congr (mode mode' : Mode) (junk : Junk) (self : Igrf) {c c' : Arr × Arr}
    (h : Agree self.max_degree c c') (x : Grid) :
    gridWith mode mode' junk self c x = gridWith mode mode' junk self c' x := by
  unfold gridWith magneticFieldGrid
  have : ∀ (n : ℕ) (colat : List ℝ) (nr : ℕ → ℕ → ℝ) (co si : ℕ → ℕ → ℝ),
      gridProgram junk n colat nr c.1 c.2 co si self.min_degree self.max_degree =
        gridProgram junk n colat nr c'.1 c'.2 co si self.min_degree self.max_degree := by
    intro n colat nr co si
    funext i
    unfold gridProgram
    simp only [synthesis_congr h]
  simp only [this]

/-! ### the object in a history without writes -/

/-- What is known of the object: its attributes, and its coefficients, those of the first use. -/
def Kept (file : Py Table) (first : Option Igrf) (o : Obj) : Prop :=
  match first with
  | none => o.coeffs = none
  | some s => ∃ c, file.bind (interpolateCoefficients s.date s.max_degree) = .ok c ∧
      o.coeffs = some (s.max_degree, c)

theorem load_none {file : Py Table} {o : Obj} (hc : o.coeffs = none) :
    (¬ Computable file o.attrs ∧ (o.load file).2 = o) ∨
      ∃ c, file.bind (interpolateCoefficients o.attrs.date o.attrs.max_degree) = .ok c ∧
        o.load file = (.ok (o.attrs.max_degree, c), { o with coeffs := some (o.attrs.max_degree, c) }) := by
  unfold Obj.load
  rw [hc]
  dsimp only
  cases h : file.bind (interpolateCoefficients o.attrs.date o.attrs.max_degree) with
  | error e => left; exact ⟨fun ⟨c, hc⟩ => (by rw [h] at hc; cases hc), rfl⟩
  | ok c => right; exact ⟨c, rfl, rfl⟩

theorem load_some {file : Py Table} {o : Obj} {c : ℕ × (Arr × Arr)} (hc : o.coeffs = some c) :
    o.load file = (.ok c, o) := by
  unfold Obj.load
  rw [hc]

theorem step_needs {file : Py Table} {o o' : Obj} {u : Use} {r : Reply} (hn : u.needs = true)
    (hw : u.writes = false) (h : o.step file u = some (r, o')) : o' = (o.load file).2 := by
  cases u with
  | setDate d => cases hn
  | setMinDegree d => cases hn
  | setMaxDegree d => cases hn
  | setEllipsoid d => cases hn
  | write g n m v => cases hw
  | access a =>
    cases a with
    | coefficients =>
      unfold Obj.step at h
      rcases hl : o.load file with ⟨e | ⟨N, c⟩, o1⟩ <;> rw [hl] at h <;> cases h <;> rfl
    | predict mode junk points =>
      unfold Obj.step at h
      rcases hl : o.load file with ⟨e | ⟨N, c⟩, o1⟩ <;> rw [hl] at h <;> dsimp only at h
      · cases h; rfl
      · split_ifs at h
        cases h; rfl
    | grid mode mode' junk x =>
      unfold Obj.step at h
      rcases hl : o.load file with ⟨e | ⟨N, c⟩, o1⟩ <;> rw [hl] at h <;> dsimp only at h
      · cases h; rfl
      · split_ifs at h
        cases h; rfl

theorem step_assigns {file : Py Table} {o o' : Obj} {u : Use} {r : Reply} (hn : u.needs = false)
    (h : o.step file u = some (r, o')) : o' = { o with attrs := u.assign o.attrs } := by
  cases u with
  | write g n m v => cases hn
  | access a => cases hn
  | _ => cases h; rfl

theorem load_attrs (file : Py Table) (o : Obj) : (o.load file).2.attrs = o.attrs := by
  unfold Obj.load
  cases o.coeffs with
  | some c => rfl
  | none => dsimp only; split <;> rfl

theorem assign_needs {u : Use} (hn : u.needs = true) (self : Igrf) : u.assign self = self := by
  cases u <;> first | rfl | cases hn

theorem after_loaded {file : Py Table} {c : ℕ × (Arr × Arr)} (us : List Use) :
    ∀ {o o' : Obj}, (∀ u ∈ us, u.writes = false) → o.coeffs = some c → o.after file us = some o' →
      o'.coeffs = some c ∧ o'.attrs = attributesAfter o.attrs us := by
  induction us with
  | nil => intro o o' _ hc h; cases h; exact ⟨hc, rfl⟩
  | cons u us ih =>
    intro o o' hw hc h
    unfold Obj.after at h
    rcases hs : o.step file u with _ | ⟨r, o1⟩
    · rw [hs] at h; cases h
    rw [hs] at h
    dsimp only at h
    have h1 : o1.coeffs = some c ∧ o1.attrs = u.assign o.attrs := by
      by_cases hn : u.needs = true
      · have := step_needs hn (hw u List.mem_cons_self) hs
        rw [load_some hc] at this
        subst this
        exact ⟨hc, (assign_needs hn _).symm⟩
      · have := step_assigns (by simpa using hn) hs
        subst this
        exact ⟨hc, rfl⟩
    obtain ⟨h2, h3⟩ := ih (fun u hu => hw u (List.mem_cons_of_mem _ hu)) h1.1 h
    refine ⟨h2, ?_⟩
    rw [h3, h1.2]
    rfl

theorem after_kept {file : Py Table} (us : List Use) :
    ∀ {o o' : Obj}, (∀ u ∈ us, u.writes = false) → o.coeffs = none → o.after file us = some o' →
      Kept file (firstUse file o.attrs us) o' ∧ o'.attrs = attributesAfter o.attrs us := by
  induction us with
  | nil => intro o o' _ hc h; cases h; exact ⟨hc, rfl⟩
  | cons u us ih =>
    intro o o' hw hc h
    have hw' : ∀ u ∈ us, u.writes = false := fun u hu => hw u (List.mem_cons_of_mem _ hu)
    unfold Obj.after at h
    rcases hs : o.step file u with _ | ⟨r, o1⟩
    · rw [hs] at h; cases h
    rw [hs] at h
    dsimp only at h
    unfold firstUse
    by_cases hn : u.needs = true
    · have h1 := step_needs hn (hw u List.mem_cons_self) hs
      have ha : attributesAfter o.attrs (u :: us) = attributesAfter o.attrs us := by
        unfold attributesAfter
        rw [List.foldl_cons, assign_needs hn]
      rcases load_none (file := file) hc with ⟨h2, h3⟩ | ⟨c, h2, h3⟩
      · rw [h3] at h1
        subst h1
        rw [if_neg fun h => h2 h.2, assign_needs hn, ha]
        exact ih hw' hc h
      · rw [h3] at h1
        subst h1
        rw [if_pos ⟨hn, c, h2⟩, ha]
        obtain ⟨h4, h5⟩ := after_loaded us hw' rfl h
        exact ⟨⟨c, h2, h4⟩, h5⟩
    · have h1 := step_assigns (by simpa using hn) hs
      subst h1
      rw [if_neg fun h => hn h.1]
      exact ih (o := { o with attrs := u.assign o.attrs }) hw' hc h

/-! ### C139 -/

/-- C139, what holds for every history of uses and assignments without writes to the arrays: `predict` and `grid`
return what a new object returns that has the present degrees and ellipsoid, and the date of the first use
(the present one if there was no such use), provided that the maximum degree is at most that of the first use. -/
theorem C139_history (file : Py Table) (self : Igrf) (us : List Use) (o : Obj)
    (hw : ∀ u ∈ us, u.writes = false) (h : (Obj.new self).after file us = some o)
    (hdeg : ∀ s ∈ firstUse file self us, (attributesAfter self us).max_degree ≤ s.max_degree) :
    let fresh := { attributesAfter self us with
      date := ((firstUse file self us).getD (attributesAfter self us)).date }
    (∀ mode junk points, ∃ o', o.step file (.access (.predict mode junk points)) =
      some (.result (access file fresh none (.predict mode junk points)).1, o')) ∧
    (∀ mode mode' junk x, ∃ o', o.step file (.access (.grid mode mode' junk x)) =
      some (.result (access file fresh none (.grid mode mode' junk x)).1, o')) ∧
    (∀ r o', o.step file (.access .coefficients) = some (.result (.coefficients r), o') →
      ∀ r', (access file fresh none .coefficients).1 = .coefficients r' →
      (∀ e, r = .error e ↔ r' = .error e) ∧
        ∀ c c', r = .ok c → r' = .ok c' → Agree (attributesAfter self us).max_degree c c') := by
  obtain ⟨hk, ha⟩ := after_kept (o := Obj.new self) us hw rfl h
  change Kept file (firstUse file self us) o at hk
  change o.attrs = attributesAfter self us at ha
  dsimp only
  generalize attributesAfter self us = A at ha hdeg
  cases hf : firstUse file self us with
  | none =>
    rw [hf] at hk
    have hc : o.coeffs = none := hk
    simp only [Option.getD_none]
    unfold access predict grid coefficients Obj.step Obj.load
    rw [hc, ha]
    dsimp only
    cases hI : file.bind (interpolateCoefficients A.date A.max_degree) with
    | error e =>
      refine ⟨fun _ _ _ => ⟨_, rfl⟩, fun _ _ _ _ => ⟨_, rfl⟩, ?_⟩
      intro r o' h1 r' h2
      cases h1; cases h2
      exact ⟨fun e => Iff.rfl, (fun c c' h => by cases h)⟩
    | ok c =>
      dsimp only
      refine ⟨fun _ _ _ => ⟨⟨A, some (A.max_degree, c)⟩, by rw [if_neg (by omega)]; rfl⟩,
        fun _ _ _ _ => ⟨⟨A, some (A.max_degree, c)⟩, by rw [if_neg (by omega)]; rfl⟩, ?_⟩
      intro r o' h1 r' h2
      cases h1; cases h2
      refine ⟨fun e => Iff.rfl, fun c c' h h' => ?_⟩
      cases h; cases h'
      exact fun n m _ _ => ⟨rfl, rfl⟩
  | some s =>
    rw [hf] at hk
    obtain ⟨c, hI, hc⟩ := hk
    have hd := hdeg s (by rw [hf]; rfl)
    have hI' : ∃ c', file.bind (interpolateCoefficients s.date A.max_degree) = .ok c' ∧ Agree A.max_degree c c' := by
      cases file with
      | error e => cases hI
      | ok T => exact interpolate_lower hd hI
    obtain ⟨c', hI', hag⟩ := hI'
    simp only [Option.getD_some]
    unfold access predict grid coefficients Obj.step
    rw [load_some hc]
    dsimp only
    rw [hI']
    dsimp only
    refine ⟨fun mode junk points => ⟨o, ?_⟩, fun mode mode' junk x => ⟨o, ?_⟩, ?_⟩
    · rw [if_neg (by rw [ha]; omega), ha, predictWith_congr mode junk A hag]
      rfl
    · rw [if_neg (by rw [ha]; omega), ha, gridWith_congr mode mode' junk A hag]
      rfl
    · intro r o' h1 r' h2
      cases h1; cases h2
      refine ⟨(fun e => ⟨fun h => (by cases h), fun h => (by cases h)⟩), fun c1 c2 h h' => ?_⟩
      cases h; cases h'
      exact hag

/-- C139. `predict` and `grid` return what a new object with the present attributes returns, after every history in
which, since the first use, the date was left as it was, the maximum degree was not raised and nothing was written to
the arrays of coefficients. Missing: those three (`C139_not_full`). -/
theorem C139_assignments_partial (file : Py Table) (self : Igrf) (us : List Use) (o : Obj)
    (hw : ∀ u ∈ us, u.writes = false) (h : (Obj.new self).after file us = some o)
    (hdate : ∀ s ∈ firstUse file self us, (attributesAfter self us).date = s.date)
    (hdeg : ∀ s ∈ firstUse file self us, (attributesAfter self us).max_degree ≤ s.max_degree) :
    (∀ mode junk points, ∃ o', o.step file (.access (.predict mode junk points)) =
      some (.result (access file (attributesAfter self us) none (.predict mode junk points)).1, o')) ∧
    (∀ mode mode' junk x, ∃ o', o.step file (.access (.grid mode mode' junk x)) =
      some (.result (access file (attributesAfter self us) none (.grid mode mode' junk x)).1, o')) := by
  have := C139_history file self us o hw h hdeg
  dsimp only at this
  have e : ((firstUse file self us).getD (attributesAfter self us)).date = (attributesAfter self us).date := by
    cases hf : firstUse file self us with
    | none => rfl
    | some s => exact (hdate s (by rw [hf]; rfl)).symm
  rw [e] at this
  exact ⟨this.1, this.2.1⟩

/-- The degree of the arrays of coefficients of an object: that of the first use, or the present one. -/
def Obj.degree (o : Obj) : ℕ := (o.coeffs.map Prod.fst).getD o.attrs.max_degree

/-- C139. What a value written to an array of coefficients changes: only that element of that array, in what
`coefficients` returns afterwards; `predict` and `grid` use the arrays as they are then; a write outside of the arrays
raises IndexError and changes nothing; the attributes stay the same. -/
theorem C139_write (file : Py Table) (o o1 o2 : Obj) (isG : Bool) (n m : ℕ) (v : ℝ) (g h : Arr) (r : Py Unit)
    (hc : o.step file (.access .coefficients) = some (.result (.coefficients (.ok (g, h))), o1))
    (hw : o.step file (.write isG n m v) = some (.assigned r, o2)) :
    o2.attrs = o.attrs ∧ (r = .ok () ↔ n ≤ o.degree ∧ m ≤ o.degree) ∧
    (r ≠ .ok () → r = .error .IndexError) ∧
    ∃ g' h', (∃ o3, o2.step file (.access .coefficients) = some (.result (.coefficients (.ok (g', h'))), o3)) ∧
      (∀ i j, g' i j = if r = .ok () ∧ isG = true ∧ i = n ∧ j = m then v else g i j) ∧
      (∀ i j, h' i j = if r = .ok () ∧ isG = false ∧ i = n ∧ j = m then v else h i j) ∧
      (o.attrs.max_degree ≤ o.degree →
        (∀ mode junk points, ∃ o3, o2.step file (.access (.predict mode junk points)) =
          some (.result (access file o.attrs (some (g', h')) (.predict mode junk points)).1, o3)) ∧
        ∀ mode mode' junk x, ∃ o3, o2.step file (.access (.grid mode mode' junk x)) =
          some (.result (access file o.attrs (some (g', h')) (.grid mode mode' junk x)).1, o3)) := by
  obtain ⟨N, hN, hl⟩ : ∃ N, N = o.degree ∧ o.load file = (.ok (N, (g, h)), { o with coeffs := some (N, (g, h)) }) := by
    unfold Obj.step at hc
    unfold Obj.degree
    rcases o with ⟨attrs, _ | ⟨N, c⟩⟩
    · unfold Obj.load at hc ⊢
      dsimp only at hc ⊢
      cases hf : file.bind (interpolateCoefficients attrs.date attrs.max_degree) with
      | error e => rw [hf] at hc; simp at hc
      | ok c =>
        rw [hf] at hc
        simp only [Option.some.injEq, Prod.mk.injEq, Reply.result.injEq, Result.coefficients.injEq,
          Except.ok.injEq] at hc
        obtain ⟨rfl, -⟩ := hc
        exact ⟨attrs.max_degree, rfl, rfl⟩
    · unfold Obj.load at hc ⊢
      simp only [Option.some.injEq, Prod.mk.injEq, Reply.result.injEq, Result.coefficients.injEq,
          Except.ok.injEq] at hc
      obtain ⟨rfl, -⟩ := hc
      exact ⟨N, rfl, rfl⟩
  rw [← hN]
  have fin : ∀ g' h', (∃ o3, ({ o with coeffs := some (N, (g', h')) } : Obj).step file (.access .coefficients) =
        some (.result (.coefficients (.ok (g', h'))), o3)) ∧
      (o.attrs.max_degree ≤ N →
        (∀ mode junk points, ∃ o3, ({ o with coeffs := some (N, (g', h')) } : Obj).step file
          (.access (.predict mode junk points)) =
          some (.result (access file o.attrs (some (g', h')) (.predict mode junk points)).1, o3)) ∧
        ∀ mode mode' junk x, ∃ o3, ({ o with coeffs := some (N, (g', h')) } : Obj).step file
          (.access (.grid mode mode' junk x)) =
          some (.result (access file o.attrs (some (g', h')) (.grid mode mode' junk x)).1, o3)) := by
    intro g' h'
    refine ⟨⟨_, rfl⟩, fun hd => ⟨fun mode junk points => ?_, fun mode mode' junk x => ?_⟩⟩
    · refine ⟨{ o with coeffs := some (N, (g', h')) }, ?_⟩
      simp only [Obj.step, Obj.load, if_neg (not_lt.2 hd)]
      rfl
    · refine ⟨{ o with coeffs := some (N, (g', h')) }, ?_⟩
      simp only [Obj.step, Obj.load, if_neg (not_lt.2 hd)]
      rfl
  simp only [Obj.step, hl] at hw
  by_cases hin : n ≤ N ∧ m ≤ N
  · rw [if_pos hin] at hw
    simp only [Option.some.injEq, Prod.mk.injEq, Reply.assigned.injEq] at hw
    obtain ⟨rfl, rfl⟩ := hw
    refine ⟨rfl, by simp [hin], by simp, ?_⟩
    cases isG
    · refine ⟨g, upd h n m v, (fin _ _).1, ?_, ?_, (fin _ _).2⟩
      · intro i j; simp
      · intro i j; simp [upd]
    · refine ⟨upd g n m v, h, (fin _ _).1, ?_, ?_, (fin _ _).2⟩
      · intro i j; simp [upd]
      · intro i j; simp
  · rw [if_neg hin] at hw
    simp only [Option.some.injEq, Prod.mk.injEq, Reply.assigned.injEq] at hw
    obtain ⟨rfl, rfl⟩ := hw
    refine ⟨rfl, by simp [hin], fun _ => rfl, g, h, (fin _ _).1, ?_, ?_, (fin _ _).2⟩
    · intro i j; simp
    · intro i j; simp

/-- C139. A grid made after the date was assigned to an object that was used before: the numbers are those of
every other date, and the dataset says that they are of the new date. -/
theorem C139_label {H : Type} (gc : GridArgs → H → Py Grid) (names : Names) (mode mode' : Mode) (junk : Junk)
    (file : Py Table) (self : Igrf) (c : Arr × Arr) (args : GridArgs) (height : H) (d d' : Date)
    (ds : GridDataset)
    (h : (gridCall gc names mode mode' junk file { self with date := d } (some c) args height).1 = .ok ds) :
    ∃ ds', (gridCall gc names mode mode' junk file { self with date := d' } (some c) args height).1 = .ok ds' ∧
      ds'.at = ds.at ∧ ds.attrs.get "date" = some (.str (names.isoformat d)) ∧
      ds'.attrs.get "date" = some (.str (names.isoformat d')) := by
  have key : ∀ d : Date, (gridCall gc names mode mode' junk file { self with date := d } (some c) args height).1 =
      (gc (args.complete self.max_degree) height).bind fun x =>
        (gridWith mode mode' junk self c x).bind fun b => .ok (makeDataset names d x b) := by
    intro d
    unfold gridCall
    cases hg : gc (args.complete self.max_degree) height with
    | error e => rfl
    | ok x =>
      change Except.map _ (gridWith mode mode' junk { self with date := d } c x) = _
      have : gridWith mode mode' junk { self with date := d } c x = gridWith mode mode' junk self c x := rfl
      rw [this]
      change _ = Except.bind (gridWith mode mode' junk self c x) _
      cases gridWith mode mode' junk self c x <;> rfl
  rw [key] at h
  cases hg : gc (args.complete self.max_degree) height with
  | error e => rw [hg] at h; cases h
  | ok x =>
    rw [hg] at h
    cases hb : gridWith mode mode' junk self c x with
    | error e => change Except.bind (gridWith mode mode' junk self c x) _ = _ at h; rw [hb] at h; cases h
    | ok b =>
      change Except.bind (gridWith mode mode' junk self c x) _ = _ at h
      rw [hb] at h
      cases h
      refine ⟨makeDataset names d' x b, ?_, rfl, ?_, ?_⟩
      · rw [key, hg]
        change Except.bind (gridWith mode mode' junk self c x) _ = _
        rw [hb]
        rfl
      · simp [makeDataset, Attrs.get]
      · simp [makeDataset, Attrs.get]

/-! ### what is missing -/

/-- A spherical Earth. -/
def sphere : Ellipsoid := ⟨fun lat _ => lat, fun _ _ => 6371.2e3⟩

/-- The start of 1900 and of 1905. -/
def start1900 : Date := ⟨1900, 0, false⟩
def start1905 : Date := ⟨1905, 0, false⟩

theorem pole_predict (junk : Junk) (d : Date) (c : Arr × Arr) (h1 : c.1 1 1 = 0) (h2 : c.2 1 0 = 0)
    (h3 : c.2 1 1 = 0) : ∃ e n, predictWith .serial junk ⟨d, 1, 1, sphere⟩ c [(0, 90, 0)] =
      .ok [(e, n, 2 * c.1 1 0)] := by
  rw [C57_predict .serial junk ⟨d, 1, 1, sphere⟩ c _ le_rfl trivial (by
    intro x hx
    rw [List.mem_singleton] at hx
    subst hx
    simp only [sphere]
    norm_num)]
  simp only [List.map_cons, List.map_nil]
  have up : ∀ v : V3, v.2.2 = 2 * c.1 1 0 → ∃ e n : ℝ, (Except.ok [v] : Py (List V3)) = .ok [(e, n, 2 * c.1 1 0)] :=
    fun v hv => ⟨v.1, v.2.1, by rw [← hv]⟩
  refine up _ ?_
  simp only [vectorSphericalToGeodetic, sphere, field, bRadial, degreeSum_one, h1, h2, h3, schmidtP_one_zero,
    radians]
  norm_num

theorem small_epoch (i : ℕ) (hi : i < 2) (N : ℕ) (hN : 1 ≤ N) (hN' : N ≤ 13) :
    ∃ c, interpolateCoefficients ⟨1900 + 5 * (i : ℤ), 0, false⟩ N small = .ok c ∧
      c.1 1 0 = (if i = 0 then -31543 else -31464) ∧ c.1 1 1 = 0 ∧ c.2 1 0 = 0 ∧ c.2 1 1 = 0 := by
  obtain ⟨G, H, h, v⟩ := C56_epoch small_regular i hi N hN'
  have a := (v 1 0).1 le_rfl hN (by norm_num)
  have b := (v 1 1).1 le_rfl hN le_rfl
  refine ⟨(G, H), h, ?_, ?_, ?_, ?_⟩
  · change G 1 0 = _
    rw [a.1]; simp [small]
  · change G 1 1 = _
    rw [b.1]; simp [small]
  · change H 1 0 = _
    rw [a.2]; simp [small]
  · change H 1 1 = _
    rw [b.2]; simp [small]

/-- C139 does not hold in full: an object used at 1900 and then given the date 1905 goes on returning the field of
1900, which is another one; if its maximum degree is raised after the first use, the compiled loops access memory
outside their arrays, while a new object returns; and a value written to an array of coefficients changes what
`predict` returns. -/
theorem C139_not_full (junk : Junk) :
    let use : Use := .access (.predict .serial junk [(0, 90, 0)])
    let at1900 : Igrf := ⟨start1900, 1, 1, sphere⟩
    let at1905 : Igrf := ⟨start1905, 1, 1, sphere⟩
    (∃ e n e' n' o o', (Obj.new at1900).after (.ok small) [use, .setDate start1905] = some o ∧ o.attrs = at1905 ∧
      o.step (.ok small) use = some (.result (.predict (.ok [(e, n, -63086)])), o') ∧
      (access (.ok small) at1905 none (.predict .serial junk [(0, 90, 0)])).1 =
        .predict (.ok [(e', n', -62928)])) ∧
    (∃ o b, (Obj.new at1900).after (.ok small) [use, .setMaxDegree 2] = some o ∧
      o.attrs = { at1900 with max_degree := 2 } ∧ o.step (.ok small) use = none ∧
      (access (.ok small) { at1900 with max_degree := 2 } none (.predict .serial junk [(0, 90, 0)])).1 =
        .predict (.ok b)) ∧
    (∃ e n o o', (Obj.new at1900).after (.ok small) [.write true 1 0 7] = some o ∧ o.attrs = at1900 ∧
      o.step (.ok small) use = some (.result (.predict (.ok [(e, n, 14)])), o')) := by
  dsimp only
  obtain ⟨c0, hc0, a0, b0, d0, f0⟩ := small_epoch 0 (by norm_num) 1 le_rfl (by norm_num)
  obtain ⟨c1, hc1, a1, b1, d1, f1⟩ := small_epoch 1 (by norm_num) 1 le_rfl (by norm_num)
  obtain ⟨c2, hc2, -, -, -, -⟩ := small_epoch 0 (by norm_num) 2 (by norm_num) (by norm_num)
  have i0 : (Except.ok small : Py Table).bind (interpolateCoefficients start1900 1) = .ok c0 := by
    rw [← hc0]; rfl
  have i1 : (Except.ok small : Py Table).bind (interpolateCoefficients start1905 1) = .ok c1 := by
    rw [← hc1]; rfl
  have i2 : (Except.ok small : Py Table).bind (interpolateCoefficients start1900 2) = .ok c2 := by
    rw [← hc2]; rfl
  have l0 : (Obj.new ⟨start1900, 1, 1, sphere⟩).load (.ok small) =
      (.ok (1, c0), ⟨⟨start1900, 1, 1, sphere⟩, some (1, c0)⟩) := by
    unfold Obj.load Obj.new
    dsimp only
    rw [i0]
  have s0 : (Obj.new ⟨start1900, 1, 1, sphere⟩).step (.ok small) (.access (.predict .serial junk [(0, 90, 0)])) =
      some (.result (.predict (predictWith .serial junk ⟨start1900, 1, 1, sphere⟩ c0 [(0, 90, 0)])),
        ⟨⟨start1900, 1, 1, sphere⟩, some (1, c0)⟩) := by
    unfold Obj.step
    rw [l0]
    dsimp only
    rw [if_neg (by norm_num)]
  refine ⟨?_, ?_, ?_⟩
  · obtain ⟨e, n, hp⟩ := pole_predict junk start1905 c0 b0 d0 f0
    obtain ⟨e', n', hp'⟩ := pole_predict junk start1905 c1 b1 d1 f1
    refine ⟨e, n, e', n', ⟨⟨start1905, 1, 1, sphere⟩, some (1, c0)⟩, ⟨⟨start1905, 1, 1, sphere⟩, some (1, c0)⟩,
      ?_, rfl, ?_, ?_⟩
    · unfold Obj.after
      rw [s0]
      rfl
    · change (if 1 > 1 then none else some (Reply.result (Result.predict (predictWith .serial junk
        ⟨start1905, 1, 1, sphere⟩ c0 [(0, 90, 0)])), _)) = _
      rw [if_neg (by norm_num), hp, a0]
      norm_num
    · unfold access predict coefficients
      dsimp only
      rw [i1]
      change Result.predict (predictWith .serial junk ⟨start1905, 1, 1, sphere⟩ c1 [(0, 90, 0)]) = _
      rw [hp', a1]
      norm_num
  · obtain ⟨b, hb⟩ : ∃ b, predictWith .serial junk ⟨start1900, 1, 2, sphere⟩ c2 [(0, 90, 0)] = .ok b :=
      ⟨_, C57_predict .serial junk ⟨start1900, 1, 2, sphere⟩ c2 _ (by norm_num) trivial (by
        intro x hx
        rw [List.mem_singleton] at hx
        subst hx
        simp only [sphere]
        norm_num)⟩
    refine ⟨⟨⟨start1900, 1, 2, sphere⟩, some (1, c0)⟩, b, ?_, rfl, ?_, ?_⟩
    rotate_right
    · unfold access predict coefficients
      dsimp only
      rw [i2]
      change Result.predict (predictWith .serial junk ⟨start1900, 1, 2, sphere⟩ c2 [(0, 90, 0)]) = _
      rw [hb]
    · unfold Obj.after
      rw [s0]
      rfl
    · change (if 2 > 1 then none else some (Reply.result (Result.predict (predictWith .serial junk
        ⟨start1900, 1, 2, sphere⟩ c0 [(0, 90, 0)])), (⟨⟨start1900, 1, 2, sphere⟩, some (1, c0)⟩ : Obj))) = _
      rw [if_pos (by norm_num)]
  · obtain ⟨e, n, hp⟩ := pole_predict junk start1900 (upd c0.1 1 0 7, c0.2) (by simpa [upd] using b0) d0 f0
    refine ⟨e, n, ⟨⟨start1900, 1, 1, sphere⟩, some (1, (upd c0.1 1 0 7, c0.2))⟩,
      ⟨⟨start1900, 1, 1, sphere⟩, some (1, (upd c0.1 1 0 7, c0.2))⟩, ?_, rfl, ?_⟩
    · unfold Obj.after Obj.step
      rw [l0]
      dsimp only
      rw [if_pos ⟨le_rfl, by norm_num⟩]
      rfl
    · change (if 1 > 1 then none else some (Reply.result (Result.predict (predictWith .serial junk
        ⟨start1900, 1, 1, sphere⟩ (upd c0.1 1 0 7, c0.2) [(0, 90, 0)])), _)) = _
      rw [if_neg (by norm_num), hp]
      have : upd c0.1 1 0 7 1 0 = 7 := by simp [upd]
      simp only [this]
      norm_num

/-- The hypotheses of `C139_assignments_partial` are met by a history that uses the object, lowers its maximum degree
and assigns its minimum degree and ellipsoid; before the first use the date is assigned too. -/
example (junk : Junk) (e : Ellipsoid) :
    let self : Igrf := ⟨⟨1800, 0, false⟩, 1, 1, sphere⟩
    let us : List Use := [.access .coefficients, .setDate start1900, .setMaxDegree 2, .access .coefficients,
      .setMaxDegree 1, .setMinDegree 0, .setEllipsoid e, .access (.predict .serial junk [])]
    (∃ o, (Obj.new self).after (.ok small) us = some o) ∧ (∀ u ∈ us, u.writes = false) ∧
      attributesAfter self us = ⟨start1900, 0, 1, e⟩ ∧
      firstUse (.ok small) self us = some ⟨start1900, 1, 2, sphere⟩ := by
  dsimp only
  obtain ⟨c2, hc2, -, -, -, -⟩ := small_epoch 0 (by norm_num) 2 (by norm_num) (by norm_num)
  have i2 : (Except.ok small : Py Table).bind (interpolateCoefficients start1900 2) = .ok c2 := by
    rw [← hc2]; rfl
  have i0 : (Except.ok small : Py Table).bind (interpolateCoefficients ⟨1800, 0, false⟩ 1) = .error .ValueError := by
    rfl
  refine ⟨⟨⟨⟨start1900, 0, 1, e⟩, some (2, c2)⟩, ?_⟩, ?_, rfl, ?_⟩
  · have l0 : ∀ a : Igrf, a.date = ⟨1800, 0, false⟩ → a.max_degree = 1 →
        (⟨a, none⟩ : Obj).step (.ok small) (.access .coefficients) =
          some (.result (.coefficients (.error .ValueError)), ⟨a, none⟩) := by
      intro a h1 h2
      unfold Obj.step Obj.load
      dsimp only
      rw [h1, h2, i0]
    have l2 : (⟨⟨start1900, 1, 2, sphere⟩, none⟩ : Obj).step (.ok small) (.access .coefficients) =
        some (.result (.coefficients (.ok c2)), ⟨⟨start1900, 1, 2, sphere⟩, some (2, c2)⟩) := by
      unfold Obj.step Obj.load
      dsimp only
      rw [i2]
    have cons : ∀ {o o' : Obj} {u : Use} {us : List Use} {r : Reply}, o.step (.ok small) u = some (r, o') →
        o.after (.ok small) (u :: us) = o'.after (.ok small) us := by
      intro o o' u us r h
      rw [Obj.after, h]
    unfold Obj.new
    rw [cons (l0 ⟨⟨1800, 0, false⟩, 1, 1, sphere⟩ rfl rfl), cons rfl, cons rfl, cons l2, cons rfl, cons rfl, cons rfl,
      cons rfl]
    rfl
  · simp [Use.writes]
  · unfold firstUse
    rw [if_neg]
    · unfold firstUse
      rw [if_neg (by simp [Use.needs])]
      unfold firstUse
      rw [if_neg (by simp [Use.needs])]
      unfold firstUse
      rw [if_pos ⟨rfl, c2, i2⟩]
      rfl
    · rintro ⟨-, c, hc⟩
      cases hc

/-- Writes inside and outside of arrays of degree one (`C139_write`). -/
example (g h : Arr) :
    let o : Obj := ⟨⟨start1900, 1, 1, sphere⟩, some (1, (g, h))⟩
    o.step (.ok small) (.access .coefficients) = some (.result (.coefficients (.ok (g, h))), o) ∧
    (∃ o2, o.step (.ok small) (.write false 1 1 7) = some (.assigned (.ok ()), o2)) ∧
    ∃ o2, o.step (.ok small) (.write true 2 0 7) = some (.assigned (.error .IndexError), o2) :=
  ⟨rfl, ⟨_, rfl⟩, ⟨_, rfl⟩⟩

end

end Verif.Igrf
