import Verif.EqSources.ModelB
import Verif.EqSources.PropsB

/-!
C137: the predictions after a `fit` do not change when the program goes on using, and writing into,
the arrays that it passed to `fit`.
-/

namespace Verif.EqSources
open Verif.Forward Verif.Engine Verif.Distance

/-! ### Specification -/

/-- The program makes new arrays and writes into arrays it holds, and does not call `fit`. -/
def NoFit {α : Type} (later : List (Event α)) : Prop :=
  ∀ how c d w, Event.fit how c d w ∉ later

/-- The arrays that are passed to `fit` of an `EquivalentSourcesSph` and that hold the longitudes and
latitudes of its sources, or all their coordinates if the sources are given as `points`. -/
def lent (points : Option Addr3) (coordinates : Addr3) : List ℕ :=
  match points with
  | none => [coordinates.1, coordinates.2.1]
  | some p => [p.1, p.2.1, p.2.2]

/-! ### Lemmas -/

theorem content_append (m : Mem) (x : MemArr) (a : ℕ) (h : a < m.length) :
    Mem.content (m ++ [x]) a = m.content a := by
  unfold Mem.content
  rw [List.getElem?_append_left h]

theorem content_set (m : Mem) (x : MemArr) (a b : ℕ) (h : b ≠ a) :
    Mem.content (m.set b x) a = m.content a := by
  unfold Mem.content
  rw [List.getElem?_set_ne h]

theorem new_content (m : Mem) (d : DType) (l : List ℝ) :
    Mem.content (m.new d l).1 (m.new d l).2 = ⟨d, [l.length], l⟩ := by
  simp [Mem.content, Mem.new]

theorem new_length (m : Mem) (d : DType) (l : List ℝ) : (m.new d l).1.length = m.length + 1 := by
  simp [Mem.new]

theorem new_other (m : Mem) (d : DType) (l : List ℝ) (a : ℕ) (h : a < m.length) :
    Mem.content (m.new d l).1 a = m.content a := content_append m _ a h

/-- later events keep the arrays that are hidden from the program or that it does not write to -/
theorem later_content {α : Type}
    (f : α → Mem → Addr3 → CArr → Option CArr → MemObj → Mem × MemObj × Py Unit)
    (later : List (Event α)) (hl : NoFit later) (w : World) :
    (later.foldl (World.step f) w).obj = w.obj ∧
    ∀ a, a < w.mem.length → (a ∈ w.hidden ∨ ∀ x, Event.write a x ∉ later) →
      (later.foldl (World.step f) w).mem.content a = w.mem.content a := by
  induction later generalizing w with
  | nil => exact ⟨rfl, fun _ _ _ => rfl⟩
  | cons ev later ih =>
    have hl' : NoFit later := fun how c d wt h => hl how c d wt (List.mem_cons_of_mem _ h)
    rw [List.foldl_cons]
    cases ev with
    | fit how c d wt => exact absurd List.mem_cons_self (hl how c d wt)
    | new x =>
      obtain ⟨h1, h2⟩ := ih hl' (World.step f w (.new x))
      refine ⟨h1, fun a ha hs => ?_⟩
      rw [h2 a (by simp only [World.step, List.length_append]; omega)
        (hs.imp id fun h y hy => h y (List.mem_cons_of_mem _ hy))]
      exact content_append w.mem x a ha
    | write b x =>
      obtain ⟨h1, h2⟩ := ih hl' (World.step f w (.write b x))
      simp only [World.step] at h1 h2 ⊢
      by_cases hb : b ∈ w.hidden
      · simp only [if_pos hb] at h1 h2 ⊢
        exact ⟨h1, fun a ha hs => h2 a ha (hs.imp id fun h y hy => h y (List.mem_cons_of_mem _ hy))⟩
      · simp only [if_neg hb] at h1 h2 ⊢
        refine ⟨h1, fun a ha hs => ?_⟩
        rw [h2 a (by rw [List.length_set]; exact ha)
          (hs.imp id fun h y hy => h y (List.mem_cons_of_mem _ hy))]
        refine content_set w.mem x a b fun hba => ?_
        subst hba
        rcases hs with hs | hs
        · exact hb hs
        · exact hs x List.mem_cons_self

/-- predictions after new arrays have been stored and the program has gone on -/
theorem copies_later {α : Type}
    (f : α → Mem → Addr3 → CArr → Option CArr → MemObj → Mem × MemObj × Py Unit)
    (how : α) (c : Addr3) (d : CArr) (wt : Option CArr) (w : World) (dt : DType)
    (run : State → State × Py Unit)
    (hf : f how w.mem c d wt w.obj = storeCopies w.mem dt run w.obj)
    (p : Arrs) (hrun : (run { w.obj.attrs with points_ := none }).1.points_ = some p)
    (later : List (Event α)) (hl : NoFit later) :
    let w' := later.foldl (World.step f) (World.step f w (.fit how c d wt))
    (w'.obj.state w'.mem).points_ = some p ∧
      (w'.obj.state w'.mem).coefs_ = (run { w.obj.attrs with points_ := none }).1.coefs_ := by
  intro w'
  obtain ⟨h1, h2⟩ := later_content f later hl (World.step f w (.fit how c d wt))
  have hstep : World.step f w (.fit how c d wt) =
      ⟨(storeCopies w.mem dt run w.obj).1, (storeCopies w.mem dt run w.obj).2.1,
        w.hidden ++ (List.range (storeCopies w.mem dt run w.obj).1.length).filter
          fun i => w.mem.length ≤ i⟩ := by
    simp only [World.step, hf]
  unfold storeCopies at hstep
  simp only [hrun] at hstep
  have hc : ∀ a, w.mem.length ≤ a → a < w.mem.length + 3 →
      w'.mem.content a = (World.step f w (.fit how c d wt)).mem.content a := by
    intro a ha1 ha2
    refine h2 a ?_ (.inl ?_)
    · rw [hstep]; simp only [new_length]; omega
    · rw [hstep]
      simp only [List.mem_append, List.mem_filter, List.mem_range, new_length,
        decide_eq_true_eq]
      right; omega
  have hobj : w'.obj = (World.step f w (.fit how c d wt)).obj := h1
  change (w'.obj.state w'.mem).points_ = _ ∧ (w'.obj.state w'.mem).coefs_ = _
  refine ⟨?_, ?_⟩
  · unfold MemObj.state
    rw [hobj]
    have e1 := hc w.mem.length (by omega) (by omega)
    have e2 := hc (w.mem.length + 1) (by omega) (by omega)
    have e3 := hc (w.mem.length + 2) (by omega) (by omega)
    rw [hstep] at e1 e2 e3 ⊢
    simp only [Option.map_some, Mem.contents, n1dArrays]
    simp only [Mem.new, List.length_append, List.length_cons, List.length_nil] at e1 e2 e3 ⊢
    rw [show w.mem.length + (0 + 1) + (0 + 1) = w.mem.length + 2 by omega,
      show w.mem.length + (0 + 1) = w.mem.length + 1 by omega, e1, e2, e3]
    simp [Mem.content]
  · unfold MemObj.state
    rw [hobj, hstep]

theorem storeCopies_outcome (m : Mem) (d : DType) (f : State → State × Py Unit) (o : MemObj) :
    (storeCopies m d f o).2.2 = (f { o.attrs with points_ := none }).2 := by
  unfold storeCopies
  simp only
  split <;> rfl

/-! ### C137 -/

/-- C137 for `EquivalentSources`: after a `fit` that returned, whatever the program writes into its
arrays (those passed to `fit` and those of `points` too), the predictions are those of the sources
fitted to the arrays as they were at the call. -/
theorem C137_cartesian (env : Env) (junk : Junk) (P : Params) (points : Option Addr3) (w : World)
    (mode : Mode) (c : Addr3) (data : CArr) (weights : Option CArr)
    (hok : (fitMem env junk mode P points w.mem c data weights w.obj).2.2 = .ok ())
    (later : List (Event Mode)) (hl : NoFit later) (mode' : Mode) (q : Coords) :
    let method := fun mode m => fitMem env junk mode P points m
    let w' := later.foldl (World.step method) (World.step method w (.fit mode c data weights))
    predictMem junk mode' P w'.mem w'.obj q =
      predict junk mode' P q (fit env junk mode { P with points := points.map w.mem.contents }
        (w.mem.contents c) data weights {}).1 := by
  intro method w'
  unfold fitMem at hok
  rw [storeCopies_outcome] at hok
  obtain ⟨region, d, p, coefs, -, -, -, -, -, h⟩ :=
    fit_ok env junk mode _ _ data weights _ _ (Prod.ext rfl hok)
  obtain ⟨h1, h2⟩ := copies_later method mode c data weights w P.dtype _ rfl p
    (by rw [h]) later hl
  unfold predictMem predict
  change (match (w'.obj.state w'.mem).coefs_, (w'.obj.state w'.mem).points_ with
    | some coefs, some points => _
    | none, _ => _
    | some _, none => _) = _
  rw [h1, h2]
  simp only [h]

/-- C137 for `EquivalentSourcesGB`, for every order of the windows and every schedule of the
loops. -/
theorem C137_gradient_boosted (env : Env) (junk : Junk) (P : Params) (points : Option Addr3)
    (w : World) (perm : ℕ → List ℕ) (modes : ℕ → Mode × Mode) (c : Addr3) (data : CArr)
    (weights : Option CArr)
    (hok : (fitMemGB env junk perm modes P points w.mem c data weights w.obj).2.2 = .ok ())
    (later : List (Event ((ℕ → List ℕ) × (ℕ → Mode × Mode)))) (hl : NoFit later) (mode' : Mode)
    (q : Coords) :
    let method := fun (how : (ℕ → List ℕ) × (ℕ → Mode × Mode)) m =>
      fitMemGB env junk how.1 how.2 P points m
    let w' := later.foldl (World.step method) (World.step method w (.fit (perm, modes) c data weights))
    predictMem junk mode' P w'.mem w'.obj q =
      predict junk mode' P q (fitGB env junk perm modes { P with points := points.map w.mem.contents }
        (w.mem.contents c) data weights { w.obj.attrs with points_ := none }).1 := by
  intro method w'
  unfold fitMemGB at hok
  rw [storeCopies_outcome] at hok
  obtain ⟨_, _, p, _, _, _, _, -, -, -, -, -, -, h, -⟩ :=
    fitGB_ok env junk perm modes _ _ data weights _ _ (Prod.ext rfl hok)
  obtain ⟨h1, h2⟩ := copies_later method (perm, modes) c data weights w P.dtype _ rfl p h later hl
  unfold predictMem predict
  change (match (w'.obj.state w'.mem).coefs_, (w'.obj.state w'.mem).points_ with
    | some coefs, some points => _
    | none, _ => _
    | some _, none => _) = _
  rw [h1, h2, h]
  rfl

/-! ### spherical -/

theorem ravel_content (m : Mem) (a : ℕ) :
    (Mem.content (m.ravel a).1 (m.ravel a).2).data = (m.content a).data := by
  unfold Mem.ravel
  split
  · rfl
  · rw [new_content]

theorem ravel_other (m : Mem) (a b : ℕ) (h : b < m.length) :
    Mem.content (m.ravel a).1 b = m.content b := by
  unfold Mem.ravel
  split
  · rfl
  · exact new_other m _ _ b h

theorem ravel_le (m : Mem) (a : ℕ) : m.length ≤ (m.ravel a).1.length := by
  unfold Mem.ravel
  split
  · exact le_refl _
  · rw [new_length]; omega

/-- a raveled array is in memory, and it is a new array unless it is the array itself -/
theorem ravel_addr (m : Mem) (a : ℕ) (h : a < m.length) :
    (m.ravel a).2 < (m.ravel a).1.length ∧
      (m.length ≤ (m.ravel a).2 ∨
        (m.ravel a).2 = a ∧ ∀ y, m[a]? = some y → y.contiguous = true) := by
  unfold Mem.ravel
  split
  case isTrue hc =>
    refine ⟨h, .inr ⟨rfl, fun y hy => ?_⟩⟩
    rw [hy] at hc
    exact hc
  case isFalse =>
    refine ⟨?_, .inl ?_⟩
    · rw [new_length]; simp [Mem.new]
    · simp [Mem.new]

theorem ravel_get (m : Mem) (a b : ℕ) (h : b < m.length) : (m.ravel a).1[b]? = m[b]? := by
  unfold Mem.ravel
  split
  · rfl
  · simp [Mem.new, List.getElem?_append_left h]

/-- the arrays kept by `EquivalentSourcesSph.fit` hold the sources, and each of them is a new array or
a contiguous array of the caller -/
theorem sphKeep_spec (P : SphParams) (points : Option Addr3) (m : Mem) (c : Addr3)
    (hc : c.1 < m.length ∧ c.2.1 < m.length)
    (hp : ∀ p, points = some p → p.1 < m.length ∧ p.2.1 < m.length ∧ p.2.2 < m.length) :
    n1dArrays (Mem.contents (sphKeep P points m c).1 (sphKeep P points m c).2) =
      sphPoints { P with points := points.map m.contents } (n1dArrays (m.contents c)) ∧
    ∀ a, a ∈ [(sphKeep P points m c).2.1, (sphKeep P points m c).2.2.1, (sphKeep P points m c).2.2.2] →
      a < (sphKeep P points m c).1.length ∧
      (m.length ≤ a ∨ a ∈ lent points c ∧ ∀ y, m[a]? = some y → y.contiguous = true) := by
  cases points with
  | none =>
    obtain ⟨hc1, hc2⟩ := hc
    obtain ⟨e1, e2⟩ := ravel_addr m c.1 hc1
    have el := ravel_le m c.1
    obtain ⟨n1, n2⟩ := ravel_addr (m.ravel c.1).1 c.2.1 (lt_of_lt_of_le hc2 el)
    have nl := ravel_le (m.ravel c.1).1 c.2.1
    have ng := ravel_get m c.1 c.2.1 hc2
    simp only [sphKeep, sphPoints, Option.map_none, Mem.contents, n1dArrays, lent]
    refine ⟨?_, ?_⟩
    · rw [new_other _ _ _ _ (lt_of_lt_of_le e1 nl), ravel_other _ _ _ e1, ravel_content,
        new_other _ _ _ _ n1, ravel_content, ravel_other _ _ _ hc2, new_content]
    · intro a ha
      simp only [new_length]
      simp only [List.mem_cons, List.not_mem_nil, or_false] at ha ⊢
      rcases ha with rfl | rfl | rfl
      · refine ⟨by omega, ?_⟩
        rcases e2 with e2 | ⟨e2, e3⟩
        · exact .inl e2
        · exact .inr ⟨.inl e2, by rw [e2]; exact e3⟩
      · refine ⟨by omega, ?_⟩
        rcases n2 with n2 | ⟨n2, n3⟩
        · exact .inl (by omega)
        · exact .inr ⟨.inr n2, by rw [n2, ← ng]; exact n3⟩
      · refine ⟨by simp [Mem.new], .inl ?_⟩
        simp only [Mem.new]; omega
  | some p =>
    obtain ⟨hp1, hp2, hp3⟩ := hp p rfl
    obtain ⟨e1, e2⟩ := ravel_addr m p.1 hp1
    have el := ravel_le m p.1
    obtain ⟨n1, n2⟩ := ravel_addr (m.ravel p.1).1 p.2.1 (lt_of_lt_of_le hp2 el)
    have nl := ravel_le (m.ravel p.1).1 p.2.1
    have ng := ravel_get m p.1 p.2.1 hp2
    obtain ⟨u1, u2⟩ := ravel_addr ((m.ravel p.1).1.ravel p.2.1).1 p.2.2 (by omega)
    have ul := ravel_le ((m.ravel p.1).1.ravel p.2.1).1 p.2.2
    have ug := ravel_get m p.1 p.2.2 hp3
    have ug' := ravel_get (m.ravel p.1).1 p.2.1 p.2.2 (by omega)
    simp only [sphKeep, sphPoints, Option.map_some, Mem.contents, n1dArrays, lent]
    refine ⟨?_, ?_⟩
    · rw [ravel_other _ _ _ (lt_of_lt_of_le e1 nl), ravel_other _ _ _ e1, ravel_content,
        ravel_other _ _ _ n1, ravel_content, ravel_other _ _ _ hp2, ravel_content,
        ravel_other _ _ _ (lt_of_lt_of_le hp3 el), ravel_other _ _ _ hp3]
    · intro a ha
      simp only [List.mem_cons, List.not_mem_nil, or_false] at ha ⊢
      rcases ha with rfl | rfl | rfl
      · refine ⟨by omega, ?_⟩
        rcases e2 with e2 | ⟨e2, e3⟩
        · exact .inl e2
        · exact .inr ⟨.inl e2, by rw [e2]; exact e3⟩
      · refine ⟨by omega, ?_⟩
        rcases n2 with n2 | ⟨n2, n3⟩
        · exact .inl (by omega)
        · exact .inr ⟨.inr (.inl n2), by rw [n2, ← ng]; exact n3⟩
      · refine ⟨by omega, ?_⟩
        rcases u2 with u2 | ⟨u2, u3⟩
        · exact .inl (by omega)
        · exact .inr ⟨.inr (.inr u2), by rw [u2, ← ug, ← ug']; exact u3⟩

/-- C137 for `EquivalentSourcesSph`, as long as the program does not write into contiguous arrays that
it passed as longitude and latitude (or as `points`). Missing: that it may write into those too (see
`C137_spherical_not_full`). -/
theorem C137_spherical_partial (env : Env) (junk : Junk) (P : SphParams) (points : Option Addr3)
    (w : World) (mode : Mode) (c : Addr3) (data : CArr) (weights : Option CArr)
    (hc : c.1 < w.mem.length ∧ c.2.1 < w.mem.length)
    (hp : ∀ p, points = some p → p.1 < w.mem.length ∧ p.2.1 < w.mem.length ∧ p.2.2 < w.mem.length)
    (hok : (fitMemSph env junk mode P points w.mem c data weights w.obj).2.2 = .ok ())
    (later : List (Event Mode)) (hl : NoFit later)
    (hw : ∀ a x, Event.write a x ∈ later → a ∈ lent points c →
      ∃ y, w.mem[a]? = some y ∧ y.contiguous = false) (mode' : Mode) (q : Coords) :
    let method := fun mode m => fitMemSph env junk mode P points m
    let w' := later.foldl (World.step method) (World.step method w (.fit mode c data weights))
    predictMemSph junk mode' w'.mem w'.obj q =
      predictSph junk mode' q (fitSph env junk mode { P with points := points.map w.mem.contents }
        (w.mem.contents c) data weights {}).1 := by
  intro method w'
  have hok' : (fitSph env junk mode { P with points := points.map w.mem.contents }
      (w.mem.contents c) data weights { w.obj.attrs with points_ := none }).2 = .ok () := by
    rw [← hok]
    unfold fitMemSph
    simp only
    split <;> rfl
  obtain ⟨region, coefs, -, -, -, h⟩ :=
    fitSph_ok env junk mode _ _ data weights _ _ (Prod.ext rfl hok')
  obtain ⟨k1, k2⟩ := sphKeep_spec P points w.mem c hc hp
  obtain ⟨h1, h2⟩ := later_content method later hl (World.step method w (.fit mode c data weights))
  have hstep : World.step method w (.fit mode c data weights) =
      ⟨(sphKeep P points w.mem c).1, ⟨{ (fitSph env junk mode { P with points := points.map w.mem.contents }
        (w.mem.contents c) data weights { w.obj.attrs with points_ := none }).1 with points_ := none },
        some (sphKeep P points w.mem c).2⟩,
        w.hidden ++ (List.range (sphKeep P points w.mem c).1.length).filter
          fun i => w.mem.length ≤ i⟩ := by
    simp only [World.step, method, fitMemSph, h]
  have hobj : w'.obj = (World.step method w (.fit mode c data weights)).obj := h1
  have hcont : ∀ a, a ∈ [(sphKeep P points w.mem c).2.1, (sphKeep P points w.mem c).2.2.1,
      (sphKeep P points w.mem c).2.2.2] →
      w'.mem.content a = Mem.content (sphKeep P points w.mem c).1 a := by
    intro a ha
    obtain ⟨ha1, ha2⟩ := k2 a ha
    have := h2 a (by rw [hstep]; exact ha1) ?_
    · rw [hstep] at this; rw [← this]; simp only [w', hstep]
    · rcases ha2 with ha2 | ⟨ha2, ha3⟩
      · left
        rw [hstep]
        simp only [List.mem_append, List.mem_filter, List.mem_range, decide_eq_true_eq]
        exact .inr ⟨ha1, ha2⟩
      · right
        intro x hx
        obtain ⟨y, hy1, hy2⟩ := hw a x hx ha2
        rw [ha3 y hy1] at hy2
        cases hy2
  have hpts : (w'.obj.state w'.mem).points_ = some (sphPoints { P with points := points.map w.mem.contents }
      (n1dArrays (w.mem.contents c))) := by
    unfold MemObj.state
    rw [hobj, hstep, ← k1]
    simp only [Option.map_some, Mem.contents]
    rw [hcont _ List.mem_cons_self, hcont _ (List.mem_cons_of_mem _ List.mem_cons_self),
      hcont _ (List.mem_cons_of_mem _ (List.mem_cons_of_mem _ List.mem_cons_self))]
  have hcoefs : (w'.obj.state w'.mem).coefs_ = some coefs := by
    unfold MemObj.state
    rw [hobj, hstep]
    simp only [h]
  unfold predictMemSph predictSph
  rw [hpts, hcoefs]
  simp only [h]

/-! ### arrays of the caller inside of the sources -/

/-- one array of one element -/
noncomputable def oneElement (x : ℝ) : MemArr := ⟨⟨.float64, [1], [x]⟩, true⟩

/-- a data point at longitude and latitude 0 and radius 1000, and a source 500 below it -/
noncomputable def sixArrays : World :=
  { mem := [oneElement 0, oneElement 0, oneElement 1000, oneElement 0, oneElement 0, oneElement 500] }

noncomputable def sphMethod (junk : Junk) (points : Option Addr3) : Mode → Mem → Addr3 → CArr →
    Option CArr → MemObj → Mem × MemObj × Py Unit :=
  fun mode m => fitMemSph toyEnv junk mode {} points m

/-- the prediction of a source at the longitude `lon`, the latitude 0 and radius 500 -/
theorem predictSph_one (junk : Junk) (s : State) (lon : ℝ)
    (hp : s.points_ = some ([lon], [0], [500])) (hc : s.coefs_ = some [1]) :
    predictSph junk .serial (coordArrs .float64 .float64 .float64 [1] [⟨0, 0, 1000⟩]) s =
      .ok ⟨[1], [1 / distanceSpherical ⟨0, 0, 1000⟩ ⟨lon, 0, 500⟩]⟩ := by
  rw [predictSph_eq junk .serial .float64 .float64 .float64 trivial [1] [⟨0, 0, 1000⟩] rfl
    [(⟨lon, 0, 500⟩, 1)] trivial s hp hc]
  simp only [List.map_cons, List.map_nil, field, List.sum_cons, List.sum_nil]
  rw [← C10_distance_spherical]
  simp

theorem distance_0 : distanceSpherical ⟨0, 0, 1000⟩ ⟨0, 0, 500⟩ = 500 := by
  simp only [distanceSpherical, distanceSphericalCore, radians]
  rw [show ((1000 - 500 : ℝ)) ^ 2 + 2 * 1000 * 500 * (1 - (Real.sin (0 * (Real.pi / 180)) *
    Real.sin (0 * (Real.pi / 180)) + Real.cos (0 * (Real.pi / 180)) * Real.cos (0 * (Real.pi / 180)) *
    Real.cos (0 * (Real.pi / 180) - 0 * (Real.pi / 180)))) = 500 ^ 2 by simp; norm_num]
  exact Real.sqrt_sq (by norm_num)

theorem distance_180 : distanceSpherical ⟨0, 0, 1000⟩ ⟨180, 0, 500⟩ = 1500 := by
  simp only [distanceSpherical, distanceSphericalCore, radians]
  rw [show ((1000 - 500 : ℝ)) ^ 2 + 2 * 1000 * 500 * (1 - (Real.sin (0 * (Real.pi / 180)) *
    Real.sin (0 * (Real.pi / 180)) + Real.cos (0 * (Real.pi / 180)) * Real.cos (0 * (Real.pi / 180)) *
    Real.cos (180 * (Real.pi / 180) - 0 * (Real.pi / 180)))) = 1500 ^ 2 by
      rw [show (180 * (Real.pi / 180) : ℝ) - 0 * (Real.pi / 180) = Real.pi by ring]; simp; norm_num]
  exact Real.sqrt_sq (by norm_num)

theorem sph_fit_state (junk : Junk) (points : Option Addr3)
    (h : points = none ∨ points = some (3, 4, 5)) :
    let w := World.step (sphMethod junk points) sixArrays
      (.fit .serial (0, 1, 2) ⟨.float64, [1], [1]⟩ none)
    (w.obj.state w.mem).points_ = some ([0], [0], [500]) ∧
    (w.obj.state w.mem).coefs_ = some [1] ∧
    ∀ a, a = (points.elim 0 fun p => p.1) →
    let w' := World.step (sphMethod junk points) w (.write a (oneElement 180))
    (w'.obj.state w'.mem).points_ = some ([180], [0], [500]) ∧
    (w'.obj.state w'.mem).coefs_ = some [1] := by
  rcases h with rfl | rfl
  · refine ⟨?_, ?_, ?_⟩
    · simp [World.step, sphMethod, sixArrays, oneElement, fitMemSph, fitSph, checkFitInput, Mem.contents,
        Mem.content, n1dArrays, getRegion, sphPoints, solve, toyEnv, jacobian, sphKeep, Mem.ravel, Mem.new,
        MemObj.state]
      norm_num
    · simp [World.step, sphMethod, sixArrays, oneElement, fitMemSph, fitSph, checkFitInput, Mem.contents,
        Mem.content, n1dArrays, getRegion, sphPoints, solve, toyEnv, jacobian, sphKeep, Mem.ravel, Mem.new,
        MemObj.state]
    · rintro a rfl
      simp [World.step, sphMethod, sixArrays, oneElement, fitMemSph, fitSph, checkFitInput, Mem.contents,
        Mem.content, n1dArrays, getRegion, sphPoints, solve, toyEnv, jacobian, sphKeep, Mem.ravel, Mem.new,
        MemObj.state]
      norm_num
  · refine ⟨?_, ?_, ?_⟩
    · simp [World.step, sphMethod, sixArrays, oneElement, fitMemSph, fitSph, checkFitInput, Mem.contents,
        Mem.content, n1dArrays, getRegion, sphPoints, solve, toyEnv, jacobian, sphKeep, Mem.ravel,
        MemObj.state]
    · simp [World.step, sphMethod, sixArrays, oneElement, fitMemSph, fitSph, checkFitInput, Mem.contents,
        Mem.content, n1dArrays, getRegion, sphPoints, solve, toyEnv, jacobian, sphKeep, Mem.ravel,
        MemObj.state]
    · rintro a rfl
      simp [World.step, sphMethod, sixArrays, oneElement, fitMemSph, fitSph, checkFitInput, Mem.contents,
        Mem.content, n1dArrays, getRegion, sphPoints, solve, toyEnv, jacobian, sphKeep, Mem.ravel,
        MemObj.state]

/-- The full C137 is false for `EquivalentSourcesSph`: after a fit to one point, the program changes
its array of longitudes from 0 to 180, and the prediction at the point falls from 1/500 to 1/1500. -/
theorem C137_spherical_not_full (junk : Junk) :
    let q := coordArrs .float64 .float64 .float64 [1] [⟨0, 0, 1000⟩]
    let w := World.step (sphMethod junk none) sixArrays
      (.fit .serial (0, 1, 2) ⟨.float64, [1], [1]⟩ none)
    let w' := World.step (sphMethod junk none) w (.write 0 (oneElement 180))
    predictMemSph junk .serial w.mem w.obj q = .ok ⟨[1], [1 / 500]⟩ ∧
    predictMemSph junk .serial w'.mem w'.obj q = .ok ⟨[1], [1 / 1500]⟩ := by
  intro q w w'
  obtain ⟨h1, h2, h3⟩ := sph_fit_state junk none (.inl rfl)
  obtain ⟨h4, h5⟩ := h3 0 rfl
  refine ⟨?_, ?_⟩
  · rw [← distance_0]
    exact predictSph_one junk _ 0 h1 h2
  · rw [← distance_180]
    exact predictSph_one junk _ 180 h4 h5

/-- The same with sources given as `points`: the program changes its array of the longitudes of the
sources. -/
theorem C137_spherical_points (junk : Junk) :
    let q := coordArrs .float64 .float64 .float64 [1] [⟨0, 0, 1000⟩]
    let w := World.step (sphMethod junk (some (3, 4, 5))) sixArrays
      (.fit .serial (0, 1, 2) ⟨.float64, [1], [1]⟩ none)
    let w' := World.step (sphMethod junk (some (3, 4, 5))) w (.write 3 (oneElement 180))
    predictMemSph junk .serial w.mem w.obj q = .ok ⟨[1], [1 / 500]⟩ ∧
    predictMemSph junk .serial w'.mem w'.obj q = .ok ⟨[1], [1 / 1500]⟩ := by
  intro q w w'
  obtain ⟨h1, h2, h3⟩ := sph_fit_state junk (some (3, 4, 5)) (.inr rfl)
  obtain ⟨h4, h5⟩ := h3 3 rfl
  refine ⟨?_, ?_⟩
  · rw [← distance_0]
    exact predictSph_one junk _ 0 h1 h2
  · rw [← distance_180]
    exact predictSph_one junk _ 180 h4 h5

/-! ### Examples -/

/-- the hypotheses of `C137_spherical_partial`: writing into the radii -/
example (junk : Junk) :
    (fitMemSph toyEnv junk .serial {} none sixArrays.mem (0, 1, 2) ⟨.float64, [1], [1]⟩ none
      sixArrays.obj).2.2 = .ok () ∧
    NoFit (α := Mode) [.write 2 (oneElement 7), .new (oneElement 1)] ∧
    ∀ a x, Event.write a x ∈ ([.write 2 (oneElement 7), .new (oneElement 1)] : List (Event Mode)) →
      a ∈ lent none (0, 1, 2) → ∃ y, sixArrays.mem[a]? = some y ∧ y.contiguous = false := by
  refine ⟨?_, ?_, ?_⟩
  · simp [sixArrays, oneElement, fitMemSph, fitSph, checkFitInput, Mem.contents,
      Mem.content, n1dArrays, getRegion, sphPoints, solve, toyEnv, jacobian]
  · intro how c d w h
    simp at h
  · intro a x h1 h2
    simp [lent] at h1 h2
    omega

/-- the hypotheses of `C137_cartesian` and `C137_gradient_boosted`: writing into every array that was
passed -/
example (junk : Junk) :
    (fitMem toyEnv junk .serial depth1 none sixArrays.mem (0, 1, 2) ⟨.float64, [1], [1]⟩ none
      sixArrays.obj).2.2 = .ok () ∧
    (fitMemGB toyEnv junk List.range (fun _ => (.serial, .serial)) depth1 none sixArrays.mem (0, 1, 2)
      ⟨.float64, [1], [1]⟩ none sixArrays.obj).2.2 = .ok () ∧
    NoFit (α := Mode) [.write 0 (oneElement 7), .write 1 (oneElement 8), .write 2 (oneElement 9)] := by
  refine ⟨?_, ?_, ?_⟩
  · unfold fitMem
    rw [storeCopies_outcome]
    simp [sixArrays, oneElement, fit, checkFitInput, castArrs, n1dArrays, getRegion, choosePoints,
      buildPoints, blockCoordinates, sourceDepth, solve, toyEnv, DType.cast, jacobian, depth1,
      Mem.contents, Mem.content]
  · unfold fitMemGB
    rw [storeCopies_outcome]
    simp [sixArrays, oneElement, depth1, fitGB, gradientBoosting, createWindows, getRegionDataSources,
      windowSize, checkFitInput, castArrs, n1dArrays, getRegion, choosePoints, buildPoints,
      blockCoordinates, sourceDepth, solve, toyEnv, DType.itemsize, DType.cast, boostLoop, chunks,
      fancyArrs, fancyIndex_cons, fancyIndex_nil, Except.map, boostUpdate, fancyAdd, jacobian,
      Py.bind_ok, Py.pure_eq, List.range_succ, Mem.contents, Mem.content]
  · intro how c d w h
    simp at h

end Verif.EqSources
