import Verif.Progress.Lemmas
import Verif.Forward.Spec
import Verif.Tesseroid.Lemmas

/-!
C86: asking for a progress bar changes nothing but the bar. For every input, every interleaving of the
threads and with or without `numba_progress` installed, a call with `progressbar` ends as the same call
without it: same exception, or same arrays; the bar has the number of computation points as its length
and ends full. If the library is missing, the call raises ImportError if and only if a bar was asked
for and nothing else was wrong.
-/
namespace Verif.Progress

open Verif Verif.Engine Verif.Forward Verif.Distance

/-- Specification: what a call with `progressbar` does, from what the call without it does. -/
def expected {α : Type} (installed progressbar : Bool) (points : ℕ) :
    Py α → Py (α × Option Bar)
  | .error e => .error e
  | .ok a =>
    if progressbar then
      if installed then .ok (a, some ⟨points, points⟩) else .error .ImportError
    else .ok (a, none)

theorem expected_bind {α γ : Type} (installed progressbar : Bool) (points : ℕ) (x : Py γ)
    (f : γ → Py (α × Option Bar)) (g : γ → Py α)
    (h : ∀ c, x = .ok c → f c = expected installed progressbar points (g c)) :
    (x >>= f) = expected installed progressbar points (x >>= g) := by
  cases x with
  | error e => rfl
  | ok c => exact h c rfl

/-- the loop with its bar against the loop alone -/
theorem withBar_eq {C F : Type} [DecidableEq C] [Add F] (installed progressbar : Bool)
    (n k : ℕ) (mode : Mode) (prog : ℕ → List (Op C F)) (r0 : F) (mem : C → F)
    (hm : mode.Full n k) (hk : ∀ i < n, (prog i).length + 1 ≤ k) :
    withBar installed progressbar n mode n prog r0 mem
      = expected installed progressbar n (.ok (run mode n prog r0 mem)) := by
  cases progressbar with
  | false => rw [withBar_false]; rfl
  | true =>
    cases installed with
    | false => rfl
    | true => rw [withBar_true n mode n k prog r0 mem hm hk]; rfl

/-- C86 for the constructor of the bar: all its cases. -/
theorem C86_initialize (installed use : Bool) (total : ℕ) :
    initializeProgressbar installed total use =
      if use = false then .ok none
      else if installed = false then .error .ImportError
      else .ok (some ⟨total, 0⟩) := by
  cases installed <;> cases use <;> rfl

/-- C86 for a loop, any interleaving, any number type: the arrays are those of the loop without a bar
(even half way), and after the loop the bar shows the number of iterations. -/
theorem C86_loop {C F : Type} [DecidableEq C] [Add F] (mode : Mode) (n k : ℕ)
    (prog : ℕ → List (Op C F)) (r0 : F) (mem : C → F) :
    (∀ b shown, (barRun mode n b prog r0 mem shown).1 = run mode n prog r0 mem) ∧
    (mode.Full n k → (∀ i < n, (prog i).length + 1 ≤ k) →
      (barRun mode n true prog r0 mem 0).2 = n) :=
  ⟨fun b shown => barRun_fst mode n b prog r0 mem shown,
   fun hm hk => by rw [barRun_snd mode n k prog r0 mem 0 hm hk, Nat.zero_add]⟩

theorem accum_length {m : ℕ} {α : Type} (l : List α) (v : α → ℝ) (i : ℕ) (h : l.length ≤ m) :
    (l.flatMap fun x => accum i (v x)).length + 1 ≤ 2 * m + 1 := by
  simp [accum, List.length_flatMap]; omega

theorem maskIndex_length {α : Type} {a b : List α} {mask : List Bool}
    (h : maskIndex a mask = .ok b) : b.length ≤ a.length := by
  unfold maskIndex at h
  split at h
  · cases h
    refine (List.length_filterMap_le _ _).trans ?_
    simp
  · cases h

theorem discardNull_length {ps : List Prism} {d : List ℝ} {r : List Prism × List ℝ}
    (h : discardNullPrisms ps d = .ok r) : r.1.length ≤ ps.length := by
  unfold discardNullPrisms at h
  dsimp only at h
  cases h1 : maskSetTrue (ps.map zeroVolume) (d.map fun d => decide (d = 0)) with
  | error e => rw [h1] at h; cases h
  | ok null =>
    rw [h1, Py.bind_ok] at h
    cases h2 : maskIndex ps (null.map (!·)) with
    | error e => rw [h2] at h; cases h
    | ok ps' =>
      rw [h2, Py.bind_ok] at h
      cases h3 : maskIndex d (null.map (!·)) with
      | error e => rw [h3] at h; cases h
      | ok d' =>
        rw [h3] at h
        cases h
        exact maskIndex_length h2

/-- C86 for `prism_gravity`. -/
theorem C86_prism_gravity (installed progressbar : Bool) (junk : Junk) (mode : Mode)
    (K : PrismKernels) (coordinates : NdArray × NdArray × NdArray) (prisms : List Prism)
    (density : List ℝ) (field : String) (dis : Bool)
    (hm : mode.Full coordinates.1.data.length (2 * prisms.length + 1)) :
    prismGravity installed progressbar junk mode K coordinates prisms density field dis
      = expected installed progressbar coordinates.1.data.length
        (Forward.prismGravity junk mode K coordinates prisms density field dis) := by
  unfold prismGravity Forward.prismGravity
  cases (prismFields K).lookup field with
  | none => rfl
  | some kernel =>
    refine expected_bind _ _ _ _ _ _ fun shape _ => ?_
    dsimp only
    split
    · rfl
    split
    · refine expected_bind _ _ _ _ _ _ fun _ _ => ?_
      refine expected_bind _ _ _ _ _ _ fun pd hpd => ?_
      rw [withBar_eq installed progressbar _ _ mode _ _ _ hm]
      · cases installed <;> cases progressbar <;> rfl
      exact fun i _ => accum_length _ _ i (by simpa using discardNull_length hpd)
    · refine expected_bind _ _ _ _ _ _ fun pd hpd => ?_
      rw [withBar_eq installed progressbar _ _ mode _ _ _ hm]
      · cases installed <;> cases progressbar <;> rfl
      exact fun i _ => accum_length _ _ i (by simpa using discardNull_length hpd)

theorem accum3_length {m : ℕ} {α : Type} (l : List α) (v : α → ℝ × ℝ × ℝ) (i : ℕ)
    (h : l.length ≤ m) : (l.flatMap fun x => accum3 i (v x)).length + 1 ≤ 6 * m + 1 := by
  simp [accum3, accum, List.length_flatMap]; omega

theorem magCompute_expected {S : Type} (installed progressbar : Bool) (junk : Junk) (mode : Mode)
    (K : MagKernels S) (shape : List ℕ) (e n u : List ℝ) (nsrc m : ℕ) (hn : nsrc ≤ m)
    (src : ℕ → S) (me mn mu : List ℝ) (field : String) (hm : mode.Full e.length (6 * m + 1)) :
    magCompute installed progressbar junk mode K shape e n u nsrc src me mn mu field
      = expected installed progressbar e.length
        (Forward.magCompute junk mode K shape e n u nsrc src me mn mu field) := by
  unfold magCompute Forward.magCompute
  dsimp only
  split
  · rw [withBar_eq installed progressbar _ _ mode _ _ _ hm]
    · cases installed <;> cases progressbar <;> rfl
    exact fun i _ => accum3_length (List.range nsrc) _ i (by simpa using hn)
  · cases (magComponents K).lookup field with
    | none => rfl
    | some kernel =>
      dsimp only
      rw [withBar_eq installed progressbar _ _ mode _ _ _ hm]
      · cases installed <;> cases progressbar <;> rfl
      exact fun i _ => (accum_length (m := m) (List.range nsrc) _ i (by simpa using hn)).trans
        (by omega)

/-- C86 for `dipole_magnetic`. -/
theorem C86_dipole_magnetic (installed progressbar : Bool) (junk : Junk) (mode : Mode)
    (K : MagKernels P3) (coordinates dipoles : NdArray × NdArray × NdArray)
    (moments : List (List ℝ)) (field : String) (dis : Bool)
    (hm : mode.Full coordinates.1.data.length (6 * dipoles.1.data.length + 1)) :
    dipoleMagnetic installed progressbar junk mode K coordinates dipoles moments field dis
      = expected installed progressbar coordinates.1.data.length
        (Forward.dipoleMagnetic junk mode K coordinates dipoles moments field dis) := by
  unfold dipoleMagnetic Forward.dipoleMagnetic
  dsimp only
  split
  · rfl
  refine expected_bind _ _ _ _ _ _ fun shape _ => ?_
  split
  · rfl
  split
  · rfl
  rcases moments with _ | ⟨me, _ | ⟨mn, _ | ⟨mu, _ | ⟨_, _⟩⟩⟩⟩
  · rfl
  · rfl
  · rfl
  · exact magCompute_expected _ _ junk mode K shape _ _ _ _ _ le_rfl _ _ _ _ field hm
  · rfl

theorem discardNullMag_length {ps : List Prism} {me mn mu : List ℝ}
    {r : List Prism × List ℝ × List ℝ × List ℝ}
    (h : discardNullPrismsMag ps me mn mu = .ok r) : r.1.length ≤ ps.length := by
  unfold discardNullPrismsMag at h
  dsimp only at h
  generalize andBroadcast _ (mn.map _) = x at h
  cases x with
  | error e => cases h
  | ok a =>
  rw [Py.bind_ok] at h
  generalize andBroadcast _ _ = x at h
  cases x with
  | error e => cases h
  | ok b =>
  rw [Py.bind_ok] at h
  generalize maskSetTrue _ _ = x at h
  cases x with
  | error e => cases h
  | ok null =>
  rw [Py.bind_ok] at h
  cases h2 : maskIndex ps (null.map (!·)) with
  | error e => rw [h2] at h; cases h
  | ok ps' =>
    rw [h2, Py.bind_ok] at h
    have := maskIndex_length h2
    generalize maskIndex me _ = x at h
    cases x with
    | error e => cases h
    | ok a =>
    rw [Py.bind_ok] at h
    generalize maskIndex mn _ = x at h
    cases x with
    | error e => cases h
    | ok a =>
    rw [Py.bind_ok] at h
    generalize maskIndex mu _ = x at h
    cases x with
    | error e => cases h
    | ok a =>
    cases h
    exact this

/-- C86 for `prism_magnetic`. -/
theorem C86_prism_magnetic (installed progressbar : Bool) (junk : Junk) (mode : Mode)
    (K : MagKernels Prism) (coordinates : NdArray × NdArray × NdArray) (prisms : List Prism)
    (magnetization : List (List ℝ)) (field : String) (dis : Bool)
    (hm : mode.Full coordinates.1.data.length (6 * prisms.length + 1)) :
    prismMagnetic installed progressbar junk mode K coordinates prisms magnetization field dis
      = expected installed progressbar coordinates.1.data.length
        (Forward.prismMagnetic junk mode K coordinates prisms magnetization field dis) := by
  unfold prismMagnetic Forward.prismMagnetic
  dsimp only
  split
  · rfl
  refine expected_bind _ _ _ _ _ _ fun shape _ => ?_
  split
  · rfl
  split
  · rfl
  split
  · refine expected_bind _ _ _ _ _ _ fun _ _ => ?_
    rcases magnetization with _ | ⟨me, _ | ⟨mn, _ | ⟨mu, _ | ⟨_, _⟩⟩⟩⟩
    · rfl
    · rfl
    · rfl
    · refine expected_bind _ _ _ _ _ _ fun r hr => ?_
      exact magCompute_expected _ _ junk mode K shape _ _ _ _ _ (discardNullMag_length hr) _ _ _ _
        field hm
    · rfl
  · rcases magnetization with _ | ⟨me, _ | ⟨mn, _ | ⟨mu, _ | ⟨_, _⟩⟩⟩⟩
    · rfl
    · rfl
    · rfl
    · refine expected_bind _ _ _ _ _ _ fun r hr => ?_
      exact magCompute_expected _ _ junk mode K shape _ _ _ _ _ (discardNullMag_length hr) _ _ _ _
        field hm
    · rfl

theorem flatMap_length_le {α β : Type} (l : List α) (f : α → List β) (k : ℕ)
    (h : ∀ x ∈ l, (f x).length ≤ k) : (l.flatMap f).length ≤ l.length * k := by
  induction l with
  | nil => simp
  | cons a l ih =>
    simp only [List.flatMap_cons, List.length_append, List.length_cons, Nat.add_mul, Nat.one_mul]
    have := h a (by simp)
    have := ih fun x hx => h x (by simp [hx])
    omega

open Verif.Layers in
theorem layerLoop_length (junk : Junk) (kernel : P3 → Prism → ℝ → ℝ) (e n u pe pn : List ℝ)
    (b t d : List (Option ℝ)) (he hn th : ℝ) (i : ℕ) :
    (layerLoop junk kernel e n u pe pn b t d he hn th i).length ≤ pe.length * (pn.length * 2) := by
  unfold layerLoop
  have := flatMap_length_le pe.zipIdx _ (pn.length * 2) (fun ej _ => by
    have := flatMap_length_le pn.zipIdx (fun nk =>
      let at_ (a : List (Option ℝ)) : Option ℝ := (a[nk.2 * pe.length + ej.2]?).getD none
      match at_ d with
      | none => []
      | some density =>
        if density = 0 then []
        else
          match at_ b, at_ t with
          | some bottom, some top =>
            if top - bottom < th then []
            else
              accum i (kernel
                ⟨rd junk "easting" e i, rd junk "northing" n i, rd junk "upward" u i⟩
                ⟨ej.1 - he, ej.1 + he, nk.1 - hn, nk.1 + hn, bottom, top⟩ density)
          | _, _ => []) 2 (fun nk _ => by
        dsimp only
        repeat' split
        all_goals simp [accum])
    rw [List.length_zipIdx] at this
    exact this)
  rw [List.length_zipIdx] at this
  exact this

open Verif.Layers in
/-- C86 for the `gravity` method of layers of prisms. -/
theorem C86_prism_layer_gravity (installed progressbar : Bool) (junk : Junk) (mode : Mode)
    (K : PrismKernels) (layer : Layer) (coordinates : NdArray × NdArray × NdArray)
    (field density_name : String) (threshold : Option ℝ)
    (hm : mode.Full coordinates.1.data.length
      (layer.easting.length * (layer.northing.length * 2) + 1)) :
    layerGravity installed progressbar junk mode K layer coordinates field density_name threshold
      = expected installed progressbar coordinates.1.data.length
        (Layers.layerGravity junk mode K layer coordinates field density_name threshold) := by
  unfold layerGravity Layers.layerGravity
  cases (prismFields K).lookup field with
  | none => rfl
  | some kernel =>
    obtain ⟨easting, northing, bottom, top, vars⟩ := layer
    dsimp only at hm ⊢
    refine expected_bind _ _ _ _ _ _ fun _ _ => ?_
    refine expected_bind _ _ _ _ _ _ fun shape _ => ?_
    cases vars.lookup density_name with
    | none => rfl
    | some density =>
      rcases easting with _ | ⟨e0, _ | ⟨e1, es⟩⟩
      · rfl
      · rfl
      rcases northing with _ | ⟨n0, _ | ⟨n1, ns⟩⟩
      · rfl
      · rfl
      dsimp only
      rw [withBar_eq installed progressbar _ _ mode _ _ _ hm]
      · cases installed <;> cases progressbar <;> rfl
      exact fun i _ => Nat.succ_le_succ (layerLoop_length junk kernel _ _ _ _ _ _ _ _ _ _ _ i)

open Verif.Tesseroid in
theorem listValues_length (P : AParams) (hP : 1 ≤ P.stackSize) (effect : ℕ → Tess → ℝ)
    (ts : List (Tess × ℕ)) (l : List ℝ) (h : listValues P effect ts = .ok l) :
    l.length ≤ P.smallSize * ts.length := by
  induction ts generalizing l with
  | nil => cases h; simp
  | cons s ts ih =>
    obtain ⟨t, j⟩ := s
    unfold listValues at h
    cases h0 : tessPieces P t with
    | error e => rw [h0] at h; cases h
    | ok p =>
      rw [h0] at h
      cases h1 : listValues P effect ts with
      | error e => rw [h1] at h; cases h
      | ok rest =>
        rw [h1] at h
        cases h
        have := ih rest h1
        have := tessPieces_length P hP t p h0
        simp only [List.length_append, List.length_map, List.length_cons, Nat.mul_add, Nat.mul_one]
        omega

open Verif.Tesseroid in
theorem okValues_length (P : ℕ → AParams) (hP : ∀ i, (P i).stackSize = 100)
    (hP' : ∀ i, (P i).smallSize = 100000) (effect : ℕ → ℕ → Tess → ℝ)
    (stack small : ℕ → Tess) (ts : List Tess) (m : ℕ) (hts : ts.length ≤ m) (i : ℕ) :
    ((okValues (fun i => tessValues (P i) (effect i) stack small ts.zipIdx) i).flatMap
      (accum i)).length + 1 ≤ 2 * (100000 * m) + 1 := by
  have h : (okValues (fun i => tessValues (P i) (effect i) stack small ts.zipIdx) i).length
      ≤ 100000 * ts.length := by
    unfold okValues
    beta_reduce
    rw [tessValues_eq (P i) (by rw [hP]; omega)]
    cases hl : listValues (P i) (effect i) ts.zipIdx with
    | error e => simp
    | ok l =>
      have := listValues_length (P i) (by rw [hP]; omega) _ _ _ hl
      rw [hP', List.length_zipIdx] at this
      exact this
  have := flatMap_length_le (okValues (fun i => tessValues (P i) (effect i) stack small ts.zipIdx) i)
    (accum i) 2 (fun _ _ => by simp [accum])
  nlinarith

open Verif.Tesseroid in
theorem discardNullTess_length {ts : List Tess} {d : List ℝ} {r : List Tess × List ℝ}
    (h : discardNullTess ts d = .ok r) : r.1.length ≤ ts.length := by
  unfold discardNullTess at h
  dsimp only at h
  generalize maskSetTrue _ _ = x at h
  cases x with
  | error e => cases h
  | ok null =>
    rw [Py.bind_ok] at h
    cases h2 : maskIndex ts (null.map (!·)) with
    | error e => rw [h2] at h; cases h
    | ok ps' =>
      rw [h2, Py.bind_ok] at h
      generalize maskIndex d _ = x at h
      cases x with
      | error e => cases h
      | ok d' =>
        cases h
        exact maskIndex_length h2

/-- the loop with its bar, when the bar can be opened -/
theorem withBar_ok {C F : Type} [DecidableEq C] [Add F] (installed progressbar : Bool)
    (n k : ℕ) (mode : Mode) (prog : ℕ → List (Op C F)) (r0 : F) (mem : C → F)
    (hm : mode.Full n k) (hk : ∀ i < n, (prog i).length + 1 ≤ k)
    (h : installed = true ∨ progressbar = false) :
    withBar installed progressbar n mode n prog r0 mem
      = .ok (run mode n prog r0 mem, if progressbar then some ⟨n, n⟩ else none) := by
  cases progressbar with
  | false => rw [withBar_false]; rfl
  | true =>
    simp only [Bool.true_eq_false, or_false] at h
    subst h
    rw [withBar_true n mode n k prog r0 mem hm hk]; rfl

theorem expected_ok {α : Type} (installed progressbar : Bool) (n : ℕ) (a : α)
    (h : installed = true ∨ progressbar = false) :
    expected installed progressbar n (.ok a)
      = .ok (a, if progressbar then some ⟨n, n⟩ else none) := by
  cases progressbar with
  | false => rfl
  | true =>
    simp only [Bool.true_eq_false, or_false] at h
    subst h; rfl

open Verif.Tesseroid in
theorem checkTesseroids_length {ts ts' : List Tess} (h : checkTesseroids ts = .ok ts') :
    ts'.length = ts.length := by
  rw [checkTesseroids_eq] at h
  split at h
  · cases h; simp
  · cases h

open Verif.Tesseroid in
/-- C86 for `tesseroid_gravity` (densities as values or as a function) when the library is there or no
bar is asked for: as the call without a bar. `k` bounds the accesses of an iteration; the density
based discretization may divide tesseroids, so it is stated for the list that is used. -/
theorem C86_tesseroid_gravity (installed progressbar : Bool) (junk : Junk) (mode : Mode)
    (M : Minimizer) (fuel : ℕ) (stack0 small0 : ℕ → Tess)
    (coordinates : NdArray × NdArray × NdArray) (ts : List Tess) (density : Density)
    (field : String) (radial dis : Bool) (m : ℕ)
    (hv : ∀ d, density = .values d → ts.length ≤ m)
    (hf : ∀ f ts₀ ts', density = .func f → (ts₀ = ts ∨ checkTesseroids ts = .ok ts₀) →
      densityDiscretization M f fuel ts₀ = some ts' → ts'.length ≤ m)
    (hm : mode.Full coordinates.1.data.length (2 * (100000 * m) + 1))
    (h : installed = true ∨ progressbar = false) :
    tesseroidGravity installed progressbar junk mode M fuel stack0 small0 coordinates ts density
        field radial dis
      = (Tesseroid.tesseroidGravity junk mode M fuel stack0 small0 coordinates ts density
        field radial dis).map (expected installed progressbar coordinates.1.data.length) := by
  unfold tesseroidGravity Tesseroid.tesseroidGravity
  cases tessKernels.lookup field with
  | none => rfl
  | some kernel =>
    dsimp only
    generalize hx : (do
        let shape ← npBroadcast coordinates.1 coordinates.2.1 coordinates.2.2
        let ts ← (if dis = true then Except.ok ts else checkTesseroids ts)
        (if dis = true then Except.ok ()
          else checkPointsOutside junk coordinates.1.data coordinates.2.1.data
            coordinates.2.2.data ts)
        return (shape, ts) : Py (List ℕ × List Tess)) = x
    cases x with
    | error e => rfl
    | ok st =>
      obtain ⟨shape, ts₀⟩ := st
      have hts₀ : ts₀ = ts ∨ checkTesseroids ts = .ok ts₀ := by
        cases hb : npBroadcast coordinates.1 coordinates.2.1 coordinates.2.2 with
        | error e => rw [hb] at hx; cases hx
        | ok sh =>
          rw [hb, Py.bind_ok] at hx
          cases dis with
          | true =>
            simp only [if_true, Py.bind_ok, Py.pure_eq] at hx
            cases hx; exact .inl rfl
          | false =>
            simp only [Bool.false_eq_true, if_false] at hx
            cases hc : checkTesseroids ts with
            | error e => rw [hc] at hx; cases hx
            | ok ts1 =>
              rw [hc, Py.bind_ok] at hx
              generalize checkPointsOutside _ _ _ _ ts1 = y at hx
              cases y with
              | error e => cases hx
              | ok u => cases hx; exact .inr rfl
      cases density with
      | func f =>
        dsimp only
        cases hd : densityDiscretization M f fuel ts₀ with
        | none => rfl
        | some ts' =>
          have hl := hf f ts₀ ts' rfl hts₀ hd
          dsimp only [Option.map_some]
          congr 1
          split
          · rfl
          · rw [withBar_ok installed progressbar _ _ mode _ _ _ hm (fun i _ => okValues_length _
              (fun _ => rfl) (fun _ => rfl) _ _ _ _ _ hl i) h]
            simp only [Py.bind_ok]
            generalize firstError _ _ = err
            cases err with
            | error e => rfl
            | ok _ => rw [Py.bind_ok, Py.bind_ok, Py.pure_eq, Py.pure_eq, expected_ok _ _ _ _ h]
      | values d =>
        have hl := hv d rfl
        have hl0 : ts₀.length ≤ m := by
          rcases hts₀ with rfl | h1
          · exact hl
          · exact (checkTesseroids_length h1).le.trans hl
        dsimp only [Option.map_some]
        congr 1
        split
        · rfl
        · refine expected_bind _ _ _ _ _ _ fun r hr => ?_
          rw [withBar_ok installed progressbar _ _ mode _ _ _ hm (fun i _ => okValues_length _
            (fun _ => rfl) (fun _ => rfl) _ _ _ _ _ ((discardNullTess_length hr).trans hl0) i) h]
          simp only [Py.bind_ok]
          generalize firstError _ _ = err
          cases err with
          | error e => rfl
          | ok _ => rw [Py.bind_ok, Py.bind_ok, Py.pure_eq, Py.pure_eq, expected_ok _ _ _ _ h]

open Verif.Tesseroid in
/-- C86 for `tesseroid_gravity` when a bar is asked for and the library is missing: if the call without
a bar returns, this one raises ImportError; and it never returns. -/
theorem C86_tesseroid_gravity_missing (junk : Junk) (mode : Mode)
    (M : Minimizer) (fuel : ℕ) (stack0 small0 : ℕ → Tess)
    (coordinates : NdArray × NdArray × NdArray) (ts : List Tess) (density : Density)
    (field : String) (radial dis : Bool) :
    (∀ r, Tesseroid.tesseroidGravity junk mode M fuel stack0 small0 coordinates ts density
        field radial dis = some (.ok r) →
      tesseroidGravity false true junk mode M fuel stack0 small0 coordinates ts density
        field radial dis = some (.error .ImportError)) ∧
    ∀ r, tesseroidGravity false true junk mode M fuel stack0 small0 coordinates ts density
        field radial dis ≠ some (.ok r) := by
  unfold tesseroidGravity Tesseroid.tesseroidGravity
  cases tessKernels.lookup field with
  | none => exact ⟨fun r hr => (by cases hr), fun r hr => (by cases hr)⟩
  | some kernel =>
    dsimp only
    generalize (do
        let shape ← npBroadcast coordinates.1 coordinates.2.1 coordinates.2.2
        let ts ← (if dis = true then Except.ok ts else checkTesseroids ts)
        (if dis = true then Except.ok ()
          else checkPointsOutside junk coordinates.1.data coordinates.2.1.data
            coordinates.2.2.data ts)
        return (shape, ts) : Py (List ℕ × List Tess)) = x
    cases x with
    | error e => exact ⟨fun r hr => (by cases hr), fun r hr => (by cases hr)⟩
    | ok st =>
      obtain ⟨shape, ts₀⟩ := st
      cases density with
      | func f =>
        dsimp only
        cases densityDiscretization M f fuel ts₀ with
        | none => exact ⟨fun r hr => (by cases hr), fun r hr => (by cases hr)⟩
        | some ts' =>
          dsimp only
          split
          · exact ⟨fun r hr => (by cases hr), fun r hr => (by cases hr)⟩
          · simp only [withBar_missing, Py.bind_error]
            exact ⟨fun r _ => trivial, fun r hr => by cases hr⟩
      | values d =>
        dsimp only
        split
        · exact ⟨fun r hr => (by cases hr), fun r hr => (by cases hr)⟩
        · cases discardNullTess ts₀ d with
          | error e => exact ⟨fun r hr => (by cases hr), fun r hr => (by cases hr)⟩
          | ok r' =>
            simp only [Py.bind_ok, withBar_missing, Py.bind_error]
            exact ⟨fun r _ => trivial, fun r hr => by cases hr⟩

/-! ### The hypotheses are met -/

/-- two points, one prism: an interleaved schedule gives both updates of the bar -/
example : (Mode.parallel [0, 1, 1, 0, 0, 1]).Full 2 (2 * 1 + 1) :=
  ⟨by simp, by intro i hi; interval_cases i <;> decide⟩

/-- the bar is full after an interleaved run of two iterations that accumulate -/
example : (barRun (.parallel [0, 1, 1, 0, 0, 1]) 2 true (fun i => accum i (1 : ℕ)) 0
    (fun _ : ℕ => 0) 0).2 = 2 := by decide

/-- half way it is not -/
example : (barRun (.parallel [0, 1, 1, 0, 0]) 2 true (fun i => accum i (1 : ℕ)) 0
    (fun _ : ℕ => 0) 0).2 = 1 := by decide

/-- a call of `prism_gravity` with a bar: one prism, two points -/
example (junk : Junk) (K : PrismKernels) : ∃ r,
    prismGravity true true junk (.parallel [0, 1, 1, 0, 0, 1]) K
      (arrays [2] [⟨0, 0, 10⟩, ⟨1, 1, 20⟩]) [⟨0, 1, 0, 1, -2, -1⟩] [1000] "g_z" true
      = .ok (r, some ⟨2, 2⟩) := by
  rw [C86_prism_gravity]
  · have h : ∃ r, Forward.prismGravity junk (.parallel [0, 1, 1, 0, 0, 1]) K
        (arrays [2] [⟨0, 0, 10⟩, ⟨1, 1, 20⟩]) [⟨0, 1, 0, 1, -2, -1⟩] [1000] "g_z" true = .ok r := by
      have hl : (prismFields K).lookup "g_z" = some K.u := by simp [prismFields, List.lookup]
      unfold Forward.prismGravity
      rw [hl]
      exact ⟨_, rfl⟩
    obtain ⟨r, hr⟩ := h
    exact ⟨r, by rw [hr]; rfl⟩
  · exact ⟨by simp [arrays], by intro i hi; simp [arrays] at hi; interval_cases i <;> decide⟩

end Verif.Progress
