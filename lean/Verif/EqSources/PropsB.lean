import Verif.EqSources.Props

/-!
C26 (gradient boosting), C27 (windows), C28 (memory estimate) and C29 (histories of calls).
The specification is in `Spec.lean`.
-/

namespace Verif.EqSources
open Verif.Forward Verif.Engine Verif.Distance Verif.Layers

/-! ### C26 -/

theorem residual_zero (obs pts : List P3) (data : List ℝ) (hdata : data.length = obs.length) :
    residual obs pts data (List.replicate pts.length 0) = data := by
  have : ∀ q, field cartPos (pts.zip (List.replicate pts.length 0)) q = 0 := by
    intro q
    unfold field
    apply List.sum_eq_zero
    intro x hx
    obtain ⟨y, hy, rfl⟩ := List.mem_map.1 hx
    have := (List.of_mem_zip hy).2
    rw [List.eq_of_mem_replicate this, zero_div]
  unfold residual
  rw [show field cartPos (pts.zip (List.replicate pts.length 0)) = fun _ => 0 from funext this]
  apply List.ext_getElem
  · simp [hdata]
  · intro i h1 h2; simp

theorem rms_eq (l : List ℝ) : rms l = rootMeanSquare l := by
  unfold rms rootMeanSquare
  simp only [pow_two]

/-- C26: after a successful `fit` of `EquivalentSourcesGB` with source windows without repetitions,
for any shuffle, solver, schedule, data and weights: there are coefficients `C 0, C 1, ...`, one
after each window, that start at zero and end at `coefs_`; each window adds the least squares
solution of the residual data minus the field of the coefficients so far; and entry `k` of
`rmse_per_iteration_` is the RMS of data minus the field of `C k`. -/
theorem C26_boosting (env : Env) (junk : Junk) (perm : ℕ → List ℕ) (modes : ℕ → Mode × Mode)
    (P : Params) (hd : P.dtype.IsFloat) (d1 d2 d3 dd : DType) (shape : List ℕ) (obs pts : List P3)
    (data : List ℝ) (hdata : data.length = obs.length) (weights : Option CArr) (s s' : State)
    (h : fitGB env junk perm modes P (coordArrs d1 d2 d3 shape obs) ⟨dd, shape, data⟩ weights s =
      (s', .ok ()))
    (hpts : s'.points_ = some (pointArrs pts)) (W : List (List ℕ) × List (List ℕ))
    (hW : (createWindows env perm P (pointArrs obs) (pointArrs pts) {}).2 = .ok W)
    (hnodup : ∀ pw ∈ W.1, pw.Nodup)
    (hmodes : ∀ k pw dw, (W.1.zip W.2)[k]? = some (pw, dw) →
      (modes k).1.Full dw.length pw.length ∧ (modes k).2.Full obs.length (2 * pw.length)) :
    ∃ C : ℕ → List ℝ,
      C 0 = List.replicate pts.length 0 ∧
      s'.coefs_ = some (C (W.1.zip W.2).length) ∧
      s'.rmse_ = some ((List.range ((W.1.zip W.2).length + 1)).map
        fun k => rootMeanSquare (residual obs pts data (C k))) ∧
      ∀ k pw dw, (W.1.zip W.2)[k]? = some (pw, dw) →
        BoostStep env P.damping obs pts data (weights.map (·.data)) pw dw (C k) (C (k + 1)) := by
  obtain ⟨region, d, pts', W', size, b, s1, -, -, -, h4, h5, rfl, hp, -⟩ :=
    fitGB_ok _ _ _ _ _ _ _ _ _ _ h
  simp only [← rms_eq]
  rw [hp] at hpts
  cases hpts
  rw [castArrs_float hd, n1dArrays_coordArrs] at h4 h5
  rw [h4] at hW
  cases hW
  simp only [cast_float_fun hd, List.map_id] at h5
  have hlen : (pointArrs pts).1.length = pts.length := by simp [pointArrs]
  rw [hlen] at h5
  have hres0 := residual_zero obs pts data hdata
  obtain ⟨C, h6, h7, h8, h9, h10⟩ := boostLoop_spec env junk modes P hd obs pts data hdata _
    (W.1.zip W.2) 0 _ _ s1 b (by simp) hres0.symm
    (fun w hw => hnodup _ (List.of_mem_zip hw).1)
    (fun t pw dw ht => by rw [Nat.zero_add]; exact hmodes t pw dw ht) h5
  refine ⟨C, h6, ?_, ?_, h9⟩
  · rw [h10]
    by_cases hw : W.1.zip W.2 = []
    · simp [hw, h6]
    · simp [hw]
  · rw [h8, List.range_succ_eq_map]
    simp only [List.map_cons, List.map_map, Function.comp_def, List.singleton_append]
    rw [h6, hres0]

/-- C26: a source that is in no window keeps the coefficient zero. -/
theorem C26_outside (env : Env) (junk : Junk) (perm : ℕ → List ℕ) (modes : ℕ → Mode × Mode)
    (P : Params) (hd : P.dtype.IsFloat) (d1 d2 d3 dd : DType) (shape : List ℕ) (obs pts : List P3)
    (data : List ℝ) (hdata : data.length = obs.length) (weights : Option CArr) (s s' : State)
    (h : fitGB env junk perm modes P (coordArrs d1 d2 d3 shape obs) ⟨dd, shape, data⟩ weights s =
      (s', .ok ()))
    (hpts : s'.points_ = some (pointArrs pts)) (W : List (List ℕ) × List (List ℕ))
    (hW : (createWindows env perm P (pointArrs obs) (pointArrs pts) {}).2 = .ok W)
    (hnodup : ∀ pw ∈ W.1, pw.Nodup)
    (hmodes : ∀ k pw dw, (W.1.zip W.2)[k]? = some (pw, dw) →
      (modes k).1.Full dw.length pw.length ∧ (modes k).2.Full obs.length (2 * pw.length))
    (j : ℕ) (hj : j < pts.length) (hout : ∀ pw ∈ W.1, j ∉ pw) :
    ∃ coefs, s'.coefs_ = some coefs ∧ coefs.length = pts.length ∧ coefs[j]? = some 0 := by
  obtain ⟨C, h0, h1, -, h3⟩ := C26_boosting env junk perm modes P hd d1 d2 d3 dd shape obs pts data
    hdata weights s s' h hpts W hW hnodup hmodes
  refine ⟨_, h1, ?_⟩
  have : ∀ k ≤ (W.1.zip W.2).length, (C k).length = pts.length ∧ (C k)[j]? = some 0 := by
    intro k hk
    induction k with
    | zero => rw [h0]; simp [hj]
    | succ k ih =>
      have hk' : k < (W.1.zip W.2).length := hk
      have hget := List.getElem?_eq_getElem hk'
      obtain ⟨ps, cs, rs, w, v, -, -, -, -, -, -, hl, ho, -⟩ :=
        h3 k (W.1.zip W.2)[k].1 (W.1.zip W.2)[k].2 hget
      have hmem : (W.1.zip W.2)[k].1 ∈ W.1 := (List.of_mem_zip (List.getElem_mem hk')).1
      rw [hl, ho j (hout _ hmem)]
      exact ih (by omega)
  exact this _ (Nat.le_refl _)

/-- C26: the last entry of `rmse_per_iteration_` is the RMS of the data minus `predict` at the data
points. -/
theorem C26_final (env : Env) (junk : Junk) (perm : ℕ → List ℕ) (modes : ℕ → Mode × Mode)
    (P : Params) (hd : P.dtype.IsFloat) (d1 d2 d3 dd : DType) (shape : List ℕ) (obs pts : List P3)
    (hshape : shape.prod = obs.length)
    (data : List ℝ) (hdata : data.length = obs.length) (weights : Option CArr) (s s' : State)
    (h : fitGB env junk perm modes P (coordArrs d1 d2 d3 shape obs) ⟨dd, shape, data⟩ weights s =
      (s', .ok ()))
    (hpts : s'.points_ = some (pointArrs pts)) (W : List (List ℕ) × List (List ℕ))
    (hW : (createWindows env perm P (pointArrs obs) (pointArrs pts) {}).2 = .ok W)
    (hnodup : ∀ pw ∈ W.1, pw.Nodup)
    (hmodes : ∀ k pw dw, (W.1.zip W.2)[k]? = some (pw, dw) →
      (modes k).1.Full dw.length pw.length ∧ (modes k).2.Full obs.length (2 * pw.length))
    (mode : Mode) (hmode : mode.Full obs.length (2 * pts.length)) :
    ∃ r errors, predict junk mode P (coordArrs d1 d2 d3 shape obs) s' = .ok ⟨shape, r⟩ ∧
      s'.rmse_ = some errors ∧ errors.getLast? = some (rootMeanSquare (List.zipWith (· - ·) data r)) := by
  obtain ⟨C, h0, h1, h2, h3⟩ := C26_boosting env junk perm modes P hd d1 d2 d3 dd shape obs pts data
    hdata weights s s' h hpts W hW hnodup hmodes
  have hl : ∀ k ≤ (W.1.zip W.2).length, (C k).length = pts.length := by
    intro k hk
    induction k with
    | zero => rw [h0]; simp
    | succ k ih =>
      have hget := List.getElem?_eq_getElem (show k < (W.1.zip W.2).length from hk)
      obtain ⟨ps, cs, rs, w, v, -, -, -, -, -, -, hl, ho, -⟩ :=
        h3 k (W.1.zip W.2)[k].1 (W.1.zip W.2)[k].2 hget
      rw [hl]; exact ih (by omega)
  have hl' := hl _ (Nat.le_refl _)
  have := predict_eq junk mode P hd d1 d2 d3 shape obs hshape (pts.zip (C (W.1.zip W.2).length))
    (by rw [List.length_zip, hl', min_self]; exact hmode) s'
    (by rw [List.map_fst_zip (by omega)]; exact hpts)
    (by rw [List.map_snd_zip (by omega)]; exact h1)
  refine ⟨_, _, this, h2, ?_⟩
  rw [List.range_succ, List.map_append]
  simp [residual]

theorem fancyIndex_range {α : Type} (a : List α) : fancyIndex a (List.range a.length) = .ok a := by
  apply fancyIndex_of
  rw [List.forall₂_iff_get]
  refine ⟨by simp, ?_⟩
  intro i h1 h2
  simp at h1
  simp [h1]

theorem fancyArrs_range (a : Arrs) (h1 : a.2.1.length = a.1.length) (h2 : a.2.2.length = a.1.length) :
    fancyArrs a (List.range a.1.length) = .ok a := by
  unfold fancyArrs
  rw [fancyIndex_range]
  have e1 := fancyIndex_range a.2.1
  have e2 := fancyIndex_range a.2.2
  rw [h1] at e1
  rw [h2] at e2
  rw [e1, e2]
  rfl

/-- adding to all zeros -/
theorem fancyAdd_zeros (v : List ℝ) (m : ℕ) (hv : v.length = m) :
    fancyAdd (List.replicate m 0) (List.range m) v = .ok v := by
  cases h : fancyAdd (List.replicate m 0) (List.range m) v with
  | error e =>
    exfalso
    unfold fancyAdd at h
    have := fancyIndex_range (List.replicate m (0 : ℝ))
    rw [List.length_replicate] at this
    rw [this] at h
    simp only [Py.bind_ok, List.length_range, hv, ne_eq, not_true_eq_false, if_false,
      Py.pure_eq] at h
    cases h
  | ok r =>
    obtain ⟨-, had⟩ := fancyAdd_ok _ _ List.nodup_range _ _ h
    congr 1
    apply List.ext_getElem
    · rw [had.length]; simp [hv]
    · intro i h1 h2
      have hi : i < (List.range m).length := by simpa [hv] using h2
      obtain ⟨x, hx1, hx2⟩ := had.inside i hi h2
      simp only [List.getElem_range] at hx1 hx2
      have hx : x = 0 := by
        rw [List.getElem?_replicate] at hx1
        split at hx1 <;> simp at hx1
        exact hx1.symm
      rw [List.getElem?_eq_getElem h1] at hx2
      simp only [Option.some.injEq] at hx2
      rw [hx2, hx, zero_add]

/-- C26: with the default window size and at most 5000 data, gradient boosting gives the sources and
the coefficients of a plain `EquivalentSources.fit`. -/
theorem C26_single_window (env : Env) (junk : Junk) (perm : ℕ → List ℕ) (mode : Mode)
    (modes : ℕ → Mode × Mode) (P : Params) (hd : P.dtype.IsFloat) (hw : P.window_size = .str "default")
    (d1 d2 d3 dd : DType) (n : ℕ) (obs pts : List P3) (hn : obs.length = n) (hle : n ≤ 5000)
    (hne : pts ≠ [])
    (data : List ℝ) (hdata : data.length = n) (weights : Option (List ℝ))
    (hweights : ∀ w ∈ weights, w.length = n) (s s1 : State) (coefs : List ℝ)
    (hm : mode.Full n pts.length) (hm0 : (modes 0).1.Full n pts.length)
    (h : fit env junk mode P (coordArrs d1 d2 d3 [n] obs) ⟨dd, [n], data⟩
      (weights.map fun w => ⟨dd, [n], w⟩) s = (s1, .ok ()))
    (hpts : s1.points_ = some (pointArrs pts)) (hcoefs : s1.coefs_ = some coefs)
    (hclen : coefs.length = pts.length) :
    ∃ s2, fitGB env junk perm modes P (coordArrs d1 d2 d3 [n] obs) ⟨dd, [n], data⟩
      (weights.map fun w => ⟨dd, [n], w⟩) s = (s2, .ok ()) ∧
      s2.points_ = s1.points_ ∧ s2.coefs_ = s1.coefs_ := by
  obtain ⟨region, d, pts', coefs', h1, h2, h3, h4, h5, h6⟩ := fit_ok _ _ _ _ _ _ _ _ _ h
  rw [h6] at h
  cases h
  simp only [Option.some.injEq] at hpts hcoefs
  subst hpts; subst hcoefs
  have hwin : ∀ s, createWindows env perm P (pointArrs obs) (pointArrs pts) s =
      ({ s with window_size_ := some none }, .ok ([List.range pts.length], [List.range n])) := by
    intro s
    unfold createWindows getRegionDataSources
    have hr : getRegion (pointArrs obs).1 (pointArrs obs).2.1 = .ok region := by
      rw [castArrs_float hd, n1dArrays_coordArrs] at h2; exact h2
    rw [hr]
    obtain ⟨p, ps, rfl⟩ := List.exists_cons_of_ne_nil hne
    simp only [getRegion, pointArrs, List.map_cons, Py.bind_ok, Py.pure_eq, windowSize, hw,
      List.length_map, hn, hle, if_true, List.length_cons]
  unfold fitGB
  rw [h1]
  simp only [h2, h3]
  unfold gradientBoosting
  rw [castArrs_float hd, n1dArrays_coordArrs] at *
  simp only [hwin, List.zip_cons_cons, List.zip_nil_right]
  rw [boostLoop]
  have hch : chunks (pointArrs obs) (pointArrs pts)
      (Option.map (fun w => List.map P.dtype.cast w.data)
        (Option.map (fun w => (⟨dd, [n], w⟩ : CArr)) weights))
      (List.map P.dtype.cast data) (List.range pts.length) (List.range n) =
      .ok (pointArrs pts, pointArrs obs, weights, data) := by
    have e1 := fancyArrs_range (pointArrs pts) (by simp [pointArrs]) (by simp [pointArrs])
    have e2 := fancyArrs_range (pointArrs obs) (by simp [pointArrs]) (by simp [pointArrs])
    have l1 : (pointArrs pts).1.length = pts.length := by simp [pointArrs]
    have l2 : (pointArrs obs).1.length = n := by simp [pointArrs, hn]
    rw [l1] at e1
    rw [l2] at e2
    have e3 := fancyIndex_range data
    rw [hdata] at e3
    unfold chunks
    rw [e1, e2, cast_float_fun hd, List.map_id, e3]
    cases weights with
    | none => rfl
    | some w =>
      have e4 := fancyIndex_range w
      rw [hweights w rfl] at e4
      simp [e4, Except.map]
      rfl
  rw [hch]
  simp only
  unfold solve
  simp only [h4]
  rw [jacobian_eq junk _ _ hd obs pts (by rw [hn]; exact hm)] at h5
  rw [jacobian_eq junk _ _ hd obs pts (by rw [hn]; exact hm0)]
  have h5' : env.leastSquares (obs.map fun q => pts.map fun p => greensFuncCartesian q p) data
      weights P.damping = .ok coefs' := by
    rw [← h5, cast_float_fun hd, List.map_id]
    cases weights <;> simp
  rw [h5']
  simp only [boostUpdate]
  have l1 : (pointArrs pts).1.length = pts.length := by simp [pointArrs]
  rw [l1, fancyAdd_zeros coefs' pts.length hclen]
  simp only [Py.bind_ok, Py.pure_eq, boostLoop]
  exact ⟨_, rfl, rfl, rfl⟩

/-! ### C27 -/

theorem mem_region (l m : List ℝ) (r : ℝ × ℝ × ℝ × ℝ) (h : getRegion l m = .ok r) :
    (∀ x ∈ l, r.1 ≤ x ∧ x ≤ r.2.1) ∧ ∀ y ∈ m, r.2.2.1 ≤ y ∧ y ≤ r.2.2.2 := by
  have hmin : ∀ (l : List ℝ) (a : ℝ), l.foldl min a ≤ a ∧ ∀ x ∈ l, l.foldl min a ≤ x := by
    intro l
    induction l with
    | nil => intro a; simp
    | cons x l ih =>
      intro a
      obtain ⟨h1, h2⟩ := ih (min a x)
      refine ⟨h1.trans (min_le_left _ _), ?_⟩
      intro y hy
      rcases List.mem_cons.1 hy with rfl | hy
      · exact h1.trans (min_le_right _ _)
      · exact h2 y hy
  have hmax : ∀ (l : List ℝ) (a : ℝ), a ≤ l.foldl max a ∧ ∀ x ∈ l, x ≤ l.foldl max a := by
    intro l
    induction l with
    | nil => intro a; simp
    | cons x l ih =>
      intro a
      obtain ⟨h1, h2⟩ := ih (max a x)
      refine ⟨(le_max_left _ _).trans h1, ?_⟩
      intro y hy
      rcases List.mem_cons.1 hy with rfl | hy
      · exact (le_max_right _ _).trans h1
      · exact h2 y hy
  cases l with
  | nil => cases h
  | cons x l =>
    cases m with
    | nil => cases h
    | cons y m =>
      cases h
      exact ⟨fun a ha => ⟨(hmin _ x).2 a ha, (hmax _ x).2 a ha⟩,
        fun a ha => ⟨(hmin _ y).2 a ha, (hmax _ y).2 a ha⟩⟩

theorem dropEmpty_zip (l : List (List ℕ × List ℕ)) :
    (dropEmpty l).1.length = (dropEmpty l).2.length ∧
    (dropEmpty l).1.zip (dropEmpty l).2 = l.filter fun w => w.1 ≠ [] ∧ w.2 ≠ [] := by
  induction l with
  | nil => exact ⟨rfl, rfl⟩
  | cons w l ih =>
    obtain ⟨a, b⟩ := w
    rw [dropEmpty]
    simp only [List.length_pos_iff, gt_iff_lt]
    by_cases h : a ≠ [] ∧ b ≠ []
    · rw [if_pos h]
      simp only [List.length_cons, List.zip_cons_cons, ih.1, true_and]
      rw [List.filter_cons_of_pos (by simpa using h), ih.2]
    · rw [if_neg h, List.filter_cons_of_neg (by simpa using h)]
      exact ih

theorem selects_map {α : Type} (a : List α) (p : List ℕ) (r : List α)
    (h : List.Forall₂ (fun i x => a[i]? = some x) p r) : r.map some = p.map fun i => a[i]? := by
  induction h with
  | nil => rfl
  | cons h1 _ ih => rw [List.map_cons, List.map_cons, ih, h1]

theorem selects_perm {α : Type} (a : List α) (p : List ℕ) (r : List α)
    (hp : p.Perm (List.range a.length))
    (h : List.Forall₂ (fun i x => a[i]? = some x) p r) : r.Perm a := by
  have h2 := selects_map a p r h
  have h3 : (List.range a.length).map (fun i => a[i]?) = a.map some :=
    range_map_eq a _ _ (fun i hi => by simp)
  have h4 : (r.map some).Perm (a.map some) := by
    rw [h2, ← h3]; exact hp.map _
  have h5 := h4.filterMap id
  simpa [List.filterMap_map] using h5

theorem forall2_zip {α β : Type} (a : List α) (b : List β) (p : List ℕ) :
    ∀ (r : List α) (t : List β), List.Forall₂ (fun i x => a[i]? = some x) p r →
      List.Forall₂ (fun i x => b[i]? = some x) p t →
      List.Forall₂ (fun i x => (a.zip b)[i]? = some x) p (r.zip t) := by
  induction p with
  | nil => intro r t h1 h2; cases h1; cases h2; exact .nil
  | cons i p ih =>
    intro r t h1 h2
    cases h1 with
    | cons h1 h1' =>
    cases h2 with
    | cons h2 h2' =>
    exact .cons (by rw [List.getElem?_zip_eq_some]; exact ⟨h1, h2⟩) (ih _ _ h1' h2')

theorem shuffle2_ok {α β : Type} (perm : ℕ → List ℕ) (hperm : ∀ n, (perm n).Perm (List.range n))
    (a : List α) (b : List β) (r : List α × List β) (h : shuffle2 perm a b = .ok r) :
    a.length = b.length ∧ (r.1.zip r.2).Perm (a.zip b) := by
  unfold shuffle2 at h
  by_cases hl : a.length = b.length
  · simp only [hl, ne_eq, not_true_eq_false, if_false] at h
    cases h1 : fancyIndex a (perm b.length) with
    | error e => rw [h1] at h; cases h
    | ok a' =>
    cases h2 : fancyIndex b (perm b.length) with
    | error e => rw [h1, h2] at h; cases h
    | ok b' =>
    rw [h1, h2] at h
    cases h
    refine ⟨hl, selects_perm _ (perm b.length) _ ?_
      (forall2_zip a b _ _ _ (fancyIndex_ok _ _ _ h1) (fancyIndex_ok _ _ _ h2))⟩
    rw [List.length_zip, hl, min_self]
    exact hperm _
  · simp only [hl, ne_eq, not_false_eq_true, if_true] at h
    cases h

theorem shuffle2_total {α β : Type} (perm : ℕ → List ℕ) (hperm : ∀ n, (perm n).Perm (List.range n))
    (a : List α) (b : List β) (hl : a.length = b.length) : ∃ r, shuffle2 perm a b = .ok r := by
  have key : ∀ {γ : Type} (c : List γ) (p : List ℕ), (∀ i ∈ p, i < c.length) →
      ∃ r, fancyIndex c p = .ok r := by
    intro γ c p hp
    induction p with
    | nil => exact ⟨_, rfl⟩
    | cons i p ih =>
      obtain ⟨r, hr⟩ := ih fun j hj => hp j (List.mem_cons_of_mem _ hj)
      rw [fancyIndex_cons, List.getElem?_eq_getElem (hp i List.mem_cons_self), hr]
      exact ⟨_, rfl⟩
  have hmem : ∀ n, ∀ i ∈ perm n, i < n := fun n i hi => by
    simpa using (hperm n).subset hi
  obtain ⟨r1, h1⟩ := key a (perm a.length) (hmem _)
  obtain ⟨r2, h2⟩ := key b (perm b.length) (hmem _)
  unfold shuffle2
  simp only [hl, ne_eq, not_true_eq_false, if_false]
  rw [hl] at h1
  rw [h1, h2]
  exact ⟨_, rfl⟩

theorem region_contains (c p : Arrs) (r : ℝ × ℝ × ℝ × ℝ) (h : getRegionDataSources c p = .ok r) :
    (∀ x ∈ c.1 ++ p.1, r.1 ≤ x ∧ x ≤ r.2.1) ∧ ∀ y ∈ c.2.1 ++ p.2.1, r.2.2.1 ≤ y ∧ y ≤ r.2.2.2 := by
  unfold getRegionDataSources at h
  cases h1 : getRegion c.1 c.2.1 with
  | error e => rw [h1] at h; cases h
  | ok r1 =>
  cases h2 : getRegion p.1 p.2.1 with
  | error e => rw [h1, h2] at h; cases h
  | ok r2 =>
  rw [h1, h2] at h
  cases h
  have a1 := mem_region _ _ _ h1
  have a2 := mem_region _ _ _ h2
  constructor
  · intro x hx
    rcases List.mem_append.1 hx with hx | hx
    · exact ⟨(min_le_left _ _).trans (a1.1 x hx).1, (a1.1 x hx).2.trans (le_max_left _ _)⟩
    · exact ⟨(min_le_right _ _).trans (a2.1 x hx).1, (a2.1 x hx).2.trans (le_max_right _ _)⟩
  · intro x hx
    rcases List.mem_append.1 hx with hx | hx
    · exact ⟨(min_le_left _ _).trans (a1.2 x hx).1, (a1.2 x hx).2.trans (le_max_left _ _)⟩
    · exact ⟨(min_le_right _ _).trans (a2.2 x hx).1, (a2.2 x hx).2.trans (le_max_right _ _)⟩

/-- C27: the windows created with a window size. `bordado` makes the windows of the sources (`S`) and
of the data (`D`) with the same region, which contains all sources and data, the same size and the
same overlap, so that entry `k` of both is the same window in space. The pairs that are returned
are those of `S` and `D` in which none is empty, each as often as it was, in some order. -/
theorem C27_windows (env : Env) (perm : ℕ → List ℕ) (hperm : ∀ n, (perm n).Perm (List.range n))
    (P : Params) (obs pts : List P3) (s s' : State) (W : List (List ℕ) × List (List ℕ))
    (h : createWindows env perm P (pointArrs obs) (pointArrs pts) s = (s', .ok W)) :
    W.1.length = W.2.length ∧
    ((W = ([List.range pts.length], [List.range obs.length]) ∧ s'.window_size_ = some none ∧
        obs.length ≤ 5000 ∧ ∃ t, P.window_size = .str t) ∨
    ∃ (region : ℝ × ℝ × ℝ × ℝ) (size : ℝ) (S D : List (List ℕ)),
      (∀ q ∈ obs ++ pts, region.1 ≤ q.x ∧ q.x ≤ region.2.1 ∧
        region.2.2.1 ≤ q.y ∧ q.y ≤ region.2.2.2) ∧
      s'.window_size_ = some (some size) ∧ (∀ x, P.window_size = .num x → size = x) ∧
      env.rollingWindow (pts.map (·.x)) (pts.map (·.y)) region size (1 / 2) = .ok S ∧
      env.rollingWindow (obs.map (·.x)) (obs.map (·.y)) region size (1 / 2) = .ok D ∧
      S.length = D.length ∧
      (W.1.zip W.2).Perm ((S.zip D).filter fun w => w.1 ≠ [] ∧ w.2 ≠ [])) := by
  unfold createWindows at h
  cases h1 : getRegionDataSources (pointArrs obs) (pointArrs pts) with
  | error e => rw [h1] at h; cases h
  | ok region =>
  rw [h1] at h
  simp only at h
  cases h2 : windowSize P region (pointArrs obs).1.length with
  | none =>
    rw [h2] at h
    cases h
    refine ⟨rfl, .inl ⟨by simp [pointArrs], rfl, ?_⟩⟩
    unfold windowSize at h2
    cases hw : P.window_size with
    | num x => rw [hw] at h2; cases h2
    | str t =>
      rw [hw] at h2
      simp only at h2
      split at h2
      · next hle => exact ⟨by simpa [pointArrs] using hle, t, rfl⟩
      · cases h2
  | some size =>
    rw [h2] at h
    simp only [Prod.mk.injEq] at h
    obtain ⟨rfl, h⟩ := h
    unfold rollingWindows at h
    cases h3 : env.rollingWindow (pointArrs pts).1 (pointArrs pts).2.1 region size (1 / 2) with
    | error e => rw [h3] at h; cases h
    | ok S =>
    cases h4 : env.rollingWindow (pointArrs obs).1 (pointArrs obs).2.1 region size (1 / 2) with
    | error e => rw [h3, h4] at h; cases h
    | ok D =>
    rw [h3, h4] at h
    simp only [Py.bind_ok] at h
    cases h5 : shuffle2 perm S D with
    | error e => rw [h5] at h; cases h
    | ok r =>
    rw [h5] at h
    simp only [Py.bind_ok, Py.pure_eq, Except.ok.injEq] at h
    subst h
    obtain ⟨hl, hp⟩ := shuffle2_ok perm hperm S D r h5
    refine ⟨(dropEmpty_zip _).1, .inr ⟨region, size, S, D, ?_, rfl, ?_, h3, h4, hl, ?_⟩⟩
    · have := region_contains _ _ _ h1
      simp only [pointArrs] at this
      intro q hq
      have hx := this.1 q.x (by rw [← List.map_append]; exact List.mem_map_of_mem hq)
      have hy := this.2 q.y (by rw [← List.map_append]; exact List.mem_map_of_mem hq)
      exact ⟨hx.1, hx.2, hy.1, hy.2⟩
    · intro x hx
      unfold windowSize at h2
      rw [hx] at h2
      cases h2; rfl
    · rw [(dropEmpty_zip _).2]
      exact hp.filter _

/-- C27: in every pair of windows that is returned neither is empty. -/
theorem C27_nonempty (env : Env) (perm : ℕ → List ℕ) (hperm : ∀ n, (perm n).Perm (List.range n))
    (P : Params) (obs pts : List P3) (s s' : State) (W : List (List ℕ) × List (List ℕ))
    (h : createWindows env perm P (pointArrs obs) (pointArrs pts) s = (s', .ok W)) :
    (∀ pw ∈ W.1, pw ≠ []) ∧ ∀ dw ∈ W.2, dw ≠ [] := by
  have hne : obs ≠ [] ∧ pts ≠ [] := by
    unfold createWindows getRegionDataSources at h
    constructor
    · rintro rfl; cases h
    · rintro rfl
      cases h1 : getRegion (pointArrs obs).1 (pointArrs obs).2.1 <;> rw [h1] at h <;> cases h
  obtain ⟨hl, h1 | ⟨region, size, S, D, -, -, -, -, -, -, hp⟩⟩ :=
    C27_windows env perm hperm P obs pts s s' W h
  · rw [h1.1]
    simp [hne.1, hne.2]
  · have key : ∀ w ∈ W.1.zip W.2, w.1 ≠ [] ∧ w.2 ≠ [] := by
      intro w hw
      simpa using (List.mem_filter.1 (hp.subset hw)).2
    constructor
    · intro pw hpw
      rw [← List.map_fst_zip (l₁ := W.1) (l₂ := W.2) (by omega)] at hpw
      obtain ⟨w, hw, rfl⟩ := List.mem_map.1 hpw
      exact (key w hw).1
    · intro dw hdw
      rw [← List.map_snd_zip (l₁ := W.1) (l₂ := W.2) (by omega)] at hdw
      obtain ⟨w, hw, rfl⟩ := List.mem_map.1 hdw
      exact (key w hw).2

/-- C27: if every data point lies in some spatial window that also has sources (as when the sources
are below the data), then every data point is in one of the windows that are returned. -/
theorem C27_cover (env : Env) (perm : ℕ → List ℕ) (hperm : ∀ n, (perm n).Perm (List.range n))
    (P : Params) (obs pts : List P3) (s s' : State) (W : List (List ℕ) × List (List ℕ))
    (h : createWindows env perm P (pointArrs obs) (pointArrs pts) s = (s', .ok W))
    (hcover : ∀ r size o S D, env.rollingWindow (pts.map (·.x)) (pts.map (·.y)) r size o = .ok S →
      env.rollingWindow (obs.map (·.x)) (obs.map (·.y)) r size o = .ok D →
      ∀ i < obs.length, ∃ w ∈ S.zip D, w.1 ≠ [] ∧ i ∈ w.2) :
    ∀ i < obs.length, ∃ dw ∈ W.2, i ∈ dw := by
  obtain ⟨hl, h1 | ⟨region, size, S, D, -, -, -, h3, h4, -, hp⟩⟩ :=
    C27_windows env perm hperm P obs pts s s' W h
  · intro i hi
    rw [h1.1]
    exact ⟨_, List.mem_cons_self, List.mem_range.2 hi⟩
  · intro i hi
    obtain ⟨w, hw, hne, hiw⟩ := hcover _ _ _ S D h3 h4 i hi
    have : w.2 ≠ [] := fun e => by rw [e] at hiw; simp at hiw
    have hmem := hp.symm.subset (List.mem_filter.2 ⟨hw, by simp [hne, this]⟩)
    exact ⟨w.2, (List.of_mem_zip hmem).2, hiw⟩

/-- C27: with the default window size and at most 5000 data there is a single window with all
sources and all data. -/
theorem C27_single (env : Env) (perm : ℕ → List ℕ) (P : Params) (obs pts : List P3) (s : State)
    (hw : P.window_size = .str "default") (hle : obs.length ≤ 5000) (ho : obs ≠ []) (hp : pts ≠ []) :
    createWindows env perm P (pointArrs obs) (pointArrs pts) s =
      ({ s with window_size_ := some none },
        .ok ([List.range pts.length], [List.range obs.length])) := by
  unfold createWindows getRegionDataSources
  obtain ⟨q, qs, rfl⟩ := List.exists_cons_of_ne_nil ho
  obtain ⟨p, ps, rfl⟩ := List.exists_cons_of_ne_nil hp
  simp only [List.length_cons] at hle
  simp [getRegion, pointArrs, windowSize, hw, hle]
  rfl

/-! ### C28 -/

/-- C28 for `EquivalentSources` without user points: the estimate is the size in bytes of the only
Jacobian that `fit` builds for the same coordinates: data times sources times 4 or 8 bytes. (Missing: user points, for which it is
false, see `C28_not_full`.) -/
theorem C28_cartesian_partial (env : Env) (junk : Junk) (mode : Mode) (P : Params)
    (hd : P.dtype.IsFloat) (hp : P.points = none) (d1 d2 d3 : DType) (shape : List ℕ)
    (obs : List P3) (data : CArr) (weights : Option CArr) (s s' s0 : State)
    (h : fit env junk mode P (coordArrs d1 d2 d3 shape obs) data weights s = (s', .ok ())) :
    ∃ n, (estimateMemory env P (coordArrs d1 d2 d3 shape obs) s0).2 = .ok n ∧
      s'.allocs = s.allocs ++ [n] ∧ ∃ points, s'.points_ = some points ∧
        n = obs.length * points.1.length * (if P.dtype = .float32 then 4 else 8) := by
  obtain ⟨region, d, pts, coefs, -, -, h3, -, -, h6⟩ := fit_ok _ _ _ _ _ _ _ _ _ h
  rw [h6] at h
  cases h
  rw [castArrs_float hd, n1dArrays_coordArrs] at h3 ⊢
  rcases buildPoints_cases env P (pointArrs obs) with ⟨e, h7⟩ | ⟨base, depth, -, -, h7⟩
  · have := h3 {}
    unfold choosePoints at this
    rw [hp] at this
    simp only [h7] at this
    cases this
  · have := h3 {}
    unfold choosePoints at this
    rw [hp] at this
    simp only [h7, castArrs_float hd, Prod.mk.injEq, Except.ok.injEq] at this
    obtain ⟨-, rfl⟩ := this
    unfold estimateMemory
    rw [n1dArrays_coordArrs]
    simp only [h7]
    refine ⟨_, rfl, rfl, _, rfl, ?_⟩
    rw [show (pointArrs obs).1.length = obs.length by simp [pointArrs]]
    congr 1
    generalize P.dtype = dt at hd
    cases dt <;> first | rfl | exact hd.elim

/-- C28 for `EquivalentSourcesSph`, also with user points, when the longitude has eight bytes per
element. (Missing: longitudes in `float32` or `int32`, for which it is false.) -/
theorem C28_spherical_partial (env : Env) (junk : Junk) (mode : Mode) (P : SphParams)
    (c : Coords) (h8 : c.1.dtype = .float64 ∨ c.1.dtype = .int64) (data : CArr) (weights : Option CArr) (s s' : State)
    (h : fitSph env junk mode P c data weights s = (s', .ok ())) :
    s'.allocs = s.allocs ++ [estimateMemorySph P c] := by
  obtain ⟨region, coefs, -, -, -, h6⟩ := fitSph_ok _ _ _ _ _ _ _ _ _ h
  rw [h6] at h
  cases h
  rcases h8 with h8 | h8 <;> simp [estimateMemorySph, h8, DType.itemsize]

theorem foldl_max_spec (l : List ℕ) (x : ℕ) :
    (l.foldl max x = x ∨ l.foldl max x ∈ l) ∧ x ≤ l.foldl max x ∧ ∀ y ∈ l, y ≤ l.foldl max x := by
  induction l generalizing x with
  | nil => simp
  | cons z l ih =>
    obtain ⟨h1, h2, h3⟩ := ih (max x z)
    refine ⟨?_, le_trans (le_max_left _ _) h2, ?_⟩
    · rw [List.foldl_cons]
      rcases h1 with h1 | h1
      · rw [h1]
        rcases le_total x z with hxz | hxz
        · right; rw [max_eq_right hxz]; exact List.mem_cons_self
        · left; exact max_eq_left hxz
      · right; exact List.mem_cons_of_mem _ h1
    · intro y hy
      rcases List.mem_cons.1 hy with rfl | hy
      · exact le_trans (le_max_right _ _) h2
      · exact h3 y hy

/-- two calls with different shuffles give the same pairs of windows, in other orders -/
theorem createWindows_perm (env : Env) (perm perm' : ℕ → List ℕ)
    (hperm : ∀ n, (perm n).Perm (List.range n)) (hperm' : ∀ n, (perm' n).Perm (List.range n))
    (P : Params) (c p : Arrs) (s t s' t' : State) (W W' : List (List ℕ) × List (List ℕ))
    (h : createWindows env perm P c p s = (s', .ok W))
    (h' : createWindows env perm' P c p t = (t', .ok W')) :
    (W.1.zip W.2).Perm (W'.1.zip W'.2) := by
  unfold createWindows at h h'
  cases h1 : getRegionDataSources c p with
  | error e => rw [h1] at h; cases h
  | ok region =>
  rw [h1] at h h'
  simp only at h h'
  cases h2 : windowSize P region c.1.length with
  | none => rw [h2] at h h'; cases h; cases h'; exact List.Perm.refl _
  | some size =>
  rw [h2] at h h'
  simp only [Prod.mk.injEq] at h h'
  obtain ⟨-, h⟩ := h
  obtain ⟨-, h'⟩ := h'
  unfold rollingWindows at h h'
  cases h3 : env.rollingWindow p.1 p.2.1 region size (1 / 2) with
  | error e => rw [h3] at h; cases h
  | ok S =>
  cases h4 : env.rollingWindow c.1 c.2.1 region size (1 / 2) with
  | error e => rw [h3, h4] at h; cases h
  | ok D =>
  rw [h3, h4] at h h'
  simp only [Py.bind_ok] at h h'
  cases h5 : shuffle2 perm S D with
  | error e => rw [h5] at h; cases h
  | ok r =>
  cases h6 : shuffle2 perm' S D with
  | error e => rw [h6] at h'; cases h'
  | ok r' =>
  rw [h5] at h
  rw [h6] at h'
  simp only [Py.bind_ok, Py.pure_eq, Except.ok.injEq] at h h'
  subst h; subst h'
  rw [(dropEmpty_zip _).2, (dropEmpty_zip _).2]
  exact ((shuffle2_ok perm hperm S D r h5).2.trans (shuffle2_ok perm' hperm' S D r' h6).2.symm).filter _

/-- C28 for `EquivalentSourcesGB` without user points: the estimate is the size in bytes of one of
the Jacobians that `fit` builds for the same coordinates, and none is larger, whatever the
shuffles of both calls. (Missing: user points.) -/
theorem C28_gradient_boosted_partial (env : Env) (junk : Junk) (perm perm' : ℕ → List ℕ)
    (hperm : ∀ n, (perm n).Perm (List.range n)) (hperm' : ∀ n, (perm' n).Perm (List.range n))
    (modes : ℕ → Mode × Mode) (P : Params) (hd : P.dtype.IsFloat) (hp : P.points = none)
    (d1 d2 d3 dd : DType) (shape : List ℕ) (obs pts : List P3) (data : List ℝ)
    (hdata : data.length = obs.length) (weights : Option CArr) (s s' s0 s0' : State) (n : ℕ)
    (h : fitGB env junk perm modes P (coordArrs d1 d2 d3 shape obs) ⟨dd, shape, data⟩ weights s =
      (s', .ok ()))
    (hpts : s'.points_ = some (pointArrs pts)) (W : List (List ℕ) × List (List ℕ))
    (hW : (createWindows env perm P (pointArrs obs) (pointArrs pts) {}).2 = .ok W)
    (hnodup : ∀ pw ∈ W.1, pw.Nodup)
    (hmodes : ∀ k pw dw, (W.1.zip W.2)[k]? = some (pw, dw) →
      (modes k).1.Full dw.length pw.length ∧ (modes k).2.Full obs.length (2 * pw.length))
    (he : estimateMemoryGB env perm' P (coordArrs d1 d2 d3 shape obs) s0 = (s0', .ok n)) :
    ∃ new, s'.allocs = s.allocs ++ new ∧ n ∈ new ∧ ∀ x ∈ new, x ≤ n := by
  obtain ⟨region, d, pts', W', size, b, s1, -, -, h3, h4, h5, rfl, hpp, -⟩ :=
    fitGB_ok _ _ _ _ _ _ _ _ _ _ h
  rw [hpp] at hpts
  cases hpts
  rw [castArrs_float hd, n1dArrays_coordArrs] at h3 h4 h5
  rw [h4] at hW
  cases hW
  have hb : ∀ s, ∃ s1, buildPoints env P (pointArrs obs) s = (s1, .ok (pointArrs pts)) := by
    rcases buildPoints_cases env P (pointArrs obs) with ⟨e, h7⟩ | ⟨base, depth, -, -, h7⟩
    · have := h3 {}
      unfold choosePoints at this
      rw [hp] at this
      simp only [h7] at this
      cases this
    · have := h3 {}
      unfold choosePoints at this
      rw [hp] at this
      simp only [h7, castArrs_float hd, Prod.mk.injEq, Except.ok.injEq] at this
      obtain ⟨-, this⟩ := this
      intro s
      exact ⟨_, by rw [h7, this]⟩
  unfold estimateMemoryGB at he
  obtain ⟨s2, hb2⟩ := hb s0
  simp only [n1dArrays_coordArrs, hb2] at he
  cases hcw : createWindows env perm' P (pointArrs obs) (pointArrs pts)
      { s2 with points_ := some (pointArrs pts) } with
  | mk s3 r =>
  rw [hcw] at he
  cases r with
  | error e => cases he
  | ok W2 =>
  simp only [Prod.mk.injEq] at he
  obtain ⟨-, he⟩ := he
  have hperms : (W2.1.zip W2.2).Perm (W.1.zip W.2) := by
    exact createWindows_perm env perm' perm hperm' hperm P _ _ _ _ _ _ W2 W hcw (h4 {})
  obtain ⟨C, -, -, -, -, h10⟩ := boostLoop_spec env junk modes P hd obs pts data hdata _
    (W.1.zip W.2) 0 _ _ s1 b (by simp [pointArrs])
    (by simp only [cast_float_fun hd, List.map_id, pointArrs, List.length_map]
        exact (residual_zero obs pts data hdata).symm)
    (fun w hw => hnodup _ (List.of_mem_zip hw).1)
    (fun t pw dw ht => by rw [Nat.zero_add]; exact hmodes t pw dw ht) h5
  refine ⟨(W.1.zip W.2).map fun w => w.2.length * w.1.length * P.dtype.itemsize, ?_, ?_⟩
  · rw [h10]
  · unfold maxBytes at he
    have hP := hperms.map fun w => w.1.length * w.2.length
    cases hl : (W2.1.zip W2.2).map fun w => w.1.length * w.2.length with
    | nil => rw [hl] at he; cases he
    | cons x l =>
      rw [hl] at he hP
      simp only [Except.ok.injEq] at he
      obtain ⟨m1, m2, m3⟩ := foldl_max_spec l x
      have hmem : ∀ y, y ∈ x :: l ↔ ∃ w ∈ W.1.zip W.2, w.1.length * w.2.length = y := by
        intro y
        rw [hP.mem_iff, List.mem_map]
      constructor
      · have : l.foldl max x ∈ x :: l := by
          rcases m1 with m1 | m1
          · rw [m1]; exact List.mem_cons_self
          · exact List.mem_cons_of_mem _ m1
        obtain ⟨w, hw, hwe⟩ := (hmem _).1 this
        refine List.mem_map.2 ⟨w, hw, ?_⟩
        rw [← he, ← hwe, Nat.mul_comm w.2.length]
      · intro y hy
        obtain ⟨w, hw, rfl⟩ := List.mem_map.1 hy
        have : w.1.length * w.2.length ∈ x :: l := (hmem _).2 ⟨w, hw, rfl⟩
        rw [← he, Nat.mul_comm w.2.length]
        apply Nat.mul_le_mul_right
        rcases List.mem_cons.1 this with h | h
        · rw [h]; exact m2
        · exact m3 _ h

/-! Estimators for the examples and counterexamples. -/

/-- External functions for examples: the solver returns ones, the rolling windows are an empty one
and one with everything. -/
noncomputable def toyEnv : Env where
  leastSquares J d _ _ := if d = [7] then .error .LinAlgError
    else .ok ((J.headD []).map fun _ => 1)
  alloc _ := .ok ()
  blockMedian _ a := .ok a
  meanNeighbour _ _ := .ok 2
  rollingWindow x _ _ _ _ := .ok [[], List.range x.length]

/-- two data points and one source given by the user -/
noncomputable def userParams : Params :=
  { points := some (coordArrs .float64 .float64 .float64 [1] [⟨0, 0, -5⟩]), depth := .num 1 }

noncomputable def twoPoints : Coords := coordArrs .float64 .float64 .float64 [2] [⟨0, 0, 0⟩, ⟨1, 0, 0⟩]

/-- The full C28 is false with user points: `fit` builds a Jacobian of 16 bytes and the estimate says
32, for `EquivalentSources` and for `EquivalentSourcesGB`. -/
theorem C28_not_full (junk : Junk) :
    (fit toyEnv junk .serial userParams twoPoints ⟨.float64, [2], [1, 2]⟩ none {}).1.allocs = [16] ∧
    (estimateMemory toyEnv userParams twoPoints {}).2 = .ok 32 ∧
    (fitGB toyEnv junk List.range (fun _ => (.serial, .serial)) userParams twoPoints
      ⟨.float64, [2], [1, 2]⟩ none {}).1.allocs = [16] ∧
    (estimateMemoryGB toyEnv List.range userParams twoPoints {}).2 = .ok 32 := by
  refine ⟨?_, ?_, ?_, ?_⟩
  · simp [fit, checkFitInput, twoPoints, coordArrs, castArrs, n1dArrays, getRegion, choosePoints,
      userParams, solve, toyEnv, DType.itemsize]
  · simp [estimateMemory, buildPoints, blockCoordinates, sourceDepth, twoPoints, coordArrs, n1dArrays,
      userParams, DType.itemsize]
  · have h : (fitGB toyEnv junk List.range (fun _ => (.serial, .serial)) userParams twoPoints
        ⟨.float64, [2], [1, 2]⟩ none {}).1.allocs = [16] := by
      simp [twoPoints, userParams, fitGB, gradientBoosting, createWindows, getRegionDataSources, windowSize, checkFitInput,
      coordArrs, castArrs, n1dArrays, getRegion, choosePoints, buildPoints, blockCoordinates,
      sourceDepth, solve, toyEnv, DType.itemsize, DType.cast, boostLoop, chunks, fancyArrs,
      fancyIndex_cons, fancyIndex_nil, Except.map, boostUpdate, fancyAdd, jacobian,
      Py.bind_ok, Py.pure_eq, List.range_succ]
    exact h
  · simp [estimateMemoryGB, createWindows, getRegionDataSources, windowSize, buildPoints,
      blockCoordinates, sourceDepth, twoPoints, coordArrs, n1dArrays, getRegion,
      userParams, DType.itemsize, maxBytes, Py.bind_ok, Py.pure_eq]

/-- The full C28 is false for spherical sources and longitudes in single precision: `fit` builds a
Jacobian of 8 bytes and the estimate says 4. -/
theorem C28_not_spherical_float32 (junk : Junk) :
    (fitSph toyEnv junk .serial {} (coordArrs .float32 .float32 .float32 [1] [⟨0, 0, 1000⟩])
      ⟨.float64, [1], [1]⟩ none {}).1.allocs = [8] ∧
    estimateMemorySph {} (coordArrs .float32 .float32 .float32 [1] [⟨0, 0, 1000⟩]) = 4 := by
  constructor
  · simp [fitSph, checkFitInput, coordArrs, n1dArrays, getRegion, sphPoints, solve, toyEnv,
      DType.itemsize]
  · simp [estimateMemorySph, coordArrs, n1dArrays, sphPoints, DType.itemsize]

/-! ### C29 -/

/-- C29: `estimate_required_memory` does not change the predictions of `EquivalentSources`, for any
arguments and any state. -/
theorem C29_estimate (env : Env) (junk : Junk) (P : Params) (c : Coords) (s : State) (mode : Mode)
    (q : Coords) :
    predict junk mode P q (estimateMemory env P c s).1 = predict junk mode P q s := by
  have : (estimateMemory env P c s).1.points_ = s.points_ ∧
      (estimateMemory env P c s).1.coefs_ = s.coefs_ := by
    unfold estimateMemory
    rcases buildPoints_cases env P (n1dArrays c) with ⟨e, h⟩ | ⟨base, depth, -, -, h⟩ <;>
      simp only [h, and_self]
  unfold predict
  rw [this.1, this.2]

/-- histories in which every valid `fit` sets points and coefficients to given values -/
theorem history (step : State → Call → State)
    (fitted : Mode × Coords × CArr × Option CArr → State)
    (h1 : ∀ s call, validFit call = none → (step s call).points_ = s.points_ ∧
      (step s call).coefs_ = s.coefs_) (calls : List Call) (s0 : State)
    (h2 : ∀ s, ∀ call ∈ calls, ∀ args, validFit call = some args →
      (step s call).points_ = (fitted args).points_ ∧ (step s call).coefs_ = (fitted args).coefs_) :
    (calls.foldl step s0).points_ = (((lastFit calls).map fitted).getD s0).points_ ∧
      (calls.foldl step s0).coefs_ = (((lastFit calls).map fitted).getD s0).coefs_ := by
  induction calls generalizing s0 with
  | nil => exact ⟨rfl, rfl⟩
  | cons call calls ih =>
    have := ih (step s0 call) fun s c hc => h2 s c (List.mem_cons_of_mem _ hc)
    rw [List.foldl_cons, lastFit]
    cases hl : lastFit calls with
    | some r => rw [hl] at this; exact this
    | none =>
      rw [hl] at this
      simp only [Option.map_none, Option.getD_none] at this ⊢
      rw [this.1, this.2]
      cases hv : validFit call with
      | none => exact h1 s0 call hv
      | some args => exact h2 s0 call List.mem_cons_self args hv

/-- C29 for `EquivalentSources`: in any history of calls, from any state, in which every `fit` with
consistent shapes returns, the predictions are those of an estimator on which only the last such
`fit` was called. (Missing: a `fit` that raises in the solver, see `C29_not_full`.) -/
theorem C29_history_partial (env : Env) (junk : Junk) (P : Params) (calls : List Call) (s0 : State)
    (hok : ∀ m c d w, Call.fit m c d w ∈ calls → checkFitInput c d w = .ok () →
      (fit env junk m P c d w {}).2 = .ok ()) (mode : Mode) (q : Coords) :
    predict junk mode P q (calls.foldl (Call.step env junk P) s0) =
      match lastFit calls with
      | none => predict junk mode P q s0
      | some (m, c, d, w) => predict junk mode P q (fit env junk m P c d w {}).1 := by
  have := history (Call.step env junk P) (fun a => (fit env junk a.1 P a.2.1 a.2.2.1 a.2.2.2 {}).1)
    ?_ calls s0 ?_
  · unfold predict
    cases hl : lastFit calls with
    | none => rw [hl] at this; simp only [this.1, this.2, Option.map_none, Option.getD_none]
    | some r => rw [hl] at this; simp only [this.1, this.2, Option.map_some, Option.getD_some]
  · intro s call hv
    cases call with
    | fit m c d w =>
      simp only [Call.step]
      unfold fit
      cases hc : checkFitInput c d w with
      | error e => exact ⟨rfl, rfl⟩
      | ok u => simp [validFit, hc] at hv
    | estimate c =>
      simp only [Call.step, estimateMemory]
      rcases buildPoints_cases env P (n1dArrays c) with ⟨e, h⟩ | ⟨base, depth, -, -, h⟩ <;>
        simp only [h, and_self]
    | predict m c => exact ⟨rfl, rfl⟩
  · intro s call hcall args hv
    cases call with
    | estimate c => cases hv
    | predict m c => cases hv
    | fit m c d w =>
      by_cases hc : checkFitInput c d w = .ok ()
      · simp only [validFit, hc, if_true, Option.some.injEq] at hv
        subst hv
        have h2 := hok m c d w hcall hc
        obtain ⟨region, dep, pts, coefs, -, -, -, -, -, h6⟩ :=
          fit_ok env junk m P c d w {} _ (Prod.ext rfl h2)
        simp only [Call.step, h6, and_self]
      · simp [validFit, hc] at hv

/-- C29 for `EquivalentSourcesSph`. -/
theorem C29_history_spherical_partial (env : Env) (junk : Junk) (P : SphParams) (calls : List Call)
    (s0 : State)
    (hok : ∀ m c d w, Call.fit m c d w ∈ calls → checkFitInput c d w = .ok () →
      (fitSph env junk m P c d w {}).2 = .ok ()) (mode : Mode) (q : Coords) :
    predictSph junk mode q (calls.foldl (Call.stepSph env junk P) s0) =
      match lastFit calls with
      | none => predictSph junk mode q s0
      | some (m, c, d, w) => predictSph junk mode q (fitSph env junk m P c d w {}).1 := by
  have := history (Call.stepSph env junk P)
    (fun a => (fitSph env junk a.1 P a.2.1 a.2.2.1 a.2.2.2 {}).1) ?_ calls s0 ?_
  · unfold predictSph
    cases hl : lastFit calls with
    | none => rw [hl] at this; simp only [this.1, this.2, Option.map_none, Option.getD_none]
    | some r => rw [hl] at this; simp only [this.1, this.2, Option.map_some, Option.getD_some]
  · intro s call hv
    cases call with
    | fit m c d w =>
      simp only [Call.stepSph]
      unfold fitSph
      cases hc : checkFitInput c d w with
      | error e => exact ⟨rfl, rfl⟩
      | ok u => simp [validFit, hc] at hv
    | estimate c => exact ⟨rfl, rfl⟩
    | predict m c => exact ⟨rfl, rfl⟩
  · intro s call hcall args hv
    cases call with
    | estimate c => cases hv
    | predict m c => cases hv
    | fit m c d w =>
      by_cases hc : checkFitInput c d w = .ok ()
      · simp only [validFit, hc, if_true, Option.some.injEq] at hv
        subst hv
        have h2 := hok m c d w hcall hc
        obtain ⟨region, coefs, -, -, -, h6⟩ :=
          fitSph_ok env junk m P c d w {} _ (Prod.ext rfl h2)
        simp only [Call.stepSph, h6, and_self]
      · simp [validFit, hc] at hv

/-- one data point at the height `z` -/
noncomputable def atHeight (z : ℝ) : Coords := coordArrs .float64 .float64 .float64 [1] [⟨0, 0, z⟩]

noncomputable def depth1 : Params := { depth := .num 1 }

theorem predict_atHeight (junk : Junk) (s : State) (z : ℝ)
    (hp : s.points_ = some ([0], [0], [z])) (hc : s.coefs_ = some [1]) :
    predict junk .serial depth1 (atHeight 0) s = .ok ⟨[1], [1 / |z|]⟩ := by
  have := predict_eq junk .serial depth1 trivial .float64 .float64 .float64 [1] [⟨0, 0, 0⟩] rfl
    [(⟨0, 0, z⟩, 1)] trivial s hp hc
  unfold atHeight
  rw [this]
  simp only [List.map_cons, List.map_nil, field, List.sum_cons, List.sum_nil]
  rw [← C10_distance_cartesian]
  simp [distanceCartesian, Real.sqrt_sq_eq_abs]

/-- The full C29 is false for `EquivalentSourcesGB`: after a `fit` on one point and an estimate for
another one, the prediction is 1/2 instead of 1. -/
theorem C29_not_gradient_boosted (junk : Junk) :
    let modes := fun _ : ℕ => (Mode.serial, Mode.serial)
    let s := (fitGB toyEnv junk List.range modes depth1 (atHeight 0) ⟨.float64, [1], [1]⟩ none {}).1
    predict junk .serial depth1 (atHeight 0) s = .ok ⟨[1], [1]⟩ ∧
    predict junk .serial depth1 (atHeight 0)
      (estimateMemoryGB toyEnv List.range depth1 (atHeight (-1)) s).1 = .ok ⟨[1], [1 / 2]⟩ := by
  intro modes s
  have hs : s.points_ = some ([0], [0], [-1]) ∧ s.coefs_ = some [1] := by
    simp [s, modes, depth1, atHeight, fitGB, gradientBoosting, createWindows, getRegionDataSources, windowSize, checkFitInput,
      coordArrs, castArrs, n1dArrays, getRegion, choosePoints, buildPoints, blockCoordinates,
      sourceDepth, solve, toyEnv, DType.itemsize, DType.cast, boostLoop, chunks, fancyArrs,
      fancyIndex_cons, fancyIndex_nil, Except.map, boostUpdate, fancyAdd, jacobian,
      Py.bind_ok, Py.pure_eq, List.range_succ]
  constructor
  · rw [predict_atHeight junk s (-1) hs.1 hs.2]; norm_num
  · have he : (estimateMemoryGB toyEnv List.range depth1 (atHeight (-1)) s).1.points_ =
        some ([0], [0], [-2]) ∧
        (estimateMemoryGB toyEnv List.range depth1 (atHeight (-1)) s).1.coefs_ = some [1] := by
      simp [estimateMemoryGB, createWindows, getRegionDataSources, windowSize, buildPoints,
        blockCoordinates, sourceDepth, coordArrs, n1dArrays, getRegion, depth1, atHeight, hs,
        Py.bind_ok, Py.pure_eq]
      norm_num
    rw [predict_atHeight junk _ (-2) he.1 he.2]; norm_num

/-- The full C29 is also false for `EquivalentSources` when a `fit` raises in the solver: the new
sources stay with the old coefficients, and the prediction changes from 1 to 1/2. -/
theorem C29_not_full (junk : Junk) :
    let s := (fit toyEnv junk .serial depth1 (atHeight 0) ⟨.float64, [1], [1]⟩ none {}).1
    let r := fit toyEnv junk .serial depth1 (atHeight (-1)) ⟨.float64, [1], [7]⟩ none s
    predict junk .serial depth1 (atHeight 0) s = .ok ⟨[1], [1]⟩ ∧
    r.2 = .error .LinAlgError ∧
    predict junk .serial depth1 (atHeight 0) r.1 = .ok ⟨[1], [1 / 2]⟩ := by
  intro s r
  have hs : s.points_ = some ([0], [0], [-1]) ∧ s.coefs_ = some [1] := by
    simp [s, fit, checkFitInput, coordArrs, castArrs, n1dArrays, getRegion, choosePoints,
      buildPoints, blockCoordinates, sourceDepth, solve, toyEnv, DType.cast, jacobian, depth1,
      atHeight]
  have hr : r.1.points_ = some ([0], [0], [-2]) ∧ r.1.coefs_ = some [1] ∧
      r.2 = .error .LinAlgError := by
    simp [r, fit, checkFitInput, coordArrs, castArrs, n1dArrays, getRegion, choosePoints,
      buildPoints, blockCoordinates, sourceDepth, solve, toyEnv, DType.cast, jacobian, depth1,
      atHeight, hs]
    norm_num
  refine ⟨?_, hr.2.2, ?_⟩
  · rw [predict_atHeight junk s (-1) hs.1 hs.2]; norm_num
  · rw [predict_atHeight junk _ (-2) hr.1 hr.2.1]; norm_num

/-! ### C76 -/

/-- C76: the three estimators reject inputs whose shapes do not agree (any coordinate, the data or the
weights) with ValueError, before they change any attribute. -/
theorem C76_shapes (env : Env) (junk : Junk) (mode : Mode) (perm : ℕ → List ℕ)
    (modes : ℕ → Mode × Mode) (P : Params) (Q : SphParams) (coordinates : Coords) (data : CArr)
    (weights : Option CArr) (s : State)
    (h : ¬ (coordinates.1.shape = data.shape ∧ coordinates.2.1.shape = data.shape ∧
      coordinates.2.2.shape = data.shape ∧ ∀ w ∈ weights, w.shape = data.shape)) :
    fit env junk mode P coordinates data weights s = (s, .error .ValueError) ∧
      fitGB env junk perm modes P coordinates data weights s = (s, .error .ValueError) ∧
      fitSph env junk mode Q coordinates data weights s = (s, .error .ValueError) := by
  have hc : checkFitInput coordinates data weights = .error .ValueError := by
    unfold checkFitInput
    by_cases h1 : coordinates.2.1.shape ≠ coordinates.1.shape ∨
        coordinates.2.2.shape ≠ coordinates.1.shape ∨ data.shape ≠ coordinates.1.shape
    · rw [if_pos h1]
    · rw [if_neg h1, if_pos]
      push Not at h1
      obtain ⟨a, b, c⟩ := h1
      by_contra h2
      push Not at h2
      exact h ⟨c.symm, a.trans c.symm, b.trans c.symm, h2⟩
  refine ⟨?_, ?_, ?_⟩
  · unfold fit; rw [hc]
  · unfold fitGB; rw [hc]
  · unfold fitSph; rw [hc]

/-- C76: a concrete case: three coordinates, two data -/
example (env : Env) (junk : Junk) (s : State) :
    fit env junk .serial {} (⟨.float64, [3], [1, 2, 3]⟩, ⟨.float64, [3], [1, 2, 3]⟩,
      ⟨.float64, [3], [0, 0, 0]⟩) ⟨.float64, [2], [1, 2]⟩ none s = (s, .error .ValueError) :=
  (C76_shapes env junk .serial (fun _ => []) (fun _ => (.serial, .serial)) {} {} _ _ _ s
    (by simp)).1

end Verif.EqSources
