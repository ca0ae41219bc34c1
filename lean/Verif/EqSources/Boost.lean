import Verif.EqSources.Lemmas
import Mathlib.Algebra.BigOperators.Group.Finset.Basic
import Mathlib.Algebra.BigOperators.Ring.Finset

/-! Lemmas about gradient boosting. -/

namespace Verif.EqSources
open Verif.Forward Verif.Engine Verif.Distance

theorem fancyIndex_nil {α : Type} (a : List α) : fancyIndex a [] = .ok [] := rfl

theorem fancyIndex_cons {α : Type} (a : List α) (i : ℕ) (l : List ℕ) :
    fancyIndex a (i :: l) = (match a[i]? with
      | some x => (fancyIndex a l).map (x :: ·)
      | none => .error .IndexError) := by
  unfold fancyIndex
  rw [List.mapM_cons]
  cases h : a[i]? with
  | none => rfl
  | some x =>
    simp only
    cases List.mapM (fun i => match a[i]? with
        | some x => (Except.ok x : Py α)
        | none => .error .IndexError) l <;> rfl

/-- successful indexing -/
theorem fancyIndex_ok {α : Type} (a : List α) (l : List ℕ) (r : List α)
    (h : fancyIndex a l = .ok r) : List.Forall₂ (fun i x => a[i]? = some x) l r := by
  induction l generalizing r with
  | nil => rw [fancyIndex_nil] at h; cases h; exact .nil
  | cons i l ih =>
    rw [fancyIndex_cons] at h
    cases ha : a[i]? with
    | none => rw [ha] at h; cases h
    | some x =>
      rw [ha] at h
      simp only at h
      cases hl : fancyIndex a l with
      | error e => rw [hl] at h; cases h
      | ok r' => rw [hl] at h; cases h; exact .cons ha (ih r' hl)

theorem fancyIndex_of {α : Type} (a : List α) (l : List ℕ) (r : List α)
    (h : List.Forall₂ (fun i x => a[i]? = some x) l r) : fancyIndex a l = .ok r := by
  induction h with
  | nil => rfl
  | cons h1 _ ih => rw [fancyIndex_cons, h1, ih]; rfl

/-- indexing a mapped list -/
theorem fancyIndex_map {α β : Type} (f : α → β) (a : List α) (l : List ℕ) :
    fancyIndex (a.map f) l = (fancyIndex a l).map (List.map f) := by
  induction l with
  | nil => rfl
  | cons i l ih =>
    rw [fancyIndex_cons, fancyIndex_cons, ih]
    cases h : a[i]? with
    | none => simp only [List.getElem?_map, h]; rfl
    | some x =>
      simp only [List.getElem?_map, h]
      cases fancyIndex a l <;> rfl

theorem fancyArrs_points (pts : List P3) (l : List ℕ) :
    fancyArrs (pointArrs pts) l = (fancyIndex pts l).map pointArrs := by
  unfold fancyArrs pointArrs
  simp only [fancyIndex_map]
  cases fancyIndex pts l <;> rfl

theorem forall2_mem_lt {α : Type} {a : List α} {l : List ℕ} {r : List α}
    (h : List.Forall₂ (fun i x => a[i]? = some x) l r) : ∀ i ∈ l, i < a.length := by
  induction h with
  | nil => simp
  | cons h1 _ ih =>
    intro i hi
    rcases List.mem_cons.1 hi with rfl | hi
    · exact (List.getElem?_eq_some_iff.1 h1).1
    · exact ih i hi

theorem forall2_set {a : List ℝ} {l : List ℕ} {r : List ℝ} {i : ℕ} (hi : i ∉ l)
    (h : List.Forall₂ (fun j x => a[j]? = some x) l r) (y : ℝ) :
    List.Forall₂ (fun j x => (a.set i y)[j]? = some x) l r := by
  induction h with
  | nil => exact .nil
  | cons h1 _ ih =>
    rw [List.mem_cons, not_or] at hi
    refine .cons ?_ (ih hi.2)
    rw [List.getElem?_set_ne hi.1]; exact h1

/-- result of `a[indices] += values` -/
structure Added (a : List ℝ) (l : List ℕ) (v r : List ℝ) : Prop where
  length : r.length = a.length
  out : ∀ j, j ∉ l → r[j]? = a[j]?
  inside : ∀ t (ht : t < l.length) (hv : t < v.length),
    ∃ x, a[l[t]]? = some x ∧ r[l[t]]? = some (x + v[t])
  sum : ∀ G : ℕ → ℝ, (∑ j ∈ Finset.range a.length, r.getD j 0 * G j) =
    (∑ j ∈ Finset.range a.length, a.getD j 0 * G j) + (List.zipWith (fun i c => c * G i) l v).sum

theorem sum_set (a : List ℝ) (i : ℕ) (hi : i < a.length) (x : ℝ) (G : ℕ → ℝ) :
    (∑ j ∈ Finset.range a.length, (a.set i x).getD j 0 * G j) =
      (∑ j ∈ Finset.range a.length, a.getD j 0 * G j) + (x - a.getD i 0) * G i := by
  have : ∀ j ∈ Finset.range a.length, (a.set i x).getD j 0 * G j =
      a.getD j 0 * G j + if j = i then (x - a.getD i 0) * G i else 0 := by
    intro j hj
    rw [Finset.mem_range] at hj
    by_cases h : j = i
    · subst h; simp [List.getD_eq_getElem?_getD, hj]; ring
    · have h' : i ≠ j := fun e => h e.symm
      simp [List.getD_eq_getElem?_getD, List.getElem?_set_ne h', h]
  rw [Finset.sum_congr rfl this, Finset.sum_add_distrib]
  simp [hi]

theorem foldl_set_spec (l : List ℕ) (hn : l.Nodup) :
    ∀ (a old v : List ℝ), List.Forall₂ (fun i x => a[i]? = some x) l old → v.length = l.length →
      Added a l v ((l.zip (List.zipWith (· + ·) old v)).foldl (fun a iv => a.set iv.1 iv.2) a) := by
  induction l with
  | nil =>
    intro a old v h hv
    simp at hv; subst hv
    exact ⟨rfl, fun j _ => rfl, fun t ht => by simp at ht, fun G => by simp⟩
  | cons i l ih =>
    intro a old v h hv
    cases h with
    | @cons _ x _ old h1 h2 =>
    cases v with
    | nil => simp at hv
    | cons c v =>
      simp only [List.zipWith_cons_cons, List.zip_cons_cons, List.foldl_cons]
      have hn' := List.nodup_cons.1 hn
      have hi : i < a.length := (List.getElem?_eq_some_iff.1 h1).1
      have h3 : List.Forall₂ (fun j y => (a.set i (x + c))[j]? = some y) l old := by
        exact forall2_set hn'.1 h2 _
      have := ih hn'.2 (a.set i (x + c)) old v h3 (by simpa using hv)
      refine ⟨by rw [this.length, List.length_set], ?_, ?_, ?_⟩
      · intro j hj
        rw [List.mem_cons, not_or] at hj
        rw [this.out j hj.2, List.getElem?_set_ne (fun e => hj.1 e.symm)]
      · intro t ht hv
        cases t with
        | zero =>
          refine ⟨x, h1, ?_⟩
          rw [List.getElem_cons_zero, this.out i hn'.1]
          simp [hi]
        | succ t =>
          obtain ⟨y, hy1, hy2⟩ := this.inside t (by simpa using ht) (by simpa using hv)
          refine ⟨y, ?_, hy2⟩
          rw [List.getElem_cons_succ]
          rw [List.getElem?_set_ne] at hy1
          · exact hy1
          · intro e
            exact hn'.1 (e ▸ List.getElem_mem _)
      · intro G
        have h4 := this.sum G
        rw [List.length_set] at h4
        rw [h4, sum_set a i hi]
        have : a.getD i 0 = x := by simp [List.getD_eq_getElem?_getD, h1]
        rw [this]
        simp only [List.zipWith_cons_cons, List.sum_cons]
        ring

theorem fancyAdd_ok (a : List ℝ) (l : List ℕ) (hn : l.Nodup) (v r : List ℝ)
    (h : fancyAdd a l v = .ok r) : v.length = l.length ∧ Added a l v r := by
  unfold fancyAdd at h
  cases ho : fancyIndex a l with
  | error e => rw [ho] at h; cases h
  | ok old =>
    rw [ho] at h
    by_cases hl : v.length = l.length
    · simp only [hl, Py.bind_ok, ne_eq, not_true_eq_false, if_false, Py.pure_eq] at h
      cases h
      exact ⟨hl, foldl_set_spec l hn a old v (fancyIndex_ok a l old ho) hl⟩
    · simp only [hl, Py.bind_ok, ne_eq, not_false_eq_true, if_true, Py.throw_eq, Py.bind_error] at h
      cases h

/-- field as a sum over indices -/
theorem field_range (q : P3) (pts : List P3) (c : List ℝ) (h : c.length = pts.length) :
    field cartPos (pts.zip c) q = ∑ j ∈ Finset.range c.length, c.getD j 0 *
      (match pts[j]? with | some p => 1 / dist (cartPos q) (cartPos p) | none => 0) := by
  induction pts generalizing c with
  | nil => simp at h; subst h; simp [field]
  | cons p pts ih =>
    cases c with
    | nil => simp at h
    | cons x c =>
      rw [List.length_cons, Finset.sum_range_succ']
      have := ih c (by simpa using h)
      simp only [List.getD_cons_succ, List.getElem?_cons_succ, List.getD_cons_zero,
        List.getElem?_cons_zero]
      rw [← this]
      simp only [field, List.zip_cons_cons, List.map_cons, List.sum_cons]
      ring

theorem field_chunk (q : P3) (pts : List P3) (l : List ℕ) (ps : List P3)
    (h : List.Forall₂ (fun i x => pts[i]? = some x) l ps) (v : List ℝ) :
    (List.zipWith (fun i c => c *
      (match pts[i]? with | some p => 1 / dist (cartPos q) (cartPos p) | none => 0)) l v).sum =
      field cartPos (ps.zip v) q := by
  induction h generalizing v with
  | nil => simp [field]
  | cons h1 _ ih =>
    cases v with
    | nil => simp [field]
    | cons x v =>
      simp only [List.zipWith_cons_cons, List.sum_cons, ih v, h1]
      simp only [field, List.zip_cons_cons, List.map_cons, List.sum_cons]
      ring

/-- the field of the updated coefficients -/
theorem field_added (q : P3) (pts : List P3) (l : List ℕ) (ps : List P3)
    (h : List.Forall₂ (fun i x => pts[i]? = some x) l ps) (a v r : List ℝ)
    (ha : a.length = pts.length) (had : Added a l v r) :
    field cartPos (pts.zip r) q = field cartPos (pts.zip a) q + field cartPos (ps.zip v) q := by
  rw [field_range q pts r (by rw [had.length, ha]), field_range q pts a ha, had.length, had.sum,
    field_chunk q pts l ps h]

theorem residual_length (obs pts : List P3) (data c : List ℝ) (h : data.length = obs.length) :
    (residual obs pts data c).length = obs.length := by
  simp [residual, h]

theorem residual_added (obs pts : List P3) (data : List ℝ) (l : List ℕ) (ps : List P3)
    (h : List.Forall₂ (fun i x => pts[i]? = some x) l ps) (a v r : List ℝ)
    (ha : a.length = pts.length) (had : Added a l v r) :
    List.zipWith (· - ·) (residual obs pts data a) (obs.map (field cartPos (ps.zip v))) =
      residual obs pts data r := by
  unfold residual
  rw [show field cartPos (pts.zip r) = fun q => field cartPos (pts.zip a) q +
    field cartPos (ps.zip v) q from funext fun q => field_added q pts l ps h a v r ha had]
  induction obs generalizing data with
  | nil => simp
  | cons q obs ih =>
    cases data with
    | nil => simp
    | cons d data => simp [ih data, sub_sub]

/-- the loop of `_gradient_boosting` -/
theorem boostLoop_spec (env : Env) (junk : Junk) (modes : ℕ → Mode × Mode) (P : Params)
    (hd : P.dtype.IsFloat) (obs pts : List P3) (data : List ℝ) (hdata : data.length = obs.length)
    (weights : Option (List ℝ)) (W : List (List ℕ × List ℕ)) :
    ∀ (k : ℕ) (b : Boost) (s s' : State) (b' : Boost),
      b.coefs.length = pts.length → b.residue = residual obs pts data b.coefs →
      (∀ w ∈ W, w.1.Nodup) →
      (∀ t pw dw, W[t]? = some (pw, dw) → (modes (k + t)).1.Full dw.length pw.length ∧
        (modes (k + t)).2.Full obs.length (2 * pw.length)) →
      boostLoop env junk modes P (pointArrs obs) (pointArrs pts) weights W k b s = (s', .ok b') →
      ∃ C : ℕ → List ℝ, C 0 = b.coefs ∧ b'.coefs = C W.length ∧
        b'.errors = b.errors ++ (List.range W.length).map
          (fun t => rms (residual obs pts data (C (t + 1)))) ∧
        (∀ t pw dw, W[t]? = some (pw, dw) →
          BoostStep env P.damping obs pts data weights pw dw (C t) (C (t + 1))) ∧
        s' = { s with
          coefs_ := if W = [] then s.coefs_ else some (C W.length),
          allocs := s.allocs ++ W.map fun w => w.2.length * w.1.length * P.dtype.itemsize } := by
  induction W with
  | nil =>
    intro k b s s' b' hlen hres hnod hmode h
    simp only [boostLoop, Prod.mk.injEq, Except.ok.injEq] at h
    obtain ⟨rfl, rfl⟩ := h
    exact ⟨fun _ => b.coefs, rfl, rfl, by simp, by simp, by simp⟩
  | cons w W ih =>
    obtain ⟨pw, dw⟩ := w
    intro k b s s' b' hlen hres hnod hmode h
    obtain ⟨hm1, hm2⟩ := hmode 0 pw dw rfl
    rw [Nat.add_zero] at hm1 hm2
    have hpwn : pw.Nodup := hnod _ List.mem_cons_self
    rw [boostLoop] at h
    unfold chunks at h
    rw [fancyArrs_points, fancyArrs_points] at h
    cases hps : fancyIndex pts pw with
    | error e => rw [hps] at h; cases h
    | ok ps =>
    cases hcs : fancyIndex obs dw with
    | error e => rw [hps, hcs] at h; cases h
    | ok cs =>
    rw [hps, hcs] at h
    have hps' := fancyIndex_ok _ _ _ hps
    have hcs' := fancyIndex_ok _ _ _ hcs
    have hpl : pw.length = ps.length := hps'.length_eq
    have hcl : dw.length = cs.length := hcs'.length_eq
    simp only [Except.map, Py.bind_ok] at h
    -- weights
    obtain ⟨wc, hwc, h⟩ : ∃ wc, SelectsWeights weights dw wc ∧
        (match (do
            let residue_chunk ← fancyIndex b.residue dw
            pure (pointArrs ps, pointArrs cs, wc, residue_chunk) : Py _) with
          | .error e => (s, Except.error e)
          | .ok (points_chunk, coords_chunk, weights_chunk, residue_chunk) =>
            match solve env junk (modes k).1 greensFuncCartesian P.dtype P.damping coords_chunk
                points_chunk residue_chunk weights_chunk s with
            | (s, .error e) => (s, .error e)
            | (s, .ok coeffs_chunk) =>
              match boostUpdate junk (modes k).2 P.dtype (pointArrs obs) points_chunk pw
                  coeffs_chunk b with
              | .error e => (s, .error e)
              | .ok b => boostLoop env junk modes P (pointArrs obs) (pointArrs pts) weights W (k + 1)
                  b { s with coefs_ := some b.coefs }) = (s', Except.ok b') := by
      cases weights with
      | none => exact ⟨none, trivial, h⟩
      | some wt =>
        cases hw : fancyIndex wt dw with
        | error e => simp only [hw] at h; cases h
        | ok w' =>
          simp only [hw] at h
          exact ⟨some w', fancyIndex_ok _ _ _ hw, h⟩
    cases hrs : fancyIndex b.residue dw with
    | error e => rw [hrs] at h; cases h
    | ok rs =>
    rw [hrs] at h
    have hrs' := fancyIndex_ok _ _ _ hrs
    simp only [Py.bind_ok, Py.pure_eq] at h
    unfold solve at h
    simp only at h
    rw [show (pointArrs cs).1.length = dw.length by simp [pointArrs, hcl],
      show (pointArrs ps).1.length = pw.length by simp [pointArrs, hpl]] at h
    cases hal : env.alloc (dw.length * pw.length * P.dtype.itemsize) with
    | error e => rw [hal] at h; cases h
    | ok _ =>
    rw [hal] at h
    simp only at h
    rw [jacobian_eq junk _ _ hd cs ps (by rw [← hcl, ← hpl]; exact hm1)] at h
    cases hls : env.leastSquares (cs.map fun q => ps.map fun p => greensFuncCartesian q p) rs wc
        P.damping with
    | error e => rw [hls] at h; cases h
    | ok v =>
    rw [hls] at h
    simp only at h
    unfold boostUpdate at h
    simp only at h
    cases hfa : fancyAdd b.coefs pw v with
    | error e => rw [hfa] at h; cases h
    | ok c' =>
    rw [hfa] at h
    simp only [Py.bind_ok, Py.pure_eq] at h
    obtain ⟨hvl, had⟩ := fancyAdd_ok _ _ hpwn _ _ hfa
    have hpred : predictKernel junk (modes k).2 greensFuncCartesian P.dtype (pointArrs obs)
        (pointArrs ps) v b.residue.length = obs.map (field cartPos (ps.zip v)) := by
      have h1 : (ps.zip v).map (·.1) = ps := List.map_fst_zip (by omega)
      have h2 : (ps.zip v).map (·.2) = v := List.map_snd_zip (by omega)
      have := predictKernel_eq junk (modes k).2 greensFuncCartesian hd obs (ps.zip v)
        (by simp only [List.length_zip, hvl, ← hpl, min_self]; exact hm2)
      rw [h1, h2] at this
      rw [hres, residual_length _ _ _ _ hdata, this]
      simp only [greensCart]
      rfl
    rw [hpred, hres, residual_added obs pts data pw ps hps' b.coefs v c' hlen had] at h
    obtain ⟨C, hC0, hC1, hC2, hC3, hC4⟩ := ih (k + 1) _ _ s' b' (had.length.trans hlen) rfl
      (fun w hw => hnod w (List.mem_cons_of_mem _ hw))
      (fun t pw dw ht => by
        have := hmode (t + 1) pw dw ht
        rwa [show k + (t + 1) = k + 1 + t by omega] at this) h
    refine ⟨fun t => match t with | 0 => b.coefs | t + 1 => C t, rfl, hC1, ?_, ?_, ?_⟩
    · rw [hC2, List.length_cons, List.range_succ_eq_map]
      simp [hC0, List.map_map, Function.comp_def]
    · intro t pw' dw' ht
      cases t with
      | succ t => exact hC3 t pw' dw' ht
      | zero =>
        simp only [List.getElem?_cons_zero, Option.some.injEq, Prod.mk.injEq] at ht
        obtain ⟨rfl, rfl⟩ := ht
        refine ⟨ps, cs, rs, wc, v, hps', hcs', ?_, hwc, ?_, hvl, ?_, ?_, ?_⟩
        · rw [hres] at hrs'; exact hrs'
        · simpa only [greensCart1] using hls
        · simp only [hC0]; exact had.length
        · simp only [hC0]; exact had.out
        · simp only [hC0]; exact had.inside
    · rw [hC4]
      simp only [List.map_cons, reduceCtorEq, if_false, List.length_cons, List.append_assoc,
        List.singleton_append, State.mk.injEq, true_and, and_true]
      by_cases hW : W = []
      · subst hW; simp [hC0]
      · simp [hW]

end Verif.EqSources
