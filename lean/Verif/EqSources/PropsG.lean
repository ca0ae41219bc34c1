import Verif.EqSources.PropsE

/-! C100: fitting equivalent sources does not worsen the misfit. -/

namespace Verif.EqSources
open Verif.Forward Verif.Engine Verif.Distance Verif.Layers

/-! ### Specification -/

/-- Weighted sum of the squares of residuals. -/
noncomputable def misfit (w : Option (List ℝ)) (r : List ℝ) : ℝ :=
  match w with
  | none => (r.map fun x => x ^ 2).sum
  | some w => (List.zipWith (fun w x => w * x ^ 2) w r).sum

/-- The solution of the solver, with weights and damping that are not negative, has at most the misfit
of zero coefficients (least squares, damped or not, minimizes the misfit plus a penalty that is zero
for zero coefficients). -/
structure NeverWorse (env : Env) : Prop where
  size : ∀ (J : List (List ℝ)) (n : ℕ) (d : List ℝ) (w : Option (List ℝ)) (damping : Option ℝ) (c : List ℝ),
    J ≠ [] → (∀ row ∈ J, row.length = n) → env.leastSquares J d w damping = .ok c → c.length = n
  misfit : ∀ (J : List (List ℝ)) (d : List ℝ) (w : Option (List ℝ)) (damping : Option ℝ) (c : List ℝ),
    (∀ row ∈ J, row.length = c.length) → d.length = J.length →
    (∀ w' ∈ w, w'.length = d.length ∧ ∀ x ∈ w', 0 ≤ x) → (∀ x ∈ damping, 0 ≤ x) →
    env.leastSquares J d w damping = .ok c →
    misfit w (List.zipWith (· - ·) d (matVec J c)) ≤ misfit w d

/-! ### Lemmas -/

theorem matVec_zip (pos : P3 → E3) (obs pts : List P3) (v : List ℝ) :
    matVec (obs.map fun q => pts.map fun p => 1 / dist (pos q) (pos p)) v =
      obs.map (field pos (pts.zip v)) := by
  unfold matVec field
  rw [List.map_map]
  apply List.map_congr_left
  intro q _
  rw [Function.comp_apply]
  congr 1
  induction pts generalizing v with
  | nil => simp
  | cons p pts ih =>
    cases v with
    | nil => simp
    | cons x v =>
      simp only [List.map_cons, List.zipWith_cons_cons, List.zip_cons_cons, ih, List.cons.injEq, and_true]
      ring

theorem selects_unique {α : Type} {a : List α} {l : List ℕ} {r r' : List α} (h : Selects a l r)
    (h' : Selects a l r') : r = r' := by
  unfold Selects at h h'
  have e1 := fancyIndex_of _ _ _ h
  have e2 := fancyIndex_of _ _ _ h'
  rw [e1] at e2
  exact Except.ok.inj e2

theorem selects_length {α : Type} {a : List α} {l : List ℕ} {r : List α} (h : Selects a l r) :
    r.length = l.length := h.length_eq.symm

theorem selects_mem {α : Type} {a : List α} {l : List ℕ} {r : List α} (h : Selects a l r) :
    ∀ x ∈ r, x ∈ a := by
  unfold Selects at h
  induction h with
  | nil => simp
  | cons h0 _ ih =>
    intro x hx
    rcases List.mem_cons.1 hx with rfl | hx
    · exact List.mem_of_getElem? h0
    · exact ih x hx

theorem selectsWeights_unique {weights : Option (List ℝ)} {dw : List ℕ} {w w' : Option (List ℝ)}
    (h : SelectsWeights weights dw w) (h' : SelectsWeights weights dw w') : w = w' := by
  unfold SelectsWeights at h h'
  cases weights <;> cases w <;> cases w' <;> simp only at h h'
  · rfl
  · rw [selects_unique h h']

/-- The coefficients after a window are determined by those before it. -/
theorem boostStep_added {pw : List ℕ} (hn : pw.Nodup) {C C' v : List ℝ} (hv : v.length = pw.length)
    (hout : ∀ j, j ∉ pw → C'[j]? = C[j]?)
    (hin : ∀ t (ht : t < pw.length) (hv : t < v.length),
      ∃ x, C[pw[t]]? = some x ∧ C'[pw[t]]? = some (x + v[t])) : Added C pw v C' := by
  have hlt : ∀ i ∈ pw, i < C.length := by
    intro i hi
    obtain ⟨t, ht, rfl⟩ := List.getElem_of_mem hi
    obtain ⟨x, hx, -⟩ := hin t ht (hv ▸ ht)
    exact (List.getElem?_eq_some_iff.1 hx).1
  have hold : List.Forall₂ (fun i x => C[i]? = some x) pw (pw.map fun i => C.getD i 0) := by
    rw [List.forall₂_map_right_iff]
    apply List.forall₂_same.2
    intro i hi
    simp [List.getElem?_eq_getElem (hlt i hi)]
  have hA := foldl_set_spec pw hn C _ v hold hv
  generalize (pw.zip (List.zipWith (· + ·) (pw.map fun i => C.getD i 0) v)).foldl
    (fun a iv => a.set iv.1 iv.2) C = r at hA
  have : r = C' := by
    apply List.ext_getElem?
    intro j
    by_cases hj : j ∈ pw
    · obtain ⟨t, ht, rfl⟩ := List.getElem_of_mem hj
      obtain ⟨x, h1, h2⟩ := hA.inside t ht (hv ▸ ht)
      obtain ⟨y, h3, h4⟩ := hin t ht (hv ▸ ht)
      rw [h1] at h3
      cases h3
      rw [h2, h4]
    · rw [hA.out j hj, hout j hj]
  rwa [this] at hA

theorem selects_sub {a : List ℝ} {obs : List P3} {l : List ℕ} {r : List ℝ} {cs : List P3} (f : P3 → ℝ)
    (h : Selects a l r) (h' : Selects obs l cs) :
    Selects (List.zipWith (· - ·) a (obs.map f)) l (List.zipWith (· - ·) r (cs.map f)) := by
  unfold Selects at *
  induction h generalizing cs with
  | nil => cases h'; exact .nil
  | cons h0 _ ih =>
    cases h' with
    | cons h1 h2 =>
      refine .cons ?_ (ih h2)
      rw [List.getElem?_zipWith, List.getElem?_map, h0, h1]
      rfl

/-- A window does not worsen the misfit of its data. -/
theorem boostStep_misfit {env : Env} (hls : NeverWorse env) {damping : Option ℝ}
    (hdamp : ∀ x ∈ damping, 0 ≤ x) {obs pts : List P3} {data : List ℝ} {weights : Option (List ℝ)}
    (hweights : ∀ w ∈ weights, ∀ x ∈ w, 0 ≤ x) {pw dw : List ℕ} (hn : pw.Nodup) {C C' : List ℝ}
    (hC : C.length = pts.length)
    (h : BoostStep env damping obs pts data weights pw dw C C') {r r' : List ℝ} {w : Option (List ℝ)}
    (hr : Selects (residual obs pts data C) dw r) (hr' : Selects (residual obs pts data C') dw r')
    (hw : SelectsWeights weights dw w) : misfit w r' ≤ misfit w r := by
  obtain ⟨ps, cs, rs, w0, v, h1, h2, h3, h4, h5, h6, h7, h8, h9⟩ := h
  obtain rfl := selects_unique h3 hr
  obtain rfl := selectsWeights_unique h4 hw
  have hA := boostStep_added hn h6 h8 h9
  have hres := residual_added obs pts data pw ps h1 C v C' hC hA
  have hsel := selects_sub (field cartPos (ps.zip v)) h3 h2
  rw [hres] at hsel
  obtain rfl := selects_unique hsel hr'
  rw [← matVec_zip]
  refine hls.misfit _ _ _ _ _ ?_ ?_ ?_ hdamp h5
  · intro row hrow
    obtain ⟨q, -, rfl⟩ := List.mem_map.1 hrow
    rw [List.length_map, selects_length h1, h6]
  · rw [List.length_map, selects_length h2, selects_length h3]
  · intro w' hw'
    cases weights with
    | none => cases w0 with
      | none => cases hw'
      | some w1 => exact absurd h4 (by simp [SelectsWeights])
    | some wt => cases w0 with
      | none => cases hw'
      | some w1 =>
        cases hw'
        exact ⟨by rw [selects_length h4, selects_length h3],
          fun x hx => hweights wt rfl x (selects_mem h4 x hx)⟩

/-! ### C100 -/

/-- C100: in gradient boosting, each window leaves the data of the window with at most the (weighted)
misfit they had before it. -/
theorem C100_window (env : Env) (hls : NeverWorse env) (junk : Junk) (perm : ℕ → List ℕ)
    (modes : ℕ → Mode × Mode) (P : Params) (hd : P.dtype.IsFloat) (hdamp : ∀ x ∈ P.damping, 0 ≤ x)
    (d1 d2 d3 dd : DType) (shape : List ℕ) (obs pts : List P3)
    (data : List ℝ) (hdata : data.length = obs.length) (weights : Option CArr)
    (hweights : ∀ w ∈ weights, ∀ x ∈ w.data, 0 ≤ x) (s s' : State)
    (h : fitGB env junk perm modes P (coordArrs d1 d2 d3 shape obs) ⟨dd, shape, data⟩ weights s =
      (s', .ok ()))
    (hpts : s'.points_ = some (pointArrs pts)) (W : List (List ℕ) × List (List ℕ))
    (hW : (createWindows env perm P (pointArrs obs) (pointArrs pts) {}).2 = .ok W)
    (hnodup : ∀ pw ∈ W.1, pw.Nodup)
    (hmodes : ∀ k pw dw, (W.1.zip W.2)[k]? = some (pw, dw) →
      (modes k).1.Full dw.length pw.length ∧ (modes k).2.Full obs.length (2 * pw.length)) :
    ∃ C : ℕ → List ℝ,
      C 0 = List.replicate pts.length 0 ∧
      s'.coefs_ = some (C (W.1.zip W.2).length) ∧
      ∀ k pw dw, (W.1.zip W.2)[k]? = some (pw, dw) → ∀ r r' w,
        Selects (residual obs pts data (C k)) dw r →
        Selects (residual obs pts data (C (k + 1))) dw r' →
        SelectsWeights (weights.map (·.data)) dw w → misfit w r' ≤ misfit w r := by
  obtain ⟨C, h0, h1, -, h3⟩ := C26_boosting env junk perm modes P hd d1 d2 d3 dd shape obs pts data
    hdata weights s s' h hpts W hW hnodup hmodes
  have hl : ∀ k ≤ (W.1.zip W.2).length, (C k).length = pts.length := by
    intro k hk
    induction k with
    | zero => rw [h0]; simp
    | succ k ih =>
      have hget := List.getElem?_eq_getElem (show k < (W.1.zip W.2).length from hk)
      obtain ⟨ps, cs, rs, w, v, -, -, -, -, -, -, hl, ho, -⟩ :=
        h3 k (W.1.zip W.2)[k].1 (W.1.zip W.2)[k].2 hget
      rw [hl]; exact ih (by omega)
  refine ⟨C, h0, h1, fun k pw dw hk r r' w hr hr' hw => ?_⟩
  obtain ⟨hk', hk2⟩ := List.getElem?_eq_some_iff.1 hk
  refine boostStep_misfit hls hdamp ?_ (hnodup pw ?_) (hl k hk'.le) (h3 k pw dw hk) hr hr' hw
  · intro w hw x hx
    obtain ⟨w', hw', rfl⟩ := Option.mem_map.1 hw
    exact hweights w' hw' x hx
  · have := List.getElem_mem hk'
    rw [hk2] at this
    exact (List.of_mem_zip this).1

/-- C100: when there is only one window (the default for up to 5000 data) and no weights, the RMSE does
not increase: the two entries of `rmse_` are decreasing. -/
theorem C100_rmse (env : Env) (hls : NeverWorse env) (junk : Junk) (perm : ℕ → List ℕ)
    (modes : ℕ → Mode × Mode) (P : Params) (hd : P.dtype.IsFloat) (hdamp : ∀ x ∈ P.damping, 0 ≤ x)
    (hw : P.window_size = .str "default") (d1 d2 d3 dd : DType) (shape : List ℕ) (obs pts : List P3)
    (hle : obs.length ≤ 5000) (ho : obs ≠ []) (hp : pts ≠ [])
    (data : List ℝ) (hdata : data.length = obs.length) (s s' : State)
    (h : fitGB env junk perm modes P (coordArrs d1 d2 d3 shape obs) ⟨dd, shape, data⟩ none s =
      (s', .ok ()))
    (hpts : s'.points_ = some (pointArrs pts))
    (hmodes : (modes 0).1.Full obs.length pts.length ∧ (modes 0).2.Full obs.length (2 * pts.length)) :
    ∃ e0 e1, s'.rmse_ = some [e0, e1] ∧ e0 = rootMeanSquare data ∧ e1 ≤ e0 := by
  have hW : (createWindows env perm P (pointArrs obs) (pointArrs pts) {}).2 =
      .ok ([List.range pts.length], [List.range obs.length]) := by
    rw [C27_single env perm P obs pts {} hw hle ho hp]
  have hn : ∀ pw ∈ [List.range pts.length], pw.Nodup := by
    intro pw hpw
    rw [List.mem_singleton] at hpw
    subst hpw
    exact List.nodup_range
  have hm : ∀ k pw dw, ([List.range pts.length].zip [List.range obs.length])[k]? = some (pw, dw) →
      (modes k).1.Full dw.length pw.length ∧ (modes k).2.Full obs.length (2 * pw.length) := by
    intro k pw dw hk
    cases k with
    | zero =>
      simp at hk
      obtain ⟨rfl, rfl⟩ := hk
      simpa using hmodes
    | succ k => simp at hk
  obtain ⟨C, h0, h1, h2, h3⟩ := C26_boosting env junk perm modes P hd d1 d2 d3 dd shape obs pts data
    hdata none s s' h hpts _ hW hn hm
  have hself : ∀ r : List ℝ, r.length = obs.length → Selects r (List.range obs.length) r := by
    intro r hr
    have := fancyIndex_ok _ _ _ (fancyIndex_range r)
    rwa [hr] at this
  have hstep := boostStep_misfit (w := none) hls hdamp (by simp) List.nodup_range
    (by rw [h0]; simp) (h3 0 _ _ rfl) (hself _ (residual_length _ _ _ _ hdata))
    (hself _ (residual_length _ _ _ _ hdata)) trivial
  have hres0 : residual obs pts data (C 0) = data := by rw [h0, residual_zero _ _ _ hdata]
  refine ⟨_, _, h2, congrArg rootMeanSquare hres0, ?_⟩
  unfold rootMeanSquare
  apply Real.sqrt_le_sqrt
  rw [residual_length _ _ _ _ hdata, residual_length _ _ _ _ hdata]
  unfold misfit at hstep
  simp only [pow_two] at hstep ⊢
  exact div_le_div_of_nonneg_right hstep (Nat.cast_nonneg _)

/-- C100: after `EquivalentSources.fit` the (weighted) misfit of the predictions at the data points is at
most the one of the data themselves (the misfit of predicting zero). -/
theorem C100_cartesian (env : Env) (hls : NeverWorse env) (junk : Junk) (mode mode' : Mode)
    (P : Params) (hd : P.dtype.IsFloat) (hdamp : ∀ x ∈ P.damping, 0 ≤ x)
    (d1 d2 d3 dd : DType) (shape : List ℕ) (obs pts : List P3) (hshape : shape.prod = obs.length)
    (data : List ℝ) (hdata : data.length = obs.length) (weights : Option CArr)
    (hweights : ∀ w ∈ weights, w.data.length = obs.length ∧ ∀ x ∈ w.data, 0 ≤ x) (s s' : State)
    (h : fit env junk mode P (coordArrs d1 d2 d3 shape obs) ⟨dd, shape, data⟩ weights s = (s', .ok ()))
    (hpts : s'.points_ = some (pointArrs pts))
    (hm : mode.Full obs.length pts.length) (hm' : mode'.Full obs.length (2 * pts.length)) :
    ∃ r, predict junk mode' P (coordArrs d1 d2 d3 shape obs) s' = .ok ⟨shape, r⟩ ∧
      misfit (weights.map (·.data)) (List.zipWith (· - ·) data r) ≤
        misfit (weights.map (·.data)) data := by
  obtain ⟨region, d, pts', coefs, -, hreg, -, -, h5, h6⟩ := fit_ok _ _ _ _ _ _ _ _ _ h
  have hcoefs : s'.coefs_ = some coefs := by rw [h6] at h; cases h; rfl
  have hpts' : pts' = pointArrs pts := by
    rw [h6] at h; cases h
    simpa using hpts
  have hne : obs ≠ [] := by rintro rfl; cases hreg
  rw [hpts', castArrs_float hd, n1dArrays_coordArrs, jacobian_eq junk mode _ hd _ _ hm] at h5
  simp only [greensCart1, cast_float_fun hd, List.map_id] at h5
  have hrow : ∀ row ∈ obs.map fun q => pts.map fun p => 1 / dist (cartPos q) (cartPos p),
      row.length = pts.length := by
    intro row hrow
    obtain ⟨q, -, rfl⟩ := List.mem_map.1 hrow
    rw [List.length_map]
  have hlen : coefs.length = pts.length := hls.size _ _ _ _ _ _ (by simpa using hne) hrow h5
  have hpred := predict_eq junk mode' P hd d1 d2 d3 shape obs hshape (pts.zip coefs)
    (by rw [List.length_zip, hlen, min_self]; exact hm') s'
    (by rw [List.map_fst_zip (by omega)]; exact hpts)
    (by rw [List.map_snd_zip (by omega)]; exact hcoefs)
  refine ⟨_, hpred, ?_⟩
  rw [← matVec_zip]
  refine hls.misfit _ _ _ _ _ (by rw [hlen]; exact hrow) (by simpa using hdata) ?_ hdamp h5
  · intro w hw
    obtain ⟨w', hw', rfl⟩ := Option.mem_map.1 hw
    exact ⟨by rw [(hweights w' hw').1, hdata], (hweights w' hw').2⟩

/-- C100 for spherical sources (longitudes are floats, see C24). -/
theorem C100_spherical (env : Env) (hls : NeverWorse env) (junk : Junk) (mode mode' : Mode)
    (P : SphParams) (hdamp : ∀ x ∈ P.damping, 0 ≤ x)
    (d1 d2 d3 dd : DType) (hd : d1.IsFloat) (shape : List ℕ) (obs pts : List P3)
    (hshape : shape.prod = obs.length) (data : List ℝ) (hdata : data.length = obs.length) (weights : Option CArr)
    (hweights : ∀ w ∈ weights, w.data.length = obs.length ∧ ∀ x ∈ w.data, 0 ≤ x) (s s' : State)
    (h : fitSph env junk mode P (coordArrs d1 d2 d3 shape obs) ⟨dd, shape, data⟩ weights s = (s', .ok ()))
    (hpts : s'.points_ = some (pointArrs pts))
    (hm : mode.Full obs.length pts.length) (hm' : mode'.Full obs.length (2 * pts.length)) :
    ∃ r, predictSph junk mode' (coordArrs d1 d2 d3 shape obs) s' = .ok ⟨shape, r⟩ ∧
      misfit (weights.map (·.data)) (List.zipWith (· - ·) data r) ≤
        misfit (weights.map (·.data)) data := by
  obtain ⟨region, coefs, -, hreg, h5, h6⟩ := fitSph_ok _ _ _ _ _ _ _ _ _ h
  have hcoefs : s'.coefs_ = some coefs := by rw [h6] at h; cases h; rfl
  have hpts' : sphPoints P (n1dArrays (coordArrs d1 d2 d3 shape obs)) = pointArrs pts := by
    rw [h6] at h; cases h
    simpa using hpts
  have hne : obs ≠ [] := by rintro rfl; cases hreg
  rw [hpts', n1dArrays_coordArrs, jacobian_eq junk mode _ (by trivial) _ _ hm] at h5
  simp only [greensSph1] at h5
  have hrow : ∀ row ∈ obs.map fun q => pts.map fun p => 1 / dist (sphPos q) (sphPos p),
      row.length = pts.length := by
    intro row hrow
    obtain ⟨q, -, rfl⟩ := List.mem_map.1 hrow
    rw [List.length_map]
  have hlen : coefs.length = pts.length := hls.size _ _ _ _ _ _ (by simpa using hne) hrow h5
  have hpred := predictSph_eq junk mode' d1 d2 d3 hd shape obs hshape (pts.zip coefs)
    (by rw [List.length_zip, hlen, min_self]; exact hm') s'
    (by rw [List.map_fst_zip (by omega)]; exact hpts)
    (by rw [List.map_snd_zip (by omega)]; exact hcoefs)
  refine ⟨_, hpred, ?_⟩
  rw [← matVec_zip]
  refine hls.misfit _ _ _ _ _ (by rw [hlen]; exact hrow) (by simpa using hdata) ?_ hdamp h5
  · intro w hw
    obtain ⟨w', hw', rfl⟩ := Option.mem_map.1 hw
    exact ⟨by rw [(hweights w' hw').1, hdata], (hweights w' hw').2⟩

end Verif.EqSources
