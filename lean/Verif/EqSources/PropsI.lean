import Verif.EqSources.PropsH
import Verif.EqSources.Kernel

/-! C102: equivalent sources below data at one height reproduce the data. C30 for spherical sources. -/

namespace Verif.EqSources
open Verif.Forward Verif.Engine Verif.Distance Verif.Layers

/-- C30 for spherical sources. -/
theorem C30_spherical (env : Env) (hls : SolvesNormalEquations env) (junk : Junk)
    (mode mode' : Mode) (P : SphParams) (hdamp : P.damping = none)
    (d1 d2 d3 dd : DType) (hd : d1.IsFloat) (n : ℕ) (obs pts : Fin n → P3)
    (hJ : (distMatrix sphPos obs pts).det ≠ 0)
    (data : Fin n → ℝ) (w : Option (Fin n → ℝ)) (hw : ∀ w' ∈ w, ∀ i, 0 < w' i)
    (hm : mode.Full n n) (hm' : mode'.Full n (2 * n)) (s s' : State)
    (h : fitSph env junk mode P (coordArrs d1 d2 d3 [n] (List.ofFn obs)) ⟨dd, [n], List.ofFn data⟩
      (w.map fun w => ⟨dd, [n], List.ofFn w⟩) s = (s', .ok ()))
    (hpts : s'.points_ = some (pointArrs (List.ofFn pts))) :
    predictSph junk mode' (coordArrs d1 d2 d3 [n] (List.ofFn obs)) s' =
      .ok ⟨[n], List.ofFn data⟩ := by
  obtain ⟨region, coefs, -, -, h5, h6⟩ := fitSph_ok _ _ _ _ _ _ _ _ _ h
  have es := h.symm.trans (h6 s)
  simp only [Prod.mk.injEq, and_true] at es
  have hc : s'.coefs_ = some coefs := by rw [es]
  have hp : sphPoints P (n1dArrays (coordArrs d1 d2 d3 [n] (List.ofFn obs))) =
      pointArrs (List.ofFn pts) := by
    rw [es] at hpts
    simpa using hpts
  rw [hp, n1dArrays_coordArrs, jacobian_eq junk mode _ (d := .float64) trivial _ _
    (by simpa using hm), hdamp] at h5
  simp only [greensSph1, rows_distMatrix, Option.map_map] at h5
  obtain ⟨c', rfl, hne⟩ := hls n n _ data w coefs (by
    rw [← h5]; cases w <;> rfl)
  have hsol := solve_square _ hJ _ _ _ (by
    intro i
    cases w with
    | none => simp
    | some w' => exact hw w' rfl i) hne
  have := predictSph_eq junk mode' d1 d2 d3 hd [n] (List.ofFn obs) (by simp)
    (List.ofFn fun j => (pts j, c' j)) (by simpa using hm') s'
    (by simp [hpts, List.map_ofFn, Function.comp_def]) (by simp [hc, List.map_ofFn, Function.comp_def])
  rw [this, List.map_ofFn]
  congr 2
  congr 1
  funext i
  rw [Function.comp_apply, field_ofFn, hsol]

/-! ### C102 -/

/-- The matrix of inverse distances to sources below points at one height is not singular. -/
theorem distMatrix_level {n : ℕ} (obs : Fin n → P3) (hobs : Function.Injective obs) (H depth : ℝ)
    (hH : ∀ i, (obs i).z = H) (hdep : depth ≠ 0) :
    (distMatrix cartPos obs fun i => ⟨(obs i).x, (obs i).y, (obs i).z - depth⟩).det ≠ 0 := by
  let x : Fin n → EN 2 := fun i => !₂[(obs i).x, (obs i).y]
  have hx : Function.Injective x := by
    intro i j hij
    apply hobs
    have h0 := congrFun (congrArg WithLp.ofLp hij) 0
    have h1 := congrFun (congrArg WithLp.ofLp hij) 1
    simp [x] at h0 h1
    have h2 : (obs i).z = (obs j).z := by rw [hH, hH]
    cases hi : obs i; cases hj : obs j
    rw [hi, hj] at h0 h1 h2
    simp at h0 h1 h2
    rw [h0, h1, h2]
  convert multiquadric_det x hx depth hdep using 2
  unfold distMatrix
  congr 1
  funext i j
  congr 1
  rw [EuclideanSpace.dist_eq, EuclideanSpace.norm_sq_eq]
  congr 1
  simp [cartPos, x, Fin.sum_univ_three, Real.dist_eq, hH, sq_abs]
  ring

/-- The sources of a fit that places one below each point. -/
theorem points_below {env : Env} {P : Params} (hd : P.dtype.IsFloat) (hp : P.points = none)
    (hb : P.block_size = none) {n : ℕ} {obs : Fin n → P3} {depth : ℝ} {p1 : Arrs}
    (f : ∀ s, choosePoints env P (pointArrs (List.ofFn obs)) s =
      ({ s with depth_ := some (some depth) }, .ok p1)) :
    p1 = pointArrs (List.ofFn fun i => ⟨(obs i).x, (obs i).y, (obs i).z - depth⟩) := by
  have f := f {}
  unfold choosePoints buildPoints blockCoordinates at f
  simp only [hp, hb] at f
  cases hs : sourceDepth env P (pointArrs (List.ofFn obs)) with
  | error e => simp [hs] at f
  | ok x =>
    simp only [hs, castArrs_float hd, Prod.mk.injEq, Except.ok.injEq] at f
    have hx : x = depth := by
      have := congrArg State.depth_ f.1
      simpa using this
    rw [← f.2, hx]
    simp [pointArrs, List.map_ofFn, Function.comp_def]

/-- C102: the sources that `EquivalentSources` places below the data, one below each point, reproduce
data at one height: if the points are different and all at the height `H`, the depth is not zero, there
is no damping and the weights (if any) are positive, then after `fit`, `predict` at the data points
gives the data exactly. No hypothesis about the Jacobian is needed. -/
theorem C102_cartesian (env : Env) (hls : SolvesNormalEquations env) (junk : Junk)
    (mode mode' : Mode) (P : Params) (hd : P.dtype.IsFloat) (hdamp : P.damping = none)
    (hp : P.points = none) (hb : P.block_size = none)
    (d1 d2 d3 dd : DType) (n : ℕ) (obs : Fin n → P3) (hobs : Function.Injective obs) (H : ℝ)
    (hH : ∀ i, (obs i).z = H)
    (data : Fin n → ℝ) (w : Option (Fin n → ℝ)) (hw : ∀ w' ∈ w, ∀ i, 0 < w' i)
    (hm : mode.Full n n) (hm' : mode'.Full n (2 * n)) (s s' : State)
    (h : fit env junk mode P (coordArrs d1 d2 d3 [n] (List.ofFn obs)) ⟨dd, [n], List.ofFn data⟩
      (w.map fun w => ⟨dd, [n], List.ofFn w⟩) s = (s', .ok ()))
    (depth : ℝ) (hdepth : s'.depth_ = some (some depth)) (hdep : depth ≠ 0) :
    predict junk mode' P (coordArrs d1 d2 d3 [n] (List.ofFn obs)) s' =
      .ok ⟨[n], List.ofFn data⟩ := by
  refine C30_interpolation env hls junk mode mode' P hd hdamp d1 d2 d3 dd n obs _
    (distMatrix_level obs hobs H depth hH hdep) data w hw hm hm' s s' h ?_
  obtain ⟨region, d, p1, c, -, -, f3, -, -, f6⟩ := fit_ok _ _ _ _ _ _ _ _ _ h
  have es := h.symm.trans (f6 s)
  simp only [Prod.mk.injEq, and_true] at es
  have e1 : d = some depth := by
    rw [es] at hdepth
    simpa using hdepth
  rw [castArrs_float hd, n1dArrays_coordArrs, e1] at f3
  rw [es, points_below hd hp hb f3]

/-- The matrix of inverse distances to sources below points at one radius is not singular. -/
theorem distMatrix_sphere {n : ℕ} (obs : Fin n → P3) (hobs : Function.Injective fun i => sphPos (obs i))
    (R depth : ℝ) (hR : ∀ i, (obs i).z = R) (h0 : 0 < R) (hdep : depth ≠ 0) (hlt : depth < R) :
    (distMatrix sphPos obs fun i => ⟨(obs i).x, (obs i).y, (obs i).z - depth⟩).det ≠ 0 := by
  set k := (R - depth) / R with hk
  have hk0 : 0 < k := div_pos (by linarith) h0
  let x : Fin n → EN 3 := fun i => √k • sphPos (obs i)
  have hx : Function.Injective x := by
    intro i j hij
    apply hobs
    exact smul_right_injective _ (Real.sqrt_pos.2 hk0).ne' hij
  convert multiquadric_det x hx depth hdep using 2
  unfold distMatrix
  congr 1
  funext i j
  congr 1
  rw [EuclideanSpace.dist_eq, ← smul_sub, norm_smul, mul_pow, Real.norm_eq_abs, sq_abs, Real.sq_sqrt hk0.le,
    EuclideanSpace.norm_sq_eq]
  congr 1
  have hRk : R * k = R - depth := by rw [hk]; field_simp
  have hdk : depth = R - R * k := by linarith
  simp only [sphPos, Fin.sum_univ_three, Real.dist_eq, Real.norm_eq_abs, sq_abs, hR, ← hRk, PiLp.sub_apply,
    PiLp.toLp_apply, Matrix.cons_val_zero, Matrix.cons_val_one, Matrix.cons_val]
  rw [hdk]
  have e1 := Real.sin_sq_add_cos_sq (radians (obs i).x)
  have e2 := Real.sin_sq_add_cos_sq (radians (obs i).y)
  have e3 := Real.sin_sq_add_cos_sq (radians (obs j).x)
  have e4 := Real.sin_sq_add_cos_sq (radians (obs j).y)
  generalize Real.sin (radians (obs i).x) = s1 at *
  generalize Real.cos (radians (obs i).x) = c1 at *
  generalize Real.sin (radians (obs i).y) = s2 at *
  generalize Real.cos (radians (obs i).y) = c2 at *
  generalize Real.sin (radians (obs j).x) = s3 at *
  generalize Real.cos (radians (obs j).x) = c3 at *
  generalize Real.sin (radians (obs j).y) = s4 at *
  generalize Real.cos (radians (obs j).y) = c4 at *
  have n1 : (c2 * c1) ^ 2 + (c2 * s1) ^ 2 + s2 ^ 2 = 1 := by
    linear_combination c2 ^ 2 * e1 + e2
  have n2 : (c4 * c3) ^ 2 + (c4 * s3) ^ 2 + s4 ^ 2 = 1 := by
    linear_combination c4 ^ 2 * e3 + e4
  linear_combination R ^ 2 * (1 - k) * n1 + R ^ 2 * (k ^ 2 - k) * n2

/-- C102 for spherical sources: points at one radius, at different positions, and a depth that is not
zero and less than the radius. -/
theorem C102_spherical (env : Env) (hls : SolvesNormalEquations env) (junk : Junk)
    (mode mode' : Mode) (P : SphParams) (hdamp : P.damping = none) (hp : P.points = none)
    (d1 d2 d3 dd : DType) (hd : d1.IsFloat) (n : ℕ) (obs : Fin n → P3)
    (hobs : Function.Injective fun i => sphPos (obs i)) (R : ℝ)
    (hR : ∀ i, (obs i).z = R) (h0 : 0 < R) (hdep : P.relative_depth ≠ 0) (hlt : P.relative_depth < R)
    (data : Fin n → ℝ) (w : Option (Fin n → ℝ)) (hw : ∀ w' ∈ w, ∀ i, 0 < w' i)
    (hm : mode.Full n n) (hm' : mode'.Full n (2 * n)) (s s' : State)
    (h : fitSph env junk mode P (coordArrs d1 d2 d3 [n] (List.ofFn obs)) ⟨dd, [n], List.ofFn data⟩
      (w.map fun w => ⟨dd, [n], List.ofFn w⟩) s = (s', .ok ())) :
    predictSph junk mode' (coordArrs d1 d2 d3 [n] (List.ofFn obs)) s' =
      .ok ⟨[n], List.ofFn data⟩ := by
  refine C30_spherical env hls junk mode mode' P hdamp d1 d2 d3 dd hd n obs _
    (distMatrix_sphere obs hobs R P.relative_depth hR h0 hdep hlt) data w hw hm hm' s s' h ?_
  obtain ⟨region, coefs, -, -, -, h6⟩ := fitSph_ok _ _ _ _ _ _ _ _ _ h
  have es := h.symm.trans (h6 s)
  simp only [Prod.mk.injEq, and_true] at es
  rw [es, n1dArrays_coordArrs]
  simp [sphPoints, hp, pointArrs, List.map_ofFn, Function.comp_def]

/-- C102 for gradient-boosted sources with the default window size and at most 5000 data; the last entry of
`rmse_per_iteration_` is zero. -/
theorem C102_gradient_boosted (env : Env) (hls : SolvesNormalEquations env) (junk : Junk)
    (perm : ℕ → List ℕ) (mode' : Mode) (modes : ℕ → Mode × Mode) (P : Params) (hd : P.dtype.IsFloat)
    (hdamp : P.damping = none) (hp : P.points = none) (hb : P.block_size = none)
    (hwin : P.window_size = .str "default")
    (d1 d2 d3 dd : DType) (n : ℕ) (hle : n ≤ 5000) (obs : Fin n → P3) (hobs : Function.Injective obs) (H : ℝ)
    (hH : ∀ i, (obs i).z = H)
    (data : Fin n → ℝ) (w : Option (Fin n → ℝ)) (hw : ∀ w' ∈ w, ∀ i, 0 < w' i)
    (hm : (modes 0).1.Full n n ∧ (modes 0).2.Full n (2 * n)) (hm' : mode'.Full n (2 * n)) (s s' : State)
    (h : fitGB env junk perm modes P (coordArrs d1 d2 d3 [n] (List.ofFn obs)) ⟨dd, [n], List.ofFn data⟩
      (w.map fun w => ⟨dd, [n], List.ofFn w⟩) s = (s', .ok ()))
    (depth : ℝ) (hdepth : s'.depth_ = some (some depth)) (hdep : depth ≠ 0) :
    predict junk mode' P (coordArrs d1 d2 d3 [n] (List.ofFn obs)) s' = .ok ⟨[n], List.ofFn data⟩ ∧
      ∃ e, s'.rmse_ = some [e, 0] := by
  obtain ⟨region, d, p1, W, size, b, s1, -, g1, f3, -, -, -, hpts, hdp⟩ := fitGB_ok _ _ _ _ _ _ _ _ _ _ h
  have e1 : d = some depth := by
    rw [hdp] at hdepth
    simpa using hdepth
  rw [castArrs_float hd, n1dArrays_coordArrs, e1] at f3
  rw [castArrs_float hd, n1dArrays_coordArrs] at g1
  rw [points_below hd hp hb f3] at hpts
  set pts : Fin n → P3 := fun i => ⟨(obs i).x, (obs i).y, (obs i).z - depth⟩ with hptsd
  have hn0 : List.ofFn obs ≠ [] := by intro e; rw [e] at g1; cases g1
  have hn : n ≠ 0 := by rintro rfl; simp at hn0
  have ho : List.ofFn obs ≠ [] := hn0
  have hpn : List.ofFn pts ≠ [] := by
    intro e
    have := congrArg List.length e
    simp at this
    exact hn this
  have hW : (createWindows env perm P (pointArrs (List.ofFn obs)) (pointArrs (List.ofFn pts)) {}).2 =
      .ok ([List.range n], [List.range n]) := by
    rw [C27_single env perm P _ _ {} hwin (by simpa using hle) ho hpn]
    simp
  obtain ⟨C, h0, h1, h2, h3⟩ := C26_boosting env junk perm modes P hd d1 d2 d3 dd [n] (List.ofFn obs)
    (List.ofFn pts) (List.ofFn data) (by simp) _ s s' h hpts _ hW (by simp [List.nodup_range]) (by
      intro k pw dw hk
      cases k with
      | zero =>
        simp at hk
        obtain ⟨rfl, rfl⟩ := hk
        simpa using hm
      | succ k => simp at hk)
  have hself : ∀ {α : Type} (r : List α), r.length = n → Selects r (List.range n) r := by
    intro α r hr
    have := fancyIndex_ok _ _ _ (fancyIndex_range r)
    rwa [hr] at this
  have hres0 : residual (List.ofFn obs) (List.ofFn pts) (List.ofFn data) (C 0) = List.ofFn data := by
    rw [h0, residual_zero _ _ _ (by simp)]
  obtain ⟨ps, cs, rs, w0, v, k1, k2, k3, k4, k5, k6, k7, k8, k9⟩ := h3 0 _ _ rfl
  obtain rfl := selects_unique (hself _ (by simp)) k1
  obtain rfl := selects_unique (hself _ (by simp)) k2
  rw [hres0] at k3
  obtain rfl := selects_unique (hself _ (by simp)) k3
  have hw0 : w0 = w.map List.ofFn := by
    refine selectsWeights_unique k4 ?_
    unfold SelectsWeights
    cases w with
    | none => trivial
    | some w => exact hself _ (by simp)
  subst hw0
  rw [hdamp, rows_distMatrix] at k5
  obtain ⟨c', rfl, hne⟩ := hls n n _ data w v k5
  have hsol := solve_square _ (distMatrix_level obs hobs H depth hH hdep) _ _ _ (by
    intro i
    cases w with
    | none => simp
    | some w' => exact hw w' rfl i) hne
  have hC1 : C 1 = List.ofFn c' := by
    rw [h0] at k7 k9
    apply List.ext_getElem
    · rw [k7]; simp
    · intro i q1 q2
      have hi : i < n := by simpa using q2
      obtain ⟨x, y1, y2⟩ := k9 i (by simpa using hi) q2
      simp only [List.getElem_range] at y1 y2
      rw [List.getElem?_replicate, if_pos (by simpa using hi)] at y1
      cases y1
      rw [List.getElem?_eq_getElem q1] at y2
      simpa using y2
  have hco : s'.coefs_ = some (List.ofFn c') := by rw [h1, ← hC1]; rfl
  have hpred := predict_eq junk mode' P hd d1 d2 d3 [n] (List.ofFn obs) (by simp)
    (List.ofFn fun j => (pts j, c' j)) (by simpa using hm') s'
    (by simp [hpts, List.map_ofFn, Function.comp_def]) (by simp [hco, List.map_ofFn, Function.comp_def])
  have hfield : (List.ofFn obs).map (field cartPos (List.ofFn fun j => (pts j, c' j))) = List.ofFn data := by
    rw [List.map_ofFn]
    congr 1
    funext i
    rw [Function.comp_apply, field_ofFn, hsol]
  have hz : (List.ofFn pts).zip (List.ofFn c') = List.ofFn fun j => (pts j, c' j) := by
    apply List.ext_getElem <;> simp
  have hres1 : rootMeanSquare (residual (List.ofFn obs) (List.ofFn pts) (List.ofFn data) (C 1)) = 0 := by
    rw [residual, hC1, hz, hfield, rootMeanSquare]
    have : List.zipWith (· - ·) (List.ofFn data) (List.ofFn data) = List.replicate n 0 := by
      apply List.ext_getElem <;> simp
    rw [this]
    simp
  refine ⟨by rw [hpred, hfield], rootMeanSquare (List.ofFn data), ?_⟩
  rw [h2]
  simp [List.range_succ, hres0, hres1]

/-- The height must be the same: two points half a meter apart and `√3/2` m one above the other, with sources
one meter below each. Whatever the solver returns, `predict` does not reproduce the data 0 and 1. -/
theorem C102_heights (env : Env) (junk : Junk) (mode mode' : Mode)
    (hm : mode'.Full 2 4) (s s' : State)
    (h : fit env junk mode { depth := .num 1 }
      (coordArrs .float64 .float64 .float64 [2] [⟨0, 0, 0⟩, ⟨1 / 2, 0, √3 / 2⟩]) ⟨.float64, [2], [0, 1]⟩
      none s = (s', .ok ()))
    (coefs : List ℝ) (hc : s'.coefs_ = some coefs) (hl : coefs.length = 2) :
    predict junk mode' { depth := .num 1 }
      (coordArrs .float64 .float64 .float64 [2] [⟨0, 0, 0⟩, ⟨1 / 2, 0, √3 / 2⟩]) s' ≠
        .ok ⟨[2], [0, 1]⟩ := by
  obtain ⟨region, d, p1, c, -, -, f3, -, -, f6⟩ := fit_ok _ _ _ _ _ _ _ _ _ h
  have es := h.symm.trans (f6 s)
  simp only [Prod.mk.injEq, and_true] at es
  have f := f3 {}
  have hp1 : s'.points_ = some (pointArrs [⟨0, 0, -1⟩, ⟨1 / 2, 0, √3 / 2 - 1⟩]) := by
    rw [es]
    simp only [choosePoints, buildPoints, blockCoordinates, sourceDepth, castArrs, n1dArrays, coordArrs,
      List.map_cons, List.map_nil, DType.cast, Prod.mk.injEq, Except.ok.injEq] at f
    rw [← f.2]
    simp [pointArrs]
  match coefs, hl with
  | [a, b], _ =>
    rw [predict_eq junk mode' { depth := .num 1 } (by trivial) .float64 .float64 .float64 [2] [⟨0, 0, 0⟩, ⟨1 / 2, 0, √3 / 2⟩] (by simp)
      [(⟨0, 0, -1⟩, a), (⟨1 / 2, 0, √3 / 2 - 1⟩, b)] hm s' (by simp [hp1]) (by simp [hc])]
    have h3 : √3 ^ 2 = (3 : ℝ) := Real.sq_sqrt (by norm_num)
    have e1 : dist (cartPos ⟨0, 0, 0⟩) (cartPos ⟨0, 0, -1⟩) = 1 := by
      rw [← C10_distance_cartesian]
      simp [distanceCartesian]
    have e2 : dist (cartPos ⟨1 / 2, 0, √3 / 2⟩) (cartPos ⟨1 / 2, 0, √3 / 2 - 1⟩) = 1 := by
      rw [← C10_distance_cartesian]
      simp [distanceCartesian]
    have e3 : dist (cartPos ⟨0, 0, 0⟩) (cartPos ⟨1 / 2, 0, √3 / 2 - 1⟩) = √(2 - √3) := by
      rw [← C10_distance_cartesian]
      simp only [distanceCartesian]
      congr 1
      linear_combination h3 / 4
    have e4 : dist (cartPos ⟨1 / 2, 0, √3 / 2⟩) (cartPos ⟨0, 0, -1⟩) = √(2 + √3) := by
      rw [← C10_distance_cartesian]
      simp only [distanceCartesian]
      congr 1
      linear_combination h3 / 4
    have hlt : √3 < (2 : ℝ) := by
      rw [Real.sqrt_lt' (by norm_num)]
      norm_num
    have e5 : √(2 - √3) * √(2 + √3) = 1 := by
      rw [← Real.sqrt_mul (by linarith), show (2 - √3) * (2 + √3) = 1 by linear_combination -h3, Real.sqrt_one]
    simp only [List.map_cons, List.map_nil, field, List.sum_cons, List.sum_nil, e1, e2, e3, e4]
    intro hcon
    simp only [Except.ok.injEq, NdArray.mk.injEq, List.cons.injEq, and_true, true_and] at hcon
    obtain ⟨g1, g2⟩ := hcon
    have p1 : √(2 - √3) ≠ 0 := left_ne_zero_of_mul_eq_one e5
    have p2 : √(2 + √3) ≠ 0 := right_ne_zero_of_mul_eq_one e5
    field_simp at g1 g2
    exact p2 (by linear_combination -g2 + √(2 + √3) * g1 - a * e5)

end Verif.EqSources
