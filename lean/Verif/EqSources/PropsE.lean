import Verif.EqSources.PropsD

/-! C94: the equivalent sources are linear in the data. -/

namespace Verif.EqSources
open Verif.Forward Verif.Engine Verif.Distance

/-! ### Specification -/

/-- `a * u + b * v`, element by element -/
noncomputable def comb (a : ℝ) (u : List ℝ) (b : ℝ) (v : List ℝ) : List ℝ :=
  List.zipWith (fun x y => a * x + b * y) u v

/-- The least squares solution of a given system with given weights and damping is linear in the data and
has one coefficient per column. -/
structure LinearSolver (env : Env) : Prop where
  size : ∀ (J : List (List ℝ)) (n : ℕ) (d : List ℝ) (w : Option (List ℝ)) (damping : Option ℝ) (c : List ℝ),
    J ≠ [] → (∀ row ∈ J, row.length = n) → env.leastSquares J d w damping = .ok c → c.length = n
  linear : ∀ (J : List (List ℝ)) (d1 d2 : List ℝ) (w : Option (List ℝ)) (damping : Option ℝ)
    (c1 c2 : List ℝ) (a b : ℝ), d1.length = d2.length →
    env.leastSquares J d1 w damping = .ok c1 → env.leastSquares J d2 w damping = .ok c2 →
    env.leastSquares J (comb a d1 b d2) w damping = .ok (comb a c1 b c2)

/-! ### Lemmas -/

theorem comb_length (a b : ℝ) (u v : List ℝ) (h : u.length = v.length) : (comb a u b v).length = u.length := by
  simp [comb, h]

theorem comb_getElem? (a b : ℝ) (u v : List ℝ) (i : ℕ) (h : u.length = v.length) :
    (comb a u b v)[i]? = u[i]?.bind fun x => v[i]?.map fun y => a * x + b * y := by
  unfold comb
  rw [List.getElem?_zipWith]
  by_cases hi : i < u.length
  · simp [List.getElem?_eq_getElem hi, List.getElem?_eq_getElem (h ▸ hi : i < v.length)]
  · simp [List.getElem?_eq_none (not_lt.1 hi)]

theorem comb_rd (junk : Junk) (n : String) (a b : ℝ) (u v : List ℝ) (i : ℕ) (hi : i < u.length)
    (hj : i < v.length) : rd junk n (comb a u b v) i = a * rd junk n u i + b * rd junk n v i := by
  simp [rd, comb, hi, hj]

theorem comb_map {ι : Type} (a b : ℝ) (l : List ι) (f g h : ι → ℝ) (e : ∀ i ∈ l, h i = a * f i + b * g i) :
    l.map h = comb a (l.map f) b (l.map g) := by
  induction l with
  | nil => rfl
  | cons i l ih =>
    simp only [List.map_cons, comb, List.zipWith_cons_cons, List.cons.injEq]
    exact ⟨e i (by simp), ih fun j hj => e j (by simp [hj])⟩

theorem predictKernel_comb (junk : Junk) (m1 m2 m3 : Mode) (g : P3 → P3 → ℝ) {d : DType}
    (hd : d.IsFloat) (c p : Arrs) (a b : ℝ) (u v : List ℝ) (hu : u.length = p.1.length)
    (hv : v.length = p.1.length) (size : ℕ)
    (h1 : m1.Full c.1.length (2 * p.1.length)) (h2 : m2.Full c.1.length (2 * p.1.length))
    (h3 : m3.Full c.1.length (2 * p.1.length)) :
    predictKernel junk m3 g d c p (comb a u b v) size =
      comb a (predictKernel junk m1 g d c p u size) b (predictKernel junk m2 g d c p v size) := by
  rw [predictKernel_float junk m1 g hd c p u size h1, predictKernel_float junk m2 g hd c p v size h2,
    predictKernel_float junk m3 g hd c p _ size h3]
  apply comb_map
  intro i _
  split
  · rw [← List.sum_map_mul_left, ← List.sum_map_mul_left, ← List.sum_map_add]
    congr 1
    apply List.map_congr_left
    intro j hj
    rw [List.mem_range] at hj
    rw [comb_rd _ _ _ _ _ _ _ (by omega) (by omega)]
    ring
  · simp

theorem fancyIndex_comb (a b : ℝ) (u v : List ℝ) (h : u.length = v.length) (l : List ℕ) (r s : List ℝ)
    (h1 : fancyIndex u l = .ok r) (h2 : fancyIndex v l = .ok s) :
    fancyIndex (comb a u b v) l = .ok (comb a r b s) := by
  induction l generalizing r s with
  | nil => rw [fancyIndex_nil] at *; cases h1; cases h2; rfl
  | cons i l ih =>
    rw [fancyIndex_cons] at *
    rw [comb_getElem? _ _ _ _ _ h]
    cases hi : u[i]? with
    | none => rw [hi] at h1; cases h1
    | some x =>
    cases hj : v[i]? with
    | none => rw [hj] at h2; cases h2
    | some y =>
    rw [hi] at h1
    rw [hj] at h2
    simp only at h1 h2
    cases h3 : fancyIndex u l with
    | error e => rw [h3] at h1; cases h1
    | ok r' =>
    cases h4 : fancyIndex v l with
    | error e => rw [h4] at h2; cases h2
    | ok s' =>
    rw [h3] at h1
    rw [h4] at h2
    cases h1
    cases h2
    simp only [Option.bind_some, Option.map_some, ih _ _ h3 h4]
    rfl

theorem comb_set (a b : ℝ) (u v : List ℝ) (i : ℕ) (x y : ℝ) :
    (comb a u b v).set i (a * x + b * y) = comb a (u.set i x) b (v.set i y) := by
  induction u generalizing v i with
  | nil => simp [comb]
  | cons p u ih =>
    cases v with
    | nil => simp [comb]
    | cons q v =>
      cases i with
      | zero => simp [comb]
      | succ i => simpa [comb] using ih v i

theorem foldl_set_comb (a b : ℝ) (l : List ℕ) : ∀ (u v x y : List ℝ), x.length = l.length → y.length = l.length →
    (l.zip (comb a x b y)).foldl (fun c iv => c.set iv.1 iv.2) (comb a u b v) =
      comb a ((l.zip x).foldl (fun c iv => c.set iv.1 iv.2) u) b
        ((l.zip y).foldl (fun c iv => c.set iv.1 iv.2) v) := by
  induction l with
  | nil => intros; rfl
  | cons i l ih =>
    intro u v x y hx hy
    cases x with
    | nil => simp at hx
    | cons x0 x =>
    cases y with
    | nil => simp at hy
    | cons y0 y =>
      have e : comb a (x0 :: x) b (y0 :: y) = (a * x0 + b * y0) :: comb a x b y := rfl
      rw [e]
      simp only [List.zip_cons_cons, List.foldl_cons]
      rw [comb_set]
      exact ih _ _ _ _ (by simpa using hx) (by simpa using hy)

theorem foldl_set_length (l : List (ℕ × ℝ)) (u : List ℝ) :
    (l.foldl (fun c iv => c.set iv.1 iv.2) u).length = u.length := by
  induction l generalizing u with
  | nil => rfl
  | cons i l ih => rw [List.foldl_cons, ih, List.length_set]

theorem comb_add (a b : ℝ) : ∀ (x y u v : List ℝ), x.length = y.length → u.length = v.length →
    List.zipWith (· + ·) (comb a x b y) (comb a u b v) =
      comb a (List.zipWith (· + ·) x u) b (List.zipWith (· + ·) y v)
  | [], y, u, v, h, _ => by simp [comb]
  | _ :: _, [], u, v, h, _ => by simp at h
  | x0 :: x, y0 :: y, [], v, _, h => by simp [comb]
  | x0 :: x, y0 :: y, _ :: _, [], _, h => by simp at h
  | x0 :: x, y0 :: y, u0 :: u, v0 :: v, h, h' => by
    have ih := comb_add a b x y u v (by simpa using h) (by simpa using h')
    simp only [comb, List.zipWith_cons_cons, List.cons.injEq] at ih ⊢
    exact ⟨by ring, ih⟩

theorem comb_sub (a b : ℝ) : ∀ (x y u v : List ℝ), x.length = y.length → u.length = v.length →
    List.zipWith (· - ·) (comb a x b y) (comb a u b v) =
      comb a (List.zipWith (· - ·) x u) b (List.zipWith (· - ·) y v)
  | [], y, u, v, h, _ => by simp [comb]
  | _ :: _, [], u, v, h, _ => by simp at h
  | x0 :: x, y0 :: y, [], v, _, h => by simp [comb]
  | x0 :: x, y0 :: y, _ :: _, [], _, h => by simp at h
  | x0 :: x, y0 :: y, u0 :: u, v0 :: v, h, h' => by
    have ih := comb_sub a b x y u v (by simpa using h) (by simpa using h')
    simp only [comb, List.zipWith_cons_cons, List.cons.injEq] at ih ⊢
    exact ⟨by ring, ih⟩

theorem fancyAdd_cases (u : List ℝ) (l : List ℕ) (x r : List ℝ) (h : fancyAdd u l x = .ok r) :
    ∃ old, fancyIndex u l = .ok old ∧ x.length = l.length ∧
      r = (l.zip (List.zipWith (· + ·) old x)).foldl (fun a iv => a.set iv.1 iv.2) u := by
  unfold fancyAdd at h
  cases ho : fancyIndex u l with
  | error e => rw [ho] at h; cases h
  | ok old =>
    rw [ho] at h
    by_cases hl : x.length = l.length
    · simp only [hl, Py.bind_ok, ne_eq, not_true_eq_false, if_false, Py.pure_eq] at h
      cases h
      exact ⟨old, rfl, hl, rfl⟩
    · simp only [hl, Py.bind_ok, ne_eq, not_false_eq_true, if_true, Py.throw_eq, Py.bind_error] at h
      cases h

theorem fancyIndex_length {α : Type} (u : List α) (l : List ℕ) (r : List α) (h : fancyIndex u l = .ok r) :
    r.length = l.length := (fancyIndex_ok u l r h).length_eq.symm

theorem fancyAdd_comb (a b : ℝ) (u v : List ℝ) (h : u.length = v.length) (l : List ℕ) (x y r s : List ℝ)
    (h1 : fancyAdd u l x = .ok r) (h2 : fancyAdd v l y = .ok s) :
    fancyAdd (comb a u b v) l (comb a x b y) = .ok (comb a r b s) ∧ r.length = s.length := by
  obtain ⟨o1, k1, l1, rfl⟩ := fancyAdd_cases _ _ _ _ h1
  obtain ⟨o2, k2, l2, rfl⟩ := fancyAdd_cases _ _ _ _ h2
  have e1 := fancyIndex_length _ _ _ k1
  have e2 := fancyIndex_length _ _ _ k2
  refine ⟨?_, by rw [foldl_set_length, foldl_set_length, h]⟩
  unfold fancyAdd
  rw [fancyIndex_comb a b u v h l _ _ k1 k2]
  have hl : (comb a x b y).length = l.length := by rw [comb_length _ _ _ _ (l1.trans l2.symm), l1]
  simp only [hl, Py.bind_ok, ne_eq, not_true_eq_false, if_false, Py.pure_eq]
  rw [comb_add a b o1 o2 x y (e1.trans e2.symm) (l1.trans l2.symm),
    foldl_set_comb a b l _ _ _ _ (by simp [e1, l1]) (by simp [e2, l2])]

/-! ### C94 -/

theorem fit_linear_predict (junk : Junk) (P : Params) (hd : P.dtype.IsFloat) (pts : List P3)
    (c1 c2 : List ℝ) (h1 : c1.length = pts.length) (h2 : c2.length = pts.length) (a b : ℝ)
    (s1 s2 s3 : State) (hp1 : s1.points_ = some (pointArrs pts)) (hp2 : s2.points_ = some (pointArrs pts))
    (hp3 : s3.points_ = some (pointArrs pts)) (hc1 : s1.coefs_ = some c1) (hc2 : s2.coefs_ = some c2)
    (hc3 : s3.coefs_ = some (comb a c1 b c2))
    (m1 m2 m3 : Mode) (e1 e2 e3 : DType) (shape : List ℕ) (grid : List P3)
    (hm1 : m1.Full grid.length (2 * pts.length)) (hm2 : m2.Full grid.length (2 * pts.length))
    (hm3 : m3.Full grid.length (2 * pts.length)) :
    ∃ r1 r2, predict junk m1 P (coordArrs e1 e2 e3 shape grid) s1 = .ok ⟨shape, r1⟩ ∧
      predict junk m2 P (coordArrs e1 e2 e3 shape grid) s2 = .ok ⟨shape, r2⟩ ∧
      predict junk m3 P (coordArrs e1 e2 e3 shape grid) s3 = .ok ⟨shape, comb a r1 b r2⟩ := by
  refine ⟨predictKernel junk m1 greensFuncCartesian P.dtype (pointArrs grid) (pointArrs pts) c1 shape.prod,
    predictKernel junk m2 greensFuncCartesian P.dtype (pointArrs grid) (pointArrs pts) c2 shape.prod, ?_, ?_, ?_⟩
  · unfold predict
    simp only [hp1, hc1, npBroadcast_coordArrs, Py.bind_ok, Py.pure_eq, n1dArrays_coordArrs, castArrs_float hd]
  · unfold predict
    simp only [hp2, hc2, npBroadcast_coordArrs, Py.bind_ok, Py.pure_eq, n1dArrays_coordArrs, castArrs_float hd]
  · unfold predict
    simp only [hp3, hc3, npBroadcast_coordArrs, Py.bind_ok, Py.pure_eq, n1dArrays_coordArrs, castArrs_float hd]
    rw [predictKernel_comb junk m1 m2 m3 _ hd _ _ a b c1 c2 (by simpa [pointArrs] using h1)
      (by simpa [pointArrs] using h2) _ (by simpa [pointArrs] using hm1) (by simpa [pointArrs] using hm2)
      (by simpa [pointArrs] using hm3)]

/-- C94: if the sources fit the data `d1` and the data `d2` at the same points, with the same weights, they
fit `a * d1 + b * d2`, and the prediction is `a` times the first prediction plus `b` times the second. -/
theorem C94_cartesian (env : Env) (hls : LinearSolver env) (junk : Junk) (m1 m2 m3 : Mode) (P : Params)
    (hd : P.dtype.IsFloat) (c1 c2 c3 dd1 dd2 dd3 : DType) (shape : List ℕ) (obs pts : List P3)
    (weights : Option CArr) (a b : ℝ) (d1 d2 : List ℝ) (hlen : d1.length = d2.length)
    (s s1 s2 : State)
    (h1 : fit env junk m1 P (coordArrs c1 c2 c3 shape obs) ⟨dd1, shape, d1⟩ weights s = (s1, .ok ()))
    (h2 : fit env junk m2 P (coordArrs c1 c2 c3 shape obs) ⟨dd2, shape, d2⟩ weights s = (s2, .ok ()))
    (hpts : s1.points_ = some (pointArrs pts))
    (hm1 : m1.Full obs.length pts.length) (hm2 : m2.Full obs.length pts.length)
    (hm3 : m3.Full obs.length pts.length) :
    ∃ s3, fit env junk m3 P (coordArrs c1 c2 c3 shape obs) ⟨dd3, shape, comb a d1 b d2⟩ weights s =
        (s3, .ok ()) ∧ s3.points_ = some (pointArrs pts) ∧
      (∃ k1 k2, s1.coefs_ = some k1 ∧ s2.coefs_ = some k2 ∧ s3.coefs_ = some (comb a k1 b k2)) ∧
      ∀ (q1 q2 q3 : Mode) (e1 e2 e3 : DType) (shape' : List ℕ) (grid : List P3),
        q1.Full grid.length (2 * pts.length) → q2.Full grid.length (2 * pts.length) →
        q3.Full grid.length (2 * pts.length) →
        ∃ r1 r2, predict junk q1 P (coordArrs e1 e2 e3 shape' grid) s1 = .ok ⟨shape', r1⟩ ∧
          predict junk q2 P (coordArrs e1 e2 e3 shape' grid) s2 = .ok ⟨shape', r2⟩ ∧
          predict junk q3 P (coordArrs e1 e2 e3 shape' grid) s3 = .ok ⟨shape', comb a r1 b r2⟩ := by
  obtain ⟨region, d, p1, k1, f1, f2, f3, f4, f5, f6⟩ := fit_ok _ _ _ _ _ _ _ _ _ h1
  obtain ⟨region', d', p2, k2, g1, g2, g3, g4, g5, g6⟩ := fit_ok _ _ _ _ _ _ _ _ _ h2
  have e1 := h1.symm.trans (f6 s)
  have e2 := h2.symm.trans (g6 s)
  simp only [Prod.mk.injEq, and_true] at e1 e2
  rw [e1] at hpts
  simp only [Option.some.injEq] at hpts
  subst hpts
  have hp : p2 = pointArrs pts := by
    have := (f3 s).symm.trans (g3 s)
    simp only [Prod.mk.injEq, Except.ok.injEq] at this
    exact this.2.symm
  subst hp
  rw [castArrs_float hd, n1dArrays_coordArrs] at f2 f3 f4 f5 g2 g5
  simp only [cast_float_fun hd, List.map_id] at f5 g5
  rw [jacobian_eq junk m1 _ hd obs pts hm1] at f5
  rw [jacobian_eq junk m2 _ hd obs pts hm2] at g5
  have hobs : obs ≠ [] := by
    rintro rfl
    cases f2
  have hJ : (obs.map fun q => pts.map fun p => greensFuncCartesian q p) ≠ [] := by simpa using hobs
  have hr : ∀ row ∈ (obs.map fun q => pts.map fun p => greensFuncCartesian q p), row.length = pts.length := by
    simp
  have l1 := hls.size _ _ _ _ _ _ hJ hr f5
  have l2 := hls.size _ _ _ _ _ _ hJ hr g5
  have f7 := hls.linear _ _ _ _ _ _ _ a b hlen f5 g5
  rw [← jacobian_eq junk m3 _ hd obs pts hm3] at f7
  refine ⟨{ s with
    region_ := some region, depth_ := some d, points_ := some (pointArrs pts),
    coefs_ := some (comb a k1 b k2),
    allocs := s.allocs ++ [(pointArrs obs).1.length * (pointArrs pts).1.length * P.dtype.itemsize] },
    ?_, rfl, ⟨k1, k2, by rw [e1], by rw [e2], rfl⟩, ?_⟩
  · unfold fit solve
    rw [show checkFitInput (coordArrs c1 c2 c3 shape obs) ⟨dd3, shape, comb a d1 b d2⟩ weights = .ok () from f1]
    simp only [castArrs_float hd, n1dArrays_coordArrs, f2, f3, f4, cast_float_fun hd, List.map_id]
    rw [f7]
  · intro q1 q2 q3 e1' e2' e3' shape' grid hq1 hq2 hq3
    exact fit_linear_predict junk P hd pts k1 k2 l1 l2 a b s1 s2 _ (by rw [e1]) (by rw [e2]) rfl (by rw [e1])
      (by rw [e2]) rfl q1 q2 q3 e1' e2' e3' shape' grid hq1 hq2 hq3

/-- C94 for spherical sources. -/
theorem C94_spherical (env : Env) (hls : LinearSolver env) (junk : Junk) (m1 m2 m3 : Mode) (P : SphParams)
    (c1 c2 c3 dd1 dd2 dd3 : DType) (shape : List ℕ) (obs pts : List P3)
    (weights : Option CArr) (a b : ℝ) (d1 d2 : List ℝ) (hlen : d1.length = d2.length)
    (s s1 s2 : State)
    (h1 : fitSph env junk m1 P (coordArrs c1 c2 c3 shape obs) ⟨dd1, shape, d1⟩ weights s = (s1, .ok ()))
    (h2 : fitSph env junk m2 P (coordArrs c1 c2 c3 shape obs) ⟨dd2, shape, d2⟩ weights s = (s2, .ok ()))
    (hpts : s1.points_ = some (pointArrs pts))
    (hm1 : m1.Full obs.length pts.length) (hm2 : m2.Full obs.length pts.length)
    (hm3 : m3.Full obs.length pts.length) :
    ∃ s3, fitSph env junk m3 P (coordArrs c1 c2 c3 shape obs) ⟨dd3, shape, comb a d1 b d2⟩ weights s =
        (s3, .ok ()) ∧ s3.points_ = some (pointArrs pts) ∧
      (∃ k1 k2, s1.coefs_ = some k1 ∧ s2.coefs_ = some k2 ∧ s3.coefs_ = some (comb a k1 b k2)) ∧
      ∀ (q1 q2 q3 : Mode) (e1 e2 e3 : DType) (_ : e1.IsFloat) (shape' : List ℕ) (grid : List P3),
        q1.Full grid.length (2 * pts.length) → q2.Full grid.length (2 * pts.length) →
        q3.Full grid.length (2 * pts.length) →
        ∃ r1 r2, predictSph junk q1 (coordArrs e1 e2 e3 shape' grid) s1 = .ok ⟨shape', r1⟩ ∧
          predictSph junk q2 (coordArrs e1 e2 e3 shape' grid) s2 = .ok ⟨shape', r2⟩ ∧
          predictSph junk q3 (coordArrs e1 e2 e3 shape' grid) s3 = .ok ⟨shape', comb a r1 b r2⟩ := by
  obtain ⟨region, k1, f1, f2, f5, f6⟩ := fitSph_ok _ _ _ _ _ _ _ _ _ h1
  obtain ⟨region', k2, g1, g2, g5, g6⟩ := fitSph_ok _ _ _ _ _ _ _ _ _ h2
  have e1 := h1.symm.trans (f6 s)
  have e2 := h2.symm.trans (g6 s)
  simp only [Prod.mk.injEq, and_true] at e1 e2
  rw [e1] at hpts
  simp only [Option.some.injEq] at hpts
  rw [hpts] at e1 e2 f5 g5
  rw [n1dArrays_coordArrs] at f2 f5 g5 hpts e1 e2
  have halloc : env.alloc ((pointArrs obs).1.length * (pointArrs pts).1.length * 8) = .ok () := by
    have := congrArg Prod.snd h1
    unfold fitSph solve at this
    rw [f1] at this
    simp only [n1dArrays_coordArrs, f2, hpts] at this
    cases ha : env.alloc ((pointArrs obs).1.length * (pointArrs pts).1.length * DType.itemsize .float64) with
    | error e => rw [ha] at this; cases this
    | ok _ => exact ha
  rw [jacobian_eq junk m1 _ (d := .float64) trivial obs pts hm1] at f5
  rw [jacobian_eq junk m2 _ (d := .float64) trivial obs pts hm2] at g5
  have hobs : obs ≠ [] := by
    rintro rfl
    cases f2
  have hJ : (obs.map fun q => pts.map fun p => greensFuncSpherical q p) ≠ [] := by simpa using hobs
  have hr : ∀ row ∈ (obs.map fun q => pts.map fun p => greensFuncSpherical q p), row.length = pts.length := by
    simp
  have l1 := hls.size _ _ _ _ _ _ hJ hr f5
  have l2 := hls.size _ _ _ _ _ _ hJ hr g5
  have f7 := hls.linear _ _ _ _ _ _ _ a b hlen f5 g5
  rw [← jacobian_eq junk m3 _ (d := .float64) trivial obs pts hm3] at f7
  refine ⟨{ s with
    region_ := some region, points_ := some (pointArrs pts),
    coefs_ := some (comb a k1 b k2),
    allocs := s.allocs ++ [(pointArrs obs).1.length * (pointArrs pts).1.length * 8] },
    ?_, rfl, ⟨k1, k2, by rw [e1], by rw [e2], rfl⟩, ?_⟩
  · unfold fitSph solve
    rw [show checkFitInput (coordArrs c1 c2 c3 shape obs) ⟨dd3, shape, comb a d1 b d2⟩ weights = .ok () from f1]
    simp only [n1dArrays_coordArrs, f2, hpts, DType.itemsize, halloc]
    rw [f7]
  · intro q1 q2 q3 e1' e2' e3' hf shape' grid hq1 hq2 hq3
    refine ⟨predictKernel junk q1 greensFuncSpherical e1' (pointArrs grid) (pointArrs pts) k1 shape'.prod,
      predictKernel junk q2 greensFuncSpherical e1' (pointArrs grid) (pointArrs pts) k2 shape'.prod, ?_, ?_, ?_⟩
    · unfold predictSph
      rw [e1]
      simp only [npBroadcast_coordArrs, Py.bind_ok, Py.pure_eq, n1dArrays_coordArrs]
      rfl
    · unfold predictSph
      rw [e2]
      simp only [npBroadcast_coordArrs, Py.bind_ok, Py.pure_eq, n1dArrays_coordArrs]
      rfl
    · unfold predictSph
      simp only [npBroadcast_coordArrs, Py.bind_ok, Py.pure_eq, n1dArrays_coordArrs]
      rw [show (coordArrs e1' e2' e3' shape' grid).1.dtype = e1' from rfl,
        predictKernel_comb junk q1 q2 q3 _ hf _ _ a b k1 k2 (by simpa [pointArrs] using l1)
        (by simpa [pointArrs] using l2) _ (by simpa [pointArrs] using hq1) (by simpa [pointArrs] using hq2)
        (by simpa [pointArrs] using hq3)]

theorem chunks_residue (obs pts : List P3) (w : Option (List ℝ)) (r : List ℝ) (pw dw : List ℕ)
    (X : Arrs × Arrs × Option (List ℝ) × List ℝ)
    (h : chunks (pointArrs obs) (pointArrs pts) w r pw dw = .ok X) :
    ∃ ps cs wc rc, X = (pointArrs ps, pointArrs cs, wc, rc) ∧ fancyIndex r dw = .ok rc ∧
      ps.length = pw.length ∧ cs.length = dw.length ∧
      ∀ r' rc', fancyIndex r' dw = .ok rc' →
        chunks (pointArrs obs) (pointArrs pts) w r' pw dw = .ok (pointArrs ps, pointArrs cs, wc, rc') := by
  unfold chunks at h ⊢
  rw [fancyArrs_points, fancyArrs_points] at h ⊢
  cases h1 : fancyIndex pts pw with
  | error e => rw [h1] at h; cases h
  | ok ps =>
  rw [h1] at h
  cases h2 : fancyIndex obs dw with
  | error e => rw [h2] at h; cases h
  | ok cs =>
  rw [h2] at h
  have l1 := fancyIndex_length _ _ _ h1
  have l2 := fancyIndex_length _ _ _ h2
  simp only [Except.map, Py.bind_ok] at h ⊢
  cases w with
  | none =>
    simp only at h
    cases h5 : fancyIndex r dw with
    | error e => rw [h5] at h; cases h
    | ok rc =>
      rw [h5] at h
      cases h
      exact ⟨ps, cs, none, rc, rfl, rfl, l1, l2, fun r' rc' h' => by rw [h']; rfl⟩
  | some w =>
    simp only at h
    cases h6 : fancyIndex w dw with
    | error e => rw [h6] at h; cases h
    | ok wc =>
      rw [h6] at h
      cases h5 : fancyIndex r dw with
      | error e => rw [h5] at h; cases h
      | ok rc =>
        rw [h5] at h
        cases h
        exact ⟨ps, cs, some wc, rc, rfl, rfl, l1, l2, fun r' rc' h' => by simp only [h', h6]; rfl⟩

theorem boostUpdate_ok (junk : Junk) (mode : Mode) (d : DType) (c p : Arrs) (pw : List ℕ) (v : List ℝ)
    (b b' : Boost) (h : boostUpdate junk mode d c p pw v b = .ok b') :
    fancyAdd b.coefs pw v = .ok b'.coefs ∧ b'.residue = List.zipWith (· - ·) b.residue
      (predictKernel junk mode greensFuncCartesian d c p v b.residue.length) := by
  unfold boostUpdate at h
  simp only at h
  cases hf : fancyAdd b.coefs pw v with
  | error e => rw [hf] at h; cases h
  | ok r => rw [hf] at h; cases h; exact ⟨rfl, rfl⟩

theorem fancyAdd_length (u : List ℝ) (l : List ℕ) (x r : List ℝ) (h : fancyAdd u l x = .ok r) :
    x.length = l.length ∧ r.length = u.length := by
  obtain ⟨o, -, h2, rfl⟩ := fancyAdd_cases _ _ _ _ h
  exact ⟨h2, foldl_set_length _ _⟩

theorem predictKernel_length (junk : Junk) (mode : Mode) (g : P3 → P3 → ℝ) (d : DType) (c p : Arrs)
    (v : List ℝ) (n : ℕ) : (predictKernel junk mode g d c p v n).length = n := by
  simp [predictKernel]

theorem boostLoop_linear (env : Env) (hls : LinearSolver env) (junk : Junk) (M1 M2 M3 : ℕ → Mode × Mode)
    (P : Params) (hd : P.dtype.IsFloat) (obs pts : List P3) (weights : Option (List ℝ)) (a b : ℝ)
    (W : List (List ℕ × List ℕ)) :
    ∀ (k : ℕ) (b1 b2 b3 b1' b2' : Boost) (s1 s2 s3 s1' s2' : State),
      (∀ i pw dw, W[i]? = some (pw, dw) → ∀ M ∈ [M1, M2, M3],
        (M (k + i)).1.Full dw.length pw.length ∧ (M (k + i)).2.Full obs.length (2 * pw.length)) →
      b1.coefs.length = b2.coefs.length → b1.residue.length = b2.residue.length →
      b3.coefs = comb a b1.coefs b b2.coefs → b3.residue = comb a b1.residue b b2.residue →
      s1.coefs_ = some b1.coefs → s2.coefs_ = some b2.coefs → s3.coefs_ = some b3.coefs →
      boostLoop env junk M1 P (pointArrs obs) (pointArrs pts) weights W k b1 s1 = (s1', .ok b1') →
      boostLoop env junk M2 P (pointArrs obs) (pointArrs pts) weights W k b2 s2 = (s2', .ok b2') →
      ∃ s3' b3', boostLoop env junk M3 P (pointArrs obs) (pointArrs pts) weights W k b3 s3 = (s3', .ok b3') ∧
        b3'.coefs = comb a b1'.coefs b b2'.coefs ∧ s1'.coefs_ = some b1'.coefs ∧
        s2'.coefs_ = some b2'.coefs ∧ s3'.coefs_ = some b3'.coefs ∧ s3'.points_ = s3.points_ ∧
        b1'.coefs.length = b1.coefs.length ∧ b2'.coefs.length = b2.coefs.length := by
  induction W with
  | nil =>
    intro k b1 b2 b3 b1' b2' s1 s2 s3 s1' s2' _ _ _ h3 _ p1 p2 p3 e1 e2
    simp only [boostLoop, Prod.mk.injEq, Except.ok.injEq] at e1 e2
    obtain ⟨rfl, rfl⟩ := e1
    obtain ⟨rfl, rfl⟩ := e2
    exact ⟨s3, b3, rfl, h3, p1, p2, p3, rfl, rfl, rfl⟩
  | cons w W ih =>
    obtain ⟨pw, dw⟩ := w
    intro k b1 b2 b3 b1' b2' s1 s2 s3 s1' s2' hM hlc hlr h3 h4 p1 p2 p3 e1 e2
    have hM0 := hM 0 pw dw rfl
    rw [Nat.add_zero] at hM0
    have f1 := hM0 M1 (by simp)
    have f2 := hM0 M2 (by simp)
    have f3 := hM0 M3 (by simp)
    rw [boostLoop] at e1 e2 ⊢
    cases x1 : chunks (pointArrs obs) (pointArrs pts) weights b1.residue pw dw with
    | error e => rw [x1] at e1; cases e1
    | ok X1 =>
    cases x2 : chunks (pointArrs obs) (pointArrs pts) weights b2.residue pw dw with
    | error e => rw [x2] at e2; cases e2
    | ok X2 =>
    obtain ⟨ps, cs, wc, r1, rfl, y1, lp, lc, z⟩ := chunks_residue _ _ _ _ _ _ _ x1
    obtain ⟨ps2, cs2, wc2, r2, rfl, y2, -, -, -⟩ := chunks_residue _ _ _ _ _ _ _ x2
    have x2' := z _ _ y2
    have lr1 := fancyIndex_length _ _ _ y1
    have lr2 := fancyIndex_length _ _ _ y2
    have x3 := z _ _ (fancyIndex_comb a b _ _ hlr _ _ _ y1 y2)
    rw [← h4] at x3
    rw [x1] at e1
    rw [x2'] at e2
    rw [x3]
    simp only [solve] at e1 e2 ⊢
    cases ha : env.alloc ((pointArrs cs).1.length * (pointArrs ps).1.length * P.dtype.itemsize) with
    | error e => rw [ha] at e1; cases e1
    | ok _ =>
    rw [ha] at e1 e2
    simp only at e1 e2 ⊢
    rw [jacobian_eq junk (M1 k).1 _ hd cs ps (by rw [lc, lp]; exact f1.1)] at e1
    rw [jacobian_eq junk (M2 k).1 _ hd cs ps (by rw [lc, lp]; exact f2.1)] at e2
    rw [jacobian_eq junk (M3 k).1 _ hd cs ps (by rw [lc, lp]; exact f3.1)]
    cases l1 : env.leastSquares (cs.map fun q => ps.map fun p => greensFuncCartesian q p) r1 wc P.damping with
    | error e => rw [l1] at e1; cases e1
    | ok v1 =>
    cases l2 : env.leastSquares (cs.map fun q => ps.map fun p => greensFuncCartesian q p) r2 wc P.damping with
    | error e => rw [l2] at e2; cases e2
    | ok v2 =>
    rw [l1] at e1
    rw [l2] at e2
    rw [hls.linear _ _ _ _ _ _ _ a b (lr1.trans lr2.symm) l1 l2]
    simp only at e1 e2 ⊢
    cases u1 : boostUpdate junk (M1 k).2 P.dtype (pointArrs obs) (pointArrs ps) pw v1 b1 with
    | error e => rw [u1] at e1; cases e1
    | ok n1 =>
    cases u2 : boostUpdate junk (M2 k).2 P.dtype (pointArrs obs) (pointArrs ps) pw v2 b2 with
    | error e => rw [u2] at e2; cases e2
    | ok n2 =>
    rw [u1] at e1
    rw [u2] at e2
    simp only at e1 e2
    obtain ⟨a1, q1⟩ := boostUpdate_ok _ _ _ _ _ _ _ _ _ u1
    obtain ⟨a2, q2⟩ := boostUpdate_ok _ _ _ _ _ _ _ _ _ u2
    obtain ⟨a3, hl3⟩ := fancyAdd_comb a b _ _ hlc pw _ _ _ _ a1 a2
    have hv1 := fancyAdd_length _ _ _ _ a1
    have hv2 := fancyAdd_length _ _ _ _ a2
    have ep : (pointArrs ps).1.length = pw.length := by simpa [pointArrs] using lp
    have eo : (pointArrs obs).1.length = obs.length := by simp [pointArrs]
    have u3 : boostUpdate junk (M3 k).2 P.dtype (pointArrs obs) (pointArrs ps) pw (comb a v1 b v2) b3 =
        .ok ⟨comb a n1.coefs b n2.coefs, comb a n1.residue b n2.residue,
          b3.errors ++ [rms (comb a n1.residue b n2.residue)]⟩ := by
      unfold boostUpdate
      simp only
      rw [h3, a3, h4, comb_length _ _ _ _ hlr,
        predictKernel_comb junk (M1 k).2 (M2 k).2 (M3 k).2 _ hd _ _ a b v1 v2 (hv1.1.trans ep.symm)
          (hv2.1.trans ep.symm) _ (by rw [ep, eo]; exact f1.2) (by rw [ep, eo]; exact f2.2)
          (by rw [ep, eo]; exact f3.2),
        comb_sub a b _ _ _ _ hlr (by simp [predictKernel_length]), q1, q2, hlr]
      rfl
    rw [u3]
    simp only
    obtain ⟨s3', b3', i1, i2, i3, i4, i5, i6, i7, i8⟩ := ih (k + 1) n1 n2
      ⟨comb a n1.coefs b n2.coefs, comb a n1.residue b n2.residue,
          b3.errors ++ [rms (comb a n1.residue b n2.residue)]⟩ b1' b2'
      { s1 with
        coefs_ := some n1.coefs
        allocs := s1.allocs ++ [(pointArrs cs).1.length * (pointArrs ps).1.length * P.dtype.itemsize] }
      { s2 with
        coefs_ := some n2.coefs
        allocs := s2.allocs ++ [(pointArrs cs).1.length * (pointArrs ps).1.length * P.dtype.itemsize] }
      { s3 with
        coefs_ := some (comb a n1.coefs b n2.coefs)
        allocs := s3.allocs ++ [(pointArrs cs).1.length * (pointArrs ps).1.length * P.dtype.itemsize] } s1' s2'
      (by
        intro i pw dw hi
        have := hM (i + 1) pw dw hi
        rwa [show k + (i + 1) = k + 1 + i by omega] at this)
      hl3 (by rw [q1, q2]; simp [predictKernel_length, hlr]) rfl rfl rfl rfl rfl e1 e2
    exact ⟨s3', b3', i1, i2, i3, i4, i5, i6, i7.trans hv1.2, i8.trans hv2.2⟩

/-- C94 for gradient boosting, with the same shuffle of the windows. -/
theorem C94_gradient_boosted (env : Env) (hls : LinearSolver env) (junk : Junk) (perm : ℕ → List ℕ)
    (M1 M2 M3 : ℕ → Mode × Mode) (P : Params)
    (hd : P.dtype.IsFloat) (c1 c2 c3 dd1 dd2 dd3 : DType) (shape : List ℕ) (obs pts : List P3)
    (weights : Option CArr) (a b : ℝ) (d1 d2 : List ℝ) (hlen : d1.length = d2.length)
    (s s1 s2 : State)
    (h1 : fitGB env junk perm M1 P (coordArrs c1 c2 c3 shape obs) ⟨dd1, shape, d1⟩ weights s = (s1, .ok ()))
    (h2 : fitGB env junk perm M2 P (coordArrs c1 c2 c3 shape obs) ⟨dd2, shape, d2⟩ weights s = (s2, .ok ()))
    (hpts : s1.points_ = some (pointArrs pts)) (W : List (List ℕ) × List (List ℕ))
    (hW : (createWindows env perm P (pointArrs obs) (pointArrs pts) {}).2 = .ok W)
    (hmodes : ∀ k pw dw, (W.1.zip W.2)[k]? = some (pw, dw) → ∀ M ∈ [M1, M2, M3],
      (M k).1.Full dw.length pw.length ∧ (M k).2.Full obs.length (2 * pw.length)) :
    ∃ s3, fitGB env junk perm M3 P (coordArrs c1 c2 c3 shape obs) ⟨dd3, shape, comb a d1 b d2⟩ weights s =
        (s3, .ok ()) ∧ s3.points_ = some (pointArrs pts) ∧
      (∃ k1 k2, s1.coefs_ = some k1 ∧ s2.coefs_ = some k2 ∧ s3.coefs_ = some (comb a k1 b k2)) ∧
      ∀ (q1 q2 q3 : Mode) (e1 e2 e3 : DType) (shape' : List ℕ) (grid : List P3),
        q1.Full grid.length (2 * pts.length) → q2.Full grid.length (2 * pts.length) →
        q3.Full grid.length (2 * pts.length) →
        ∃ r1 r2, predict junk q1 P (coordArrs e1 e2 e3 shape' grid) s1 = .ok ⟨shape', r1⟩ ∧
          predict junk q2 P (coordArrs e1 e2 e3 shape' grid) s2 = .ok ⟨shape', r2⟩ ∧
          predict junk q3 P (coordArrs e1 e2 e3 shape' grid) s3 = .ok ⟨shape', comb a r1 b r2⟩ := by
  obtain ⟨region, d, p1, W1, size, b1, t1, f1, f2, f3, f4, f5, f6, f7, f8⟩ := fitGB_ok _ _ _ _ _ _ _ _ _ _ h1
  obtain ⟨region', d', p2, W2, size', b2, t2, g1, g2, g3, g4, g5, g6, g7, g8⟩ := fitGB_ok _ _ _ _ _ _ _ _ _ _ h2
  rw [f7] at hpts
  simp only [Option.some.injEq] at hpts
  subst hpts
  rw [castArrs_float hd, n1dArrays_coordArrs] at f2 f3 f4 f5 g2 g3 g4 g5
  have hp : p2 = pointArrs pts := by
    have := (f3 s).symm.trans (g3 s)
    simp only [Prod.mk.injEq, Except.ok.injEq] at this
    exact this.2.symm
  subst hp
  have hW1 : W1 = W := by
    rw [f4] at hW
    simpa using hW
  have hW2 : W2 = W := by
    rw [g4] at hW
    simpa using hW
  subst hW1
  subst hW2
  simp only [cast_float_fun hd, List.map_id] at f5 g5
  have el : (pointArrs pts).1.length = pts.length := by simp [pointArrs]
  have hz : comb a (List.replicate (pointArrs pts).1.length 0) b (List.replicate (pointArrs pts).1.length 0) =
      List.replicate (pointArrs pts).1.length 0 := by
    simp [comb]
  obtain ⟨s3', b3', i1, i2, i3, i4, i5, i6, i7, i8⟩ := boostLoop_linear env hls junk M1 M2 M3 P hd obs pts
    (weights.map (·.data)) a b (W2.1.zip W2.2) 0
    ⟨List.replicate (pointArrs pts).1.length 0, d1, [rms d1]⟩
    ⟨List.replicate (pointArrs pts).1.length 0, d2, [rms d2]⟩
    ⟨List.replicate (pointArrs pts).1.length 0, comb a d1 b d2, [rms (comb a d1 b d2)]⟩ b1 b2
    _ _ { s with region_ := some region, depth_ := some d, points_ := some (pointArrs pts), window_size_ := some size, coefs_ := some (List.replicate (pointArrs pts).1.length 0) } t1 t2
    (by intro i pw dw hi; rw [Nat.zero_add]; exact hmodes i pw dw hi) rfl hlen hz.symm rfl rfl rfl rfl f5 g5
  simp only [List.length_replicate, el] at i7 i8
  rw [i2] at i5
  refine ⟨{ s3' with rmse_ := some b3'.errors }, ?_, i6, ⟨b1.coefs, b2.coefs, by rw [f6]; exact i3,
    by rw [g6]; exact i4, i5⟩, ?_⟩
  · unfold fitGB gradientBoosting
    rw [show checkFitInput (coordArrs c1 c2 c3 shape obs) ⟨dd3, shape, comb a d1 b d2⟩ weights = .ok () from f1]
    simp only [castArrs_float hd, n1dArrays_coordArrs, f2, f3, f4, cast_float_fun hd, List.map_id]
    rw [i1]
  · intro q1 q2 q3 e1' e2' e3' shape' grid hq1 hq2 hq3
    exact fit_linear_predict junk P hd pts b1.coefs b2.coefs i7 i8 a b s1 s2 _ f7 g7 i6
      (by rw [f6]; exact i3) (by rw [g6]; exact i4) i5 q1 q2 q3 e1' e2' e3' shape' grid hq1 hq2 hq3

end Verif.EqSources
