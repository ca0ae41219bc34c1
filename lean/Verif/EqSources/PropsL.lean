import Verif.EqSources.Examples

/-! C159: errors of the data are not amplified at the data points, and more damping never fits better. -/

namespace Verif.EqSources
open Verif.Forward Verif.Engine Verif.Distance Verif.Layers

/-! ### Specification -/

/-- Sum of the squares of the coefficients, each times the scale of its column of the Jacobian. -/
noncomputable def penalty (scales c : List ℝ) : ℝ := (List.zipWith (fun s x => (s * x) ^ 2) scales c).sum

/-- The solver returns coefficients that minimize the weighted misfit plus the damping times the squares
of the coefficients in units of the scales of the columns (`verde.base.least_squares`: linear regression,
or ridge regression, of a Jacobian whose columns are divided by scales that depend on the Jacobian only). -/
structure LeastSquares (env : Env) (scales : List (List ℝ) → List ℝ) : Prop where
  size : ∀ (J : List (List ℝ)) (n : ℕ) (d : List ℝ) (w : Option (List ℝ)) (damping : Option ℝ) (c : List ℝ),
    J ≠ [] → (∀ row ∈ J, row.length = n) → env.leastSquares J d w damping = .ok c → c.length = n
  least : ∀ (J : List (List ℝ)) (d : List ℝ) (w : Option (List ℝ)) (damping : Option ℝ) (c c' : List ℝ),
    (∀ row ∈ J, row.length = c.length) → d.length = J.length →
    (∀ w' ∈ w, w'.length = d.length ∧ ∀ x ∈ w', 0 ≤ x) → (∀ x ∈ damping, 0 ≤ x) →
    env.leastSquares J d w damping = .ok c → c'.length = c.length →
    misfit w (List.zipWith (· - ·) d (matVec J c)) + damping.getD 0 * penalty (scales J) c ≤
      misfit w (List.zipWith (· - ·) d (matVec J c')) + damping.getD 0 * penalty (scales J) c'

/-! ### Lemmas -/

/-- Minimizers of damped least squares change the predictions by at most the change of the data. -/
theorem least_contract {m n : Type} [Fintype m] [Fintype n] (A : (n → ℝ) → m → ℝ)
    (hA : ∀ x y t i, A (fun j => x j + t * y j) i = A x i + t * A y i)
    (w d1 d2 : m → ℝ) (hw : ∀ i, 0 ≤ w i) (s : n → ℝ) (a : ℝ) (ha : 0 ≤ a) (x1 x2 : n → ℝ)
    (h1 : ∀ y, ∑ i, w i * (d1 i - A x1 i) ^ 2 + a * ∑ j, (s j * x1 j) ^ 2 ≤
      ∑ i, w i * (d1 i - A y i) ^ 2 + a * ∑ j, (s j * y j) ^ 2)
    (h2 : ∀ y, ∑ i, w i * (d2 i - A x2 i) ^ 2 + a * ∑ j, (s j * x2 j) ^ 2 ≤
      ∑ i, w i * (d2 i - A y i) ^ 2 + a * ∑ j, (s j * y j) ^ 2) :
    ∑ i, w i * (A x1 i - A x2 i) ^ 2 ≤ ∑ i, w i * (d1 i - d2 i) ^ 2 := by
  set u : n → ℝ := fun j => x1 j - x2 j with hu
  have hAu : ∀ i, A u i = A x1 i - A x2 i := by
    intro i
    have := hA x1 x2 (-1) i
    have e : (fun j => x1 j + -1 * x2 j) = u := by funext j; simp [hu]; ring
    rw [e] at this
    linarith
  have expand : ∀ (d : m → ℝ) (x : n → ℝ) (t : ℝ),
      ∑ i, w i * (d i - A (fun j => x j + t * u j) i) ^ 2 + a * ∑ j, (s j * (x j + t * u j)) ^ 2 =
        ∑ i, w i * (d i - A x i) ^ 2 + a * ∑ j, (s j * x j) ^ 2
          - 2 * t * (∑ i, w i * ((d i - A x i) * A u i) - a * ∑ j, s j ^ 2 * (x j * u j))
          + t ^ 2 * (∑ i, w i * A u i ^ 2 + a * ∑ j, (s j * u j) ^ 2) := by
    intro d x t
    have e1 : ∑ i, w i * (d i - A (fun j => x j + t * u j) i) ^ 2 = ∑ i, w i * (d i - A x i) ^ 2
        - 2 * t * ∑ i, w i * ((d i - A x i) * A u i) + t ^ 2 * ∑ i, w i * A u i ^ 2 := by
      rw [Finset.mul_sum, Finset.mul_sum, ← Finset.sum_sub_distrib, ← Finset.sum_add_distrib]
      exact Finset.sum_congr rfl fun i _ => by rw [hA]; ring
    have e2 : ∑ j, (s j * (x j + t * u j)) ^ 2 = ∑ j, (s j * x j) ^ 2
        + 2 * t * ∑ j, s j ^ 2 * (x j * u j) + t ^ 2 * ∑ j, (s j * u j) ^ 2 := by
      rw [Finset.mul_sum, Finset.mul_sum, ← Finset.sum_add_distrib, ← Finset.sum_add_distrib]
      exact Finset.sum_congr rfl fun j _ => by ring
    rw [e1, e2]
    ring
  set K := ∑ i, w i * A u i ^ 2 + a * ∑ j, (s j * u j) ^ 2 with hK
  have hq : 0 ≤ a * ∑ j, (s j * u j) ^ 2 := mul_nonneg ha (Finset.sum_nonneg fun j _ => sq_nonneg _)
  have hm : 0 ≤ ∑ i, w i * A u i ^ 2 := Finset.sum_nonneg fun i _ => mul_nonneg (hw i) (sq_nonneg _)
  set X := ∑ i, w i * ((d1 i - d2 i) * A u i) with hX
  have hsum : (∑ i, w i * ((d1 i - A x1 i) * A u i) - a * ∑ j, s j ^ 2 * (x1 j * u j)) -
      (∑ i, w i * ((d2 i - A x2 i) * A u i) - a * ∑ j, s j ^ 2 * (x2 j * u j)) = X - K := by
    have e1 : ∑ i, w i * ((d1 i - A x1 i) * A u i) - ∑ i, w i * ((d2 i - A x2 i) * A u i) =
        X - ∑ i, w i * A u i ^ 2 := by
      rw [hX, ← Finset.sum_sub_distrib, ← Finset.sum_sub_distrib]
      exact Finset.sum_congr rfl fun i _ => by rw [hAu]; ring
    have e2 : ∑ j, s j ^ 2 * (x1 j * u j) - ∑ j, s j ^ 2 * (x2 j * u j) = ∑ j, (s j * u j) ^ 2 := by
      rw [← Finset.sum_sub_distrib]
      exact Finset.sum_congr rfl fun j _ => by simp only [hu]; ring
    rw [hK, ← e2]
    linear_combination e1
  have key : ∀ t : ℝ, 0 < t → 0 ≤ X - K + t * K := by
    intro t ht
    have g1 := h1 (fun j => x1 j + (-t) * u j)
    have g2 := h2 (fun j => x2 j + t * u j)
    rw [expand] at g1 g2
    have : 0 ≤ 2 * t * (X - K + t * K) := by
      rw [← hsum]
      nlinarith [g1, g2]
    exact nonneg_of_mul_nonneg_right this (by linarith)
  have hK0 : 0 ≤ K := add_nonneg hm hq
  have hXK : K ≤ X := by
    by_contra hlt
    push Not at hlt
    have h := key ((K - X) / (2 * (K + 1))) (div_pos (by linarith) (by linarith))
    have : (K - X) / (2 * (K + 1)) * K ≤ (K - X) / 2 := by
      rw [div_mul_eq_mul_div, div_le_div_iff₀ (by linarith) (by norm_num)]
      nlinarith
    linarith
  have hcs : 2 * X ≤ ∑ i, w i * (d1 i - d2 i) ^ 2 + ∑ i, w i * A u i ^ 2 := by
    rw [hX, Finset.mul_sum, ← Finset.sum_add_distrib]
    refine Finset.sum_le_sum fun i _ => ?_
    have := mul_nonneg (hw i) (sq_nonneg (d1 i - d2 i - A u i))
    nlinarith
  have hfin : ∑ i, w i * A u i ^ 2 ≤ ∑ i, w i * (d1 i - d2 i) ^ 2 := by linarith
  simpa only [hAu] using hfin

/-- The product of a matrix and a vector, by components. -/
noncomputable def prodAt (J : List (List ℝ)) {n : ℕ} (x : Fin n → ℝ) (i : Fin J.length) : ℝ :=
  ∑ j : Fin n, (J.getD i []).getD j 0 * x j

theorem matVec_getD (J : List (List ℝ)) (c : List ℝ) (n : ℕ) (hc : c.length = n)
    (hr : ∀ row ∈ J, row.length = n) (i : Fin J.length) :
    (matVec J c).getD i 0 = prodAt J (fun j : Fin n => c.getD j 0) i := by
  have h1 : J[(i : ℕ)].length = n := hr _ (List.getElem_mem _)
  have e : List.zipWith (· * ·) J[(i : ℕ)] c = List.ofFn fun j : Fin n =>
      (J.getD i []).getD j 0 * c.getD j 0 := by
    apply List.ext_getElem
    · simp [h1, hc]
    · intro j h2 h3
      have hj : j < n := by simpa using h3
      have h4 : j < J[(i : ℕ)].length := by omega
      have h5 : j < c.length := by omega
      simp [List.getElem?_eq_getElem h4, List.getElem?_eq_getElem h5]
  rw [prodAt, ← List.sum_ofFn, ← e]
  simp [matVec]

theorem prodAt_line (J : List (List ℝ)) {n : ℕ} (x y : Fin n → ℝ) (t : ℝ) (i : Fin J.length) :
    prodAt J (fun j => x j + t * y j) i = prodAt J x i + t * prodAt J y i := by
  unfold prodAt
  rw [Finset.mul_sum, ← Finset.sum_add_distrib]
  exact Finset.sum_congr rfl fun j _ => by ring

theorem penalty_fin (s c : List ℝ) (n : ℕ) (hc : c.length = n) :
    penalty s c = ∑ j : Fin n, (s.getD j 0 * c.getD j 0) ^ 2 := by
  subst hc
  unfold penalty
  induction c generalizing s with
  | nil => simp
  | cons x c ih =>
    cases s with
    | nil => simp
    | cons y s =>
      rw [List.zipWith_cons_cons, List.sum_cons, ih]
      exact (Fin.sum_univ_succ (n := c.length) fun j : Fin (c.length + 1) =>
        ((y :: s).getD j 0 * (x :: c).getD j 0) ^ 2).symm

theorem weightAt_nonneg {w : Option (List ℝ)} {n : ℕ}
    (hw : ∀ w' ∈ w, w'.length = n ∧ ∀ x ∈ w', 0 ≤ x) (i : Fin n) : 0 ≤ weightAt w i := by
  cases w with
  | none => simp [weightAt]
  | some w =>
    have h1 := (hw w rfl).1
    have h2 := (hw w rfl).2
    simp only [weightAt, Option.map_some, Option.getD_some]
    have hi : (i : ℕ) < w.length := by rw [h1]; exact i.2
    rw [List.getD_eq_getElem?_getD, List.getElem?_eq_getElem hi]
    exact h2 _ (List.getElem_mem _)

/-- The weighted misfit of a difference of lists. -/
theorem misfit_sub_fin (w : Option (List ℝ)) (a b : List ℝ) (n : ℕ) (ha : a.length = n) (hb : b.length = n)
    (hw : ∀ w' ∈ w, w'.length = n) : misfit w (List.zipWith (· - ·) a b) =
      ∑ i : Fin n, weightAt w i * (a.getD i 0 - b.getD i 0) ^ 2 := by
  have hl : (List.zipWith (· - ·) a b).length = n := by simp [ha, hb]
  rw [misfit_fin w _ (fun w' h => by rw [hw w' h, hl]) n hl]
  refine Finset.sum_congr rfl fun i _ => ?_
  have h1 : (i : ℕ) < a.length := by rw [ha]; exact i.2
  have h2 : (i : ℕ) < b.length := by rw [hb]; exact i.2
  simp [List.getElem?_zipWith, List.getElem?_eq_getElem h1, List.getElem?_eq_getElem h2]

theorem damping_nonneg {damping : Option ℝ} (h : ∀ x ∈ damping, 0 ≤ x) : 0 ≤ damping.getD 0 := by
  cases damping with
  | none => simp
  | some x => exact h x rfl

/-- The objective of the solver by components. -/
theorem objective_fin (J : List (List ℝ)) (d : List ℝ) (w : Option (List ℝ)) (s : List ℝ) (n : ℕ)
    (hr : ∀ row ∈ J, row.length = n) (hd : d.length = J.length)
    (hw : ∀ w' ∈ w, w'.length = d.length ∧ ∀ x ∈ w', 0 ≤ x) (a : ℝ) (c : List ℝ) (hc : c.length = n) :
    misfit w (List.zipWith (· - ·) d (matVec J c)) + a * penalty s c =
      ∑ i : Fin J.length, weightAt w i * (d.getD i 0 - prodAt J (fun j : Fin n => c.getD j 0) i) ^ 2 +
        a * ∑ j : Fin n, (s.getD j 0 * c.getD j 0) ^ 2 := by
  rw [penalty_fin s c n hc, misfit_sub_fin w d _ J.length hd (by simp [matVec])
    (fun w' h => by rw [(hw w' h).1, hd])]
  congr 1
  exact Finset.sum_congr rfl fun i _ => by rw [matVec_getD J c n hc hr]

/-- The solver does not amplify changes of the data. -/
theorem solve_contract {env : Env} {scales : List (List ℝ) → List ℝ} (hls : LeastSquares env scales)
    (J : List (List ℝ)) (n : ℕ) (hJ : J ≠ []) (hr : ∀ row ∈ J, row.length = n) (d1 d2 : List ℝ)
    (h1 : d1.length = J.length) (h2 : d2.length = J.length) (w : Option (List ℝ))
    (hw : ∀ w' ∈ w, w'.length = J.length ∧ ∀ x ∈ w', 0 ≤ x) (damping : Option ℝ)
    (hdamp : ∀ x ∈ damping, 0 ≤ x) (c1 c2 : List ℝ) (e1 : env.leastSquares J d1 w damping = .ok c1)
    (e2 : env.leastSquares J d2 w damping = .ok c2) :
    misfit w (List.zipWith (· - ·) (matVec J c1) (matVec J c2)) ≤ misfit w (List.zipWith (· - ·) d1 d2) := by
  have l1 := hls.size _ _ _ _ _ _ hJ hr e1
  have l2 := hls.size _ _ _ _ _ _ hJ hr e2
  have opt : ∀ (d c : List ℝ) (_ : d.length = J.length) (_ : c.length = n)
      (_ : env.leastSquares J d w damping = .ok c) (y : Fin n → ℝ),
      ∑ i : Fin J.length, weightAt w i * (d.getD i 0 - prodAt J (fun j : Fin n => c.getD j 0) i) ^ 2 +
        damping.getD 0 * ∑ j : Fin n, ((scales J).getD j 0 * c.getD j 0) ^ 2 ≤
      ∑ i : Fin J.length, weightAt w i * (d.getD i 0 - prodAt J y i) ^ 2 +
        damping.getD 0 * ∑ j : Fin n, ((scales J).getD j 0 * y j) ^ 2 := by
    intro d c hd hc he y
    have hw' : ∀ w' ∈ w, w'.length = d.length ∧ ∀ x ∈ w', 0 ≤ x := by rwa [hd]
    have h := hls.least J d w damping c (List.ofFn y) (by rwa [hc]) hd hw' hdamp he (by simp [hc])
    rw [objective_fin J d w _ n hr hd hw' _ c hc,
      objective_fin J d w _ n hr hd hw' _ (List.ofFn y) (by simp)] at h
    have ey : (fun j : Fin n => (List.ofFn y).getD j 0) = y := by
      funext j
      simp
    rw [ey] at h
    refine h.trans_eq ?_
    congr 2
    exact Finset.sum_congr rfl fun j _ => by rw [← congrFun ey j]
  have key := least_contract (m := Fin J.length) (n := Fin n) (prodAt J) (prodAt_line J)
    (fun i => weightAt w i) (fun i => d1.getD i 0) (fun i => d2.getD i 0)
    (weightAt_nonneg hw) (fun j => (scales J).getD j 0)
    (damping.getD 0) (damping_nonneg hdamp) _ _ (opt d1 c1 h1 l1 e1) (opt d2 c2 h2 l2 e2)
  rw [misfit_sub_fin w d1 d2 J.length h1 h2 (fun w' h => (hw w' h).1),
    misfit_sub_fin w _ _ J.length (by simp [matVec]) (by simp [matVec]) (fun w' h => (hw w' h).1)]
  refine le_of_eq_of_le (Finset.sum_congr rfl fun i _ => ?_) key
  rw [matVec_getD J c1 n l1 hr, matVec_getD J c2 n l2 hr]

/-- With more damping the misfit of the solver is not smaller. -/
theorem solve_damping {env : Env} {scales : List (List ℝ) → List ℝ} (hls : LeastSquares env scales)
    (J : List (List ℝ)) (n : ℕ) (hJ : J ≠ []) (hr : ∀ row ∈ J, row.length = n) (d : List ℝ)
    (hd : d.length = J.length) (w : Option (List ℝ))
    (hw : ∀ w' ∈ w, w'.length = d.length ∧ ∀ x ∈ w', 0 ≤ x) (a b : Option ℝ)
    (ha : ∀ x ∈ a, 0 ≤ x) (hb : ∀ x ∈ b, 0 ≤ x) (hab : a.getD 0 < b.getD 0) (c1 c2 : List ℝ)
    (e1 : env.leastSquares J d w a = .ok c1) (e2 : env.leastSquares J d w b = .ok c2) :
    misfit w (List.zipWith (· - ·) d (matVec J c1)) ≤ misfit w (List.zipWith (· - ·) d (matVec J c2)) := by
  have l1 := hls.size _ _ _ _ _ _ hJ hr e1
  have l2 := hls.size _ _ _ _ _ _ hJ hr e2
  have g1 := hls.least J d w a c1 c2 (by rwa [l1]) hd hw ha e1 (by rw [l1, l2])
  have g2 := hls.least J d w b c2 c1 (by rwa [l2]) hd hw hb e2 (by rw [l1, l2])
  set p1 := penalty (scales J) c1
  set p2 := penalty (scales J) c2
  have hp : p2 ≤ p1 := by
    have : (b.getD 0 - a.getD 0) * p2 ≤ (b.getD 0 - a.getD 0) * p1 := by linarith
    exact le_of_mul_le_mul_left this (by linarith)
  have := mul_le_mul_of_nonneg_left hp (damping_nonneg ha)
  linarith

/-- Two fits with the same coordinates have the same sources, and solve problems with the same Jacobian. -/
theorem fits_same (env : Env) (junk : Junk) (m1 m2 : Mode) (P : Params) (a b : Option ℝ) (hd : P.dtype.IsFloat)
    (c1 c2 c3 dd1 dd2 : DType) (shape : List ℕ) (obs pts : List P3) (weights : Option CArr)
    (d1 d2 : List ℝ) (s s' s1 s2 : State)
    (h1 : fit env junk m1 { P with damping := a } (coordArrs c1 c2 c3 shape obs) ⟨dd1, shape, d1⟩ weights s =
      (s1, .ok ()))
    (h2 : fit env junk m2 { P with damping := b } (coordArrs c1 c2 c3 shape obs) ⟨dd2, shape, d2⟩ weights s' =
      (s2, .ok ()))
    (hpts : s1.points_ = some (pointArrs pts))
    (hm1 : m1.Full obs.length pts.length) (hm2 : m2.Full obs.length pts.length) :
    obs ≠ [] ∧ s2.points_ = some (pointArrs pts) ∧ ∃ k1 k2, s1.coefs_ = some k1 ∧ s2.coefs_ = some k2 ∧
      env.leastSquares (obs.map fun q => pts.map fun p => 1 / dist (cartPos q) (cartPos p)) d1
        (weights.map (·.data)) a = .ok k1 ∧
      env.leastSquares (obs.map fun q => pts.map fun p => 1 / dist (cartPos q) (cartPos p)) d2
        (weights.map (·.data)) b = .ok k2 := by
  obtain ⟨region, d, p1, k1, f1, f2, f3, f4, f5, f6⟩ := fit_ok _ _ _ _ _ _ _ _ _ h1
  obtain ⟨region', d', p2, k2, g1, g2, g3, g4, g5, g6⟩ := fit_ok _ _ _ _ _ _ _ _ _ h2
  have e1 := h1.symm.trans (f6 s)
  have e2 := h2.symm.trans (g6 s')
  simp only [Prod.mk.injEq, and_true] at e1 e2
  rw [e1] at hpts
  simp only [Option.some.injEq] at hpts
  subst hpts
  have hp : p2 = pointArrs pts := by
    have : ({ s with depth_ := some d }, Except.ok (pointArrs pts)) =
        (({ s with depth_ := some d' }, Except.ok p2) : State × Py Arrs) := (f3 s).symm.trans (g3 s)
    simp only [Prod.mk.injEq, Except.ok.injEq] at this
    exact this.2.symm
  subst hp
  rw [castArrs_float hd, n1dArrays_coordArrs] at f2 f5 g5
  simp only [cast_float_fun hd, List.map_id] at f5 g5
  rw [jacobian_eq junk m1 _ hd obs pts hm1] at f5
  rw [jacobian_eq junk m2 _ hd obs pts hm2] at g5
  simp only [greensCart1] at f5 g5
  have hobs : obs ≠ [] := by
    rintro rfl
    cases f2
  exact ⟨hobs, by rw [e2], k1, k2, by rw [e1], by rw [e2], f5, g5⟩

/-- The predictions of fitted sources at the data points are the product of the Jacobian and the coefficients. -/
theorem predict_matVec (junk : Junk) (mode : Mode) (P : Params) (hd : P.dtype.IsFloat) (c1 c2 c3 : DType)
    (shape : List ℕ) (obs pts : List P3) (hshape : shape.prod = obs.length) (k : List ℝ)
    (hk : k.length = pts.length) (hm : mode.Full obs.length (2 * pts.length)) (s : State)
    (hp : s.points_ = some (pointArrs pts)) (hc : s.coefs_ = some k) :
    predict junk mode P (coordArrs c1 c2 c3 shape obs) s = .ok ⟨shape,
      matVec (obs.map fun q => pts.map fun p => 1 / dist (cartPos q) (cartPos p)) k⟩ := by
  rw [matVec_zip]
  exact predict_eq junk mode P hd c1 c2 c3 shape obs hshape (pts.zip k)
    (by rw [List.length_zip, hk, min_self]; exact hm) s
    (by rw [List.map_fst_zip (by omega)]; exact hp)
    (by rw [List.map_snd_zip (by omega)]; exact hc)

theorem predictSph_matVec (junk : Junk) (mode : Mode) (c1 c2 c3 : DType) (hd : c1.IsFloat)
    (shape : List ℕ) (obs pts : List P3) (hshape : shape.prod = obs.length) (k : List ℝ)
    (hk : k.length = pts.length) (hm : mode.Full obs.length (2 * pts.length)) (s : State)
    (hp : s.points_ = some (pointArrs pts)) (hc : s.coefs_ = some k) :
    predictSph junk mode (coordArrs c1 c2 c3 shape obs) s = .ok ⟨shape,
      matVec (obs.map fun q => pts.map fun p => 1 / dist (sphPos q) (sphPos p)) k⟩ := by
  rw [matVec_zip]
  exact predictSph_eq junk mode c1 c2 c3 hd shape obs hshape (pts.zip k)
    (by rw [List.length_zip, hk, min_self]; exact hm) s
    (by rw [List.map_fst_zip (by omega)]; exact hp)
    (by rw [List.map_snd_zip (by omega)]; exact hc)

theorem fitsSph_same (env : Env) (junk : Junk) (m1 m2 : Mode) (P : SphParams) (a b : Option ℝ)
    (c1 c2 c3 dd1 dd2 : DType) (shape : List ℕ) (obs pts : List P3) (weights : Option CArr)
    (d1 d2 : List ℝ) (s s' s1 s2 : State)
    (h1 : fitSph env junk m1 { P with damping := a } (coordArrs c1 c2 c3 shape obs) ⟨dd1, shape, d1⟩ weights s =
      (s1, .ok ()))
    (h2 : fitSph env junk m2 { P with damping := b } (coordArrs c1 c2 c3 shape obs) ⟨dd2, shape, d2⟩ weights
      s' = (s2, .ok ()))
    (hpts : s1.points_ = some (pointArrs pts))
    (hm1 : m1.Full obs.length pts.length) (hm2 : m2.Full obs.length pts.length) :
    obs ≠ [] ∧ s2.points_ = some (pointArrs pts) ∧ ∃ k1 k2, s1.coefs_ = some k1 ∧ s2.coefs_ = some k2 ∧
      env.leastSquares (obs.map fun q => pts.map fun p => 1 / dist (sphPos q) (sphPos p)) d1
        (weights.map (·.data)) a = .ok k1 ∧
      env.leastSquares (obs.map fun q => pts.map fun p => 1 / dist (sphPos q) (sphPos p)) d2
        (weights.map (·.data)) b = .ok k2 := by
  obtain ⟨region, k1, f1, f2, f5, f6⟩ := fitSph_ok _ _ _ _ _ _ _ _ _ h1
  obtain ⟨region', k2, g1, g2, g5, g6⟩ := fitSph_ok _ _ _ _ _ _ _ _ _ h2
  have e1 := h1.symm.trans (f6 s)
  have e2 := h2.symm.trans (g6 s')
  simp only [Prod.mk.injEq, and_true] at e1 e2
  have hp1 : sphPoints { P with damping := a } (n1dArrays (coordArrs c1 c2 c3 shape obs)) = pointArrs pts := by
    rw [e1] at hpts
    simpa using hpts
  have hp2 : sphPoints { P with damping := b } (n1dArrays (coordArrs c1 c2 c3 shape obs)) = pointArrs pts := hp1
  rw [hp1, n1dArrays_coordArrs, jacobian_eq junk m1 _ (by trivial) _ _ hm1] at f5
  rw [hp2, n1dArrays_coordArrs, jacobian_eq junk m2 _ (by trivial) _ _ hm2] at g5
  simp only [greensSph1] at f5 g5
  have hobs : obs ≠ [] := by
    rintro rfl
    cases f2
  exact ⟨hobs, by rw [e2, hp2], k1, k2, by rw [e1], by rw [e2], f5, g5⟩

theorem rows_of (pos : P3 → E3) (obs pts : List P3) :
    ∀ row ∈ obs.map fun q => pts.map fun p => 1 / dist (pos q) (pos p), row.length = pts.length := by
  intro row hrow
  obtain ⟨q, -, rfl⟩ := List.mem_map.1 hrow
  rw [List.length_map]

theorem weights_of {weights : Option CArr} {n : ℕ}
    (h : ∀ w ∈ weights, w.data.length = n ∧ ∀ x ∈ w.data, 0 ≤ x) :
    ∀ w' ∈ weights.map (·.data), w'.length = n ∧ ∀ x ∈ w', 0 ≤ x := by
  intro w hw
  obtain ⟨w', hw', rfl⟩ := Option.mem_map.1 hw
  exact h w' hw'

/-! ### C159 -/

/-- C159: errors of the data are not amplified at the data points. Two fits of the same equivalent sources
to different data predict, at the data points, values whose (weighted) sum of squared differences is at
most the one of the data. -/
theorem C159_cartesian (env : Env) (scales : List (List ℝ) → List ℝ) (hls : LeastSquares env scales)
    (junk : Junk) (m1 m2 q1 q2 : Mode) (P : Params) (hd : P.dtype.IsFloat) (hdamp : ∀ x ∈ P.damping, 0 ≤ x)
    (c1 c2 c3 dd1 dd2 : DType) (shape : List ℕ) (obs pts : List P3) (hshape : shape.prod = obs.length)
    (d1 d2 : List ℝ) (hd1 : d1.length = obs.length) (hd2 : d2.length = obs.length) (weights : Option CArr)
    (hweights : ∀ w ∈ weights, w.data.length = obs.length ∧ ∀ x ∈ w.data, 0 ≤ x) (s s' s1 s2 : State)
    (h1 : fit env junk m1 P (coordArrs c1 c2 c3 shape obs) ⟨dd1, shape, d1⟩ weights s = (s1, .ok ()))
    (h2 : fit env junk m2 P (coordArrs c1 c2 c3 shape obs) ⟨dd2, shape, d2⟩ weights s' = (s2, .ok ()))
    (hpts : s1.points_ = some (pointArrs pts))
    (hm1 : m1.Full obs.length pts.length) (hm2 : m2.Full obs.length pts.length)
    (hq1 : q1.Full obs.length (2 * pts.length)) (hq2 : q2.Full obs.length (2 * pts.length)) :
    ∃ r1 r2, predict junk q1 P (coordArrs c1 c2 c3 shape obs) s1 = .ok ⟨shape, r1⟩ ∧
      predict junk q2 P (coordArrs c1 c2 c3 shape obs) s2 = .ok ⟨shape, r2⟩ ∧
      misfit (weights.map (·.data)) (List.zipWith (· - ·) r1 r2) ≤
        misfit (weights.map (·.data)) (List.zipWith (· - ·) d1 d2) := by
  obtain ⟨hne, hpts2, k1, k2, g1, g2, e1, e2⟩ := fits_same env junk m1 m2 P P.damping P.damping hd c1 c2 c3
    dd1 dd2 shape obs pts weights d1 d2 s s' s1 s2 h1 h2 hpts hm1 hm2
  have hJ : (obs.map fun q => pts.map fun p => 1 / dist (cartPos q) (cartPos p)) ≠ [] := by simpa using hne
  have hr := rows_of cartPos obs pts
  refine ⟨_, _, predict_matVec junk q1 P hd c1 c2 c3 shape obs pts hshape k1
      (hls.size _ _ _ _ _ _ hJ hr e1) hq1 s1 hpts g1,
    predict_matVec junk q2 P hd c1 c2 c3 shape obs pts hshape k2
      (hls.size _ _ _ _ _ _ hJ hr e2) hq2 s2 hpts2 g2, ?_⟩
  exact solve_contract hls _ _ hJ hr d1 d2 (by simpa using hd1) (by simpa using hd2) _
    (by simpa using weights_of hweights) _ hdamp k1 k2 e1 e2

/-- C159 for spherical sources. -/
theorem C159_spherical (env : Env) (scales : List (List ℝ) → List ℝ) (hls : LeastSquares env scales)
    (junk : Junk) (m1 m2 q1 q2 : Mode) (P : SphParams) (hdamp : ∀ x ∈ P.damping, 0 ≤ x)
    (c1 c2 c3 dd1 dd2 : DType) (hd : c1.IsFloat) (shape : List ℕ) (obs pts : List P3)
    (hshape : shape.prod = obs.length)
    (d1 d2 : List ℝ) (hd1 : d1.length = obs.length) (hd2 : d2.length = obs.length) (weights : Option CArr)
    (hweights : ∀ w ∈ weights, w.data.length = obs.length ∧ ∀ x ∈ w.data, 0 ≤ x) (s s' s1 s2 : State)
    (h1 : fitSph env junk m1 P (coordArrs c1 c2 c3 shape obs) ⟨dd1, shape, d1⟩ weights s = (s1, .ok ()))
    (h2 : fitSph env junk m2 P (coordArrs c1 c2 c3 shape obs) ⟨dd2, shape, d2⟩ weights s' = (s2, .ok ()))
    (hpts : s1.points_ = some (pointArrs pts))
    (hm1 : m1.Full obs.length pts.length) (hm2 : m2.Full obs.length pts.length)
    (hq1 : q1.Full obs.length (2 * pts.length)) (hq2 : q2.Full obs.length (2 * pts.length)) :
    ∃ r1 r2, predictSph junk q1 (coordArrs c1 c2 c3 shape obs) s1 = .ok ⟨shape, r1⟩ ∧
      predictSph junk q2 (coordArrs c1 c2 c3 shape obs) s2 = .ok ⟨shape, r2⟩ ∧
      misfit (weights.map (·.data)) (List.zipWith (· - ·) r1 r2) ≤
        misfit (weights.map (·.data)) (List.zipWith (· - ·) d1 d2) := by
  obtain ⟨hne, hpts2, k1, k2, g1, g2, e1, e2⟩ := fitsSph_same env junk m1 m2 P P.damping P.damping c1 c2 c3
    dd1 dd2 shape obs pts weights d1 d2 s s' s1 s2 h1 h2 hpts hm1 hm2
  have hJ : (obs.map fun q => pts.map fun p => 1 / dist (sphPos q) (sphPos p)) ≠ [] := by simpa using hne
  have hr := rows_of sphPos obs pts
  refine ⟨_, _, predictSph_matVec junk q1 c1 c2 c3 hd shape obs pts hshape k1
      (hls.size _ _ _ _ _ _ hJ hr e1) hq1 s1 hpts g1,
    predictSph_matVec junk q2 c1 c2 c3 hd shape obs pts hshape k2
      (hls.size _ _ _ _ _ _ hJ hr e2) hq2 s2 hpts2 g2, ?_⟩
  exact solve_contract hls _ _ hJ hr d1 d2 (by simpa using hd1) (by simpa using hd2) _
    (by simpa using weights_of hweights) _ hdamp k1 k2 e1 e2

/-- C159: more damping never fits the data better (no damping is a damping of zero). -/
theorem C159_damping (env : Env) (scales : List (List ℝ) → List ℝ) (hls : LeastSquares env scales)
    (junk : Junk) (m1 m2 q1 q2 : Mode) (P : Params) (hd : P.dtype.IsFloat) (a b : Option ℝ)
    (ha : ∀ x ∈ a, 0 ≤ x) (hb : ∀ x ∈ b, 0 ≤ x) (hab : a.getD 0 < b.getD 0)
    (c1 c2 c3 dd : DType) (shape : List ℕ) (obs pts : List P3) (hshape : shape.prod = obs.length)
    (data : List ℝ) (hdata : data.length = obs.length) (weights : Option CArr)
    (hweights : ∀ w ∈ weights, w.data.length = obs.length ∧ ∀ x ∈ w.data, 0 ≤ x) (s s' s1 s2 : State)
    (h1 : fit env junk m1 { P with damping := a } (coordArrs c1 c2 c3 shape obs) ⟨dd, shape, data⟩ weights s =
      (s1, .ok ()))
    (h2 : fit env junk m2 { P with damping := b } (coordArrs c1 c2 c3 shape obs) ⟨dd, shape, data⟩ weights s' =
      (s2, .ok ()))
    (hpts : s1.points_ = some (pointArrs pts))
    (hm1 : m1.Full obs.length pts.length) (hm2 : m2.Full obs.length pts.length)
    (hq1 : q1.Full obs.length (2 * pts.length)) (hq2 : q2.Full obs.length (2 * pts.length)) :
    ∃ r1 r2, predict junk q1 P (coordArrs c1 c2 c3 shape obs) s1 = .ok ⟨shape, r1⟩ ∧
      predict junk q2 P (coordArrs c1 c2 c3 shape obs) s2 = .ok ⟨shape, r2⟩ ∧
      misfit (weights.map (·.data)) (List.zipWith (· - ·) data r1) ≤
        misfit (weights.map (·.data)) (List.zipWith (· - ·) data r2) := by
  obtain ⟨hne, hpts2, k1, k2, g1, g2, e1, e2⟩ := fits_same env junk m1 m2 P a b hd c1 c2 c3
    dd dd shape obs pts weights data data s s' s1 s2 h1 h2 hpts hm1 hm2
  have hJ : (obs.map fun q => pts.map fun p => 1 / dist (cartPos q) (cartPos p)) ≠ [] := by simpa using hne
  have hr := rows_of cartPos obs pts
  refine ⟨_, _, predict_matVec junk q1 P hd c1 c2 c3 shape obs pts hshape k1
      (hls.size _ _ _ _ _ _ hJ hr e1) hq1 s1 hpts g1,
    predict_matVec junk q2 P hd c1 c2 c3 shape obs pts hshape k2
      (hls.size _ _ _ _ _ _ hJ hr e2) hq2 s2 hpts2 g2, ?_⟩
  exact solve_damping hls _ _ hJ hr data (by simpa using hdata) _
    (by rw [hdata]; exact weights_of hweights) a b ha hb hab k1 k2 e1 e2

/-- C159 (damping) for spherical sources. -/
theorem C159_damping_spherical (env : Env) (scales : List (List ℝ) → List ℝ) (hls : LeastSquares env scales)
    (junk : Junk) (m1 m2 q1 q2 : Mode) (P : SphParams) (a b : Option ℝ)
    (ha : ∀ x ∈ a, 0 ≤ x) (hb : ∀ x ∈ b, 0 ≤ x) (hab : a.getD 0 < b.getD 0)
    (c1 c2 c3 dd : DType) (hd : c1.IsFloat) (shape : List ℕ) (obs pts : List P3)
    (hshape : shape.prod = obs.length)
    (data : List ℝ) (hdata : data.length = obs.length) (weights : Option CArr)
    (hweights : ∀ w ∈ weights, w.data.length = obs.length ∧ ∀ x ∈ w.data, 0 ≤ x) (s s' s1 s2 : State)
    (h1 : fitSph env junk m1 { P with damping := a } (coordArrs c1 c2 c3 shape obs) ⟨dd, shape, data⟩ weights
      s = (s1, .ok ()))
    (h2 : fitSph env junk m2 { P with damping := b } (coordArrs c1 c2 c3 shape obs) ⟨dd, shape, data⟩ weights
      s' = (s2, .ok ()))
    (hpts : s1.points_ = some (pointArrs pts))
    (hm1 : m1.Full obs.length pts.length) (hm2 : m2.Full obs.length pts.length)
    (hq1 : q1.Full obs.length (2 * pts.length)) (hq2 : q2.Full obs.length (2 * pts.length)) :
    ∃ r1 r2, predictSph junk q1 (coordArrs c1 c2 c3 shape obs) s1 = .ok ⟨shape, r1⟩ ∧
      predictSph junk q2 (coordArrs c1 c2 c3 shape obs) s2 = .ok ⟨shape, r2⟩ ∧
      misfit (weights.map (·.data)) (List.zipWith (· - ·) data r1) ≤
        misfit (weights.map (·.data)) (List.zipWith (· - ·) data r2) := by
  obtain ⟨hne, hpts2, k1, k2, g1, g2, e1, e2⟩ := fitsSph_same env junk m1 m2 P a b c1 c2 c3
    dd dd shape obs pts weights data data s s' s1 s2 h1 h2 hpts hm1 hm2
  have hJ : (obs.map fun q => pts.map fun p => 1 / dist (sphPos q) (sphPos p)) ≠ [] := by simpa using hne
  have hr := rows_of sphPos obs pts
  refine ⟨_, _, predictSph_matVec junk q1 c1 c2 c3 hd shape obs pts hshape k1
      (hls.size _ _ _ _ _ _ hJ hr e1) hq1 s1 hpts g1,
    predictSph_matVec junk q2 c1 c2 c3 hd shape obs pts hshape k2
      (hls.size _ _ _ _ _ _ hJ hr e2) hq2 s2 hpts2 g2, ?_⟩
  exact solve_damping hls _ _ hJ hr data (by simpa using hdata) _
    (by rw [hdata]; exact weights_of hweights) a b ha hb hab k1 k2 e1 e2

/-! ### Examples -/

open Classical in
/-- Damped least squares in exact arithmetic, with the error of a solver if the coefficients are not
determined by the data. -/
noncomputable def lsSolve (J : List (List ℝ)) (d : List ℝ) (w : Option (List ℝ)) (damping : Option ℝ) :
    Py (List ℝ) :=
  if IsUnit ((toMatrix J).transpose * Matrix.diagonal (fun i : Fin J.length => weightAt w i) * toMatrix J +
      damping.getD 0 • (1 : Matrix (Fin (J.headD []).length) (Fin (J.headD []).length) ℝ)).det then
    .ok (ridge J d w damping)
  else .error .LinAlgError

noncomputable def lsEnv : Env := { toyEnv with leastSquares := lsSolve }

/-- Damped least squares minimizes the misfit plus the damping times the squares of the coefficients. -/
theorem ridgeVec_least {m n : Type} [Fintype m] [DecidableEq m] [Fintype n] [DecidableEq n]
    (A : Matrix m n ℝ) (w d : m → ℝ) (damping : ℝ) (hw : ∀ i, 0 ≤ w i) (hd : 0 ≤ damping)
    (hM : IsUnit (A.transpose * Matrix.diagonal w * A + damping • (1 : Matrix n n ℝ)).det) (y : n → ℝ) :
    ∑ i, w i * (d i - A.mulVec (ridgeVec A w d damping) i) ^ 2 +
        damping * ∑ j, ridgeVec A w d damping j ^ 2 ≤
      ∑ i, w i * (d i - A.mulVec y i) ^ 2 + damping * ∑ j, y j ^ 2 := by
  set x := ridgeVec A w d damping with hx
  have h1 : (A.transpose * Matrix.diagonal w * A + damping • (1 : Matrix n n ℝ)).mulVec x =
      (A.transpose * Matrix.diagonal w).mulVec d := by
    rw [hx, ridgeVec, Matrix.mulVec_mulVec, Matrix.mul_nonsing_inv _ hM, Matrix.one_mulVec]
  have h2 := congrArg (fun v => (y - x) ⬝ᵥ v) h1
  simp only [Matrix.add_mulVec, dotProduct_add, ← Matrix.mulVec_mulVec, Matrix.smul_mulVec,
    Matrix.one_mulVec, dotProduct_smul, smul_eq_mul] at h2
  have hT : ∀ v, (y - x) ⬝ᵥ A.transpose.mulVec v = A.mulVec (y - x) ⬝ᵥ v := by
    intro v
    rw [Matrix.dotProduct_mulVec, Matrix.vecMul_transpose]
  simp only [hT, Matrix.mulVec_sub] at h2
  simp only [dotProduct, Matrix.mulVec_diagonal, Pi.sub_apply] at h2
  have e1 : ∑ i, w i * (d i - A.mulVec y i) ^ 2 = ∑ i, w i * (d i - A.mulVec x i) ^ 2 -
      2 * (∑ i, (A.mulVec y i - A.mulVec x i) * (w i * d i) -
        ∑ i, (A.mulVec y i - A.mulVec x i) * (w i * A.mulVec x i)) +
      ∑ i, w i * (A.mulVec y i - A.mulVec x i) ^ 2 := by
    rw [← Finset.sum_sub_distrib, Finset.mul_sum, ← Finset.sum_sub_distrib, ← Finset.sum_add_distrib]
    exact Finset.sum_congr rfl fun i _ => by ring
  have e2 : ∑ j, y j ^ 2 = ∑ j, x j ^ 2 + 2 * ∑ j, (y j - x j) * x j + ∑ j, (y j - x j) ^ 2 := by
    rw [Finset.mul_sum, ← Finset.sum_add_distrib, ← Finset.sum_add_distrib]
    exact Finset.sum_congr rfl fun i _ => by ring
  have h4 : 0 ≤ ∑ i, w i * (A.mulVec y i - A.mulVec x i) ^ 2 :=
    Finset.sum_nonneg fun i _ => mul_nonneg (hw i) (sq_nonneg _)
  have h5 : 0 ≤ damping * ∑ j, (y j - x j) ^ 2 :=
    mul_nonneg hd (Finset.sum_nonneg fun i _ => sq_nonneg _)
  rw [e1, e2, mul_add, mul_add]
  linarith

/-- Positive damping determines the coefficients. -/
theorem damped_isUnit {m n : Type} [Fintype m] [DecidableEq m] [Fintype n] [DecidableEq n]
    (A : Matrix m n ℝ) (w : m → ℝ) (damping : ℝ) (hw : ∀ i, 0 ≤ w i) (hd : 0 < damping) :
    IsUnit (A.transpose * Matrix.diagonal w * A + damping • (1 : Matrix n n ℝ)).det := by
  rw [isUnit_iff_ne_zero]
  intro h0
  obtain ⟨x, hx, h1⟩ := Matrix.exists_mulVec_eq_zero_iff.2 h0
  have h2 := congrArg (fun v => x ⬝ᵥ v) h1
  simp only [Matrix.add_mulVec, dotProduct_add, ← Matrix.mulVec_mulVec, Matrix.smul_mulVec,
    Matrix.one_mulVec, dotProduct_smul, smul_eq_mul, dotProduct_zero] at h2
  rw [Matrix.dotProduct_mulVec, Matrix.vecMul_transpose] at h2
  simp only [dotProduct, Matrix.mulVec_diagonal] at h2
  have h4 : 0 ≤ ∑ i, A.mulVec x i * (w i * A.mulVec x i) :=
    Finset.sum_nonneg fun i _ => by
      have := mul_nonneg (hw i) (mul_self_nonneg (A.mulVec x i))
      linarith
  have h5 : 0 ≤ ∑ i, x i * x i := Finset.sum_nonneg fun i _ => mul_self_nonneg _
  have h6 : ∑ i, x i * x i = 0 := by nlinarith
  apply hx
  funext i
  have := (Finset.sum_eq_zero_iff_of_nonneg (fun i _ => mul_self_nonneg (x i))).1 h6 i (Finset.mem_univ i)
  simpa using this

/-- C159: damped least squares satisfies the hypothesis -/
theorem lsEnv_leastSquares : LeastSquares lsEnv fun J => List.replicate (J.headD []).length 1 where
  size := by
    intro J n d w damping c hJ hr h
    simp only [lsEnv, lsSolve] at h
    split at h
    · exact ridgeEnv_linear.size J n d w damping c hJ hr h
    · cases h
  least := by
    intro J d w damping c c' hr hd hw hdamp h hc'
    simp only [lsEnv, lsSolve] at h
    split at h
    case isFalse => cases h
    case isTrue hM =>
    cases h
    have hn : (ridge J d w damping).length = (J.headD []).length := by simp [ridge]
    rw [objective_fin J d w _ (J.headD []).length (by rwa [hn] at hr) hd hw _ _ hn,
      objective_fin J d w _ (J.headD []).length (by rwa [hn] at hr) hd hw _ c' (by rw [hc', hn])]
    have hcx : ∀ j : Fin (J.headD []).length, (ridge J d w damping).getD j 0 = ridgeVec (toMatrix J)
        (fun i => weightAt w i) (fun i => d.getD i 0) (damping.getD 0) j := by
      intro j
      rw [List.getD_eq_getElem?_getD, List.getElem?_eq_getElem (by rw [hn]; exact j.2), Option.getD_some]
      simp only [ridge, List.getElem_ofFn]
    have hs : ∀ j : Fin (J.headD []).length, (List.replicate (J.headD []).length (1 : ℝ)).getD j 0 = 1 := by
      intro j
      rw [List.getD_eq_getElem?_getD, List.getElem?_eq_getElem (by rw [List.length_replicate]; exact j.2),
        Option.getD_some, List.getElem_replicate]
    simp only [hcx, hs, one_mul]
    exact ridgeVec_least (toMatrix J) (fun i => weightAt w i) (fun i => d.getD i 0) (damping.getD 0)
      (weightAt_nonneg (by rwa [hd] at hw)) (damping_nonneg hdamp) hM (fun j => c'.getD j 0)

/-- C159: a `fit` that returns, with damped least squares, for all data and two dampings -/
example (junk : Junk) (d : List ℝ) (a : ℝ) (ha : 0 < a) : ∃ s', fit lsEnv junk .serial { damping := some a }
    (coordArrs .float64 .float64 .float64 [2] [⟨0, 0, 0⟩, ⟨1, 0, 0⟩]) ⟨.float64, [2], d⟩ none {} =
      (s', .ok ()) := by
  refine ⟨_, Prod.ext rfl ?_⟩
  have hu := fun J : List (List ℝ) => damped_isUnit (toMatrix J) (fun i => weightAt none i) a
    (fun i => by simp [weightAt]) ha
  have hs : ∀ J d, lsSolve J d none (some a) = .ok (ridge J d none (some a)) := fun J _ => if_pos (hu J)
  simp [fit, checkFitInput, coordArrs, castArrs, n1dArrays, getRegion, choosePoints, buildPoints,
    blockCoordinates, sourceDepth, solve, toyEnv, lsEnv, DType.cast, Except.map, hs]

end Verif.EqSources
