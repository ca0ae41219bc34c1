import Verif.EqSources.PropsI

/-!
Concrete cases that meet the hypotheses of the theorems about equivalent sources.
-/

namespace Verif.EqSources
open Verif.Forward Verif.Engine Verif.Distance Verif.Layers

/-- a shuffle that reverses the order -/
def revPerm (n : ℕ) : List ℕ := (List.range n).reverse

theorem revPerm_perm (n : ℕ) : (revPerm n).Perm (List.range n) := List.reverse_perm _

/-- sources one meter below two data points, windows of size 10 -/
noncomputable def winParams : Params := { depth := .num 1, window_size := .num 10 }

theorem toy_windows : ∀ s : State, createWindows toyEnv revPerm winParams
    (pointArrs [⟨0, 0, 0⟩, ⟨1, 0, 0⟩]) (pointArrs [⟨0, 0, -1⟩, ⟨1, 0, -1⟩]) s =
      ({ s with window_size_ := some (some 10) }, .ok ([[0, 1]], [[0, 1]])) := by
  intro s
  simp [createWindows, getRegionDataSources, getRegion, pointArrs, windowSize, winParams,
    rollingWindows, toyEnv, shuffle2, revPerm, fancyIndex_cons, fancyIndex_nil, List.range_succ,
    Except.map, Py.bind_ok, Py.pure_eq, dropEmpty]

theorem toy_fit (junk : Junk) : ∃ s', fitGB toyEnv junk revPerm (fun _ => (.serial, .serial)) winParams
    (coordArrs .float64 .float64 .float64 [2] [⟨0, 0, 0⟩, ⟨1, 0, 0⟩]) ⟨.float64, [2], [1, 2]⟩ none {} =
      (s', .ok ()) ∧ s'.points_ = some (pointArrs [⟨0, 0, -1⟩, ⟨1, 0, -1⟩]) := by
  have hw := toy_windows
  simp only [pointArrs, List.map_cons, List.map_nil] at hw
  have hwp : winParams.points = none := rfl
  have hb : winParams.block_size = none := rfl
  have hdp : winParams.depth = .num 1 := rfl
  have hd : winParams.dtype = .float64 := rfl
  have hdm : winParams.damping = none := rfl
  simp [fitGB, checkFitInput, coordArrs, castArrs, n1dArrays, getRegion, choosePoints, buildPoints,
    blockCoordinates, sourceDepth, hwp, hb, hdp, hd, gradientBoosting, hw, DType.cast, pointArrs]
  simp [boostLoop, chunks,
    fancyArrs, fancyIndex_cons, fancyIndex_nil, Except.map, Py.bind_ok, Py.pure_eq, solve, toyEnv,
    jacobian, boostUpdate, fancyAdd, List.range_succ, hd]

/-- C26, C27: the hypotheses hold for two data points and a rolling window with both, next to an empty
window that is dropped. -/
example (junk : Junk) : ∃ s' W, fitGB toyEnv junk revPerm (fun _ => (.serial, .serial)) winParams
    (coordArrs .float64 .float64 .float64 [2] [⟨0, 0, 0⟩, ⟨1, 0, 0⟩]) ⟨.float64, [2], [1, 2]⟩ none {} =
      (s', .ok ()) ∧ s'.points_ = some (pointArrs [⟨0, 0, -1⟩, ⟨1, 0, -1⟩]) ∧
    (createWindows toyEnv revPerm winParams (pointArrs [⟨0, 0, 0⟩, ⟨1, 0, 0⟩])
      (pointArrs [⟨0, 0, -1⟩, ⟨1, 0, -1⟩]) {}).2 = .ok W ∧ W = ([[0, 1]], [[0, 1]]) ∧
    (∀ pw ∈ W.1, pw.Nodup) := by
  obtain ⟨s', h1, h2⟩ := toy_fit junk
  refine ⟨s', _, h1, h2, by rw [toy_windows], rfl, by simp⟩

/-- C28: estimate and allocation in the same case -/
example : (estimateMemoryGB toyEnv revPerm winParams
    (coordArrs .float64 .float64 .float64 [2] [⟨0, 0, 0⟩, ⟨1, 0, 0⟩]) {}).2 = .ok 32 := by
  have hw := toy_windows
  simp only [pointArrs, List.map_cons, List.map_nil] at hw
  have hb : winParams.block_size = none := rfl
  have hdp : winParams.depth = .num 1 := rfl
  have hd : winParams.dtype = .float64 := rfl
  simp [estimateMemoryGB, coordArrs, n1dArrays, buildPoints, blockCoordinates, sourceDepth, hb, hdp,
    hd, hw, maxBytes, DType.itemsize]

/-- C29: a history with two fits, an estimate in between and one `fit` with wrong shapes -/
example : (lastFit [.fit .serial (atHeight 0) ⟨.float64, [1], [1]⟩ none, .estimate (atHeight 5),
    .fit .serial (atHeight 3) ⟨.float64, [1], [2]⟩ none,
    .fit .serial (atHeight 3) ⟨.float64, [2], [2, 3]⟩ none]) =
      some (.serial, atHeight 3, ⟨.float64, [1], [2]⟩, none) := by
  simp [lastFit, validFit, checkFitInput, atHeight, coordArrs]

open Classical in
/-- A solver of systems with one equation and one unknown. -/
noncomputable def exactEnv : Env :=
  { toyEnv with leastSquares := fun J d _ _ =>
      match J, d with
      | [[a]], [b] => if a = 0 then .error .LinAlgError else .ok [b / a]
      | _, _ => .error .LinAlgError }

theorem exactEnv_solves : SolvesNormalEquations exactEnv := by
  intro m n J d w c h
  have hmn : m = 1 ∧ n = 1 := by
    have hlen : (toRows J).length = m := by simp [toRows]
    simp only [exactEnv] at h
    split at h
    · next a b hJ hd =>
      have h1 : m = 1 := by
        have := congrArg List.length hJ
        simpa [toRows] using this
      subst h1
      refine ⟨rfl, ?_⟩
      have := congrArg (fun l => (l.headD []).length) hJ
      simpa [toRows] using this
    · cases h
  obtain ⟨rfl, rfl⟩ := hmn
  simp only [exactEnv, toRows, List.ofFn_succ, List.ofFn_zero] at h
  by_cases ha : J 0 0 = 0
  · simp [ha] at h
  · simp only [ha, if_false, Except.ok.injEq] at h
    refine ⟨fun _ => d 0 / J 0 0, by simp [← h, List.ofFn_succ], ?_⟩
    funext j
    fin_cases j
    simp [Matrix.mulVec, dotProduct]
    right; right
    field_simp
    simp

/-- C30: one source two meters below one point with the value 5 -/
example (junk : Junk) : ∃ s', fit exactEnv junk .serial { depth := .num 2 }
    (coordArrs .float64 .float64 .float64 [1] (List.ofFn (n := 1) fun _ => ⟨0, 0, 0⟩))
    ⟨.float64, [1], List.ofFn (n := 1) fun _ => 5⟩ none {} = (s', .ok ()) ∧
    s'.points_ = some (pointArrs (List.ofFn (n := 1) fun _ => ⟨0, 0, -2⟩)) ∧
    (distMatrix cartPos (n := 1) (fun _ => ⟨0, 0, 0⟩) (fun _ => ⟨0, 0, -2⟩)).det ≠ 0 := by
  have hdist : dist (cartPos ⟨0, 0, 0⟩) (cartPos ⟨0, 0, -2⟩) = 2 := by
    rw [← C10_distance_cartesian]
    simp [distanceCartesian]
  have hj := jacobian_eq junk .serial greensFuncCartesian (d := .float64) trivial [⟨0, 0, 0⟩]
    [⟨0, 0, -2⟩] trivial
  simp only [pointArrs, List.map_cons, List.map_nil, greensCart1, hdist] at hj
  refine ⟨_, Prod.ext rfl ?_, ?_, ?_⟩
  · simp [fit, checkFitInput, coordArrs, castArrs, n1dArrays, getRegion, choosePoints, buildPoints,
      blockCoordinates, sourceDepth, solve, exactEnv, toyEnv, DType.cast, hj]
  · simp [fit, checkFitInput, coordArrs, castArrs, n1dArrays, getRegion, choosePoints, buildPoints,
      blockCoordinates, sourceDepth, solve, exactEnv, toyEnv, DType.cast, hj, pointArrs]
  · simp [distMatrix, hdist]

/-! ### C93 -/

/-- a turn to the right triangle with sides 3, 4 and 5, and a translation -/
noncomputable def turn : Motion :=
  ⟨3 / 5, -4 / 5, 4 / 5, 3 / 5, 100, 200, 10, by norm_num, by norm_num, by norm_num⟩

/-- C93: the hypotheses about the neighbours, the blocks and the windows hold for a turn, with the depth of
the sources taken from the distance to the neighbours and with blocks -/
example : KeepsNeighbours toyEnv turn ∧ KeepsBlocks toyEnv turn (5, 5) ∧ KeepsWindows toyEnv 100 200 :=
  ⟨fun _ => rfl, fun pts => .inr ⟨pts, rfl, rfl⟩, fun xs ys _ _ _ _ _ _ => by simp [toyEnv]⟩

/-- C93: a `fit` that returns -/
example (junk : Junk) : ∃ s', fit toyEnv junk .serial { block_size := some (5, 5) }
    (coordArrs .float64 .float64 .float64 [2] [⟨0, 0, 0⟩, ⟨1, 0, 0⟩]) ⟨.float64, [2], [1, 2]⟩ none {} =
      (s', .ok ()) := by
  refine ⟨_, Prod.ext rfl ?_⟩
  simp [fit, checkFitInput, coordArrs, castArrs, n1dArrays, getRegion, choosePoints, buildPoints,
    blockCoordinates, sourceDepth, solve, toyEnv, DType.cast, Except.map]

/-! ### C94 -/

/-- the matrix with the rows of a list -/
noncomputable def toMatrix (J : List (List ℝ)) : Matrix (Fin J.length) (Fin (J.headD []).length) ℝ :=
  fun i j => (J.getD i []).getD j 0

/-- The coefficients of damped least squares with weights `w`: `(AᵀWA + λ)⁻¹ AᵀW d` in exact arithmetic. -/
noncomputable def ridgeVec {m n : Type} [Fintype m] [DecidableEq m] [Fintype n] [DecidableEq n]
    (A : Matrix m n ℝ) (w d : m → ℝ) (damping : ℝ) : n → ℝ :=
  (A.transpose * Matrix.diagonal w * A + damping • (1 : Matrix n n ℝ))⁻¹.mulVec
    ((A.transpose * Matrix.diagonal w).mulVec d)

/-- the weight of a row: 1 without weights -/
noncomputable def weightAt (w : Option (List ℝ)) (i : ℕ) : ℝ := (w.map fun w => w.getD i 0).getD 1

/-- Damped least squares with weights, on lists. -/
noncomputable def ridge (J : List (List ℝ)) (d : List ℝ) (w : Option (List ℝ)) (damping : Option ℝ) : List ℝ :=
  List.ofFn (ridgeVec (toMatrix J) (fun i => weightAt w i) (fun i => d.getD i 0) (damping.getD 0))

noncomputable def ridgeEnv : Env :=
  { toyEnv with leastSquares := fun J d w damping => .ok (ridge J d w damping) }

/-- C94: damped least squares is linear in the data -/
theorem ridgeEnv_linear : LinearSolver ridgeEnv where
  size := by
    intro J n d w damping c hJ hr h
    simp only [ridgeEnv, ridge, Except.ok.injEq] at h
    rw [← h, List.length_ofFn]
    cases J with
    | nil => exact absurd rfl hJ
    | cons r J => exact hr r (by simp)
  linear := by
    intro J d1 d2 w damping c1 c2 a b hl h1 h2
    simp only [ridgeEnv, ridge, ridgeVec, Except.ok.injEq] at h1 h2 ⊢
    have hd : (fun i : Fin J.length => (comb a d1 b d2).getD i 0) =
        a • (fun i : Fin J.length => d1.getD i 0) + b • (fun i : Fin J.length => d2.getD i 0) := by
      funext i
      simp only [Pi.add_apply, Pi.smul_apply, smul_eq_mul, List.getD_eq_getElem?_getD, comb_getElem? _ _ _ _ _ hl]
      by_cases hi : (i : ℕ) < d1.length
      · simp [List.getElem?_eq_getElem hi, List.getElem?_eq_getElem (hl ▸ hi : (i : ℕ) < d2.length)]
      · simp [List.getElem?_eq_none (not_lt.1 hi), List.getElem?_eq_none (hl ▸ not_lt.1 hi : d2.length ≤ i)]
    rw [hd, Matrix.mulVec_add, Matrix.mulVec_add, Matrix.mulVec_smul, Matrix.mulVec_smul, Matrix.mulVec_smul,
      Matrix.mulVec_smul, ← h1, ← h2]
    apply List.ext_getElem
    · simp [comb]
    · intro i h3 h4
      simp [comb]

/-- C94: a `fit` that returns, with damped least squares -/
example (junk : Junk) (d : List ℝ) : ∃ s', fit ridgeEnv junk .serial { damping := some 10 }
    (coordArrs .float64 .float64 .float64 [2] [⟨0, 0, 0⟩, ⟨1, 0, 0⟩]) ⟨.float64, [2], d⟩ none {} =
      (s', .ok ()) := by
  refine ⟨_, Prod.ext rfl ?_⟩
  simp [fit, checkFitInput, coordArrs, castArrs, n1dArrays, getRegion, choosePoints, buildPoints,
    blockCoordinates, sourceDepth, solve, toyEnv, ridgeEnv, DType.cast, Except.map]

/-- Damped least squares has at most the misfit of zero coefficients. -/
theorem ridgeVec_misfit {m n : Type} [Fintype m] [DecidableEq m] [Fintype n] [DecidableEq n]
    (A : Matrix m n ℝ) (w d : m → ℝ) (damping : ℝ) (hw : ∀ i, 0 ≤ w i) (hd : 0 ≤ damping) :
    ∑ i, w i * (d i - A.mulVec (ridgeVec A w d damping) i) ^ 2 ≤ ∑ i, w i * d i ^ 2 := by
  by_cases hM : IsUnit (A.transpose * Matrix.diagonal w * A + damping • (1 : Matrix n n ℝ)).det
  · set x := ridgeVec A w d damping with hx
    have h1 : (A.transpose * Matrix.diagonal w * A + damping • (1 : Matrix n n ℝ)).mulVec x =
        (A.transpose * Matrix.diagonal w).mulVec d := by
      rw [hx, ridgeVec, Matrix.mulVec_mulVec, Matrix.mul_nonsing_inv _ hM, Matrix.one_mulVec]
    have h2 := congrArg (fun v => x ⬝ᵥ v) h1
    simp only [Matrix.add_mulVec, dotProduct_add, ← Matrix.mulVec_mulVec, Matrix.smul_mulVec,
      Matrix.one_mulVec, dotProduct_smul, smul_eq_mul] at h2
    have hT : ∀ v, x ⬝ᵥ A.transpose.mulVec v = A.mulVec x ⬝ᵥ v := by
      intro v
      rw [Matrix.dotProduct_mulVec, Matrix.vecMul_transpose]
    simp only [hT] at h2
    simp only [dotProduct, Matrix.mulVec_diagonal] at h2
    have h3 : ∑ i, w i * (d i - A.mulVec x i) ^ 2 = ∑ i, w i * d i ^ 2 -
        2 * ∑ i, A.mulVec x i * (w i * d i) + ∑ i, A.mulVec x i * (w i * A.mulVec x i) := by
      rw [Finset.mul_sum, ← Finset.sum_sub_distrib, ← Finset.sum_add_distrib]
      exact Finset.sum_congr rfl fun i _ => by ring
    have h4 : 0 ≤ ∑ i, A.mulVec x i * (w i * A.mulVec x i) :=
      Finset.sum_nonneg fun i _ => by
        have := mul_nonneg (hw i) (mul_self_nonneg (A.mulVec x i))
        linarith
    have h5 : 0 ≤ damping * ∑ i, x i * x i :=
      mul_nonneg hd (Finset.sum_nonneg fun i _ => mul_self_nonneg _)
    linarith
  · have hx : ridgeVec A w d damping = 0 := by
      rw [ridgeVec, Matrix.nonsing_inv_apply_not_isUnit _ hM, Matrix.zero_mulVec]
    rw [hx, Matrix.mulVec_zero]
    simp

theorem sum_map_fin {α : Type} (l : List α) (f : α → ℝ) : (l.map f).sum = ∑ i : Fin l.length, f l[i] := by
  rw [← List.sum_ofFn]
  congr 1
  apply List.ext_getElem <;> simp

theorem misfit_fin (w : Option (List ℝ)) (r : List ℝ) (hw : ∀ w' ∈ w, w'.length = r.length) (n : ℕ)
    (hn : r.length = n) : misfit w r = ∑ i : Fin n, weightAt w i * (r.getD i 0) ^ 2 := by
  subst hn
  cases w with
  | none =>
    rw [misfit, sum_map_fin]
    exact Finset.sum_congr rfl fun i _ => by simp [weightAt]
  | some w =>
    have h := hw w rfl
    have e : List.zipWith (fun w x => w * x ^ 2) w r =
        List.ofFn fun i : Fin r.length => weightAt (some w) i * (r.getD i 0) ^ 2 := by
      apply List.ext_getElem
      · simp [h]
      · intro i h1 h2
        simp [weightAt, h]
    rw [misfit]
    simp only [e, List.sum_ofFn]

/-- C100: damped least squares is never worse than zero -/
theorem ridgeEnv_never_worse : NeverWorse ridgeEnv where
  size := ridgeEnv_linear.size
  misfit := by
    intro J d w damping c hrow hd hw hdamp h
    simp only [ridgeEnv, Except.ok.injEq] at h
    have hd0 : 0 ≤ damping.getD 0 := by
      cases damping with
      | none => simp
      | some x => exact hdamp x rfl
    have hw0 : ∀ i : Fin J.length, 0 ≤ weightAt w i := by
      intro i
      cases w with
      | none => simp [weightAt]
      | some w =>
        have h1 := (hw w rfl).1
        have h2 := (hw w rfl).2
        simp only [weightAt, Option.map_some, Option.getD_some]
        have hi : (i : ℕ) < w.length := by rw [h1, hd]; exact i.2
        rw [List.getD_eq_getElem?_getD, List.getElem?_eq_getElem hi]
        exact h2 _ (List.getElem_mem _)
    have key := ridgeVec_misfit (toMatrix J) (fun i => weightAt w i) (fun i => d.getD i 0)
      (damping.getD 0) hw0 hd0
    have hl : (List.zipWith (· - ·) d (matVec J c)).length = J.length := by simp [matVec, hd]
    rw [misfit_fin w d (fun w' hw' => (hw w' hw').1) J.length hd,
      misfit_fin w _ (fun w' hw' => by rw [(hw w' hw').1, hl, hd]) J.length hl]
    refine le_of_eq_of_le (Finset.sum_congr rfl fun i _ => ?_) key
    congr 2
    have hi : (i : ℕ) < d.length := by rw [hd]; exact i.2
    have hr : J[(i : ℕ)].length = c.length := hrow _ (List.getElem_mem _)
    rw [List.getD_eq_getElem?_getD, List.getElem?_eq_getElem (by rw [hl]; exact i.2), List.getElem_zipWith,
      List.getD_eq_getElem?_getD, List.getElem?_eq_getElem hi, Option.getD_some, Option.getD_some]
    congr 1
    simp only [matVec, List.getElem_map, Matrix.mulVec, dotProduct]
    have hc : c.length = (J.headD []).length := by rw [← h, ridge, List.length_ofFn]
    have e : List.zipWith (· * ·) J[(i : ℕ)] c = List.ofFn fun j : Fin (J.headD []).length =>
        toMatrix J i j * ridgeVec (toMatrix J) (fun i => weightAt w i) (fun i => d.getD i 0)
          (damping.getD 0) j := by
      apply List.ext_getElem
      · simp [hr, hc]
      · intro j h1 h2
        have hj : j < (J.headD []).length := by simpa using h2
        simp only [List.getElem_zipWith, List.getElem_ofFn, toMatrix]
        congr 1
        · have h3 : j < J[(i : ℕ)].length := by rw [hr, hc]; exact hj
          simp [List.getElem?_eq_getElem h3]
        · subst h
          simp [ridge]
    rw [e, List.sum_ofFn]

/-- A list in another order is read through a permutation of the indices. -/
theorem perm_equiv {α : Type} {l l' : List α} (h : l.Perm l') :
    ∃ e : Fin l'.length ≃ Fin l.length, ∀ i : Fin l'.length, l'[(i : ℕ)] = l[(e i : ℕ)] := by
  induction h with
  | nil => exact ⟨Equiv.refl _, fun i => rfl⟩
  | @cons x l l' _ ih =>
    obtain ⟨e, he⟩ := ih
    refine ⟨((finSuccEquiv _).trans (Equiv.optionCongr e)).trans (finSuccEquiv _).symm, ?_⟩
    intro i
    refine Fin.cases ?_ (fun j => ?_) i
    · simp
    · simp [he j]
  | @swap x y l =>
    refine ⟨Equiv.swap (⟨0, by simp⟩ : Fin (l.length + 2)) ⟨1, by simp⟩, ?_⟩
    intro i
    refine Fin.cases ?_ (fun j => Fin.cases ?_ (fun k => ?_) j) i
    · simp
    · simp
    · have hs : Equiv.swap (⟨0, by simp⟩ : Fin (l.length + 2)) ⟨1, by simp⟩ k.succ.succ = k.succ.succ :=
        Equiv.swap_apply_of_ne_of_ne (by simp [Fin.ext_iff]) (by simp [Fin.ext_iff])
      have hv := congrArg Fin.val hs
      simp only [hv]
      rfl
  | trans _ _ ih1 ih2 =>
    obtain ⟨e, he⟩ := ih1
    obtain ⟨f, hf⟩ := ih2
    exact ⟨f.trans e, fun i => (hf i).trans (he (f i))⟩

theorem ofFn_equiv {α : Type} {n n' : ℕ} (f : Fin n' ≃ Fin n) (g : Fin n → α) :
    (List.ofFn (g ∘ f)).Perm (List.ofFn g) := by
  obtain rfl : n' = n := by simpa using Fintype.card_congr f
  exact Equiv.Perm.ofFn_comp_perm f g

/-- Damped least squares follows the order of the rows and of the columns. -/
theorem ridgeVec_equiv {m n m' n' : Type} [Fintype m] [DecidableEq m] [Fintype n] [DecidableEq n]
    [Fintype m'] [DecidableEq m'] [Fintype n'] [DecidableEq n']
    (A : Matrix m n ℝ) (w d : m → ℝ) (damping : ℝ) (e : m' ≃ m) (f : n' ≃ n) :
    ridgeVec (A.submatrix e f) (w ∘ e) (d ∘ e) damping = ridgeVec A w d damping ∘ f := by
  unfold ridgeVec
  have h1 : (A.submatrix e f).transpose * Matrix.diagonal (w ∘ e) =
      (A.transpose * Matrix.diagonal w).submatrix f e := by
    rw [Matrix.transpose_submatrix, ← Matrix.submatrix_diagonal_equiv, Matrix.submatrix_mul_equiv]
  have h2 : (A.transpose * Matrix.diagonal w).submatrix f e * A.submatrix e f +
      damping • (1 : Matrix n' n' ℝ) =
      (A.transpose * Matrix.diagonal w * A + damping • (1 : Matrix n n ℝ)).submatrix f f := by
    rw [Matrix.submatrix_mul_equiv, ← Matrix.submatrix_one_equiv f]
    rfl
  rw [h1, h2, Matrix.inv_submatrix_equiv, Matrix.submatrix_mulVec_equiv, Matrix.submatrix_mulVec_equiv]
  simp [Function.comp_def]

theorem ridge_equiv (J J' : List (List ℝ)) (d d' : List ℝ) (w w' : Option (List ℝ)) (damping : Option ℝ)
    (e : Fin J'.length ≃ Fin J.length) (f : Fin (J'.headD []).length ≃ Fin (J.headD []).length)
    (hJ : ∀ i j, toMatrix J' i j = toMatrix J (e i) (f j))
    (hd : ∀ i : Fin J'.length, d'.getD i 0 = d.getD (e i) 0)
    (hw : ∀ i : Fin J'.length, weightAt w' i = weightAt w (e i)) :
    ridge J' d' w' damping = List.ofFn ((ridgeVec (toMatrix J) (fun i => weightAt w i)
      (fun i => d.getD i 0) (damping.getD 0)) ∘ f) := by
  rw [ridge, ← ridgeVec_equiv _ _ _ _ e f]
  congr 2
  · funext i j; exact hJ i j
  · funext i; exact hw i
  · funext i; exact hd i

theorem getD_map {α β : Type} (l : List α) (g : α → β) (i : ℕ) (h : i < l.length) (a : β) :
    (l.map g).getD i a = g l[i] := by
  simp [List.getElem?_eq_getElem h]

/-- C101: damped least squares does not depend on the order of the data -/
theorem ridge_rows (l l' : List (List ℝ × ℝ × ℝ)) (n : ℕ) (damping : Option ℝ) (hn : ∀ r ∈ l, r.1.length = n)
    (h : l.Perm l') (weighted : Bool) :
    ridge (l.map (·.1)) (l.map (·.2.1)) (if weighted then some (l.map (·.2.2)) else none) damping =
      ridge (l'.map (·.1)) (l'.map (·.2.1)) (if weighted then some (l'.map (·.2.2)) else none) damping := by
  obtain ⟨e, he⟩ := perm_equiv h
  have hhead : ∀ l : List (List ℝ × ℝ × ℝ), l ≠ [] → (∀ r ∈ l, r.1.length = n) →
      ((l.map (·.1)).headD []).length = n := by
    intro l hl hn
    cases l with
    | nil => exact absurd rfl hl
    | cons r l => exact hn r (by simp)
  by_cases hl : l = []
  · subst hl
    rw [List.nil_perm.1 h]
  · have hl' : l' ≠ [] := by rintro rfl; exact hl (List.perm_nil.1 h)
    have h1 := hhead l hl hn
    have h2 := hhead l' hl' fun r hr => hn r (h.mem_iff.2 hr)
    have hE : (l'.map (·.1)).length = l'.length := by simp
    have hE' : l.length = (l.map (·.1)).length := by simp
    have := ridge_equiv (l.map (·.1)) (l'.map (·.1)) (l.map (·.2.1)) (l'.map (·.2.1))
      (if weighted then some (l.map (·.2.2)) else none) (if weighted then some (l'.map (·.2.2)) else none)
      damping ((finCongr hE).trans (e.trans (finCongr hE'))) (finCongr (h2.trans h1.symm))
      (by
        intro i j
        have hi : (i : ℕ) < l'.length := hE ▸ i.2
        simp only [toMatrix, Equiv.trans_apply, finCongr_apply, Fin.val_cast]
        rw [getD_map l' _ _ hi, getD_map l _ _ (e (Fin.cast hE i)).2]
        have := he ⟨i, hi⟩
        simp only at this
        rw [this]
        rfl)
      (by
        intro i
        have hi : (i : ℕ) < l'.length := hE ▸ i.2
        simp only [Equiv.trans_apply, finCongr_apply, Fin.val_cast]
        rw [getD_map l' _ _ hi, getD_map l _ _ (e (Fin.cast hE i)).2]
        have := he ⟨i, hi⟩
        simp only at this
        rw [this]
        rfl)
      (by
        intro i
        have hi : (i : ℕ) < l'.length := hE ▸ i.2
        cases weighted with
        | false => rfl
        | true =>
          simp only [if_true, weightAt, Option.map_some, Option.getD_some, Equiv.trans_apply,
            finCongr_apply, Fin.val_cast]
          rw [getD_map l' _ _ hi, getD_map l _ _ (e (Fin.cast hE i)).2]
          have := he ⟨i, hi⟩
          simp only at this
          rw [this]
          rfl)
    rw [this, ridge]
    apply List.ext_getElem
    · rw [List.length_ofFn, List.length_ofFn, h1, h2]
    · intro i h3 h4
      simp

theorem ridge_columns (κ : Type) (fs : List (κ → ℝ)) (ks ks' : List κ) (d : List ℝ) (w : Option (List ℝ))
    (damping : Option ℝ) (hfs : fs ≠ []) (h : ks.Perm ks') :
    (ridge (fs.map fun f => ks.map f) d w damping).length = ks.length ∧
      (ks.zip (ridge (fs.map fun f => ks.map f) d w damping)).Perm
        (ks'.zip (ridge (fs.map fun f => ks'.map f) d w damping)) := by
  have hhead : ∀ ks : List κ, ((fs.map fun f => ks.map f).headD []).length = ks.length := by
    intro ks
    cases fs with
    | nil => exact absurd rfl hfs
    | cons f fs => simp
  obtain ⟨e, he⟩ := perm_equiv h
  have hJ : (fs.map fun f => ks'.map f).length = (fs.map fun f => ks.map f).length := by simp
  have key := ridge_equiv (fs.map fun f => ks.map f) (fs.map fun f => ks'.map f) d d w w damping
    (finCongr hJ) ((finCongr (hhead ks')).trans (e.trans (finCongr (hhead ks).symm)))
    (by
      intro i j
      have hi : (i : ℕ) < fs.length := by simpa using i.2
      have hj : (j : ℕ) < ks'.length := hhead ks' ▸ j.2
      simp only [toMatrix, Equiv.trans_apply, finCongr_apply, Fin.val_cast]
      rw [getD_map fs _ _ hi, getD_map fs _ _ hi, getD_map ks' _ _ hj, getD_map ks _ _ (e (Fin.cast (hhead ks') j)).2]
      have := he ⟨j, hj⟩
      simp only at this
      rw [this]
      rfl)
    (fun i => rfl) (fun i => rfl)
  refine ⟨by rw [ridge, List.length_ofFn, hhead], ?_⟩
  rw [key, ridge]
  set x := ridgeVec (toMatrix (fs.map fun f => ks.map f)) (fun i => weightAt w i) (fun i => d.getD i 0)
    (damping.getD 0)
  have e1 : ks.zip (List.ofFn x) = List.ofFn fun i : Fin ks.length => (ks[(i : ℕ)], x (i.cast (hhead ks).symm)) := by
    apply List.ext_getElem
    · rw [List.length_zip, List.length_ofFn, List.length_ofFn, hhead, min_self]
    · intro i h1 h2
      simp
  have e2 : ks'.zip (List.ofFn (x ∘ ((finCongr (hhead ks')).trans (e.trans (finCongr (hhead ks).symm))))) =
      List.ofFn ((fun i : Fin ks.length => (ks[(i : ℕ)], x (i.cast (hhead ks).symm))) ∘ e) := by
    apply List.ext_getElem
    · rw [List.length_zip, List.length_ofFn, List.length_ofFn, hhead, min_self]
    · intro i h1 h2
      have hi : i < ks'.length := by simpa using h2
      have := he ⟨i, hi⟩
      simp only at this
      simp [this]
  rw [e1, e2]
  exact (ofFn_equiv e _).symm

/-- C101: damped least squares, the points themselves as medians of blocks that keep their
order-free sum, and a constant distance -/
noncomputable def orderEnv : Env :=
  { ridgeEnv with blockMedian := fun _ a => .ok ([a.1.sum], [a.2.1.sum], [a.2.2.sum]) }

/-- C101: the hypothesis holds of damped least squares -/
theorem orderEnv_free : OrderFree orderEnv where
  rows := by
    intro l l' n damping hn h
    have h1 := ridge_rows l l' n damping hn h false
    have h2 := ridge_rows l l' n damping hn h true
    exact ⟨congrArg Except.ok h1, congrArg Except.ok h2⟩
  columns := by
    intro κ fs ks ks' d w damping c hfs h hc
    obtain rfl := Except.ok.inj hc
    obtain ⟨h1, h2⟩ := ridge_columns κ fs ks ks' d w damping hfs h
    exact ⟨_, rfl, h1, (ridge_columns κ fs ks' ks d w damping hfs h.symm).1, h2⟩
  blocks := by
    intro b l l' h
    simp only [orderEnv, pointArrs, (h.map _).sum_eq]
  neighbours := by
    intro l l' h
    rfl

/-- C101: a `fit` that returns, with weights -/
example (junk : Junk) (d : List ℝ) : ∃ s', fit orderEnv junk .serial { damping := some 10 }
    (coordArrs .float64 .float64 .float64 [2] [⟨0, 0, 0⟩, ⟨1, 0, 0⟩]) ⟨.float64, [2], d⟩
      (some ⟨.float64, [2], [1, 2]⟩) {} = (s', .ok ()) ∧
      s'.points_ = some (pointArrs [⟨0, 0, -9⟩, ⟨1, 0, -9⟩]) := by
  refine ⟨_, Prod.ext rfl ?_, ?_⟩
  · simp [fit, checkFitInput, coordArrs, castArrs, n1dArrays, getRegion, choosePoints, buildPoints,
      blockCoordinates, sourceDepth, solve, toyEnv, ridgeEnv, orderEnv, DType.cast, Except.map]
  · simp [coordArrs, castArrs, n1dArrays, DType.cast, pointArrs]
    norm_num

open Classical in
/-- C102: least squares by the normal equations, an error if they are singular -/
noncomputable def normalEnv : Env :=
  { toyEnv with leastSquares := fun J d w _ =>
      if J ≠ [] ∧ IsUnit ((toMatrix J).transpose * Matrix.diagonal (fun i : Fin J.length => weightAt w i) *
        toMatrix J).det then .ok (ridge J d w none) else .error .LinAlgError }

theorem toRows_head {m n : ℕ} (J : Matrix (Fin m) (Fin n) ℝ) (hm : m ≠ 0) :
    ((toRows J).headD []).length = n := by
  obtain ⟨k, rfl⟩ := Nat.exists_eq_succ_of_ne_zero hm
  simp [toRows, List.ofFn_succ]

theorem toMatrix_toRows {m n : ℕ} (J : Matrix (Fin m) (Fin n) ℝ) (h1 : (toRows J).length = m)
    (h2 : ((toRows J).headD []).length = n) :
    toMatrix (toRows J) = J.submatrix (finCongr h1) (finCongr h2) := by
  funext i j
  have hi : (i : ℕ) < m := (finCongr h1 i).2
  have hj : (j : ℕ) < n := (finCongr h2 j).2
  simp only [toMatrix, toRows, List.getD_eq_getElem?_getD, List.getElem?_ofFn, hi, hj, dite_true,
    Option.getD_some]
  rfl

theorem weightAt_ofFn {m : ℕ} (w : Option (Fin m → ℝ)) (i : Fin m) :
    weightAt (w.map List.ofFn) i = w.getD (fun _ => 1) i := by
  cases w with
  | none => rfl
  | some w => simp [weightAt]

/-- The normal equations of a matrix as the solver of lists sees them. -/
theorem normalEnv_eq {m n : ℕ} (J : Matrix (Fin m) (Fin n) ℝ) (hm : m ≠ 0) (d : Fin m → ℝ)
    (w : Option (Fin m → ℝ)) :
    (IsUnit (J.transpose * Matrix.diagonal (w.getD fun _ => 1) * J).det →
      normalEnv.leastSquares (toRows J) (List.ofFn d) (w.map List.ofFn) none =
        .ok (List.ofFn (ridgeVec J (w.getD fun _ => 1) d 0))) ∧
    (¬ IsUnit (J.transpose * Matrix.diagonal (w.getD fun _ => 1) * J).det →
      normalEnv.leastSquares (toRows J) (List.ofFn d) (w.map List.ofFn) none = .error .LinAlgError) := by
  have h1 : (toRows J).length = m := by simp [toRows]
  have h2 := toRows_head J hm
  have hA := toMatrix_toRows J h1 h2
  have hw : (fun i : Fin (toRows J).length => weightAt (w.map List.ofFn) i) =
      (w.getD fun _ => 1) ∘ finCongr h1 := by
    funext i
    exact weightAt_ofFn w (finCongr h1 i)
  have hdd : (fun i : Fin (toRows J).length => (List.ofFn d).getD i 0) = d ∘ finCongr h1 := by
    funext i
    have hi : (i : ℕ) < m := (finCongr h1 i).2
    simp only [List.getD_eq_getElem?_getD, List.getElem?_ofFn, hi, dite_true, Option.getD_some]
    rfl
  have hne : toRows J ≠ [] := by
    intro e
    rw [e] at h1
    exact hm h1.symm
  have hdet : (((toMatrix (toRows J)).transpose * Matrix.diagonal
      (fun i : Fin (toRows J).length => weightAt (w.map List.ofFn) i) * toMatrix (toRows J))).det =
      (J.transpose * Matrix.diagonal (w.getD fun _ => 1) * J).det := by
    rw [hw, hA, Matrix.transpose_submatrix, ← Matrix.submatrix_diagonal_equiv, Matrix.submatrix_mul_equiv,
      Matrix.submatrix_mul_equiv, Matrix.det_submatrix_equiv_self]
  constructor
  · intro hu
    simp only [normalEnv]
    rw [if_pos ⟨hne, by rw [hdet]; exact hu⟩, ridge, hw, hdd, hA, ridgeVec_equiv]
    congr 1
    apply List.ext_getElem
    · simp only [List.length_ofFn, h2]
    · intro i h3 h4
      simp
  · intro hu
    simp only [normalEnv]
    rw [if_neg (by rintro ⟨-, h⟩; rw [hdet] at h; exact hu h)]

theorem normalEnv_solves : SolvesNormalEquations normalEnv := by
  intro m n J d w c h
  have hm : m ≠ 0 := by
    rintro rfl
    simp [normalEnv, toRows] at h
  by_cases hu : IsUnit (J.transpose * Matrix.diagonal (w.getD fun _ => 1) * J).det
  · rw [(normalEnv_eq J hm d w).1 hu] at h
    refine ⟨_, (Except.ok.inj h).symm, ?_⟩
    set x := ridgeVec J (w.getD fun _ => 1) d 0 with hx
    have h1 : (J.transpose * Matrix.diagonal (w.getD fun _ => 1) * J).mulVec x =
        (J.transpose * Matrix.diagonal (w.getD fun _ => 1)).mulVec d := by
      rw [hx, ridgeVec, zero_smul, add_zero, Matrix.mulVec_mulVec, Matrix.mul_nonsing_inv _ hu,
        Matrix.one_mulVec]
    rw [← Matrix.mulVec_mulVec, ← Matrix.mulVec_mulVec, ← Matrix.mulVec_mulVec, ← sub_eq_zero,
      ← Matrix.mulVec_sub] at h1
    rw [← h1]
    congr 1
    funext i
    rw [Pi.sub_apply, Matrix.mulVec_diagonal, Matrix.mulVec_diagonal, mul_sub]
  · rw [(normalEnv_eq J hm d w).2 hu] at h
    cases h

/-- C102: `fit` returns for any data at one height without weights -/
example (junk : Junk) (n : ℕ) (hn : n ≠ 0) (obs : Fin n → P3) (hobs : Function.Injective obs) (H : ℝ)
    (hH : ∀ i, (obs i).z = H) (data : Fin n → ℝ) :
    ∃ s', fit normalEnv junk .serial {} (coordArrs .float64 .float64 .float64 [n] (List.ofFn obs))
      ⟨.float64, [n], List.ofFn data⟩ none {} = (s', .ok ()) ∧ s'.depth_ = some (some 9) := by
  have hdet := distMatrix_level obs hobs H 9 hH (by norm_num)
  have hj := jacobian_eq junk .serial greensFuncCartesian (d := .float64) trivial (List.ofFn obs)
    (List.ofFn fun i => ⟨(obs i).x, (obs i).y, (obs i).z - 9⟩) trivial
  simp only [greensCart1, rows_distMatrix] at hj
  have hls := (normalEnv_eq (distMatrix cartPos obs fun i => ⟨(obs i).x, (obs i).y, (obs i).z - 9⟩) hn data
    none).1 (by simpa [Matrix.det_transpose] using hdet)
  have hc : checkFitInput (coordArrs .float64 .float64 .float64 [n] (List.ofFn obs))
      ⟨.float64, [n], List.ofFn data⟩ none = .ok () := by
    simp [checkFitInput, coordArrs]
  have hpt : ∀ s, choosePoints normalEnv {} (pointArrs (List.ofFn obs)) s =
      ({ s with depth_ := some (some 9) },
        .ok (pointArrs (List.ofFn fun i => ⟨(obs i).x, (obs i).y, (obs i).z - 9⟩))) := by
    intro s
    have h9 : (4.5 * 2 : ℝ) = 9 := by norm_num
    simp [choosePoints, buildPoints, blockCoordinates, sourceDepth, normalEnv, toyEnv, Except.map, castArrs,
      DType.cast, pointArrs, h9, List.map_ofFn, Function.comp_def]
  have hr : ∃ r, getRegion (pointArrs (List.ofFn obs)).1 (pointArrs (List.ofFn obs)).2.1 = .ok r := by
    obtain ⟨k, rfl⟩ := Nat.exists_eq_succ_of_ne_zero hn
    simp [getRegion, pointArrs, List.ofFn_succ]
  obtain ⟨r, hr⟩ := hr
  unfold fit solve
  rw [hc]
  simp only [castArrs_float (d := .float64) trivial, n1dArrays_coordArrs, hr, hpt, hj]
  have ha : ∀ k, normalEnv.alloc k = .ok () := fun k => rfl
  have hmap : (List.ofFn data).map (DType.cast .float64) = List.ofFn data := by
    rw [cast_float_fun (d := .float64) trivial, List.map_id]
  simp only [Option.map_none] at hls
  simp only [ha, hmap, Option.map_none, hls]
  exact ⟨_, rfl, rfl⟩

/-- C102, C30: `fit` of spherical sources returns for any data at one radius -/
example (junk : Junk) (n : ℕ) (hn : n ≠ 0) (obs : Fin n → P3)
    (hobs : Function.Injective fun i => sphPos (obs i)) (hR : ∀ i, (obs i).z = 6371000) (data : Fin n → ℝ) :
    ∃ s', fitSph normalEnv junk .serial {} (coordArrs .float64 .float64 .float64 [n] (List.ofFn obs))
      ⟨.float64, [n], List.ofFn data⟩ none {} = (s', .ok ()) := by
  have hdet := distMatrix_sphere obs hobs 6371000 500 hR (by norm_num) (by norm_num) (by norm_num)
  have hj := jacobian_eq junk .serial greensFuncSpherical (d := .float64) trivial (List.ofFn obs)
    (List.ofFn fun i => ⟨(obs i).x, (obs i).y, (obs i).z - 500⟩) trivial
  simp only [greensSph1, rows_distMatrix] at hj
  have hls := (normalEnv_eq (distMatrix sphPos obs fun i => ⟨(obs i).x, (obs i).y, (obs i).z - 500⟩) hn data
    none).1 (by simpa [Matrix.det_transpose] using hdet)
  have hc : checkFitInput (coordArrs .float64 .float64 .float64 [n] (List.ofFn obs))
      ⟨.float64, [n], List.ofFn data⟩ none = .ok () := by
    simp [checkFitInput, coordArrs]
  have hpt : sphPoints {} (pointArrs (List.ofFn obs)) =
      pointArrs (List.ofFn fun i => ⟨(obs i).x, (obs i).y, (obs i).z - 500⟩) := by
    simp [sphPoints, pointArrs, List.map_ofFn, Function.comp_def]
  have hr : ∃ r, getRegion (pointArrs (List.ofFn obs)).1 (pointArrs (List.ofFn obs)).2.1 = .ok r := by
    obtain ⟨k, rfl⟩ := Nat.exists_eq_succ_of_ne_zero hn
    simp [getRegion, pointArrs, List.ofFn_succ]
  obtain ⟨r, hr⟩ := hr
  unfold fitSph solve
  rw [hc]
  simp only [n1dArrays_coordArrs, hr, hpt, hj]
  have ha : ∀ k, normalEnv.alloc k = .ok () := fun k => rfl
  simp only [Option.map_none] at hls
  simp only [ha, Option.map_none, hls]
  exact ⟨_, rfl⟩

end Verif.EqSources
