import Verif.Filters.PropsB

/-!
Properties of the transformations: C37 (dictionary of the caller), C38 (total gradient amplitude and
tilt), C39 (rejected grids) and C74 (finite differences).
-/

namespace Verif.Filters
open Verif.Utils

/-! ### C74: finite differences -/

theorem coord_getD {n : ℕ} {x : ℕ → ℝ} {k : ℕ} (hk : k < n) :
    ((List.range n).map x).getD k 0 = x k := by
  simp [List.getD_eq_getElem?_getD, hk]

/-- Finite differences of a line are its slope. -/
theorem npGradient_affine {n : ℕ} (hn : 2 ≤ n) {x : ℕ → ℝ} (hx : Distinct n x) (f : ℕ → Option ℝ)
    (a b : ℝ) (hf : ∀ k < n, f k = some (a + b * x k)) {i : ℕ} (hi : i < n) :
    npGradient f ((List.range n).map x) n i = some b := by
  have ne : ∀ {j k}, j < n → k < n → j ≠ k → x j - x k ≠ 0 :=
    fun hj hk h h0 => h (hx _ hj _ hk (sub_eq_zero.1 h0))
  unfold npGradient
  simp only
  by_cases h0 : i = 0
  · rw [if_pos h0, coord_getD (by omega), coord_getD (by omega), hf 1 (by omega), hf 0 (by omega)]
    have h1 := ne (show 1 < n by omega) (show 0 < n by omega) (by omega)
    simp only [lift2, Option.bind_some, Option.map_some, odiv, if_neg h1, Option.some.injEq]
    field_simp; ring
  rw [if_neg h0]
  by_cases h1 : i + 1 = n
  · rw [if_pos h1, coord_getD (by omega), coord_getD (by omega), hf (n - 1) (by omega), hf (n - 2) (by omega)]
    have h1 := ne (show n - 1 < n by omega) (show n - 2 < n by omega) (by omega)
    simp only [lift2, Option.bind_some, Option.map_some, odiv, if_neg h1, Option.some.injEq]
    field_simp; ring
  rw [if_neg h1]
  have e1 := ne (show i < n by omega) (show i - 1 < n by omega) (by omega)
  have e2 := ne (show i + 1 < n by omega) (show i < n by omega) (by omega)
  have e3 := ne (show i + 1 < n by omega) (show i - 1 < n by omega) (by omega)
  have e10 := ne (show 1 < n by omega) (show 0 < n by omega) (by omega)
  split_ifs with he
  · rw [coord_getD (by omega), coord_getD (by omega), hf (i + 1) (by omega), hf (i - 1) (by omega)]
    have c1 := he i (by omega)
    have c2 := he (i - 1) (by omega)
    rw [show i - 1 + 1 = i by omega] at c2
    rw [coord_getD (by omega), coord_getD (by omega), coord_getD (by omega), coord_getD (by omega)] at c1 c2
    have h3 : 2 * (x 1 - x 0) ≠ 0 := mul_ne_zero two_ne_zero e10
    simp only [lift2, Option.bind_some, Option.map_some, odiv, if_neg h3, Option.some.injEq]
    field_simp
    linear_combination b * c1 + b * c2
  · rw [coord_getD (by omega), coord_getD (by omega), coord_getD (by omega), hf (i + 1) (by omega),
      hf (i - 1) (by omega), hf i (by omega)]
    have e4 : x i - x (i - 1) + (x (i + 1) - x i) ≠ 0 := by
      rw [show x i - x (i - 1) + (x (i + 1) - x i) = x (i + 1) - x (i - 1) by ring]; exact e3
    simp only [lift2, Option.bind_some, Option.map_some, odiv, if_neg (mul_ne_zero e1 e4),
      if_neg (mul_ne_zero e1 e2), if_neg (mul_ne_zero e2 e4), Option.some.injEq]
    field_simp
    ring

/-- Finite differences of a parabola are exact in the interior. -/
theorem npGradient_quadratic {n : ℕ} {x : ℕ → ℝ} (hx : Distinct n x) (f : ℕ → Option ℝ)
    (a b c : ℝ) (hf : ∀ k < n, f k = some (a + b * x k + c * x k ^ 2)) {i : ℕ} (h0 : 0 < i) (hi : i + 1 < n) :
    npGradient f ((List.range n).map x) n i = some (b + 2 * c * x i) := by
  have ne : ∀ {j k}, j < n → k < n → j ≠ k → x j - x k ≠ 0 :=
    fun hj hk h h0 => h (hx _ hj _ hk (sub_eq_zero.1 h0))
  unfold npGradient
  simp only
  rw [if_neg h0.ne', if_neg (by omega)]
  have e1 := ne (show i < n by omega) (show i - 1 < n by omega) (by omega)
  have e2 := ne (show i + 1 < n by omega) (show i < n by omega) (by omega)
  have e3 := ne (show i + 1 < n by omega) (show i - 1 < n by omega) (by omega)
  have e10 := ne (show 1 < n by omega) (show 0 < n by omega) (by omega)
  split_ifs with he
  · rw [coord_getD (by omega), coord_getD (by omega), hf (i + 1) (by omega), hf (i - 1) (by omega)]
    have c1 := he i (by omega)
    have c2 := he (i - 1) (by omega)
    rw [show i - 1 + 1 = i by omega] at c2
    rw [coord_getD (by omega), coord_getD (by omega), coord_getD (by omega), coord_getD (by omega)] at c1 c2
    have h3 : 2 * (x 1 - x 0) ≠ 0 := mul_ne_zero two_ne_zero e10
    simp only [lift2, Option.bind_some, Option.map_some, odiv, if_neg h3, Option.some.injEq]
    have d1 : x (i + 1) = x i + (x 1 - x 0) := by linarith
    have d2 : x (i - 1) = x i - (x 1 - x 0) := by linarith
    rw [d1, d2]
    field_simp
    ring
  · rw [coord_getD (by omega), coord_getD (by omega), coord_getD (by omega), hf (i + 1) (by omega),
      hf (i - 1) (by omega), hf i (by omega)]
    have e4 : x i - x (i - 1) + (x (i + 1) - x i) ≠ 0 := by
      rw [show x i - x (i - 1) + (x (i + 1) - x i) = x (i + 1) - x (i - 1) by ring]; exact e3
    simp only [lift2, Option.bind_some, Option.map_some, odiv, if_neg (mul_ne_zero e1 e4),
      if_neg (mul_ne_zero e1 e2), if_neg (mul_ne_zero e2 e4), Option.some.injEq]
    field_simp
    ring

/-- Finite differences are finite and linear. -/
theorem npGradient_linear {n : ℕ} (hn : 2 ≤ n) {x : ℕ → ℝ} (hx : Distinct n x) (f g h : ℕ → Option ℝ)
    (u v : ℕ → ℝ) (a b : ℝ) (hf : ∀ k < n, f k = some (u k)) (hg : ∀ k < n, g k = some (v k))
    (hh : ∀ k < n, h k = some (a * u k + b * v k)) {i : ℕ} (hi : i < n) :
    ∃ p q, npGradient f ((List.range n).map x) n i = some p ∧
      npGradient g ((List.range n).map x) n i = some q ∧
      npGradient h ((List.range n).map x) n i = some (a * p + b * q) := by
  have ne : ∀ {j k}, j < n → k < n → j ≠ k → x j - x k ≠ 0 :=
    fun hj hk h h0 => h (hx _ hj _ hk (sub_eq_zero.1 h0))
  unfold npGradient
  simp only
  by_cases h0 : i = 0
  · simp only [if_pos h0]
    rw [coord_getD (by omega), coord_getD (by omega), hf 1 (by omega), hf 0 (by omega), hg 1 (by omega),
      hg 0 (by omega), hh 1 (by omega), hh 0 (by omega)]
    have h1 := ne (show 1 < n by omega) (show 0 < n by omega) (by omega)
    simp only [lift2, Option.bind_some, Option.map_some, odiv, if_neg h1, Option.some.injEq]
    exact ⟨_, _, rfl, rfl, by ring⟩
  simp only [if_neg h0]
  by_cases h1 : i + 1 = n
  · simp only [if_pos h1]
    rw [coord_getD (by omega), coord_getD (by omega), hf (n - 1) (by omega), hf (n - 2) (by omega),
      hg (n - 1) (by omega), hg (n - 2) (by omega), hh (n - 1) (by omega), hh (n - 2) (by omega)]
    have h1 := ne (show n - 1 < n by omega) (show n - 2 < n by omega) (by omega)
    simp only [lift2, Option.bind_some, Option.map_some, odiv, if_neg h1, Option.some.injEq]
    exact ⟨_, _, rfl, rfl, by ring⟩
  simp only [if_neg h1]
  have e1 := ne (show i < n by omega) (show i - 1 < n by omega) (by omega)
  have e2 := ne (show i + 1 < n by omega) (show i < n by omega) (by omega)
  have e3 := ne (show i + 1 < n by omega) (show i - 1 < n by omega) (by omega)
  have e10 := ne (show 1 < n by omega) (show 0 < n by omega) (by omega)
  split_ifs with he
  · rw [coord_getD (by omega), coord_getD (by omega), hf (i + 1) (by omega), hf (i - 1) (by omega),
      hg (i + 1) (by omega), hg (i - 1) (by omega), hh (i + 1) (by omega), hh (i - 1) (by omega)]
    have h3 : 2 * (x 1 - x 0) ≠ 0 := mul_ne_zero two_ne_zero e10
    simp only [lift2, Option.bind_some, Option.map_some, odiv, if_neg h3, Option.some.injEq]
    exact ⟨_, _, rfl, rfl, by ring⟩
  · rw [coord_getD (by omega), coord_getD (by omega), coord_getD (by omega), hf (i + 1) (by omega),
      hf (i - 1) (by omega), hf i (by omega), hg (i + 1) (by omega), hg (i - 1) (by omega), hg i (by omega),
      hh (i + 1) (by omega), hh (i - 1) (by omega), hh i (by omega)]
    have e4 : x i - x (i - 1) + (x (i + 1) - x i) ≠ 0 := by
      rw [show x i - x (i - 1) + (x (i + 1) - x i) = x (i + 1) - x (i - 1) by ring]; exact e3
    simp only [lift2, Option.bind_some, Option.map_some, odiv, if_neg (mul_ne_zero e1 e4),
      if_neg (mul_ne_zero e1 e2), if_neg (mul_ne_zero e2 e4), Option.some.injEq]
    exact ⟨_, _, rfl, rfl, by ring⟩

theorem getCoord_easting {A : Grid} {d0 d1 : String} {n m : ℕ} {y x : ℕ → ℝ} {v : ℕ → ℕ → ℝ}
    (hA : IsGridXY A d0 d1 n m y x v) :
    getDataarrayCoordinate A 1 = .ok ⟨[d1], (List.range m).map x⟩ := by
  unfold getDataarrayCoordinate
  rw [hA.dims]
  simp only [List.getElem?_cons_succ, List.getElem?_cons_zero, hA.easting]

theorem getCoord_northing {A : Grid} {d0 d1 : String} {n m : ℕ} {y x : ℕ → ℝ} {v : ℕ → ℕ → ℝ}
    (hA : IsGridXY A d0 d1 n m y x v) :
    getDataarrayCoordinate A 0 = .ok ⟨[d0], (List.range n).map y⟩ := by
  unfold getDataarrayCoordinate
  rw [hA.dims]
  simp only [List.getElem?_cons_zero, hA.northing]

/-- The result of one derivative. -/
noncomputable def gradGrid (A : Grid) (axis : ℕ) (c : Coord) : Grid :=
  { A with
    data := fun idx => npGradient (fun k => A.data (idx.set axis k)) c.values (A.sizes.getD axis 0)
      (idx.getD axis 0) }

theorem differentiate_eq (A : Grid) (axis : ℕ) (c : Coord) (h : 2 ≤ A.sizes.getD axis 0) :
    differentiate A axis c = .ok (gradGrid A axis c) := by
  unfold differentiate gradGrid
  simp only
  rw [if_neg (by omega)]

theorem IsGridXY.withData {A B : Grid} {d0 d1 : String} {n m : ℕ} {y x : ℕ → ℝ} {v w : ℕ → ℕ → ℝ}
    (hA : IsGridXY A d0 d1 n m y x v) (hd : B.dims = A.dims) (hs : B.sizes = A.sizes)
    (hc : B.coords = A.coords) (hv : ∀ i < n, ∀ j < m, B.data [i, j] = some (w i j)) :
    IsGridXY B d0 d1 n m y x w :=
  ⟨hd.trans hA.dims, hs.trans hA.sizes, by rw [hc]; exact hA.northing, by rw [hc]; exact hA.easting, hv⟩

/-- C74: the finite difference derivative of a grid that is affine along each row (each column) is
the slope of the row (column) at every node, and derivatives of higher order are zero; for any
distinct coordinates, evenly spaced or not. -/
theorem C74_affine (fill : Fill) {A : Grid} {d0 d1 : String} {n m : ℕ} {y x : ℕ → ℝ} {v : ℕ → ℕ → ℝ}
    (hA : IsGridXY A d0 d1 n m y x v) (pad : Bool) (kw : Option PadKwargs) (order : ℕ)
    (horder : 1 ≤ order) (a b : ℕ → ℝ) :
    (2 ≤ m → Distinct m x → (∀ i < n, ∀ j < m, v i j = a i + b i * x j) →
      ∃ B, (derivativeEasting fill A order (pad := pad) (pad_kwargs := kw)).2 = .ok B ∧
        IsGridXY B d0 d1 n m y x fun i _ => if order = 1 then b i else 0) ∧
    (2 ≤ n → Distinct n y → (∀ i < n, ∀ j < m, v i j = a j + b j * y i) →
      ∃ B, (derivativeNorthing fill A order (pad := pad) (pad_kwargs := kw)).2 = .ok B ∧
        IsGridXY B d0 d1 n m y x fun _ j => if order = 1 then b j else 0) := by
  constructor
  · intro hm hx hv
    simp only [derivativeEasting, if_true, getCoord_easting hA, Py.bind_ok]
    obtain ⟨k, rfl⟩ : ∃ k, order = k + 1 := ⟨order - 1, by omega⟩
    clear horder
    induction k generalizing A a b v with
    | zero =>
      refine ⟨gradGrid A 1 _, by
        simp only [differentiateTimes]
        rw [differentiate_eq _ _ _ (by rw [hA.sizes]; exact hm)]
        rfl, ?_⟩
      refine hA.withData rfl rfl rfl fun i hi j hj => ?_
      simp only [gradGrid, hA.sizes, List.getD_cons_succ, List.getD_cons_zero, List.set_cons_succ,
        List.set_cons_zero, if_true]
      exact npGradient_affine hm hx (fun k => A.data [i, k]) (a i) (b i) (fun k hk => by rw [hA.data i hi k hk, hv i hi k hk]) hj
    | succ k ih =>
      have hB : IsGridXY (gradGrid A 1 ⟨[d1], (List.range m).map x⟩) d0 d1 n m y x fun i _ => b i := by
        refine hA.withData rfl rfl rfl fun i hi j hj => ?_
        simp only [gradGrid, hA.sizes, List.getD_cons_succ, List.getD_cons_zero, List.set_cons_succ,
          List.set_cons_zero]
        exact npGradient_affine hm hx (fun k => A.data [i, k]) (a i) (b i) (fun k hk => by rw [hA.data i hi k hk, hv i hi k hk]) hj
      obtain ⟨B, h1, h2⟩ := ih hB b (fun _ => 0) (by intros; simp)
      refine ⟨B, ?_, ?_⟩
      · rw [differentiateTimes, differentiate_eq _ _ _ (by rw [hA.sizes]; exact hm), Py.bind_ok]
        exact h1
      · convert h2 using 3
        simp
  · intro hn hy hv
    simp only [derivativeNorthing, if_true, getCoord_northing hA, Py.bind_ok]
    obtain ⟨k, rfl⟩ : ∃ k, order = k + 1 := ⟨order - 1, by omega⟩
    clear horder
    induction k generalizing A a b v with
    | zero =>
      refine ⟨gradGrid A 0 _, by
        simp only [differentiateTimes]
        rw [differentiate_eq _ _ _ (by rw [hA.sizes]; exact hn)]
        rfl, ?_⟩
      refine hA.withData rfl rfl rfl fun i hi j hj => ?_
      simp only [gradGrid, hA.sizes, List.getD_cons_zero, List.set_cons_zero, if_true]
      exact npGradient_affine hn hy (fun k => A.data [k, j]) (a j) (b j) (fun k hk => by rw [hA.data k hk j hj, hv k hk j hj]) hi
    | succ k ih =>
      have hB : IsGridXY (gradGrid A 0 ⟨[d0], (List.range n).map y⟩) d0 d1 n m y x fun _ j => b j := by
        refine hA.withData rfl rfl rfl fun i hi j hj => ?_
        simp only [gradGrid, hA.sizes, List.getD_cons_zero, List.set_cons_zero]
        exact npGradient_affine hn hy (fun k => A.data [k, j]) (a j) (b j) (fun k hk => by rw [hA.data k hk j hj, hv k hk j hj]) hi
      obtain ⟨B, h1, h2⟩ := ih hB b (fun _ => 0) (by intros; simp)
      refine ⟨B, ?_, ?_⟩
      · rw [differentiateTimes, differentiate_eq _ _ _ (by rw [hA.sizes]; exact hn), Py.bind_ok]
        exact h1
      · convert h2 using 3
        simp

/-- C74: first derivatives of rows (columns) that are parabolas are exact at the interior nodes. -/
theorem C74_quadratic (fill : Fill) {A : Grid} {d0 d1 : String} {n m : ℕ} {y x : ℕ → ℝ}
    {v : ℕ → ℕ → ℝ} (hA : IsGridXY A d0 d1 n m y x v) (pad : Bool) (kw : Option PadKwargs)
    (a b c : ℕ → ℝ) :
    (2 ≤ m → Distinct m x → (∀ i < n, ∀ j < m, v i j = a i + b i * x j + c i * x j ^ 2) →
      ∃ B, (derivativeEasting fill A 1 (pad := pad) (pad_kwargs := kw)).2 = .ok B ∧
        ∀ i < n, ∀ j, 0 < j → j + 1 < m → B.data [i, j] = some (b i + 2 * c i * x j)) ∧
    (2 ≤ n → Distinct n y → (∀ i < n, ∀ j < m, v i j = a j + b j * y i + c j * y i ^ 2) →
      ∃ B, (derivativeNorthing fill A 1 (pad := pad) (pad_kwargs := kw)).2 = .ok B ∧
        ∀ j < m, ∀ i, 0 < i → i + 1 < n → B.data [i, j] = some (b j + 2 * c j * y i)) := by
  constructor
  · intro hm hx hv
    simp only [derivativeEasting, if_true, getCoord_easting hA, Py.bind_ok]
    refine ⟨gradGrid A 1 _, by
      simp only [differentiateTimes]
      rw [differentiate_eq _ _ _ (by rw [hA.sizes]; exact hm)]
      rfl, ?_⟩
    intro i hi j h0 hj
    simp only [gradGrid, hA.sizes, List.getD_cons_succ, List.getD_cons_zero, List.set_cons_succ,
      List.set_cons_zero]
    exact npGradient_quadratic hx (fun k => A.data [i, k]) (a i) (b i) (c i) (fun k hk => by rw [hA.data i hi k hk, hv i hi k hk]) h0 hj
  · intro hn hy hv
    simp only [derivativeNorthing, if_true, getCoord_northing hA, Py.bind_ok]
    refine ⟨gradGrid A 0 _, by
      simp only [differentiateTimes]
      rw [differentiate_eq _ _ _ (by rw [hA.sizes]; exact hn)]
      rfl, ?_⟩
    intro j hj i h0 hi
    simp only [gradGrid, hA.sizes, List.getD_cons_zero, List.set_cons_zero]
    exact npGradient_quadratic hy (fun k => A.data [k, j]) (a j) (b j) (c j) (fun k hk => by rw [hA.data k hk j hj, hv k hk j hj]) h0 hi

/-- C74: finite difference derivatives of any order are linear in the values of the grid. -/
theorem C74_linear (fill : Fill) {A B C : Grid} {d0 d1 : String} {n m : ℕ} {y x : ℕ → ℝ}
    {v w : ℕ → ℕ → ℝ} {a b : ℝ} (hA : IsGridXY A d0 d1 n m y x v) (hB : IsGridXY B d0 d1 n m y x w)
    (hC : IsGridXY C d0 d1 n m y x fun i j => a * v i j + b * w i j) (hn : 2 ≤ n) (hm : 2 ≤ m)
    (hy : Distinct n y) (hx : Distinct m x) (pad : Bool) (kw : Option PadKwargs) (order : ℕ) :
    (∃ A' B' C' v' w', (derivativeEasting fill A order (pad := pad) (pad_kwargs := kw)).2 = .ok A' ∧
      (derivativeEasting fill B order (pad := pad) (pad_kwargs := kw)).2 = .ok B' ∧
      (derivativeEasting fill C order (pad := pad) (pad_kwargs := kw)).2 = .ok C' ∧
      IsGridXY A' d0 d1 n m y x v' ∧ IsGridXY B' d0 d1 n m y x w' ∧
      IsGridXY C' d0 d1 n m y x fun i j => a * v' i j + b * w' i j) ∧
    (∃ A' B' C' v' w', (derivativeNorthing fill A order (pad := pad) (pad_kwargs := kw)).2 = .ok A' ∧
      (derivativeNorthing fill B order (pad := pad) (pad_kwargs := kw)).2 = .ok B' ∧
      (derivativeNorthing fill C order (pad := pad) (pad_kwargs := kw)).2 = .ok C' ∧
      IsGridXY A' d0 d1 n m y x v' ∧ IsGridXY B' d0 d1 n m y x w' ∧
      IsGridXY C' d0 d1 n m y x fun i j => a * v' i j + b * w' i j) := by
  constructor
  · simp only [derivativeEasting, if_true, getCoord_easting hA, getCoord_easting hB, getCoord_easting hC,
      Py.bind_ok]
    induction order generalizing A B C v w with
    | zero => exact ⟨A, B, C, v, w, rfl, rfl, rfl, hA, hB, hC⟩
    | succ k ih =>
      have key : ∀ i < n, ∀ j < m, ∃ p q,
          (gradGrid A 1 ⟨[d1], (List.range m).map x⟩).data [i, j] = some p ∧
          (gradGrid B 1 ⟨[d1], (List.range m).map x⟩).data [i, j] = some q ∧
          (gradGrid C 1 ⟨[d1], (List.range m).map x⟩).data [i, j] = some (a * p + b * q) := by
        intro i hi j hj
        simp only [gradGrid, hA.sizes, hB.sizes, hC.sizes, List.getD_cons_succ, List.getD_cons_zero,
          List.set_cons_succ, List.set_cons_zero]
        exact npGradient_linear hm hx _ _ _ (v i) (w i) a b (fun k hk => hA.data i hi k hk)
          (fun k hk => hB.data i hi k hk) (fun k hk => hC.data i hi k hk) hj
      choose! p q h1 h2 h3 using key
      obtain ⟨A', B', C', v', w', r1, r2, r3, r⟩ := ih (hA.withData (B := gradGrid A 1 ⟨[d1], (List.range m).map x⟩) rfl rfl rfl h1)
        (hB.withData (B := gradGrid B 1 ⟨[d1], (List.range m).map x⟩) rfl rfl rfl h2)
        (hC.withData (B := gradGrid C 1 ⟨[d1], (List.range m).map x⟩) rfl rfl rfl h3)
      refine ⟨A', B', C', v', w', ?_, ?_, ?_, r⟩
      · rw [differentiateTimes, differentiate_eq _ _ _ (by rw [hA.sizes]; exact hm), Py.bind_ok]; exact r1
      · rw [differentiateTimes, differentiate_eq _ _ _ (by rw [hB.sizes]; exact hm), Py.bind_ok]; exact r2
      · rw [differentiateTimes, differentiate_eq _ _ _ (by rw [hC.sizes]; exact hm), Py.bind_ok]; exact r3
  · simp only [derivativeNorthing, if_true, getCoord_northing hA, getCoord_northing hB, getCoord_northing hC,
      Py.bind_ok]
    induction order generalizing A B C v w with
    | zero => exact ⟨A, B, C, v, w, rfl, rfl, rfl, hA, hB, hC⟩
    | succ k ih =>
      have key : ∀ i < n, ∀ j < m, ∃ p q,
          (gradGrid A 0 ⟨[d0], (List.range n).map y⟩).data [i, j] = some p ∧
          (gradGrid B 0 ⟨[d0], (List.range n).map y⟩).data [i, j] = some q ∧
          (gradGrid C 0 ⟨[d0], (List.range n).map y⟩).data [i, j] = some (a * p + b * q) := by
        intro i hi j hj
        simp only [gradGrid, hA.sizes, hB.sizes, hC.sizes, List.getD_cons_zero, List.set_cons_zero]
        exact npGradient_linear hn hy _ _ _ (fun k => v k j) (fun k => w k j) a b (fun k hk => hA.data k hk j hj)
          (fun k hk => hB.data k hk j hj) (fun k hk => hC.data k hk j hj) hi
      choose! p q h1 h2 h3 using key
      obtain ⟨A', B', C', v', w', r1, r2, r3, r⟩ := ih (hA.withData (B := gradGrid A 0 ⟨[d0], (List.range n).map y⟩) rfl rfl rfl h1)
        (hB.withData (B := gradGrid B 0 ⟨[d0], (List.range n).map y⟩) rfl rfl rfl h2)
        (hC.withData (B := gradGrid C 0 ⟨[d0], (List.range n).map y⟩) rfl rfl rfl h3)
      refine ⟨A', B', C', v', w', ?_, ?_, ?_, r⟩
      · rw [differentiateTimes, differentiate_eq _ _ _ (by rw [hA.sizes]; exact hn), Py.bind_ok]; exact r1
      · rw [differentiateTimes, differentiate_eq _ _ _ (by rw [hB.sizes]; exact hn), Py.bind_ok]; exact r2
      · rw [differentiateTimes, differentiate_eq _ _ _ (by rw [hC.sizes]; exact hn), Py.bind_ok]; exact r3

theorem differentiateTimes_add (axis : ℕ) (c : Coord) (j k : ℕ) (A : Grid) :
    differentiateTimes axis c (j + k) A =
      (differentiateTimes axis c j A >>= differentiateTimes axis c k) := by
  induction j generalizing A with
  | zero => rw [Nat.zero_add]; rfl
  | succ j ih =>
    rw [show j + 1 + k = (j + k) + 1 by omega, differentiateTimes, differentiateTimes]
    cases differentiate A axis c with
    | error e => rfl
    | ok B => simp only [Py.bind_ok]; exact ih B

theorem differentiateTimes_frame (axis : ℕ) (c : Coord) (k : ℕ) {A B : Grid}
    (h : differentiateTimes axis c k A = .ok B) :
    B.dims = A.dims ∧ B.sizes = A.sizes ∧ B.coords = A.coords := by
  induction k generalizing A with
  | zero => cases h; exact ⟨rfl, rfl, rfl⟩
  | succ k ih =>
    rw [differentiateTimes] at h
    unfold differentiate at h
    simp only at h
    split_ifs at h
    · cases h
    · rw [Py.bind_ok] at h
      obtain ⟨h1, h2, h3⟩ := ih h
      exact ⟨h1, h2, h3⟩

/-- C74: a derivative of order `j + k` with finite differences is the one of order `k` of the one of
order `j`, for any grid (errors included). -/
theorem C74_order (fill : Fill) (A : Grid) (j k : ℕ) :
    (derivativeEasting fill A (j + k)).2 =
      ((derivativeEasting fill A j).2 >>= fun B => (derivativeEasting fill B k).2) ∧
    (derivativeNorthing fill A (j + k)).2 =
      ((derivativeNorthing fill A j).2 >>= fun B => (derivativeNorthing fill B k).2) := by
  have hf : ∀ axis c B, differentiateTimes axis c j A = .ok B →
      getDataarrayCoordinate B axis = getDataarrayCoordinate A axis := by
    intro axis c B h
    obtain ⟨h1, h2, h3⟩ := differentiateTimes_frame _ _ _ h
    unfold getDataarrayCoordinate
    rw [h1, h3]
  constructor
  · simp only [derivativeEasting, if_true]
    cases h : getDataarrayCoordinate A 1 with
    | error e => rfl
    | ok c =>
      simp only [Py.bind_ok]
      rw [differentiateTimes_add]
      cases h2 : differentiateTimes 1 c j A with
      | error e => rfl
      | ok B =>
        simp only [Py.bind_ok]
        rw [hf 1 c B h2, h, Py.bind_ok]
  · simp only [derivativeNorthing, if_true]
    cases h : getDataarrayCoordinate A 0 with
    | error e => rfl
    | ok c =>
      simp only [Py.bind_ok]
      rw [differentiateTimes_add]
      cases h2 : differentiateTimes 0 c j A with
      | error e => rfl
      | ok B =>
        simp only [Py.bind_ok]
        rw [hf 0 c B h2, h, Py.bind_ok]

/-! ### C37: the dictionary of the caller -/

theorem setDefaults_allKeys {kw : PadKwargs} (h : AllKeys kw) (dims : List String) (sizes : List ℕ) :
    setDefaults kw dims sizes = kw := by
  rcases kw with ⟨a, b, c⟩
  obtain ⟨h1, h2, h3⟩ := h
  simp only at h1 h2 h3
  obtain ⟨a, rfl⟩ := Option.ne_none_iff_exists'.1 h1
  obtain ⟨b, rfl⟩ := Option.ne_none_iff_exists'.1 h2
  obtain ⟨c, rfl⟩ := Option.ne_none_iff_exists'.1 h3
  rfl

theorem applyFilter_dict (fill : Fill) (A : Grid) (K : Py Kernel) (pad : Bool) (kw : Option PadKwargs)
    (drop : Bool) (h : pad = false ∨ ∀ k ∈ kw, AllKeys k) : (applyFilter fill A K pad kw drop).1 = kw := by
  cases kw with
  | none => rfl
  | some k =>
    unfold applyFilter
    simp only [Option.some.injEq]
    unfold applyFilterDict
    have hk : (if pad = true then setDefaults k A.dims A.sizes else k) = k := by
      rcases h with rfl | h
      · rfl
      · rw [setDefaults_allKeys (h k rfl)]; simp
    cases gridSanityChecks A with
    | error e => rfl
    | ok u =>
      simp only
      rcases hd : A.dims with _ | ⟨d0, _ | ⟨d1, _ | ⟨d2, t⟩⟩⟩ <;>
        rcases hs : A.sizes with _ | ⟨n, _ | ⟨m, _ | ⟨m', t'⟩⟩⟩ <;>
        simp only <;> rw [hd, hs] at hk <;> first | rfl | (rw [hk]; split_ifs <;> rfl)

theorem gradient_dict (fill : Fill) (A : Grid) (pad : Bool) (kw : Option PadKwargs)
    (h : pad = false ∨ ∀ k ∈ kw, AllKeys k) : (gradient fill A pad kw).1 = kw := by
  have he : ∀ kw, (derivativeEasting fill A 1 (pad := pad) (pad_kwargs := kw)).1 = kw := fun _ => rfl
  have hn : ∀ kw, (derivativeNorthing fill A 1 (pad := pad) (pad_kwargs := kw)).1 = kw := fun _ => rfl
  have hu : (derivativeUpward fill A 1 pad kw).1 = kw := applyFilter_dict _ _ _ _ _ _ h
  unfold gradient
  cases gridSanityChecks A with
  | error e => rfl
  | ok u =>
    simp only [he, hn]
    cases (derivativeEasting fill A 1 (pad := pad) (pad_kwargs := kw)).2 with
    | error e => rfl
    | ok e =>
      simp only
      cases (derivativeNorthing fill A 1 (pad := pad) (pad_kwargs := kw)).2 with
      | error e => rfl
      | ok n =>
        simp only
        cases (derivativeUpward fill A 1 pad kw).2 with
        | error e => exact hu
        | ok u => exact hu

/-- C37, the part that holds: any sequence of transformations leaves the dictionary unchanged if the
calls do not pad, or there is no dictionary, or it has the keys `pad_width`, `mode` and
`constant_values`. -/
theorem C37_unchanged_partial (fill : Fill) (kw : Option PadKwargs)
    (calls : List (Transformation × Grid × Bool))
    (h : (∀ c ∈ calls, c.2.2 = false) ∨ ∀ k ∈ kw, AllKeys k) :
    dictionaryAfter fill kw calls = kw := by
  have one : ∀ (t : Transformation) A pad, (pad = false ∨ ∀ k ∈ kw, AllKeys k) →
      (t.call fill A pad kw).1 = kw := by
    intro t A pad h
    cases t with
    | derivativeEasting order method =>
      simp only [Transformation.call, derivativeEasting]
      split_ifs
      · rfl
      · exact applyFilter_dict _ _ _ _ _ _ h
      · rfl
    | derivativeNorthing order method =>
      simp only [Transformation.call, derivativeNorthing]
      split_ifs
      · rfl
      · exact applyFilter_dict _ _ _ _ _ _ h
      · rfl
    | totalGradientAmplitude => exact gradient_dict _ _ _ _ h
    | tiltAngle => exact gradient_dict _ _ _ _ h
    | _ => exact applyFilter_dict _ _ _ _ _ _ h
  induction calls with
  | nil => rfl
  | cons c rest ih =>
    obtain ⟨t, A, pad⟩ := c
    rw [dictionaryAfter, one t A pad (h.imp (fun h => h (t, A, pad) (by simp)) id)]
    exact ih (h.imp (fun h c hc => h c (by simp [hc])) id)

/-- C37 does not hold as stated: an empty dictionary, used with padding for any regular grid, holds
the pad width of that grid afterwards. So it is used for the next grid, however large that one is: the
second call equals one with the explicit width of a quarter of the first grid. -/
theorem C37_not_full (fill : Fill) {A : Grid} {G : Geo} {v : ℕ → ℕ → ℝ} (hA : IsGrid A G v)
    (order : ℕ) (B : Grid) :
    let kw := (derivativeUpward fill A order true (some {})).1
    kw ≠ some {} ∧
    (∃ k, kw = some k ∧
      k.pad_width = some [(G.d0, (G.n / 4, G.n / 4)), (G.d1, (G.m / 4, G.m / 4))]) ∧
    derivativeUpward fill B order true kw = derivativeUpward fill B order true (some
      { pad_width := some [(G.d0, (G.n / 4, G.n / 4)), (G.d1, (G.m / 4, G.m / 4))], mode := some "edge",
        constant_values := some none }) := by
  have h : (derivativeUpward fill A order true (some {})).1 = some
      { pad_width := some [(G.d0, (G.n / 4, G.n / 4)), (G.d1, (G.m / 4, G.m / 4))], mode := some "edge",
        constant_values := some none } := by
    unfold derivativeUpward applyFilter applyFilterDict
    rw [sanity_ok hA]
    simp only
    rw [hA.dims, hA.sizes]
    simp only
    split_ifs <;> rfl
  simp only [h]
  refine ⟨by simp, ⟨_, rfl, rfl⟩, trivial⟩

/-- C37: how a grid is padded when the dictionary of the caller is absent or empty: a quarter of its
own size on each side. -/
theorem C37_default_width {G : Geo} (hne : G.d0 ≠ G.d1) :
    effective G none = effective G (some {}) ∧
    width (effective G none) G.d0 = (G.n / 4, G.n / 4) ∧
    width (effective G none) G.d1 = (G.m / 4, G.m / 4) ∧ (effective G none).mode = some "edge" := by
  refine ⟨rfl, ?_, ?_, rfl⟩
  · simp [width, effective, setDefaults]
  · have : (G.d1 == G.d0) = false := by simpa using hne.symm
    simp [width, effective, setDefaults, List.lookup_cons, this]

/-! ### C39: rejected grids -/

/-- C39: every FFT based transformation rejects grids that are not two dimensional or have a NaN with
ValueError, whatever the other arguments, and leaves the dictionary as it was. -/
theorem C39_rejects (fill : Fill) (A : Grid) (pad : Bool) (kw : Option PadKwargs) (t : Transformation)
    (ht : t.UsesFFT)
    (h : A.dims.length ≠ 2 ∨ ∃ idx, InRange idx A.sizes ∧ A.data idx = none) :
    t.call fill A pad kw = (kw, .error .ValueError) := by
  have hs : gridSanityChecks A = .error .ValueError := by
    unfold gridSanityChecks
    by_cases h1 : A.dims.length ≠ 2
    · rw [if_pos h1]
    · rw [if_neg h1, if_pos (h.resolve_left h1)]
  have hf : ∀ K pad kw drop, applyFilter fill A K pad kw drop = (kw, .error .ValueError) := by
    intro K pad kw drop
    unfold applyFilter applyFilterDict
    rw [hs]
    cases kw <;> rfl
  have hg : gradient fill A pad kw = (kw, .error .ValueError) := by
    unfold gradient; rw [hs]
  cases t with
  | derivativeEasting order method =>
    simp only [Transformation.UsesFFT] at ht
    subst ht
    simp [Transformation.call, derivativeEasting, hf]
  | derivativeNorthing order method =>
    simp only [Transformation.UsesFFT] at ht
    subst ht
    simp [Transformation.call, derivativeNorthing, hf]
  | totalGradientAmplitude => simp only [Transformation.call, totalGradientAmplitude, hg]; rfl
  | tiltAngle => simp only [Transformation.call, tiltAngle, hg]; rfl
  | _ => exact hf _ _ _ _

/-- The arguments are ones that the transformation accepts: a wavelength that is not zero, angles of
the magnetization, a valid method. -/
def Transformation.ValidArguments : Transformation → Prop
  | .derivativeEasting _ method => method = "finite-diff" ∨ method = "fft"
  | .derivativeNorthing _ method => method = "finite-diff" ∨ method = "fft"
  | .gaussianLowpass w => w ≠ 0
  | .gaussianHighpass w => w ≠ 0
  | .reductionToPole _ _ mi md => mi ≠ none ∧ md ≠ none
  | _ => True

/-- C39: regular grids without NaN are accepted by every transformation with valid arguments. -/
theorem C39_accepts (fill : Fill) {A : Grid} {G : Geo} {v : ℕ → ℕ → ℝ} (hA : IsGrid A G v)
    (hA' : IsGridXY A G.d0 G.d1 G.n G.m G.northing G.easting v)
    (hG : G.Increasing) (pad : Bool) (kw : Option PadKwargs) (hkw : WidthsFor G kw) (t : Transformation)
    (ht : t.ValidArguments) : ∃ B, (t.call fill A pad kw).2 = .ok B := by
  have hf : ∀ K drop, ∃ B, (applyFilter fill A (.ok K) pad kw drop).2 = .ok B := by
    intro K drop
    rw [applyFilter_eq hA hG fill _ pad kw hkw]
    exact ⟨_, rfl⟩
  have hd : ∀ axis c order B, B.sizes = A.sizes → 2 ≤ A.sizes.getD axis 0 →
      ∃ B', differentiateTimes axis c order B = .ok B' := by
    intro axis c order
    induction order with
    | zero => intro B _ _; exact ⟨B, rfl⟩
    | succ k ih =>
      intro B hs h2
      obtain ⟨B', hB'⟩ := ih (gradGrid B axis c) hs h2
      exact ⟨B', by rw [differentiateTimes, differentiate_eq _ _ _ (by rw [hs]; exact h2), Py.bind_ok]; exact hB'⟩
  have he : ∀ order kw, ∃ B, (derivativeEasting fill A order (pad := pad) (pad_kwargs := kw)).2 = .ok B := by
    intro order kw
    simp only [derivativeEasting, if_true, getCoord_easting hA', Py.bind_ok]
    exact hd _ _ _ _ rfl (by rw [hA.sizes]; exact hG.m2)
  have hn : ∀ order kw, ∃ B, (derivativeNorthing fill A order (pad := pad) (pad_kwargs := kw)).2 = .ok B := by
    intro order kw
    simp only [derivativeNorthing, if_true, getCoord_northing hA', Py.bind_ok]
    exact hd _ _ _ _ rfl (by rw [hA.sizes]; exact hG.n2)
  have hg : ∃ g, (gradient fill A pad kw).2 = .ok g := by
    obtain ⟨E, hE⟩ := he 1 kw
    obtain ⟨N, hN⟩ := hn 1 kw
    obtain ⟨U, hU⟩ := hf (derivativeUpwardKernel 1) false
    refine ⟨(E, N, U), ?_⟩
    unfold gradient
    rw [sanity_ok hA]
    simp only [hE]
    rw [show (derivativeEasting fill A 1 (pad := pad) (pad_kwargs := kw)).1 = kw from rfl]
    simp only [hN]
    rw [show (derivativeNorthing fill A 1 (pad := pad) (pad_kwargs := kw)).1 = kw from rfl]
    simp only [derivativeUpward, hU]
  cases t with
  | derivativeEasting order method =>
    rcases ht with rfl | rfl
    · exact he _ _
    · simpa [Transformation.call, derivativeEasting] using hf _ _
  | derivativeNorthing order method =>
    rcases ht with rfl | rfl
    · exact hn _ _
    · simpa [Transformation.call, derivativeNorthing] using hf _ _
  | totalGradientAmplitude =>
    obtain ⟨g, hg⟩ := hg
    simp only [Transformation.call, totalGradientAmplitude, hg]
    exact ⟨_, rfl⟩
  | tiltAngle =>
    obtain ⟨g, hg⟩ := hg
    simp only [Transformation.call, tiltAngle, hg]
    exact ⟨_, rfl⟩
  | gaussianLowpass w =>
    have hw : w ≠ 0 := ht
    simp only [Transformation.call, gaussianLowpass, gaussianLowpassKernel, hw, if_false]
    exact hf _ _
  | gaussianHighpass w =>
    have hw : w ≠ 0 := ht
    simp only [Transformation.call, gaussianHighpass, gaussianHighpassKernel, hw, if_false]
    exact hf _ _
  | reductionToPole i d mi md =>
    obtain ⟨h1, h2⟩ := ht
    obtain ⟨mi, rfl⟩ := Option.ne_none_iff_exists'.1 h1
    obtain ⟨md, rfl⟩ := Option.ne_none_iff_exists'.1 h2
    exact hf _ _
  | _ => exact hf _ _

/-- C39: other derivative methods raise ValueError, for any grid. -/
theorem C39_method (fill : Fill) (A : Grid) (order : ℕ) (method : String) (pad : Bool)
    (kw : Option PadKwargs) (h : method ≠ "finite-diff") (h' : method ≠ "fft") :
    derivativeEasting fill A order method pad kw = (kw, .error .ValueError) ∧
    derivativeNorthing fill A order method pad kw = (kw, .error .ValueError) := by
  simp [derivativeEasting, derivativeNorthing, h, h']

/-! ### C38 -/

/-- The three derivatives that the transformations combine. -/
structure Derivatives (fill : Fill) (A : Grid) (pad : Bool) (kw : Option PadKwargs) (E N U : Grid) :
    Prop where
  east : (derivativeEasting fill A 1 "finite-diff" pad kw).2 = .ok E
  north : (derivativeNorthing fill A 1 "finite-diff" pad kw).2 = .ok N
  up : (derivativeUpward fill A 1 pad kw).2 = .ok U

theorem Derivatives.gradient {fill : Fill} {A : Grid} {pad : Bool} {kw : Option PadKwargs} {E N U : Grid}
    (h : Derivatives fill A pad kw E N U) : (gradient fill A pad kw).2 = .ok (E, N, U) := by
  have hs : gridSanityChecks A = .ok () := by
    have := h.up
    unfold derivativeUpward applyFilter at this
    have key : ∀ k, (applyFilterDict fill A (.ok (derivativeUpwardKernel 1)) pad k false).2 = .ok U →
        gridSanityChecks A = .ok () := by
      intro k hk
      unfold applyFilterDict at hk
      cases hs : gridSanityChecks A with
      | error e => rw [hs] at hk; cases hk
      | ok u => rfl
    cases kw with
    | none => exact key _ this
    | some k => exact key _ this
  unfold Filters.gradient
  rw [hs]
  simp only [h.east]
  rw [show (derivativeEasting fill A 1 (pad := pad) (pad_kwargs := kw)).1 = kw from rfl]
  simp only [h.north]
  rw [show (derivativeNorthing fill A 1 (pad := pad) (pad_kwargs := kw)).1 = kw from rfl]
  simp only [h.up]

/-- C38: at each node the total gradient amplitude is the Euclidean norm of the easting, northing and
upward derivatives, so it is not negative. -/
theorem C38_total_gradient {fill : Fill} {A : Grid} {pad : Bool} {kw : Option PadKwargs} {E N U : Grid}
    (h : Derivatives fill A pad kw E N U) :
    ∃ T, (totalGradientAmplitude fill A pad kw).2 = .ok T ∧ T.dims = A.dims ∧ T.sizes = A.sizes ∧
      T.coords = A.coords ∧
      ∀ idx e n u, E.data idx = some e → N.data idx = some n → U.data idx = some u →
        ∃ t, T.data idx = some t ∧ t ^ 2 = e ^ 2 + n ^ 2 + u ^ 2 ∧ 0 ≤ t := by
  have hE : E.dims = A.dims ∧ E.sizes = A.sizes ∧ E.coords = A.coords := by
    have := h.east
    simp only [derivativeEasting, if_true] at this
    cases hc : getDataarrayCoordinate A 1 with
    | error e => rw [hc] at this; cases this
    | ok c => rw [hc] at this; exact differentiateTimes_frame _ _ _ this
  simp only [totalGradientAmplitude, h.gradient]
  refine ⟨_, rfl, hE.1, hE.2.1, hE.2.2, ?_⟩
  intro idx e n u he hn hu
  refine ⟨Real.sqrt (e ^ 2 + n ^ 2 + u ^ 2), ?_, Real.sq_sqrt (by positivity), Real.sqrt_nonneg _⟩
  simp only [zip3, he, hn, hu, Option.bind_some, Option.map_some]

theorem arctan2_tilt (u h : ℝ) (hh : 0 ≤ h) :
    -(Real.pi / 2) ≤ arctan2 u h ∧ arctan2 u h ≤ Real.pi / 2 ∧
      (0 < h → Real.tan (arctan2 u h) = u / h) ∧ (h = 0 → 0 < u → arctan2 u h = Real.pi / 2) ∧
      (h = 0 → u < 0 → arctan2 u h = -(Real.pi / 2)) ∧ (h = 0 → u = 0 → arctan2 u h = 0) := by
  unfold arctan2
  have hb := abs_le.1 (Complex.abs_arg_le_pi_div_two_iff.2 (show 0 ≤ (⟨h, u⟩ : ℂ).re from hh))
  refine ⟨hb.1, hb.2, ?_, ?_, ?_, ?_⟩
  · intro _; rw [Complex.tan_arg]
  · rintro rfl hu; exact Complex.arg_eq_pi_div_two_iff.2 ⟨rfl, hu⟩
  · rintro rfl hu; exact Complex.arg_eq_neg_pi_div_two_iff.2 ⟨rfl, hu⟩
  · rintro rfl rfl; exact Complex.arg_zero

/-- C38: at each node the tilt is in [-π/2, π/2], its tangent is the upward derivative over the
horizontal derivative, and it is ±π/2 (or zero) where the horizontal derivative is zero. -/
theorem C38_tilt {fill : Fill} {A : Grid} {pad : Bool} {kw : Option PadKwargs} {E N U : Grid}
    (h : Derivatives fill A pad kw E N U) :
    ∃ T, (tiltAngle fill A pad kw).2 = .ok T ∧ T.dims = A.dims ∧ T.sizes = A.sizes ∧
      T.coords = A.coords ∧
      ∀ idx e n u, E.data idx = some e → N.data idx = some n → U.data idx = some u →
        ∃ t, T.data idx = some t ∧ -(Real.pi / 2) ≤ t ∧ t ≤ Real.pi / 2 ∧
          (¬ (e = 0 ∧ n = 0) → Real.tan t = u / Real.sqrt (e ^ 2 + n ^ 2)) ∧
          (e = 0 ∧ n = 0 → (0 < u → t = Real.pi / 2) ∧ (u < 0 → t = -(Real.pi / 2)) ∧ (u = 0 → t = 0)) := by
  have hE : E.dims = A.dims ∧ E.sizes = A.sizes ∧ E.coords = A.coords := by
    have := h.east
    simp only [derivativeEasting, if_true] at this
    cases hc : getDataarrayCoordinate A 1 with
    | error e => rw [hc] at this; cases this
    | ok c => rw [hc] at this; exact differentiateTimes_frame _ _ _ this
  simp only [tiltAngle, h.gradient]
  refine ⟨_, rfl, hE.1, hE.2.1, hE.2.2, ?_⟩
  intro idx e n u he hn hu
  obtain ⟨h1, h2, h3, h4, h5, h6⟩ := arctan2_tilt u (Real.sqrt (e ^ 2 + n ^ 2)) (Real.sqrt_nonneg _)
  refine ⟨arctan2 u (Real.sqrt (e ^ 2 + n ^ 2)), ?_, h1, h2, ?_, ?_⟩
  · simp only [zip3, he, hn, hu, Option.bind_some, Option.map_some]
  · intro hne
    apply h3
    apply Real.sqrt_pos.2
    rcases not_and_or.1 hne with h | h
    · have := sq_pos_of_ne_zero h; nlinarith [sq_nonneg n]
    · have := sq_pos_of_ne_zero h; nlinarith [sq_nonneg e]
  · rintro ⟨rfl, rfl⟩
    have : Real.sqrt ((0 : ℝ) ^ 2 + 0 ^ 2) = 0 := by norm_num
    exact ⟨h4 this, h5 this, h6 this⟩

theorem arctan2_scale {c : ℝ} (hc : 0 < c) (u h : ℝ) : arctan2 (c * u) (c * h) = arctan2 u h := by
  unfold arctan2
  have : (⟨c * h, c * u⟩ : ℂ) = (c : ℂ) * ⟨h, u⟩ := by
    apply Complex.ext <;> simp
  rw [this, Complex.arg_real_mul _ hc]

theorem arctan2_neg {u h : ℝ} (hh : 0 ≤ h) : arctan2 (-u) h = -arctan2 u h := by
  unfold arctan2
  have : (⟨h, -u⟩ : ℂ) = (starRingEnd ℂ) ⟨h, u⟩ := by
    apply Complex.ext <;> simp
  rw [this, Complex.arg_conj, if_neg]
  intro hpi
  have := (Complex.arg_eq_pi_iff.1 hpi).1
  simp at this
  linarith

/-- C38: for a grid multiplied by a number `c` the total gradient amplitude is multiplied by |c|; the
tilt stays the same if c > 0 and changes its sign if c < 0. (Padding that is linear in the values.) -/
theorem C38_scaling {fill : Fill} (hf : LinearFill fill) {A B : Grid} {G : Geo} {v : ℕ → ℕ → ℝ} (c : ℝ)
    (hA : IsGrid A G v) (hA' : IsGridXY A G.d0 G.d1 G.n G.m G.northing G.easting v)
    (hB : IsGrid B G fun i j => c * v i j)
    (hB' : IsGridXY B G.d0 G.d1 G.n G.m G.northing G.easting fun i j => c * v i j)
    (hG : G.Increasing) (pad : Bool) (kw : Option PadKwargs) (hkw : WidthsFor G kw) :
    ∃ TA TB RA RB, ∃ t r : ℕ → ℕ → ℝ, (totalGradientAmplitude fill A pad kw).2 = .ok TA ∧
      (totalGradientAmplitude fill B pad kw).2 = .ok TB ∧
      (tiltAngle fill A pad kw).2 = .ok RA ∧ (tiltAngle fill B pad kw).2 = .ok RB ∧
      ∀ i < G.n, ∀ j < G.m, TA.data [i, j] = some (t i j) ∧ TB.data [i, j] = some (|c| * t i j) ∧
        RA.data [i, j] = some (r i j) ∧
        (0 < c → RB.data [i, j] = some (r i j)) ∧ (c < 0 → RB.data [i, j] = some (-r i j)) := by
  have dist : ∀ (n : ℕ) (y0 d : ℝ), d ≠ 0 → Distinct n fun i : ℕ => y0 + i * d := by
    intro n y0 d hd i _ j _ h
    have := mul_right_cancel₀ hd (add_left_cancel h)
    exact_mod_cast this
  obtain ⟨⟨EA, E2, EB, e, e2, hEA, -, hEB, hea, -, heb⟩, ⟨NA, N2, NB, n, n2, hNA, -, hNB, hna, -, hnb⟩⟩ :=
    C74_linear fill hA' hA' (C := B) (a := c) (b := 0)
      (hB'.withData rfl rfl rfl (by intro i hi j hj; rw [hB.data i hi j hj]; simp)) hG.n2 hG.m2
      (dist _ _ _ hG.dy0) (dist _ _ _ hG.dx0) pad kw 1
  obtain ⟨UA, U2, UB, u, u2, hUA, -, hUB, hua, -, hub⟩ := C32_linear_partial hA hA (C := B) (a := c) (b := 0)
    ⟨hB.dims, hB.sizes, hB.northing, hB.easting, by intro i hi j hj; rw [hB.data i hi j hj]; simp⟩
    hG fill hf (derivativeUpwardKernel 1) pad kw hkw (FiniteOn.of (fun _ _ => ⟨_, rfl⟩) _ _ _) false
  have gA := Derivatives.gradient (⟨hEA, hNA, hUA⟩ : Derivatives fill A pad kw EA NA UA)
  have gB := Derivatives.gradient (⟨hEB, hNB, hUB⟩ : Derivatives fill B pad kw EB NB UB)
  simp only [totalGradientAmplitude, tiltAngle, gA, gB]
  refine ⟨_, _, _, _, fun i j => Real.sqrt (e i j ^ 2 + n i j ^ 2 + u i j ^ 2),
    fun i j => arctan2 (u i j) (Real.sqrt (e i j ^ 2 + n i j ^ 2)), rfl, rfl, rfl, rfl, ?_⟩
  intro i hi j hj
  have hh : Real.sqrt ((c * e i j) ^ 2 + (c * n i j) ^ 2) = |c| * Real.sqrt (e i j ^ 2 + n i j ^ 2) := by
    rw [show (c * e i j) ^ 2 + (c * n i j) ^ 2 = c ^ 2 * (e i j ^ 2 + n i j ^ 2) by ring,
      Real.sqrt_mul (sq_nonneg c), Real.sqrt_sq_eq_abs]
  have ht : Real.sqrt ((c * e i j) ^ 2 + (c * n i j) ^ 2 + (c * u i j) ^ 2) =
      |c| * Real.sqrt (e i j ^ 2 + n i j ^ 2 + u i j ^ 2) := by
    rw [show (c * e i j) ^ 2 + (c * n i j) ^ 2 + (c * u i j) ^ 2 = c ^ 2 * (e i j ^ 2 + n i j ^ 2 + u i j ^ 2)
      by ring, Real.sqrt_mul (sq_nonneg c), Real.sqrt_sq_eq_abs]
  have hs := Real.sqrt_nonneg (e i j ^ 2 + n i j ^ 2)
  simp only [zip3, hea.data i hi j hj, hna.data i hi j hj, hua.data i hi j hj, heb.data i hi j hj,
    hnb.data i hi j hj, hub.data i hi j hj, Option.bind_some, Option.map_some, zero_mul, add_zero, hh, ht,
    true_and]
  refine ⟨fun hc => ?_, fun hc => ?_⟩
  · rw [abs_of_pos hc, arctan2_scale hc]
  · rw [abs_of_neg hc, show c * u i j = -c * -u i j by ring, arctan2_scale (neg_pos.2 hc), arctan2_neg hs]

end Verif.Filters
