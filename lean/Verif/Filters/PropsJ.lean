import Verif.Filters.ModelB
import Verif.Filters.Examples
import Verif.Filters.PropsC

/-! C134: the order of the derivatives. -/

namespace Verif.Filters

theorem npPower_nat {K : Type} [DivisionRing K] (x : K) (n : ℕ) : npPower x n = some (x ^ n) := by
  unfold npPower
  rw [if_neg (by omega), zpow_natCast]

theorem upward_nat (n : ℕ) : derivativeUpwardKernelZ n = derivativeUpwardKernel n := by
  funext fe fn
  simp only [derivativeUpwardKernelZ, derivativeUpwardKernel, npPower_nat, Option.map_some]

theorem easting_nat (n : ℕ) : derivativeEastingKernelZ n = derivativeEastingKernel n := by
  funext fe fn
  simp only [derivativeEastingKernelZ, derivativeEastingKernel, npPower_nat]

theorem northing_nat (n : ℕ) : derivativeNorthingKernelZ n = derivativeNorthingKernel n := by
  funext fe fn
  simp only [derivativeNorthingKernelZ, derivativeNorthingKernel, npPower_nat]

/-- C134: natural orders are the ones of the other theorems about derivatives. -/
theorem C134_natural (fill : Fill) (A : Grid) (n : ℕ) (method : Method) (pad : Bool) (kw : Option PadKwargs) :
    derivativeUpwardZ fill A n pad kw = derivativeUpward fill A n pad kw ∧
    derivativeEastingZ fill A n method pad kw = derivativeEasting fill A n method pad kw ∧
    derivativeNorthingZ fill A n method pad kw = derivativeNorthing fill A n method pad kw := by
  refine ⟨?_, ?_, ?_⟩
  · simp only [derivativeUpwardZ, derivativeUpward, upward_nat]
  · simp only [derivativeEastingZ, derivativeEasting, easting_nat, Int.toNat_natCast]
  · simp only [derivativeNorthingZ, derivativeNorthing, northing_nat, Int.toNat_natCast]

/-- The three derivatives of order `order` with a method, that is one of "fft" and "finite-diff" for the horizontal
derivatives; the upward derivative is always computed with the FFT. -/
noncomputable def derivatives (fill : Fill) (A : Grid) (order : ℤ) (method : Method) (pad : Bool)
    (kw : Option PadKwargs) : List (Py Grid) :=
  (if method = "fft" then [(derivativeUpwardZ fill A order pad kw).2] else []) ++
    [(derivativeEastingZ fill A order method pad kw).2, (derivativeNorthingZ fill A order method pad kw).2]

theorem SameGrid.refl (A : Grid) : SameGrid A A := ⟨rfl, rfl, fun _ => rfl, fun _ _ => rfl⟩

/-- The coordinates along each dimension are the ones of the dimension: no other coordinate of the grid runs along one
dimension alone. -/
def OneCoordEach (A : Grid) : Prop := (∃ c, getDataarrayCoordinate A 0 = .ok c) ∧ ∃ c, getDataarrayCoordinate A 1 = .ok c

/-- C134: the derivatives of order zero return the grid. -/
theorem C134_zero {A : Grid} {G : Geo} {v : ℕ → ℕ → ℝ} (hA : IsGrid A G v) (hG : G.Increasing) (h1 : OneCoordEach A)
    (fill : Fill) (method : Method) (hm : method = "fft" ∨ method = "finite-diff") (pad : Bool)
    (kw : Option PadKwargs) (hkw : WidthsFor G kw) :
    ∀ r ∈ derivatives fill A 0 method pad kw, ∃ B, r = .ok B ∧ SameGrid A B := by
  obtain ⟨⟨c0, h0⟩, c1, h1⟩ := h1
  have id := C32_identity_partial hA hG fill pad kw hkw
  have k1 : derivativeUpwardKernelZ 0 = fun _ _ => some 1 := by
    funext fe fn
    simp [derivativeUpwardKernelZ, npPower]
  have k2 : derivativeEastingKernelZ 0 = fun _ _ => some 1 := by
    funext fe fn
    simp [derivativeEastingKernelZ, npPower]
  have k3 : derivativeNorthingKernelZ 0 = fun _ _ => some 1 := by
    funext fe fn
    simp [derivativeNorthingKernelZ, npPower]
  intro r hr
  rcases hm with rfl | rfl
  · simp only [derivatives, derivativeUpwardZ, derivativeEastingZ, derivativeNorthingZ, k1, k2, k3,
      show ¬ ("fft" = "finite-diff") by decide, reduceIte, List.cons_append, List.nil_append, List.mem_cons,
      List.not_mem_nil, or_false, or_self] at hr
    rw [hr]
    exact id
  · simp only [derivatives, derivativeEastingZ, derivativeNorthingZ, show ¬ ("finite-diff" = "fft") by decide, reduceIte,
      List.nil_append, List.mem_cons, List.not_mem_nil, or_false, h0, h1, Py.bind_ok, Int.toNat_zero,
      differentiateTimes, or_self] at hr
    exact ⟨A, hr, SameGrid.refl A⟩

/-- A filter that is not finite at zero frequency gives a grid of NaN, with any padding. -/
theorem filtered_none {A : Grid} {G : Geo} {v : ℕ → ℕ → ℝ} (hA : IsGrid A G v) (hG : G.Increasing) (fill : Fill)
    (K : Kernel) (h0 : K 0 0 = none) (pad : Bool) (kw : Option PadKwargs) (hkw : WidthsFor G kw) (drop : Bool) :
    ∃ B, (applyFilter fill A (.ok K) pad kw drop).2 = .ok B ∧ ∀ i < G.n, ∀ j < G.m, B.data [i, j] = none := by
  rw [applyFilter_eq hA hG fill _ pad kw hkw]
  refine ⟨_, rfl, ?_⟩
  intro i hi j hj
  show G.filtered fill K pad _ v i j = none
  unfold Geo.filtered out
  rw [if_neg]
  intro hf
  have hn := hG.n2
  have hm := hG.m2
  have hnn : G.n ≤ G.nn pad (effective G kw) := by
    unfold Geo.nn
    split_ifs <;> omega
  have hmm : G.m ≤ G.mm pad (effective G kw) := by
    unfold Geo.mm
    split_ifs <;> omega
  have := hf (G.nn pad (effective G kw) / 2) (by omega) (G.mm pad (effective G kw) / 2) (by omega)
  have e : ∀ (n : ℕ) (d : ℝ), freq n d (n / 2) = 0 := by
    intro n d
    simp [freq]
  rw [e, e, h0] at this
  cases this

/-- C134: with the FFT, derivatives of negative order are NaN at every node, for all grids and paddings. -/
theorem C134_negative_fft {A : Grid} {G : Geo} {v : ℕ → ℕ → ℝ} (hA : IsGrid A G v) (hG : G.Increasing)
    (fill : Fill) (order : ℤ) (ho : order < 0) (pad : Bool) (kw : Option PadKwargs) (hkw : WidthsFor G kw) :
    ∀ r ∈ derivatives fill A order "fft" pad kw, ∃ B, r = .ok B ∧ ∀ i < G.n, ∀ j < G.m, B.data [i, j] = none := by
  intro r hr
  simp only [derivatives, derivativeUpwardZ, derivativeEastingZ, derivativeNorthingZ,
    show ¬ ("fft" = "finite-diff") by decide, reduceIte, List.cons_append, List.nil_append, List.mem_cons,
    List.not_mem_nil, or_false] at hr
  rcases hr with rfl | rfl | rfl
  · exact filtered_none hA hG fill _ (by simp [derivativeUpwardKernelZ, npPower, ho]) pad kw hkw false
  · exact filtered_none hA hG fill _ (by simp [derivativeEastingKernelZ, npPower, ho]) pad kw hkw false
  · exact filtered_none hA hG fill _ (by simp [derivativeNorthingKernelZ, npPower, ho]) pad kw hkw false

/-- C134: with finite differences, derivatives of negative order return the grid itself. -/
theorem C134_negative_finite_diff {A : Grid} (h1 : OneCoordEach A) (fill : Fill) (order : ℤ) (ho : order < 0)
    (pad : Bool) (kw : Option PadKwargs) :
    ∀ r ∈ derivatives fill A order "finite-diff" pad kw, r = .ok A := by
  obtain ⟨⟨c0, h0⟩, c1, h1⟩ := h1
  intro r hr
  simp only [derivatives, derivativeEastingZ, derivativeNorthingZ, show ¬ ("finite-diff" = "fft") by decide, reduceIte,
    List.nil_append, List.mem_cons, List.not_mem_nil, or_false, h0, h1, Py.bind_ok, Int.toNat_of_nonpos ho.le,
    differentiateTimes, or_self] at hr
  exact hr

/-- C134 in full: no derivative of negative order returns a number, with either method. -/
def C134_full : Prop :=
  ∀ (A : Grid) (G : Geo) (v : ℕ → ℕ → ℝ), IsGrid A G v → G.Increasing → ∀ (fill : Fill) (order : ℤ), order < 0 →
    ∀ method pad kw, WidthsFor G kw → ∀ r ∈ derivatives fill A order method pad kw, ∀ B, r = .ok B →
      ∀ i < G.n, ∀ j < G.m, B.data [i, j] = none

theorem toy_coords (v : ℕ → ℕ → ℝ) : OneCoordEach (gridOf toyGeo v) := by
  constructor <;> exact ⟨_, rfl⟩

/-- C134 does not hold in full: with finite differences negative orders return the grid. -/
theorem C134_not_full : ¬ C134_full := by
  intro h
  have hA := gridOf_isGrid toyGeo toyGeo_increasing.ne (fun _ _ => 7)
  have := h _ _ _ hA toyGeo_increasing edgeFill (-1) (by norm_num) "finite-diff" true none (by intro k hk; cases hk)
    _ (List.mem_cons_self ..) _
    (C134_negative_finite_diff (toy_coords _) edgeFill (-1) (by norm_num) true none _ (List.mem_cons_self ..)) 0
    (by simp [toyGeo]) 0 (by simp [toyGeo])
  rw [hA.data 0 (by simp [toyGeo]) 0 (by simp [toyGeo])] at this
  cases this

/-- C134_zero on a grid of 5 by 8 nodes. -/
example (v : ℕ → ℕ → ℝ) : ∀ r ∈ derivatives edgeFill (gridOf toyGeo v) 0 "fft" true none,
    ∃ B, r = .ok B ∧ SameGrid (gridOf toyGeo v) B :=
  C134_zero (gridOf_isGrid toyGeo toyGeo_increasing.ne v) toyGeo_increasing (toy_coords v) edgeFill "fft" (Or.inl rfl) true
    none (by intro k hk; cases hk)

/-- C134_negative_fft on the same grid. -/
example (v : ℕ → ℕ → ℝ) : ∀ r ∈ derivatives edgeFill (gridOf toyGeo v) (-2) "fft" true none,
    ∃ B, r = .ok B ∧ ∀ i < 5, ∀ j < 8, B.data [i, j] = none :=
  C134_negative_fft (gridOf_isGrid toyGeo toyGeo_increasing.ne v) toyGeo_increasing edgeFill (-2) (by norm_num) true none
    (by intro k hk; cases hk)

end Verif.Filters
