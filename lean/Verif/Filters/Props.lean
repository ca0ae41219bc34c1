import Verif.Filters.Waves

/-!
Properties of the FFT filters: C32-C36.

`fill` are the values that `np.pad` writes outside of the grid. Unless stated otherwise a theorem
holds for all of them, for all pad widths, and for `pad=False`.
-/

namespace Verif.Filters
open Complex Finset Verif.Utils
open scoped ComplexConjugate

/-! ### C32 -/

/-- C32: whatever the grid, the filter and the padding, if `apply_filter` returns, then the result has
the names, sizes and dimensional coordinates of the grid, and the other coordinates unless they are
dropped. -/
theorem C32_geometry (fill : Fill) (A B : Grid) (K : Py Kernel) (pad : Bool) (kw : Option PadKwargs)
    (drop : Bool) (h : (applyFilter fill A K pad kw drop).2 = .ok B) :
    B.dims = A.dims ∧ B.sizes = A.sizes ∧ (∀ d ∈ A.dims, B.coord d = A.coord d) ∧
      ∀ name, name ∉ A.dims → B.coord name = if drop then none else A.coord name := by
  have key : ∀ k, (applyFilterDict fill A K pad k drop).2 = .ok B → ∃ d0 d1 val, A.dims = [d0, d1] ∧
      B = restoreCoords A d0 d1 drop val := by
    intro k h
    unfold applyFilterDict at h
    cases hs : gridSanityChecks A with
    | error e => rw [hs] at h; cases h
    | ok u =>
      rw [hs] at h
      simp only at h
      split at h
      · next d0 d1 n m hd hn =>
        by_cases hb : pad = true ∧ ∃ w ∈ (if pad = true then setDefaults k A.dims A.sizes else k).pad_width.getD [],
            w.1 ≠ d0 ∧ w.1 ≠ d1
        · rw [if_pos hb] at h; cases h
        · rw [if_neg hb] at h
          cases h1 : toArr2 A d0 d1 n m with
          | error e => rw [h1] at h; cases h
          | ok g =>
            rw [h1] at h
            simp only [Py.bind_ok] at h
            cases h2 : filteredValues fill K pad
                (if pad then setDefaults k A.dims A.sizes else k) d0 d1 g with
            | error e => rw [h2] at h; cases h
            | ok val =>
              rw [h2] at h
              simp only [Py.bind_ok, Py.pure_eq, Except.ok.injEq] at h
              exact ⟨d0, d1, val, hd, h.symm⟩
      · cases h
  have : ∃ d0 d1 val, A.dims = [d0, d1] ∧ B = restoreCoords A d0 d1 drop val := by
    unfold applyFilter at h
    cases kw with
    | none => exact key _ h
    | some k => exact key _ h
  obtain ⟨d0, d1, val, hd, rfl⟩ := this
  let G : Geo := ⟨d0, d1, 0, 0, 0, 0, 0, 0⟩
  have hr : ∀ drop val, restoreCoords A d0 d1 drop val = resultGrid A G drop val := fun _ _ => rfl
  refine ⟨rfl, rfl, ?_, ?_⟩
  · intro d hmem
    rw [hr]
    rw [hd] at hmem
    cases drop
    · rw [resultGrid_coord]
    · rw [resultGrid_coord_drop, if_pos]
      simp only [List.mem_cons, List.not_mem_nil, or_false] at hmem
      exact hmem.symm
  · intro name hmem
    rw [hr]
    rw [hd] at hmem
    simp only [List.mem_cons, List.not_mem_nil, or_false, not_or] at hmem
    cases drop
    · rw [resultGrid_coord]; rfl
    · rw [resultGrid_coord_drop, if_neg (by rintro (h | h); exacts [hmem.2 h, hmem.1 h])]; rfl

/-- The values of a grid after a filter with finite values. -/
theorem applyFilter_values {A : Grid} {G : Geo} {v : ℕ → ℕ → ℝ} (hA : IsGrid A G v) (hG : G.Increasing)
    (fill : Fill) (K : Kernel) (pad : Bool) (kw : Option PadKwargs) (hkw : WidthsFor G kw) (drop : Bool)
    (w : ℕ → ℕ → ℝ) (hw : ∀ i < G.n, ∀ j < G.m, G.filtered fill K pad (effective G kw) v i j = some (w i j)) :
    ∃ B, (applyFilter fill A (.ok K) pad kw drop).2 = .ok B ∧ IsGrid B G w ∧
      (drop = false → ∀ name, B.coord name = A.coord name) :=
  ⟨_, applyFilter_eq hA hG fill (.ok K) pad kw hkw drop, resultGrid_isGrid hA drop _ w hw, by
    rintro rfl name; exact resultGrid_coord A G _ name⟩

theorem inRange2 {idx : List ℕ} {n m : ℕ} (h : InRange idx [n, m]) :
    ∃ i j, idx = [i, j] ∧ i < n ∧ j < m := by
  match idx, h with
  | [i, j], h =>
    simp only [InRange] at h
    exact ⟨i, j, rfl, h.1, h.2.1⟩
  | [], h => exact absurd h (by simp [InRange])
  | [_], h => exact absurd h (by simp [InRange])
  | _ :: _ :: _ :: _, h => exact absurd h (by simp [InRange])

/-- Two grids with the same geometry, values and coordinates. -/
theorem IsGrid.same {A B : Grid} {G : Geo} {v w : ℕ → ℕ → ℝ} (hA : IsGrid A G v) (hB : IsGrid B G w)
    (h : ∀ i < G.n, ∀ j < G.m, w i j = v i j) (hc : ∀ name, B.coord name = A.coord name) :
    SameGrid A B := by
  refine ⟨by rw [hA.dims, hB.dims], by rw [hA.sizes, hB.sizes], hc, ?_⟩
  intro idx hidx
  rw [hA.sizes] at hidx
  obtain ⟨i, j, rfl, hi, hj⟩ := inRange2 hidx
  rw [hA.data i hi j hj, hB.data i hi j hj, h i hi j hj]

/-- C32: a unit filter returns the grid unchanged, with any padding. (The coordinates increase; see
`C32_decreasing` for the others.) -/
theorem C32_identity_partial {A : Grid} {G : Geo} {v : ℕ → ℕ → ℝ} (hA : IsGrid A G v)
    (hG : G.Increasing) (fill : Fill) (pad : Bool) (kw : Option PadKwargs) (hkw : WidthsFor G kw) :
    ∃ B, (applyFilter fill A (.ok fun _ _ => some 1) pad kw).2 = .ok B ∧ SameGrid A B := by
  obtain ⟨B, h1, h2, h3⟩ := applyFilter_values hA hG fill (fun _ _ => some 1) pad kw hkw false v (by
    intro i hi j hj
    unfold Geo.filtered
    rw [out_unit (fun _ _ => rfl) _ (G.nn_le _ _ hi) (G.mm_le _ _ hj), G.vv_inside _ _ _ _ hi hj])
  exact ⟨B, h1, hA.same h2 (fun _ _ _ _ => rfl) (h3 rfl)⟩

theorem vv_linear {G : Geo} {fill : Fill} (hf : LinearFill fill) (pad : Bool) (kw : PadKwargs)
    (u v w : ℕ → ℕ → ℝ) (a b : ℝ) (h : ∀ i < G.n, ∀ j < G.m, u i j = a * v i j + b * w i j) (i j : ℕ) :
    G.vv fill pad kw u i j = a * G.vv fill pad kw v i j + b * G.vv fill pad kw w i j := by
  have ht : trunc G.n G.m u = fun i j => a * trunc G.n G.m v i j + b * trunc G.n G.m w i j := by
    funext i j
    unfold trunc
    by_cases hh : i < G.n ∧ j < G.m
    · simp [hh, h i hh.1 j hh.2]
    · simp [hh]
  unfold Geo.vv
  cases pad
  · simp only [Bool.false_eq_true, if_false]
    rw [ht]
  · simp only [if_true, Geo.paddedValues, padded, regular]
    rw [ht]
    split_ifs
    · rfl
    · exact hf _ _ _ _ _ _ _ _ _ _ _ _ _ _

/-- The filter is finite at the frequencies of the (padded) grid. -/
def FiniteOn (G : Geo) (pad : Bool) (kw : Option PadKwargs) (K : Kernel) : Prop :=
  KFinite (G.nn pad (effective G kw)) (G.mm pad (effective G kw)) G.dy G.dx K

theorem FiniteOn.of {K : Kernel} (h : ∀ fe fn, ∃ z, K fe fn = some z) (G : Geo) (pad : Bool)
    (kw : Option PadKwargs) : FiniteOn G pad kw K := kfinite_of h _ _ _ _

/-- C32: filters are linear in the values of the grid, for paddings that are linear. -/
theorem C32_linear_partial {A B C : Grid} {G : Geo} {v w : ℕ → ℕ → ℝ} {a b : ℝ} (hA : IsGrid A G v)
    (hB : IsGrid B G w) (hC : IsGrid C G fun i j => a * v i j + b * w i j) (hG : G.Increasing)
    (fill : Fill) (hf : LinearFill fill) (K : Kernel) (pad : Bool) (kw : Option PadKwargs)
    (hkw : WidthsFor G kw) (hK : FiniteOn G pad kw K) (drop : Bool) :
    ∃ A' B' C' v' w', (applyFilter fill A (.ok K) pad kw drop).2 = .ok A' ∧
      (applyFilter fill B (.ok K) pad kw drop).2 = .ok B' ∧
      (applyFilter fill C (.ok K) pad kw drop).2 = .ok C' ∧
      IsGrid A' G v' ∧ IsGrid B' G w' ∧ IsGrid C' G fun i j => a * v' i j + b * w' i j := by
  have hs : ∀ u i j, G.filtered fill K pad (effective G kw) u i j =
      some ((G.filtered fill K pad (effective G kw) u i j).getD 0) := by
    intro u i j
    unfold Geo.filtered
    rw [out_finite hK]; rfl
  obtain ⟨A', hA1, hA2, -⟩ := applyFilter_values hA hG fill K pad kw hkw drop _ fun i _ j _ => hs v i j
  obtain ⟨B', hB1, hB2, -⟩ := applyFilter_values hB hG fill K pad kw hkw drop _ fun i _ j _ => hs w i j
  obtain ⟨C', hC1, hC2, -⟩ := applyFilter_values hC hG fill K pad kw hkw drop
    (fun i j => a * (G.filtered fill K pad (effective G kw) v i j).getD 0 +
      b * (G.filtered fill K pad (effective G kw) w i j).getD 0) (by
    intro i hi j hj
    rw [hs]
    congr 1
    exact out_linear hK _ _ _ a b (fun i j => vv_linear hf pad _ _ v w a b (fun _ _ _ _ => rfl) i j) _ _)
  exact ⟨A', B', C', _, _, hA1, hB1, hC1, hA2, hB2, hC2⟩

/-- C32: with padding, the result only depends on the padded grid: it is the part of the original grid
of the filtered padded grid. (`P` is a grid with the values and coordinates that `xrft.pad`
returns.) A dimension that is not in the widths is not padded. -/
theorem C32_padded {A P : Grid} {G : Geo} {v : ℕ → ℕ → ℝ} (hA : IsGrid A G v) (hG : G.Increasing)
    (fill : Fill) (K : Kernel) (k : PadKwargs) (widths : List (String × (ℕ × ℕ)))
    (wy wx : ℕ × ℕ) (mode : String) (c : Option ℝ) (hw : k.pad_width = some widths)
    (hdims : ∀ w ∈ widths, w.1 = G.d0 ∨ w.1 = G.d1) (hwy : wy = (widths.lookup G.d0).getD (0, 0))
    (hwx : wx = (widths.lookup G.d1).getD (0, 0)) (hm : k.mode = some mode)
    (hc : k.constant_values = some c) (g : Arr2)
    (hg : xrftPad fill mode c wy wx ⟨G.n, G.m, (List.range G.n).map G.northing,
      (List.range G.m).map G.easting, fun i j => if i < G.n ∧ j < G.m then v i j else 0⟩ = .ok g)
    (hP : IsGrid P ⟨G.d0, G.d1, wy.1 + G.n + wy.2, wx.1 + G.m + wx.2, G.northing 0 - wy.1 * G.dy,
      G.dy, G.easting 0 - wx.1 * G.dx, G.dx⟩ g.val) (drop : Bool) :
    ∃ A' P', (applyFilter fill A (.ok K) true (some k) drop).2 = .ok A' ∧
      (applyFilter fill P (.ok K) false none drop).2 = .ok P' ∧
      ∀ i < G.n, ∀ j < G.m, A'.data [i, j] = P'.data [i + wy.1, j + wx.1] := by
  have hkw : WidthsFor G (some k) := by
    intro k' hk' w hw'
    cases hk'
    rw [hw] at hw'
    exact hdims w hw'
  have hG' : Geo.Increasing ⟨G.d0, G.d1, wy.1 + G.n + wy.2, wx.1 + G.m + wx.2,
      G.northing 0 - wy.1 * G.dy, G.dy, G.easting 0 - wx.1 * G.dx, G.dx⟩ :=
    ⟨⟨hG.ne, by have := hG.n2; simp; omega, by have := hG.m2; simp; omega, hG.dy0, hG.dx0⟩, hG.dy, hG.dx⟩
  refine ⟨_, _, applyFilter_eq hA hG fill (.ok K) true (some k) hkw drop,
    applyFilter_eq hP hG' fill (.ok K) false none (by intro k hk; cases hk) drop, ?_⟩
  intro i hi j hj
  have he : effective G (some k) = k := by
    unfold effective setDefaults
    rcases k with ⟨a, b, c'⟩
    simp only at hw hm hc
    subst hw hm hc
    rfl
  rw [he]
  have hwy : width k G.d0 = wy := by unfold width; rw [hw]; exact hwy.symm
  have hwx : width k G.d1 = wx := by unfold width; rw [hw]; exact hwx.symm
  have hval : g.val = G.vv fill true k v := by
    have h0 := xrftPad_regular (y0 := G.y0) (x0 := G.x0) hG.n2 hG.m2 hG.dy0 hG.dx0 (trunc G.n G.m v) fill mode c wy wx
    have : (⟨G.n, G.m, (List.range G.n).map G.northing, (List.range G.m).map G.easting,
        fun i j => if i < G.n ∧ j < G.m then v i j else 0⟩ : Arr2) =
        regular G.n G.m G.y0 G.dy G.x0 G.dx (trunc G.n G.m v) := rfl
    rw [this, h0] at hg
    cases hg
    unfold Geo.vv Geo.paddedValues
    rw [hwy, hwx, hm, hc]; rfl
  show G.filtered fill K true k v i j = Geo.filtered _ fill K false _ g.val _ _
  unfold Geo.filtered
  rw [hval]
  simp only [Geo.nn, Geo.mm, Geo.oy, Geo.ox, hwy, hwx, if_true, Bool.false_eq_true, if_false, add_zero]
  have hdft : ∀ (n m : ℕ) (dy dx : ℝ) (K : Kernel) (v w : ℕ → ℕ → ℝ) (i j : ℕ),
      (∀ i < n, ∀ j < m, v i j = w i j) → out n m dy dx K v i j = out n m dy dx K w i j := by
    intro n m dy dx K v w i j h
    unfold out
    split_ifs
    · congr 2
      apply idft_congr
      intro p _ q _
      congr 1
      apply dft_congr
      intro i hi j hj; rw [h i hi j hj]
    · rfl
  apply hdft
  intro i hi j hj
  simp only [Geo.vv, Bool.false_eq_true, if_false, trunc, if_true]
  rw [if_pos ⟨hi, hj⟩]

/-- C32 and decreasing coordinates: a unit filter returns the rows in reverse order (the coordinates are
not reversed, see `C32_geometry`). This rests on the model of xrft, which is not in /repo: `xrft.fft`
flips decreasing coordinates and `xrft.ifft` returns increasing ones. -/
theorem C32_decreasing {A : Grid} {G : Geo} {v : ℕ → ℕ → ℝ} (hA : IsGrid A G v) (hG : G.Valid)
    (hdy : G.dy < 0) (hdx : 0 < G.dx) (fill : Fill) :
    ∃ B, (applyFilter fill A (.ok fun _ _ => some 1) (pad := false)).2 = .ok B ∧
      (∀ name, B.coord name = A.coord name) ∧
      ∀ i < G.n, ∀ j < G.m, B.data [i, j] = some (v (G.n - 1 - i) j) := by
  have hn := hG.n2
  have hm := hG.m2
  have hn0 : 0 < G.n := by omega
  -- the transform is the one of the flipped grid
  have hfft : fft (regular G.n G.m G.y0 G.dy G.x0 G.dx (trunc G.n G.m v)) =
      fft (regular G.n G.m (G.y0 + ((G.n : ℝ) - 1) * G.dy) (-G.dy) G.x0 G.dx
        (fun i j => trunc G.n G.m v (G.n - 1 - i) j)) := by
    unfold fft regular
    simp only [spacing_coordList hn hG.dy0, spacing_coordList hm hG.dx0,
      spacing_coordList hn (neg_ne_zero.2 hG.dy0), Py.bind_ok, Py.pure_eq, Except.ok.injEq, abs_neg,
      Spectrum.mk.injEq, true_and, firstCoord_neg hn0 hdy, firstCoord_pos hn0 (neg_pos.2 hdy)]
    funext p q
    congr 1
    rw [← sum_range_reflect]
    refine sum_congr rfl fun i hi => sum_congr rfl fun j hj => ?_
    have hi' := mem_range.1 hi
    rw [coordList_getD (by omega), coordList_getD hi']
    congr 6
    rw [Nat.cast_sub (by omega), Nat.cast_sub (by omega)]
    push_cast; ring
  obtain ⟨s, h1, h2⟩ := filter_regular (y0 := G.y0 + ((G.n : ℝ) - 1) * G.dy) (x0 := G.x0) hn hm
    (neg_pos.2 hdy) hdx (fun i j => trunc G.n G.m v (G.n - 1 - i) j)
  refine ⟨resultGrid A G false (filterSpectrum (fun _ _ => some 1) s), ?_, resultGrid_coord A G _, ?_⟩
  · unfold applyFilter applyFilterDict
    rw [sanity_ok hA]
    simp only
    rw [hA.dims, hA.sizes]
    simp only [Bool.false_eq_true, false_and, if_false, toArr2_ok hA, Py.bind_ok, filteredValues, hfft, h1,
      Py.pure_eq]
    rfl
  · intro i hi j hj
    show filterSpectrum (fun _ _ => some 1) s i j = some (v (G.n - 1 - i) j)
    rw [h2, out_unit (fun _ _ => rfl) _ hi hj]
    unfold trunc
    rw [if_pos ⟨by omega, hj⟩]

/-! ### C33 -/

theorem upward_finite (h : ℝ) : ∀ fe fn, ∃ z, upwardContinuationKernel h fe fn = some z :=
  fun _ _ => ⟨_, rfl⟩

theorem upward_hermitian (h : ℝ) (n m : ℕ) (dy dx : ℝ) :
    Hermitian n m dy dx (upwardContinuationKernel h) :=
  hermitian_of_even (fun _ _ => ⟨_, rfl⟩) (by intros; simp [upwardContinuationKernel])
    (by intros; simp [upwardContinuationKernel]) n m dy dx

/-- The filtered values as numbers. -/
theorem filtered_some {G : Geo} {fill : Fill} {K : Kernel} {pad : Bool} {kw : Option PadKwargs}
    (hK : FiniteOn G pad kw K) (v : ℕ → ℕ → ℝ) (i j : ℕ) :
    G.filtered fill K pad (effective G kw) v i j =
      some ((G.filtered fill K pad (effective G kw) v i j).getD 0) := by
  unfold Geo.filtered
  rw [out_finite hK]; rfl

theorem filtered_nopad {G : Geo} {fill : Fill} {K : Kernel} {kw : PadKwargs} (v : ℕ → ℕ → ℝ) (i j : ℕ) :
    G.filtered fill K false kw v i j = out G.n G.m G.dy G.dx K (trunc G.n G.m v) i j := rfl

theorem out_trunc {n m : ℕ} {dy dx : ℝ} {K : Kernel} {v : ℕ → ℕ → ℝ} {i j : ℕ} :
    out n m dy dx K (trunc n m v) i j = out n m dy dx K v i j := by
  unfold out
  split_ifs
  · congr 2
    apply idft_congr
    intro p _ q _
    congr 1
    apply dft_congr
    intro i hi j hj
    simp [trunc, hi, hj]
  · rfl

/-- C33: continuing by `h1` and then by `h2` is continuing by `h1 + h2` (without padding). -/
theorem C33_compose {A : Grid} {G : Geo} {v : ℕ → ℕ → ℝ} (hA : IsGrid A G v) (hG : G.Increasing)
    (fill : Fill) (h1 h2 : ℝ) :
    ∃ B C D, (upwardContinuation fill A h1 (pad := false)).2 = .ok B ∧
      (upwardContinuation fill B h2 (pad := false)).2 = .ok C ∧
      (upwardContinuation fill A (h1 + h2) (pad := false)).2 = .ok D ∧ SameGrid D C := by
  have hnone : WidthsFor G none := by intro k hk; cases hk
  have hfin : ∀ h, FiniteOn G false none (upwardContinuationKernel h) :=
    fun h => FiniteOn.of (upward_finite h) G false none
  obtain ⟨B, hB1, hB2, -⟩ := applyFilter_values hA hG fill _ false none hnone true _
    fun i _ j _ => filtered_some (fill := fill) (hfin h1) v i j
  obtain ⟨C, hC1, hC2, -⟩ := applyFilter_values hB2 hG fill _ false none hnone true _
    fun i _ j _ => filtered_some (fill := fill) (hfin h2) _ i j
  obtain ⟨D, hD1, hD2, -⟩ := applyFilter_values hA hG fill _ false none hnone true _
    fun i _ j _ => filtered_some (fill := fill) (hfin (h1 + h2)) v i j
  refine ⟨B, C, D, hB1, hC1, hD1, hD2.same hC2 ?_ ?_⟩
  · intro i hi j hj
    simp only [filtered_nopad, out_trunc]
    rw [out_out (K := upwardContinuationKernel h1) (kfinite_of (upward_finite h1) _ _ _ _)
      (upward_hermitian h1 _ _ _ _) (kfinite_of (upward_finite h2) _ _ _ _) v _ (by
        intro i hi j hj
        rw [out_finite (kfinite_of (upward_finite h1) _ _ _ _)]; rfl),
      out_finite (kfinite_of (upward_finite (h1 + h2)) _ _ _ _)]
    simp only [Option.getD_some]
    congr 2
    funext p q
    congr 1
    simp only [kval, upwardContinuationKernel, Option.getD_some]
    rw [← ofReal_mul, ← Real.exp_add]
    congr 2; ring
  · intro name
    obtain ⟨-, -, gB, gB'⟩ := C32_geometry _ _ _ _ _ _ _ hB1
    obtain ⟨-, -, gC, gC'⟩ := C32_geometry _ _ _ _ _ _ _ hC1
    obtain ⟨-, -, gD, gD'⟩ := C32_geometry _ _ _ _ _ _ _ hD1
    rw [hA.dims] at gB gB' gD gD'
    rw [hB2.dims] at gC gC'
    by_cases hm : name ∈ [G.d0, G.d1]
    · rw [gC name hm, gB name hm, gD name hm]
    · rw [gC' name hm, gD' name hm]; rfl

/-- C33: height zero returns the values unchanged, with any padding. -/
theorem C33_zero {A : Grid} {G : Geo} {v : ℕ → ℕ → ℝ} (hA : IsGrid A G v) (hG : G.Increasing)
    (fill : Fill) (pad : Bool) (kw : Option PadKwargs) (hkw : WidthsFor G kw) :
    ∃ B, (upwardContinuation fill A 0 pad kw).2 = .ok B ∧ IsGrid B G v := by
  obtain ⟨B, h1, h2, -⟩ := applyFilter_values hA hG fill (upwardContinuationKernel 0) pad kw hkw true v (by
    intro i hi j hj
    unfold Geo.filtered
    rw [out_unit (by intros; simp [upwardContinuationKernel]) _ (G.nn_le _ _ hi) (G.mm_le _ _ hj),
      G.vv_inside _ _ _ _ hi hj])
  exact ⟨B, h1, h2⟩

/-- The sum of the filtered values: the value of the kernel at zero times the sum of the values. -/
theorem sum_out {n m : ℕ} (hn : 0 < n) (hm : 0 < m) {dy dx : ℝ} {K : Kernel} (hK : KFinite n m dy dx K)
    (v : ℕ → ℕ → ℝ) (r : ℝ) (hr : K 0 0 = some (r : ℂ)) :
    ∑ i ∈ range n, ∑ j ∈ range m, (out n m dy dx K v i j).getD 0 =
      r * ∑ i ∈ range n, ∑ j ∈ range m, v i j := by
  have hw : ∀ (n : ℕ) (_ : 0 < n) i, wave n (n / 2) i = 1 := by intro n hn i; simp [wave]
  have hf : ∀ (n : ℕ) (d : ℝ), freq n d (n / 2) = 0 := by intro n d; simp [freq]
  have key := dft_idft (n := n) (m := m)
    (fun p q => dft n m (fun i j => (v i j : ℂ)) p q * kval n m dy dx K p q)
    (show n / 2 < n by omega) (show m / 2 < m by omega)
  have e : ∀ u : ℕ → ℕ → ℂ, dft n m u (n / 2) (m / 2) = ∑ i ∈ range n, ∑ j ∈ range m, u i j := by
    intro u; simp [dft, hw n hn, hw m hm]
  rw [e, e] at key
  have := congrArg Complex.re key
  simp only [Complex.re_sum] at this
  simp only [out_finite hK, Option.getD_some]
  rw [this]
  simp only [kval, hf, hr, Option.getD_some]
  simp only [← Complex.ofReal_sum]
  rw [← ofReal_mul, ofReal_re]; ring

/-- C33: the mean of the grid is preserved (without padding). -/
theorem C33_mean {A : Grid} {G : Geo} {v : ℕ → ℕ → ℝ} (hA : IsGrid A G v) (hG : G.Increasing)
    (fill : Fill) (h : ℝ) :
    ∃ B w, (upwardContinuation fill A h (pad := false)).2 = .ok B ∧ IsGrid B G w ∧
      ∑ i ∈ range G.n, ∑ j ∈ range G.m, w i j = ∑ i ∈ range G.n, ∑ j ∈ range G.m, v i j := by
  have hnone : WidthsFor G none := by intro k hk; cases hk
  obtain ⟨B, hB1, hB2, -⟩ := applyFilter_values hA hG fill _ false none hnone true _
    fun i _ j _ => filtered_some (fill := fill) (FiniteOn.of (upward_finite h) G false none) v i j
  refine ⟨B, _, hB1, hB2, ?_⟩
  simp only [filtered_nopad, out_trunc]
  have := hG.n2
  have := hG.m2
  rw [sum_out (by omega) (by omega) (kfinite_of (upward_finite h) _ _ _ _) v 1
    (by simp [upwardContinuationKernel])]
  ring

/-- Energy after a filter that amplifies no frequency. -/
theorem energy_out {n m : ℕ} (hn : 0 < n) (hm : 0 < m) {dy dx : ℝ} {K : Kernel} (hK : KFinite n m dy dx K)
    (hle : ∀ fe fn z, K fe fn = some z → ‖z‖ ≤ 1) (v : ℕ → ℕ → ℝ) :
    ∑ i ∈ range n, ∑ j ∈ range m, ((out n m dy dx K v i j).getD 0) ^ 2 ≤
      ∑ i ∈ range n, ∑ j ∈ range m, v i j ^ 2 := by
  have h1 : ∀ z : ℂ, z.re ^ 2 ≤ normSq z := by
    intro z; rw [normSq_apply]; nlinarith [mul_self_nonneg z.im]
  have h2 := parseval (n := n) (m := m)
    (fun p q => dft n m (fun i j => (v i j : ℂ)) p q * kval n m dy dx K p q) hn hm
  have h3 := parseval (n := n) (m := m) (dft n m (fun i j => (v i j : ℂ))) hn hm
  have h4 : ∑ i ∈ range n, ∑ j ∈ range m, normSq (idft n m (dft n m fun i j => (v i j : ℂ)) i j) =
      ∑ i ∈ range n, ∑ j ∈ range m, v i j ^ 2 := by
    refine sum_congr rfl fun i hi => sum_congr rfl fun j hj => ?_
    rw [idft_dft _ (mem_range.1 hi) (mem_range.1 hj), normSq_ofReal]; ring
  rw [h4] at h3
  rw [h3]
  refine le_trans (sum_le_sum fun i _ => sum_le_sum fun j _ => ?_) (h2.le.trans ?_)
  · rw [out_finite hK]; exact h1 _
  · apply mul_le_mul_of_nonneg_left _ (by positivity)
    refine sum_le_sum fun p hp => sum_le_sum fun q hq => ?_
    rw [normSq_mul]
    have : normSq (kval n m dy dx K p q) ≤ 1 := by
      have h5 := hK p (mem_range.1 hp) q (mem_range.1 hq)
      obtain ⟨z, hz⟩ := Option.isSome_iff_exists.1 h5
      unfold kval
      rw [hz, Option.getD_some, normSq_eq_norm_sq]
      have := hle _ _ z hz
      nlinarith [norm_nonneg z]
    nlinarith [normSq_nonneg (dft n m (fun i j => (v i j : ℂ)) p q)]

/-- C33: upward continuation does not increase the energy of the grid (without padding), and multiplies
each wavenumber by a number in (0, 1]. -/
theorem C33_no_amplification {A : Grid} {G : Geo} {v : ℕ → ℕ → ℝ} (hA : IsGrid A G v) (hG : G.Increasing)
    (fill : Fill) (h : ℝ) (hh : 0 ≤ h) :
    (∃ B w, (upwardContinuation fill A h (pad := false)).2 = .ok B ∧ IsGrid B G w ∧
      ∑ i ∈ range G.n, ∑ j ∈ range G.m, w i j ^ 2 ≤ ∑ i ∈ range G.n, ∑ j ∈ range G.m, v i j ^ 2) ∧
    ∀ fe fn, ∃ r : ℝ, upwardContinuationKernel h fe fn = some (r : ℂ) ∧ 0 < r ∧ r ≤ 1 := by
  have hk : ∀ fe fn, ∃ r : ℝ, upwardContinuationKernel h fe fn = some (r : ℂ) ∧ 0 < r ∧ r ≤ 1 := by
    intro fe fn
    refine ⟨_, rfl, Real.exp_pos _, Real.exp_le_one_iff.2 ?_⟩
    have := Real.sqrt_nonneg ((2 * Real.pi * fe) ^ 2 + (2 * Real.pi * fn) ^ 2)
    nlinarith
  refine ⟨?_, hk⟩
  have hnone : WidthsFor G none := by intro k hk; cases hk
  obtain ⟨B, hB1, hB2, -⟩ := applyFilter_values hA hG fill _ false none hnone true _
    fun i _ j _ => filtered_some (fill := fill) (FiniteOn.of (upward_finite h) G false none) v i j
  refine ⟨B, _, hB1, hB2, ?_⟩
  simp only [filtered_nopad, out_trunc]
  have := hG.n2
  have := hG.m2
  apply energy_out (by omega) (by omega) (kfinite_of (upward_finite h) _ _ _ _)
  intro fe fn z hz
  obtain ⟨r, h1, h2, h3⟩ := hk fe fn
  rw [h1] at hz
  cases hz
  rw [Complex.norm_real, Real.norm_eq_abs, abs_of_pos h2]
  exact h3

end Verif.Filters
