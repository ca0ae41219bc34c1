import Verif.Filters.Examples

/-!
C127: the grid transformations have no preferred direction. They commute with swapping the axes of the grid
and with mirroring it.
-/

namespace Verif.Filters
open Complex Finset Verif.Utils
open scoped ComplexConjugate

/-! ### specification -/

/-- The geometry of the grid with northing and easting swapped. -/
def Geo.swapped (G : Geo) : Geo := ⟨G.d1, G.d0, G.m, G.n, G.x0, G.dx, G.y0, G.dy⟩

/-- The geometry of the grid seen in a mirror: `easting` becomes `-easting` (in increasing order). -/
noncomputable def Geo.mirrored (G : Geo) : Geo := { G with x0 := -(G.x0 + (G.m - 1) * G.dx) }

/-- The same for northing. -/
noncomputable def Geo.mirroredNorth (G : Geo) : Geo := { G with y0 := -(G.y0 + (G.n - 1) * G.dy) }

/-- Two regular grids, without other coordinates along a single dimension: `A` with the values `v`, and
`B` with geometry `G'` and the values `v'`. -/
structure Pair (A B : Grid) (G G' : Geo) (v v' : ℕ → ℕ → ℝ) : Prop where
  increasing : G.Increasing
  fst : IsGrid A G v
  fst' : IsGridXY A G.d0 G.d1 G.n G.m G.northing G.easting v
  snd : IsGrid B G' v'
  snd' : IsGridXY B G'.d0 G'.d1 G'.n G'.m G'.northing G'.easting v'

/-- The second grid is the transpose of the first one. -/
abbrev SwappedGrids (A B : Grid) (G : Geo) (v : ℕ → ℕ → ℝ) : Prop :=
  Pair A B G G.swapped v fun i j => v j i

/-- The second grid has at `-easting` the value of the first at `easting`. -/
abbrev MirroredGrids (A B : Grid) (G : Geo) (v : ℕ → ℕ → ℝ) : Prop :=
  Pair A B G G.mirrored v fun i j => v i (G.m - 1 - j)

/-- The second grid has at `-northing` the value of the first at `northing`. -/
abbrev MirroredNorthGrids (A B : Grid) (G : Geo) (v : ℕ → ℕ → ℝ) : Prop :=
  Pair A B G G.mirroredNorth v fun i j => v (G.n - 1 - i) j

/-- The same transformation for swapped axes: the horizontal derivatives are exchanged and the declinations
are measured from the other axis. -/
noncomputable def Transformation.swapped : Transformation → Transformation
  | .derivativeEasting order method => .derivativeNorthing order method
  | .derivativeNorthing order method => .derivativeEasting order method
  | .reductionToPole i d mi md => .reductionToPole i (90 - d) mi (md.map (90 - ·))
  | t => t

/-- The same transformation in the mirror: declinations change sign. -/
noncomputable def Transformation.mirrored : Transformation → Transformation
  | .reductionToPole i d mi md => .reductionToPole i (-d) mi (md.map (-·))
  | t => t

/-- The same for northing. -/
noncomputable def Transformation.mirroredNorth : Transformation → Transformation
  | .reductionToPole i d mi md => .reductionToPole i (180 - d) mi (md.map (180 - ·))
  | t => t

/-- Odd derivatives along the mirrored direction change sign. -/
noncomputable def Transformation.mirrorSign : Transformation → ℝ
  | .derivativeEasting order _ => (-1) ^ order
  | _ => 1

/-- The same for northing. -/
noncomputable def Transformation.mirrorNorthSign : Transformation → ℝ
  | .derivativeNorthing order _ => (-1) ^ order
  | _ => 1

/-- Two calls with corresponding outcomes: the same exception, or grids of sizes `(n, m)` and `(n', m')`
where the value of the second at each `(i, j)` (NaN included) is `f` times the one of the first at
`r i j`. -/
def Corresponding (n m n' m' : ℕ) (r : ℕ → ℕ → List ℕ) (f : ℝ) : Py Grid → Py Grid → Prop
  | .ok A, .ok B => A.sizes = [n, m] ∧ B.sizes = [n', m'] ∧
      ∀ i < n', ∀ j < m', B.data [i, j] = (A.data (r i j)).map (f * ·)
  | .error e, .error e' => e = e'
  | _, _ => False

/-- The values that `np.pad` writes do not depend on the coordinates, and padding the transpose gives the
transpose (true of every mode but median). -/
def SwapFill (fill : Fill) : Prop :=
  ∀ mode c wy wx (n m : ℕ) (y x y' x' : List ℝ) (v v' : ℕ → ℕ → ℝ), 0 < n → 0 < m →
    (∀ i < n, ∀ j < m, v' j i = v i j) → ∀ i < wy.1 + n + wy.2, ∀ j < wx.1 + m + wx.2,
      fill mode c wx wy ⟨m, n, y', x', v'⟩ j i = fill mode c wy wx ⟨n, m, y, x, v⟩ i j

/-- The values that `np.pad` writes do not depend on the coordinates, and padding the mirror image by the
same width at both ends gives the mirror image (true of every mode). -/
def MirrorFill (fill : Fill) : Prop :=
  ∀ mode c wy (w n m : ℕ) (y x y' x' : List ℝ) (v v' : ℕ → ℕ → ℝ), 0 < n → 0 < m →
    (∀ i < n, ∀ j < m, v' i j = v i (m - 1 - j)) → ∀ i < wy.1 + n + wy.2, ∀ j < w + m + w,
      fill mode c wy (w, w) ⟨n, m, y', x', v'⟩ i j = fill mode c wy (w, w) ⟨n, m, y, x, v⟩ i (w + m + w - 1 - j)

/-- The widths in the dictionary of the caller, if any, are the same at both ends of each dimension. -/
def SymmetricWidths (kw : Option PadKwargs) : Prop :=
  ∀ k ∈ kw, ∀ w ∈ k.pad_width.getD [], w.2.1 = w.2.2

/-! ### swapping the axes -/

theorem dft_swap (n m : ℕ) (v v' : ℕ → ℕ → ℂ) (h : ∀ i < n, ∀ j < m, v' j i = v i j) (p q : ℕ) :
    dft m n v' q p = dft n m v p q := by
  unfold dft
  rw [sum_comm]
  refine sum_congr rfl fun i hi => sum_congr rfl fun j hj => ?_
  rw [h i (mem_range.1 hi) j (mem_range.1 hj)]
  ring

theorem idft_swap (n m : ℕ) (v v' : ℕ → ℕ → ℂ) (h : ∀ i < n, ∀ j < m, v' j i = v i j) (p q : ℕ) :
    idft m n v' q p = idft n m v p q := by
  unfold idft
  rw [sum_comm, mul_comm (m : ℂ)]
  congr 1
  refine sum_congr rfl fun i hi => sum_congr rfl fun j hj => ?_
  rw [h i (mem_range.1 hi) j (mem_range.1 hj)]
  ring

theorem out_swap {n m : ℕ} {dy dx : ℝ} {K K' : Kernel} (hK : ∀ fe fn, K' fn fe = K fe fn)
    (v v' : ℕ → ℕ → ℝ) (h : ∀ i < n, ∀ j < m, v' j i = v i j) (i j : ℕ) :
    out m n dx dy K' v' j i = out n m dy dx K v i j := by
  unfold out
  have hf : KFinite m n dx dy K' ↔ KFinite n m dy dx K := by
    unfold KFinite
    simp only [hK]
    exact ⟨fun h p hp q hq => h q hq p hp, fun h p hp q hq => h q hq p hp⟩
  by_cases hk : KFinite n m dy dx K
  · rw [if_pos hk, if_pos (hf.2 hk)]
    congr 2
    apply idft_swap
    intro p _ q _
    rw [dft_swap n m (fun i j => (v i j : ℂ)) _ (fun i hi j hj => by rw [h i hi j hj])]
    unfold kval
    rw [hK]
  · rw [if_neg hk, if_neg (fun h => hk (hf.1 h))]

theorem width_swapped {G : Geo} (hne : G.d0 ≠ G.d1) (kw : Option PadKwargs) :
    width (effective G.swapped kw) G.d0 = width (effective G kw) G.d0 ∧
    width (effective G.swapped kw) G.d1 = width (effective G kw) G.d1 := by
  have h : (G.d0 == G.d1) = false := by simpa using hne
  have h' : (G.d1 == G.d0) = false := by simpa using hne.symm
  unfold width effective
  rw [setDefaults_pad_width, setDefaults_pad_width]
  simp only [Geo.swapped]
  cases (kw.getD {}).pad_width <;> simp [List.lookup_cons, h, h']

theorem mode_effective (G G' : Geo) (kw : Option PadKwargs) :
    (effective G' kw).mode = (effective G kw).mode ∧
    (effective G' kw).constant_values = (effective G kw).constant_values := by
  unfold effective setDefaults
  rcases kw.getD {} with ⟨a, b, c⟩
  cases a <;> cases b <;> cases c <;> exact ⟨rfl, rfl⟩

theorem filtered_swap {G : Geo} (hG : G.Increasing) {fill : Fill} (hf : SwapFill fill) {K K' : Kernel}
    (hK : ∀ fe fn, K' fn fe = K fe fn) (pad : Bool) (kw : Option PadKwargs) (v : ℕ → ℕ → ℝ) (i j : ℕ) :
    G.swapped.filtered fill K' pad (effective G.swapped kw) (fun i j => v j i) j i =
      G.filtered fill K pad (effective G kw) v i j := by
  obtain ⟨w0, w1⟩ := width_swapped hG.ne kw
  obtain ⟨hm, hc⟩ := mode_effective G G.swapped kw
  have ht : ∀ i j, trunc G.m G.n (fun i j => v j i) j i = trunc G.n G.m v i j := by
    intro i j; unfold trunc; simp only [and_comm]
  unfold Geo.filtered
  cases pad
  · exact out_swap hK _ _ (fun i _ j _ => ht i j) _ _
  · have e1 : G.swapped.nn true (effective G.swapped kw) = G.mm true (effective G kw) := by
      simp only [Geo.nn, Geo.mm, Geo.swapped, if_true]
      rw [← w1]; rfl
    have e2 : G.swapped.mm true (effective G.swapped kw) = G.nn true (effective G kw) := by
      simp only [Geo.nn, Geo.mm, Geo.swapped, if_true]
      rw [← w0]; rfl
    have e3 : G.swapped.oy true (effective G.swapped kw) = G.ox true (effective G kw) := by
      simp only [Geo.oy, Geo.ox, Geo.swapped, if_true]
      rw [← w1]; rfl
    have e4 : G.swapped.ox true (effective G.swapped kw) = G.oy true (effective G kw) := by
      simp only [Geo.oy, Geo.ox, Geo.swapped, if_true]
      rw [← w0]; rfl
    rw [e1, e2, e3, e4]
    refine out_swap hK _ _ ?_ _ _
    intro i hi j hj
    have hn := hG.n2
    have hm2 := hG.m2
    simp only [Geo.vv, if_true, Geo.paddedValues]
    show padded fill _ _ (width (effective G.swapped kw) G.d1) (width (effective G.swapped kw) G.d0) _ _ _ = _
    rw [w0, w1, hm, hc]
    simp only [Geo.nn, Geo.mm, if_true] at hi hj
    unfold padded
    simp only [regular, Geo.swapped, ht]
    rw [hf _ _ (width (effective G kw) G.d0) (width (effective G kw) G.d1) G.n G.m
      (coordList G.n G.y0 G.dy) (coordList G.m G.x0 G.dx) _ _ (trunc G.n G.m v)
      (trunc G.m G.n fun i j => v j i) (by omega) (by omega) (fun i _ j _ => ht i j) i hi j hj]
    congr 1
    apply propext
    tauto

theorem WidthsFor.swapped {G : Geo} {kw : Option PadKwargs} (h : WidthsFor G kw) : WidthsFor G.swapped kw :=
  fun k hk w hw => (h k hk w hw).symm

theorem Geo.Increasing.swapped {G : Geo} (h : G.Increasing) : G.swapped.Increasing :=
  ⟨⟨h.ne.symm, h.m2, h.n2, h.dx0, h.dy0⟩, h.dx, h.dy⟩

theorem filter_swap {A B : Grid} {G : Geo} {v : ℕ → ℕ → ℝ} (h : SwappedGrids A B G v)
    {fill : Fill} (hf : SwapFill fill) {K K' : Kernel} (hK : ∀ fe fn, K' fn fe = K fe fn)
    (pad : Bool) (kw : Option PadKwargs) (hkw : WidthsFor G kw) (drop : Bool) :
    Corresponding G.n G.m G.m G.n (fun i j => [j, i]) 1 (applyFilter fill A (.ok K) pad kw drop).2
      (applyFilter fill B (.ok K') pad kw drop).2 := by
  rw [applyFilter_eq h.fst h.increasing fill _ pad kw hkw,
    applyFilter_eq h.snd h.increasing.swapped fill _ pad kw hkw.swapped]
  refine ⟨h.fst.sizes, h.snd.sizes, ?_⟩
  intro j _ i _
  show G.swapped.filtered fill K' pad (effective G.swapped kw) _ j i =
    (G.filtered fill K pad (effective G kw) v i j).map _
  rw [filtered_swap h.increasing hf hK]
  simp

theorem error_swap {A B : Grid} {G : Geo} {v : ℕ → ℕ → ℝ} (h : SwappedGrids A B G v)
    (fill : Fill) (e : PyErr) (pad : Bool) (kw : Option PadKwargs) (hkw : WidthsFor G kw) (drop : Bool) :
    Corresponding G.n G.m G.m G.n (fun i j => [j, i]) 1 (applyFilter fill A (.error e) pad kw drop).2
      (applyFilter fill B (.error e) pad kw drop).2 := by
  rw [applyFilter_eq h.fst h.increasing fill _ pad kw hkw,
    applyFilter_eq h.snd h.increasing.swapped fill _ pad kw hkw.swapped]
  rfl

theorem npGradient_congr {n : ℕ} (hn : 2 ≤ n) {x : List ℝ} {u u' : ℕ → Option ℝ}
    (hu : ∀ k < n, u' k = u k) {i : ℕ} (hi : i < n) : npGradient u' x n i = npGradient u x n i := by
  have := npGradient_scale hn (x := x) (x' := x) (c := 1) (t := 0) (f := 1) one_ne_zero
    (fun k _ => by ring) (u := u) (u' := u') (fun k hk => by rw [hu k hk]; simp) hi
  simpa using this

theorem times_swap {n m : ℕ} (axis : ℕ) (x : Coord)
    (hax : (axis = 0 ∧ 2 ≤ n) ∨ (axis = 1 ∧ 2 ≤ m)) :
    ∀ (k : ℕ) (A B : Grid), A.sizes = [n, m] → B.sizes = [m, n] →
      (∀ i < m, ∀ j < n, B.data [i, j] = A.data [j, i]) →
      ∃ A' B', differentiateTimes axis x k A = .ok A' ∧ differentiateTimes (1 - axis) x k B = .ok B' ∧
        A'.sizes = [n, m] ∧ B'.sizes = [m, n] ∧ ∀ i < m, ∀ j < n, B'.data [i, j] = A'.data [j, i] := by
  intro k
  induction k with
  | zero =>
    intro A B hA hB hd
    exact ⟨A, B, rfl, rfl, hA, hB, hd⟩
  | succ k ih =>
    intro A B hA hB hd
    have hdA := differentiate_eq A axis x (by
      rw [hA]; rcases hax with ⟨rfl, h2⟩ | ⟨rfl, h2⟩ <;> simpa using h2)
    have hdB := differentiate_eq B (1 - axis) x (by
      rw [hB]; rcases hax with ⟨rfl, h2⟩ | ⟨rfl, h2⟩ <;> simpa using h2)
    obtain ⟨A', B', h1, h2, h3, h4, h5⟩ := ih (gradGrid A axis x) (gradGrid B (1 - axis) x) hA hB (by
        intro i hi j hj
        simp only [gradGrid, hA, hB]
        rcases hax with ⟨rfl, h2⟩ | ⟨rfl, h2⟩
        · exact npGradient_congr h2 (fun k hk => hd i hi k hk) hj
        · exact npGradient_congr h2 (fun k hk => hd k hk j hj) hi)
    refine ⟨A', B', ?_, ?_, h3, h4, h5⟩
    · simp only [differentiateTimes, hdA, Py.bind_ok]; exact h1
    · simp only [differentiateTimes, hdB, Py.bind_ok]; exact h2

theorem east_swap {A B : Grid} {G : Geo} {v : ℕ → ℕ → ℝ} (h : SwappedGrids A B G v)
    (fill : Fill) (order : ℕ) (pad : Bool) (kw : Option PadKwargs) :
    Corresponding G.n G.m G.m G.n (fun i j => [j, i]) 1
      (derivativeEasting fill A order "finite-diff" pad kw).2
      (derivativeNorthing fill B order "finite-diff" pad kw).2 := by
  obtain ⟨A', B', h1, h2, h3, h4, h5⟩ := times_swap (n := G.n) (m := G.m) 1
    ⟨[G.d1], (List.range G.m).map G.easting⟩ (.inr ⟨rfl, h.increasing.m2⟩) order A B h.fst.sizes h.snd.sizes (by
        intro i hi j hj
        rw [h.fst.data j hj i hi, h.snd.data i hi j hj])
  simp only [derivativeEasting, derivativeNorthing, if_true, getCoord_easting h.fst', getCoord_northing h.snd',
    Py.bind_ok, h1]
  have h2' : differentiateTimes 0 ⟨[G.swapped.d0], (List.range G.swapped.n).map G.swapped.northing⟩ order B =
    .ok B' := h2
  rw [h2']
  exact ⟨h3, h4, fun i hi j hj => by rw [h5 i hi j hj]; simp⟩

theorem north_swap {A B : Grid} {G : Geo} {v : ℕ → ℕ → ℝ} (h : SwappedGrids A B G v)
    (fill : Fill) (order : ℕ) (pad : Bool) (kw : Option PadKwargs) :
    Corresponding G.n G.m G.m G.n (fun i j => [j, i]) 1
      (derivativeNorthing fill A order "finite-diff" pad kw).2
      (derivativeEasting fill B order "finite-diff" pad kw).2 := by
  obtain ⟨A', B', h1, h2, h3, h4, h5⟩ := times_swap (n := G.n) (m := G.m) 0
    ⟨[G.d0], (List.range G.n).map G.northing⟩ (.inl ⟨rfl, h.increasing.n2⟩) order A B h.fst.sizes h.snd.sizes (by
        intro i hi j hj
        rw [h.fst.data j hj i hi, h.snd.data i hi j hj])
  simp only [derivativeEasting, derivativeNorthing, if_true, getCoord_northing h.fst', getCoord_easting h.snd',
    Py.bind_ok, h1]
  have h2' : differentiateTimes 1 ⟨[G.swapped.d1], (List.range G.swapped.m).map G.swapped.easting⟩ order B =
    .ok B' := h2
  rw [h2']
  exact ⟨h3, h4, fun i hi j hj => by rw [h5 i hi j hj]; simp⟩

theorem Corresponding.ok {n m n' m' : ℕ} {r : ℕ → ℕ → List ℕ} {f : ℝ} {A B : Py Grid}
    (h : Corresponding n m n' m' r f A B) {a : Grid} (ha : A = .ok a) : ∃ b, B = .ok b ∧ a.sizes = [n, m] ∧
      b.sizes = [n', m'] ∧ ∀ i < n', ∀ j < m', b.data [i, j] = (a.data (r i j)).map (f * ·) := by
  subst ha
  cases B with
  | error e => exact h.elim
  | ok b => exact ⟨b, rfl, h⟩

/-- The gradients of a pair of grids. -/
theorem gradient_pair {A B : Grid} {G G' : Geo} {v v' : ℕ → ℕ → ℝ} (h : Pair A B G G' v v') {fill : Fill}
    {pad : Bool} {kw : Option PadKwargs} (hkw : WidthsFor G kw) {n' m' : ℕ} {r : ℕ → ℕ → List ℕ}
    {fe fn fu : ℝ} {s : Bool}
    (he : Corresponding G.n G.m n' m' r fe (derivativeEasting fill A 1 "finite-diff" pad kw).2
      (if s then (derivativeNorthing fill B 1 "finite-diff" pad kw).2
        else (derivativeEasting fill B 1 "finite-diff" pad kw).2))
    (hn : Corresponding G.n G.m n' m' r fn (derivativeNorthing fill A 1 "finite-diff" pad kw).2
      (if s then (derivativeEasting fill B 1 "finite-diff" pad kw).2
        else (derivativeNorthing fill B 1 "finite-diff" pad kw).2))
    (hu : Corresponding G.n G.m n' m' r fu (derivativeUpward fill A 1 pad kw).2
      (derivativeUpward fill B 1 pad kw).2) :
    ∃ E N U E' N' U', (gradient fill A pad kw).2 = .ok (E, N, U) ∧
      (gradient fill B pad kw).2 = .ok (E', N', U') ∧ E.sizes = [G.n, G.m] ∧ E'.sizes = [n', m'] ∧
      ∀ i < n', ∀ j < m',
        (if s then N' else E').data [i, j] = (E.data (r i j)).map (fe * ·) ∧
        (if s then E' else N').data [i, j] = (N.data (r i j)).map (fn * ·) ∧
        U'.data [i, j] = (U.data (r i j)).map (fu * ·) := by
  obtain ⟨E, hE0⟩ := C39_accepts fill h.fst h.fst' h.increasing pad kw hkw
    (.derivativeEasting 1 "finite-diff") (.inl rfl)
  obtain ⟨N, hN0⟩ := C39_accepts fill h.fst h.fst' h.increasing pad kw hkw
    (.derivativeNorthing 1 "finite-diff") (.inl rfl)
  obtain ⟨U, hU0⟩ := C39_accepts fill h.fst h.fst' h.increasing pad kw hkw (.derivativeUpward 1) trivial
  obtain ⟨E', hE1, hE2, hE3, hE4⟩ := he.ok hE0
  obtain ⟨N', hN1, -, hN3, hN4⟩ := hn.ok hN0
  obtain ⟨U', hU1, -, -, hU4⟩ := hu.ok hU0
  cases s
  · exact ⟨E, N, U, E', N', U', Derivatives.gradient ⟨hE0, hN0, hU0⟩, Derivatives.gradient ⟨hE1, hN1, hU1⟩,
      hE2, hE3, fun i hi j hj => ⟨hE4 i hi j hj, hN4 i hi j hj, hU4 i hi j hj⟩⟩
  · exact ⟨E, N, U, N', E', U', Derivatives.gradient ⟨hE0, hN0, hU0⟩, Derivatives.gradient ⟨hN1, hE1, hU1⟩,
      hE2, hN3, fun i hi j hj => ⟨hE4 i hi j hj, hN4 i hi j hj, hU4 i hi j hj⟩⟩

/-- The total gradient amplitude and the tilt angle of a pair of grids. -/
theorem combined_pair {A B : Grid} {G G' : Geo} {v v' : ℕ → ℕ → ℝ} (h : Pair A B G G' v v') {fill : Fill}
    {pad : Bool} {kw : Option PadKwargs} (hkw : WidthsFor G kw) {n' m' : ℕ} {r : ℕ → ℕ → List ℕ}
    {fe fn : ℝ} (hfe : fe ^ 2 = 1) (hfn : fn ^ 2 = 1) {s : Bool}
    (he : Corresponding G.n G.m n' m' r fe (derivativeEasting fill A 1 "finite-diff" pad kw).2
      (if s then (derivativeNorthing fill B 1 "finite-diff" pad kw).2
        else (derivativeEasting fill B 1 "finite-diff" pad kw).2))
    (hn : Corresponding G.n G.m n' m' r fn (derivativeNorthing fill A 1 "finite-diff" pad kw).2
      (if s then (derivativeEasting fill B 1 "finite-diff" pad kw).2
        else (derivativeNorthing fill B 1 "finite-diff" pad kw).2))
    (hu : Corresponding G.n G.m n' m' r 1 (derivativeUpward fill A 1 pad kw).2
      (derivativeUpward fill B 1 pad kw).2) :
    Corresponding G.n G.m n' m' r 1 (totalGradientAmplitude fill A pad kw).2
        (totalGradientAmplitude fill B pad kw).2 ∧
      Corresponding G.n G.m n' m' r 1 (tiltAngle fill A pad kw).2 (tiltAngle fill B pad kw).2 := by
  obtain ⟨E, N, U, E', N', U', g1, g2, s1, s2, hd⟩ := gradient_pair h hkw he hn hu
  simp only [totalGradientAmplitude, tiltAngle, g1, g2, Except.map]
  refine ⟨⟨s1, s2, ?_⟩, ⟨s1, s2, ?_⟩⟩ <;>
  · intro i hi j hj
    obtain ⟨e1, e2, e3⟩ := hd i hi j hj
    cases s
    · simp only [Bool.false_eq_true, if_false] at e1 e2
      simp only [zip3, e1, e2, e3]
      rcases E.data (r i j) with _ | e
      · rfl
      rcases N.data (r i j) with _ | n
      · rfl
      rcases U.data (r i j) with _ | u
      · rfl
      simp [mul_pow, hfe, hfn]
    · simp only [if_true] at e1 e2
      simp only [zip3, e1, e2, e3]
      rcases E.data (r i j) with _ | e
      · rcases N.data (r i j) <;> rfl
      rcases N.data (r i j) with _ | n
      · rfl
      rcases U.data (r i j) with _ | u
      · rfl
      simp [mul_pow, hfe, hfn, add_comm (n ^ 2)]

/-- Kernels of the reduction to the pole with different declinations at different frequencies. -/
theorem rtp_related (i d d' mi md md' : ℝ) (φ : ℝ → ℝ → ℝ × ℝ)
    (h0 : ∀ fe fn, ((φ fe fn).1 = 0 ∧ (φ fe fn).2 = 0) ↔ (fe = 0 ∧ fn = 0))
    (h1 : ∀ fe fn, theta i d' (φ fe fn).1 (φ fe fn).2 = theta i d fe fn)
    (h2 : ∀ fe fn, theta mi md' (φ fe fn).1 (φ fe fn).2 = theta mi md fe fn) : ∃ K K',
    reductionToPoleKernel (some i) (some d) (some mi) (some md) = .ok K ∧
    reductionToPoleKernel (some i) (some d') (some mi) (some md') = .ok K' ∧
    ∀ fe fn, K' (φ fe fn).1 (φ fe fn).2 = K fe fn := by
  obtain ⟨K, hK, hz, hk⟩ := C36_kernel_partial i d mi md
  obtain ⟨K', hK', hz', hk'⟩ := C36_kernel_partial i d' mi md'
  refine ⟨K, K', hK, hK', ?_⟩
  intro fe fn
  by_cases hf : fe = 0 ∧ fn = 0
  · obtain ⟨e1, e2⟩ := (h0 fe fn).2 hf
    rw [e1, e2, hf.1, hf.2, hz, hz']
  · obtain ⟨a, b⟩ := hk fe fn hf
    obtain ⟨a', b'⟩ := hk' _ _ (fun h => hf ((h0 fe fn).1 h))
    rw [h1, h2] at a' b'
    by_cases ht : theta mi md fe fn * theta i d fe fn = 0
    · rw [b ht, b' ht]
    · rw [a ht, a' ht]

theorem theta_swap (i d fe fn : ℝ) : theta i (90 - d) fn fe = theta i d fe fn := by
  have hs : Real.sin ((90 - d) * Real.pi / 180) = Real.cos (d * Real.pi / 180) := by
    rw [← Real.sin_pi_div_two_sub]; congr 1; ring
  have hc : Real.cos ((90 - d) * Real.pi / 180) = Real.sin (d * Real.pi / 180) := by
    rw [← Real.cos_pi_div_two_sub]; congr 1; ring
  unfold theta
  rw [hs, hc, add_comm (fn ^ 2), add_comm (_ * fn)]

/-- C127: swapping the axes of the grid (and the easting and northing derivatives, and measuring the
declinations from the other axis) swaps the axes of the result, for every transformation, every padding and
all arguments, including the ones that raise. -/
theorem C127_swap {A B : Grid} {G : Geo} {v : ℕ → ℕ → ℝ} (h : SwappedGrids A B G v)
    {fill : Fill} (hf : SwapFill fill) (pad : Bool) (kw : Option PadKwargs) (hkw : WidthsFor G kw)
    (t : Transformation) :
    Corresponding G.n G.m G.m G.n (fun i j => [j, i]) 1 (t.call fill A pad kw).2
      (t.swapped.call fill B pad kw).2 := by
  have hsq : ∀ a b : ℝ, a ^ 2 + b ^ 2 = b ^ 2 + a ^ 2 := fun a b => add_comm _ _
  have hu : ∀ order, Corresponding G.n G.m G.m G.n (fun i j => [j, i]) 1
      (derivativeUpward fill A order pad kw).2 (derivativeUpward fill B order pad kw).2 := by
    intro order
    refine filter_swap h hf ?_ pad kw hkw false
    intro fe fn
    simp only [derivativeUpwardKernel]
    rw [hsq]
  have hg := combined_pair (s := true) h hkw (fe := 1) (fn := 1) (by norm_num) (by norm_num)
    (east_swap h fill 1 pad kw) (north_swap h fill 1 pad kw) (hu 1)
  cases t with
  | derivativeUpward order => exact hu order
  | derivativeEasting order method =>
    by_cases h1 : method = "finite-diff"
    · subst h1; exact east_swap h fill order pad kw
    by_cases h2 : method = "fft"
    · subst h2
      have := filter_swap h hf (K := derivativeEastingKernel order) (K' := derivativeNorthingKernel order)
        (fun _ _ => rfl) pad kw hkw false
      simpa [Transformation.call, Transformation.swapped, derivativeEasting, derivativeNorthing] using this
    · simp [Transformation.call, Transformation.swapped, derivativeEasting, derivativeNorthing, h1, h2,
        Corresponding]
  | derivativeNorthing order method =>
    by_cases h1 : method = "finite-diff"
    · subst h1; exact north_swap h fill order pad kw
    by_cases h2 : method = "fft"
    · subst h2
      have := filter_swap h hf (K := derivativeNorthingKernel order) (K' := derivativeEastingKernel order)
        (fun _ _ => rfl) pad kw hkw false
      simpa [Transformation.call, Transformation.swapped, derivativeEasting, derivativeNorthing] using this
    · simp [Transformation.call, Transformation.swapped, derivativeEasting, derivativeNorthing, h1, h2,
        Corresponding]
  | upwardContinuation height =>
    refine filter_swap h hf ?_ pad kw hkw true
    intro fe fn
    simp only [upwardContinuationKernel]
    rw [hsq]
  | gaussianLowpass w =>
    simp only [Transformation.call, Transformation.swapped, gaussianLowpass, gaussianLowpassKernel]
    by_cases hw : w = 0
    · rw [if_pos hw]; exact error_swap h fill _ pad kw hkw _
    · rw [if_neg hw]
      refine filter_swap h hf ?_ pad kw hkw false
      intro fe fn
      simp only [hsq (2 * Real.pi * fn)]
  | gaussianHighpass w =>
    simp only [Transformation.call, Transformation.swapped, gaussianHighpass, gaussianHighpassKernel]
    by_cases hw : w = 0
    · rw [if_pos hw]; exact error_swap h fill _ pad kw hkw _
    · rw [if_neg hw]
      refine filter_swap h hf ?_ pad kw hkw false
      intro fe fn
      simp only [hsq (2 * Real.pi * fn)]
  | reductionToPole i d mi md =>
    simp only [Transformation.call, Transformation.swapped, reductionToPole]
    rcases mi with _ | mi
    · exact error_swap h fill .TypeError pad kw hkw _
    rcases md with _ | md
    · exact error_swap h fill .TypeError pad kw hkw _
    obtain ⟨K, K', hK, hK', hs⟩ := rtp_related i d (90 - d) mi md (90 - md) (fun fe fn => (fn, fe))
      (fun _ _ => and_comm) (fun _ _ => theta_swap _ _ _ _) (fun _ _ => theta_swap _ _ _ _)
    rw [hK, Option.map_some, hK']
    exact filter_swap h hf hs pad kw hkw false
  | totalGradientAmplitude => exact hg.1
  | tiltAngle => exact hg.2

/-! ### mirrors -/

/-- A kernel and its mirror image, at the frequencies of an array of `n` rows and `m` columns. -/
structure KernelMirror (n m : ℕ) (s : ℝ) (K K' : Kernel) : Prop where
  sign : s ^ 2 = 1
  mirror : ∀ fe fn, K' (-fe) fn = (K fe fn).map ((s : ℂ) * ·)
  conjugate : ∀ fe fn, K (-fe) (-fn) = (K fe fn).map conj
  corner : (Odd n ∨ Odd m) ∨ ∀ fe fn, (K' fe fn).map re = (K fe fn).map fun z => s * z.re

theorem KernelMirror.symm {n m : ℕ} {s : ℝ} {K K' : Kernel} (h : KernelMirror n m s K K') :
    KernelMirror n m s K' K := by
  have hs : (s : ℂ) * s = 1 := by rw [← sq]; exact_mod_cast h.sign
  have hm : ∀ fe fn, K (-fe) fn = (K' fe fn).map ((s : ℂ) * ·) := by
    intro fe fn
    have := h.mirror (-fe) fn
    rw [neg_neg] at this
    rw [this]
    cases K (-fe) fn with
    | none => rfl
    | some z => simp only [Option.map_some, Option.some.injEq]; rw [← mul_assoc, hs, one_mul]
  refine ⟨h.sign, hm, ?_, ?_⟩
  · intro fe fn
    have e1 := h.mirror (-fe) fn
    have e2 := h.conjugate (-fe) fn
    rw [neg_neg] at e1 e2
    rw [h.mirror, e1, e2]
    cases K (-fe) fn with
    | none => rfl
    | some z => simp
  · rcases h.corner with h1 | h1
    · exact .inl h1
    · right
      intro fe fn
      have := h1 fe fn
      cases hk : K fe fn with
      | none =>
        rw [hk] at this
        cases hk' : K' fe fn with
        | none => rfl
        | some z => rw [hk'] at this; cases this
      | some z =>
        rw [hk] at this
        cases hk' : K' fe fn with
        | none => rw [hk'] at this; cases this
        | some w =>
          rw [hk'] at this
          simp only [Option.map_some, Option.some.injEq] at this ⊢
          rw [this, ← mul_assoc, ← sq, h.sign, one_mul]

theorem KernelMirror.finite {n m : ℕ} {s : ℝ} {K K' : Kernel} (h : KernelMirror n m s K K') {dy dx : ℝ}
    (hK : KFinite n m dy dx K) : KFinite n m dy dx K' := by
  intro p hp q hq
  rcases freq_opp hq dx with h1 | ⟨hm, rfl, h1⟩
  · have := h.mirror (freq m dx (opp m q)) (freq n dy p)
    rw [h1, neg_neg] at this
    rw [this, Option.isSome_map, ← h1]
    exact hK p hp _ (opp_lt hq)
  · rcases freq_opp hp dy with h2 | ⟨hn, rfl, h2⟩
    · have e1 := h.mirror (-freq m dx 0) (freq n dy p)
      have e2 := h.conjugate (freq m dx 0) (freq n dy (opp n p))
      rw [neg_neg] at e1
      rw [h2, neg_neg] at e2
      rw [e1, Option.isSome_map, e2, Option.isSome_map, ← h2]
      exact hK _ (opp_lt hp) _ hq
    · rcases h.corner with h3 | h3
      · rcases h3 with h3 | h3
        · exact absurd hn (Nat.not_even_iff_odd.2 h3)
        · exact absurd hm (Nat.not_even_iff_odd.2 h3)
      · have e := congrArg Option.isSome (h3 (freq m dx 0) (freq n dy 0))
        rw [Option.isSome_map, Option.isSome_map] at e
        rw [e]
        exact hK 0 hp 0 hq

theorem getD_map_mul (s : ℂ) (o : Option ℂ) : (o.map (s * ·)).getD 0 = s * o.getD 0 := by
  cases o <;> simp

theorem getD_map_conj (o : Option ℂ) : (o.map conj).getD 0 = conj (o.getD 0) := by
  cases o <;> simp

theorem KernelMirror.herm {n m : ℕ} {s : ℝ} {K K' : Kernel} (h : KernelMirror n m s K K') {dy dx : ℝ}
    {p q : ℕ} (hp : p < n) (hq : q < m) :
    herm n m dy dx K' p (opp m q) = s * herm n m dy dx K p q := by
  have mir : ∀ fe fn, (K' (-fe) fn).getD 0 = s * (K fe fn).getD 0 := by
    intro fe fn; rw [h.mirror, getD_map_mul]
  have cj : ∀ fe fn, (K (-fe) (-fn)).getD 0 = conj ((K fe fn).getD 0) := by
    intro fe fn; rw [h.conjugate, getD_map_conj]
  unfold Filters.herm kval
  rw [opp_opp hq]
  rcases freq_opp hq dx with h1 | ⟨hm, rfl, h1⟩
  · have e := mir (freq m dx (opp m q)) (freq n dy (opp n p))
    rw [h1, neg_neg] at e
    rw [h1, mir, e, map_mul, conj_ofReal]
    ring
  · rw [h1]
    rcases freq_opp hp dy with h2 | ⟨hn, rfl, h2⟩
    · have e1 := mir (-freq m dx 0) (freq n dy p)
      have e2 := mir (-freq m dx 0) (-freq n dy p)
      have e3 := cj (freq m dx 0) (-freq n dy p)
      have e4 := cj (freq m dx 0) (freq n dy p)
      rw [neg_neg] at e1 e2 e3
      rw [h2, e1, e2, e3, e4, map_mul, conj_ofReal, conj_conj]
      ring
    · rcases h.corner with h3 | h3
      · rcases h3 with h3 | h3
        · exact absurd hn (Nat.not_even_iff_odd.2 h3)
        · exact absurd hm (Nat.not_even_iff_odd.2 h3)
      · rw [h2]
        have e : ((K' (freq m dx 0) (freq n dy 0)).getD 0).re = s * ((K (freq m dx 0) (freq n dy 0)).getD 0).re := by
          have := h3 (freq m dx 0) (freq n dy 0)
          revert this
          cases K (freq m dx 0) (freq n dy 0) <;> cases K' (freq m dx 0) (freq n dy 0) <;> simp
        rw [← Complex.re_eq_add_conj, ← Complex.re_eq_add_conj, e]
        push_cast; ring

theorem wave_add (m q j j' : ℕ) : wave m q (j + j') = wave m q j * wave m q j' := by
  unfold wave
  rw [← Complex.exp_add]
  congr 1
  push_cast
  ring

theorem wave_mirror {m q j : ℕ} (hj : j < m) :
    wave m q (m - 1 - j) = wave m q (m - 1) * conj (wave m q j) := by
  have := wave_add m q (m - 1 - j) j
  rw [show m - 1 - j + j = m - 1 by omega] at this
  rw [this, mul_assoc, wave_mul_conj, mul_one]

theorem dft_mirror (n m : ℕ) (v v' : ℕ → ℕ → ℂ) (h : ∀ i < n, ∀ j < m, v' i j = v i (m - 1 - j)) {p q : ℕ}
    (hq : q < m) : dft n m v' p q = conj (wave m q (m - 1)) * dft n m v p (opp m q) := by
  unfold dft
  rw [mul_sum]
  refine sum_congr rfl fun i hi => ?_
  rw [mul_sum, ← sum_range_reflect]
  refine sum_congr rfl fun j hj => ?_
  have hj := mem_range.1 hj
  rw [h i (mem_range.1 hi) _ (by omega), wave_opp hq, conj_conj, wave_mirror hj, map_mul, conj_conj,
    show m - 1 - (m - 1 - j) = j by omega]
  ring

theorem out_mirror {n m : ℕ} {dy dx s : ℝ} {K K' : Kernel} (hK : KernelMirror n m s K K')
    (v v' : ℕ → ℕ → ℝ) (h : ∀ i < n, ∀ j < m, v' i j = v i (m - 1 - j)) (i : ℕ) {j : ℕ} (hj : j < m) :
    out n m dy dx K' v' i j = (out n m dy dx K v i (m - 1 - j)).map (s * ·) := by
  by_cases hk : KFinite n m dy dx K
  · have hk' := hK.finite hk
    have e1 := out_herm hk' v' i j
    have e2 := out_herm hk v i (m - 1 - j)
    have key : ((out n m dy dx K' v' i j).getD 0 : ℂ) = s * ((out n m dy dx K v i (m - 1 - j)).getD 0 : ℝ) := by
      rw [e1, e2]
      unfold idft
      rw [mul_left_comm (s : ℂ)]
      congr 1
      rw [mul_sum]
      refine sum_congr rfl fun p hp => ?_
      rw [← sum_opp, mul_sum]
      refine sum_congr rfl fun q hq => ?_
      have hq := mem_range.1 hq
      beta_reduce
      rw [hK.herm (mem_range.1 hp) hq, dft_mirror n m (fun i j => (v i j : ℂ)) _
        (fun i hi j hj => by rw [h i hi j hj]) (opp_lt hq), opp_opp hq, wave_opp hq, wave_opp hq, conj_conj,
        wave_mirror hj]
      ring
    rw [out_finite hk', out_finite hk] at key ⊢
    simp only [Option.getD_some, Option.map_some, Option.some.injEq] at key ⊢
    exact_mod_cast key
  · have hk' : ¬ KFinite n m dy dx K' := fun h => hk (hK.symm.finite h)
    unfold out
    rw [if_neg hk, if_neg hk']; rfl

theorem width_symmetric {G : Geo} {kw : Option PadKwargs} (h : SymmetricWidths kw) (d : String) :
    ∃ w, width (effective G kw) d = (w, w) := by
  have key : ∀ l : List (String × (ℕ × ℕ)), (∀ w ∈ l, w.2.1 = w.2.2) →
      ∃ w, (l.lookup d).getD (0, 0) = (w, w) := by
    intro l
    induction l with
    | nil => intro _; exact ⟨0, rfl⟩
    | cons a l ih =>
      intro hl
      obtain ⟨k, w1, w2⟩ := a
      have h1 : w1 = w2 := hl _ List.mem_cons_self
      subst h1
      rw [List.lookup_cons]
      cases d == k with
      | true => exact ⟨w1, rfl⟩
      | false => exact ih fun w hw => hl w (List.mem_cons_of_mem _ hw)
  unfold width effective
  rw [setDefaults_pad_width]
  apply key
  intro w hw
  cases kw with
  | none =>
    simp at hw
    rcases hw with rfl | rfl <;> rfl
  | some k =>
    simp only [Option.getD_some] at hw
    cases hp : k.pad_width with
    | none =>
      rw [hp] at hw
      simp at hw
      rcases hw with rfl | rfl <;> rfl
    | some l =>
      rw [hp] at hw
      exact h k rfl w (by rw [hp]; exact hw)

theorem Geo.Increasing.mirrored {G : Geo} (h : G.Increasing) : G.mirrored.Increasing :=
  ⟨⟨h.ne, h.n2, h.m2, h.dy0, h.dx0⟩, h.dy, h.dx⟩

theorem filtered_mirror {G : Geo} (hG : G.Increasing) {fill : Fill} (hf : MirrorFill fill) {s : ℝ}
    {K K' : Kernel} (hK : ∀ n m, ((Odd n ∨ Odd m) ↔ (Odd G.n ∨ Odd G.m)) → KernelMirror n m s K K')
    (pad : Bool) (kw : Option PadKwargs) (hkw : SymmetricWidths kw) (v : ℕ → ℕ → ℝ) {i j : ℕ}
    (hj : j < G.m) :
    G.mirrored.filtered fill K' pad (effective G kw) (fun i j => v i (G.m - 1 - j)) i j =
      (G.filtered fill K pad (effective G kw) v i (G.m - 1 - j)).map (s * ·) := by
  have hn2 := hG.n2
  have hm2 := hG.m2
  have ht : ∀ i, ∀ j < G.m, trunc G.n G.m (fun i j => v i (G.m - 1 - j)) i j =
      trunc G.n G.m v i (G.m - 1 - j) := by
    intro i j hj; unfold trunc
    simp only [hj, and_true, show G.m - 1 - j < G.m by omega]
  unfold Geo.filtered
  cases pad
  · exact out_mirror (hK _ _ Iff.rfl) _ _ (fun i _ j hj => ht i j hj) _ hj
  · obtain ⟨wy, hwy⟩ := width_symmetric (G := G) hkw G.d0
    obtain ⟨wx, hwx⟩ := width_symmetric (G := G) hkw G.d1
    have e1 : G.nn true (effective G kw) = wy + G.n + wy := by
      simp only [Geo.nn, if_true]; rw [hwy]
    have e2 : G.mm true (effective G kw) = wx + G.m + wx := by
      simp only [Geo.mm, if_true]; rw [hwx]
    have e3 : G.ox true (effective G kw) = wx := by
      simp only [Geo.ox, if_true]; rw [hwx]
    show out (G.nn true _) (G.mm true _) G.dy G.dx K' _ (i + G.oy true _) (j + G.ox true _) = _
    rw [e1, e2, e3, show G.m - 1 - j + wx = wx + G.m + wx - 1 - (j + wx) by omega]
    refine out_mirror (hK _ _ ?_) _ _ ?_ _ (by omega)
    · rw [show wy + G.n + wy = G.n + 2 * wy by ring, show wx + G.m + wx = G.m + 2 * wx by ring]
      simp [Nat.odd_add]
    · intro i hi j hj
      simp only [Geo.vv, if_true, Geo.paddedValues]
      show padded fill _ _ (width (effective G kw) G.d0) (width (effective G kw) G.d1) _ _ _ = _
      rw [hwy, hwx]
      unfold padded
      simp only [regular, Geo.mirrored]
      refine ite_congr (propext (by omega)) (fun hin => ?_) (fun _ => ?_)
      · rw [ht _ _ (by omega)]
        congr 1; omega
      · exact hf _ _ (wy, wy) wx G.n G.m _ _ _ _ _ _ (by omega) (by omega) (fun i _ j hj => ht i j hj) i hi j hj

theorem filter_mirror {A B : Grid} {G : Geo} {v : ℕ → ℕ → ℝ} (h : MirroredGrids A B G v)
    {fill : Fill} (hf : MirrorFill fill) {s : ℝ} {K K' : Kernel}
    (hK : ∀ n m, ((Odd n ∨ Odd m) ↔ (Odd G.n ∨ Odd G.m)) → KernelMirror n m s K K')
    (pad : Bool) (kw : Option PadKwargs) (hkw : WidthsFor G kw) (hsw : SymmetricWidths kw) (drop : Bool) :
    Corresponding G.n G.m G.n G.m (fun i j => [i, G.m - 1 - j]) s (applyFilter fill A (.ok K) pad kw drop).2
      (applyFilter fill B (.ok K') pad kw drop).2 := by
  rw [applyFilter_eq h.fst h.increasing fill _ pad kw hkw,
    applyFilter_eq h.snd h.increasing.mirrored fill _ pad kw hkw]
  refine ⟨h.fst.sizes, h.snd.sizes, ?_⟩
  intro i _ j hj
  exact filtered_mirror h.increasing hf hK pad kw hsw v hj

theorem error_mirror {A B : Grid} {G : Geo} {v : ℕ → ℕ → ℝ} (h : MirroredGrids A B G v)
    (fill : Fill) (e : PyErr) (pad : Bool) (kw : Option PadKwargs) (hkw : WidthsFor G kw) (drop : Bool) (s : ℝ) :
    Corresponding G.n G.m G.n G.m (fun i j => [i, G.m - 1 - j]) s (applyFilter fill A (.error e) pad kw drop).2
      (applyFilter fill B (.error e) pad kw drop).2 := by
  rw [applyFilter_eq h.fst h.increasing fill _ pad kw hkw,
    applyFilter_eq h.snd h.increasing.mirrored fill _ pad kw hkw]
  rfl

/-! ### mirrors: finite differences -/

theorem npGradient_mirror {n : ℕ} (hn : 2 ≤ n) {x x' : List ℝ} {f : ℝ}
    (hx : ∀ k < n, x'.getD k 0 = -x.getD (n - 1 - k) 0) {u u' : ℕ → Option ℝ}
    (hu : ∀ k < n, u' k = (u (n - 1 - k)).map (f * ·)) {i : ℕ} (hi : i < n) :
    npGradient u' x' n i = (npGradient u x n (n - 1 - i)).map (-f * ·) := by
  have sub : ∀ k l k' l', k < n → l < n → n - 1 - k = k' → n - 1 - l = l' →
      x'.getD k 0 - x'.getD l 0 = x.getD l' 0 - x.getD k' 0 := by
    rintro k l _ _ hk hl rfl rfl; rw [hx k hk, hx l hl]; ring
  have l2 : ∀ k l k' l' d, k < n → l < n → n - 1 - k = k' → n - 1 - l = l' →
      odiv (lift2 (· - ·) (u' k) (u' l)) d = (odiv (lift2 (· - ·) (u l') (u k')) d).map (-f * ·) := by
    rintro k l _ _ d hk hl rfl rfl
    rw [hu k hk, hu l hl]
    unfold odiv
    split_ifs
    · rfl
    · cases u (n - 1 - k) <;> cases u (n - 1 - l) <;> simp [lift2]
      ring
  have la : ∀ (p q r : Option ℝ) (s : ℝ), lift2 (· + ·) (lift2 (· + ·) (p.map (s * ·)) (q.map (s * ·))) (r.map (s * ·)) =
      (lift2 (· + ·) (lift2 (· + ·) r q) p).map (s * ·) := by
    intro p q r s
    cases p <;> cases q <;> cases r <;> simp [lift2]
    ring
  have od : ∀ k k' (c c' d d' : ℝ), k < n → n - 1 - k = k' → d' = d → c' = -c → 
      odiv ((u' k).map (c' * ·)) d' = (odiv ((u k').map (c * ·)) d).map (-f * ·) := by
    rintro k _ c _ d _ hk rfl rfl rfl
    rw [hu k hk]
    unfold odiv
    split_ifs
    · rfl
    · cases u (n - 1 - k) <;> simp
      ring
  unfold npGradient
  simp only
  by_cases h0 : i = 0
  · have h1 : n - 1 - i ≠ 0 := by omega
    have h2 : n - 1 - i + 1 = n := by omega
    rw [if_pos h0, if_neg h1, if_pos h2, sub 1 0 (n - 2) (n - 1) (by omega) (by omega) (by omega) (by omega)]
    exact l2 _ _ _ _ _ (by omega) (by omega) (by omega) (by omega)
  rw [if_neg h0]
  by_cases h1 : i + 1 = n
  · have h2 : n - 1 - i = 0 := by omega
    rw [if_pos h1, if_pos h2, sub (n - 1) (n - 2) 0 1 (by omega) (by omega) (by omega) (by omega)]
    exact l2 _ _ _ _ _ (by omega) (by omega) (by omega) (by omega)
  have h2 : n - 1 - i ≠ 0 := by omega
  have h3 : ¬ (n - 1 - i + 1 = n) := by omega
  rw [if_neg h1, if_neg h2, if_neg h3]
  have step : ∀ k, k + 1 < n → x'.getD (k + 1) 0 - x'.getD k 0 =
      x.getD (n - 2 - k + 1) 0 - x.getD (n - 2 - k) 0 := fun k hk =>
    sub _ _ _ _ hk (by omega) (by omega) (by omega)
  have s0 := step 0 (by omega)
  have hiff : (∀ k, k + 1 < n → x'.getD (k + 1) 0 - x'.getD k 0 = x'.getD 1 0 - x'.getD 0 0) ↔
      (∀ k, k + 1 < n → x.getD (k + 1) 0 - x.getD k 0 = x.getD 1 0 - x.getD 0 0) := by
    constructor
    · intro h k hk
      have a := h (n - 2 - k) (by omega)
      have b := h (n - 2) (by omega)
      rw [step _ (by omega)] at a b
      rw [show n - 2 - (n - 2 - k) = k by omega] at a
      rw [show n - 2 - (n - 2) = 0 by omega] at b
      rw [a, ← b]
    · intro h k hk
      rw [step k hk, h _ (by omega), ← h (n - 2) (by omega), sub 1 0 (n - 2) (n - 1) (by omega) (by omega)
        (by omega) (by omega), show n - 2 + 1 = n - 1 by omega]
  by_cases he : ∀ k, k + 1 < n → x.getD (k + 1) 0 - x.getD k 0 = x.getD 1 0 - x.getD 0 0
  · rw [if_pos he, if_pos (hiff.2 he)]
    have : x'.getD 1 0 - x'.getD 0 0 = x.getD 1 0 - x.getD 0 0 := by
      have := he (n - 2) (by omega)
      rw [← this, sub 1 0 (n - 2) (n - 1) (by omega) (by omega) (by omega) (by omega),
        show n - 2 + 1 = n - 1 by omega]
    rw [this]
    exact l2 _ _ _ _ _ (by omega) (by omega) (by omega) (by omega)
  · rw [if_neg he, if_neg (fun h => he (hiff.1 h))]
    rw [sub i (i - 1) (n - 1 - i) (n - 1 - i + 1) (by omega) (by omega) (by omega) (by omega),
      sub (i + 1) i (n - 1 - i - 1) (n - 1 - i) (by omega) (by omega) (by omega) (by omega)]
    generalize x.getD (n - 1 - i) 0 - x.getD (n - 1 - i - 1) 0 = d1
    generalize x.getD (n - 1 - i + 1) 0 - x.getD (n - 1 - i) 0 = d2
    rw [od (i - 1) (n - 1 - i + 1) d1 (-d1) (d2 * (d1 + d2)) _ (by omega) (by omega) (by ring) rfl,
      od i (n - 1 - i) (d2 - d1) (d1 - d2) (d1 * d2) _ (by omega) (by omega) (by ring) (by ring),
      od (i + 1) (n - 1 - i - 1) (-d2) d2 (d1 * (d1 + d2)) _ (by omega) (by omega) (by ring) (by ring), la]

/-- Derivatives along the mirrored axis. -/
theorem times_mirror {n m : ℕ} (hm : 2 ≤ m) (x x' : Coord)
    (hx : ∀ k < m, x'.values.getD k 0 = -x.values.getD (m - 1 - k) 0) :
    ∀ (k : ℕ) (f : ℝ) (A B : Grid), A.sizes = [n, m] → B.sizes = [n, m] →
      (∀ i < n, ∀ j < m, B.data [i, j] = (A.data [i, m - 1 - j]).map (f * ·)) →
      ∃ A' B', differentiateTimes 1 x k A = .ok A' ∧ differentiateTimes 1 x' k B = .ok B' ∧
        A'.sizes = [n, m] ∧ B'.sizes = [n, m] ∧
        ∀ i < n, ∀ j < m, B'.data [i, j] = (A'.data [i, m - 1 - j]).map ((-1) ^ k * f * ·) := by
  intro k
  induction k with
  | zero =>
    intro f A B hA hB hd
    exact ⟨A, B, rfl, rfl, hA, hB, by simpa using hd⟩
  | succ k ih =>
    intro f A B hA hB hd
    have hdA := differentiate_eq A 1 x (by rw [hA]; exact hm)
    have hdB := differentiate_eq B 1 x' (by rw [hB]; exact hm)
    obtain ⟨A', B', h1, h2, h3, h4, h5⟩ := ih (-f) (gradGrid A 1 x) (gradGrid B 1 x') hA hB (by
        intro i hi j hj
        simp only [gradGrid, hA, hB]
        exact npGradient_mirror hm hx (fun k hk => hd i hi k hk) hj)
    refine ⟨A', B', ?_, ?_, h3, h4, ?_⟩
    · simp only [differentiateTimes, hdA, Py.bind_ok]; exact h1
    · simp only [differentiateTimes, hdB, Py.bind_ok]; exact h2
    · intro i hi j hj
      rw [h5 i hi j hj]
      congr 1
      funext z
      rw [pow_succ]
      ring

/-- Derivatives along the other axis. -/
theorem times_across {n m : ℕ} (hn : 2 ≤ n) (x : Coord) :
    ∀ (k : ℕ) (A B : Grid), A.sizes = [n, m] → B.sizes = [n, m] →
      (∀ i < n, ∀ j < m, B.data [i, j] = A.data [i, m - 1 - j]) →
      ∃ A' B', differentiateTimes 0 x k A = .ok A' ∧ differentiateTimes 0 x k B = .ok B' ∧
        A'.sizes = [n, m] ∧ B'.sizes = [n, m] ∧
        ∀ i < n, ∀ j < m, B'.data [i, j] = A'.data [i, m - 1 - j] := by
  intro k
  induction k with
  | zero =>
    intro A B hA hB hd
    exact ⟨A, B, rfl, rfl, hA, hB, hd⟩
  | succ k ih =>
    intro A B hA hB hd
    have hdA := differentiate_eq A 0 x (by rw [hA]; exact hn)
    have hdB := differentiate_eq B 0 x (by rw [hB]; exact hn)
    obtain ⟨A', B', h1, h2, h3, h4, h5⟩ := ih (gradGrid A 0 x) (gradGrid B 0 x) hA hB (by
        intro i hi j hj
        simp only [gradGrid, hA, hB]
        exact npGradient_congr hn (fun k hk => hd k hk j hj) hi)
    refine ⟨A', B', ?_, ?_, h3, h4, h5⟩
    · simp only [differentiateTimes, hdA, Py.bind_ok]; exact h1
    · simp only [differentiateTimes, hdB, Py.bind_ok]; exact h2

theorem east_mirror {A B : Grid} {G : Geo} {v : ℕ → ℕ → ℝ} (h : MirroredGrids A B G v)
    (fill : Fill) (order : ℕ) (pad : Bool) (kw : Option PadKwargs) :
    Corresponding G.n G.m G.n G.m (fun i j => [i, G.m - 1 - j]) ((-1) ^ order)
      (derivativeEasting fill A order "finite-diff" pad kw).2
      (derivativeEasting fill B order "finite-diff" pad kw).2 := by
  have hm2 := h.increasing.m2
  obtain ⟨A', B', h1, h2, h3, h4, h5⟩ := times_mirror (n := G.n) (m := G.m) hm2
    ⟨[G.d1], (List.range G.m).map G.easting⟩ ⟨[G.d1], (List.range G.m).map G.mirrored.easting⟩
    (fun k hk => by
      rw [coord_getD hk, coord_getD (by omega)]
      simp only [Geo.easting, Geo.mirrored]
      rw [Nat.sub_sub, Nat.cast_sub (by omega)]
      push_cast; ring) order 1 A B h.fst.sizes h.snd.sizes (by
        intro i hi j hj
        rw [h.fst.data i hi _ (by omega), h.snd.data i hi j hj]; simp)
  simp only [derivativeEasting, if_true, getCoord_easting h.fst', getCoord_easting h.snd', Py.bind_ok, h1]
  have h2' : differentiateTimes 1 ⟨[G.mirrored.d1], (List.range G.mirrored.m).map G.mirrored.easting⟩ order B =
    .ok B' := h2
  rw [h2']
  exact ⟨h3, h4, by simpa using h5⟩

theorem north_mirror {A B : Grid} {G : Geo} {v : ℕ → ℕ → ℝ} (h : MirroredGrids A B G v)
    (fill : Fill) (order : ℕ) (pad : Bool) (kw : Option PadKwargs) :
    Corresponding G.n G.m G.n G.m (fun i j => [i, G.m - 1 - j]) 1
      (derivativeNorthing fill A order "finite-diff" pad kw).2
      (derivativeNorthing fill B order "finite-diff" pad kw).2 := by
  have hm2 := h.increasing.m2
  obtain ⟨A', B', h1, h2, h3, h4, h5⟩ := times_across (n := G.n) (m := G.m) h.increasing.n2
    ⟨[G.d0], (List.range G.n).map G.northing⟩ order A B h.fst.sizes h.snd.sizes (by
        intro i hi j hj
        rw [h.fst.data i hi _ (by omega), h.snd.data i hi j hj])
  simp only [derivativeNorthing, if_true, getCoord_northing h.fst', getCoord_northing h.snd', Py.bind_ok, h1]
  have h2' : differentiateTimes 0 ⟨[G.mirrored.d0], (List.range G.mirrored.n).map G.mirrored.northing⟩ order B =
    .ok B' := h2
  rw [h2']
  exact ⟨h3, h4, by simpa using h5⟩

/-- Real kernels that are even in both frequencies. -/
theorem kernelMirror_even {K : Kernel} (hr : ∀ fe fn, ∃ r : ℝ, K fe fn = some (r : ℂ))
    (he : ∀ fe fn, K (-fe) fn = K fe fn) (hn : ∀ fe fn, K fe (-fn) = K fe fn) (n m : ℕ) :
    KernelMirror n m 1 K K := by
  refine ⟨by norm_num, ?_, ?_, .inr ?_⟩
  · intro fe fn; rw [he]; simp
  · intro fe fn
    rw [he, hn]
    obtain ⟨r, hr⟩ := hr fe fn
    rw [hr]; simp
  · intro fe fn; simp

theorem theta_mirror (i d fe fn : ℝ) : theta i (-d) (-fe) fn = theta i d fe fn := by
  unfold theta
  rw [show -d * Real.pi / 180 = -(d * Real.pi / 180) by ring, Real.sin_neg, Real.cos_neg, neg_sq, neg_mul_neg]

/-- C127: mirroring the grid (and the declinations) mirrors the result, with the opposite sign for odd
easting derivatives, for every padding with the same width at both ends and all arguments, including the
ones that raise: every transformation but the reduction to the pole of grids with even numbers of rows and
columns. (See `C127_not_full` for that case.) -/
theorem C127_mirror_partial {A B : Grid} {G : Geo} {v : ℕ → ℕ → ℝ} (h : MirroredGrids A B G v)
    {fill : Fill} (hf : MirrorFill fill) (pad : Bool) (kw : Option PadKwargs) (hkw : WidthsFor G kw)
    (hsw : SymmetricWidths kw) (t : Transformation)
    (hodd : ∀ i d mi md, t = .reductionToPole i d mi md → Odd G.n ∨ Odd G.m) :
    Corresponding G.n G.m G.n G.m (fun i j => [i, G.m - 1 - j]) t.mirrorSign (t.call fill A pad kw).2
      (t.mirrored.call fill B pad kw).2 := by
  have hu : ∀ order, Corresponding G.n G.m G.n G.m (fun i j => [i, G.m - 1 - j]) 1
      (derivativeUpward fill A order pad kw).2 (derivativeUpward fill B order pad kw).2 := by
    intro order
    refine filter_mirror h hf (fun n m _ => kernelMirror_even ?_ ?_ ?_ n m) pad kw hkw hsw false
    · exact fun _ _ => ⟨_, rfl⟩
    · intro fe fn; simp [derivativeUpwardKernel]
    · intro fe fn; simp [derivativeUpwardKernel]
  have hg := combined_pair (s := false) h hkw (fe := (-1) ^ 1) (fn := 1) (by norm_num) (by norm_num)
    (east_mirror h fill 1 pad kw) (north_mirror h fill 1 pad kw) (hu 1)
  have hI : ∀ (x : ℝ) (k : ℕ), conj ((((2 * Real.pi * x : ℝ) : ℂ) * I) ^ k) =
      (((2 * Real.pi * -x : ℝ) : ℂ) * I) ^ k := by
    intro x k
    rw [map_pow, map_mul, conj_I, conj_ofReal]
    congr 1; push_cast; ring
  have hneg : ∀ (x : ℝ) (k : ℕ), (((2 * Real.pi * -x : ℝ) : ℂ) * I) ^ k =
      (((-1) ^ k : ℝ) : ℂ) * (((2 * Real.pi * x : ℝ) : ℂ) * I) ^ k := by
    intro x k
    push_cast
    rw [← mul_pow]
    congr 1; ring
  cases t with
  | derivativeUpward order => exact hu order
  | derivativeEasting order method =>
    by_cases h1 : method = "finite-diff"
    · subst h1; exact east_mirror h fill order pad kw
    by_cases h2 : method = "fft"
    · subst h2
      have hk : ∀ n m, KernelMirror n m ((-1) ^ order) (derivativeEastingKernel order)
          (derivativeEastingKernel order) := by
        intro n m
        refine ⟨by rw [← pow_mul, mul_comm, pow_mul]; norm_num, ?_, ?_, .inr ?_⟩
        · intro fe fn
          simp only [derivativeEastingKernel, Option.map_some, hneg]
        · intro fe fn
          simp only [derivativeEastingKernel, Option.map_some, hI]
        · intro fe fn
          simp only [derivativeEastingKernel, Option.map_some, Option.some.injEq]
          have e := congrArg re ((hI fe order).trans (hneg fe order))
          rwa [conj_re, re_ofReal_mul] at e
      have := filter_mirror h hf (fun n m _ => hk n m) pad kw hkw hsw false
      simpa [Transformation.call, Transformation.mirrored, derivativeEasting, Transformation.mirrorSign] using this
    · simp [Transformation.call, Transformation.mirrored, derivativeEasting, h1, h2, Corresponding]
  | derivativeNorthing order method =>
    by_cases h1 : method = "finite-diff"
    · subst h1; exact north_mirror h fill order pad kw
    by_cases h2 : method = "fft"
    · subst h2
      have hk : ∀ n m, KernelMirror n m 1 (derivativeNorthingKernel order) (derivativeNorthingKernel order) := by
        intro n m
        refine ⟨by norm_num, ?_, ?_, .inr ?_⟩
        · intro fe fn
          simp [derivativeNorthingKernel]
        · intro fe fn
          simp only [derivativeNorthingKernel, Option.map_some, hI]
        · intro fe fn
          simp
      have := filter_mirror h hf (fun n m _ => hk n m) pad kw hkw hsw false
      simpa [Transformation.call, Transformation.mirrored, derivativeNorthing, Transformation.mirrorSign] using this
    · simp [Transformation.call, Transformation.mirrored, derivativeNorthing, h1, h2, Corresponding]
  | upwardContinuation height =>
    refine filter_mirror h hf (fun n m _ => kernelMirror_even ?_ ?_ ?_ n m) pad kw hkw hsw true
    · exact fun _ _ => ⟨_, rfl⟩
    · intro fe fn; simp [upwardContinuationKernel]
    · intro fe fn; simp [upwardContinuationKernel]
  | gaussianLowpass w =>
    simp only [Transformation.call, Transformation.mirrored, gaussianLowpass, gaussianLowpassKernel]
    by_cases hw : w = 0
    · rw [if_pos hw]; exact error_mirror h fill _ pad kw hkw _ _
    · rw [if_neg hw]
      refine filter_mirror h hf (fun n m _ => kernelMirror_even ?_ ?_ ?_ n m) pad kw hkw hsw false
      · exact fun _ _ => ⟨_, rfl⟩
      · intro fe fn; simp
      · intro fe fn; simp
  | gaussianHighpass w =>
    simp only [Transformation.call, Transformation.mirrored, gaussianHighpass, gaussianHighpassKernel]
    by_cases hw : w = 0
    · rw [if_pos hw]; exact error_mirror h fill _ pad kw hkw _ _
    · rw [if_neg hw]
      refine filter_mirror h hf (fun n m _ => kernelMirror_even ?_ ?_ ?_ n m) pad kw hkw hsw false
      · exact fun _ _ => ⟨_, rfl⟩
      · intro fe fn; simp
      · intro fe fn; simp
  | reductionToPole i d mi md =>
    have hpar := hodd i d mi md rfl
    simp only [Transformation.call, Transformation.mirrored, reductionToPole]
    rcases mi with _ | mi
    · exact error_mirror h fill .TypeError pad kw hkw _ _
    rcases md with _ | md
    · exact error_mirror h fill .TypeError pad kw hkw _ _
    obtain ⟨K, K', hK, hK', hs⟩ := rtp_related i d (-d) mi md (-md) (fun fe fn => (-fe, fn))
      (fun _ _ => by simp) (fun _ _ => theta_mirror _ _ _ _) (fun _ _ => theta_mirror _ _ _ _)
    have hc : ∀ fe fn, K (-fe) (-fn) = (K fe fn).map conj := by
      obtain ⟨K₀, hK₀, h0, hk⟩ := C36_kernel_partial i d mi md
      rw [hK] at hK₀
      cases hK₀
      intro fe fn
      by_cases hz : fe = 0 ∧ fn = 0
      · rw [hz.1, hz.2, neg_zero, h0]; simp
      · obtain ⟨a, b⟩ := hk fe fn hz
        obtain ⟨a', b'⟩ := hk (-fe) (-fn) (by simpa using hz)
        rw [theta_neg, theta_neg] at a' b'
        by_cases ht : theta mi md fe fn * theta i d fe fn = 0
        · rw [b ht, b' (by rw [← map_mul, ht, map_zero])]; rfl
        · rw [a ht, a' (by rw [← map_mul]; exact (map_ne_zero _).2 ht)]
          simp
    rw [hK, Option.map_some, hK']
    refine filter_mirror h hf (fun n m hnm => ⟨by norm_num [Transformation.mirrorSign], ?_, hc, .inl (hnm.2 hpar)⟩)
      pad kw hkw hsw false
    intro fe fn
    have := hs fe fn
    simp only at this
    rw [this]; simp [Transformation.mirrorSign]
  | totalGradientAmplitude => exact hg.1
  | tiltAngle => exact hg.2

/-- C127: the same for northing. -/
theorem C127_mirror_north_partial {A B : Grid} {G : Geo} {v : ℕ → ℕ → ℝ} (h : MirroredNorthGrids A B G v)
    {fill : Fill} (hf : MirrorFill fill) (hs : SwapFill fill) (pad : Bool) (kw : Option PadKwargs)
    (hkw : WidthsFor G kw) (hsw : SymmetricWidths kw) (t : Transformation)
    (hodd : ∀ i d mi md, t = .reductionToPole i d mi md → Odd G.n ∨ Odd G.m) :
    Corresponding G.n G.m G.n G.m (fun i j => [G.n - 1 - i, j]) t.mirrorNorthSign (t.call fill A pad kw).2
      (t.mirroredNorth.call fill B pad kw).2 := by
  have hne := h.increasing.ne
  have h1 : SwappedGrids A (gridOf G.swapped fun i j => v j i) G v :=
    ⟨h.increasing, h.fst, h.fst', gridOf_isGrid _ hne.symm _, gridOf_isGridXY _ hne.symm _⟩
  have h2 : SwappedGrids B (gridOf G.mirroredNorth.swapped fun i j => v (G.n - 1 - j) i) G.mirroredNorth
      (fun i j => v (G.n - 1 - i) j) :=
    ⟨⟨⟨hne, h.increasing.n2, h.increasing.m2, h.increasing.dy0, h.increasing.dx0⟩, h.increasing.dy,
      h.increasing.dx⟩, h.snd, h.snd', gridOf_isGrid _ hne.symm _, gridOf_isGridXY _ hne.symm _⟩
  have h3 : MirroredGrids (gridOf G.swapped fun i j => v j i)
      (gridOf G.mirroredNorth.swapped fun i j => v (G.n - 1 - j) i) G.swapped (fun i j => v j i) :=
    ⟨h.increasing.swapped, gridOf_isGrid _ hne.symm _, gridOf_isGridXY _ hne.symm _,
      gridOf_isGrid G.mirroredNorth.swapped hne.symm _, gridOf_isGridXY G.mirroredNorth.swapped hne.symm _⟩
  have et : t.mirroredNorth.swapped = t.swapped.mirrored := by
    cases t with
    | reductionToPole i d mi md =>
      simp only [Transformation.mirroredNorth, Transformation.swapped, Transformation.mirrored,
        Transformation.reductionToPole.injEq, true_and]
      refine ⟨by ring, ?_⟩
      cases md with
      | none => rfl
      | some md => simp only [Option.map_some, Option.some.injEq]; ring
    | _ => rfl
  have es : t.swapped.mirrorSign = t.mirrorNorthSign := by cases t <;> rfl
  have c1 := C127_swap h1 hs pad kw hkw t
  have c2 := C127_swap h2 hs pad kw hkw t.mirroredNorth
  have c3 := C127_mirror_partial h3 hf pad kw hkw.swapped hsw t.swapped (by
    intro i d mi md ht
    cases t with
    | reductionToPole i d mi md => exact (hodd _ _ _ _ rfl).symm
    | _ => cases ht)
  rw [et] at c2
  rw [es] at c3
  cases ha : (t.call fill A pad kw).2 with
  | error e =>
    rw [ha] at c1
    cases ha' : (t.swapped.call fill (gridOf G.swapped fun i j => v j i) pad kw).2 with
    | ok _ => rw [ha'] at c1; exact c1.elim
    | error e1 =>
      rw [ha'] at c1 c3
      cases hb' : (t.swapped.mirrored.call fill
          (gridOf G.mirroredNorth.swapped fun i j => v (G.n - 1 - j) i) pad kw).2 with
      | ok _ => rw [hb'] at c3; exact c3.elim
      | error e2 =>
        rw [hb'] at c2 c3
        cases hb : (t.mirroredNorth.call fill B pad kw).2 with
        | ok _ => rw [hb] at c2; exact c2.elim
        | error e3 =>
          rw [hb] at c2
          exact (c1 : e = e1).trans ((c3 : e1 = e2).trans (c2 : e3 = e2).symm)
  | ok a =>
    obtain ⟨a', ha', s1, -, d1⟩ := c1.ok ha
    obtain ⟨b', hb', -, -, d3⟩ := c3.ok ha'
    cases hb : (t.mirroredNorth.call fill B pad kw).2 with
    | error e => rw [hb, hb'] at c2; exact c2.elim
    | ok b =>
      obtain ⟨b'', hb'', s2, -, d2⟩ := c2.ok hb
      rw [hb'] at hb''
      cases hb''
      refine ⟨s1, s2, ?_⟩
      intro i hi j hj
      have e2 := d2 j hj i hi
      have e3 := d3 j hj i hi
      have e1 := d1 j hj (G.n - 1 - i) (by omega)
      simp only [one_mul, Option.map_id'] at e1 e2
      rw [← e2, e3]
      show Option.map _ (a'.data [j, G.n - 1 - i]) = _
      rw [e1]

/-! ### grids with even numbers of rows and columns -/

/-- Filter of a checkerboard. -/
theorem out_checkerboard {n m : ℕ} {dy dx : ℝ} (hn0 : 0 < n) (h0 : 0 < m) (hn : Even n) (hm : Even m)
    {K : Kernel} (hK : KFinite n m dy dx K) (v : ℕ → ℕ → ℝ)
    (c : ℝ) (hv : ∀ i < n, ∀ j < m, v i j = c * (-1) ^ (i + j)) (i j : ℕ) :
    out n m dy dx K v i j = some (c * (kval n m dy dx K 0 0).re * (-1) ^ (i + j)) := by
  rw [out_finite hK]
  have e : (fun p q => dft n m (fun i j => (v i j : ℂ)) p q * kval n m dy dx K p q) =
      fun p q => dft n m (fun i j => (c : ℂ) * (wave n 0 i * wave m 0 j)) p q * kval n m dy dx K p q := by
    funext p q
    congr 1
    apply dft_congr
    intro i hi j hj
    rw [hv i hi j hj, wave_nyquist hn hn0, wave_nyquist hm h0, pow_add]; push_cast; ring
  rw [e, idft_wave hn0 h0, wave_nyquist hn hn0, wave_nyquist hm h0]
  rw [← ofReal_mul, re_mul_ofReal, re_ofReal_mul, pow_add]

/-- Two rows and two columns. -/
noncomputable def smallGeo : Geo := ⟨"northing", "easting", 2, 2, 0, 1, 0, 1⟩

theorem smallGeo_increasing : smallGeo.Increasing :=
  ⟨⟨by decide, by decide, by decide, by norm_num [smallGeo], by norm_num [smallGeo]⟩, by norm_num [smallGeo],
    by norm_num [smallGeo]⟩

/-- C127 fails for the reduction to the pole of grids with even numbers of rows and columns: with
inclination and declination of 45 degrees a checkerboard is lost, and its mirror image with declination -45
is doubled. -/
theorem C127_not_full (fill : Fill) :
    ∃ A B v, MirroredGrids A B smallGeo v ∧
      ¬ Corresponding smallGeo.n smallGeo.m smallGeo.n smallGeo.m (fun i j => [i, smallGeo.m - 1 - j])
        (Transformation.reductionToPole 45 45 (some 45) (some 45)).mirrorSign
        ((Transformation.reductionToPole 45 45 (some 45) (some 45)).call fill A false none).2
        ((Transformation.reductionToPole 45 45 (some 45) (some 45)).mirrored.call fill B false none).2 := by
  have hne : smallGeo.d0 ≠ smallGeo.d1 := by decide
  have hG := smallGeo_increasing
  refine ⟨gridOf smallGeo fun i j => (-1) ^ (i + j), gridOf smallGeo.mirrored fun i j => (-1) ^ (i + (2 - 1 - j)),
    fun i j => (-1) ^ (i + j), ⟨hG, gridOf_isGrid _ hne _, gridOf_isGridXY _ hne _,
      gridOf_isGrid smallGeo.mirrored hne _, gridOf_isGridXY smallGeo.mirrored hne _⟩, ?_⟩
  have h45 : (45 : ℝ) * Real.pi / 180 = Real.pi / 4 := by ring
  have h45' : (-45 : ℝ) * Real.pi / 180 = -(Real.pi / 4) := by ring
  have hs : Real.sin (Real.pi / 4) ≠ 0 := by
    rw [Real.sin_pi_div_four]; positivity
  have r2 : Real.sqrt 2 * Real.sqrt 2 = 2 := Real.mul_self_sqrt (by norm_num)
  have rh : Real.sqrt ((-(1 / 2) : ℝ) ^ 2 + (-(1 / 2)) ^ 2) = Real.sqrt 2 / 2 := by
    rw [show (-(1 / 2) : ℝ) ^ 2 + (-(1 / 2)) ^ 2 = (Real.sqrt 2 / 2) ^ 2 by
      rw [div_pow, sq (Real.sqrt 2), r2]; norm_num]
    exact Real.sqrt_sq (by positivity)
  have t1 : theta 45 45 (-(1 / 2)) (-(1 / 2)) = ((Real.sqrt 2 / 2 : ℝ) : ℂ) * (1 - I) := by
    unfold theta
    rw [h45, Real.sin_pi_div_four, Real.cos_pi_div_four, rh]
    have : Real.sqrt 2 / 2 * (Real.sqrt 2 / 2 * -(1 / 2) + Real.sqrt 2 / 2 * -(1 / 2)) / (Real.sqrt 2 / 2) =
      -(Real.sqrt 2 / 2) := by
      have : Real.sqrt 2 ≠ 0 := by positivity
      field_simp
      norm_num
    rw [this]
    push_cast; ring
  have t2 : theta 45 (-45) (-(1 / 2)) (-(1 / 2)) = ((Real.sqrt 2 / 2 : ℝ) : ℂ) := by
    unfold theta
    rw [h45, h45', Real.sin_neg, Real.cos_neg, Real.sin_pi_div_four, Real.cos_pi_div_four]
    simp
  have hr : ((Real.sqrt 2 / 2 : ℝ) : ℂ) * ((Real.sqrt 2 / 2 : ℝ) : ℂ) = 1 / 2 := by
    rw [← ofReal_mul, show Real.sqrt 2 / 2 * (Real.sqrt 2 / 2) = 1 / 2 by
      rw [div_mul_div_comm, r2]; norm_num]
    norm_num
  have hr0 : ((Real.sqrt 2 / 2 : ℝ) : ℂ) ≠ 0 := by
    intro h; rw [h] at hr; norm_num at hr
  have h1I : (1 - I : ℂ) ≠ 0 := by
    intro h
    have := congrArg Complex.re h
    simp at this
  obtain ⟨K, hK, fK⟩ := C36_finite_partial 45 45 45 45 (by rw [h45]; exact hs) (by rw [h45]; exact hs)
  obtain ⟨K', hK', fK'⟩ := C36_finite_partial 45 (-45) 45 (-45) (by rw [h45]; exact hs) (by rw [h45]; exact hs)
  have hf : freq 2 1 0 = -(1 / 2) := by unfold freq; norm_num
  have k1 : (kval 2 2 1 1 K 0 0).re = 0 := by
    obtain ⟨K₀, hK₀, -, hk⟩ := C36_kernel_partial 45 45 45 45
    rw [hK] at hK₀
    cases hK₀
    unfold kval
    rw [hf, (hk _ _ (by norm_num)).1 (by rw [t1]; exact mul_ne_zero (mul_ne_zero hr0 h1I) (mul_ne_zero hr0 h1I)),
      t1, Option.getD_some, mul_mul_mul_comm, hr, show (1 - I) * (1 - I) = -2 * I by ring_nf; rw [I_sq]; ring,
      show (1 / 2 : ℂ) * (-2 * I) = -I by ring, one_div, inv_neg, inv_I, neg_neg, I_re]
  have k2 : (kval 2 2 1 1 K' 0 0).re = 2 := by
    obtain ⟨K₀, hK₀, -, hk⟩ := C36_kernel_partial 45 (-45) 45 (-45)
    rw [hK'] at hK₀
    cases hK₀
    unfold kval
    rw [hf, (hk _ _ (by norm_num)).1 (by rw [t2]; exact mul_ne_zero hr0 hr0), t2, Option.getD_some, hr]
    norm_num
  intro hc
  simp only [Transformation.mirrored, Transformation.call, reductionToPole, Option.map_some, hK, hK'] at hc
  rw [applyFilter_eq (gridOf_isGrid _ hne _) hG fill _ false none (widths_none _),
    applyFilter_eq (gridOf_isGrid smallGeo.mirrored hne _) hG.mirrored fill _ false none (widths_none _)] at hc
  obtain ⟨-, -, hd⟩ := hc
  have := hd 0 (by decide) 0 (by decide)
  change smallGeo.mirrored.filtered fill K' false _ _ 0 0 =
    Option.map _ (smallGeo.filtered fill K false _ _ 0 1) at this
  rw [filtered_nopad, filtered_nopad, out_trunc, out_trunc] at this
  change out 2 2 1 1 K' _ 0 0 = Option.map _ (out 2 2 1 1 K _ 0 1) at this
  rw [out_checkerboard (by norm_num) (by norm_num) (by decide) (by decide) (kfinite_of fK' _ _ _ _) _ (-1) (by
      intro i hi j hj
      interval_cases j <;> simp [pow_succ]),
    out_checkerboard (by norm_num) (by norm_num) (by decide) (by decide) (kfinite_of fK _ _ _ _) _ 1 (by
      intro i _ j _; ring), k1, k2] at this
  norm_num at this

/-! ### examples -/

theorem edgeFill_swap : SwapFill edgeFill := by
  intro mode c wy wx n m y x y' x' v v' hn hm h i _ j _
  simp only [edgeFill]
  exact h _ (by omega) _ (by omega)

theorem edgeFill_mirror : MirrorFill edgeFill := by
  intro mode c wy w n m y x y' x' v v' hn hm h i _ j _
  simp only [edgeFill]
  rw [h _ (by omega) _ (by omega)]
  congr 1
  omega

/-- C127: the toy grid with its transpose, its two mirror images, and a dictionary with equal widths. -/
example (v : ℕ → ℕ → ℝ) : SwappedGrids (gridOf toyGeo v) (gridOf toyGeo.swapped fun i j => v j i) toyGeo v ∧
    MirroredGrids (gridOf toyGeo v) (gridOf toyGeo.mirrored fun i j => v i (toyGeo.m - 1 - j)) toyGeo v ∧
    MirroredNorthGrids (gridOf toyGeo v) (gridOf toyGeo.mirroredNorth fun i j => v (toyGeo.n - 1 - i) j) toyGeo v ∧
    SwapFill edgeFill ∧ MirrorFill edgeFill ∧ Odd toyGeo.n ∧
    WidthsFor toyGeo (some { pad_width := some [("easting", (2, 2))] }) ∧
    SymmetricWidths (some { pad_width := some [("easting", (2, 2))] }) := by
  have hne : toyGeo.d0 ≠ toyGeo.d1 := by decide
  refine ⟨⟨toyGeo_increasing, gridOf_isGrid _ hne _, gridOf_isGridXY _ hne _, gridOf_isGrid _ hne.symm _,
    gridOf_isGridXY _ hne.symm _⟩, ⟨toyGeo_increasing, gridOf_isGrid _ hne _, gridOf_isGridXY _ hne _,
    gridOf_isGrid toyGeo.mirrored hne _, gridOf_isGridXY toyGeo.mirrored hne _⟩, ⟨toyGeo_increasing,
    gridOf_isGrid _ hne _, gridOf_isGridXY _ hne _, gridOf_isGrid toyGeo.mirroredNorth hne _,
    gridOf_isGridXY toyGeo.mirroredNorth hne _⟩, edgeFill_swap, edgeFill_mirror,
    by decide, ?_, ?_⟩
  · intro k hk w hw
    cases hk
    simp at hw
    subst hw
    right; rfl
  · intro k hk w hw
    cases hk
    simp at hw
    subst hw
    rfl

end Verif.Filters
