import Verif.Filters.PropsE

/-!
Concrete cases that meet the hypotheses of the theorems on grid transformations.
-/

namespace Verif.Filters

/-- 5 rows and 8 columns, spacings 2 and 3. -/
noncomputable def toyGeo : Geo := ⟨"northing", "easting", 5, 8, -1, 2, 10, 3⟩

/-- A grid with given values and an extra two dimensional coordinate. -/
noncomputable def gridOf (G : Geo) (v : ℕ → ℕ → ℝ) : Grid :=
  { dims := [G.d0, G.d1], sizes := [G.n, G.m]
    coords := [(G.d0, ⟨[G.d0], (List.range G.n).map G.northing⟩),
      (G.d1, ⟨[G.d1], (List.range G.m).map G.easting⟩),
      ("upward", ⟨[G.d0, G.d1], List.replicate (G.n * G.m) 7⟩)]
    data := fun idx => match idx with
      | [i, j] => some (v i j)
      | _ => none }

theorem toyGeo_increasing : toyGeo.Increasing :=
  ⟨⟨by decide, by decide, by decide, by norm_num [toyGeo], by norm_num [toyGeo]⟩, by norm_num [toyGeo],
    by norm_num [toyGeo]⟩

theorem gridOf_isGrid (G : Geo) (hne : G.d0 ≠ G.d1) (v : ℕ → ℕ → ℝ) : IsGrid (gridOf G v) G v := by
  have h : (G.d1 == G.d0) = false := by simpa using hne.symm
  exact ⟨rfl, rfl, by simp [gridOf, Grid.coord], by simp [gridOf, Grid.coord, List.lookup_cons, h],
    fun _ _ _ _ => rfl⟩

theorem gridOf_isGridXY (G : Geo) (hne : G.d0 ≠ G.d1) (v : ℕ → ℕ → ℝ) :
    IsGridXY (gridOf G v) G.d0 G.d1 G.n G.m G.northing G.easting v :=
  ⟨rfl, rfl, by simp [gridOf, hne.symm], by simp [gridOf, hne], fun _ _ _ _ => rfl⟩

theorem edgeFill_linear : LinearFill edgeFill := fun _ _ _ _ _ _ _ _ _ _ _ _ _ _ => rfl

/-- A grid and a dictionary for C32, C33, C34, C35, C36, C39. -/
example : IsGrid (gridOf toyGeo fun i j => i * j - 3) toyGeo (fun i j => i * j - 3) ∧
    toyGeo.Increasing ∧ LinearFill edgeFill ∧
    WidthsFor toyGeo (some { pad_width := some [("easting", (2, 3))] }) :=
  ⟨gridOf_isGrid _ (by decide) _, toyGeo_increasing, edgeFill_linear, by
    intro k hk w hw
    cases hk
    simp at hw
    subst hw
    right; rfl⟩

/-- The call of C32_geometry succeeds for it. -/
example : ∃ B, (applyFilter edgeFill (gridOf toyGeo fun i j => i * j - 3) (.ok fun _ _ => some 1)).2 = .ok B :=
  let ⟨B, h, _⟩ := C32_identity_partial (gridOf_isGrid toyGeo (by decide) fun i j => i * j - 3) toyGeo_increasing
    edgeFill true none (by intro k hk; cases hk)
  ⟨B, h⟩

/-- C32_linear with a filter that is finite: upward continuation. -/
example : FiniteOn toyGeo true none (upwardContinuationKernel 10) :=
  FiniteOn.of (upward_finite 10) _ _ _

/-- C32_padded: padding of the toy grid by (1, 2) and (3, 0). -/
example (v : ℕ → ℕ → ℝ) : ∃ g, xrftPad edgeFill "edge" none (1, 2) (3, 0)
      ⟨toyGeo.n, toyGeo.m, (List.range toyGeo.n).map toyGeo.northing,
        (List.range toyGeo.m).map toyGeo.easting, fun i j => if i < toyGeo.n ∧ j < toyGeo.m then v i j else 0⟩ =
        .ok g ∧
    IsGrid (gridOf ⟨"northing", "easting", 1 + 5 + 2, 3 + 8 + 0, toyGeo.northing 0 - 1 * 2, 2,
      toyGeo.easting 0 - 3 * 3, 3⟩ g.val) ⟨"northing", "easting", 1 + 5 + 2, 3 + 8 + 0,
        toyGeo.northing 0 - 1 * 2, 2, toyGeo.easting 0 - 3 * 3, 3⟩ g.val :=
  ⟨_, xrftPad_regular (y0 := toyGeo.y0) (x0 := toyGeo.x0) toyGeo_increasing.n2 toyGeo_increasing.m2
    toyGeo_increasing.dy0 toyGeo_increasing.dx0 (trunc toyGeo.n toyGeo.m v) edgeFill "edge" none (1, 2) (3, 0),
    gridOf_isGrid _ (by decide) _⟩

/-- C32_padded: widths for one of the dimensions only; the other one is not padded. -/
example : (∀ w ∈ [("easting", ((2 : ℕ), (3 : ℕ)))], w.1 = toyGeo.d0 ∨ w.1 = toyGeo.d1) ∧
    ([("easting", ((2 : ℕ), (3 : ℕ)))].lookup toyGeo.d0).getD (0, 0) = (0, 0) ∧
    ([("easting", ((2 : ℕ), (3 : ℕ)))].lookup toyGeo.d1).getD (0, 0) = (2, 3) := by
  refine ⟨?_, by decide, by decide⟩
  intro w hw
  rw [List.mem_singleton.1 hw]
  exact Or.inr rfl

/-- C32_decreasing: northing coordinates from the top down. -/
example : (⟨"northing", "easting", 4, 3, 30, -10, 0, 5⟩ : Geo).Valid ∧
    IsGrid (gridOf ⟨"northing", "easting", 4, 3, 30, -10, 0, 5⟩ fun i _ => i)
      ⟨"northing", "easting", 4, 3, 30, -10, 0, 5⟩ (fun i _ => i) :=
  ⟨⟨by decide, by decide, by decide, by norm_num, by norm_num⟩, gridOf_isGrid _ (by decide) _⟩

/-- A harmonic with two cycles along the northing and minus three along the easting. -/
example : IsHarmonic (gridOf toyGeo fun i j => harmonic (1 + 2 * Complex.I) ((-3 : ℤ) / (toyGeo.m * toyGeo.dx))
      ((2 : ℤ) / (toyGeo.n * toyGeo.dy)) (toyGeo.easting j) (toyGeo.northing i) 0)
    toyGeo (1 + 2 * Complex.I) 2 (-3) :=
  ⟨gridOf_isGrid _ (by decide) _, by decide, by decide⟩

/-- C34_cutoff: one cycle along the easting has the length of the grid. -/
example : Real.sqrt (((1 : ℤ) / (toyGeo.m * toyGeo.dx)) ^ 2 + ((0 : ℤ) / (toyGeo.n * toyGeo.dy)) ^ 2) =
    1 / 24 := by
  have h : Real.sqrt 576 = 24 := by
    rw [show (576 : ℝ) = 24 ^ 2 by norm_num, Real.sqrt_sq (by norm_num)]
  simp only [toyGeo]
  norm_num [h]

/-- C36: angles with nonzero sine. -/
example : Real.sin (90 * Real.pi / 180) ≠ 0 := by
  rw [show (90 : ℝ) * Real.pi / 180 = Real.pi / 2 by ring, Real.sin_pi_div_two]
  exact one_ne_zero

/-- C37: dictionaries with all keys, and calls without padding. -/
example : AllKeys { pad_width := some [("easting", (2, 3))], mode := some "reflect", constant_values := some none } := by
  simp [AllKeys]

/-- C38: the derivatives exist. -/
example : ∃ E N U, Derivatives edgeFill (gridOf toyGeo fun i j => i * j) true none E N U := by
  have hne : toyGeo.d0 ≠ toyGeo.d1 := by decide
  have key := fun t ht => C39_accepts edgeFill (gridOf_isGrid toyGeo hne fun i j => i * j)
    (gridOf_isGridXY toyGeo hne _) toyGeo_increasing true none (by intro k hk; cases hk) t ht
  obtain ⟨E, hE⟩ := key (.derivativeEasting 1 "finite-diff") (Or.inl rfl)
  obtain ⟨N, hN⟩ := key (.derivativeNorthing 1 "finite-diff") (Or.inl rfl)
  obtain ⟨U, hU⟩ := key (.derivativeUpward 1) trivial
  exact ⟨E, N, U, hE, hN, hU⟩

/-- C39: a grid with a NaN. -/
example : ∃ idx, InRange idx [5, 8] ∧ (fun _ : List ℕ => (none : Option ℝ)) idx = none :=
  ⟨[2, 7], by simp [InRange], rfl⟩

/-- C74: uneven coordinates 0, 1, 4, 9, ... are distinct. -/
example : Distinct 10 fun i : ℕ => (i : ℝ) ^ 2 := by
  intro i _ j _ h
  have : (i : ℝ) = j := by
    have h1 : (0 : ℝ) ≤ i := Nat.cast_nonneg i
    have h2 : (0 : ℝ) ≤ j := Nat.cast_nonneg j
    exact (pow_left_inj₀ h1 h2 two_ne_zero).1 h
  exact_mod_cast this

/-- C95: the toy grid in kilometres and in metres with another origin. -/
theorem toy_moved (v : ℕ → ℕ → ℝ) :
    MovedGrid (gridOf toyGeo v) (gridOf (toyGeo.moved 1000 500000 (-3)) v) toyGeo v 1000 500000 (-3) := by
  refine ⟨toyGeo_increasing, by norm_num, gridOf_isGrid _ (by decide) _, gridOf_isGridXY _ (by decide) _,
    gridOf_isGrid _ (by decide) _, ?_⟩
  have := gridOf_isGridXY (toyGeo.moved 1000 500000 (-3)) (by decide) v
  have e1 : (toyGeo.moved 1000 500000 (-3)).northing = fun i => 1000 * toyGeo.northing i + (-3) := by
    funext i; simp only [Geo.northing, Geo.moved]; ring
  have e2 : (toyGeo.moved 1000 500000 (-3)).easting = fun i => 1000 * toyGeo.easting i + 500000 := by
    funext i; simp only [Geo.easting, Geo.moved]; ring
  rw [e1, e2] at this
  exact this

theorem edgeFill_coordFree : CoordFreeFill edgeFill := fun _ _ _ _ _ _ _ _ _ _ _ _ _ => rfl

/-- C95: the second derivative upward in metres is the one in kilometres over 1000 ** 2. -/
example (v : ℕ → ℕ → ℝ) : SameUpTo toyGeo (1 / 1000 ^ 2)
    (derivativeUpward edgeFill (gridOf toyGeo v) 2).2
    (derivativeUpward edgeFill (gridOf (toyGeo.moved 1000 500000 (-3)) v) 2).2 :=
  C95_units (toy_moved v) edgeFill_coordFree true none (by intro k hk; cases hk) (.derivativeUpward 2)

/-- A grid with any coordinates. -/
noncomputable def gridXY (n m : ℕ) (y x : ℕ → ℝ) (v : ℕ → ℕ → ℝ) : Grid :=
  { dims := ["northing", "easting"], sizes := [n, m]
    coords := [("northing", ⟨["northing"], (List.range n).map y⟩), ("easting", ⟨["easting"], (List.range m).map x⟩)]
    data := fun idx => match idx with
      | [i, j] => some (v i j)
      | _ => none }

theorem gridXY_is (n m : ℕ) (y x : ℕ → ℝ) (v : ℕ → ℕ → ℝ) :
    IsGridXY (gridXY n m y x v) "northing" "easting" n m y x v :=
  ⟨rfl, rfl, by simp [gridXY], by simp [gridXY], fun _ _ _ _ => rfl⟩

/-- C95_irregular: unevenly spaced coordinates (squares), scaled by -2. -/
example (v : ℕ → ℕ → ℝ) : ∃ EA EB,
    (derivativeEasting edgeFill (gridXY 4 5 (fun i => (i : ℝ) ^ 2) (fun j => (j : ℝ) ^ 2) v) 2 "finite-diff").2 =
      .ok EA ∧
    (derivativeEasting edgeFill (gridXY 4 5 (fun i => -2 * (i : ℝ) ^ 2 + 1) (fun j => -2 * (j : ℝ) ^ 2 + 7) v) 2
      "finite-diff").2 = .ok EB ∧
    ∀ i < 4, ∀ j < 5, EB.data [i, j] = (EA.data [i, j]).map (1 / (-2) ^ 2 * ·) :=
  (C95_irregular (by norm_num) (by norm_num) (by norm_num) (gridXY_is _ _ _ _ v) (gridXY_is _ _ _ _ v)
    edgeFill 2 true none).1

/-- C104: an upward derivative and then an upward continuation of the toy grid run, without NaN. -/
theorem toy_two_filters (v : ℕ → ℕ → ℝ) : ∃ B w C x,
    ((Transformation.derivativeUpward 1).call edgeFill (gridOf toyGeo v) false none).2 = .ok B ∧
    IsGrid B toyGeo w ∧ ((Transformation.upwardContinuation 3).call edgeFill B false none).2 = .ok C ∧
    IsGrid C toyGeo x := by
  obtain ⟨B, w, h1, h2, -⟩ := filter_run (gridOf_isGrid toyGeo (by decide) v) toyGeo_increasing edgeFill
    (k := derivativeUpwardKernel 1) (kfinite_of (fun _ _ => ⟨_, rfl⟩) _ _ _ _) false
  obtain ⟨C, x, h3, h4, -⟩ := filter_run h2 toyGeo_increasing edgeFill (k := upwardContinuationKernel 3)
    (kfinite_of (fun _ _ => ⟨_, rfl⟩) _ _ _ _) true
  exact ⟨B, w, C, x, h1, h2, h3, h4⟩

example (v : ℕ → ℕ → ℝ) : ∃ B' C' C,
    (upwardContinuation edgeFill (gridOf toyGeo v) 3 (pad := false)).2 = .ok B' ∧
    (derivativeUpward edgeFill B' 1 (pad := false)).2 = .ok C' ∧ SameGrid C C' := by
  obtain ⟨B, w, C, x, h1, h2, h3, h4⟩ := toy_two_filters v
  obtain ⟨B', C', h5, h6, h7⟩ := C104_commute (gridOf_isGrid toyGeo (by decide) v) toyGeo_increasing edgeFill
    (.derivativeUpward 1) (.upwardContinuation 3) trivial trivial h1 h2 h3 h4
  exact ⟨B', C', C, h5, h6, h7⟩

/-- C104: the toy grid has an odd number of rows and an even number of columns. -/
example : Odd toyGeo.n ∧ Even toyGeo.m := ⟨⟨2, rfl⟩, ⟨4, rfl⟩⟩

/-- C104_not_full: the second derivative of the alternating toy grid is not zero. -/
example : -(Real.pi / toyGeo.dx) ^ 2 * (-1) ^ 1 ≠ 0 := by
  have := Real.pi_pos
  simp only [toyGeo]
  norm_num

/-- C104_mean: factors zero and one. -/
example : (Transformation.gaussianLowpass 5).meanFactor = 1 ∧
    (Transformation.reductionToPole 45 3 (some 1) (some 2)).meanFactor = 0 ∧
    (Transformation.derivativeEasting 2 "fft").meanFactor = 0 := by
  simp [Transformation.meanFactor]

end Verif.Filters
