import Verif.Ellipsoids.PropsF

/-! Properties C83 and C84: the points of `get_surface`, and the independence of the field on the
description of the body. -/

namespace Verif.Ellipsoids
open Filter Topology Verif.Forward Verif.Distance

/-! ### C83: get_surface -/

theorem linspace_length (x y : ℝ) (n : ℕ) : (linspace x y n).length = n := by
  unfold linspace
  split_ifs with h
  · simp [h]
  · simp

theorem linspace_get (x y : ℝ) {n i : ℕ} (hi : i < n) :
    (linspace x y n)[i]? = some (x + (i : ℝ) * ((y - x) / ((n : ℝ) - 1))) := by
  unfold linspace
  split_ifs with h
  · subst h
    have : i = 0 := by omega
    subst this
    simp
  · rw [List.getElem?_map, List.getElem?_range hi]
    rfl

/-- Point of the grid of `get_surface` in a row and a column. -/
noncomputable def surfacePoint (e : Ellipsoid) (lon lat : ℝ) : V3 :=
  e.rotationMatrix.mulVec ![e.a * Real.cos lon * Real.cos lat, e.b * Real.sin lon * Real.cos lat,
    e.c * Real.sin lat] + e.center

theorem getSurface_get (e : Ellipsoid) {n m i j : ℕ} (hi : i < m) (hj : j < n) :
    ((getSurface e n m)[i]?.bind fun row => row[j]?) = some (surfacePoint e
      ((j : ℝ) * (2 * Real.pi / ((n : ℝ) - 1))) (-Real.pi / 2 + (i : ℝ) * (Real.pi / ((m : ℝ) - 1)))) := by
  unfold getSurface
  simp only [List.getElem?_map]
  rw [linspace_get _ _ hi]
  simp only [Option.map_some, Option.bind_some, List.getElem?_map]
  rw [linspace_get _ _ hj]
  simp only [Option.map_some]
  congr 1
  unfold surfacePoint
  have h1 : (2 * Real.pi - 0) = 2 * Real.pi := sub_zero _
  have h2 : Real.pi / 2 - -Real.pi / 2 = Real.pi := by ring
  rw [h1, h2, zero_add]

/-- C83: the arrays returned by `get_surface` have one row for each latitude and one column for each
longitude. -/
theorem C83_shape (e : Ellipsoid) (lon_size lat_size : ℕ) :
    (getSurface e lon_size lat_size).length = lat_size ∧
      ∀ row ∈ getSurface e lon_size lat_size, row.length = lon_size := by
  unfold getSurface
  constructor
  · rw [List.length_map, linspace_length]
  · intro row hrow
    obtain ⟨lat, _, rfl⟩ := List.mem_map.1 hrow
    rw [List.length_map, linspace_length]

/-- C83: every point is on the surface of the body. -/
theorem C83_on_surface (e : Ellipsoid) (h : e.Valid) (lon_size lat_size : ℕ) :
    ∀ row ∈ getSurface e lon_size lat_size, ∀ p ∈ row, e.OnSurface p := by
  intro row hrow p hp
  unfold getSurface at hrow
  obtain ⟨lat, _, rfl⟩ := List.mem_map.1 hrow
  obtain ⟨lon, _, rfl⟩ := List.mem_map.1 hp
  refine ⟨_, rfl, ?_⟩
  unfold quadric
  simp only [Matrix.cons_val_zero, Matrix.cons_val_one, Matrix.cons_val]
  have ha := h.1.ne'; have hb := h.2.1.ne'; have hc := h.2.2.ne'
  have e1 : (e.a * Real.cos lon * Real.cos lat) ^ 2 / e.a ^ 2 = (Real.cos lon * Real.cos lat) ^ 2 := by
    field_simp
  have e2 : (e.b * Real.sin lon * Real.cos lat) ^ 2 / e.b ^ 2 = (Real.sin lon * Real.cos lat) ^ 2 := by
    field_simp
  have e3 : (e.c * Real.sin lat) ^ 2 / e.c ^ 2 = Real.sin lat ^ 2 := by
    field_simp
  rw [e1, e2, e3]
  have h1 := Real.sin_sq_add_cos_sq lon
  have h2 := Real.sin_sq_add_cos_sq lat
  calc _ = (Real.sin lon ^ 2 + Real.cos lon ^ 2) * Real.cos lat ^ 2 + Real.sin lat ^ 2 := by ring
    _ = 1 := by rw [h1]; linarith

/-- C83: the surface is closed: the last column is equal to the first one, all the points of the first
row are the lower end of the third axis and all those of the last row are its upper end. -/
theorem C83_closed (e : Ellipsoid) {n m : ℕ} (hn : 2 ≤ n) (hm : 2 ≤ m) :
    (∀ i < m, ((getSurface e n m)[i]?.bind fun row => row[n - 1]?) =
      ((getSurface e n m)[i]?.bind fun row => row[0]?)) ∧
    ∀ j < n, ((getSurface e n m)[0]?.bind fun row => row[j]?) =
        some (e.rotationMatrix.mulVec ![0, 0, -e.c] + e.center) ∧
      ((getSurface e n m)[m - 1]?.bind fun row => row[j]?) =
        some (e.rotationMatrix.mulVec ![0, 0, e.c] + e.center) := by
  have hn1 : ((n - 1 : ℕ) : ℝ) = (n : ℝ) - 1 := by
    rw [Nat.cast_sub (by omega)]; simp
  have hm1 : ((m - 1 : ℕ) : ℝ) = (m : ℝ) - 1 := by
    rw [Nat.cast_sub (by omega)]; simp
  have hn0 : (n : ℝ) - 1 ≠ 0 := by
    have : (2 : ℝ) ≤ n := by exact_mod_cast hn
    exact ne_of_gt (by linarith)
  have hm0 : (m : ℝ) - 1 ≠ 0 := by
    have : (2 : ℝ) ≤ m := by exact_mod_cast hm
    exact ne_of_gt (by linarith)
  constructor
  · intro i hi
    rw [getSurface_get e hi (by omega : n - 1 < n), getSurface_get e hi (by omega : 0 < n), hn1,
      mul_div_cancel₀ _ hn0]
    simp [surfacePoint]
  · intro j hj
    rw [getSurface_get e (by omega : 0 < m) hj, getSurface_get e (by omega : m - 1 < m) hj, hm1,
      mul_div_cancel₀ _ hm0]
    have h2 : -Real.pi / 2 + Real.pi = Real.pi / 2 := by ring
    have h3 : -Real.pi / 2 = -(Real.pi / 2) := by ring
    rw [h2]
    constructor
    · simp [surfacePoint, h3]
    · simp [surfacePoint]

/-! ### C84: the field depends on the body only -/

/-- Two bodies are the same set of points. -/
def SameBody (e e' : Ellipsoid) : Prop := ∀ p, e.Inside p ↔ e'.Inside p

theorem inside_center {e : Ellipsoid} : e.Inside e.center := by
  refine ⟨0, by simp, ?_⟩
  simp [quadric]

/-- A body is symmetric about its center. -/
theorem inside_reflect {e : Ellipsoid} {p : V3} (h : e.Inside p) : e.Inside (e.center + e.center - p) := by
  obtain ⟨v, rfl, hv⟩ := h
  refine ⟨-v, ?_, by rw [quadric_neg]; exact hv⟩
  rw [Matrix.mulVec_neg]
  abel

theorem inside_bounded {e : Ellipsoid} (h : e.Valid) {p : V3} (hp : e.Inside p) :
    e.distance p ^ 2 ≤ e.a ^ 2 + e.b ^ 2 + e.c ^ 2 := by
  rw [inside_iff] at hp
  have hd := local_norm e p
  rw [← hd, Fin.sum_univ_three]
  unfold quadric at hp
  have ha := pow_pos h.1 2; have hb := pow_pos h.2.1 2; have hc := pow_pos h.2.2 2
  have h0 : 0 ≤ (e.local p) 0 ^ 2 / e.a ^ 2 := by positivity
  have h1 : 0 ≤ (e.local p) 1 ^ 2 / e.b ^ 2 := by positivity
  have h2 : 0 ≤ (e.local p) 2 ^ 2 / e.c ^ 2 := by positivity
  have g0 : (e.local p) 0 ^ 2 ≤ e.a ^ 2 := by
    rw [← div_le_one ha]; linarith
  have g1 : (e.local p) 1 ^ 2 ≤ e.b ^ 2 := by
    rw [← div_le_one hb]; linarith
  have g2 : (e.local p) 2 ^ 2 ≤ e.c ^ 2 := by
    rw [← div_le_one hc]; linarith
  linarith

/-- Equal sets have equal centers. -/
theorem sameBody_center {e e' : Ellipsoid} (h : e.Valid) (hs : SameBody e e') : e.center = e'.center := by
  by_contra hne
  set d := e'.center - e.center with hd
  have htr : ∀ p, e.Inside p → e.Inside (p + (2 : ℝ) • d) := by
    intro p hp
    have h1 := inside_reflect hp
    have h2 := (hs _).2 (inside_reflect ((hs _).1 h1))
    have : e'.center + e'.center - (e.center + e.center - p) = p + (2 : ℝ) • d := by
      rw [hd, two_smul]; abel
    rwa [this] at h2
  have hall : ∀ n : ℕ, e.Inside (e.center + (n : ℝ) • (2 : ℝ) • d) := by
    intro n
    induction n with
    | zero => simpa using inside_center
    | succ n ih =>
      have := htr _ ih
      rw [add_assoc] at this
      have h2 : (n : ℝ) • (2 : ℝ) • d + (2 : ℝ) • d = ((n + 1 : ℕ) : ℝ) • (2 : ℝ) • d := by
        push_cast; rw [add_smul, one_smul]
      rwa [h2] at this
  have hpos : 0 < d 0 ^ 2 + d 1 ^ 2 + d 2 ^ 2 := by
    by_contra hle
    have h0 : d 0 = 0 := by nlinarith [sq_nonneg (d 0), sq_nonneg (d 1), sq_nonneg (d 2)]
    have h1 : d 1 = 0 := by nlinarith [sq_nonneg (d 0), sq_nonneg (d 1), sq_nonneg (d 2)]
    have h2 : d 2 = 0 := by nlinarith [sq_nonneg (d 0), sq_nonneg (d 1), sq_nonneg (d 2)]
    refine hne ?_
    have : d = 0 := by
      ext i; fin_cases i
      exacts [h0, h1, h2]
    rw [hd, sub_eq_zero] at this
    exact this.symm
  set q := d 0 ^ 2 + d 1 ^ 2 + d 2 ^ 2 with hq
  obtain ⟨n, hn⟩ := exists_nat_gt ((e.a ^ 2 + e.b ^ 2 + e.c ^ 2) / q)
  have hb := inside_bounded h (hall n)
  have hdist : e.distance (e.center + (n : ℝ) • (2 : ℝ) • d) ^ 2 = 4 * (n : ℝ) ^ 2 * q := by
    unfold Ellipsoid.distance
    rw [Real.sq_sqrt (by positivity)]
    simp only [Pi.add_apply, Pi.smul_apply, smul_eq_mul, add_sub_cancel_left, hq]
    ring
  rw [hdist] at hb
  rw [div_lt_iff₀ hpos] at hn
  have hn1 : (1 : ℝ) ≤ n := by
    rcases Nat.eq_zero_or_pos n with h0 | h0
    · subst h0
      have ha := pow_pos h.1 2; have hb' := pow_pos h.2.1 2; have hc := pow_pos h.2.2 2
      norm_num at hn
      linarith
    · exact_mod_cast h0
  nlinarith [mul_le_mul_of_nonneg_left hn1 (by positivity : (0 : ℝ) ≤ n), hpos]

/-- The quadratic form of the body. -/
noncomputable def formMatrix (e : Ellipsoid) : M3 :=
  e.toSpace (Matrix.diagonal fun i => 1 / e.axes i ^ 2)

theorem quadric_form (e : Ellipsoid) (p : V3) : quadric e.a e.b e.c (e.local p) =
    dotProduct (p - e.center) ((formMatrix e).mulVec (p - e.center)) := by
  unfold formMatrix
  rw [toSpace_mulVec, Matrix.dotProduct_mulVec, ← Matrix.mulVec_transpose]
  change _ = dotProduct (e.local p) ((Matrix.diagonal fun i => 1 / e.axes i ^ 2).mulVec (e.local p))
  simp only [dotProduct, Matrix.mulVec_diagonal, Fin.sum_univ_three, quadric, Ellipsoid.axes,
    Matrix.cons_val_zero, Matrix.cons_val_one, Matrix.cons_val]
  ring

theorem form_symm (e : Ellipsoid) : (formMatrix e).transpose = formMatrix e :=
  toSpace_symm e (Matrix.diagonal_transpose _)

/-- Equal sets have equal forms. -/
theorem sameBody_form {e e' : Ellipsoid} (h : e.Valid) (hs : SameBody e e') :
    formMatrix e = formMatrix e' := by
  have hc := sameBody_center h hs
  have hlt : ∀ v : V3, dotProduct v ((formMatrix e).mulVec v) < 1 ↔
      dotProduct v ((formMatrix e').mulVec v) < 1 := by
    intro v
    have h1 := quadric_form e (v + e.center)
    have h2 := quadric_form e' (v + e.center)
    rw [hc] at h2
    rw [add_sub_cancel_right] at h1 h2
    rw [← h1, ← h2, ← inside_iff, ← inside_iff, ← hc]
    exact hs _
  have hnn : ∀ (e : Ellipsoid) (v : V3), 0 ≤ dotProduct v ((formMatrix e).mulVec v) := by
    intro e v
    have h1 := quadric_form e (v + e.center)
    rw [add_sub_cancel_right] at h1
    rw [← h1]; unfold quadric; positivity
  have hscale : ∀ (A : M3) (t : ℝ) (v : V3), dotProduct (t • v) (A.mulVec (t • v)) =
      t ^ 2 * dotProduct v (A.mulVec v) := by
    intro A t v
    rw [Matrix.mulVec_smul, dotProduct_smul, smul_dotProduct, smul_eq_mul, smul_eq_mul]
    ring
  have hle : ∀ (A B : M3), (∀ v : V3, 0 ≤ dotProduct v (A.mulVec v)) →
      (∀ v : V3, 0 ≤ dotProduct v (B.mulVec v)) →
      (∀ v : V3, dotProduct v (A.mulVec v) < 1 → dotProduct v (B.mulVec v) < 1) →
      ∀ v : V3, dotProduct v (B.mulVec v) ≤ dotProduct v (A.mulVec v) := by
    intro A B hA hB hAB v
    by_contra hcon
    have hcon := not_le.1 hcon
    set x := dotProduct v (A.mulVec v)
    set y := dotProduct v (B.mulVec v)
    have hx := hA v; have hy0 : 0 < y := lt_of_le_of_lt hx hcon
    have hm : 0 < (x + y) / 2 := by linarith
    -- scale so that the first form is under one and the second is over one
    have ht : (√(2 / (x + y))) ^ 2 = 2 / (x + y) := Real.sq_sqrt (by positivity)
    have h1 := hAB (√(2 / (x + y)) • v)
    rw [hscale, hscale, ht] at h1
    have h2 : 2 / (x + y) * x < 1 := by
      rw [div_mul_eq_mul_div, div_lt_one (by linarith)]; linarith
    have h3 := h1 h2
    rw [div_mul_eq_mul_div, div_lt_one (by linarith)] at h3
    linarith
  have heq : ∀ v : V3, dotProduct v ((formMatrix e).mulVec v) =
      dotProduct v ((formMatrix e').mulVec v) := fun v => le_antisymm
    (hle _ _ (hnn e') (hnn e) (fun v => (hlt v).2) v) (hle _ _ (hnn e) (hnn e') (fun v => (hlt v).1) v)
  -- polarization
  have hentry : ∀ (A : M3), A.transpose = A → ∀ i j : Fin 3, 2 * A i j =
      dotProduct (Pi.single i 1 + Pi.single j 1) (A.mulVec (Pi.single i 1 + Pi.single j 1)) -
      dotProduct (Pi.single i 1) (A.mulVec (Pi.single i 1)) -
      dotProduct (Pi.single j 1) (A.mulVec (Pi.single j 1)) := by
    intro A hA i j
    have hsym : A j i = A i j := by
      conv_lhs => rw [← hA]
      rfl
    simp only [Matrix.mulVec_add, dotProduct_add, add_dotProduct, Matrix.mulVec_single_one,
      single_one_dotProduct, Matrix.col_apply, hsym]
    ring
  ext i j
  have h1 := hentry _ (form_symm e) i j
  have h2 := hentry _ (form_symm e') i j
  rw [heq, heq, heq, ← h2] at h1
  linarith

/-- The frames of two descriptions of a body differ by a rotation that only mixes equal semiaxes. -/
theorem sameBody_mix {e e' : Ellipsoid} (h : e.Valid) (h' : e'.Valid) (hs : SameBody e e') :
    ∀ i j, (e.rotationMatrix.transpose * e'.rotationMatrix) i j ≠ 0 → e.axes i = e'.axes j := by
  have hf := sameBody_form h hs
  have hR := body_proper e; have hR' := body_proper e'
  have hmat : Matrix.diagonal (fun i => 1 / e.axes i ^ 2) *
      (e.rotationMatrix.transpose * e'.rotationMatrix) =
      (e.rotationMatrix.transpose * e'.rotationMatrix) * Matrix.diagonal fun i => 1 / e'.axes i ^ 2 := by
    unfold formMatrix Ellipsoid.toSpace at hf
    have := congrArg (fun X => e.rotationMatrix.transpose * X * e'.rotationMatrix) hf
    calc _ = (e.rotationMatrix.transpose * e.rotationMatrix) *
          Matrix.diagonal (fun i => 1 / e.axes i ^ 2) *
          (e.rotationMatrix.transpose * e'.rotationMatrix) := by rw [hR.2.1, Matrix.one_mul]
      _ = e.rotationMatrix.transpose * (e.rotationMatrix *
          Matrix.diagonal (fun i => 1 / e.axes i ^ 2) * e.rotationMatrix.transpose) *
          e'.rotationMatrix := by simp only [Matrix.mul_assoc]
      _ = _ := this
      _ = (e.rotationMatrix.transpose * e'.rotationMatrix) *
          Matrix.diagonal (fun i => 1 / e'.axes i ^ 2) *
          (e'.rotationMatrix.transpose * e'.rotationMatrix) := by simp only [Matrix.mul_assoc]
      _ = _ := by rw [hR'.2.1, Matrix.mul_one]
  intro i j hij
  have hent := congrFun (congrFun hmat i) j
  rw [Matrix.diagonal_mul, Matrix.mul_diagonal, mul_comm] at hent
  have := mul_left_cancel₀ hij hent
  have hi := valid_positive h i; have hj := valid_positive h' j
  have hsq : e.axes i ^ 2 = e'.axes j ^ 2 := by
    have h2 := congrArg (fun x => 1 / x) this
    simpa using h2
  exact (pow_left_inj₀ hi.le hj.le (by norm_num)).1 hsq

/-- Functions of the semiaxes are the same tensors in both descriptions. -/
theorem sameBody_tensor {e e' : Ellipsoid} (h : e.Valid) (h' : e'.Valid) (hs : SameBody e e')
    (f : ℝ → ℝ) : e.toSpace (Matrix.diagonal fun i => f (e.axes i)) =
      e'.toSpace (Matrix.diagonal fun i => f (e'.axes i)) := by
  have hR := body_proper e; have hR' := body_proper e'
  have hmix := sameBody_mix h h' hs
  set O := e.rotationMatrix.transpose * e'.rotationMatrix with hO
  have hcomm : Matrix.diagonal (fun i => f (e.axes i)) * O =
      O * Matrix.diagonal fun i => f (e'.axes i) := by
    ext i j
    rw [Matrix.diagonal_mul, Matrix.mul_diagonal]
    by_cases hij : O i j = 0
    · rw [hij]; ring
    · rw [hmix i j hij]; ring
  have hback : O * e'.rotationMatrix.transpose = e.rotationMatrix.transpose := by
    rw [hO, Matrix.mul_assoc, hR'.1, Matrix.mul_one]
  have hfront : e.rotationMatrix * O = e'.rotationMatrix := by
    rw [hO, ← Matrix.mul_assoc, hR.1, Matrix.one_mul]
  unfold Ellipsoid.toSpace
  rw [← hback, Matrix.mul_assoc, ← Matrix.mul_assoc (Matrix.diagonal _) O, hcomm, Matrix.mul_assoc O,
    ← Matrix.mul_assoc, hfront, ← Matrix.mul_assoc]

/-- Products over the semiaxes are the same in both descriptions. -/
theorem sameBody_prod {e e' : Ellipsoid} (h : e.Valid) (h' : e'.Valid) (hs : SameBody e e')
    (f : ℝ → ℝ) : f (e.axes 0) * f (e.axes 1) * f (e.axes 2) =
      f (e'.axes 0) * f (e'.axes 1) * f (e'.axes 2) := by
  have hR := body_proper e; have hR' := body_proper e'
  have := congrArg Matrix.det (sameBody_tensor h h' hs f)
  unfold Ellipsoid.toSpace at this
  rw [Matrix.det_mul, Matrix.det_mul, Matrix.det_mul, Matrix.det_mul, Matrix.det_transpose,
    Matrix.det_transpose, hR.2.2, hR'.2.2, Matrix.det_diagonal, Matrix.det_diagonal,
    Fin.prod_univ_three, Fin.prod_univ_three] at this
  linarith

theorem sameBody_sum {e e' : Ellipsoid} (h : e.Valid) (h' : e'.Valid) (hs : SameBody e e') (f : ℝ → ℝ)
    (p : V3) : ∑ i, f (e.axes i) * (e.local p) i ^ 2 = ∑ i, f (e'.axes i) * (e'.local p) i ^ 2 := by
  have key : ∀ e : Ellipsoid, ∑ i, f (e.axes i) * (e.local p) i ^ 2 =
      dotProduct (p - e.center)
        ((e.toSpace (Matrix.diagonal fun i => f (e.axes i))).mulVec (p - e.center)) := by
    intro e
    rw [toSpace_mulVec, Matrix.dotProduct_mulVec, ← Matrix.mulVec_transpose]
    change _ = dotProduct (e.local p) ((Matrix.diagonal fun i => f (e.axes i)).mulVec (e.local p))
    simp only [dotProduct, Matrix.mulVec_diagonal]
    exact Finset.sum_congr rfl fun i _ => by ring
  rw [key e, key e', sameBody_tensor h h' hs f, sameBody_center h hs]

theorem sameBody_parameter {e e' : Ellipsoid} (h : e.Valid) (h' : e'.Valid) (hs : SameBody e e')
    (p : V3) : confocalParameter e.axes (e.local p) = confocalParameter e'.axes (e'.local p) := by
  unfold confocalParameter
  congr 1
  ext l
  have := sameBody_sum h h' hs (fun x => 1 / (x ^ 2 + l)) p
  have h1 : ∀ e : Ellipsoid, ∑ i, (e.local p) i ^ 2 / (e.axes i ^ 2 + l) =
      ∑ i, 1 / (e.axes i ^ 2 + l) * (e.local p) i ^ 2 := fun e =>
    Finset.sum_congr rfl fun i _ => by ring
  simp only [Set.mem_ofPred_eq, h1, this]

theorem sameBody_integral {e e' : Ellipsoid} (h : e.Valid) (h' : e'.Valid) (hs : SameBody e e')
    (x l : ℝ) : ellipticIntegral (e.axes 0) (e.axes 1) (e.axes 2) x l =
      ellipticIntegral (e'.axes 0) (e'.axes 1) (e'.axes 2) x l := by
  unfold ellipticIntegral rootProduct
  have := fun u : ℝ => sameBody_prod h h' hs fun x => x ^ 2 + u
  simp only [this]

/-- The attraction of a body is a property of the set of its points. -/
theorem sameBody_attraction {e e' : Ellipsoid} (h : e.Valid) (h' : e'.Valid) (hs : SameBody e e')
    (density : ℝ) (p : V3) : e.attraction density p = e'.attraction density p := by
  have key : ∀ e : Ellipsoid, e.attraction density p =
      (-2 * Real.pi * gravitationalConst * density * (e.axes 0 * e.axes 1 * e.axes 2)) •
        (e.toSpace (Matrix.diagonal fun i => ellipticIntegral (e.axes 0) (e.axes 1) (e.axes 2) (e.axes i)
          (confocalParameter e.axes (e.local p)))).mulVec (p - e.center) := by
    intro e
    rw [toSpace_mulVec, ← Matrix.mulVec_smul]
    unfold Ellipsoid.attraction
    congr 1
    ext i
    rw [gravitationalConst_value]
    simp only [dirichletAttraction, Pi.smul_apply, Matrix.mulVec_diagonal, smul_eq_mul]
    change _ * (e.local p) i * _ = _ * (_ * (e.local p) i)
    unfold Ellipsoid.local
    ring
  rw [key e, key e', ← sameBody_parameter h h' hs, ← sameBody_center h hs,
    ← sameBody_prod h h' hs fun x => x]
  congr 1
  have := sameBody_tensor h h' hs fun x => ellipticIntegral (e.axes 0) (e.axes 1) (e.axes 2) x
    (confocalParameter e.axes (e.local p))
  rw [this]
  simp only [sameBody_integral h h' hs]

/-- C84: bodies with the same points and the same density have the same gravity, whatever their
semiaxes, angles and centers: exchanged semiaxes with other angles, angles that differ by half turns, any
angles for spheres. -/
theorem C84_gravity (e e' : Ellipsoid) (h : e.Valid ∧ e.Exact) (h' : e'.Valid ∧ e'.Exact)
    (hs : SameBody e e') (hd : e.density = e'.density) (shape : List ℕ) (pts : List P3)
    (hshape : pts.length = shape.prod) :
    ellipsoidGravity (arrays shape pts) (.one e) = ellipsoidGravity (arrays shape pts) (.one e') := by
  have hone : ∀ e : Ellipsoid, e.Valid ∧ e.Exact → ∀ x ∈ (Bodies.one e).toList, x.Valid ∧ x.Exact := by
    intro e he x hx
    simp only [Bodies.toList, List.mem_singleton] at hx
    subst hx; exact he
  rw [C69_value shape pts hshape _ (hone e h), C69_value shape pts hshape _ (hone e' h')]
  have hg : e.gravity = e'.gravity := by
    funext p
    unfold Ellipsoid.gravity
    rw [hd]
    rcases e'.density with _ | d
    · rfl
    · exact sameBody_attraction h.1 h'.1 hs d p
  simp only [Bodies.toList, List.map_cons, List.map_nil, hg, List.countP_cons, List.countP_nil, hd]

theorem sameBody_inside {e e' : Ellipsoid} (h : e.Valid) (h' : e'.Valid) (hs : SameBody e e') :
    e.toSpace (demagInside e.axes) = e'.toSpace (demagInside e'.axes) := by
  unfold demagInside
  have h1 := sameBody_tensor h h' hs fun x => e.axes 0 * e.axes 1 * e.axes 2 / 2 *
    ellipticIntegral (e.axes 0) (e.axes 1) (e.axes 2) x 0
  rw [h1]
  simp only [sameBody_integral h h' hs]
  rw [sameBody_prod h h' hs fun x => x]

/-- The tensor outside as the sum of a function of the semiaxes and a product of vectors. -/
theorem demagOutside_split (s v : V3) : demagOutside s v =
    Matrix.diagonal (fun i => s 0 * s 1 * s 2 / 2 *
      ellipticIntegral (s 0) (s 1) (s 2) (s i) (confocalParameter s v)) -
    (s 0 * s 1 * s 2 / (rootProduct (s 0) (s 1) (s 2) (confocalParameter s v) *
      ∑ j, (1 / (s j ^ 2 + confocalParameter s v)) ^ 2 * v j ^ 2)) •
      Matrix.vecMulVec (fun i => 1 / (s i ^ 2 + confocalParameter s v) * v i)
        (fun i => 1 / (s i ^ 2 + confocalParameter s v) * v i) := by
  ext i j
  have hsum : ∑ j, (v j / (s j ^ 2 + confocalParameter s v)) ^ 2 =
      ∑ j, (1 / (s j ^ 2 + confocalParameter s v)) ^ 2 * v j ^ 2 :=
    Finset.sum_congr rfl fun k _ => by rw [div_pow, div_pow, one_pow]; ring
  simp only [demagOutside, confocalGradient, Matrix.sub_apply, Matrix.smul_apply, smul_eq_mul,
    Matrix.diagonal_apply, Matrix.vecMulVec_apply, hsum]
  set D := rootProduct (s 0) (s 1) (s 2) (confocalParameter s v)
  set S := ∑ j, (1 / (s j ^ 2 + confocalParameter s v)) ^ 2 * v j ^ 2
  have e1 : s 0 * s 1 * s 2 / (D * S) = s 0 * s 1 * s 2 * D⁻¹ * S⁻¹ := by
    rw [div_eq_mul_inv, mul_inv]; ring
  rw [e1]
  simp only [one_div, mul_inv, div_eq_mul_inv]
  split_ifs <;> ring

theorem sameBody_outside {e e' : Ellipsoid} (h : e.Valid) (h' : e'.Valid) (hs : SameBody e e') (p : V3) :
    e.toSpace (demagOutside e.axes (e.local p)) = e'.toSpace (demagOutside e'.axes (e'.local p)) := by
  have hsub : ∀ (e : Ellipsoid) (A B : M3) (k : ℝ), e.toSpace (A - k • B) =
      e.toSpace A - k • e.toSpace B := by
    intro e A B k
    unfold Ellipsoid.toSpace
    rw [Matrix.mul_sub, Matrix.sub_mul, Matrix.mul_smul, Matrix.smul_mul]
  have hvec : ∀ (e : Ellipsoid) (u w : V3), e.toSpace (Matrix.vecMulVec u w) =
      Matrix.vecMulVec (e.rotationMatrix.mulVec u) (e.rotationMatrix.mulVec w) := by
    intro e u w
    unfold Ellipsoid.toSpace
    rw [Matrix.mul_vecMulVec, Matrix.vecMulVec_mul, Matrix.vecMul_transpose]
  have hrot : ∀ (e : Ellipsoid) (f : ℝ → ℝ), e.rotationMatrix.mulVec (fun i => f (e.axes i) * (e.local p) i) =
      (e.toSpace (Matrix.diagonal fun i => f (e.axes i))).mulVec (p - e.center) := by
    intro e f
    rw [toSpace_mulVec]
    congr 1
    ext i
    rw [Matrix.mulVec_diagonal]
    rfl
  set l := confocalParameter e.axes (e.local p) with hl
  have hl' : confocalParameter e'.axes (e'.local p) = l := (sameBody_parameter h h' hs p).symm
  rw [demagOutside_split, demagOutside_split, hsub, hsub, hvec, hvec, ← hl, hl']
  have r1 := hrot e fun x => 1 / (x ^ 2 + l)
  have r2 := hrot e' fun x => 1 / (x ^ 2 + l)
  have hroot : rootProduct (e.axes 0) (e.axes 1) (e.axes 2) l =
      rootProduct (e'.axes 0) (e'.axes 1) (e'.axes 2) l := by
    unfold rootProduct
    rw [sameBody_prod h h' hs fun x => x ^ 2 + l]
  have h1 := sameBody_tensor h h' hs fun x => e.axes 0 * e.axes 1 * e.axes 2 / 2 *
    ellipticIntegral (e.axes 0) (e.axes 1) (e.axes 2) x l
  rw [r1, r2, sameBody_sum h h' hs (fun x => (1 / (x ^ 2 + l)) ^ 2), hroot,
    sameBody_tensor h h' hs (fun x => 1 / (x ^ 2 + l)), ← sameBody_center h hs, h1]
  simp only [sameBody_integral h h' hs]
  rw [sameBody_prod h h' hs fun x => x]

/-- C84: bodies with the same points, and the same susceptibility tensor and remanence in the frame of
easting, northing and upward, have the same magnetic field. -/
theorem C84_magnetic (mu0 : ℝ) (e e' : Ellipsoid) (h : e.Valid ∧ e.Passive ∧ e.Exact)
    (h' : e'.Valid ∧ e'.Passive ∧ e'.Exact) (hs : SameBody e e')
    (hchi : e.toSpace e.chi = e'.toSpace e'.chi) (hrem : e.remanence = e'.remanence) (B0 : V3) :
    ∃ field, ReturnsMagnetic mu0 (.one e) B0 field ∧ ReturnsMagnetic mu0 (.one e') B0 field := by
  obtain ⟨M, hM, hret⟩ := returnsMagnetic_one mu0 e h.1 h.2.1 h.2.2 B0
  obtain ⟨M', hM', hret'⟩ := returnsMagnetic_one mu0 e' h'.1 h'.2.1 h'.2.2 B0
  have hN := sameBody_inside h.1 h'.1 hs
  have hMM : M = M' := by
    obtain ⟨n, T, _, hEx, P, ν, hP, hν, hsum, hn⟩ := singleMagnetic_total h.1
    have hdet : (1 + n * e.chi).det ≠ 0 := by rw [hn]; exact passive_det h.2.1 hP hν hsum
    rw [(hEx h.2.2).1] at hdet
    refine solved_unique hdet (H0 := inducingH mu0 B0) (Mr := e.remanence) ?_ ?_
    · unfold SolvedByCode
      rw [Matrix.add_mulVec, Matrix.one_mulVec, ← Matrix.mulVec_mulVec]
      exact hM
    · unfold SolvedByCode
      rw [Matrix.add_mulVec, Matrix.one_mulVec, ← Matrix.mulVec_mulVec, hN, hchi, hrem]
      exact hM'
  refine ⟨_, hret, ?_⟩
  have hf : e.magneticField mu0 M = e'.magneticField mu0 M' := by
    funext p
    unfold Ellipsoid.magneticField
    by_cases hin : e.Inside p
    · rw [if_pos hin, if_pos ((hs p).1 hin), hN, hMM]
    · rw [if_neg hin, if_neg fun hh => hin ((hs p).2 hh), sameBody_outside h.1 h'.1 hs, hMM]
  rw [hf]
  exact hret'

end Verif.Ellipsoids
