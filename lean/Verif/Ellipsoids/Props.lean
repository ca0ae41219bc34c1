import Verif.Ellipsoids.LemmasI

/-! Properties C63 to C67 and C71: geometry, confocal coordinate, integrals and tensors. -/

namespace Verif.Ellipsoids
open Filter Topology

/-! ### C71: rotations -/

/-- C71: the rotation matrix of every body is orthogonal with determinant one. -/
theorem C71_rotation (yaw pitch roll : ℝ) : ProperRotation (getRotationMatrix yaw pitch roll) :=
  rotation_proper yaw pitch roll

/-- C71: zero angles rotate nothing. -/
theorem C71_identity : getRotationMatrix 0 0 0 = 1 := by
  unfold getRotationMatrix fromEulerZYX
  rw [neg_zero, radians_zero, rotZ_zero, rotY_zero, rotX_zero]
  simp

/-- C71: yaw turns east towards north about the upward axis (right-hand rule). -/
theorem C71_yaw (yaw : ℝ) :
    (getRotationMatrix yaw 0 0).mulVec east = Real.cos (radians yaw) • east + Real.sin (radians yaw) • north ∧
    (getRotationMatrix yaw 0 0).mulVec north =
      Real.cos (radians yaw) • north - Real.sin (radians yaw) • east ∧
    (getRotationMatrix yaw 0 0).mulVec up = up := by
  unfold getRotationMatrix fromEulerZYX
  rw [neg_zero, radians_zero, rotY_zero, rotX_zero, Matrix.mul_one, Matrix.mul_one]
  refine ⟨?_, ?_, ?_⟩ <;> ext i <;> fin_cases i <;>
    simp [rotZ, east, north, up, Matrix.mulVec, dotProduct, Fin.sum_univ_three]

/-- C71: a positive pitch lifts the side that points east and leaves the northing axis. -/
theorem C71_pitch (pitch : ℝ) :
    (getRotationMatrix 0 pitch 0).mulVec east =
      Real.cos (radians pitch) • east + Real.sin (radians pitch) • up ∧
    (getRotationMatrix 0 pitch 0).mulVec up =
      Real.cos (radians pitch) • up - Real.sin (radians pitch) • east ∧
    (getRotationMatrix 0 pitch 0).mulVec north = north := by
  unfold getRotationMatrix fromEulerZYX
  have hneg : radians (-pitch) = -radians pitch := by unfold radians; ring
  rw [radians_zero, rotZ_zero, rotX_zero, Matrix.mul_one, Matrix.one_mul, hneg]
  refine ⟨?_, ?_, ?_⟩ <;> ext i <;> fin_cases i <;>
    simp [rotY, east, north, up, Matrix.mulVec, dotProduct, Fin.sum_univ_three]

/-- C71: roll turns north upwards about the easting axis (right-hand rule). -/
theorem C71_roll (roll : ℝ) :
    (getRotationMatrix 0 0 roll).mulVec north =
      Real.cos (radians roll) • north + Real.sin (radians roll) • up ∧
    (getRotationMatrix 0 0 roll).mulVec up =
      Real.cos (radians roll) • up - Real.sin (radians roll) • north ∧
    (getRotationMatrix 0 0 roll).mulVec east = east := by
  unfold getRotationMatrix fromEulerZYX
  rw [neg_zero, radians_zero, rotZ_zero, rotY_zero, Matrix.mul_one, Matrix.one_mul]
  refine ⟨?_, ?_, ?_⟩ <;> ext i <;> fin_cases i <;>
    simp [rotX, east, north, up, Matrix.mulVec, dotProduct, Fin.sum_univ_three]

/-- C71: the rotations are intrinsic, in the order yaw, pitch, roll: pitch is about the northing axis
after the yaw and roll about the easting axis after yaw and pitch. -/
theorem C71_order (yaw pitch roll : ℝ) : getRotationMatrix yaw pitch roll =
    getRotationMatrix yaw 0 0 * getRotationMatrix 0 pitch 0 * getRotationMatrix 0 0 roll := by
  unfold getRotationMatrix fromEulerZYX
  simp only [neg_zero, radians_zero, rotZ_zero, rotY_zero, rotX_zero, Matrix.mul_one, Matrix.one_mul]

/-! ### C63: the sorted frame -/

/-- C63: for every body, in whatever order its semiaxes are given, the code finds a proper rotation to
the frame of the sorted semiaxes, which are the semiaxes of the body in decreasing order; the equation
of the body is that of the ellipsoid with the sorted semiaxes in this frame. -/
theorem C63_sorted (e : Ellipsoid) : ∃ P a b c, getSemiaxesRotationMatrix e = .ok P ∧
    sortedSemiaxes e = (a, b, c) ∧ ProperRotation P ∧ [a, b, c].Perm [e.a, e.b, e.c] ∧ b ≤ a ∧ c ≤ b ∧
    (∀ v, quadric a b c (P.transpose.mulVec v) = quadric e.a e.b e.c v) ∧
    (fun v => P.transpose.mulVec v) '' {v | quadric e.a e.b e.c v < 1} = {v | quadric a b c v < 1} := by
  obtain ⟨P, hP, hprop, ⟨σ, hσ, harr⟩, h1, h2⟩ := semiaxes_spec e
  have hq := arranges_quadric hσ harr
  refine ⟨P, _, _, _, hP, rfl, hprop, ?_, h1, h2, hq, ?_⟩
  · have := List.perm_insertionSort (· ≥ ·) [e.a, e.b, e.c]
    have hlen : ([e.a, e.b, e.c].insertionSort (· ≥ ·)).length = 3 := by
      rw [List.length_insertionSort]; rfl
    obtain ⟨x, y, z, h⟩ : ∃ x y z, [e.a, e.b, e.c].insertionSort (· ≥ ·) = [x, y, z] := by
      rcases hl : [e.a, e.b, e.c].insertionSort (· ≥ ·) with _ | ⟨x, _ | ⟨y, _ | ⟨z, _ | ⟨w, l⟩⟩⟩⟩ <;>
        rw [hl] at hlen <;> simp_all
    simp only [h] at this ⊢
    simpa using this
  · ext w
    constructor
    · rintro ⟨v, hv, rfl⟩
      exact (hq v).trans_lt hv
    · intro hw
      refine ⟨P.mulVec w, ?_, ?_⟩
      · have := hq (P.mulVec w)
        rw [Matrix.mulVec_mulVec, hprop.2.1, Matrix.one_mulVec] at this
        exact this.symm.trans_lt hw
      · simp only [Matrix.mulVec_mulVec, hprop.2.1, Matrix.one_mulVec]

/-- C63: the test by which the forward models tell internal from external points is exact: a point is
internal in the sorted frame if and only if it is inside of the body. -/
theorem C63_internal (e : Ellipsoid) (p : V3) : ∃ P a b c, getSemiaxesRotationMatrix e = .ok P ∧
    sortedSemiaxes e = (a, b, c) ∧
    (isInternal ((P.transpose * e.rotationMatrix.transpose).mulVec (p - e.center)) a b c = true ↔
      e.Inside p) := by
  obtain ⟨P, a, b, c, hP, hs, _, _, _, _, hq, _⟩ := C63_sorted e
  refine ⟨P, a, b, c, hP, hs, ?_⟩
  rw [inside_iff, ← hq, Ellipsoid.local, Matrix.mulVec_mulVec]
  exact decide_eq_true_iff

/-! ### C64: the confocal coordinate -/

/-- C64: for every point that is not inside of an ellipsoid with sorted semiaxes, `calculate_lambda`
returns a nonnegative number, the point is on the confocal ellipsoid with this parameter, and this is
the only parameter over `-c²` for which it is. -/
theorem C64_lambda {a b c : ℝ} (hc : 0 < c) (hbc : c ≤ b) (hab : b ≤ a) {v : V3}
    (hv : 1 ≤ quadric a b c v) : ∃ l, calculateLambda v a b c = .ok l ∧ 0 ≤ l ∧
      OnConfocal a b c v l ∧ ∀ m, -c ^ 2 < m → OnConfocal a b c v m → m = l := by
  have hs := positive_of_sorted hc hbc hab
  have hv' : 1 ≤ confocalSum ![a, b, c] v 0 := by rwa [← quadric_eq]
  refine ⟨_, calculateLambda_outside v hc hbc hab hv, confocalParameter_nonneg _ _, ?_, ?_⟩
  · rw [onConfocal_iff]; exact confocalParameter_root hs hv'
  · intro m hm h
    refine confocal_unique (by nlinarith) (by nlinarith) hm ?_ h ?_
    · have := confocalParameter_nonneg ![a, b, c] v
      nlinarith
    · rw [onConfocal_iff]; exact confocalParameter_root hs hv'

/-- C64: it is zero exactly on the surface. -/
theorem C64_surface {a b c : ℝ} (hc : 0 < c) (hbc : c ≤ b) (hab : b ≤ a) {v : V3}
    (hv : 1 ≤ quadric a b c v) : calculateLambda v a b c = .ok 0 ↔ quadric a b c v = 1 := by
  obtain ⟨l, hl, _, hc', hu⟩ := C64_lambda hc hbc hab hv
  have h0 : OnConfocal a b c v 0 ↔ quadric a b c v = 1 := by
    rw [onConfocal_iff, quadric_eq]
  rw [hl]
  constructor
  · intro h
    have : l = 0 := by injection h
    exact h0.1 (this ▸ hc')
  · intro h
    rw [hu 0 (by nlinarith [pow_pos hc 2]) (h0.2 h)]

/-- C64: the semiaxes must be sorted. -/
theorem C64_unsorted {a b c : ℝ} (h : ¬(b ≤ a ∧ c ≤ b)) (v : V3) :
    calculateLambda v a b c = .error .ValueError := by
  unfold calculateLambda
  rw [not_sorted h]; rfl

/-! ### C65: the elliptic integrals -/

theorem integralsOf_lim {s : V3} (hs : Positive s) (i : Fin 3) :
    Tendsto (fun l => integralsOf s l i) atTop (𝓝 0) := by
  obtain ⟨k, hk0, hk⟩ : ∃ k, 0 < k ∧ ∀ i, k ≤ s i := by
    refine ⟨min (min (s 0) (s 1)) (s 2), lt_min (lt_min (hs 0) (hs 1)) (hs 2), fun i => ?_⟩
    fin_cases i <;> simp
  obtain ⟨K, hK⟩ : ∃ K, ∀ i, s i ≤ K := by
    refine ⟨max (max (s 0) (s 1)) (s 2), fun i => ?_⟩
    fin_cases i <;> simp
  have hlim : Tendsto (fun l : ℝ => 2 / (3 * √(k ^ 2 + l) ^ 3)) atTop (𝓝 0) := by
    refine Tendsto.div_atTop tendsto_const_nhds ?_
    refine Tendsto.const_mul_atTop (by norm_num) ?_
    exact (tendsto_pow_atTop (by norm_num)).comp (tendsto_sqrt_atTop (k ^ 2))
  refine squeeze_zero' ?_ ?_ hlim
  · filter_upwards [eventually_ge_atTop 0] with l hl
    exact (integralsOf_pos hs hl i).le
  · filter_upwards [eventually_ge_atTop 0] with l hl
    exact (integralsOf_bounds hs hk0 hk hK hl i).2

/-- C65: unless the semiaxes are almost equal without being equal, the closed forms of the code are the
documented integrals, for prolate, oblate and triaxial ellipsoids.
Missing: semiaxes that are almost equal, for which the claim is false (C65_not_full). -/
theorem C65_integrals_partial {a b c l : ℝ} (hc : 0 < c) (hbc : c ≤ b) (hab : b ≤ a) (hr : Resolved a b c)
    (hs : ¬(a = b ∧ b = c)) (hl : -c ^ 2 < l) : getEllipticalIntegrals a b c l =
      .ok ![ellipticIntegral a b c a l, ellipticIntegral a b c b l, ellipticIntegral a b c c l] := by
  rw [getEllipticalIntegrals_spec hc hbc hab (fun h => hs ⟨hr.1 h.1, hr.2 h.2⟩) hl,
    effective_resolved hr, integralsOf_eq]

/-- C65: as functions of lambda they have the derivatives that the code returns, they vanish at
infinity and their sum is `2 / R`.
Missing: semiaxes that are almost equal, for which the claim is false (C65_not_full). -/
theorem C65_calculus_partial {a b c : ℝ} (hc : 0 < c) (hbc : c ≤ b) (hab : b ≤ a) (hr : Resolved a b c)
    (hs : ¬(a = b ∧ b = c)) : ∃ g h : ℝ → V3,
      (∀ l, 0 ≤ l → getEllipticalIntegrals a b c l = .ok (g l)) ∧
      (∀ l, 0 ≤ l → getDerivativesOfEllipticalIntegrals a b c l = .ok (h l)) ∧
      (∀ l, 0 ≤ l → ∀ i, HasDerivAt (fun l => g l i) (h l i) l) ∧
      (∀ l, 0 ≤ l → ∀ i, h l i = -1 / ((![a, b, c] i ^ 2 + l) * rootProduct a b c l)) ∧
      (∀ i, Tendsto (fun l => g l i) atTop (𝓝 0)) ∧
      ∀ l, 0 ≤ l → g l 0 + g l 1 + g l 2 = 2 / rootProduct a b c l := by
  have hp := positive_of_sorted hc hbc hab
  refine ⟨integralsOf ![a, b, c], fun l i => -(1 / ((![a, b, c] i ^ 2 + l) * rootProduct a b c l)),
    ?_, ?_, ?_, ?_, ?_, ?_⟩
  · intro l hl
    rw [C65_integrals_partial hc hbc hab hr hs (by nlinarith [pow_pos hc 2]), integralsOf_eq]
  · exact fun l hl => derivatives_spec hc hbc hab hl
  · exact fun l hl i => integralsOf_deriv hp hl i
  · intro l _ i; ring
  · exact integralsOf_lim hp
  · intro l hl
    have := integralsOf_sum hp hl
    rw [Fin.sum_univ_three] at this
    exact this

/-- C65: when two semiaxes are almost equal the integrals are exactly those of the prolate ellipsoid
with semiaxes `a`, `b`, `b`, or else of the oblate one with semiaxes `b`, `b`, `c`. -/
theorem C65_almost {a b c l : ℝ} (hc : 0 < c) (hbc : c ≤ b) (hab : b ≤ a)
    (hs : ¬(Close a b ∧ Close b c)) (hl : -c ^ 2 < l) :
    (Close b c → getEllipticalIntegrals a b c l =
      .ok ![ellipticIntegral a b b a l, ellipticIntegral a b b b l, ellipticIntegral a b b b l]) ∧
    (Close a b → getEllipticalIntegrals a b c l =
      .ok ![ellipticIntegral b b c b l, ellipticIntegral b b c b l, ellipticIntegral b b c c l]) := by
  rw [getEllipticalIntegrals_spec hc hbc hab hs hl]
  constructor
  · intro h
    rw [effective, if_pos h, integralsOf_eq]
  · intro h
    rw [effective, if_neg (fun h' => hs ⟨h, h'⟩), if_pos h, integralsOf_eq]

/-- C65: the sum rule is not exact for almost prolate ellipsoids: the sum of the integrals of the code
at zero is `2 / (a b b)`, not `2 / (a b c)`. -/
theorem C65_not_full : ∃ a b c : ℝ, ∃ g : V3, 0 < c ∧ c ≤ b ∧ b ≤ a ∧
    getEllipticalIntegrals a b c 0 = .ok g ∧ g 0 + g 1 + g 2 ≠ 2 / rootProduct a b c 0 := by
  have hc : (0 : ℝ) < 1 - 5e-6 := by norm_num
  have hclose : Close 1 (1 - 5e-6) := by
    unfold Close
    rw [max_eq_left (by norm_num), abs_of_pos (by norm_num)]; norm_num
  have hnot : ¬Close 2 1 := by
    unfold Close
    rw [max_eq_left (by norm_num), abs_of_pos (by norm_num)]; norm_num
  refine ⟨2, 1, 1 - 5e-6, _, hc, by norm_num, by norm_num,
    (C65_almost hc (by norm_num) (by norm_num) (fun h => hnot h.1) (by nlinarith [pow_pos hc 2])).1
      hclose, ?_⟩
  have h1 := ellipticIntegral_sum (Pos.zero (a := 2) (b := 1) (c := 1) (by norm_num) (by norm_num)
    (by norm_num))
  rw [rootProduct_zero (by norm_num) (by norm_num) (by norm_num)] at h1
  rw [rootProduct_zero (by norm_num) (by norm_num) hc]
  change ellipticIntegral 2 1 1 2 0 + ellipticIntegral 2 1 1 1 0 + ellipticIntegral 2 1 1 1 0 ≠ _
  rw [h1]
  norm_num

/-! ### C66: dispatch -/

/-- C66: for sorted positive semiaxes the tests of the shape are total and the integrals are returned
exactly when the ellipsoid is not almost a sphere: no division by zero, no square root or logarithm out
of its domain, and no error of the branches. -/
theorem C66_integrals {a b c l : ℝ} (hc : 0 < c) (hbc : c ≤ b) (hab : b ≤ a) (hl : 0 ≤ l) :
    (isAlmostASphere a b c = .ok true ∧ getEllipticalIntegrals a b c l = .error .ValueError) ∨
    (isAlmostASphere a b c = .ok false ∧ ∃ g, getEllipticalIntegrals a b c l = .ok g) := by
  classical
  by_cases hs : Close a b ∧ Close b c
  · left
    rw [isAlmostASphere_eq hc hbc hab]
    exact ⟨congrArg _ (decide_eq_true hs), getEllipticalIntegrals_sphere hc hbc hab hs⟩
  · right
    rw [isAlmostASphere_eq hc hbc hab]
    exact ⟨congrArg _ (decide_eq_false hs), _,
      getEllipticalIntegrals_spec hc hbc hab hs (by nlinarith [pow_pos hc 2])⟩

/-- C66: the classification is the documented one: a sphere when both pairs of consecutive semiaxes are
almost equal, else prolate when the two smaller are, else oblate when the two larger are, else
triaxial; the four cases exclude each other. -/
theorem C66_shapes {a b c : ℝ} (hc : 0 < c) (hbc : c ≤ b) (hab : b ≤ a) :
    (isAlmostASphere a b c = .ok true ↔ Close a b ∧ Close b c) ∧
    (isAlmostProlate a b c = .ok true ↔ Close b c) ∧
    (isAlmostOblate a b c = .ok true ↔ Close a b) ∧
    (isAlmostASphere a b c ≠ .ok true → isAlmostProlate a b c = .ok true →
      isAlmostOblate a b c ≠ .ok true) ∧
    (isAlmostProlate a b c ≠ .ok true → isAlmostOblate a b c ≠ .ok true → c < b ∧ b < a) := by
  classical
  rw [isAlmostASphere_eq hc hbc hab, isAlmostProlate_eq hc hbc hab, isAlmostOblate_eq hc hbc hab]
  have hself : ∀ x y : ℝ, 0 < x → x = y → Close y x := fun x y h e => e ▸ close_self h
  simp only [Except.ok.injEq, decide_eq_true_eq, ne_eq, true_and]
  refine ⟨fun h h1 h2 => h ⟨h2, h1⟩, fun h1 h2 => ⟨?_, ?_⟩⟩
  · exact lt_of_le_of_ne hbc fun h => h1 (hself c b hc h)
  · exact lt_of_le_of_ne hab fun h => h2 (hself b a (hc.trans_le hbc) h)

/-- C66: the gravity of every ellipsoid and the demagnetization tensors are computed without errors. -/
theorem C66_total {a b c : ℝ} (hc : 0 < c) (hbc : c ≤ b) (hab : b ≤ a) (density : ℝ) (v : V3) :
    (∃ g, computeGravityEllipsoid v a b c density = .ok g) ∧
    (∃ n, getDemagnetizationTensorInternal a b c = .ok n) ∧
    (1 ≤ quadric a b c v → ∃ n, getDemagnetizationTensorExternal v a b c = .ok n) := by
  refine ⟨?_, ?_, fun hv => ?_⟩
  · obtain ⟨f, hf, _⟩ := computeGravity_total hc hbc hab density
    exact ⟨_, hf v⟩
  · obtain ⟨n, hn, _⟩ := demagInternal_total hc hbc hab
    exact ⟨_, hn⟩
  · obtain ⟨n, hn, _⟩ := demagExternal_total hc hbc hab hv
    exact ⟨_, hn⟩

/-- C66: the formulas of a shape raise ValueError for semiaxes that are not of that shape, so none of them is used for
another shape. -/
theorem C66_other_shapes (l : ℝ) {a b c : ℝ} :
    (¬(b < a ∧ c < b) → integralsTriaxial a b c l = .error .ValueError ∧
      demagTriaxialInternal a b c = .error .ValueError) ∧
    (¬b < a → integralsProlate a b l = .error .ValueError ∧ demagProlateInternal a b = .error .ValueError) ∧
    (¬c < b → integralsOblate b c l = .error .ValueError ∧ demagOblateInternal b c = .error .ValueError) := by
  refine ⟨fun h => ⟨?_, ?_⟩, fun h => ⟨?_, ?_⟩, fun h => ⟨?_, ?_⟩⟩
  · unfold integralsTriaxial checkTriaxial
    rw [if_pos h]
    rfl
  · unfold demagTriaxialInternal checkTriaxial
    rw [if_pos h]
    rfl
  · unfold integralsProlate checkGreater
    rw [if_pos h]
    rfl
  · unfold demagProlateInternal checkGreater
    rw [if_pos h]
    rfl
  · unfold integralsOblate checkGreater
    rw [if_pos h]
    rfl
  · unfold demagOblateInternal checkGreater
    rw [if_pos h]
    rfl

/-- C66_other_shapes: a sphere. -/
example : integralsProlate 2 2 1 = .error .ValueError :=
  ((C66_other_shapes 1 (a := 2) (b := 2) (c := 2)).2.1 (lt_irrefl _)).1

/-- C66: semiaxes that are not sorted are rejected by every function. -/
theorem C66_unsorted {a b c : ℝ} (h : ¬(b ≤ a ∧ c ≤ b)) (l density : ℝ) (v : V3) :
    isAlmostASphere a b c = .error .ValueError ∧ isAlmostProlate a b c = .error .ValueError ∧
    isAlmostOblate a b c = .error .ValueError ∧ getEllipticalIntegrals a b c l = .error .ValueError ∧
    getDerivativesOfEllipticalIntegrals a b c l = .error .ValueError ∧
    computeGravityEllipsoid v a b c density = .error .ValueError ∧
    getDemagnetizationTensorInternal a b c = .error .ValueError ∧
    getDemagnetizationTensorExternal v a b c = .error .ValueError := by
  have hs : isAlmostASphere a b c = .error .ValueError := by
    unfold isAlmostASphere
    rw [not_sorted h]; rfl
  unfold isAlmostProlate isAlmostOblate getEllipticalIntegrals
    getDerivativesOfEllipticalIntegrals computeGravityEllipsoid getDemagnetizationTensorInternal
    getDemagnetizationTensorExternal
  rw [not_sorted h, hs]
  exact ⟨rfl, rfl, rfl, rfl, rfl, rfl, rfl, rfl⟩

/-! ### C67: demagnetization tensors -/

/-- C67: the internal demagnetization tensor of every ellipsoid is diagonal with positive elements and
trace one. -/
theorem C67_internal {a b c : ℝ} (hc : 0 < c) (hbc : c ≤ b) (hab : b ≤ a) :
    ∃ n : V3, getDemagnetizationTensorInternal a b c = .ok (Matrix.diagonal n) ∧ (∀ i, 0 < n i) ∧
      (Matrix.diagonal n).trace = 1 := by
  obtain ⟨n, hn, hp, hs, _⟩ := demagInternal_total hc hbc hab
  exact ⟨n, hn, hp, by rw [Matrix.trace_diagonal, hs]⟩

/-- C67: its elements are the integrals of the confocal family at zero. -/
theorem C67_internal_value {a b c : ℝ} (hc : 0 < c) (hbc : c ≤ b) (hab : b ≤ a)
    (hr : Resolved a b c) :
    getDemagnetizationTensorInternal a b c = .ok (demagInside ![a, b, c]) := by
  obtain ⟨n, hn, _, _, h⟩ := demagInternal_total hc hbc hab
  rw [hn, h hr]

/-- C67: for a sphere it is one third of the identity. -/
theorem C67_sphere {a : ℝ} (ha : 0 < a) :
    getDemagnetizationTensorInternal a a a = .ok ((1 / 3 : ℝ) • (1 : M3)) := by
  rw [demagInternal_sphere ha le_rfl le_rfl ⟨close_self ha, close_self ha⟩]
  refine congrArg _ ?_
  rw [← Matrix.diagonal_one, ← Matrix.diagonal_smul]
  congr 1
  ext i
  simp

/-- C67: the external tensor is symmetric for every ellipsoid and point. -/
theorem C67_symmetric {a b c : ℝ} (hc : 0 < c) (hbc : c ≤ b) (hab : b ≤ a) {v : V3}
    (hv : 1 ≤ quadric a b c v) :
    ∃ n, getDemagnetizationTensorExternal v a b c = .ok n ∧ n.transpose = n := by
  obtain ⟨n, hn, hs, _⟩ := demagExternal_total hc hbc hab hv
  exact ⟨n, hn, hs⟩

/-- C67: the external tensor is traceless at every external point, unless the semiaxes are almost
equal without being equal (missing: see `C67_not_full`). -/
theorem C67_traceless_partial {a b c : ℝ} (hc : 0 < c) (hbc : c ≤ b) (hab : b ≤ a)
    (hr : Resolved a b c) {v : V3} (hv : 1 ≤ quadric a b c v) :
    ∃ n, getDemagnetizationTensorExternal v a b c = .ok n ∧ n.trace = 0 := by
  obtain ⟨n, hn, _, h⟩ := demagExternal_total hc hbc hab hv
  refine ⟨n, hn, ?_⟩
  rw [h hr]
  exact demagOutside_trace (positive_of_sorted hc hbc hab) (by rwa [← quadric_eq])

/-- C67: for almost a sphere it is traceless too. -/
theorem C67_traceless_sphere {a b c : ℝ} (hc : 0 < c) (hbc : c ≤ b) (hab : b ≤ a)
    (hs : Close a b ∧ Close b c) {v : V3} (hv : 1 ≤ quadric a b c v) :
    ∃ n, getDemagnetizationTensorExternal v a b c = .ok n ∧ n.trace = 0 :=
  ⟨_, demagExternal_sphere hc hbc hab hs hv, sphereTensor_trace a (norm_pos_of_outside hv)⟩

/-- C67: the trace is not exactly zero for every ellipsoid: for an almost prolate one it is `c / b - 1` at the end of the
long axis. -/
theorem C67_not_full : ∃ a b c : ℝ, ∃ v : V3, ∃ n, 0 < c ∧ c ≤ b ∧ b ≤ a ∧ 1 ≤ quadric a b c v ∧
    getDemagnetizationTensorExternal v a b c = .ok n ∧ n.trace ≠ 0 := by
  have hc : (0 : ℝ) < 1 - 5e-6 := by norm_num
  have hclose : Close 1 (1 - 5e-6) := by
    unfold Close
    rw [max_eq_left (by norm_num), abs_of_pos (by norm_num)]; norm_num
  have hnot : ¬Close 2 1 := by
    unfold Close
    rw [max_eq_left (by norm_num), abs_of_pos (by norm_num)]; norm_num
  have hq : quadric 2 1 (1 - 5e-6) ![2, 0, 0] = 1 := by
    unfold quadric
    simp
  have hs := positive_of_sorted hc (by norm_num : (1 - 5e-6 : ℝ) ≤ 1) (by norm_num : (1 : ℝ) ≤ 2)
  refine ⟨2, 1, 1 - 5e-6, ![2, 0, 0], _, hc, by norm_num, by norm_num, hq.ge,
    demagExternal_spec hc (by norm_num) (by norm_num) (fun h => hnot h.1) hq.ge, ?_⟩
  have hl : confocalParameter ![2, 1, 1 - 5e-6] ![2, 0, 0] = 0 :=
    confocalParameter_inside (by rw [← quadric_eq, hq])
  have h1 := ellipticIntegral_sum (Pos.zero (a := 2) (b := 1) (c := 1) (by norm_num) (by norm_num)
    (by norm_num))
  rw [rootProduct_zero (by norm_num) (by norm_num) (by norm_num)] at h1
  have ht : (effectiveTensor 2 1 (1 - 5e-6) ![2, 0, 0]).trace =
      2 * 1 * (1 - 5e-6) / 2 * (-(2 / (2 * 1 * (1 - 5e-6))) +
        (ellipticIntegral 2 1 1 2 0 + ellipticIntegral 2 1 1 1 0 + ellipticIntegral 2 1 1 1 0)) := by
    rw [Matrix.trace, Fin.sum_univ_three]
    simp only [Matrix.diag_apply, effectiveTensor, confocalGradient, hl, effective, if_pos hclose,
      integralsOf_eq, rootProduct_zero (by norm_num : (0 : ℝ) < 2) one_pos hc, if_true]
    simp [Fin.sum_univ_three]
    ring
  rw [ht, h1]
  norm_num

end Verif.Ellipsoids
