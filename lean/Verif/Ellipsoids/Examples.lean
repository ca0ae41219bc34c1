import Verif.Ellipsoids.PropsD
import Verif.Ellipsoids.PropsI

/-! Concrete cases that meet the hypotheses of the theorems on ellipsoids. -/

namespace Verif.Ellipsoids
open Verif.Forward Verif.Distance

noncomputable section

/-- A rotated triaxial body with unsorted semiaxes and all the physical properties. -/
def rock : Ellipsoid :=
  ⟨1, 3, 2, 30, 45, 10, ![100, -50, -20], some 2670, some (.scalar (1 / 10)), some ![1, 2, 3]⟩

/-- A sphere. -/
def ball : Ellipsoid := ⟨5, 5, 5, 0, 20, 0, ![0, 0, -10], some 500, some (.scalar 2), none⟩

/-- A prolate body with a susceptibility tensor along its axes and no density. -/
def rod : Ellipsoid :=
  ⟨4, 1, 1, 0, 0, 90, ![0, 0, 0], none, some (.tensor (Matrix.diagonal ![1 / 10, 2 / 10, 3 / 10])), none⟩

/-- A body without any property. -/
def void : Ellipsoid := ⟨2, 2, 1, 0, 0, 0, ![0, 0, 0], none, none, none⟩

theorem third (x y z : ℝ) : (![x, y, z] : V3) 2 = z := rfl

theorem not_close {x y : ℝ} (hxy : y < x) (h : 1e-5 * x ≤ x - y) : ¬Close x y := by
  unfold Close
  rw [max_eq_left hxy.le, abs_of_pos (sub_pos.2 hxy)]
  exact not_lt.2 h

theorem close_symm {x y : ℝ} : Close x y ↔ Close y x := by
  unfold Close
  rw [abs_sub_comm, max_comm]

theorem rock_valid : rock.Valid := by norm_num [Ellipsoid.Valid, rock]
theorem ball_valid : ball.Valid := by norm_num [Ellipsoid.Valid, ball]
theorem rod_valid : rod.Valid := by norm_num [Ellipsoid.Valid, rod]
theorem void_valid : void.Valid := by norm_num [Ellipsoid.Valid, void]

theorem rock_exact : rock.Exact := by
  have h1 : ¬Close 3 1 := not_close (by norm_num) (by norm_num)
  have h2 : ¬Close 3 2 := not_close (by norm_num) (by norm_num)
  have h3 : ¬Close 2 1 := not_close (by norm_num) (by norm_num)
  intro i j h
  fin_cases i <;> fin_cases j
  · rfl
  · exact absurd (close_symm.1 h) h1
  · exact absurd (close_symm.1 h) h3
  · exact absurd h h1
  · rfl
  · exact absurd h h2
  · exact absurd h h3
  · exact absurd (close_symm.1 h) h2
  · rfl

theorem ball_exact : ball.Exact := by
  intro i j _
  fin_cases i <;> fin_cases j <;> rfl

theorem rod_exact : rod.Exact := by
  have h1 : ¬Close 4 1 := not_close (by norm_num) (by norm_num)
  intro i j h
  fin_cases i <;> fin_cases j
  · rfl
  · exact absurd h h1
  · exact absurd h h1
  · exact absurd (close_symm.1 h) h1
  · rfl
  · rfl
  · exact absurd (close_symm.1 h) h1
  · rfl
  · rfl

theorem void_exact : void.Exact := by
  have h1 : ¬Close 2 1 := not_close (by norm_num) (by norm_num)
  intro i j h
  fin_cases i <;> fin_cases j
  · rfl
  · rfl
  · exact absurd h h1
  · rfl
  · rfl
  · exact absurd h h1
  · exact absurd (close_symm.1 h) h1
  · exact absurd (close_symm.1 h) h1
  · rfl

theorem rock_passive : rock.Passive := by
  change (-1 : ℝ) < 1 / 10
  norm_num

theorem ball_passive : ball.Passive := by
  change (-1 : ℝ) < 2
  norm_num

theorem rod_passive : rod.Passive := by
  intro v
  simp only [dotProduct, Matrix.mulVec_diagonal, Fin.sum_univ_three, Matrix.cons_val_zero,
    Matrix.cons_val_one, Matrix.cons_val]
  nlinarith [sq_nonneg (v 0), sq_nonneg (v 1), sq_nonneg (v 2)]

theorem void_passive : void.Passive := trivial

theorem all_bodies : ∀ e ∈ (Bodies.many [rock, ball, rod, void]).toList,
    e.Valid ∧ e.Passive ∧ e.Exact ∧ e.Aligned := by
  intro e he
  simp only [Bodies.toList, List.mem_cons, List.not_mem_nil, or_false] at he
  rcases he with rfl | rfl | rfl | rfl
  · exact ⟨rock_valid, rock_passive, rock_exact, C68_isotropic _ (by simp [rock])⟩
  · exact ⟨ball_valid, ball_passive, ball_exact, C68_isotropic _ (by simp [ball])⟩
  · exact ⟨rod_valid, rod_passive, rod_exact, C68_diagonal _ _ rfl⟩
  · exact ⟨void_valid, void_passive, void_exact, C68_isotropic _ (by simp [void])⟩

/-- Two observation points. -/
def points : List P3 := [⟨0, 0, 10⟩, ⟨100, -50, -20⟩]

/-! ### C71, C63 -/

/-- A body that points up after a pitch of 90 degrees: the rotation is not trivial. -/
example : (getRotationMatrix 0 90 0).mulVec east = up := by
  have h := C71_pitch 90
  have h90 : radians 90 = Real.pi / 2 := by unfold radians; ring
  simpa [h90] using h.1

example : sortedSemiaxes rock = (3, 2, 1) := by
  norm_num [sortedSemiaxes, rock, List.insertionSort, List.orderedInsert]

example : rock.Inside rock.center ∧ ¬rock.Inside (rock.rotationMatrix.mulVec ![2, 0, 0] + rock.center) := by
  refine ⟨inside_center, ?_⟩
  rw [inside_iff]
  have hR := body_proper rock
  have : rock.local (rock.rotationMatrix.mulVec ![2, 0, 0] + rock.center) = ![2, 0, 0] := by
    unfold Ellipsoid.local
    rw [add_sub_cancel_right, Matrix.mulVec_mulVec, hR.2.1, Matrix.one_mulVec]
  rw [this]
  norm_num [quadric, rock, third]

/-! ### C64 to C67 -/

/-- A triaxial, a prolate and an oblate ellipsoid with resolved semiaxes, and points outside. -/
theorem resolved_triaxial : Resolved 3 2 1 :=
  ⟨fun h => absurd h (not_close (by norm_num) (by norm_num)),
    fun h => absurd h (not_close (by norm_num) (by norm_num))⟩
theorem resolved_prolate : Resolved 4 1 1 :=
  ⟨fun h => absurd h (not_close (by norm_num) (by norm_num)), fun _ => rfl⟩
theorem resolved_oblate : Resolved 2 2 1 :=
  ⟨fun _ => rfl, fun h => absurd h (not_close (by norm_num) (by norm_num))⟩

theorem outside_point : 1 ≤ quadric 3 2 1 ![3, 2, 1] := by norm_num [quadric, third]

example : ∃ l, calculateLambda ![3, 2, 1] 3 2 1 = .ok l ∧ 0 < l := by
  obtain ⟨l, h, h0, -, -⟩ := C64_lambda (a := 3) (b := 2) (c := 1) (by norm_num) (by norm_num)
    (by norm_num) outside_point
  refine ⟨l, h, lt_of_le_of_ne h0 fun h1 => ?_⟩
  rw [← h1] at h
  have := (C64_surface (by norm_num) (by norm_num) (by norm_num) outside_point).1 h
  norm_num [quadric, third] at this

example : ∃ g, getEllipticalIntegrals 3 2 1 7 = .ok g ∧ g 0 = ellipticIntegral 3 2 1 3 7 := by
  obtain ⟨g, h, h1⟩ := (⟨_, C65_integrals_partial (l := 7) (by norm_num) (by norm_num) (by norm_num)
    resolved_triaxial (fun h => by norm_num at h) (by norm_num), rfl⟩ :
    ∃ g, getEllipticalIntegrals 3 2 1 7 = .ok g ∧ _ = g)
  exact ⟨g, h, by rw [← h1]; rfl⟩

/-- An almost prolate ellipsoid, and almost a sphere. -/
example : Close 1 (1 - 5e-6) ∧ ¬Close 2 1 := by
  constructor
  · unfold Close
    rw [max_eq_left (by norm_num), abs_of_pos (by norm_num)]; norm_num
  · exact not_close (by norm_num) (by norm_num)

example : ∃ n, getDemagnetizationTensorExternal ![3, 2, 1] 3 2 1 = .ok n ∧ n.trace = 0 :=
  C67_traceless_partial (by norm_num) (by norm_num) (by norm_num) resolved_triaxial outside_point

/-! ### C69, C68, C02 -/

example : ∃ field, ellipsoidGravity (arrays [2] points) (.many [rock, ball, rod, void]) =
    .ok (gravityResult [2] points field, 2) := by
  have := C69_value [2] points rfl (.many [rock, ball, rod, void])
    fun e he => ⟨(all_bodies e he).1, (all_bodies e he).2.2.1⟩
  have hw : (Bodies.many [rock, ball, rod, void]).toList.countP (fun e => e.density.isNone) = 2 := by
    simp [Bodies.toList, rock, ball, rod, void]
  rw [hw] at this
  exact ⟨_, this⟩

example : ∃ field, ellipsoidMagnetic (4e-7 * Real.pi) (arrays [2] points) (.many [rock, ball, rod, void])
    ![10000, 5000, -40000] = .ok (magneticResult [2] points field, 1) := by
  obtain ⟨M, _, h⟩ := C68_value_partial (4e-7 * Real.pi) [2] points rfl
    (.many [rock, ball, rod, void]) all_bodies ![10000, 5000, -40000]
  have hw : (Bodies.many [rock, ball, rod, void]).toList.countP
      (fun e => e.susceptibility.isNone && e.remanent_mag.isNone) = 1 := by
    simp [Bodies.toList, rock, ball, rod, void]
  rw [hw] at h
  exact ⟨_, h⟩

/-- The bodies of the partial theorems, and those of the counterexamples. -/
example : skewBody.Valid ∧ skewBody.Exact ∧ skewBody.Passive ∧ almostSphere.Valid :=
  ⟨(C68_not_full 1 one_ne_zero).1, skewBody_exact, skewBody_passive, C69_not_full.1⟩

/-! ### C70 -/

/-- A history with accepted and rejected assignments. -/
def history : List (Attr × PyVal) :=
  [(.a, .real (some 7)), (.b, .real (some (-1))), (.c, .other), (.density, .real (some 3300)),
   (.density, .seq (.ok ([1], [some 1]))), (.remanent_mag, .seq (.ok ([3], [some 1, some 2, some 3]))),
   (.susceptibility, .array [3] [some 1, some 1, some 1])]

example : ∃ o e, construct (.real (some 3)) (.real (some 2)) (.real (some 1)) (.real (some 0))
      (.real (some 0)) (.real (some 0)) (.seq (.ok ([3], [some 0, some 0, some 0]))) .none .none .none =
        .ok o ∧ (o.run history).view = some e ∧ e.a = 7 ∧ e.b = 2 ∧ e.c = 1 ∧ e.density = some 3300 ∧
      e.remanent_mag = some ![1, 2, 3] ∧ e.susceptibility = none := by
  have n3 : ¬(3 : ℝ) ≤ 0 := by norm_num
  have n2 : ¬(2 : ℝ) ≤ 0 := by norm_num
  have n1 : ¬(1 : ℝ) ≤ 0 := by norm_num
  have n7 : ¬(7 : ℝ) ≤ 0 := by norm_num
  have nm : (-1 : ℝ) ≤ 0 := by norm_num
  refine ⟨⟨.real (some 3), .real (some 2), .real (some 1), .real (some 0), .real (some 0),
    .real (some 0), .seq (.ok ([3], [some 0, some 0, some 0])), .none, .none, .none⟩,
    ⟨7, 2, 1, 0, 0, 0, ![0, 0, 0], some 3300, none, some ![1, 2, 3]⟩, ?_, ?_, rfl, rfl, rfl, rfl, rfl, rfl⟩
  · simp [construct, checkPositiveSemiaxis, nonPositive, castDensity, castSusceptibilityValue,
      castRemanentValue, checkRemanent, Py.bind_ok, Py.pure_eq, n1, n2, n3]
  · simp [Obj.run, history, Obj.assign, checkPositiveSemiaxis, nonPositive, castDensity,
      castSusceptibilityValue, castRemanentValue, checkRemanent, Py.bind_ok, n7, nm, Obj.view,
      PyVal.number, PyVal.vector, PyVal.optional]

/-! ### C78 to C82 -/

theorem rock_center_off : ∀ e ∈ (Bodies.many [rock, ball, rod, void]).toList, ¬e.OnSurface rock.center := by
  have hfar : ∀ e : Ellipsoid, e.Valid → e.a ^ 2 + e.b ^ 2 + e.c ^ 2 < e.distance rock.center ^ 2 →
      ¬e.OnSurface rock.center := by
    intro e hv hd hs
    rw [onSurface_iff] at hs
    have hn := local_norm e rock.center
    rw [Fin.sum_univ_three] at hn
    unfold quadric at hs
    have ha := pow_pos hv.1 2; have hb := pow_pos hv.2.1 2; have hc := pow_pos hv.2.2 2
    have h0 : 0 ≤ (e.local rock.center) 0 ^ 2 / e.a ^ 2 := by positivity
    have h1 : 0 ≤ (e.local rock.center) 1 ^ 2 / e.b ^ 2 := by positivity
    have h2 : 0 ≤ (e.local rock.center) 2 ^ 2 / e.c ^ 2 := by positivity
    have g0 : (e.local rock.center) 0 ^ 2 ≤ e.a ^ 2 := by rw [← div_le_one ha]; linarith
    have g1 : (e.local rock.center) 1 ^ 2 ≤ e.b ^ 2 := by rw [← div_le_one hb]; linarith
    have g2 : (e.local rock.center) 2 ^ 2 ≤ e.c ^ 2 := by rw [← div_le_one hc]; linarith
    linarith
  intro e he
  simp only [Bodies.toList, List.mem_cons, List.not_mem_nil, or_false] at he
  rcases he with rfl | rfl | rfl | rfl
  · rw [onSurface_iff]
    have : rock.local rock.center = 0 := by unfold Ellipsoid.local; simp
    rw [this]; norm_num [quadric]
  all_goals
    refine hfar _ (by first | exact ball_valid | exact rod_valid | exact void_valid) ?_
    unfold Ellipsoid.distance
    rw [Real.sq_sqrt (by positivity)]
    norm_num [rock, ball, rod, void, third]

example : ∃ field, ReturnsGravity (.many [rock, ball, rod, void]) field ∧
    ∃ J : M3, HasFDerivAt field (jacobian J) rock.center ∧ J.transpose = J := by
  obtain ⟨f, h, hJ⟩ := C78_gravity (.many [rock, ball, rod, void])
    fun e he => ⟨(all_bodies e he).1, (all_bodies e he).2.2.1⟩
  obtain ⟨J, h1, h2, _⟩ := hJ rock.center rock_center_off
  exact ⟨f, h, J, h1, h2⟩

/-- C98: the center of one of the bodies is outside of the others and off all the surfaces. -/
example : ∃ field, ReturnsMagnetic (4 * Real.pi * 1e-7) (.many [rock, ball, rod, void]) ![1e4, 2e4, -3e4] field ∧
    ∃ J : M3, HasFDerivAt field (jacobian J) rock.center ∧ J.transpose = J ∧ J.trace = 0 := by
  obtain ⟨f, h, hJ⟩ := C98_magnetic (4 * Real.pi * 1e-7) (.many [rock, ball, rod, void])
    (fun e he => ⟨(all_bodies e he).1, (all_bodies e he).2.1, (all_bodies e he).2.2.1⟩) ![1e4, 2e4, -3e4]
  exact ⟨f, h, hJ rock.center rock_center_off⟩

/-- The hypotheses of C79 hold at a point far from the body; those of C80 on the points of `get_surface`;
those of C81 for the sphere. -/
example : 0 < (1 : ℝ) ∧ (1 ≤ rock.a ∧ 1 ≤ rock.b ∧ 1 ≤ rock.c) ∧ (rock.a ≤ 3 ∧ rock.b ≤ 3 ∧ rock.c ≤ 3) ∧
    (3 : ℝ) ^ 2 - 1 ^ 2 < rock.distance (vec ⟨0, 0, 10⟩) ^ 2 := by
  refine ⟨one_pos, by norm_num [rock], by norm_num [rock], ?_⟩
  unfold Ellipsoid.distance
  rw [Real.sq_sqrt (by positivity)]
  norm_num [rock, vec, third]

example : ∃ p, rock.OnSurface p := by
  obtain ⟨h1, h2⟩ := C83_shape rock 5 3
  obtain ⟨row, hrow⟩ := List.exists_mem_of_length_pos (by rw [h1]; norm_num : 0 < (getSurface rock 5 3).length)
  obtain ⟨p, hp⟩ := List.exists_mem_of_length_pos (by rw [h2 row hrow]; norm_num : 0 < row.length)
  exact ⟨p, C83_on_surface rock rock_valid 5 3 row hrow p hp⟩

example : ball.a = ball.b ∧ ball.b = ball.c ∧ ball.susceptibility = some (.scalar 2) := ⟨rfl, rfl, rfl⟩

/-! ### C84 -/

/-- The body of `rock` with exchanged semiaxes and other angles is the same set of points: a body along
the axes and its description turned by 90 degrees. -/
def slab : Ellipsoid := ⟨3, 2, 1, 0, 0, 0, ![1, 2, 3], some 1000, none, none⟩
def turned : Ellipsoid := ⟨2, 3, 1, 90, 0, 0, ![1, 2, 3], some 1000, none, none⟩

example : SameBody slab turned ∧ slab.density = turned.density := by
  refine ⟨fun p => ?_, rfl⟩
  rw [inside_iff, inside_iff]
  have h90 : radians 90 = Real.pi / 2 := by unfold radians; ring
  have r0 : slab.rotationMatrix = 1 := C71_identity
  have r1 : turned.rotationMatrix = rotZ (Real.pi / 2) := by
    unfold Ellipsoid.rotationMatrix
    change getRotationMatrix 90 0 0 = _
    have h0 : radians 0 = 0 := by unfold radians; ring
    simp only [getRotationMatrix, fromEulerZYX, h90, h0, neg_zero]
    ext i j
    fin_cases i <;> fin_cases j <;> simp [rotX, rotY, rotZ, Matrix.mul_apply, Fin.sum_univ_three]
  have hl : slab.local p = p - ![1, 2, 3] := by
    unfold Ellipsoid.local
    rw [r0, Matrix.transpose_one, Matrix.one_mulVec]
    rfl
  have hl' : turned.local p = ![p 1 - 2, -(p 0 - 1), p 2 - 3] := by
    unfold Ellipsoid.local
    rw [r1]
    ext i
    fin_cases i <;>
      simp [rotZ, turned, Matrix.mulVec, dotProduct, Fin.sum_univ_three, Matrix.transpose_apply]
  rw [hl, hl']
  have : quadric slab.a slab.b slab.c (p - ![1, 2, 3]) =
      quadric turned.a turned.b turned.c ![p 1 - 2, -(p 0 - 1), p 2 - 3] := by
    simp [quadric, slab, turned]
    ring
  rw [this]

/-- The reflection that exchanges easting and northing. -/
def mirror : M3 := !![0, 1, 0; 1, 0, 0; 0, 0, 1]

theorem mirror_orthogonal : Orthogonal mirror := by
  constructor <;> ext i j <;> fin_cases i <;> fin_cases j <;>
    simp [mirror, Matrix.mul_apply, Fin.sum_univ_three, Matrix.transpose_apply]

/-- C99: the rock, reflected, enlarged three times and moved. -/
example : ∃ (rock' : Ellipsoid) (field field' : V3 → V3), IsImage 3 mirror ![10, 20, 30] rock rock' ∧
    ReturnsMagnetic (4e-7 * Real.pi) (.one rock) ![10000, 5000, -40000] field ∧
    ReturnsMagnetic (4e-7 * Real.pi) (.one rock') (mirror.mulVec ![10000, 5000, -40000]) field' ∧
    ∀ p, field' ((3 : ℝ) • mirror.mulVec p + ![10, 20, 30]) = mirror.mulVec (field p) := by
  obtain ⟨r, h1, h2, h3, h4, h5, h6, h7⟩ :=
    C99_image_exists (k := 3) (by norm_num) mirror_orthogonal ![10, 20, 30] rock rock_valid
  obtain ⟨f, f', g1, g2, g3⟩ := C99_magnetic (4e-7 * Real.pi) (k := 3) (by norm_num) mirror_orthogonal
    ![10, 20, 30] (.one rock) (.one r)
    (by intro x hx; simp only [Bodies.toList, List.mem_singleton] at hx; subst hx
        exact ⟨rock_valid, rock_passive, rock_exact⟩)
    (by intro x hx; simp only [Bodies.toList, List.mem_singleton] at hx; subst hx
        exact ⟨h1, h4 rock_passive, h3 rock_exact⟩)
    (by simpa [Bodies.toList] using ⟨h2, h6, h7⟩) ![10000, 5000, -40000]
  exact ⟨r, f, f', h2, g1, g2, g3⟩

example : ∃ (rock' : Ellipsoid) (field field' : V3 → V3), rock'.density = rock.density ∧
    ReturnsGravity (.one rock) field ∧ ReturnsGravity (.one rock') field' ∧
    ∀ p, field' ((3 : ℝ) • mirror.mulVec p + ![10, 20, 30]) = (3 : ℝ) • mirror.mulVec (field p) := by
  obtain ⟨r, h1, h2, h3, h4, h5, h6, h7⟩ :=
    C99_image_exists (k := 3) (by norm_num) mirror_orthogonal ![10, 20, 30] rock rock_valid
  obtain ⟨f, f', g1, g2, g3⟩ := C99_gravity (k := 3) (by norm_num) mirror_orthogonal
    ![10, 20, 30] (.one rock) (.one r)
    (by intro x hx; simp only [Bodies.toList, List.mem_singleton] at hx; subst hx
        exact ⟨rock_valid, rock_exact⟩)
    (by intro x hx; simp only [Bodies.toList, List.mem_singleton] at hx; subst hx
        exact ⟨h1, h3 rock_exact⟩)
    (by simpa [Bodies.toList] using ⟨h2, h5⟩)
  exact ⟨r, f, f', h5, g1, g2, g3⟩

end

end Verif.Ellipsoids
