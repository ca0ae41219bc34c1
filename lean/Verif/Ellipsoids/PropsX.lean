import Verif.Ellipsoids.PropsE

/-! C71: the directions of the semiaxes of a body are those of its own angles. -/

namespace Verif.Ellipsoids

/-- C71: the directions in space of the three semiaxes of a body, in terms of its yaw, pitch and roll. -/
theorem C71_semiaxes (e : Ellipsoid) :
    let y := e.yaw * (Real.pi / 180)
    let p := e.pitch * (Real.pi / 180)
    let r := e.roll * (Real.pi / 180)
    e.rotationMatrix.mulVec ![1, 0, 0] = ![Real.cos y * Real.cos p, Real.sin y * Real.cos p, Real.sin p] ∧
    e.rotationMatrix.mulVec ![0, 1, 0] = ![-Real.cos y * Real.sin p * Real.sin r - Real.sin y * Real.cos r,
      -Real.sin y * Real.sin p * Real.sin r + Real.cos y * Real.cos r, Real.cos p * Real.sin r] ∧
    e.rotationMatrix.mulVec ![0, 0, 1] = ![-Real.cos y * Real.sin p * Real.cos r + Real.sin y * Real.sin r,
      -Real.sin y * Real.sin p * Real.cos r - Real.cos y * Real.sin r, Real.cos p * Real.cos r] := by
  intro y p r
  have hy : radians e.yaw = y := by unfold radians; simp only [y]
  have hp : radians (-e.pitch) = -p := by unfold radians; simp only [p]; ring
  have hr : radians e.roll = r := by unfold radians; simp only [r]
  unfold Ellipsoid.rotationMatrix getRotationMatrix fromEulerZYX rotZ rotY rotX
  rw [hy, hp, hr, Real.cos_neg, Real.sin_neg]
  refine ⟨?_, ?_, ?_⟩ <;>
  · funext i
    fin_cases i <;> simp [Matrix.mulVec, dotProduct, Fin.sum_univ_three, Matrix.mul_apply] <;> ring

/-- C71: the ends of the semiaxes of a body, on its surface. -/
theorem C71_ends (e : Ellipsoid) (h : e.Valid) :
    let y := e.yaw * (Real.pi / 180)
    let p := e.pitch * (Real.pi / 180)
    let r := e.roll * (Real.pi / 180)
    e.OnSurface (e.center + e.a • ![Real.cos y * Real.cos p, Real.sin y * Real.cos p, Real.sin p]) ∧
    e.OnSurface (e.center + e.b • ![-Real.cos y * Real.sin p * Real.sin r - Real.sin y * Real.cos r,
      -Real.sin y * Real.sin p * Real.sin r + Real.cos y * Real.cos r, Real.cos p * Real.sin r]) ∧
    e.OnSurface (e.center + e.c • ![-Real.cos y * Real.sin p * Real.cos r + Real.sin y * Real.sin r,
      -Real.sin y * Real.sin p * Real.cos r - Real.cos y * Real.sin r, Real.cos p * Real.cos r]) := by
  intro y p r
  obtain ⟨h1, h2, h3⟩ := C71_semiaxes e
  obtain ⟨ha, hb, hc⟩ := h
  rw [← h1, ← h2, ← h3]
  refine ⟨⟨e.a • ![1, 0, 0], ?_, ?_⟩, ⟨e.b • ![0, 1, 0], ?_, ?_⟩, ⟨e.c • ![0, 0, 1], ?_, ?_⟩⟩
  · rw [Matrix.mulVec_smul, add_comm]
  · simp [quadric, ha.ne']
  · rw [Matrix.mulVec_smul, add_comm]
  · simp [quadric, hb.ne']
  · rw [Matrix.mulVec_smul, add_comm]
  · simp [quadric, hc.ne']

/-- A body that is tilted by 90 degrees: its first semiaxis is vertical. -/
example (e : Ellipsoid) (h : e.Valid) (h1 : e.yaw = 0) (h2 : e.pitch = 90) : e.OnSurface (e.center + e.a • ![0, 0, 1]) := by
  have := (C71_ends e h).1
  rw [h1, h2, show (90 : ℝ) * (Real.pi / 180) = Real.pi / 2 by ring] at this
  simpa using this

end Verif.Ellipsoids
