import Verif.Shapes.Props

/-! Concrete cases of C08. -/

namespace Verif.Shapes

open Verif.Forward

/-- A column, a row and a number give a grid; shapes (2) and (3) give none. -/
example : IsBroadcast [[3, 1], [4], []] [3, 4] := by
  rw [← C08_shape_rule ⟨[3, 1], [0, 0, 0]⟩ ⟨[4], [0, 0, 0, 0]⟩ ⟨[], [0]⟩]
  simp [npBroadcast, broadcastRev]

theorem incompatible : ∀ s, ¬ IsBroadcast [[2], [3], [3]] s := by
  intro s h
  rw [← C08_shape_rule ⟨[2], [0, 0]⟩ ⟨[3], [0, 0, 0]⟩ ⟨[3], [0, 0, 0]⟩] at h
  simp [npBroadcast, broadcastRev] at h

example (junk : Junk) (mode : Engine.Mode) (K : PointKernels) (points : NdArray × NdArray × NdArray)
    (masses : NdArray) (field system : String) :
    pointGravity junk mode K (⟨[2], [0, 0]⟩, ⟨[3], [0, 0, 0]⟩, ⟨[3], [0, 0, 0]⟩) points masses field system =
      .error .ValueError :=
  (C08_shape_point_gravity junk mode K _ points masses field system).2 incompatible

/-- Calls that succeed. -/
example (junk : Junk) (mode : Engine.Mode) (K : PointKernels) : ∃ g,
    pointGravity junk mode K (⟨[3, 1], [0, 0, 0]⟩, ⟨[4], [0, 0, 0, 0]⟩, ⟨[], [0]⟩)
      (⟨[1], [0]⟩, ⟨[1], [0]⟩, ⟨[1], [1]⟩) ⟨[1], [1]⟩ "potential" "cartesian" = .ok g ∧ g.shape = [3, 4] := by
  simp [pointGravity, Distance.checkCoordinateSystem, npBroadcast, broadcastRev, getKernel, cartesianKernels,
    Py.bind_ok, Py.pure_eq]

example (junk : Junk) (mode : Engine.Mode) (K : MagKernels Distance.P3) : ∃ g,
    dipoleMagnetic junk mode K (⟨[3, 1], [0, 0, 0]⟩, ⟨[4], [0, 0, 0, 0]⟩, ⟨[], [0]⟩)
      (⟨[1], [0]⟩, ⟨[1], [0]⟩, ⟨[1], [1]⟩) [[1], [0], [0]] "b" false = .ok g := by
  simp [dipoleMagnetic, npBroadcast, broadcastRev, magCompute, Py.bind_ok]

end Verif.Shapes
