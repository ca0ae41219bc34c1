import Mathlib.Data.List.Basic

/-! The rule of numpy for the shape of arrays that are broadcast together, for C08. -/

namespace Verif.Shapes

/-- Size of an axis, counted from the last; axes that are missing have the size 1. -/
def dim (shape : List ℕ) (axis : ℕ) : ℕ := shape.reverse.getD axis 1

/-- The shape that arrays of these shapes are broadcast to: as many axes as the array with most of them; along
each axis the arrays have the size of the result or the size 1, and one of them has the size of the result. -/
structure IsBroadcast (shapes : List (List ℕ)) (s : List ℕ) : Prop where
  axes : (∀ t ∈ shapes, t.length ≤ s.length) ∧ ∃ t ∈ shapes, t.length = s.length
  sizes : ∀ axis, ∀ t ∈ shapes, dim t axis = dim s axis ∨ dim t axis = 1
  some : ∀ axis, ∃ t ∈ shapes, dim t axis = dim s axis

end Verif.Shapes
