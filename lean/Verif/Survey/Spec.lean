import Verif.Forward.Spec

/-! C103 in words: the call on many points is one call per point. -/

namespace Verif.Survey

open Verif.Engine Verif.Forward

/-- A call on the points `obs` given in arrays of a shape (`batch`) returns exactly when the call on
each of the points alone (`single`) does, and then the array it returns has that shape and holds the
value of the call on point `i` at place `i`. -/
def OneByOne {P : Type} (shape : List ℕ) (obs : List P) (batch : Py NdArray) (single : P → Py NdArray) :
    Prop :=
  ∀ r, batch = .ok r ↔
    r.shape = shape ∧ List.Forall₂ (fun q x => single q = .ok ⟨[1], [x]⟩) obs r.data

/-- The three arrays of a shape that hold a list of vectors. -/
def components (shape : List ℕ) (vs : List (ℝ × ℝ × ℝ)) : NdArray × NdArray × NdArray :=
  (⟨shape, vs.map (·.1)⟩, ⟨shape, vs.map (·.2.1)⟩, ⟨shape, vs.map (·.2.2)⟩)

/-- The same for calls that return the three components of a vector. -/
def OneByOne3 {P : Type} (shape : List ℕ) (obs : List P) (batch : Py (NdArray × NdArray × NdArray))
    (single : P → Py (NdArray × NdArray × NdArray)) : Prop :=
  ∀ r, batch = .ok r ↔ ∃ vs, r = components shape vs ∧
    List.Forall₂ (fun q v => single q = .ok (components [1] [v])) obs vs

end Verif.Survey
