import Verif.Euler.Model

/-!
`EulerInversion.fit` of src/harmonica/_euler_methods.py for `weights` with any number of elements.
-/

namespace Verif.Euler
open Matrix

open Classical in
/-- _euler_methods.py 379-443 `_fit` for any sequence of weights. The initial estimate comes first. The weights
0 to 3 are then read (lines 395-398, IndexError), each weight is inverted (line 401, ZeroDivisionError), and the
sections of the data are paired with the inverses in the first iteration (lines 455, 460, `zip` with
`strict=True` raises ValueError); without iterations `cofactor` is not defined (line 441). -/
noncomputable def fitOneWeights {N : ℕ} (P : Settings) (si : ℝ) (coordinates : Coordinates N)
    (data : Data N) (weights : List ℝ) (self : Attributes) : Py (Attributes × Bool) :=
  match weights with
  | [w0, w1, w2, w3] => fitOne P si coordinates data ![w0, w1, w2, w3] self
  | _ => do
    let si ← initDeconvolution si
    let _ ← deconvolution si coordinates data
    if weights.length < 4 then throw .IndexError
    else if 0 ∈ weights then throw .ZeroDivisionError
    else if P.max_iterations = 0 then throw .UnboundLocalError
    else throw .ValueError

/-- _euler_methods.py 359-368: fit one candidate per structural index. -/
noncomputable def candidatesWeights {N : ℕ} (P : Settings) (coordinates : Coordinates N) (data : Data N)
    (weights : List ℝ) : List ℝ → Py (List (ℝ × Attributes))
  | [] => .ok []
  | si :: rest => do
    let _ ← initInversion (.scalar si)
    let (a, _) ← fitOneWeights P si coordinates data weights {}
    let l ← candidatesWeights P coordinates data weights rest
    return (si, { a with structural_index_ := some si }) :: l

/-- _euler_methods.py 358-377: `fit` after raveling. -/
noncomputable def fitInversionWeights {N : ℕ} (P : Settings) (structural_index : StructuralIndex)
    (coordinates : Coordinates N) (data : Data N) (weights : List ℝ) (self : Attributes) :
    Py Attributes :=
  match structural_index with
  | .sequence l => do
    let cs ← candidatesWeights P coordinates data weights l
    let i ← argmin (cs.map fun c => c.2.data_misfit_.getD 0)
    match cs[i]? with
    | none => throw .IndexError
    | some best => return { self with
        structural_index_ := some best.1
        location_ := best.2.location_
        base_level_ := best.2.base_level_
        covariance_ := best.2.covariance_ }
  | .scalar si => do
    let (a, _) ← fitOneWeights P si coordinates data weights self
    return { a with structural_index_ := some si }

/-- _euler_methods.py 311-377 `EulerInversion.fit` -/
noncomputable def fitWeights (P : Settings) (structural_index : StructuralIndex) (coordinates : Fin 3 → Arr)
    (data : Fin 4 → Arr) (weights : List ℝ) (self : Attributes) : Py Attributes := do
  let ⟨_, c, d⟩ ← ravel coordinates data
  fitInversionWeights P structural_index c d weights self

end Verif.Euler
