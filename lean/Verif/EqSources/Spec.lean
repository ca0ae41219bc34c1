import Verif.EqSources.Model
import Verif.Distance.Props
import Mathlib.LinearAlgebra.Matrix.NonsingularInverse

/-!
Specification of the equivalent sources (C24-C31).
-/

namespace Verif.EqSources
open Verif.Forward Verif.Engine Verif.Distance

/-- The three 1d arrays of a list of points. -/
def pointArrs (pts : List P3) : Arrs := (pts.map (·.x), pts.map (·.y), pts.map (·.z))

/-- Three arrays of a common shape with given dtypes that hold a list of points. -/
def coordArrs (d1 d2 d3 : DType) (shape : List ℕ) (pts : List P3) : Coords :=
  (⟨d1, shape, pts.map (·.x)⟩, ⟨d2, shape, pts.map (·.y)⟩, ⟨d3, shape, pts.map (·.z)⟩)

/-- Field at `q` of sources with coefficients: the sum of coefficient over Euclidean distance. `pos`
is the position in space of the coordinates. -/
noncomputable def field (pos : P3 → E3) (srcs : List (P3 × ℝ)) (q : P3) : ℝ :=
  (srcs.map fun s => s.2 / dist (pos q) (pos s.1)).sum

/-- Data minus the field of the sources `pts` with the coefficients `coefs` at the data points. -/
noncomputable def residual (obs pts : List P3) (data coefs : List ℝ) : List ℝ :=
  List.zipWith (· - ·) data (obs.map (field cartPos (pts.zip coefs)))

/-- Product of a matrix (list of rows) and a vector. -/
noncomputable def matVec (rows : List (List ℝ)) (v : List ℝ) : List ℝ :=
  rows.map fun row => (List.zipWith (· * ·) row v).sum

/-- Rows of a matrix. -/
def toRows {m n : ℕ} (J : Matrix (Fin m) (Fin n) ℝ) : List (List ℝ) :=
  List.ofFn fun i => List.ofFn (J i)

open Matrix in
/-- The solver, without damping, returns a solution of the normal equations of weighted least
squares, `Jᵀ W (J c - d) = 0`, whenever it returns (without weights, `W` is the identity). -/
def SolvesNormalEquations (env : Env) : Prop :=
  ∀ (m n : ℕ) (J : Matrix (Fin m) (Fin n) ℝ) (d : Fin m → ℝ) (w : Option (Fin m → ℝ)) (c : List ℝ),
    env.leastSquares (toRows J) (List.ofFn d) (w.map List.ofFn) none = .ok c →
    ∃ c' : Fin n → ℝ, c = List.ofFn c' ∧
      Jᵀ *ᵥ (fun i => w.getD (fun _ => 1) i * ((J *ᵥ c') i - d i)) = 0

/-- `r` is the list of the elements of `a` at the indices `l`, in order. -/
def Selects {α : Type} (a : List α) (l : List ℕ) (r : List α) : Prop :=
  List.Forall₂ (fun i x => a[i]? = some x) l r

/-- The weights of the data of a window. -/
def SelectsWeights (weights : Option (List ℝ)) (dw : List ℕ) (w : Option (List ℝ)) : Prop :=
  match weights, w with
  | none, none => True
  | some wt, some w => Selects wt dw w
  | _, _ => False

/-- One window of gradient boosting, from the coefficients `C` to `C'`: the least squares solution for
the sources and the residual (data minus the field of all the current coefficients) of the window
is added to the coefficients of the sources of the window; all other coefficients stay. -/
def BoostStep (env : Env) (damping : Option ℝ) (obs pts : List P3) (data : List ℝ)
    (weights : Option (List ℝ)) (pw dw : List ℕ) (C C' : List ℝ) : Prop :=
  ∃ (ps cs : List P3) (rs : List ℝ) (w : Option (List ℝ)) (v : List ℝ),
    Selects pts pw ps ∧ Selects obs dw cs ∧ Selects (residual obs pts data C) dw rs ∧
    SelectsWeights weights dw w ∧
    env.leastSquares (cs.map fun q => ps.map fun p => 1 / dist (cartPos q) (cartPos p)) rs w damping
      = .ok v ∧
    v.length = pw.length ∧ C'.length = C.length ∧ (∀ j, j ∉ pw → C'[j]? = C[j]?) ∧
    ∀ t (ht : t < pw.length) (hv : t < v.length),
      ∃ x, C[pw[t]]? = some x ∧ C'[pw[t]]? = some (x + v[t])

/-- A call of one of the methods of `EquivalentSources` (or of the other estimators, in which the
schedules of the loops and the shuffles are part of the call). -/
inductive Call where
  | fit (mode : Mode) (coordinates : Coords) (data : CArr) (weights : Option CArr)
  | estimate (coordinates : Coords)
  | predict (mode : Mode) (coordinates : Coords)

/-- The attributes of an `EquivalentSources` after a call. -/
noncomputable def Call.step (env : Env) (junk : Junk) (P : Params) (s : State) : Call → State
  | .fit mode c d w => (EqSources.fit env junk mode P c d w s).1
  | .estimate c => (estimateMemory env P c s).1
  | .predict _ _ => s

/-- The attributes of an `EquivalentSourcesSph` after a call. -/
noncomputable def Call.stepSph (env : Env) (junk : Junk) (P : SphParams) (s : State) : Call → State
  | .fit mode c d w => (fitSph env junk mode P c d w s).1
  | .estimate _ => s
  | .predict _ _ => s

/-- The arguments of a call of `fit` with arrays of consistent shapes. -/
def validFit : Call → Option (Mode × Coords × CArr × Option CArr)
  | .fit mode c d w => if checkFitInput c d w = .ok () then some (mode, c, d, w) else none
  | .estimate _ => none
  | .predict _ _ => none

/-- The last call of `fit` in a history whose arguments have consistent shapes. -/
def lastFit : List Call → Option (Mode × Coords × CArr × Option CArr)
  | [] => none
  | call :: rest =>
    match lastFit rest with
    | some r => some r
    | none => validFit call

/-- The root mean square of a list of numbers. -/
noncomputable def rootMeanSquare (l : List ℝ) : ℝ :=
  Real.sqrt ((l.map fun x => x * x).sum / l.length)

end Verif.EqSources
