import Verif.Euler.Model
import Mathlib.Analysis.Calculus.Deriv.Basic

/-! What the properties C44-C46 talk about, independently of the algorithms. -/

namespace Verif.Euler

/-- Arrays that agree: one shape, with as many elements as the shape says. -/
def Agree (shape : List ℕ) (coordinates : Fin 3 → Arr) (data : Fin 4 → Arr) : Prop :=
  (∀ k, (coordinates k).shape = shape ∧ (coordinates k).data.length = shape.prod) ∧
    ∀ k, (data k).shape = shape ∧ (data k).data.length = shape.prod

/-- The left hand side minus the right hand side of Euler's homogeneity equation,
`(e - e₀) ∂e f + (n - n₀) ∂n f + (u - u₀) ∂u f = η (b - f)`, at observation `i`, for a source at
`(p 0, p 1, p 2)` and the base level `p 3`. -/
def eulerResidual (η : ℝ) (coordinates : Fin 3 → Arr) (data : Fin 4 → Arr) (p : Fin 4 → ℝ) (i : ℕ) :
    ℝ :=
  ((coordinates 0).data.getD i 0 - p 0) * (data 1).data.getD i 0 +
    ((coordinates 1).data.getD i 0 - p 1) * (data 2).data.getD i 0 +
    ((coordinates 2).data.getD i 0 - p 2) * (data 3).data.getD i 0 -
    η * (p 3 - (data 0).data.getD i 0)

/-- The same for the 1d arrays. -/
def eulerResidual1 {N : ℕ} (η : ℝ) (coordinates : Coordinates N) (data : Data N) (p : Fin 4 → ℝ)
    (i : Fin N) : ℝ :=
  (coordinates 0 i - p 0) * data 1 i + (coordinates 1 i - p 1) * data 2 i +
    (coordinates 2 i - p 2) * data 3 i - η * (p 3 - data 0 i)

/-- The four columns (derivatives of the data and a constant) are linearly independent, that is, the
normal matrix is invertible. -/
def Independent (N : ℕ) (data : Fin 4 → Arr) : Prop :=
  ∀ q : Fin 4 → ℝ, (∀ i < N, q 0 * (data 1).data.getD i 0 + q 1 * (data 2).data.getD i 0 +
    q 2 * (data 3).data.getD i 0 + q 3 = 0) → q = 0

/-- The same for the 1d arrays. -/
def Independent1 {N : ℕ} (data : Data N) : Prop :=
  ∀ q : Fin 4 → ℝ, (∀ i, q 0 * data 1 i + q 1 * data 2 i + q 2 * data 3 i + q 3 = 0) → q = 0

/-- The normal matrix: products of the columns (∂e f, ∂n f, ∂u f, η) summed over the data. -/
def normalMatrix (η : ℝ) (N : ℕ) (data : Fin 4 → Arr) : Matrix (Fin 4) (Fin 4) ℝ :=
  let column : Fin 4 → ℕ → ℝ := fun k i =>
    if k = 3 then η else (data (k + 1)).data.getD i 0
  Matrix.of fun j k => ∑ i ∈ Finset.range N, column j i * column k i

/-- The position and base level as one vector. -/
def joined (location : Fin 3 → ℝ) (base_level : ℝ) : Fin 4 → ℝ :=
  ![location 0, location 1, location 2, base_level]

/-- The steps `dp` of the parameters and `dd` of the data solve Euler's equations linearised at the
parameters `p` and the data `d`: the derivative of the residual along the step is minus the
residual. -/
def SolvesLinearised {N : ℕ} (η : ℝ) (coordinates : Coordinates N) (d : Data N) (p dp : Fin 4 → ℝ)
    (dd : Data N) : Prop :=
  ∀ i, HasDerivAt (fun t : ℝ => eulerResidual1 η coordinates (fun k j => d k j + t * dd k j)
    (fun k => p k + t * dp k) i) (-eulerResidual1 η coordinates d p i) 0

/-- `rᵀ W r` for the block weights `w`. -/
def weightedSquare {N : ℕ} (w : Fin 4 → ℝ) (r : Data N) : ℝ := ∑ k, ∑ i, w k * r k i ^ 2

/-- The Gauss-Newton step of the problem "minimise the weighted square of observed minus predicted
data subject to Euler's equations": it solves the linearised equations and, among all steps that do,
it is the only one for which the weighted square of the new residuals is smallest. -/
def IsNewtonStep {N : ℕ} (η : ℝ) (coordinates : Coordinates N) (observed d : Data N) (p : Fin 4 → ℝ)
    (w : Fin 4 → ℝ) (dp : Fin 4 → ℝ) (dd : Data N) : Prop :=
  SolvesLinearised η coordinates d p dp dd ∧
    (∀ dp' dd', SolvesLinearised η coordinates d p dp' dd' →
      weightedSquare w (fun k i => observed k i - d k i - dd k i) ≤
        weightedSquare w (fun k i => observed k i - d k i - dd' k i)) ∧
    ∀ dp' dd', SolvesLinearised η coordinates d p dp' dd' →
      weightedSquare w (fun k i => observed k i - d k i - dd' k i) ≤
        weightedSquare w (fun k i => observed k i - d k i - dd k i) → dp' = dp ∧ dd' = dd

/-- The normal matrix of the linearised problem: products of the derivatives of Euler's equations with
respect to the parameters, each equation divided by the variance that the weights give it. -/
noncomputable def linearisedNormalMatrix {N : ℕ} (η : ℝ) (coordinates : Coordinates N) (d : Data N)
    (p w : Fin 4 → ℝ) : Matrix (Fin 4) (Fin 4) ℝ :=
  let column : Fin 4 → Fin N → ℝ := fun k i => if k = 3 then η else d (k + 1) i
  let variance : Fin N → ℝ := fun i => η ^ 2 / w 0 + (coordinates 0 i - p 0) ^ 2 / w 1 +
    (coordinates 1 i - p 1) ^ 2 / w 2 + (coordinates 2 i - p 2) ^ 2 / w 3
  Matrix.of fun j k => ∑ i, column j i * column k i / variance i

/-- Norm of all the entries. -/
noncomputable def norm2 {N : ℕ} (x : Fin N → ℝ) : ℝ := Real.sqrt (∑ i, x i ^ 2)

/-- Root of the sum of squares of the residuals, each multiplied by its weight. -/
noncomputable def weightedMisfit {N : ℕ} (w : Fin 4 → ℝ) (observed d : Data N) : ℝ :=
  Real.sqrt (∑ k, ∑ i, (w k * (observed k i - d k i)) ^ 2)

/-- Merit of an iterate: misfit of the data plus the balance times the misfit of Euler's equations. -/
noncomputable def meritOf {N : ℕ} (balance η : ℝ) (coordinates : Coordinates N) (observed : Data N)
    (w : Fin 4 → ℝ) (p : Fin 4 → ℝ) (d : Data N) : ℝ :=
  weightedMisfit w observed d + balance * norm2 fun i => eulerResidual1 η coordinates d p i

/-- The merit changed by less than the fraction `tol`. -/
def Settled (tol m m' : ℝ) : Prop := m ≠ 0 ∧ |(m - m') / m| < tol

/-- The merit function of the documentation: the misfit of the data is `√(rᵀ W r)`. -/
noncomputable def documentedMisfit {N : ℕ} (w : Fin 4 → ℝ) (observed d : Data N) : ℝ :=
  Real.sqrt (weightedSquare w fun k i => observed k i - d k i)

end Verif.Euler
