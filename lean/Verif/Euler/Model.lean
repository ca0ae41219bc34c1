import Verif.Basic
import Mathlib.LinearAlgebra.Matrix.NonsingularInverse
import Mathlib.Analysis.SpecialFunctions.Pow.Real

/-!
Model of src/harmonica/_euler_methods.py.

The arrays are the 1d arrays after `vdb.n_1d_arrays`, all with the same number `N` of elements (see
`ravel` for the check). The vector of 4 N data that the code concatenates and splits again is a
function of the data type (0 field, 1 easting, 2 northing, 3 upward derivative) and of the point.
The parameters are the vector (easting, northing, upward, base level).

`scipy.linalg.inv` raises LinAlgError for a singular matrix (in exact arithmetic) and ValueError
for a matrix with infinities or NaN.

Not modelled: rounding; the type of `structural_index` (a number, or a list of numbers). There are four
`weights` here; ModelB.lean has any number of them.
-/

namespace Verif.Euler
open Matrix

/-- An array: shape and elements in C order. The arguments of _euler_methods.py 108, 311. -/
structure Arr where
  shape : List ℕ
  data : List ℝ

/-- The raveled coordinates of _euler_methods.py 142, 357. -/
abbrev Coordinates (N : ℕ) := Fin 3 → Fin N → ℝ
/-- The raveled data of _euler_methods.py 141, 356. -/
abbrev Data (N : ℕ) := Fin 4 → Fin N → ℝ
/-- The parameters (easting, northing, upward, base level) of _euler_methods.py 387-392. -/
abbrev Parameters := Fin 4 → ℝ

open Classical in
/-- `vdb.check_fit_input` followed by `vdb.n_1d_arrays` (lines 141-143, 355-357): all arrays must have
the same shape, then they are raveled. _euler_methods.py 141-142, 355-357. -/
noncomputable def ravel (coordinates : Fin 3 → Arr) (data : Fin 4 → Arr) :
    Py ((N : ℕ) × (Coordinates N × Data N)) :=
  let shape := (coordinates 0).shape
  if (∀ k, (coordinates k).shape = shape) ∧ ∀ k, (data k).shape = shape then
    .ok ⟨shape.prod, fun k i => (coordinates k).data.getD i 0, fun k i => (data k).data.getD i 0⟩
  else .error .ValueError

open Classical in
/-- `sp.linalg.inv` of a finite matrix. _euler_methods.py 161, 466. -/
noncomputable def inv (A : Matrix (Fin 4) (Fin 4) ℝ) : Py (Matrix (Fin 4) (Fin 4) ℝ) :=
  if A.det = 0 then .error .LinAlgError else .ok A⁻¹

/-- Attributes that `fit` sets. `covariance_` may be set to a matrix that is not finite
(`some none`). _euler_methods.py 165-167, 437-442. -/
structure Attributes where
  location_ : Option (Fin 3 → ℝ) := none
  base_level_ : Option ℝ := none
  covariance_ : Option (Option (Matrix (Fin 4) (Fin 4) ℝ)) := none
  structural_index_ : Option ℝ := none
  data_misfit_ : Option ℝ := none

/-! ### EulerDeconvolution -/

open Classical in
/-- _euler_methods.py 102-106 `EulerDeconvolution.__init__` (and 303-305 of `EulerInversion`): returns the structural
index. -/
noncomputable def initDeconvolution (structural_index : ℝ) : Py ℝ :=
  if structural_index = 0 then .error .ValueError else .ok structural_index

/-- _euler_methods.py 144-149 the Jacobian -/
def jacobian {N : ℕ} (si : ℝ) (data : Data N) : Matrix (Fin N) (Fin 4) ℝ :=
  of fun i => ![data 1 i, data 2 i, data 3 i, si]

/-- _euler_methods.py 150-155 the pseudo data -/
def pseudoData {N : ℕ} (si : ℝ) (coordinates : Coordinates N) (data : Data N) : Fin N → ℝ :=
  fun i => coordinates 0 i * data 1 i + coordinates 1 i * data 2 i + coordinates 2 i * data 3 i +
    si * data 0 i

open Classical in
/-- `x / n` for a count: not finite if it is zero. _euler_methods.py 164, 439. -/
noncomputable def overCount (x : ℝ) (n : ℝ) : Option ℝ := if n = 0 then none else some (x / n)

/-- _euler_methods.py 144-168 `EulerDeconvolution.fit` after raveling. Returns location, base level, covariance. -/
noncomputable def deconvolution {N : ℕ} (si : ℝ) (coordinates : Coordinates N) (data : Data N) :
    Py ((Fin 3 → ℝ) × ℝ × Option (Matrix (Fin 4) (Fin 4) ℝ)) := do
  let J := jacobian si data
  let pseudo_data := pseudoData si coordinates data
  let hessian := Jᵀ * J
  let hessian_inv ← inv hessian
  let estimate := (hessian_inv * Jᵀ) *ᵥ pseudo_data
  let pseudo_residuals := pseudo_data - J *ᵥ estimate
  let chi_squared := overCount (∑ i, pseudo_residuals i ^ 2) ((N : ℝ) - 4)
  return (![estimate 0, estimate 1, estimate 2], estimate 3,
    chi_squared.map fun c => c • hessian_inv)

/-- _euler_methods.py 108-168 `EulerDeconvolution.fit` -/
noncomputable def fitDeconvolution (si : ℝ) (coordinates : Fin 3 → Arr) (data : Fin 4 → Arr)
    (self : Attributes) : Py Attributes := do
  let ⟨_, c, d⟩ ← ravel coordinates data
  let (location, base_level, covariance) ← deconvolution si c d
  return { self with
    covariance_ := some covariance
    location_ := some location
    base_level_ := some base_level }

/-! ### EulerInversion -/

/-- _euler_methods.py 306-309: the attributes set by `__init__`. -/
structure Settings where
  max_iterations : ℕ := 20
  tol : ℝ := 0.1
  euler_misfit_balance : ℝ := 0.1

/-- _euler_methods.py 502-516 `_eulers_equation` -/
def eulersEquation {N : ℕ} (si : ℝ) (coordinates : Coordinates N) (data : Data N)
    (parameters : Parameters) : Fin N → ℝ := fun i =>
  (coordinates 0 i - parameters 0) * data 1 i + (coordinates 1 i - parameters 1) * data 2 i +
    (coordinates 2 i - parameters 2) * data 3 i + si * (data 0 i - parameters 3)

/-- _euler_methods.py 471-485 `_parameter_jacobian` -/
def parameterJacobian {N : ℕ} (si : ℝ) (data : Data N) : Matrix (Fin N) (Fin 4) ℝ :=
  of fun i => ![-data 1 i, -data 2 i, -data 3 i, -si]

/-- _euler_methods.py 487-500 `_data_jacobian_diagonals` -/
def dataJacobianDiagonals {N : ℕ} (si : ℝ) (coordinates : Coordinates N) (parameters : Parameters) :
    Fin 4 → Fin N → ℝ :=
  ![fun _ => si, fun i => coordinates 0 i - parameters 0, fun i => coordinates 1 i - parameters 1,
    fun i => coordinates 2 i - parameters 2]

open Classical in
/-- _euler_methods.py 445-469 `_newton_step`: the step of the parameters, the step of the data and the cofactor matrix.
The sparse matrices with diagonal blocks are written out. A zero on the diagonal of `Q` makes
`Q_inv` infinite and then `inv` raises ValueError (the last column of `A` has no zeros). -/
noncomputable def newtonStep {N : ℕ} (si : ℝ) (coordinates : Coordinates N)
    (data_observed data_predicted : Data N) (parameters : Parameters) (euler : Fin N → ℝ)
    (Wd_inv : Fin 4 → ℝ) : Py (Parameters × Data N × Matrix (Fin 4) (Fin 4) ℝ) := do
  let A := parameterJacobian si data_predicted
  let B_diags := dataJacobianDiagonals si coordinates parameters
  let residuals : Data N := fun k i => data_observed k i - data_predicted k i
  let Q : Fin N → ℝ := fun i => ∑ k, B_diags k i ^ 2 * Wd_inv k
  if ∃ i, Q i = 0 then throw .ValueError
  else
    let Q_inv : Fin N → ℝ := fun i => 1 / Q i
    let ATQ := Aᵀ * diagonal Q_inv
    let Br : Fin N → ℝ := fun i => ∑ k, B_diags k i * residuals k i
    let cofactor ← inv (ATQ * A)
    let parameter_step := (-cofactor * ATQ) *ᵥ (euler + Br)
    let u := Br + euler + A *ᵥ parameter_step
    let data_step : Data N := fun k i => residuals k i - Wd_inv k * B_diags k i * (Q_inv i * u i)
    return (parameter_step, data_step, cofactor)

/-- The variables of the loop in `_fit`. _euler_methods.py 383-436. -/
structure IterState (N : ℕ) where
  parameters : Parameters
  data_predicted : Data N
  euler : Fin N → ℝ
  data_misfit : ℝ
  merit : ℝ
  cofactor : Option (Matrix (Fin 4) (Fin 4) ℝ)

/-- `np.linalg.norm(residuals * data_weights)` (lines 406, 423). _euler_methods.py 406, 423. -/
noncomputable def dataMisfit {N : ℕ} (weights : Fin 4 → ℝ) (residuals : Data N) : ℝ :=
  Real.sqrt (∑ k, ∑ i, (residuals k i * weights k) ^ 2)

/-- `np.linalg.norm(euler)`. _euler_methods.py 403-407. -/
noncomputable def eulerMisfit {N : ℕ} (euler : Fin N → ℝ) : ℝ := Real.sqrt (∑ i, euler i ^ 2)

/-- _euler_methods.py 403-407 and 420-424: the metrics of the current parameters and predicted data. -/
noncomputable def metrics {N : ℕ} (P : Settings) (si : ℝ) (coordinates : Coordinates N)
    (data_observed : Data N) (weights : Fin 4 → ℝ) (parameters : Parameters)
    (data_predicted : Data N) (cofactor : Option (Matrix (Fin 4) (Fin 4) ℝ)) : IterState N :=
  let euler := eulersEquation si coordinates data_predicted parameters
  let residuals : Data N := fun k i => data_observed k i - data_predicted k i
  let euler_misfit := eulerMisfit euler
  let data_misfit := dataMisfit weights residuals
  { parameters := parameters, data_predicted := data_predicted, euler := euler
    data_misfit := data_misfit, merit := data_misfit + P.euler_misfit_balance * euler_misfit
    cofactor := cofactor }

/-- _euler_methods.py 409-424: the body of the loop up to the new merit. -/
noncomputable def iteration {N : ℕ} (P : Settings) (si : ℝ) (coordinates : Coordinates N)
    (data_observed : Data N) (weights Wd_inv : Fin 4 → ℝ) (s : IterState N) : Py (IterState N) := do
  let (parameter_step, data_step, cofactor) ←
    newtonStep si coordinates data_observed s.data_predicted s.parameters s.euler Wd_inv
  let parameters := s.parameters + parameter_step
  let data_predicted := s.data_predicted + data_step
  return metrics P si coordinates data_observed weights parameters data_predicted (some cofactor)

open Classical in
/-- _euler_methods.py 425, 428: `abs((merit - new_merit) / merit) < tol`; false if the division gives inf or nan. -/
noncomputable def converged (tol merit new_merit : ℝ) : Bool :=
  decide (merit ≠ 0 ∧ |(merit - new_merit) / merit| < tol)

/-- _euler_methods.py 408-436: the loop, and whether the warning was issued. -/
noncomputable def loop {N : ℕ} (P : Settings) (si : ℝ) (coordinates : Coordinates N)
    (data_observed : Data N) (weights Wd_inv : Fin 4 → ℝ) :
    ℕ → IterState N → Py (IterState N × Bool)
  | 0, s => .ok (s, true)
  | n + 1, s => do
    let s' ← iteration P si coordinates data_observed weights Wd_inv s
    if converged P.tol s.merit s'.merit then return (s', false)
    else loop P si coordinates data_observed weights Wd_inv n s'

/-- _euler_methods.py 383-407: the state before the loop, and the inverses of the weights (Python numbers). -/
noncomputable def start {N : ℕ} (P : Settings) (si : ℝ) (coordinates : Coordinates N)
    (data : Data N) (weights : Fin 4 → ℝ) : Py (IterState N × (Fin 4 → ℝ)) := do
  let data_predicted : Data N := fun k i => 0.9 * data k i
  let si ← initDeconvolution si
  let (location, base_level, _) ← deconvolution si coordinates data
  let parameters : Parameters := ![location 0, location 1, location 2, base_level]
  if weights 0 = 0 ∨ weights 1 = 0 ∨ weights 2 = 0 ∨ weights 3 = 0 then throw .ZeroDivisionError
  else
    let Wd_inv : Fin 4 → ℝ := fun k => 1 / weights k
    return (metrics P si coordinates data weights parameters data_predicted none, Wd_inv)

/-- _euler_methods.py 437-442: the attributes after the loop; `cofactor` is not defined if there was no iteration. -/
noncomputable def finish {N : ℕ} (data_observed : Data N) (self : Attributes) (s : IterState N) :
    Py Attributes :=
  let residuals : Data N := fun k i => data_observed k i - s.data_predicted k i
  let chi_squared := overCount (∑ k, ∑ i, residuals k i ^ 2) (4 * (N : ℝ) - 4)
  match s.cofactor with
  | none => .error .UnboundLocalError
  | some cofactor => .ok { self with
      location_ := some ![s.parameters 0, s.parameters 1, s.parameters 2]
      base_level_ := some (s.parameters 3)
      covariance_ := some (chi_squared.map fun c => c • cofactor)
      data_misfit_ := some s.data_misfit }

/-- _euler_methods.py 379-443 `_fit`: the attributes, and whether the warning was issued. (If it raises
UnboundLocalError, `location_` and `base_level_` were set before; see ModelC.lean.) -/
noncomputable def fitOne {N : ℕ} (P : Settings) (si : ℝ) (coordinates : Coordinates N)
    (data : Data N) (weights : Fin 4 → ℝ) (self : Attributes) : Py (Attributes × Bool) := do
  let (s, Wd_inv) ← start P si coordinates data weights
  let (s, warned) ← loop P si coordinates data weights Wd_inv P.max_iterations s
  let self ← finish data self s
  return (self, warned)

/-- The argument `structural_index`. _euler_methods.py 295-305, 358-368. -/
inductive StructuralIndex where
  | scalar (si : ℝ)
  | sequence (si : List ℝ)

open Classical in
/-- _euler_methods.py 295-309 `EulerInversion.__init__` -/
noncomputable def initInversion : StructuralIndex → Py StructuralIndex
  | .scalar si => if si = 0 then .error .ValueError else .ok (.scalar si)
  | .sequence l => .ok (.sequence l)

/-- _euler_methods.py 359-368: fit one candidate per structural index. -/
noncomputable def candidates {N : ℕ} (P : Settings) (coordinates : Coordinates N) (data : Data N)
    (weights : Fin 4 → ℝ) : List ℝ → Py (List (ℝ × Attributes))
  | [] => .ok []
  | si :: rest => do
    let _ ← initInversion (.scalar si)
    let (a, _) ← fitOne P si coordinates data weights {}
    let l ← candidates P coordinates data weights rest
    return (si, { a with structural_index_ := some si }) :: l

open Classical in
/-- `np.argmin`: the first position of the smallest value; ValueError for an empty list.
_euler_methods.py 369-371. -/
noncomputable def argmin : List ℝ → Py ℕ
  | [] => .error .ValueError
  | [_] => .ok 0
  | a :: b :: l => do
    let i ← argmin (b :: l)
    return if a ≤ (b :: l).getD i 0 then 0 else i + 1

/-- _euler_methods.py 358-377: `fit` after raveling. -/
noncomputable def fitInversion {N : ℕ} (P : Settings) (structural_index : StructuralIndex)
    (coordinates : Coordinates N) (data : Data N) (weights : Fin 4 → ℝ) (self : Attributes) :
    Py Attributes :=
  match structural_index with
  | .sequence l => do
    let cs ← candidates P coordinates data weights l
    let i ← argmin (cs.map fun c => c.2.data_misfit_.getD 0)
    match cs[i]? with
    | none => throw .IndexError
    | some best => return { self with
        structural_index_ := some best.1
        location_ := best.2.location_
        base_level_ := best.2.base_level_
        covariance_ := best.2.covariance_ }
  | .scalar si => do
    let (a, _) ← fitOne P si coordinates data weights self
    return { a with structural_index_ := some si }

/-- _euler_methods.py 311-377 `EulerInversion.fit` -/
noncomputable def fit (P : Settings) (structural_index : StructuralIndex) (coordinates : Fin 3 → Arr)
    (data : Fin 4 → Arr) (weights : Fin 4 → ℝ) (self : Attributes) : Py Attributes := do
  let ⟨_, c, d⟩ ← ravel coordinates data
  fitInversion P structural_index c d weights self

end Verif.Euler
