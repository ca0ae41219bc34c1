import Verif.Euler.Model

/-!
The methods of src/harmonica/_euler_methods.py with the attributes of the object also after an exception.
-/

namespace Verif.Euler
open Matrix

/-- _euler_methods.py 437-443: the attributes are set one after the other; `cofactor` is not defined if there was no
iteration, and then `location_` and `base_level_` were set already. -/
noncomputable def finishObject {N : ℕ} (data_observed : Data N) (self : Attributes) (s : IterState N) :
    Attributes × Py Unit :=
  let self := { self with
    location_ := some ![s.parameters 0, s.parameters 1, s.parameters 2]
    base_level_ := some (s.parameters 3) }
  let residuals : Data N := fun k i => data_observed k i - s.data_predicted k i
  let chi_squared := overCount (∑ k, ∑ i, residuals k i ^ 2) (4 * (N : ℝ) - 4)
  match s.cofactor with
  | none => (self, .error .UnboundLocalError)
  | some cofactor =>
    ({ self with
      covariance_ := some (chi_squared.map fun c => c • cofactor)
      data_misfit_ := some s.data_misfit }, .ok ())

/-- _euler_methods.py 379-443 `_fit` of the object. -/
noncomputable def fitOneObject {N : ℕ} (P : Settings) (si : ℝ) (coordinates : Coordinates N)
    (data : Data N) (weights : Fin 4 → ℝ) (self : Attributes) : Attributes × Py Unit :=
  match start P si coordinates data weights with
  | .error e => (self, .error e)
  | .ok (s, Wd_inv) =>
    match loop P si coordinates data weights Wd_inv P.max_iterations s with
    | .error e => (self, .error e)
    | .ok (s, _) => finishObject data self s

/-- _euler_methods.py 358-377: `fit` of the object after raveling. The candidates are other objects. -/
noncomputable def fitInversionObject {N : ℕ} (P : Settings) (structural_index : StructuralIndex)
    (coordinates : Coordinates N) (data : Data N) (weights : Fin 4 → ℝ) (self : Attributes) :
    Attributes × Py Unit :=
  match structural_index with
  | .sequence l =>
    match candidates P coordinates data weights l with
    | .error e => (self, .error e)
    | .ok cs =>
      match argmin (cs.map fun c => c.2.data_misfit_.getD 0) with
      | .error e => (self, .error e)
      | .ok i =>
        match cs[i]? with
        | none => (self, .error .IndexError)
        | some best => ({ self with
            structural_index_ := some best.1
            location_ := best.2.location_
            base_level_ := best.2.base_level_
            covariance_ := best.2.covariance_ }, .ok ())
  | .scalar si =>
    match fitOneObject P si coordinates data weights self with
    | (self, .error e) => (self, .error e)
    | (self, .ok _) => ({ self with structural_index_ := some si }, .ok ())

/-- _euler_methods.py 311-377 `EulerInversion.fit` of the object. -/
noncomputable def fitObject (P : Settings) (structural_index : StructuralIndex) (coordinates : Fin 3 → Arr)
    (data : Fin 4 → Arr) (weights : Fin 4 → ℝ) (self : Attributes) : Attributes × Py Unit :=
  match ravel coordinates data with
  | .error e => (self, .error e)
  | .ok ⟨_, c, d⟩ => fitInversionObject P structural_index c d weights self

/-- _euler_methods.py 108-168 `EulerDeconvolution.fit` of the object: nothing can fail after the first assignment. -/
noncomputable def fitDeconvolutionObject (si : ℝ) (coordinates : Fin 3 → Arr) (data : Fin 4 → Arr)
    (self : Attributes) : Attributes × Py Unit :=
  match ravel coordinates data with
  | .error e => (self, .error e)
  | .ok ⟨_, c, d⟩ =>
    match deconvolution si c d with
    | .error e => (self, .error e)
    | .ok (location, base_level, covariance) =>
      let self := { self with covariance_ := some covariance }
      let self := { self with location_ := some location }
      let self := { self with base_level_ := some base_level }
      (self, .ok ())

end Verif.Euler
