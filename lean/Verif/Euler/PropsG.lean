import Verif.Euler.ModelC
import Verif.Euler.Examples

/-! C132: what is left of an object of Euler's methods after `fit`, also when it raises. -/

namespace Verif.Euler

open Matrix

/-- C132: the objects return what the functions of C44 - C46 return, the same exception or the same attributes. -/
theorem C132_outcome (P : Settings) (si : StructuralIndex) (coordinates : Fin 3 → Arr) (data : Fin 4 → Arr)
    (w : Fin 4 → ℝ) (self : Attributes) :
    fit P si coordinates data w self = (fitObject P si coordinates data w self).2.map fun _ =>
      (fitObject P si coordinates data w self).1 := by
  unfold fit fitObject
  cases ravel coordinates data with
  | error e => rfl
  | ok r =>
    obtain ⟨N, c, d⟩ := r
    simp only [Py.bind_ok]
    cases si with
    | sequence l =>
      simp only [fitInversion, fitInversionObject]
      cases candidates P c d w l with
      | error e => rfl
      | ok cs =>
        simp only [Py.bind_ok]
        cases argmin (cs.map fun c => c.2.data_misfit_.getD 0) with
        | error e => rfl
        | ok i =>
          simp only [Py.bind_ok]
          cases cs[i]? with
          | none => rfl
          | some b => rfl
    | scalar si =>
      simp only [fitInversion, fitInversionObject, fitOne, fitOneObject]
      cases start P si c d w with
      | error e => rfl
      | ok x =>
        simp only [Py.bind_ok]
        cases loop P si c d w x.2 P.max_iterations x.1 with
        | error e => rfl
        | ok y =>
          simp only [Py.bind_ok, finish, finishObject]
          cases y.1.cofactor with
          | none => rfl
          | some C => rfl

/-- C132: the same for `EulerDeconvolution`, and a fit that raises leaves the object as it was. -/
theorem C132_deconvolution (si : ℝ) (coordinates : Fin 3 → Arr) (data : Fin 4 → Arr) (self : Attributes) :
    (∀ a, fitDeconvolution si coordinates data self = .ok a →
      fitDeconvolutionObject si coordinates data self = (a, .ok ())) ∧
    ∀ e, fitDeconvolution si coordinates data self = .error e →
      fitDeconvolutionObject si coordinates data self = (self, .error e) := by
  unfold fitDeconvolution fitDeconvolutionObject
  cases ravel coordinates data with
  | error e => exact ⟨fun a h => by (cases h), fun a h => by (cases h; rfl)⟩
  | ok r =>
    obtain ⟨N, c, d⟩ := r
    simp only [Py.bind_ok]
    cases deconvolution si c d with
    | error e => exact ⟨fun a h => by (cases h), fun a h => by (cases h; rfl)⟩
    | ok x => exact ⟨fun a h => by (cases h; rfl), fun a h => by (cases h)⟩

/-- After an iteration the cofactor is known. -/
theorem loop_cofactor {N : ℕ} {P : Settings} {si : ℝ} {c : Coordinates N} {d : Data N} {w wi : Fin 4 → ℝ} {n : ℕ}
    {x : IterState N} {y : IterState N × Bool} (h : loop P si c d w wi n x = .ok y)
    (hx : 1 ≤ n ∨ x.cofactor ≠ none) : y.1.cofactor ≠ none := by
  induction n generalizing x with
  | zero =>
    cases h
    simpa using hx
  | succ n ih =>
    unfold loop at h
    cases hi : iteration P si c d w wi x with
    | error e =>
      rw [hi] at h
      cases h
    | ok z =>
      have hz : z.cofactor ≠ none := by
        unfold iteration at hi
        cases hq : newtonStep si c d x.data_predicted x.parameters x.euler wi with
        | error e =>
          rw [hq] at hi
          cases hi
        | ok q =>
          simp only [hq, Py.bind_ok, Py.pure_eq] at hi
          cases hi
          simp [metrics]
      simp only [hi, Py.bind_ok, Py.pure_eq] at h
      split at h
      · cases h
        exact hz
      · exact ih h (Or.inr hz)

/-- C132, full statement for `EulerInversion`: a fit that raises leaves the object as it was. -/
def C132_full : Prop := ∀ (P : Settings) (si : StructuralIndex) (coordinates : Fin 3 → Arr) (data : Fin 4 → Arr)
  (w : Fin 4 → ℝ) (self : Attributes) (e : PyErr), (fitObject P si coordinates data w self).2 = .error e →
    (fitObject P si coordinates data w self).1 = self

/-- C132: it does if at least one iteration is allowed, or there is a sequence of structural indices. Missing: no
iterations. -/
theorem C132_failed_partial (P : Settings) (si : StructuralIndex)
    (hP : 1 ≤ P.max_iterations ∨ ∃ l, si = .sequence l) (coordinates : Fin 3 → Arr) (data : Fin 4 → Arr)
    (w : Fin 4 → ℝ) (self : Attributes) (e : PyErr) (he : (fitObject P si coordinates data w self).2 = .error e) :
    (fitObject P si coordinates data w self).1 = self := by
  unfold fitObject at he ⊢
  cases hr : ravel coordinates data with
  | error e => rfl
  | ok r =>
    obtain ⟨N, c, d⟩ := r
    simp only [hr] at he
    simp only
    cases si with
    | sequence l =>
      simp only [fitInversionObject] at he ⊢
      cases h1 : candidates P c d w l with
      | error e => rfl
      | ok cs =>
        simp only [h1] at he
        simp only
        cases h2 : argmin (cs.map fun c => c.2.data_misfit_.getD 0) with
        | error e => rfl
        | ok i =>
          simp only [h2] at he
          simp only
          cases h3 : cs[i]? with
          | none => rfl
          | some b =>
            simp only [h3] at he
            cases he
    | scalar si =>
      have hn : 1 ≤ P.max_iterations := by
        rcases hP with h | ⟨l, h⟩
        · exact h
        · cases h
      simp only [fitInversionObject, fitOneObject] at he ⊢
      cases h1 : start P si c d w with
      | error e => rfl
      | ok x =>
        simp only [h1] at he
        simp only
        cases h2 : loop P si c d w x.2 P.max_iterations x.1 with
        | error e => rfl
        | ok y =>
          simp only [h2, finishObject] at he
          cases h3 : y.1.cofactor with
          | none => exact absurd h3 (loop_cofactor h2 (Or.inl hn))
          | some C =>
            simp only [h3] at he
            cases he

/-- C132: without iterations the first estimate of a scalar structural index overwrites `location_` and `base_level_`,
and `fit` raises UnboundLocalError; the other attributes are still those of the earlier fit. -/
theorem C132_no_iterations (P : Settings) (hP : P.max_iterations = 0) {si : ℝ} (hsi : si ≠ 0)
    {coordinates : Fin 3 → Arr} {data : Fin 4 → Arr} {w : Fin 4 → ℝ} (hw : ∀ k, w k ≠ 0) {self a : Attributes}
    (ha : fitDeconvolution si coordinates data self = .ok a) :
    fitObject P (.scalar si) coordinates data w self =
      ({ self with location_ := a.location_, base_level_ := a.base_level_ }, .error .UnboundLocalError) := by
  unfold fitDeconvolution at ha
  unfold fitObject
  cases hr : ravel coordinates data with
  | error e =>
    rw [hr] at ha
    cases ha
  | ok r =>
    obtain ⟨N, c, d⟩ := r
    simp only [hr, Py.bind_ok] at ha
    simp only
    cases hd : deconvolution si c d with
    | error e =>
      rw [hd] at ha
      cases ha
    | ok x =>
      simp only [hd, Py.bind_ok, Py.pure_eq] at ha
      cases ha
      have hz : ¬ (w 0 = 0 ∨ w 1 = 0 ∨ w 2 = 0 ∨ w 3 = 0) := by simp [hw]
      simp only [fitInversionObject, fitOneObject, start, initDeconvolution, if_neg hsi, Py.bind_ok, hd, if_neg hz,
        Py.pure_eq, hP, loop, finishObject, metrics]
      congr 4
      funext k
      fin_cases k <;> rfl

/-- C132 is not fully true. -/
theorem C132_not_full : ¬ C132_full := by
  intro h
  have h1 := C132_no_iterations { max_iterations := 0 } rfl one_ne_zero (w := ![1, 0.1, 0.1, 0.025])
    (fun k => by fin_cases k <;> norm_num)
    (C44_exact_partial one_ne_zero toy_agree5 toy_independent5 ![1, 2, 3] 4 toy_exact5 {})
  have h2 := h { max_iterations := 0 } (.scalar 1) (toyCoordinates 5) (toyData 5) ![1, 0.1, 0.1, 0.025] {}
    .UnboundLocalError (by rw [h1])
  rw [h1] at h2
  simp at h2

/-- C132: the results of `EulerInversion.fit` do not depend on earlier fits of the object; with one structural index
all attributes are new, with a sequence `data_misfit_` is not touched. -/
theorem C132_history (P : Settings) (si : StructuralIndex) (coordinates : Fin 3 → Arr) (data : Fin 4 → Arr)
    (w : Fin 4 → ℝ) (self : Attributes) :
    fit P si coordinates data w self = (fit P si coordinates data w {}).map fun a =>
      match si with
      | .scalar _ => a
      | .sequence _ => { a with data_misfit_ := self.data_misfit_ } := by
  unfold fit
  cases ravel coordinates data with
  | error e => rfl
  | ok r =>
    obtain ⟨N, c, d⟩ := r
    simp only [Py.bind_ok]
    cases si with
    | sequence l =>
      simp only [fitInversion]
      cases candidates P c d w l with
      | error e => rfl
      | ok cs =>
        simp only [Py.bind_ok]
        cases argmin (cs.map fun c => c.2.data_misfit_.getD 0) with
        | error e => rfl
        | ok i =>
          simp only [Py.bind_ok]
          cases cs[i]? with
          | none => rfl
          | some b => rfl
    | scalar si =>
      simp only [fitInversion, fitOne]
      cases start P si c d w with
      | error e => rfl
      | ok x =>
        simp only [Py.bind_ok]
        cases loop P si c d w x.2 P.max_iterations x.1 with
        | error e => rfl
        | ok y =>
          simp only [Py.bind_ok, finish]
          cases y.1.cofactor with
          | none => rfl
          | some C => rfl

/-- C132_failed_partial: three observations after a fit. -/
example : (fitObject {} (.scalar 1) (toyCoordinates 3) (fun _ => ⟨[3], [1, 2, 3]⟩) ![1, 0.1, 0.1, 0.025]
    { base_level_ := some 7 }).1 = { base_level_ := some 7 } := by
  have ha := C44_few (shape := [3]) one_ne_zero (coordinates := toyCoordinates 3)
    (data := fun _ => ⟨[3], [1, 2, 3]⟩) (by constructor <;> intro k <;> simp [toyCoordinates]) (by norm_num) {}
  refine C132_failed_partial _ _ (Or.inl (by norm_num)) _ _ _ _ .LinAlgError ?_
  unfold fitDeconvolution at ha
  unfold fitObject
  cases hr : ravel (toyCoordinates 3) (fun _ => ⟨[3], [1, 2, 3]⟩) with
  | error e =>
    rw [hr] at ha
    simp only [Py.bind_error, Except.error.injEq] at ha
    simp [ha]
  | ok r =>
    obtain ⟨N, c, d⟩ := r
    simp only [hr, Py.bind_ok] at ha
    cases hd : deconvolution 1 c d with
    | error e =>
      simp only [hd, Py.bind_error, Except.error.injEq] at ha
      simp [fitInversionObject, fitOneObject, start, initDeconvolution, Py.bind_ok, hd, Py.bind_error, ha]
    | ok x =>
      rw [hd] at ha
      cases ha

end Verif.Euler
