import Verif.Euler.ModelB
import Verif.Euler.PropsB

/-! C45 for weights with any number of elements. -/

namespace Verif.Euler
open Matrix

theorem fitOneWeights_other {N : ℕ} (P : Settings) (si : ℝ) (c : Coordinates N) (d : Data N) (w : List ℝ)
    (self : Attributes) (h : w.length ≠ 4) : ∃ e, fitOneWeights P si c d w self = .error e := by
  have aux : ∃ e, (do
      let si ← initDeconvolution si
      let _ ← deconvolution si c d
      if w.length < 4 then throw .IndexError
      else if 0 ∈ w then throw .ZeroDivisionError
      else if P.max_iterations = 0 then throw .UnboundLocalError
      else throw .ValueError : Py (Attributes × Bool)) = .error e := by
    cases hi : initDeconvolution si with
    | error e => exact ⟨e, by simp [Py.bind_error]⟩
    | ok s =>
      cases hd : deconvolution s c d with
      | error e => exact ⟨e, by simp [Py.bind_ok, Py.bind_error, hd]⟩
      | ok x =>
        simp only [Py.bind_ok, hd, Py.throw_eq]
        split_ifs <;> exact ⟨_, rfl⟩
  match w, h, aux with
  | [], _, aux => exact aux
  | [_], _, aux => exact aux
  | [_, _], _, aux => exact aux
  | [_, _, _], _, aux => exact aux
  | [_, _, _, _], h, _ => exact absurd rfl h
  | _ :: _ :: _ :: _ :: _ :: _, _, aux => exact aux

theorem candidatesWeights_four {N : ℕ} (P : Settings) (c : Coordinates N) (d : Data N) (w0 w1 w2 w3 : ℝ)
    (l : List ℝ) :
    candidatesWeights P c d [w0, w1, w2, w3] l = candidates P c d ![w0, w1, w2, w3] l := by
  induction l with
  | nil => rfl
  | cons si l ih => simp only [candidatesWeights, candidates, fitOneWeights, ih]

/-- C45: `fit` with four weights is the method described by the other theorems. -/
theorem C45_four_weights (P : Settings) (si : StructuralIndex) (coordinates : Fin 3 → Arr)
    (data : Fin 4 → Arr) (w0 w1 w2 w3 : ℝ) (self : Attributes) :
    fitWeights P si coordinates data [w0, w1, w2, w3] self =
      fit P si coordinates data ![w0, w1, w2, w3] self := by
  unfold fitWeights fit
  congr 1
  funext x
  cases si with
  | scalar si => rfl
  | sequence l =>
    simp only [fitInversionWeights, fitInversion, candidatesWeights_four]
    rfl

/-- C45: with any other number of weights `fit` raises an exception, whatever the structural indices, the data
and the number of iterations. -/
theorem C45_other_weights (P : Settings) (si : StructuralIndex) (coordinates : Fin 3 → Arr)
    (data : Fin 4 → Arr) (w : List ℝ) (self : Attributes) (h : w.length ≠ 4) :
    ∃ e, fitWeights P si coordinates data w self = .error e := by
  unfold fitWeights
  cases hr : ravel coordinates data with
  | error e => exact ⟨e, by simp [Py.bind_error]⟩
  | ok x =>
    obtain ⟨N, c, d⟩ := x
    simp only [Py.bind_ok]
    cases si with
    | scalar si =>
      obtain ⟨e, he⟩ := fitOneWeights_other P si c d w self h
      exact ⟨e, by simp only [fitInversionWeights, he, Py.bind_error]⟩
    | sequence l =>
      cases l with
      | nil => exact ⟨.ValueError, rfl⟩
      | cons η l =>
        obtain ⟨e, he⟩ := fitOneWeights_other P η c d w {} h
        simp only [fitInversionWeights, candidatesWeights, he, Py.bind_error]
        cases initInversion (.scalar η) with
        | error e => exact ⟨e, by simp [Py.bind_error]⟩
        | ok s => exact ⟨e, by simp [Py.bind_ok, Py.bind_error]⟩

/-- C45: data for which Euler deconvolution finds the source, with weights that are too few or too many. -/
theorem C45_weights_errors {N : ℕ} (P : Settings) (si : ℝ) (c : Coordinates N) (d : Data N) (w : List ℝ)
    (self : Attributes) (h : w.length ≠ 4) (hsi : si ≠ 0)
    (hd : ∃ x, deconvolution si c d = .ok x) (hi : P.max_iterations ≠ 0) :
    fitInversionWeights P (.scalar si) c d w self =
      .error (if w.length < 4 then .IndexError else if (0 : ℝ) ∈ w then .ZeroDivisionError else .ValueError) := by
  obtain ⟨x, hx⟩ := hd
  have hi' : initDeconvolution si = .ok si := by
    simp [initDeconvolution, hsi]
  have aux : (do
      let si ← initDeconvolution si
      let _ ← deconvolution si c d
      if w.length < 4 then throw .IndexError
      else if 0 ∈ w then throw .ZeroDivisionError
      else if P.max_iterations = 0 then throw .UnboundLocalError
      else throw .ValueError : Py (Attributes × Bool)) =
      .error (if w.length < 4 then .IndexError else if (0 : ℝ) ∈ w then .ZeroDivisionError else .ValueError) := by
    simp only [hi', hx, Py.bind_ok, Py.throw_eq, if_neg hi]
    split_ifs <;> rfl
  have hf : fitOneWeights P si c d w self =
      .error (if w.length < 4 then .IndexError else if (0 : ℝ) ∈ w then .ZeroDivisionError else .ValueError) := by
    match w, h, aux with
    | [], _, aux => exact aux
    | [_], _, aux => exact aux
    | [_, _], _, aux => exact aux
    | [_, _, _], _, aux => exact aux
    | [_, _, _, _], h, _ => exact absurd rfl h
    | _ :: _ :: _ :: _ :: _ :: _, _, aux => exact aux
  simp only [fitInversionWeights, hf, Py.bind_error]

end Verif.Euler
