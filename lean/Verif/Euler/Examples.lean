import Verif.Euler.PropsD
import Verif.Euler.PropsB

/-! Concrete cases that meet the hypotheses of the theorems, and the counterexample for C44. -/

namespace Verif.Euler

/-- Five observations around the origin; source at (1, 2, 3), base level 4, structural index 1. -/
def toyCoordinates (n : ℕ) : Fin 3 → Arr := fun _ => ⟨[n], List.replicate n 0⟩

def toyData : ℕ → Fin 4 → Arr
  | 4 => ![⟨[4], [5, 6, 7, 4]⟩, ⟨[4], [1, 0, 0, 0]⟩, ⟨[4], [0, 1, 0, 0]⟩, ⟨[4], [0, 0, 1, 0]⟩]
  | _ => ![⟨[5], [5, 6, 7, 4, 7]⟩, ⟨[5], [1, 0, 0, 0, 1]⟩, ⟨[5], [0, 1, 0, 0, 1]⟩,
    ⟨[5], [0, 0, 1, 0, 0]⟩]

theorem toy_agree4 : Agree [4] (toyCoordinates 4) (toyData 4) := by
  constructor <;> intro k <;> fin_cases k <;> simp [toyCoordinates, toyData]

theorem toy_agree5 : Agree [5] (toyCoordinates 5) (toyData 5) := by
  constructor <;> intro k <;> fin_cases k <;> simp [toyCoordinates, toyData]

theorem toy_independent4 : Independent 4 (toyData 4) := by
  intro q hq
  have h0 := hq 0 (by norm_num)
  have h1 := hq 1 (by norm_num)
  have h2 := hq 2 (by norm_num)
  have h3 := hq 3 (by norm_num)
  simp [toyData] at h0 h1 h2 h3
  rw [h3, add_zero] at h0 h1 h2
  funext k
  fin_cases k <;> simp [h0, h1, h2, h3]

theorem toy_independent5 : Independent 5 (toyData 5) := by
  intro q hq
  have h0 := hq 0 (by norm_num)
  have h1 := hq 1 (by norm_num)
  have h2 := hq 2 (by norm_num)
  have h3 := hq 3 (by norm_num)
  simp [toyData] at h0 h1 h2 h3
  rw [h3, add_zero] at h0 h1 h2
  funext k
  fin_cases k <;> simp [h0, h1, h2, h3]

theorem toy_exact4 : ∀ i < 4,
    eulerResidual 1 (toyCoordinates 4) (toyData 4) (joined ![1, 2, 3] 4) i = 0 := by
  intro i hi
  interval_cases i <;> simp [eulerResidual, toyCoordinates, toyData, joined] <;> norm_num

theorem toy_exact5 : ∀ i < 5,
    eulerResidual 1 (toyCoordinates 5) (toyData 5) (joined ![1, 2, 3] 4) i = 0 := by
  intro i hi
  interval_cases i <;> simp [eulerResidual, toyCoordinates, toyData, joined] <;> norm_num

/-- C44_exact_partial, C44_least_squares -/
example : fitDeconvolution 1 (toyCoordinates 5) (toyData 5) {} =
    .ok { location_ := some ![1, 2, 3], base_level_ := some 4, covariance_ := some (some 0) } :=
  C44_exact_partial one_ne_zero toy_agree5 toy_independent5 ![1, 2, 3] 4 toy_exact5 {}

/-- C44 is not fully true: four exact data with an invertible normal matrix do not give a zero
covariance; it is 0/0. -/
theorem C44_not_full : ¬ ∀ (shape : List ℕ) (coordinates : Fin 3 → Arr) (data : Fin 4 → Arr)
    (η : ℝ) (location : Fin 3 → ℝ) (base_level : ℝ), η ≠ 0 → Agree shape coordinates data →
    Independent shape.prod data →
    (∀ i < shape.prod, eulerResidual η coordinates data (joined location base_level) i = 0) →
    ∃ a, fitDeconvolution η coordinates data {} = .ok a ∧ a.covariance_ = some (some 0) := by
  intro h
  obtain ⟨a, ha, hc⟩ := h [4] (toyCoordinates 4) (toyData 4) 1 ![1, 2, 3] 4 one_ne_zero toy_agree4
    toy_independent4 toy_exact4
  rw [C44_exact_partial one_ne_zero toy_agree4 toy_independent4 ![1, 2, 3] 4 toy_exact4 {}] at ha
  simp only [Except.ok.injEq] at ha
  subst ha
  simp at hc

/-- C44_shapes -/
example : fitDeconvolution 1 (toyCoordinates 4) (toyData 5) {} = .error .ValueError :=
  (C44_shapes 1 (toyCoordinates 4) (toyData 5) {} {} (.scalar 1) (fun _ => 1) (by
    rintro ⟨shape, h1, h2⟩
    have e1 := h1 0
    have e2 := h2 0
    rw [← e2] at e1
    simp [toyCoordinates, toyData] at e1)).1

/-- C44_singular, C44_few: three observations -/
example : fitDeconvolution 1 (toyCoordinates 3) (fun _ => ⟨[3], [1, 2, 3]⟩) {} =
    .error .LinAlgError :=
  C44_few (shape := [3]) one_ne_zero
    (by constructor <;> intro k <;> simp [toyCoordinates]) (by norm_num) {}

noncomputable def toyC : Coordinates 5 := fun k i => (toyCoordinates 5 k).data.getD i 0
noncomputable def toyD : Data 5 := fun k i => (toyData 5 k).data.getD i 0

theorem toyD_independent : Independent1 toyD := (independent_arr 5 (toyData 5)).1 toy_independent5

theorem toy_exact1 : ∀ i, eulerResidual1 1 toyC toyD (joined ![1, 2, 3] 4) i = 0 := fun i =>
  toy_exact5 i i.2

/-- C45_exact and, with it, C45_run and C45_fixed_point: the default settings and weights. -/
theorem toy_fitOne : fitOne {} 1 toyC toyD ![1, 0.1, 0.1, 0.025] {} =
    .ok ({ location_ := some ![1, 2, 3], base_level_ := some 4, covariance_ := some (some 0),
           data_misfit_ := some 0 }, true) := by
  obtain ⟨wd, h, ht⟩ := C45_exact (P := {}) (by norm_num) one_ne_zero toyD_independent
    (w := ![1, 0.1, 0.1, 0.025]) (fun k => by fin_cases k <;> norm_num) ![1, 2, 3] 4 toy_exact1 {}
  rw [ht (by norm_num)] at h
  exact h

/-- C45_no_iterations -/
example : fitOne { max_iterations := 0 } 1 toyC toyD ![1, 0.1, 0.1, 0.025] {} =
    .error .UnboundLocalError :=
  C45_no_iterations rfl one_ne_zero toyD_independent (fun k => by fin_cases k <;> norm_num) {}

/-- C46_first_minimiser, C46_total: a sequence with one index succeeds. -/
example : ∃ a, fitInversion {} (.sequence [1]) toyC toyD ![1, 0.1, 0.1, 0.025] {} = .ok a := by
  rw [C46_total]
  refine ⟨by simp, fun η hη => ?_⟩
  obtain rfl : η = 1 := by simpa using hη
  obtain ⟨wd, h, -⟩ := C45_exact (P := {}) (by norm_num) one_ne_zero toyD_independent
    (w := ![1, 0.1, 0.1, 0.025]) (fun k => by fin_cases k <;> norm_num) ![1, 2, 3] 4 toy_exact1 {}
  refine ⟨one_ne_zero, ?_⟩
  simp only [fitInversion, h]
  exact ⟨_, rfl⟩

/-- A sequence with a zero is rejected only at `fit`, whatever the data. -/
example (l : List ℝ) (h : (0 : ℝ) ∈ l) :
    initInversion (.sequence l) = .ok (.sequence l) ∧
    ¬ ∃ a, fitInversion {} (.sequence l) toyC toyD ![1, 0.1, 0.1, 0.025] {} = .ok a := by
  refine ⟨rfl, ?_⟩
  rw [C46_total]
  exact fun hh => (hh.2 0 h).1 rfl

/-- C46_misfit_partial -/
example : weightedMisfit ![1, 0, 1, 0] toyD (fun _ _ => 0) =
    documentedMisfit ![1, 0, 1, 0] toyD (fun _ _ => 0) :=
  C46_misfit_partial _ (fun k => by fin_cases k <;> simp) _ _

/-- C75: moving the toy by (10, 20, 30). -/
example : ∃ cov, deconvolution 1 (fun k i => toyC k i + ![10, 20, 30] k) toyD =
    .ok (![11, 22, 33], 4, cov) := by
  have h := C44_exact_partial one_ne_zero toy_agree5 toy_independent5 ![1, 2, 3] 4 toy_exact5 {}
  rw [C75_translation one_ne_zero]
  unfold fitDeconvolution at h
  rw [ravel_ok toy_agree5] at h
  simp only [Py.bind_ok] at h
  change (deconvolution 1 toyC toyD >>= _) = _ at h
  cases hd : deconvolution 1 toyC toyD with
  | error e => rw [hd] at h; simp [Py.bind_error] at h
  | ok x =>
    rw [hd] at h
    simp only [Py.bind_ok, Py.pure_eq, Except.ok.injEq, Attributes.mk.injEq, Option.some.injEq] at h
    refine ⟨x.2.2, ?_⟩
    simp only [Except.map, h.1, h.2.1]
    congr 2
    funext k
    fin_cases k <;> norm_num

/-- C45_weights_errors, C45_other_weights: three, five and four weights with the toy. -/
example : fitInversionWeights {} (.scalar 1) toyC toyD [1, 0.1, 0.1] {} = .error .IndexError ∧
    fitInversionWeights {} (.scalar 1) toyC toyD [1, 0.1, 0.1, 0.025, 1] {} = .error .ValueError ∧
    (∃ a, fitInversionWeights {} (.scalar 1) toyC toyD [1, 0.1, 0.1, 0.025] {} = .ok a) := by
  have hd : ∃ x, deconvolution 1 toyC toyD = .ok x := by
    have h := C44_exact_partial one_ne_zero toy_agree5 toy_independent5 ![1, 2, 3] 4 toy_exact5 {}
    unfold fitDeconvolution at h
    rw [ravel_ok toy_agree5] at h
    simp only [Py.bind_ok] at h
    change (deconvolution 1 toyC toyD >>= _) = _ at h
    cases hd : deconvolution 1 toyC toyD with
    | error e => rw [hd] at h; simp [Py.bind_error] at h
    | ok x => exact ⟨x, rfl⟩
  refine ⟨?_, ?_, ?_⟩
  · rw [C45_weights_errors {} 1 toyC toyD [1, 0.1, 0.1] {} (by simp) one_ne_zero hd (by simp)]
    simp
  · rw [C45_weights_errors {} 1 toyC toyD [1, 0.1, 0.1, 0.025, 1] {} (by simp) one_ne_zero hd (by simp)]
    norm_num
  · obtain ⟨wd, h, -⟩ := C45_exact (P := {}) (by norm_num) one_ne_zero toyD_independent
      (w := ![1, 0.1, 0.1, 0.025]) (fun k => by fin_cases k <;> norm_num) ![1, 2, 3] 4 toy_exact1 {}
    simp only [fitInversionWeights, fitOneWeights, h]
    exact ⟨_, rfl⟩

end Verif.Euler
