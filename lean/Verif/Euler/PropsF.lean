import Verif.Euler.PropsE
import Verif.Euler.Props
import Verif.Euler.Examples

/-! C131: a constant added to the field. The first prediction of `EulerInversion` is 0.9 times the data, so only the
first misfit notices the constant; after one iteration everything is shifted. -/

namespace Verif.Euler

open Matrix

namespace Raised

variable {N : ℕ} (a : ℝ)

/-- The parameters with another base level. -/
def parameters (p : Parameters) : Parameters := fun k => if k = 3 then p 3 + a else p k

/-- The state with another base level. -/
def state (x : IterState N) : IterState N :=
  { x with parameters := parameters a x.parameters, data_predicted := raised a x.data_predicted }

theorem jacobian_eq (si b : ℝ) (d : Data N) : parameterJacobian si (raised b d) = parameterJacobian si d := by
  ext i k
  fin_cases k <;> simp [parameterJacobian, raised]

theorem diagonals_eq (si : ℝ) (c : Coordinates N) (p : Parameters) :
    dataJacobianDiagonals si c (parameters a p) = dataJacobianDiagonals si c p := by
  funext k i
  fin_cases k <;> simp [dataJacobianDiagonals, parameters]

theorem euler_eq (si b : ℝ) (c : Coordinates N) (d : Data N) (p : Parameters) (i : Fin N) :
    eulersEquation si c (raised b d) (parameters a p) i = eulersEquation si c d p i + si * (b - a) := by
  simp [eulersEquation, raised, parameters]
  ring

theorem residuals_eq (b : ℝ) (obs d : Data N) (k : Fin 4) (i : Fin N) :
    raised a obs k i - raised b d k i = obs k i - d k i + if k = 0 then a - b else 0 := by
  by_cases h : k = 0
  · subst h
    simp [raised]
    ring
  · simp [raised, h]

theorem add_eq (d e : Data N) : raised a d + e = raised a (d + e) := by
  funext k i
  by_cases h : k = 0
  · subst h
    simp [raised]
    ring
  · simp [raised, h]

/-- Whatever constant `b` was added to the prediction, the step leads to the data raised by `a`. -/
theorem iteration_eq (P : Settings) (si : ℝ) (c : Coordinates N) (obs : Data N) (w wi : Fin 4 → ℝ) (b : ℝ)
    (x y : IterState N) (hp : y.parameters = parameters a x.parameters)
    (hd : y.data_predicted = raised b x.data_predicted)
    (he : ∀ i, y.euler i = x.euler i + si * (b - a)) :
    iteration P si c (raised a obs) w wi y = (iteration P si c obs w wi x).map (state a) := by
  unfold iteration newtonStep
  simp only [hp, hd, jacobian_eq, diagonals_eq, residuals_eq]
  set A := parameterJacobian si x.data_predicted
  set B := dataJacobianDiagonals si c x.parameters with hB
  have hbr : ∀ i, ∑ k, B k i * (obs k i - x.data_predicted k i + if k = 0 then a - b else 0) =
      ∑ k, B k i * (obs k i - x.data_predicted k i) + si * (a - b) := by
    intro i
    simp only [mul_add, Finset.sum_add_distrib, mul_ite, mul_zero, Finset.sum_ite_eq', Finset.mem_univ, if_true]
    simp [hB, dataJacobianDiagonals]
  set br : Fin N → ℝ := fun i => ∑ k, B k i * (obs k i - x.data_predicted k i) with hbr0
  have hsum : (y.euler + fun i => ∑ k, B k i * (obs k i - x.data_predicted k i + if k = 0 then a - b else 0)) =
      x.euler + br := by
    funext i
    simp only [Pi.add_apply, hbr, he]
    ring
  have hsum' : ((fun i => ∑ k, B k i * (obs k i - x.data_predicted k i + if k = 0 then a - b else 0)) + y.euler) =
      br + x.euler := by rw [add_comm, hsum, add_comm]
  rw [hsum, hsum']
  split
  · rfl
  · cases inv (Aᵀ * (diagonal fun i => 1 / ∑ k, B k i ^ 2 * wi k) * A) with
    | error e => rfl
    | ok C =>
      simp only [Py.bind_ok, Py.pure_eq, Except.map]
      congr 1
      set st := (-C * (Aᵀ * diagonal fun i => 1 / ∑ k, B k i ^ 2 * wi k)) *ᵥ (x.euler + br)
      have h1 : parameters a x.parameters + st = parameters a (x.parameters + st) := by
        funext k
        fin_cases k <;> simp [parameters]
        ring
      have h2 : ∀ z : Data N, (raised b x.data_predicted + fun k i => obs k i - x.data_predicted k i +
            (if k = 0 then a - b else 0) - z k i) =
          raised a (x.data_predicted + fun k i => obs k i - x.data_predicted k i - z k i) := by
        intro z
        funext k i
        by_cases h : k = 0
        · subst h
          simp [raised]
          ring
        · simp [raised, h]
      rw [h1, h2 fun k i => wi k * B k i * ((1 / ∑ k, B k i ^ 2 * wi k) * (br + x.euler + A *ᵥ st) i)]
      unfold metrics state
      have h3 : ∀ d : Data N, eulersEquation si c (raised a d) (parameters a (x.parameters + st)) =
          eulersEquation si c d (x.parameters + st) := fun d => funext fun i => by
        rw [euler_eq, sub_self, mul_zero, add_zero]
      simp only [h3, residuals_eq, sub_self, ite_self, add_zero]

theorem loop_eq (P : Settings) (si : ℝ) (c : Coordinates N) (obs : Data N) (w wi : Fin 4 → ℝ) (n : ℕ)
    (x : IterState N) (hx : x.euler = eulersEquation si c x.data_predicted x.parameters) :
    loop P si c (raised a obs) w wi n (state a x) = (loop P si c obs w wi n x).map fun r => (state a r.1, r.2) := by
  induction n generalizing x with
  | zero => rfl
  | succ n ih =>
    unfold loop
    rw [iteration_eq a P si c obs w wi a x (state a x) rfl rfl (by simp [state])]
    cases hy : iteration P si c obs w wi x with
    | error e => rfl
    | ok y =>
      simp only [Except.map, Py.bind_ok]
      have hm : converged P.tol (state a x).merit (state a y).merit = converged P.tol x.merit y.merit := rfl
      rw [hm]
      split
      · rfl
      · refine ih y ?_
        unfold iteration at hy
        cases hn : newtonStep si c obs x.data_predicted x.parameters x.euler wi with
        | error e =>
          rw [hn] at hy
          cases hy
        | ok r =>
          simp only [hn, Py.bind_ok, Py.pure_eq] at hy
          cases hy
          rfl

/-- No test of convergence can succeed, or there is no second iteration. -/
def Unstopped (P : Settings) : Prop := P.tol ≤ 0 ∨ P.max_iterations ≤ 1

theorem converged_false {tol : ℝ} (h : tol ≤ 0) (m m' : ℝ) : converged tol m m' = false := by
  unfold converged
  simp only [decide_eq_false_iff_not, not_and, not_lt]
  exact fun _ => h.trans (abs_nonneg _)

theorem finish_eq (d : Data N) (self : Attributes) (x : IterState N) :
    finish (raised a d) (self.raised a) (state a x) = (finish d self x).map (Attributes.raised a) := by
  unfold finish
  simp only [state, residuals_eq, sub_self, ite_self, add_zero]
  cases x.cofactor with
  | none => rfl
  | some C => rfl

theorem fitOne_eq (P : Settings) (hP : Unstopped P) (si : ℝ) (c : Coordinates N) (d : Data N) (w : Fin 4 → ℝ)
    (self : Attributes) :
    (fitOne P si c (raised a d) w (self.raised a)).map Prod.fst =
      ((fitOne P si c d w self).map Prod.fst).map (Attributes.raised a) := by
  unfold fitOne start
  by_cases hsi : si = 0
  · simp only [initDeconvolution, if_pos hsi, Py.bind_error]
    rfl
  simp only [initDeconvolution, if_neg hsi, Py.bind_ok]
  have hdec : deconvolution si c (raised a d) = (deconvolution si c d).map fun r => (r.1, r.2.1 + a, r.2.2) :=
    C75_base_level hsi c d a
  rw [hdec]
  cases deconvolution si c d with
  | error e => rfl
  | ok r =>
    have hmap : Except.map (fun r : (Fin 3 → ℝ) × ℝ × Option (Matrix (Fin 4) (Fin 4) ℝ) => (r.1, r.2.1 + a, r.2.2))
        (Except.ok r : Py _) = .ok (r.1, r.2.1 + a, r.2.2) := rfl
    simp only [hmap, Py.bind_ok]
    by_cases hz : w 0 = 0 ∨ w 1 = 0 ∨ w 2 = 0 ∨ w 3 = 0
    · simp only [if_pos hz]
      rfl
    simp only [if_neg hz, Py.pure_eq, Py.bind_ok]
    set x := metrics P si c d w ![r.1 0, r.1 1, r.1 2, r.2.1] (fun k i => 0.9 * d k i) none with hx
    set y := metrics P si c (raised a d) w ![r.1 0, r.1 1, r.1 2, r.2.1 + a] (fun k i => 0.9 * raised a d k i) none
      with hy
    have hp : y.parameters = parameters a x.parameters := by
      funext k
      fin_cases k <;> simp [hx, hy, metrics, parameters]
    have hd : y.data_predicted = raised (0.9 * a) x.data_predicted := by
      funext k i
      by_cases h : k = 0
      · subst h
        simp [hx, hy, metrics, raised]
        ring
      · simp [hx, hy, metrics, raised, h]
    have he : ∀ i, y.euler i = x.euler i + si * (0.9 * a - a) := by
      intro i
      have e1 : y.euler = eulersEquation si c y.data_predicted y.parameters := rfl
      have e2 : x.euler = eulersEquation si c x.data_predicted x.parameters := rfl
      rw [e1, hp, hd, euler_eq, ← e2]
    have hit := iteration_eq a P si c d w (fun k => 1 / w k) _ x y hp hd he
    cases hn : P.max_iterations with
    | zero =>
      simp only [loop, Py.bind_ok, finish]
      rfl
    | succ n =>
      unfold loop
      rw [hit]
      cases hz : iteration P si c d w (fun k => 1 / w k) x with
      | error e => rfl
      | ok z =>
        simp only [Except.map, Py.bind_ok, Py.pure_eq]
        rcases hP with ht | h1
        · rw [converged_false ht, converged_false ht]
          simp only [Bool.false_eq_true, if_false]
          rw [loop_eq a P si c d w _ n z (by
            unfold iteration at hz
            cases hq : newtonStep si c d x.data_predicted x.parameters x.euler (fun k => 1 / w k) with
            | error e =>
              rw [hq] at hz
              cases hz
            | ok q =>
              simp only [hq, Py.bind_ok, Py.pure_eq] at hz
              cases hz
              rfl)]
          cases loop P si c d w (fun k => 1 / w k) n z with
          | error e => rfl
          | ok v =>
            simp only [Except.map, Py.bind_ok]
            rw [finish_eq]
            cases finish d self v.1 with
            | error e => rfl
            | ok u => rfl
        · have hn0 : n = 0 := by omega
          subst hn0
          have hl : ∀ (o : Data N) (q : IterState N) (t : Bool), ∃ t', (if t = true then Except.ok (q, false) else
              loop P si c o w (fun k => 1 / w k) 0 q : Py (IterState N × Bool)) = .ok (q, t') := by
            intro o q t
            cases t
            · exact ⟨true, rfl⟩
            · exact ⟨false, rfl⟩
          obtain ⟨t, ht⟩ := hl d z (converged P.tol x.merit z.merit)
          obtain ⟨t', ht'⟩ := hl (raised a d) (state a z) (converged P.tol y.merit (state a z).merit)
          rw [ht, ht']
          simp only [Py.bind_ok]
          rw [finish_eq]
          cases finish d self z with
          | error e => rfl
          | ok u => rfl

theorem candidates_eq (P : Settings) (hP : Unstopped P) (c : Coordinates N) (d : Data N) (w : Fin 4 → ℝ)
    (l : List ℝ) :
    candidates P c (raised a d) w l =
      (candidates P c d w l).map fun r => r.map fun x => (x.1, x.2.raised a) := by
  induction l with
  | nil => rfl
  | cons si l ih =>
    unfold candidates
    cases initInversion (.scalar si) with
    | error e => rfl
    | ok _ =>
      simp only [Py.bind_ok]
      have h := fitOne_eq a P hP si c d w {}
      have h0 : Attributes.raised a {} = {} := rfl
      rw [h0] at h
      rw [ih]
      cases h1 : fitOne P si c d w {} with
      | error e =>
        cases h2 : fitOne P si c (raised a d) w {} with
        | error e' =>
          rw [h1, h2] at h
          cases h
          rfl
        | ok r =>
          rw [h1, h2] at h
          cases h
      | ok r =>
        cases h2 : fitOne P si c (raised a d) w {} with
        | error e' =>
          rw [h1, h2] at h
          cases h
        | ok r' =>
          rw [h1, h2] at h
          have h3 : r'.1 = r.1.raised a := by simpa [Except.map] using h
          simp only [Py.bind_ok, h3]
          cases candidates P c d w l with
          | error e => rfl
          | ok q => rfl

end Raised

/-- C131: adding a constant to the field adds it to the base level found by `EulerInversion.fit` and changes nothing
else, when every iteration is made (`tol` is not positive) or there is at most one. -/
theorem C131_base_level {N : ℕ} (a : ℝ) (P : Settings) (hP : P.tol ≤ 0 ∨ P.max_iterations ≤ 1)
    (si : StructuralIndex) (c : Coordinates N) (d : Data N) (w : Fin 4 → ℝ) (self : Attributes) :
    fitInversion P si c (raised a d) w (self.raised a) = (fitInversion P si c d w self).map (Attributes.raised a) := by
  cases si with
  | scalar si =>
    simp only [fitInversion]
    have h := Raised.fitOne_eq a P hP si c d w self
    cases h1 : fitOne P si c d w self with
    | error e =>
      cases h2 : fitOne P si c (raised a d) w (self.raised a) with
      | error e' =>
        rw [h1, h2] at h
        cases h
        rfl
      | ok r =>
        rw [h1, h2] at h
        cases h
    | ok r =>
      cases h2 : fitOne P si c (raised a d) w (self.raised a) with
      | error e' =>
        rw [h1, h2] at h
        cases h
      | ok r' =>
        rw [h1, h2] at h
        have h3 : r'.1 = r.1.raised a := by simpa [Except.map] using h
        simp only [Py.bind_ok, h3]
        rfl
  | sequence l =>
    simp only [fitInversion]
    rw [Raised.candidates_eq a P hP]
    cases candidates P c d w l with
    | error e => rfl
    | ok cs =>
      simp only [Except.map, Py.bind_ok]
      have h1 : (cs.map fun x => (x.1, x.2.raised a)).map (fun c => c.2.data_misfit_.getD 0) =
          cs.map fun c => c.2.data_misfit_.getD 0 := by
        simp only [List.map_map]
        rfl
      rw [h1]
      cases argmin (cs.map fun c => c.2.data_misfit_.getD 0) with
      | error e => rfl
      | ok i =>
        simp only [Py.bind_ok, List.getElem?_map]
        cases cs[i]? with
        | none => rfl
        | some b => rfl

/-- A quarter turn about the vertical, a translation, another unit and sign of the field. -/
def quarterTurn (N : ℕ) : Change N where
  R := !![0, -1, 0; 1, 0, 0; 0, 0, 1]
  t := ![10, 20, 30]
  s := -2
  σ := 1
  orthogonal := by
    ext i j
    fin_cases i <;> fin_cases j <;> simp [Matrix.mul_apply, Fin.sum_univ_three]
  nonzero := by norm_num

theorem quarterTurn_respects (N : ℕ) : (quarterTurn N).Respects ![1, 0.1, 0.1, 0.025] := by
  intro j k h
  fin_cases j <;> fin_cases k <;> simp_all [quarterTurn]

/-- C131_inversion, C131_warning: the toy turned, with the default settings and weights. -/
example : fitOne {} 1 ((quarterTurn 5).coordinates toyC) ((quarterTurn 5).data toyD) ![1, 0.1, 0.1, 0.025] {} =
    .ok ({ location_ := some ![8, 21, 33], base_level_ := some (-8), covariance_ := some (some 0),
           data_misfit_ := some 0 }, true) := by
  have h := C131_warning (quarterTurn 5) (quarterTurn_respects 5) {} 1 toyC toyD {}
  rw [Change.attributes_empty] at h
  rw [h, toy_fitOne]
  simp only [Except.map, Change.attributes, Option.map_some, Change.covariance]
  congr 3
  · congr 1
    funext k
    fin_cases k <;> simp [Change.position, quarterTurn, Fin.sum_univ_three] <;> norm_num
  · simp [quarterTurn]
    norm_num
  · simp
  · simp

/-- C131_base_level: one iteration with the toy. -/
example : ∃ r, fitInversion { max_iterations := 1 } (.scalar 1) toyC (raised 100 toyD) ![1, 0.1, 0.1, 0.025] {} =
    .ok r ∧ r.base_level_ = some 104 := by
  obtain ⟨wd, h, -⟩ := C45_exact (P := { max_iterations := 1 }) (by norm_num) one_ne_zero toyD_independent
    (w := ![1, 0.1, 0.1, 0.025]) (fun k => by fin_cases k <;> norm_num) ![1, 2, 3] 4 toy_exact1 {}
  have h' := C131_base_level 100 { max_iterations := 1 } (Or.inr le_rfl) (.scalar 1) toyC toyD ![1, 0.1, 0.1, 0.025] {}
  have h0 : Attributes.raised 100 {} = {} := rfl
  rw [h0] at h'
  rw [h']
  simp only [fitInversion, h, Py.bind_ok, Py.pure_eq, Except.map]
  refine ⟨_, rfl, ?_⟩
  simp [Attributes.raised]
  norm_num

end Verif.Euler
