import Verif.Legendre.Props

/-! Concrete cases for C60-C62. -/

namespace Verif.Legendre

open Real

noncomputable section

/-- The arrays of the model can be computed: P_2^1(3/5) = 3 (3/5) (4/5), by the routine. -/
example (p : Arr) : associatedLegendre (3 / 5) 2 p 2 1 = 36 / 25 := by
  have h : √((1 - 3 / 5) * (1 + 3 / 5) : ℝ) = 4 / 5 := by
    rw [show ((1 - 3 / 5) * (1 + 3 / 5) : ℝ) = (4 / 5) ^ 2 by norm_num]
    exact Real.sqrt_sq (by norm_num)
  simp [associatedLegendre, forRange, upd, List.range', h]
  norm_num

/-- ... and so P_2^1 of the definition has that value there. -/
example : legendreNM 2 1 (3 / 5) = 36 / 25 := by
  have h1 := (C60_associated_legendre (3 / 5) ⟨by norm_num, by norm_num⟩ 2 (fun _ _ => 0) 2 1).1
    (by norm_num) (by norm_num)
  rw [← h1]
  have h : √((1 - 3 / 5) * (1 + 3 / 5) : ℝ) = 4 / 5 := by
    rw [show ((1 - 3 / 5) * (1 + 3 / 5) : ℝ) = (4 / 5) ^ 2 by norm_num]
    exact Real.sqrt_sq (by norm_num)
  simp [associatedLegendre, forRange, upd, List.range', h]
  norm_num

/-- The factors are not trivial. -/
example : schmidt 2 1 = √(1 / 3) ∧ full 2 1 = √(5 / 3) := by
  constructor
  · unfold schmidt
    norm_num [Nat.factorial]
  · unfold full
    norm_num [Nat.factorial]

/-- There are arrays as in C62, for every degree. -/
example (N : ℕ) : ∃ (q : ℕ → ℝ → Arr) (p : ℝ → Arr) (d : ℕ → ℝ → Arr),
    (∀ t, q 0 t = associatedLegendre (cos t) N (p t)) ∧
    ∀ k t, q (k + 1) t = associatedLegendreDerivative N (q k t) (d k t) :=
  ⟨fun k t => Nat.rec (associatedLegendre (cos t) N fun _ _ => 0)
      (fun _ a => associatedLegendreDerivative N a fun _ _ => 7) k,
    fun _ _ _ => 0, fun _ _ _ _ => 7, fun _ => rfl, fun _ _ => rfl⟩

/-- The normalized derivative routine succeeds when there is at least degree one. -/
theorem schmidtDerivative_ok (N : ℕ) (hN : 1 ≤ N) (p dp : Arr) :
    ∃ q, associatedLegendreSchmidtDerivative N p dp = .ok q := by
  unfold associatedLegendreSchmidtDerivative
  rw [if_neg (by omega)]
  exact ⟨_, rfl⟩

example (N : ℕ) (hN : 1 ≤ N) : ∃ (q : ℕ → ℝ → Arr) (p : ℝ → Arr) (d : ℕ → ℝ → Arr),
    (∀ t, associatedLegendreSchmidt (cos t) N (p t) = .ok (q 0 t)) ∧
    ∀ k t, associatedLegendreSchmidtDerivative N (q k t) (d k t) = .ok (q (k + 1) t) := by
  choose a ha _ using fun t : ℝ => C61_schmidt (cos t) ⟨neg_one_le_cos t, cos_le_one t⟩ N hN fun _ _ => 0
  choose b hb using fun p : Arr => schmidtDerivative_ok N hN p fun _ _ => 0
  exact ⟨fun k t => Nat.rec (a t) (fun _ x => b x) k, fun _ _ _ => 0, fun _ _ _ _ => 0, ha,
    fun k t => hb _⟩

/-- Without degree one the normalized routines write outside the arrays. -/
theorem C61_degree_zero (x : ℝ) (p dp : Arr) :
    associatedLegendreSchmidt x 0 p = .error .IndexError ∧
    associatedLegendreFull x 0 p = .error .IndexError ∧
    associatedLegendreSchmidtDerivative 0 p dp = .error .IndexError ∧
    associatedLegendreFullDerivative 0 p dp = .error .IndexError := ⟨rfl, rfl, rfl, rfl⟩

end

end Verif.Legendre
