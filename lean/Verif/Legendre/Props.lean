import Verif.Legendre.LemmasD

/-!
C60-C62: the Legendre functions and their derivatives.
-/

namespace Verif.Legendre

open Real

noncomputable section

/-- C60. Every entry of the lower triangle is the associated Legendre function of its definition; the rest of
the array is untouched, whatever it had before. -/
theorem C60_associated_legendre (x : ℝ) (_hx : x ∈ Set.Icc (-1) 1) (max_degree : ℕ) (p : Arr) (n m : ℕ) :
    (n ≤ max_degree → m ≤ n → associatedLegendre x max_degree p n m = legendreNM n m x) ∧
    (¬ (n ≤ max_degree ∧ m ≤ n) → associatedLegendre x max_degree p n m = p n m) := by
  have h := associatedLegendre_filled (fun n m => √(1 - x ^ 2) ^ m * ev n m x) p x max_degree
    (by simp [ev_zero_zero]) ?_ ?_ ?_
  · refine ⟨fun hn hm => ?_, fun hn => (h n m).2 hn⟩
    rw [(h n m).1 ⟨hn, hm⟩, legendreNM_eq]
    rfl
  · intro n m hm
    obtain ⟨e, rfl⟩ : ∃ e, n = e + m + 2 := ⟨n - m - 2, by omega⟩
    have hr := ev_rec (e + m) m x
    rw [show e + m + 2 - 1 = e + m + 1 by omega, show e + m + 2 - 2 = e + m by omega]
    have h1 : ((e + m + 2 : ℕ) : ℝ) - m ≠ 0 := by
      push_cast
      have : (0 : ℝ) ≤ e := by positivity
      intro h
      linarith
    field_simp
    push_cast at hr ⊢
    linear_combination √(1 - x ^ 2) ^ m * hr
  · intro n hn
    obtain ⟨e, rfl⟩ : ∃ e, n = e + 1 := ⟨n - 1, by omega⟩
    simp only [Nat.add_sub_cancel]
    rw [ev_sub]
    push_cast
    ring
  · intro n hn
    obtain ⟨e, rfl⟩ : ∃ e, n = e + 1 := ⟨n - 1, by omega⟩
    simp only [Nat.add_sub_cancel]
    rw [ev_diag, sin_eq]
    push_cast
    ring

/-- C61. Schmidt semi-normalized functions. -/
theorem C61_schmidt (x : ℝ) (_hx : x ∈ Set.Icc (-1) 1) (max_degree : ℕ) (hd : 1 ≤ max_degree) (p : Arr) :
    ∃ q, associatedLegendreSchmidt x max_degree p = .ok q ∧
      ∀ n m, (n ≤ max_degree → m ≤ n → q n m = schmidt n m * legendreNM n m x) ∧
        (¬ (n ≤ max_degree ∧ m ≤ n) → q n m = p n m) := by
  have h0 : max_degree ≠ 0 := by omega
  obtain ⟨v00, v10, v11⟩ := sv_one x
  have hs := scaled_filled (fun n m => 1e-280 * sv x n m) p x (x * 1e-280) id
    (fun n => (2 * (n : ℝ) - 1) / (sq n ^ 2)) (fun n => -((sq (n - 1) / sq n) ^ 2))
    (fun n m => (2 * (n : ℝ) - 1) / (sq (n + m) * sq (n - m)))
    (fun n m => -sq (n + m - 1) * sq (n - m - 1) / (sq (n + m) * sq (n - m)))
    (fun n => sq (2 * n - 1)) (fun n => sq (2 * n - 1) / sq (2 * n)) max_degree hd
    (by simp only [v00]; ring) (by simp only [v10]; ring) (by simp only [v00, v11]; rfl)
    (fun n hn => by rw [sv_zero x n hn]; ring)
    (fun n m _ hm => by rw [sv_rec x n m hm]; ring)
    (fun n hn => by rw [sv_sub x n hn]; ring)
    (fun n hn => by rw [sv_diag x n hn]; ring)
  refine ⟨_, by unfold associatedLegendreSchmidt; rw [if_neg h0], fun n m => ?_⟩
  have hr := rescale_filled (fun n m => 1e-280 * sv x n m) (fun n m => schmidt n m * legendreNM n m x) _
    (√((1 - x) * (1 + x))) max_degree (fun i j hj hi => (hs i j).1 ⟨hi, hj⟩) (fun i j _ _ => by
      simp only [legendreNM_eq, sin_eq, sv, ev]
      linear_combination (-(schmidt i j * √(1 - x ^ 2) ^ j * (L i j).eval x)) * scaling)
  refine ⟨fun hn hm => (hr n m).1 ⟨hn, hm⟩, fun hn => ?_⟩
  exact ((hr n m).2 hn).trans ((hs n m).2 hn)

/-- C61. Fully normalized functions. -/
theorem C61_full (x : ℝ) (_hx : x ∈ Set.Icc (-1) 1) (max_degree : ℕ) (hd : 1 ≤ max_degree) (p : Arr) :
    ∃ q, associatedLegendreFull x max_degree p = .ok q ∧
      ∀ n m, (n ≤ max_degree → m ≤ n → q n m = full n m * legendreNM n m x) ∧
        (¬ (n ≤ max_degree ∧ m ≤ n) → q n m = p n m) := by
  have h0 : max_degree ≠ 0 := by omega
  obtain ⟨v00, v10, v11⟩ := sv_one x
  have s1 : sq 1 = 1 := by simp [sq]
  have hs := scaled_filled (fun n m => 1e-280 * fv x n m) p x (x * sq 3 * 1e-280) (fun y => y * sq 3)
    (fun n => sq (2 * n - 1) * sq (2 * n + 1) / n)
    (fun n => -((n : ℝ) - 1) * sq (2 * n + 1) / (n * sq (2 * n - 3)))
    (fun n m => sq (2 * n + 1) * sq (2 * n - 1) / (sq (n + m) * sq (n - m)))
    (fun n m => -sq (n + m - 1) * sq (n - m - 1) * sq (2 * n + 1) /
          (sq (n + m) * sq (n - m) * sq (2 * n - 3)))
    (fun n => sq (2 * n + 1)) (fun n => sq (2 * n + 1) / sq (2 * n)) max_degree hd
    (by simp only [fv_eq, v00, Nat.mul_zero, Nat.zero_add, s1]; ring)
    (by simp only [fv_eq, v10, Nat.reduceMul, Nat.reduceAdd]; ring)
    (by simp only [fv_eq, v00, v11, Nat.reduceMul, Nat.reduceAdd, s1]; ring)
    (fun n hn => by rw [fv_zero x n hn]; ring)
    (fun n m _ hm => by rw [fv_rec x n m hm]; ring)
    (fun n hn => by rw [fv_sub x n hn]; ring)
    (fun n hn => by rw [fv_diag x n hn]; ring)
  refine ⟨_, by unfold associatedLegendreFull; rw [if_neg h0], fun n m => ?_⟩
  have hr := rescale_filled (fun n m => 1e-280 * fv x n m) (fun n m => full n m * legendreNM n m x) _
    (√((1 - x) * (1 + x))) max_degree (fun i j hj hi => (hs i j).1 ⟨hi, hj⟩) (fun i j _ _ => by
      simp only [legendreNM_eq, sin_eq, fv, ev]
      linear_combination (-(full i j * √(1 - x ^ 2) ^ j * (L i j).eval x)) * scaling)
  refine ⟨fun hn hm => (hr n m).1 ⟨hn, hm⟩, fun hn => ?_⟩
  exact ((hr n m).2 hn).trans ((hs n m).2 hn)

/-- C62. `q 0 t` is the array of the functions at cos t, and `q (k + 1) t` is what the derivative routine gives
for `q k t` (the arrays that are filled may hold anything before). Then `q k` are the k-th derivatives with
respect to the colatitude, in the whole interval from pole to pole; the derivatives exist. -/
theorem C62_derivative (max_degree : ℕ) (q : ℕ → ℝ → Arr) (p : ℝ → Arr) (d : ℕ → ℝ → Arr)
    (h0 : ∀ t, q 0 t = associatedLegendre (cos t) max_degree (p t))
    (hk : ∀ k t, q (k + 1) t = associatedLegendreDerivative max_degree (q k t) (d k t))
    (k n m : ℕ) (hn : n ≤ max_degree) (hm : m ≤ n) (θ : ℝ) (hθ : θ ∈ Set.Icc 0 π) :
    q k θ n m = iteratedDerivWithin k (fun t => legendreNM n m (cos t)) (Set.Icc 0 π) θ ∧
    HasDerivWithinAt (iteratedDerivWithin k (fun t => legendreNM n m (cos t)) (Set.Icc 0 π))
      (q (k + 1) θ n m) (Set.Icc 0 π) θ := by
  refine iterate_derivative max_degree (fun n m t => legendreNM n m (cos t)) deriv1 (Set.Icc 0 π)
    (uniqueDiffOn_Icc pi_pos) q ?_ ?_ deriv1_congr (fun p p' n θ _ h m hm => deriv1_lin p p' n _ θ h m hm)
    ?_ k n m hn hm θ hθ
  · intro t _ n hn m hm
    rw [h0]
    exact (C60_associated_legendre (cos t) ⟨neg_one_le_cos t, cos_le_one t⟩ max_degree (p t) n m).1 hn hm
  · intro k t n hn m hm
    rw [hk]
    exact ((derivative1_filled (q k t) (d k t) max_degree) n m).1 ⟨hn, hm⟩
  · intro θ hθ n hn m hm
    have := (deriv1_base n m hm θ).hasDerivWithinAt (s := Set.Icc 0 π)
    rw [deriv1_congr (fun i j => legendreNM i j (cos θ)) (fun i j => hv i j θ) n
      (fun j _ => legendreNM_cos n j θ hθ) m hm]
    exact this.congr (fun t ht => legendreNM_cos n m t ht) (legendreNM_cos n m θ hθ)

theorem normalized_derivative (c : ℕ → ℝ) (max_degree : ℕ) (q : ℕ → ℝ → Arr)
    (h0 : ∀ t, ∀ n ≤ max_degree, ∀ m ≤ n, q 0 t n m = c n * schmidt n m * legendreNM n m (cos t))
    (hk : ∀ k t, ∀ n ≤ max_degree, ∀ m ≤ n, q (k + 1) t n m = derivS (q k t) n m)
    (k n m : ℕ) (hn : n ≤ max_degree) (hm : m ≤ n) (θ : ℝ) (hθ : θ ∈ Set.Icc 0 π) :
    q k θ n m = iteratedDerivWithin k (fun t => c n * schmidt n m * legendreNM n m (cos t))
      (Set.Icc 0 π) θ ∧
    HasDerivWithinAt (iteratedDerivWithin k (fun t => c n * schmidt n m * legendreNM n m (cos t))
      (Set.Icc 0 π)) (q (k + 1) θ n m) (Set.Icc 0 π) θ := by
  refine iterate_derivative max_degree (fun n m t => c n * schmidt n m * legendreNM n m (cos t)) derivS
    (Set.Icc 0 π) (uniqueDiffOn_Icc pi_pos) q ?_ hk derivS_congr
    (fun p p' n θ _ h m hm => derivS_lin p p' n _ θ h m hm) ?_ k n m hn hm θ hθ
  · intro t _ n hn m hm
    exact h0 t n hn m hm
  · intro θ hθ n hn m hm
    have := (derivS_base c n m hm θ).hasDerivWithinAt (s := Set.Icc 0 π)
    have e : ∀ i j, ∀ t ∈ Set.Icc 0 π,
        c i * schmidt i j * legendreNM i j (cos t) = c i * (schmidt i j * hv i j t) := by
      intro i j t ht
      rw [legendreNM_cos i j t ht, mul_assoc]
    rw [derivS_congr (fun i j => c i * schmidt i j * legendreNM i j (cos θ))
      (fun i j => c i * (schmidt i j * hv i j θ)) n (fun j _ => e n j θ hθ) m hm]
    exact this.congr (fun t ht => e n m t ht) (e n m θ hθ)

/-- C62 for the Schmidt semi-normalized functions. -/
theorem C62_schmidt_derivative (max_degree : ℕ) (hd : 1 ≤ max_degree) (q : ℕ → ℝ → Arr) (p : ℝ → Arr)
    (d : ℕ → ℝ → Arr)
    (h0 : ∀ t, associatedLegendreSchmidt (cos t) max_degree (p t) = .ok (q 0 t))
    (hk : ∀ k t, associatedLegendreSchmidtDerivative max_degree (q k t) (d k t) = .ok (q (k + 1) t))
    (k n m : ℕ) (hn : n ≤ max_degree) (hm : m ≤ n) (θ : ℝ) (hθ : θ ∈ Set.Icc 0 π) :
    q k θ n m = iteratedDerivWithin k (fun t => schmidt n m * legendreNM n m (cos t)) (Set.Icc 0 π) θ ∧
    HasDerivWithinAt (iteratedDerivWithin k (fun t => schmidt n m * legendreNM n m (cos t)) (Set.Icc 0 π))
      (q (k + 1) θ n m) (Set.Icc 0 π) θ := by
  have h := normalized_derivative (fun _ => 1) max_degree q ?_ ?_ k n m hn hm θ hθ
  · simpa only [one_mul] using h
  · intro t n hn m hm
    obtain ⟨r, hr, hv⟩ := C61_schmidt (cos t) ⟨neg_one_le_cos t, cos_le_one t⟩ max_degree hd (p t)
    have : q 0 t = r := Except.ok.inj ((h0 t).symm.trans hr)
    rw [this, (hv n m).1 hn hm, one_mul]
  · intro k t n hn m hm
    have := hk k t
    unfold associatedLegendreSchmidtDerivative at this
    rw [if_neg (by omega)] at this
    rw [← Except.ok.inj this]
    exact ((derivative3_filled (q k t) (d k t) max_degree hd 0 (-q k t 1 1) (q k t 1 0) _ _ _ _ _ _) n m).1
      ⟨hn, hm⟩

/-- C62 for the fully normalized functions. -/
theorem C62_full_derivative (max_degree : ℕ) (hd : 1 ≤ max_degree) (q : ℕ → ℝ → Arr) (p : ℝ → Arr)
    (d : ℕ → ℝ → Arr)
    (h0 : ∀ t, associatedLegendreFull (cos t) max_degree (p t) = .ok (q 0 t))
    (hk : ∀ k t, associatedLegendreFullDerivative max_degree (q k t) (d k t) = .ok (q (k + 1) t))
    (k n m : ℕ) (hn : n ≤ max_degree) (hm : m ≤ n) (θ : ℝ) (hθ : θ ∈ Set.Icc 0 π) :
    q k θ n m = iteratedDerivWithin k (fun t => full n m * legendreNM n m (cos t)) (Set.Icc 0 π) θ ∧
    HasDerivWithinAt (iteratedDerivWithin k (fun t => full n m * legendreNM n m (cos t)) (Set.Icc 0 π))
      (q (k + 1) θ n m) (Set.Icc 0 π) θ := by
  have h := normalized_derivative (fun n => sq (2 * n + 1)) max_degree q ?_ ?_ k n m hn hm θ hθ
  · simpa only [← full_eq] using h
  · intro t n hn m hm
    obtain ⟨r, hr, hv⟩ := C61_full (cos t) ⟨neg_one_le_cos t, cos_le_one t⟩ max_degree hd (p t)
    have : q 0 t = r := Except.ok.inj ((h0 t).symm.trans hr)
    rw [this, (hv n m).1 hn hm, full_eq]
  · intro k t n hn m hm
    have := hk k t
    unfold associatedLegendreFullDerivative at this
    rw [if_neg (by omega)] at this
    rw [← Except.ok.inj this]
    have e : derivS (q k t) = deriv3 0 (-q k t 1 1) (q k t 1 0) (fun n => -sq n * sq (n + 1) / sq 2)
        (fun n => 0.5 * sq 2 * sq (n + 1) * sq n)
        (fun n => -0.5 * sq (n + 2) * sq (n - 1)) (fun n m => 0.5 * sq (n + m) * sq (n - m + 1))
        (fun n m => -0.5 * sq (n + m + 1) * sq (n - m)) (fun n => 0.5 * sq 2 * sq n) (q k t) := by
      unfold derivS
      congr 1
      funext n
      ring
    rw [e]
    exact ((derivative3_filled (q k t) (d k t) max_degree hd 0 (-q k t 1 1) (q k t 1 0) _ _ _ _ _ _) n m).1
      ⟨hn, hm⟩

end

end Verif.Legendre
