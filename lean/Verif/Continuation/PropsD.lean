import Verif.Continuation.PropsC
import Verif.Layers.PropsC

/-! C167 for layers of prisms. -/

namespace Verif.Continuation
open Verif.Forward Verif.Engine Verif.Distance Verif.EqSources Verif.Layers

/-- C167, a layer of prisms (a terrain): if the predictions of equivalent sources fit what `prism_layer.gravity` returns
on an uneven surface over the tops of the prisms and the equivalent sources, with an error of at most `M`, they fit it
everywhere over the surface with an error of at most `M`. -/
theorem C167_layer (junk : Junk) (P : Params) (hd : P.dtype.IsFloat) {K : PrismKernels} (hK : K.Newtonian)
    (srcs : List (P3 × ℝ)) {e0 se n0 sn : ℝ} (hse : 0 < se) (hsn : 0 < sn) {nn ne : ℕ} (hn : 2 ≤ nn) (he : 2 ≤ ne)
    (B T D : ℕ → ℕ → Option ℝ) (vars : List (String × List (Option ℝ))) (name : String)
    (hD : vars.lookup name = some (grid nn ne D)) (threshold : Option ℝ) (hth : ∀ t ∈ threshold, 0 ≤ t) :
    ∃ (V : P3 → ℝ) (F : String → P3 → ℝ), Predicts junk P srcs V ∧
      (∀ (mode : Mode) (shape : List ℕ) (obs : List P3), shape.prod = obs.length →
        mode.Full obs.length (2 * (nn * ne)) → (∀ q ∈ obs, OutsideLayer e0 se n0 sn nn ne B T q) →
        ∀ field ∈ prismFieldNames,
          layerGravity junk mode K ⟨axis e0 se ne, axis n0 sn nn, grid nn ne T, grid nn ne B, vars⟩ (arrays shape obs)
            field name threshold = .ok ⟨shape, obs.map (F field)⟩) ∧
      ∀ height : ℝ → ℝ → ℝ, (Continuous fun p : ℝ × ℝ => height p.1 p.2) →
        (∀ s ∈ srcs, s.1.z < height s.1.x s.1.y) →
        (∀ k < nn, ∀ j < ne, ∀ t ∈ T k j, ∀ x y, |x - (e0 + j * se)| ≤ se / 2 → |y - (n0 + k * sn)| ≤ sn / 2 →
          t < height x y) →
        ∀ field ∈ prismFieldNames, ∀ M, (∀ x y, |V ⟨x, y, height x y⟩ - F field ⟨x, y, height x y⟩| ≤ M) →
          ∀ q : P3, height q.x q.y ≤ q.z → |V q - F field q| ≤ M := by
  set bodies := gravityElements (fun j : ℕ => e0 + j * se) (fun k : ℕ => n0 + k * sn) B T D (threshold.getD 0) nn ne
    with hb
  have hord : ∀ s ∈ bodies, s.1.Ordered := (layerGravity_density junk .serial hK [] [⟨0, 0, 0⟩] rfl hse hsn hn he B T D vars
    name hD threshold hth (by simp [Mode.Full]) "g_z" (.inl (by simp [everywhere]))).1
  obtain ⟨V, F, h1, h2, h3⟩ := C167_prisms junk P hd hK srcs bodies hord
  refine ⟨V, F, h1, ?_, fun height hc hs ht => h3 height hc hs ?_⟩
  · intro mode shape obs hshape hm ho field hf
    obtain ⟨-, hall, e⟩ := layerGravity_density junk mode hK shape obs hshape hse hsn hn he B T D vars name hD threshold
      hth hm field (.inr ho)
    refine e.trans ?_
    rw [← h2 field hf .serial shape obs false hshape (by simp [Mode.Full]) hall]
    exact (prismGravity_density junk .serial hK shape obs hshape bodies false hord trivial field hall).symm
  · intro s hs x y x1 x2 y1 y2
    obtain ⟨k, hk, j, hj, d, b, t, -, -, hT, -, rfl⟩ := mem_elements hs
    simp only at x1 x2 y1 y2
    push_cast at x1 x2 y1 y2
    exact ht k hk j hj t (by rw [hT]; rfl) x y (abs_le.2 ⟨by linarith, by linarith⟩) (abs_le.2 ⟨by linarith, by linarith⟩)

/-- A terrain of three by two prisms with tops under 60 m, one of them without data. -/
example (junk : Junk) (P : Params) (hd : P.dtype.IsFloat) : ∃ (V : P3 → ℝ) (F : String → P3 → ℝ),
    Predicts junk P [(⟨0, 0, -100⟩, 2)] V ∧
    layerGravity junk .serial bodyKernels ⟨axis 0 10 2, axis 0 20 3,
      grid 3 2 (fun k j => if k = 1 ∧ j = 1 then none else some (10 * k + 30 * j)), grid 3 2 (fun _ _ => some 0),
      [("density", grid 3 2 fun _ _ => some 2670)]⟩ (arrays [1] [⟨5, 5, 100⟩]) "g_z" "density" none
      = .ok ⟨[1], [F "g_z" ⟨5, 5, 100⟩]⟩ ∧
    ∀ M, (∀ x y, |V ⟨x, y, 90 + 20 * Real.sin x⟩ - F "g_z" ⟨x, y, 90 + 20 * Real.sin x⟩| ≤ M) →
      |V ⟨5, 5, 1000⟩ - F "g_z" ⟨5, 5, 1000⟩| ≤ M := by
  obtain ⟨V, F, h1, h2, h3⟩ := C167_layer junk P hd bodyKernels_newtonian [(⟨0, 0, -100⟩, 2)] (e0 := 0) (se := 10)
    (n0 := 0) (sn := 20) (by norm_num) (by norm_num) (nn := 3) (ne := 2) (by norm_num) le_rfl (fun _ _ => some 0)
    (fun k j => if k = 1 ∧ j = 1 then none else some (10 * k + 30 * j)) (fun _ _ => some 2670)
    [("density", grid 3 2 fun _ _ => some 2670)] "density" (by simp) none (by simp)
  have top : ∀ k : ℕ, k < 3 → ∀ j : ℕ, j < 2 → ∀ t ∈ (if k = 1 ∧ j = 1 then none else some (10 * (k : ℝ) + 30 * j) : Option ℝ),
      t < 60 := by
    intro k hk j hj t ht
    split_ifs at ht with c
    · simp at ht
    · simp only [Option.mem_def, Option.some.injEq] at ht
      subst ht
      have a1 : (k : ℝ) ≤ 2 := by exact_mod_cast Nat.le_of_lt_succ hk
      have a2 : (j : ℝ) ≤ 1 := by exact_mod_cast Nat.le_of_lt_succ hj
      linarith
  refine ⟨V, F, h1, ?_, fun M hM => h3 (fun x _ => 90 + 20 * Real.sin x) (by fun_prop) ?_ ?_ "g_z"
    (by simp [prismFieldNames]) M hM ⟨5, 5, 1000⟩ ?_⟩
  · refine h2 .serial [1] [⟨5, 5, 100⟩] rfl (by simp [Mode.Full]) ?_ "g_z" (by simp [prismFieldNames])
    intro q hq k hk j hj b _ t ht h
    rw [List.mem_singleton] at hq
    subst hq
    have := top k hk j hj t ht
    have h4 := h.2.2.2
    simp only at h4
    linarith
  · intro s hs
    rw [List.mem_singleton] at hs
    subst hs
    simp only [Real.sin_zero]
    norm_num
  · intro k hk j hj t ht x y _ _
    have := top k hk j hj t ht
    have := Real.neg_one_le_sin x
    linarith
  · have := Real.sin_le_one 5
    simp only
    linarith

end Verif.Continuation
