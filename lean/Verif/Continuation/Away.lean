import Verif.Continuation.Region
import Verif.EqSources.PropsM
import Verif.Forward.PropsR

/-! Functions that are harmonic away from a compact set of sources, for C167. -/

namespace Verif.Continuation
open Filter Topology
open Verif.Forward Verif.Distance Verif.EqSources

/-- The points whose distance to every source is at least `r`. -/
def Away (T : Set E3) (r : ℝ) : Set P3 := {q | ∀ t ∈ T, r ≤ dist (cartPos q) t}

theorem dist_gap (q p : P3) : dist (cartPos q) (cartPos p) = gap q p := by rw [dist_cartPos, gap]

theorem away_near {T : Set E3} {r s : ℝ} {q q' : P3} (hq : q ∈ Away T r) (h : gap q' q ≤ r - s) : q' ∈ Away T s := by
  intro t ht
  have h1 := hq t ht
  have h2 := dist_triangle (cartPos q) (cartPos q') t
  rw [dist_comm (cartPos q) (cartPos q'), dist_gap] at h2
  linarith

/-- The point with these coordinates. -/
def pt (x : E3) : P3 := ⟨x 0, x 1, x 2⟩

theorem cartPos_pt (x : E3) : cartPos (pt x) = x := (e3_eta x).symm

theorem pt_cartPos (q : P3) : pt (cartPos q) = q := rfl

/-- Continuous and harmonic at the points of a set, and small far away. -/
structure Calm (W : Set P3) (f : P3 → ℝ) : Prop where
  cont : ContinuousOn (fun x : E3 => f (pt x)) {x | pt x ∈ W}
  laplace : ∀ q ∈ W, LaplaceAt (fun x y z => f ⟨x, y, z⟩) q.x q.y q.z
  decay : ∀ ε > 0, ∃ R, ∀ q ∈ W, R ≤ ‖cartPos q‖ → |f q| ≤ ε

theorem Calm.mono {W W' : Set P3} {f : P3 → ℝ} (hf : Calm W f) (h : W' ⊆ W) : Calm W' f :=
  ⟨hf.cont.mono fun _ hx => h hx, fun q hq => hf.laplace q (h hq), fun ε hε =>
    (hf.decay ε hε).imp fun _ hR q hq => hR q (h hq)⟩

theorem Calm.add {W : Set P3} {f g : P3 → ℝ} (hf : Calm W f) (hg : Calm W g) : Calm W fun q => f q + g q := by
  refine ⟨hf.cont.add hg.cont, fun q hq => (hf.laplace q hq).add (hg.laplace q hq), fun ε hε => ?_⟩
  obtain ⟨R, hR⟩ := hf.decay (ε / 2) (half_pos hε)
  obtain ⟨R', hR'⟩ := hg.decay (ε / 2) (half_pos hε)
  refine ⟨max R R', fun q hq h => ?_⟩
  have h1 := hR q hq ((le_max_left _ _).trans h)
  have h2 := hR' q hq ((le_max_right _ _).trans h)
  have := abs_add_le (f q) (g q)
  linarith

theorem Calm.smul {W : Set P3} {f : P3 → ℝ} (hf : Calm W f) (c : ℝ) : Calm W fun q => c * f q := by
  refine ⟨hf.cont.const_smul c, fun q hq => ?_, fun ε hε => ?_⟩
  · obtain ⟨Vx, Vy, Vz, Vxx, Vyy, Vzz, h1, h2, h3, h4, h5, h6, h7⟩ := hf.laplace q hq
    exact ⟨fun t => c * Vx t, fun t => c * Vy t, fun t => c * Vz t, _, _, _, h1.mono fun t ht => ht.const_mul c,
      h2.const_mul c, h3.mono fun t ht => ht.const_mul c, h4.const_mul c, h5.mono fun t ht => ht.const_mul c,
      h6.const_mul c, by rw [← mul_add, ← mul_add, h7, mul_zero]⟩
  · obtain ⟨R, hR⟩ := hf.decay (ε / (|c| + 1)) (by positivity)
    refine ⟨R, fun q hq h => ?_⟩
    rw [abs_mul]
    have h1 := hR q hq h
    calc |c| * |f q| ≤ (|c| + 1) * (ε / (|c| + 1)) := by gcongr; linarith
      _ = ε := by field_simp

theorem cartPos_moved (q t : P3) : cartPos (moved q t) = cartPos q + cartPos t := by
  ext i
  fin_cases i <;> rfl

theorem Calm.move {W W' : Set P3} {f : P3 → ℝ} (hf : Calm W f) {t : P3} (h : ∀ q ∈ W', moved q t ∈ W) :
    Calm W' fun q => f (moved q t) := by
  refine ⟨?_, fun q hq => ?_, fun ε hε => ?_⟩
  · have : Continuous fun x : E3 => (!₂[x 0 + t.x, x 1 + t.y, x 2 + t.z] : E3) := by fun_prop
    exact hf.cont.comp this.continuousOn fun x hx => h _ hx
  · obtain ⟨Vx, Vy, Vz, Vxx, Vyy, Vzz, h1, h2, h3, h4, h5, h6, h7⟩ := hf.laplace (moved q t) (h q hq)
    simp only [moved] at h1 h2 h3 h4 h5 h6
    have ev : ∀ {a s : ℝ} {p : ℝ → Prop}, (∀ᶠ u in 𝓝 (a + s), p u) → ∀ᶠ u in 𝓝 a, p (u + s) := by
      intro a s p h
      exact ((continuous_add_const s).tendsto a).eventually h
    exact ⟨fun u => Vx (u + t.x), fun u => Vy (u + t.y), fun u => Vz (u + t.z), _, _, _,
      (ev h1).mono fun u hu => hu.comp_add_const u t.x, h2.comp_add_const _ t.x,
      (ev h3).mono fun u hu => hu.comp_add_const u t.y, h4.comp_add_const _ t.y,
      (ev h5).mono fun u hu => hu.comp_add_const u t.z, h6.comp_add_const _ t.z, h7⟩
  · obtain ⟨R, hR⟩ := hf.decay ε hε
    refine ⟨R + ‖cartPos t‖, fun q hq hn => hR _ (h q hq) ?_⟩
    have := norm_sub_le (cartPos q + cartPos t) (cartPos t)
    rw [add_sub_cancel_right] at this
    rw [cartPos_moved]
    linarith

/-- Uniform limits of such functions. -/
def Tame (W : Set P3) (f : P3 → ℝ) : Prop := ∀ ε > 0, ∃ g, Calm W g ∧ ∀ q ∈ W, |f q - g q| ≤ ε

/-- Uniform limits of such functions at all the distances from the sources. -/
def Off (T : Set E3) (f : P3 → ℝ) : Prop := ∀ r > 0, Tame (Away T r) f

theorem Tame.add {W : Set P3} {f g : P3 → ℝ} (hf : Tame W f) (hg : Tame W g) : Tame W fun q => f q + g q := by
  intro ε hε
  obtain ⟨f', h1, h2⟩ := hf (ε / 2) (half_pos hε)
  obtain ⟨g', h3, h4⟩ := hg (ε / 2) (half_pos hε)
  refine ⟨_, h1.add h3, fun q hq => ?_⟩
  have e : f q + g q - (f' q + g' q) = (f q - f' q) + (g q - g' q) := by ring
  rw [e]
  have := abs_add_le (f q - f' q) (g q - g' q)
  have := h2 q hq
  have := h4 q hq
  linarith

theorem Tame.smul {W : Set P3} {f : P3 → ℝ} (hf : Tame W f) (c : ℝ) : Tame W fun q => c * f q := by
  intro ε hε
  obtain ⟨g, h1, h2⟩ := hf (ε / (|c| + 1)) (by positivity)
  refine ⟨_, h1.smul c, fun q hq => ?_⟩
  rw [← mul_sub, abs_mul]
  have h3 := h2 q hq
  rw [le_div_iff₀ (by positivity)] at h3
  nlinarith [abs_nonneg (f q - g q)]

theorem Tame.mono {W W' : Set P3} {f : P3 → ℝ} (hf : Tame W f) (h : W' ⊆ W) : Tame W' f := fun ε hε => by
  obtain ⟨g, h1, h2⟩ := hf ε hε
  exact ⟨g, h1.mono h, fun q hq => h2 q (h hq)⟩

theorem Tame.congr {W : Set P3} {f g : P3 → ℝ} (hf : Tame W f) (h : ∀ q ∈ W, g q = f q) : Tame W g := fun ε hε => by
  obtain ⟨k, h1, h2⟩ := hf ε hε
  exact ⟨k, h1, fun q hq => by rw [h q hq]; exact h2 q hq⟩

theorem Off.deriv {T : Set E3} {f g : P3 → ℝ} (hf : Off T f) {d : P3} (hd : d.x ^ 2 + d.y ^ 2 + d.z ^ 2 = 1) {c : ℝ}
    (hc : c ≠ 0)
    (hder : ∀ r > 0, ∀ q ∈ Away T r, HasDerivAt (fun t => f (moved q (along d t))) (c * g q) 0)
    (hlip : ∀ r > 0, ∃ C, ∀ q ∈ Away T r, ∀ q' ∈ Away T r, |g q - g q'| ≤ C * gap q q') : Off T g := by
  intro r hr
  obtain ⟨C, hC⟩ := hlip (r / 2) (half_pos hr)
  have inn : ∀ p ∈ Away T r, ∀ s, 0 ≤ s → s ≤ r / 2 → moved p (along d s) ∈ Away T (r / 2) := by
    intro p hp s h0 h1
    refine away_near hp ?_
    rw [gap_along h0 hd]
    linarith
  have sub : Away T r ⊆ Away T (r / 2) := fun q hq => away_near hq (by rw [gap_self]; linarith)
  have quot : ∀ k : ℝ, 0 < k → k ≤ r / 2 → ∀ p ∈ Away T r,
      |f (moved p (along d k)) - f p - k * (c * g p)| ≤ |c| * |C| * k * k := by
    intro k hk hkr p hp
    have hd' : ∀ s ∈ Set.Icc (0 : ℝ) k, HasDerivWithinAt (fun t => f (moved p (along d t)) - t * (c * g p))
        (c * g (moved p (along d s)) - c * g p) (Set.Icc 0 k) s := by
      intro s hs
      have h1 := hder (r / 2) (half_pos hr) (moved p (along d s)) (inn p hp s hs.1 (hs.2.trans hkr))
      have h2 : HasDerivAt (fun t => f (moved (moved p (along d s)) (along d (t - s)))) (c * g (moved p (along d s))) s := by
        refine HasDerivAt.comp_sub_const s s (f := fun t => f (moved (moved p (along d s)) (along d t))) ?_
        rw [sub_self]
        exact h1
      have e : (fun t => f (moved (moved p (along d s)) (along d (t - s)))) = fun t => f (moved p (along d t)) := by
        funext t
        congr 1
        simp only [moved, along, P3.mk.injEq]
        refine ⟨?_, ?_, ?_⟩ <;> ring
      rw [e] at h2
      have h3 := h2.fun_sub ((hasDerivAt_id s).mul_const (c * g p))
      rw [one_mul] at h3
      exact h3.hasDerivWithinAt
    have := (convex_Icc (0 : ℝ) k).norm_image_sub_le_of_norm_hasDerivWithin_le (C := |c| * |C| * k) hd' (by
      intro s hs
      have h1 := hC _ (inn p hp s hs.1 (hs.2.trans hkr)) p (sub hp)
      rw [gap_along hs.1 hd] at h1
      have h4 : C * s ≤ |C| * k := mul_le_mul (le_abs_self _) hs.2 hs.1 (abs_nonneg _)
      rw [Real.norm_eq_abs, ← mul_sub, abs_mul, mul_assoc]
      exact mul_le_mul_of_nonneg_left (h1.trans h4) (abs_nonneg _)) (Set.left_mem_Icc.2 hk.le) (Set.right_mem_Icc.2 hk.le)
    rw [Real.norm_eq_abs, Real.norm_eq_abs, sub_zero, abs_of_pos hk] at this
    have e : moved p (along d 0) = p := by simp [moved, along]
    rw [e] at this
    refine le_trans (le_of_eq ?_) this
    congr 1
    ring
  have main : Tame (Away T r) fun q => c * g q := by
    intro ε hε
    set D := |c| * |C| with hD
    have hD0 : 0 ≤ D := by positivity
    set k := min (r / 2) (ε / (2 * (D + 1))) with hk
    have hk0 : 0 < k := lt_min (half_pos hr) (by positivity)
    have hDk : D * k ≤ ε / 2 := by
      have h1 : k ≤ ε / (2 * (D + 1)) := min_le_right _ _
      rw [le_div_iff₀ (by positivity)] at h1
      nlinarith
    obtain ⟨h, h1, h2⟩ := hf (r / 2) (half_pos hr) (ε * k / 4) (by positivity)
    refine ⟨fun q => 1 / k * h (moved q (along d k)) + -1 / k * h q,
      ((h1.move fun q hq => inn q hq k hk0.le (min_le_left _ _)).smul _).add ((h1.mono sub).smul _), fun q hq => ?_⟩
    have a1 := quot k hk0 (min_le_left _ _) q hq
    have a2 := h2 q (sub hq)
    have a3 := h2 (moved q (along d k)) (inn q hq k hk0.le (min_le_left _ _))
    have e : c * g q - (1 / k * h (moved q (along d k)) + -1 / k * h q) =
        (-(f (moved q (along d k)) - f q - k * (c * g q)) + (f (moved q (along d k)) - h (moved q (along d k))) -
          (f q - h q)) / k := by
      field_simp
      ring
    rw [e, abs_div, abs_of_pos hk0, div_le_iff₀ hk0]
    rw [abs_le] at a1 a2 a3 ⊢
    have : D * k * k ≤ ε / 2 * k := mul_le_mul_of_nonneg_right hDk hk0.le
    constructor <;> linarith
  have := main.smul c⁻¹
  simpa [← mul_assoc, inv_mul_cancel₀ hc] using this

/-- A region and sources that do not meet have a distance. -/
theorem exists_away {T U : Set E3} (hT : IsCompact T) (hU : IsClosed U) (h : ∀ t ∈ T, t ∉ U) :
    ∃ r > 0, ∀ q : P3, cartPos q ∈ U → q ∈ Away T r := by
  obtain ⟨δ, hδ, hsub⟩ := hT.exists_thickening_subset_open hU.isOpen_compl fun t ht => h t ht
  refine ⟨δ, hδ, fun q hq t ht => ?_⟩
  by_contra hn
  exact hsub (Metric.mem_thickening_iff.2 ⟨t, ht, not_le.1 hn⟩) hq

theorem Tame.bound {W : Set P3} {U : Set E3} {f : P3 → ℝ} (hU : IsClosed U) (hW : ∀ q : P3, cartPos q ∈ U → q ∈ W)
    (hf : Tame W f) {M : ℝ} (h0 : 0 ≤ M) (hM : ∀ q : P3, cartPos q ∈ frontier U → |f q| ≤ M) (q : P3)
    (hq : cartPos q ∈ U) : |f q| ≤ M := by
  have memW : ∀ x ∈ U, pt x ∈ W := fun x hx => hW _ (by rw [cartPos_pt]; exact hx)
  have key : ∀ g : P3 → ℝ, Calm W g → ∀ N, 0 ≤ N → (∀ q : P3, cartPos q ∈ frontier U → g q ≤ N) → g q ≤ N := by
    intro g hg N hN h
    refine region_le hU (f := fun x y z => g ⟨x, y, z⟩) (hg.cont.mono fun x hx => memW x hx)
      (fun x hx => hg.laplace (pt x) (memW x (interior_subset hx))) (fun ε hε => ?_) hN
      (fun x hx => h (pt x) (by rw [cartPos_pt]; exact hx)) (cartPos q) hq
    obtain ⟨R, hR⟩ := hg.decay ε hε
    exact ⟨R, fun x hx hn => hR (pt x) (memW x hx) (by rw [cartPos_pt]; exact hn)⟩
  refine le_of_forall_pos_le_add fun ε hε => ?_
  obtain ⟨g, h1, h2⟩ := hf (ε / 2) (half_pos hε)
  have b : ∀ p : P3, cartPos p ∈ frontier U → |g p| ≤ M + ε / 2 := fun p hp => by
    have b1 := h2 p (hW p (hU.frontier_subset hp))
    have b2 := hM p hp
    rw [abs_sub_comm] at b1
    have := abs_add_le (g p - f p) (f p)
    rw [sub_add_cancel] at this
    linarith
  have a1 := key g h1 (M + ε / 2) (by linarith) fun p hp => (le_abs_self _).trans (b p hp)
  have a2 := key _ (h1.smul (-1)) (M + ε / 2) (by linarith) fun p hp => by
    have := (neg_abs_le (g p)).trans' (neg_le_neg (b p hp))
    linarith
  have a3 := h2 q (hW q hq)
  rw [abs_le] at a3 ⊢
  constructor <;> linarith

end Verif.Continuation
