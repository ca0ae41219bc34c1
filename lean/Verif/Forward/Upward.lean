import Verif.Forward.PropsP
import Verif.Forward.Laplace
import Mathlib.Analysis.Calculus.DerivativeTest
import Mathlib.Analysis.Calculus.MeanValue

/-! The maximum principle over a plane, for C164. -/

namespace Verif.Forward

open MeasureTheory Filter Topology
open Verif.Distance (P3)
open Verif.Engine (Mode)

theorem second_nonpos {f f' : ℝ → ℝ} {f'' x : ℝ} (h1 : ∀ᶠ t in 𝓝 x, HasDerivAt f (f' t) t) (h2 : HasDerivAt f' f'' x)
    (hm : IsLocalMax f x) : f'' ≤ 0 := by
  by_contra hc
  push Not at hc
  have e : deriv f =ᶠ[𝓝 x] f' := h1.mono fun t ht => ht.deriv
  have e2 : deriv (deriv f) x = f'' := by rw [e.deriv_eq, h2.deriv]
  have hmin := isLocalMin_of_deriv_deriv_pos (by rw [e2]; exact hc) hm.deriv_eq_zero h1.self_of_nhds.continuousAt
  have hconst : f =ᶠ[𝓝 x] fun _ => f x := by
    filter_upwards [hm, hmin] with t h3 h4 using le_antisymm h3 h4
  have e3 := hconst.deriv.deriv_eq
  rw [e2] at e3
  simp at e3
  linarith

/-- Continuous over and on the plane at the height `z1`, harmonic over it and small far away. -/
structure Nice (z1 : ℝ) (f : P3 → ℝ) : Prop where
  cont : ContinuousOn (fun r : ℝ × ℝ × ℝ => f (pointAt r)) {r | z1 ≤ r.2.2}
  laplace : ∀ q : P3, z1 < q.z → LaplaceAt (fun x y z => f ⟨x, y, z⟩) q.x q.y q.z
  decay : ∀ ε > 0, ∃ R, ∀ q : P3, z1 ≤ q.z → R ≤ |q.x| ∨ R ≤ |q.y| ∨ R ≤ q.z - z1 → |f q| ≤ ε

theorem Nice.le {z1 : ℝ} {f : P3 → ℝ} (hf : Nice z1 f) {M : ℝ} (h0 : 0 ≤ M) (hM : ∀ q : P3, q.z = z1 → f q ≤ M)
    (q0 : P3) (hq0 : z1 ≤ q0.z) : f q0 ≤ M := by
  by_contra hc
  push Not at hc
  obtain ⟨R, hR⟩ := hf.decay ((M + f q0) / 2) (by linarith)
  have far : ∀ q : P3, z1 ≤ q.z → R ≤ |q.x| ∨ R ≤ |q.y| ∨ R ≤ q.z - z1 → f q ≤ (M + f q0) / 2 := fun q h1 h2 =>
    (le_abs_self _).trans (hR q h1 h2)
  have hin : |q0.x| < R ∧ |q0.y| < R ∧ q0.z - z1 < R := by
    by_contra hn
    have := far q0 hq0 (by
      by_contra hn'
      push Not at hn'
      exact hn hn')
    linarith
  have hR0 : 0 < R := (abs_nonneg _).trans_lt hin.1
  set K : Set (ℝ × ℝ × ℝ) := Set.Icc (-R, -R, z1) (R, R, z1 + R) with hK
  have memK : ∀ r : ℝ × ℝ × ℝ, r ∈ K ↔ |r.1| ≤ R ∧ |r.2.1| ≤ R ∧ z1 ≤ r.2.2 ∧ r.2.2 ≤ z1 + R := by
    rintro ⟨x, y, z⟩
    simp only [hK, Set.mem_Icc, Prod.mk_le_mk, abs_le]
    tauto
  set η := (f q0 - M) / 2 / (3 * R ^ 2 + 1) with hη
  have hη0 : 0 < η := by
    rw [hη]
    have : 0 < f q0 - M := by linarith
    positivity
  have hη1 : η * (3 * R ^ 2) < (f q0 - M) / 2 := by
    have : η * (3 * R ^ 2 + 1) = (f q0 - M) / 2 := by
      rw [hη]
      field_simp
    linarith
  set g : ℝ × ℝ × ℝ → ℝ := fun r => f (pointAt r) + η * (r.1 ^ 2 + r.2.1 ^ 2 + (r.2.2 - z1) ^ 2) with hg
  have gc : ContinuousOn g K := by
    refine ContinuousOn.add (hf.cont.mono fun r hr => ((memK r).1 hr).2.2.1) ?_
    fun_prop
  have q0K : coords q0 ∈ K := by
    rw [memK]
    exact ⟨hin.1.le, hin.2.1.le, hq0, by simp only [coords]; linarith [hin.2.2]⟩
  obtain ⟨p, hp, hmax⟩ := isCompact_Icc.exists_isMaxOn ⟨_, q0K⟩ gc
  have hge : f q0 ≤ g p := by
    refine le_trans ?_ (hmax q0K)
    simp only [hg, pointAt_coords]
    have : 0 ≤ η * ((coords q0).1 ^ 2 + (coords q0).2.1 ^ 2 + ((coords q0).2.2 - z1) ^ 2) := by positivity
    linarith
  obtain ⟨p1, p2, p3, p4⟩ := (memK p).1 hp
  have hsq : p.1 ^ 2 + p.2.1 ^ 2 + (p.2.2 - z1) ^ 2 ≤ 3 * R ^ 2 := by
    have a1 := sq_le_sq' (by linarith [abs_nonneg p.1, neg_abs_le p.1]) (le_of_abs_le p1)
    have a2 := sq_le_sq' (by linarith [abs_nonneg p.2.1, neg_abs_le p.2.1]) (le_of_abs_le p2)
    have a3 : (p.2.2 - z1) ^ 2 ≤ R ^ 2 := sq_le_sq' (by linarith) (by linarith)
    linarith
  have hlt : (M + f q0) / 2 < f (pointAt p) := by
    have h1 : η * (p.1 ^ 2 + p.2.1 ^ 2 + (p.2.2 - z1) ^ 2) ≤ η * (3 * R ^ 2) := mul_le_mul_of_nonneg_left hsq hη0.le
    simp only [hg] at hge
    linarith
  have s1 : |p.1| < R := by
    by_contra hn
    have := far (pointAt p) p3 (Or.inl (not_lt.1 hn))
    linarith
  have s2 : |p.2.1| < R := by
    by_contra hn
    have := far (pointAt p) p3 (Or.inr (Or.inl (not_lt.1 hn)))
    linarith
  have s3 : p.2.2 < z1 + R := by
    by_contra hn
    have := far (pointAt p) p3 (Or.inr (Or.inr (by
      have := not_lt.1 hn
      simp only [pointAt]
      linarith)))
    linarith
  have s4 : z1 < p.2.2 := by
    by_contra hn
    have := hM (pointAt p) (le_antisymm (not_lt.1 hn) p3)
    linarith
  obtain ⟨Vx, Vy, Vz, Vxx, Vyy, Vzz, h1, h2, h3, h4, h5, h6, h7⟩ := hf.laplace (pointAt p) s4
  simp only [pointAt] at h1 h2 h3 h4 h5 h6
  have sqd : ∀ a b t : ℝ, HasDerivAt (fun t => η * ((t - a) ^ 2 + b)) (η * (2 * (t - a))) t := by
    intro a b t
    have := ((((hasDerivAt_id t).sub_const a).fun_pow 2).add_const b).const_mul η
    simpa using this
  have sqd2 : ∀ a t : ℝ, HasDerivAt (fun t => η * (2 * (t - a))) (η * 2) t := by
    intro a t
    have := (((hasDerivAt_id t).sub_const a).const_mul 2).const_mul η
    simpa using this
  have k1 := second_nonpos (f := fun t => g (t, p.2.1, p.2.2)) (f' := fun t => Vx t + η * (2 * (t - 0)))
    (h1.mono fun t ht => by
      have := ht.fun_add (sqd 0 (p.2.1 ^ 2 + (p.2.2 - z1) ^ 2) t)
      simp only [sub_zero, ← add_assoc] at this ⊢
      exact this) (h2.fun_add (sqd2 0 p.1)) (by
      have : ∀ᶠ t in 𝓝 p.1, |t| < R := (continuous_abs.tendsto _).eventually_lt_const s1
      filter_upwards [this] with t ht
      exact hmax ((memK _).2 ⟨ht.le, p2, p3, p4⟩))
  have k2 := second_nonpos (f := fun t => g (p.1, t, p.2.2)) (f' := fun t => Vy t + η * (2 * (t - 0)))
    (h3.mono fun t ht => by
      have := ht.fun_add (sqd 0 (p.1 ^ 2 + (p.2.2 - z1) ^ 2) t)
      refine this.congr_of_eventuallyEq (.of_forall fun u => ?_)
      simp only [hg, pointAt]
      ring) (h4.fun_add (sqd2 0 p.2.1)) (by
      have : ∀ᶠ t in 𝓝 p.2.1, |t| < R := (continuous_abs.tendsto _).eventually_lt_const s2
      filter_upwards [this] with t ht
      exact hmax ((memK _).2 ⟨p1, ht.le, p3, p4⟩))
  have k3 := second_nonpos (f := fun t => g (p.1, p.2.1, t)) (f' := fun t => Vz t + η * (2 * (t - z1)))
    (h5.mono fun t ht => by
      have := ht.fun_add (sqd z1 (p.1 ^ 2 + p.2.1 ^ 2) t)
      refine this.congr_of_eventuallyEq (.of_forall fun u => ?_)
      simp only [hg, pointAt]
      ring) (h6.fun_add (sqd2 z1 p.2.2)) (by
      filter_upwards [Ioo_mem_nhds s4 s3] with t ht
      exact hmax ((memK _).2 ⟨p1, p2, ht.1.le, ht.2.le⟩))
  linarith

/-! ### Sums of displaced functions -/

/-- The point displaced by `t`. -/
def moved (q t : P3) : P3 := ⟨q.x + t.x, q.y + t.y, q.z + t.z⟩

theorem Nice.zero (z1 : ℝ) : Nice z1 fun _ => 0 :=
  ⟨continuousOn_const, fun _ _ => LaplaceAt.zero _ _ _, fun ε hε => ⟨0, fun _ _ _ => by simpa using hε.le⟩⟩

theorem Nice.add {z1 : ℝ} {f g : P3 → ℝ} (hf : Nice z1 f) (hg : Nice z1 g) : Nice z1 fun q => f q + g q := by
  refine ⟨hf.cont.add hg.cont, fun q hq => (hf.laplace q hq).add (hg.laplace q hq), fun ε hε => ?_⟩
  obtain ⟨R, hR⟩ := hf.decay (ε / 2) (by positivity)
  obtain ⟨R', hR'⟩ := hg.decay (ε / 2) (by positivity)
  refine ⟨max R R', fun q hq h => ?_⟩
  have h1 := hR q hq (by rcases h with h | h | h <;> simp only [max_le_iff] at h <;> tauto)
  have h2 := hR' q hq (by rcases h with h | h | h <;> simp only [max_le_iff] at h <;> tauto)
  have := abs_add_le (f q) (g q)
  linarith

theorem Nice.smul {z1 : ℝ} {f : P3 → ℝ} (hf : Nice z1 f) (c : ℝ) : Nice z1 fun q => c * f q := by
  refine ⟨hf.cont.const_mul c, fun q hq => ?_, fun ε hε => ?_⟩
  · obtain ⟨Vx, Vy, Vz, Vxx, Vyy, Vzz, h1, h2, h3, h4, h5, h6, h7⟩ := hf.laplace q hq
    exact ⟨fun t => c * Vx t, fun t => c * Vy t, fun t => c * Vz t, _, _, _, h1.mono fun t ht => ht.const_mul c,
      h2.const_mul c, h3.mono fun t ht => ht.const_mul c, h4.const_mul c, h5.mono fun t ht => ht.const_mul c,
      h6.const_mul c, by rw [← mul_add, ← mul_add, h7, mul_zero]⟩
  · obtain ⟨R, hR⟩ := hf.decay (ε / (|c| + 1)) (by positivity)
    refine ⟨R, fun q hq h => ?_⟩
    rw [abs_mul]
    have h1 := hR q hq h
    calc |c| * |f q| ≤ (|c| + 1) * (ε / (|c| + 1)) := by gcongr; linarith
      _ = ε := by field_simp

theorem Nice.move {z1 : ℝ} {f : P3 → ℝ} (hf : Nice z1 f) {t : P3} (ht : 0 ≤ t.z) :
    Nice z1 fun q => f (moved q t) := by
  refine ⟨?_, fun q hq => ?_, fun ε hε => ?_⟩
  · have : ContinuousOn (fun r : ℝ × ℝ × ℝ => (r.1 + t.x, r.2.1 + t.y, r.2.2 + t.z)) {r | z1 ≤ r.2.2} := by fun_prop
    exact hf.cont.comp this fun r (hr : z1 ≤ r.2.2) => (by linarith : z1 ≤ r.2.2 + t.z)
  · obtain ⟨Vx, Vy, Vz, Vxx, Vyy, Vzz, h1, h2, h3, h4, h5, h6, h7⟩ :=
      hf.laplace (moved q t) (by simp only [moved]; linarith)
    simp only [moved] at h1 h2 h3 h4 h5 h6
    have ev : ∀ {a s : ℝ} {p : ℝ → Prop}, (∀ᶠ u in 𝓝 (a + s), p u) → ∀ᶠ u in 𝓝 a, p (u + s) := by
      intro a s p h
      exact ((continuous_add_const s).tendsto a).eventually h
    exact ⟨fun u => Vx (u + t.x), fun u => Vy (u + t.y), fun u => Vz (u + t.z), _, _, _,
      (ev h1).mono fun u hu => hu.comp_add_const u t.x, h2.comp_add_const _ t.x,
      (ev h3).mono fun u hu => hu.comp_add_const u t.y, h4.comp_add_const _ t.y,
      (ev h5).mono fun u hu => hu.comp_add_const u t.z, h6.comp_add_const _ t.z, h7⟩
  · obtain ⟨R, hR⟩ := hf.decay ε hε
    refine ⟨R + |t.x| + |t.y|, fun q hq h => hR _ (by simp only [moved]; linarith) ?_⟩
    have a1 := abs_sub_abs_le_abs_sub q.x (-t.x)
    have a2 := abs_sub_abs_le_abs_sub q.y (-t.y)
    have a3 := abs_nonneg t.x
    have a4 := abs_nonneg t.y
    rw [sub_neg_eq_add, abs_neg] at a1 a2
    simp only [moved]
    rcases h with h | h | h
    · exact Or.inl (by linarith)
    · exact Or.inr (Or.inl (by linarith))
    · exact Or.inr (Or.inr (by linarith))

theorem Nice.bound {z1 : ℝ} {f : P3 → ℝ} (hf : Nice z1 f) {M : ℝ} (hM : ∀ q : P3, q.z = z1 → |f q| ≤ M) (q : P3)
    (hq : z1 ≤ q.z) : |f q| ≤ M := by
  have h0 : 0 ≤ M := (abs_nonneg _).trans (hM ⟨0, 0, z1⟩ rfl)
  have h1 := hf.le h0 (fun q hq => (le_abs_self _).trans (hM q hq)) q hq
  have h2 := (hf.smul (-1)).le h0 (fun q hq => by
    have := (neg_abs_le _).trans' (neg_le_neg (hM q hq))
    linarith) q hq
  rw [abs_le]
  constructor <;> linarith

/-- Uniform limits over the plane of such functions. -/
def Good (z1 : ℝ) (f : P3 → ℝ) : Prop :=
  ∀ ε > 0, ∃ g, Nice z1 g ∧ ∀ q : P3, z1 ≤ q.z → |f q - g q| ≤ ε

theorem Nice.good {z1 : ℝ} {f : P3 → ℝ} (hf : Nice z1 f) : Good z1 f := fun ε hε =>
  ⟨f, hf, fun q _ => by rw [sub_self, abs_zero]; exact hε.le⟩

theorem Good.limit {z1 : ℝ} {f : P3 → ℝ} (h : ∀ ε > 0, ∃ g, Good z1 g ∧ ∀ q : P3, z1 ≤ q.z → |f q - g q| ≤ ε) :
    Good z1 f := by
  intro ε hε
  obtain ⟨g, h1, h2⟩ := h (ε / 2) (half_pos hε)
  obtain ⟨g', h3, h4⟩ := h1 (ε / 2) (half_pos hε)
  refine ⟨g', h3, fun q hq => ?_⟩
  have := abs_sub_le (f q) (g q) (g' q)
  have := h2 q hq
  have := h4 q hq
  linarith

theorem Good.congr {z1 : ℝ} {f g : P3 → ℝ} (hf : Good z1 f) (h : ∀ q : P3, z1 ≤ q.z → g q = f q) : Good z1 g :=
  .limit fun ε hε => ⟨f, hf, fun q hq => by rw [h q hq, sub_self, abs_zero]; exact hε.le⟩

theorem Good.add {z1 : ℝ} {f g : P3 → ℝ} (hf : Good z1 f) (hg : Good z1 g) : Good z1 fun q => f q + g q := by
  intro ε hε
  obtain ⟨f', h1, h2⟩ := hf (ε / 2) (half_pos hε)
  obtain ⟨g', h3, h4⟩ := hg (ε / 2) (half_pos hε)
  refine ⟨_, h1.add h3, fun q hq => ?_⟩
  have e : f q + g q - (f' q + g' q) = (f q - f' q) + (g q - g' q) := by ring
  rw [e]
  have := abs_add_le (f q - f' q) (g q - g' q)
  have := h2 q hq
  have := h4 q hq
  linarith

theorem Good.smul {z1 : ℝ} {f : P3 → ℝ} (hf : Good z1 f) (c : ℝ) : Good z1 fun q => c * f q := by
  intro ε hε
  obtain ⟨g, h1, h2⟩ := hf (ε / (|c| + 1)) (by positivity)
  refine ⟨_, h1.smul c, fun q hq => ?_⟩
  rw [← mul_sub, abs_mul]
  have h3 := h2 q hq
  rw [le_div_iff₀ (by positivity)] at h3
  nlinarith [abs_nonneg (f q - g q)]

theorem Good.apply {z1 : ℝ} {f : P3 → ℝ} (hf : Good z1 f) {M : ℝ} (hM : ∀ q : P3, q.z = z1 → |f q| ≤ M) (q : P3)
    (hq : z1 ≤ q.z) : |f q| ≤ M := by
  refine le_of_forall_pos_le_add fun ε hε => ?_
  obtain ⟨g, h1, h2⟩ := hf (ε / 2) (half_pos hε)
  have a1 := h1.bound (M := M + ε / 2) (fun q hq => by
    have b1 := h2 q hq.ge
    have b2 := hM q hq
    rw [abs_sub_comm] at b1
    have := abs_add_le (g q - f q) (f q)
    rw [sub_add_cancel] at this
    linarith) q hq
  have a2 := h2 q hq
  have := abs_add_le (f q - g q) (g q)
  rw [sub_add_cancel] at this
  linarith

/-- `t` times `d`. -/
def along (d : P3) (t : ℝ) : P3 := ⟨t * d.x, t * d.y, t * d.z⟩

theorem Good.deriv {z1 : ℝ} {f f' : P3 → ℝ} (hf : Good z1 f) {d : P3} (hdz : 0 ≤ d.z)
    (hder : ∀ q : P3, z1 ≤ q.z → HasDerivAt (fun t => f (moved q (along d t))) (f' q) 0) {C : ℝ}
    (hlip : ∀ (q : P3) (h : ℝ), z1 ≤ q.z → 0 ≤ h → |f' (moved q (along d h)) - f' q| ≤ C * h) : Good z1 f' := by
  have quot : ∀ k : ℝ, 0 < k → ∀ p : P3, z1 ≤ p.z → |f (moved p (along d k)) - f p - k * f' p| ≤ |C| * k * k := by
    intro k hk p hp
    have hd' : ∀ s ∈ Set.Icc (0 : ℝ) k, HasDerivWithinAt (fun t => f (moved p (along d t)) - t * f' p)
        (f' (moved p (along d s)) - f' p) (Set.Icc 0 k) s := by
      intro s hs
      have h1 := hder (moved p (along d s)) (by
        have := mul_nonneg hs.1 hdz
        simp only [moved, along]
        linarith)
      have h2 : HasDerivAt (fun t => f (moved (moved p (along d s)) (along d (t - s)))) (f' (moved p (along d s))) s := by
        refine HasDerivAt.comp_sub_const s s (f := fun t => f (moved (moved p (along d s)) (along d t))) ?_
        rw [sub_self]
        exact h1
      have e : (fun t => f (moved (moved p (along d s)) (along d (t - s)))) = fun t => f (moved p (along d t)) := by
        funext t
        congr 1
        simp only [moved, along, P3.mk.injEq]
        refine ⟨?_, ?_, ?_⟩ <;> ring
      rw [e] at h2
      have h3 := h2.fun_sub ((hasDerivAt_id s).mul_const (f' p))
      rw [one_mul] at h3
      exact h3.hasDerivWithinAt
    have := (convex_Icc (0 : ℝ) k).norm_image_sub_le_of_norm_hasDerivWithin_le (C := |C| * k) hd' (by
      intro s hs
      have h1 := hlip p s hp hs.1
      have h4 : C * s ≤ |C| * k := mul_le_mul (le_abs_self _) hs.2 hs.1 (abs_nonneg _)
      rw [Real.norm_eq_abs]
      linarith) (Set.left_mem_Icc.2 hk.le) (Set.right_mem_Icc.2 hk.le)
    rw [Real.norm_eq_abs, Real.norm_eq_abs, sub_zero, abs_of_pos hk] at this
    have e : moved p (along d 0) = p := by simp [moved, along]
    rw [e] at this
    refine le_trans (le_of_eq ?_) this
    congr 1
    ring
  intro ε hε
  set k := ε / (2 * (|C| + 1)) with hk
  have hk0 : 0 < k := by positivity
  have hCk : |C| * k ≤ ε / 2 := by
    have : k * (2 * (|C| + 1)) = ε := by rw [hk]; field_simp
    nlinarith
  obtain ⟨g, h1, h2⟩ := hf (ε * k / 4) (by positivity)
  refine ⟨fun q => 1 / k * g (moved q (along d k)) + -1 / k * g q,
    ((h1.move (by simp only [along]; positivity)).smul _).add (h1.smul _), fun q hq => ?_⟩
  have a1 := quot k hk0 q hq
  have a2 := h2 q hq
  have a3 := h2 (moved q (along d k)) (by
    have := mul_nonneg hk0.le hdz
    simp only [moved, along]
    linarith)
  have e : f' q - (1 / k * g (moved q (along d k)) + -1 / k * g q) =
      (-(f (moved q (along d k)) - f q - k * f' q) + (f (moved q (along d k)) - g (moved q (along d k))) -
        (f q - g q)) / k := by
    field_simp
    ring
  rw [e, abs_div, abs_of_pos hk0, div_le_iff₀ hk0]
  rw [abs_le] at a1 a2 a3 ⊢
  have : |C| * k * k ≤ ε / 2 * k := mul_le_mul_of_nonneg_right hCk hk0.le
  constructor <;> linarith

end Verif.Forward
