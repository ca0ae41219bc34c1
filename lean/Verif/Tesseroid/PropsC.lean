import Verif.Tesseroid.PropsB
import Mathlib.Topology.UniformSpace.HeineCantor
import Mathlib.Topology.Order.Compact

/-! Property C18: density based discretization. -/

namespace Verif.Tesseroid
open Verif.Distance Verif.Forward Verif.Engine

/-- What is assumed of `scipy.optimize.minimize_scalar(method="bounded")`: it returns a point of the
interval and the value of the function there (not necessarily a minimum). -/
def Minimizer.InBounds (M : Minimizer) : Prop :=
  ∀ f a b, a ≤ b → (a ≤ (M f a b).1 ∧ (M f a b).1 ≤ b) ∧ (M f a b).2 = f (M f a b).1

/-- An ideal minimiser of continuous functions. -/
def Minimizer.Exact (M : Minimizer) : Prop :=
  ∀ f a b, ContinuousOn f (Set.Icc a b) → ∀ x, a ≤ x → x ≤ b → (M f a b).2 ≤ f x

/-- more turns do not change the outcome -/
theorem densityLoop_mono (M : Minimizer) (nd : ℝ → ℝ) (size w e s n : ℝ) (fuel : ℕ) :
    ∀ pending out ts, densityLoop M nd size w e s n fuel pending out = some ts →
      ∀ k, densityLoop M nd size w e s n (fuel + k) pending out = some ts := by
  induction fuel with
  | zero =>
    intro pending out ts h k
    cases pending with
    | nil => simp only [densityLoop] at h ⊢; exact h
    | cons a l => simp [densityLoop] at h
  | succ fuel ih =>
    intro pending out ts h k
    cases pending with
    | nil => simp only [densityLoop] at h ⊢; exact h
    | cons a l =>
      rw [Nat.succ_add]
      simp only [densityLoop] at h ⊢
      split at h
      · rename_i hc; rw [if_pos hc]; exact ih _ _ _ h k
      · rename_i hc; rw [if_neg hc]; exact ih _ _ _ h k

/-- The deviation from the chord of a continuous function is small near both ends, also relative to
the length of the interval: a point where it is large is away from both. -/
theorem split_away (nd : ℝ → ℝ) (b t : ℝ) (hbt : b < t) (hc : ContinuousOn nd (Set.Icc b t)) :
    ∃ δ > 0, δ ≤ t - b ∧ ∀ x y p, b ≤ x → x < y → y ≤ t → x ≤ p → p ≤ y →
      |nd p - straightLine p nd x y| * ((y - x) / (t - b)) > 0.1 → δ ≤ p - x ∧ δ ≤ y - p := by
  have huc := isCompact_Icc.uniformContinuousOn_of_continuous hc
  rw [Metric.uniformContinuousOn_iff] at huc
  obtain ⟨δ, hδ, hu⟩ := huc 0.05 (by norm_num)
  obtain ⟨B, hB⟩ := isCompact_Icc.exists_bound_of_continuousOn hc
  have hB0 : 0 ≤ B := le_trans (norm_nonneg _) (hB b ⟨le_refl _, hbt.le⟩)
  have hS : 0 < t - b := by linarith
  have hd2 : 0 < 0.05 * (t - b) / (2 * B + 1) := by positivity
  refine ⟨min (min δ (0.05 * (t - b) / (2 * B + 1))) (t - b),
    lt_min (lt_min hδ hd2) hS, min_le_right _ _, ?_⟩
  intro x y p hbx hxy hyt hxp hpy hlarge
  have hx : x ∈ Set.Icc b t := ⟨hbx, by linarith⟩
  have hy : y ∈ Set.Icc b t := ⟨by linarith, hyt⟩
  have hp : p ∈ Set.Icc b t := ⟨by linarith, by linarith⟩
  have hxy' : 0 < y - x := by linarith
  have hratio : (y - x) / (t - b) ≤ 1 := by rw [div_le_one hS]; linarith
  have hratio0 : 0 ≤ (y - x) / (t - b) := by positivity
  have hdiff : |nd y - nd x| ≤ 2 * B := by
    have h1 := hB x hx; have h2 := hB y hy
    rw [Real.norm_eq_abs] at h1 h2
    calc |nd y - nd x| ≤ |nd y| + |nd x| := abs_sub _ _
      _ ≤ 2 * B := by linarith
  -- deviation bounded through either end
  have core : ∀ z, z ∈ Set.Icc b t → |p - z| < δ → |p - z| < 0.05 * (t - b) / (2 * B + 1) →
      |nd p - (nd z + (nd y - nd x) / (y - x) * (p - z))| * ((y - x) / (t - b)) ≤ 0.1 := by
    intro z hz h1 h2
    have a1 : |nd p - nd z| < 0.05 := by
      have := hu p hp z hz (by rwa [Real.dist_eq])
      rwa [Real.dist_eq] at this
    have a2 : |nd p - (nd z + (nd y - nd x) / (y - x) * (p - z))| ≤
        |nd p - nd z| + |(nd y - nd x) / (y - x) * (p - z)| := by
      rw [show nd p - (nd z + (nd y - nd x) / (y - x) * (p - z))
        = (nd p - nd z) - (nd y - nd x) / (y - x) * (p - z) by ring]
      exact abs_sub _ _
    have a3 : |(nd y - nd x) / (y - x) * (p - z)| * ((y - x) / (t - b)) ≤ 0.05 := by
      rw [abs_mul, abs_div, abs_of_pos hxy']
      have : |nd y - nd x| / (y - x) * |p - z| * ((y - x) / (t - b))
          = |nd y - nd x| * |p - z| / (t - b) := by
        field_simp
      rw [this, div_le_iff₀ hS]
      have h3 : |p - z| * (2 * B + 1) < 0.05 * (t - b) := by
        rwa [lt_div_iff₀ (by linarith)] at h2
      have := abs_nonneg (p - z)
      nlinarith
    calc _ ≤ (|nd p - nd z| + |(nd y - nd x) / (y - x) * (p - z)|) * ((y - x) / (t - b)) :=
          mul_le_mul_of_nonneg_right a2 hratio0
      _ ≤ 0.05 * 1 + 0.05 := by
          rw [add_mul]
          have := abs_nonneg (nd p - nd z)
          have : |nd p - nd z| * ((y - x) / (t - b)) ≤ 0.05 * 1 :=
            mul_le_mul a1.le hratio hratio0 (by norm_num)
          linarith
      _ = 0.1 := by norm_num
  have hlx : straightLine p nd x y = nd x + (nd y - nd x) / (y - x) * (p - x) := by
    unfold straightLine; ring
  have hly : straightLine p nd x y = nd y + (nd y - nd x) / (y - x) * (p - y) := by
    unfold straightLine
    field_simp
    ring
  constructor
  · by_contra hlt
    push Not at hlt
    have h1 : |p - x| < δ := by
      rw [abs_of_nonneg (by linarith)]
      exact lt_of_lt_of_le hlt ((min_le_left _ _).trans (min_le_left _ _))
    have h2 : |p - x| < 0.05 * (t - b) / (2 * B + 1) := by
      rw [abs_of_nonneg (by linarith)]
      exact lt_of_lt_of_le hlt ((min_le_left _ _).trans (min_le_right _ _))
    have := core x hx h1 h2
    rw [hlx] at hlarge
    linarith
  · by_contra hlt
    push Not at hlt
    have h1 : |p - y| < δ := by
      rw [abs_sub_comm, abs_of_nonneg (by linarith)]
      exact lt_of_lt_of_le hlt ((min_le_left _ _).trans (min_le_left _ _))
    have h2 : |p - y| < 0.05 * (t - b) / (2 * B + 1) := by
      rw [abs_sub_comm, abs_of_nonneg (by linarith)]
      exact lt_of_lt_of_le hlt ((min_le_left _ _).trans (min_le_right _ _))
    have := core y hy h1 h2
    rw [hly] at hlarge
    linarith

/-- number of turns that an interval of this length may need -/
noncomputable def turns (δ len : ℝ) : ℕ := 2 * ⌊len / δ⌋₊ - 1

theorem turns_split {δ l1 l2 : ℝ} (hδ : 0 < δ) (h1 : δ ≤ l1) (h2 : δ ≤ l2) :
    turns δ l1 + turns δ l2 + 1 ≤ turns δ (l1 + l2) := by
  unfold turns
  have p1 : 0 < l1 := by linarith
  have p2 : 0 < l2 := by linarith
  have e1 : 1 ≤ ⌊l1 / δ⌋₊ := by rw [Nat.le_floor_iff (by positivity)]; rw [le_div_iff₀ hδ]; simpa
  have e2 : 1 ≤ ⌊l2 / δ⌋₊ := by rw [Nat.le_floor_iff (by positivity)]; rw [le_div_iff₀ hδ]; simpa
  have e3 : ⌊l1 / δ⌋₊ + ⌊l2 / δ⌋₊ ≤ ⌊(l1 + l2) / δ⌋₊ := by
    rw [Nat.le_floor_iff (by positivity)]
    push_cast
    rw [add_div]
    exact add_le_add (Nat.floor_le (by positivity)) (Nat.floor_le (by positivity))
  omega

theorem turns_pos {δ l : ℝ} (hδ : 0 < δ) (h : δ ≤ l) : 1 ≤ turns δ l := by
  unfold turns
  have p1 : 0 < l := by linarith
  have e1 : 1 ≤ ⌊l / δ⌋₊ := by
    rw [Nat.le_floor_iff (by positivity), le_div_iff₀ hδ]; simpa
  omega

theorem densityLoop_terminates (M : Minimizer) (hM : M.InBounds) (nd : ℝ → ℝ) (b t w e s n δ : ℝ)
    (hδ : 0 < δ)
    (haway : ∀ x y p, b ≤ x → x < y → y ≤ t → x ≤ p → p ≤ y →
      |nd p - straightLine p nd x y| * ((y - x) / (t - b)) > 0.1 → δ ≤ p - x ∧ δ ≤ y - p)
    (fuel : ℕ) : ∀ pending out : List Tess,
    (∀ p ∈ pending, b ≤ p.bottom ∧ p.top ≤ t ∧ δ ≤ p.top - p.bottom) →
    (pending.map fun p => turns δ (p.top - p.bottom)).sum ≤ fuel →
    densityLoop M nd (t - b) w e s n fuel pending out ≠ none := by
  induction fuel with
  | zero =>
    intro pending out hp hf
    cases pending with
    | nil => simp [densityLoop]
    | cons a l =>
      have := turns_pos hδ (hp a List.mem_cons_self).2.2
      simp only [List.map_cons, List.sum_cons] at hf
      omega
  | succ fuel ih =>
    intro pending out hp hf
    cases pending with
    | nil => simp [densityLoop]
    | cons a l =>
      obtain ⟨h1, h2, h3⟩ := hp a List.mem_cons_self
      simp only [densityLoop]
      simp only [List.map_cons, List.sum_cons] at hf
      split
      · rename_i hc
        obtain ⟨⟨g1, g2⟩, g3⟩ := hM
          (fun radius => -|nd radius - straightLine radius nd a.bottom a.top|) a.bottom a.top
          (by linarith)
        unfold maximumAbsoluteDiff at hc ⊢
        simp only [g3, neg_neg] at hc
        obtain ⟨d1, d2⟩ := haway a.bottom a.top _ h1 (by linarith) h2 g1 g2 hc
        apply ih
        · intro p hpm
          rw [List.mem_append] at hpm
          rcases hpm with hpm | hpm
          · exact hp p (List.mem_cons_of_mem _ hpm)
          · simp only [List.mem_cons, List.not_mem_nil, or_false] at hpm
            rcases hpm with rfl | rfl
            · exact ⟨by simp only; linarith, h2, d2⟩
            · exact ⟨h1, by simp only; linarith, d1⟩
        · rw [List.map_append, List.sum_append]
          simp only [List.map_cons, List.map_nil, List.sum_cons, List.sum_nil]
          have := turns_split hδ d2 d1
          rw [show ∀ u v w : ℝ, u - v + (v - w) = u - w by intros; ring] at this
          omega
      · apply ih
        · exact fun p hpm => hp p (List.mem_cons_of_mem _ hpm)
        · have := turns_pos hδ h3
          omega

/-- Invariants of the loop. -/
theorem densityLoop_invariant (M : Minimizer) (hM : M.InBounds) (nd : ℝ → ℝ) (b t w e s n : ℝ)
    (F : Tess → ℝ) (hF : ∀ x p y, F ⟨w, e, s, n, p, y⟩ + F ⟨w, e, s, n, x, p⟩ = F ⟨w, e, s, n, x, y⟩)
    (Q : Tess → Prop)
    (hQ : Q = fun p => p.w = w ∧ p.e = e ∧ p.s = s ∧ p.n = n ∧ b ≤ p.bottom ∧ p.bottom ≤ p.top ∧
      p.top ≤ t)
    (fuel : ℕ) : ∀ pending out ts, densityLoop M nd (t - b) w e s n fuel pending out = some ts →
    (∀ p ∈ pending, Q p) → (∀ p ∈ out, Q p) →
    (∀ p ∈ out, (maximumAbsoluteDiff M nd p.bottom p.top).2 * ((p.top - p.bottom) / (t - b)) ≤ 0.1) →
    (∀ p ∈ ts, Q p) ∧
    (∀ p ∈ ts, (maximumAbsoluteDiff M nd p.bottom p.top).2 * ((p.top - p.bottom) / (t - b)) ≤ 0.1) ∧
    (ts.map F).sum = (out.map F).sum + (pending.map F).sum := by
  subst hQ
  induction fuel with
  | zero =>
    intro pending out ts h hp ho hd
    cases pending with
    | nil => simp only [densityLoop, Option.some.injEq] at h; subst h; exact ⟨ho, hd, by simp⟩
    | cons a l => simp [densityLoop] at h
  | succ fuel ih =>
    intro pending out ts h hp ho hd
    cases pending with
    | nil => simp only [densityLoop, Option.some.injEq] at h; subst h; exact ⟨ho, hd, by simp⟩
    | cons a l =>
      obtain ⟨aw, ae, as, an, h1, h2, h3⟩ := hp a List.mem_cons_self
      have ha : a = ⟨w, e, s, n, a.bottom, a.top⟩ := by
        cases a; simp only at aw ae as an; subst aw ae as an; rfl
      simp only [densityLoop] at h
      split at h
      · obtain ⟨⟨g1, g2⟩, -⟩ := hM
          (fun radius => -|nd radius - straightLine radius nd a.bottom a.top|) a.bottom a.top h2
        have g1' : a.bottom ≤ (maximumAbsoluteDiff M nd a.bottom a.top).1 := g1
        have g2' : (maximumAbsoluteDiff M nd a.bottom a.top).1 ≤ a.top := g2
        obtain ⟨i1, i2, i3⟩ := ih _ _ _ h (by
          intro p hpm
          rw [List.mem_append] at hpm
          rcases hpm with hpm | hpm
          · exact hp p (List.mem_cons_of_mem _ hpm)
          · simp only [List.mem_cons, List.not_mem_nil, or_false] at hpm
            rcases hpm with rfl | rfl
            · exact ⟨rfl, rfl, rfl, rfl, by simp only; linarith, g2', h3⟩
            · exact ⟨rfl, rfl, rfl, rfl, h1, g1', by simp only; linarith⟩) ho hd
        refine ⟨i1, i2, ?_⟩
        rw [i3, List.map_append, List.sum_append]
        simp only [List.map_cons, List.map_nil, List.sum_cons, List.sum_nil]
        have := hF a.bottom (maximumAbsoluteDiff M nd a.bottom a.top).1 a.top
        rw [← ha] at this
        linarith
      · rename_i hc
        obtain ⟨i1, i2, i3⟩ := ih _ _ _ h
          (fun p hpm => hp p (List.mem_cons_of_mem _ hpm)) (by
          intro p hpm
          rw [List.mem_append, List.mem_singleton] at hpm
          rcases hpm with hpm | rfl
          · exact ho p hpm
          · exact ⟨rfl, rfl, rfl, rfl, h1, h2, h3⟩) (by
          intro p hpm
          rw [List.mem_append, List.mem_singleton] at hpm
          rcases hpm with hpm | rfl
          · exact hd p hpm
          · exact not_lt.1 hc)
        refine ⟨i1, i2, ?_⟩
        rw [i3, List.map_append, List.sum_append]
        simp only [List.map_cons, List.map_nil, List.sum_cons, List.sum_nil]
        rw [← ha]
        ring

theorem minmax_degenerate (M : Minimizer) (hM : M.InBounds) (density : ℝ → ℝ) (b : ℝ) :
    (densityMinmax M density b b).1 = (densityMinmax M density b b).2 := by
  obtain ⟨⟨g1, g2⟩, g3⟩ := hM density b b le_rfl
  obtain ⟨⟨k1, k2⟩, k3⟩ := hM (fun r => -density r) b b le_rfl
  have e1 : (M density b b).1 = b := le_antisymm g2 g1
  have e2 : (M (fun r => -density r) b b).1 = b := le_antisymm k2 k1
  unfold densityMinmax
  rw [g3, k3, e1, e2]
  simp

theorem isclose_refl (a : ℝ) : isclose a a := by
  unfold isclose
  simp only [sub_self, abs_zero]
  positivity

/-- C18: for a density that is continuous between the bottom and the top of the tesseroid, the
discretization terminates, whatever points of the intervals the minimiser chooses. -/
theorem C18_terminates (M : Minimizer) (hM : M.InBounds) (density : ℝ → ℝ) (t : Tess)
    (hbt : t.bottom ≤ t.top) (hc : ContinuousOn density (Set.Icc t.bottom t.top)) :
    ∃ fuel0 ts, ∀ fuel ≥ fuel0, densityDiscretization1 M density fuel t = some ts := by
  unfold densityDiscretization1
  simp only
  by_cases hcl : isclose (densityMinmax M density t.bottom t.top).1
      (densityMinmax M density t.bottom t.top).2
  · exact ⟨0, [t], fun fuel _ => by rw [if_pos hcl]⟩
  · have hlt : t.bottom < t.top := by
      rcases lt_or_eq_of_le hbt with h | h
      · exact h
      · rw [← h, minmax_degenerate M hM] at hcl
        exact absurd (isclose_refl _) hcl
    set nd := fun radius => (density radius - (densityMinmax M density t.bottom t.top).1) /
      ((densityMinmax M density t.bottom t.top).2 - (densityMinmax M density t.bottom t.top).1)
      with hnd
    have hcn : ContinuousOn nd (Set.Icc t.bottom t.top) :=
      (hc.sub continuousOn_const).div_const _
    obtain ⟨δ, hδ, hδt, haway⟩ := split_away nd t.bottom t.top hlt hcn
    have := densityLoop_terminates M hM nd t.bottom t.top t.w t.e t.s t.n δ hδ haway
      (turns δ (t.top - t.bottom)) [t] []
      (by simp only [List.mem_singleton, forall_eq]; exact ⟨le_rfl, le_rfl, hδt⟩) (by simp)
    obtain ⟨ts, hts⟩ := Option.ne_none_iff_exists'.1 this
    refine ⟨turns δ (t.top - t.bottom), ts, fun fuel hf => ?_⟩
    rw [if_neg hcl]
    obtain ⟨k, rfl⟩ := Nat.exists_eq_add_of_le hf
    exact densityLoop_mono _ _ _ _ _ _ _ _ _ _ _ hts k

/-- C18: the tesseroids that are returned are an exact partition of the original one, with the same
horizontal boundaries and the same total volume. -/
theorem C18_partition (M : Minimizer) (hM : M.InBounds) (density : ℝ → ℝ) (t : Tess)
    (ht : t.Ordered) (fuel : ℕ) (ts : List Tess)
    (h : densityDiscretization1 M density fuel t = some ts) :
    IsPartition ts t ∧ (ts.map Tess.volume).sum = t.volume ∧
    ∀ p ∈ ts, p.w = t.w ∧ p.e = t.e ∧ p.s = t.s ∧ p.n = t.n ∧ t.bottom ≤ p.bottom ∧
      p.bottom ≤ p.top ∧ p.top ≤ t.top := by
  unfold densityDiscretization1 at h
  simp only at h
  split at h
  · simp only [Option.some.injEq] at h
    subst h
    refine ⟨?_, by simp, ?_⟩
    · intro x y z
      by_cases hm : t.Mem x y z <;> simp [hm]
    · simp only [List.mem_singleton, forall_eq]
      exact ⟨by trivial, by trivial, by trivial, by trivial, le_rfl, ht.2.2, le_rfl⟩
  · have inv : ∀ g h' k : ℝ → ℝ, _ := fun g h' k =>
      densityLoop_invariant M hM _ t.bottom t.top t.w t.e t.s t.n (prodF g h' k)
        (by intro x p y; simp only [prodF]; ring) _ rfl fuel [t] [] ts h
        (by simp only [List.mem_singleton, forall_eq]
            exact ⟨by trivial, by trivial, by trivial, by trivial, le_rfl, ht.2.2, le_rfl⟩)
        (by simp) (by simp)
    have hq := (inv (fun _ => 0) (fun _ => 0) (fun _ => 0)).1
    refine ⟨partition_of_sum _ _ (fun p hp => ?_) ht (fun g h' k => by simpa using (inv g h' k).2.2),
      ?_, hq⟩
    · obtain ⟨h1, h2, h3, h4, h5, h6, h7⟩ := hq p hp
      exact ⟨by rw [h1, h2]; exact ht.1, by rw [h3, h4]; exact ht.2.1, h6⟩
    · have := (inv radians (fun φ => Real.sin (radians φ)) (fun r => r ^ 3 / 3)).2.2
      simp only [List.map_cons, List.map_nil, List.sum_cons, List.sum_nil, add_zero, zero_add] at this
      rw [volume_eq_prodF, ← this]
      congr 1
      exact List.map_congr_left fun p _ => volume_eq_prodF p

/-- the straight line that joins the values of `f` at the ends of `[a, b]` -/
noncomputable def chord (f : ℝ → ℝ) (a b r : ℝ) : ℝ := f a + (f b - f a) * ((r - a) / (b - a))

/-- C18, the criterion: with an exact minimiser, either the density is constant up to the tolerance
of `numpy.isclose` and the tesseroid is not divided, or in every piece the density departs from a
straight line by no more than a tenth of its total range, weighted by the relative thickness of the
piece. -/
theorem C18_criterion (M : Minimizer) (density : ℝ → ℝ) (t : Tess) (hM : M.InBounds)
    (hex : M.Exact) (ht : t.Ordered) (hc : ContinuousOn density (Set.Icc t.bottom t.top)) (fuel : ℕ) (ts : List Tess) (lo hi : ℝ)
    (hlo : IsLeast (density '' Set.Icc t.bottom t.top) lo)
    (hhi : IsGreatest (density '' Set.Icc t.bottom t.top) hi)
    (h : densityDiscretization1 M density fuel t = some ts) :
    (|lo - hi| ≤ 1e-8 + 1e-5 * |hi| ∧ ts = [t]) ∨
    ∀ p ∈ ts, ∀ r, p.bottom ≤ r → r ≤ p.top →
      |density r - chord density p.bottom p.top r| * ((p.top - p.bottom) / (t.top - t.bottom)) ≤
        0.1 * (hi - lo) := by
  have hmin : (densityMinmax M density t.bottom t.top).1 = lo := by
    obtain ⟨⟨g1, g2⟩, g3⟩ := hM density t.bottom t.top ht.2.2
    have l1 : ∀ x, t.bottom ≤ x → x ≤ t.top → lo ≤ density x :=
      fun x h1 h2 => hlo.2 ⟨x, ⟨h1, h2⟩, rfl⟩
    obtain ⟨x, ⟨hx1, hx2⟩, hx⟩ := hlo.1
    unfold densityMinmax
    have a1 := hex density t.bottom t.top hc x hx1 hx2
    rw [hx] at a1
    have a2 := l1 _ g1 g2
    rw [← g3] at a2
    simp only
    rw [le_antisymm a1 a2]
    exact min_eq_left (le_min (l1 _ le_rfl ht.2.2) (l1 _ ht.2.2 le_rfl))
  have hmax : (densityMinmax M density t.bottom t.top).2 = hi := by
    obtain ⟨⟨g1, g2⟩, g3⟩ := hM (fun r => -density r) t.bottom t.top ht.2.2
    have l1 : ∀ x, t.bottom ≤ x → x ≤ t.top → density x ≤ hi :=
      fun x h1 h2 => hhi.2 ⟨x, ⟨h1, h2⟩, rfl⟩
    obtain ⟨x, ⟨hx1, hx2⟩, hx⟩ := hhi.1
    unfold densityMinmax
    have a1 := hex (fun r => -density r) t.bottom t.top hc.neg x hx1 hx2
    simp only [hx] at a1
    have a2 := l1 _ g1 g2
    simp only
    have : -(M (fun r => -density r) t.bottom t.top).2 = hi := by
      apply le_antisymm
      · rw [g3]; simpa using a2
      · linarith
    rw [this]
    exact max_eq_left (max_le (l1 _ le_rfl ht.2.2) (l1 _ ht.2.2 le_rfl))
  unfold densityDiscretization1 at h
  simp only [hmin, hmax] at h
  split at h
  · rename_i hcl
    simp only [Option.some.injEq] at h
    rw [hmin, hmax] at hcl
    exact Or.inl ⟨hcl, h.symm⟩
  · rename_i hcl
    rw [hmin, hmax] at hcl
    right
    have hrange : 0 < hi - lo := by
      have hle : lo ≤ hi := by
        have := hlo.2 ⟨t.bottom, ⟨le_rfl, ht.2.2⟩, rfl⟩
        have := hhi.2 ⟨t.bottom, ⟨le_rfl, ht.2.2⟩, rfl⟩
        linarith
      rcases lt_or_eq_of_le hle with h | h
      · linarith
      · subst h; exact absurd (isclose_refl _) hcl
    have inv := densityLoop_invariant M hM _ t.bottom t.top t.w t.e t.s t.n
        (prodF (fun _ => 0) (fun _ => 0) (fun _ => 0))
        (by intro x p y; simp only [prodF]; ring) _ rfl fuel [t] [] ts h
        (by simp only [List.mem_singleton, forall_eq]
            exact ⟨by trivial, by trivial, by trivial, by trivial, le_rfl, ht.2.2, le_rfl⟩)
        (by simp) (by simp)
    intro p hp r hr1 hr2
    obtain ⟨-, -, -, -, q5, q6, q7⟩ := inv.1 p hp
    have hd := inv.2.1 p hp
    set nd := fun radius => (density radius - lo) / (hi - lo) with hnd
    have hfun := hex (fun radius => -|nd radius - straightLine radius nd p.bottom p.top|)
      p.bottom p.top (by
        have hcp : ContinuousOn density (Set.Icc p.bottom p.top) :=
          hc.mono (Set.Icc_subset_Icc q5 q7)
        simp only [hnd, straightLine]
        fun_prop) r hr1 hr2
    have hdev : |nd r - straightLine r nd p.bottom p.top| ≤
        (maximumAbsoluteDiff M nd p.bottom p.top).2 := by
      unfold maximumAbsoluteDiff
      simp only at hfun ⊢
      linarith
    have hratio : 0 ≤ (p.top - p.bottom) / (t.top - t.bottom) :=
      div_nonneg (by linarith) (by linarith)
    have hscale : density r - chord density p.bottom p.top r =
        (hi - lo) * (nd r - straightLine r nd p.bottom p.top) := by
      simp only [hnd, chord, straightLine]
      rcases eq_or_ne (p.top - p.bottom) 0 with h0 | h0
      · simp only [h0, div_zero, mul_zero, zero_mul]; field_simp; ring
      · field_simp; ring
    rw [hscale, abs_mul, abs_of_pos hrange, mul_assoc]
    have := mul_le_mul_of_nonneg_right hdev hratio
    nlinarith

/-- C18 for lists of tesseroids and at the API: with a continuous density `tesseroid_gravity` always
ends. -/
theorem C18_tesseroid_gravity_ends (junk : Junk) (mode : Mode) (M : Minimizer) (hM : M.InBounds)
    (stack0 small0 : ℕ → Tess) (shape : List ℕ) (obs : List P3) (ts : List Tess) (f : ℝ → ℝ)
    (hc : ContinuousOn f (Set.Ici 0)) (field : String) (radial : Bool) :
    ∃ fuel0 r, ∀ fuel ≥ fuel0, tesseroidGravity junk mode M fuel stack0 small0 (arrays shape obs) ts
      (.func f) field radial false = some r := by
  have hlist : ∀ l : List Tess, (∀ t ∈ l, 0 ≤ t.bottom ∧ t.bottom ≤ t.top) →
      ∃ fuel0 ts', ∀ fuel ≥ fuel0, densityDiscretization M f fuel l = some ts' := by
    intro l hl
    induction l with
    | nil => exact ⟨0, [], fun _ _ => rfl⟩
    | cons t l ih =>
      obtain ⟨f1, t1, h1⟩ := C18_terminates M hM f t (hl t List.mem_cons_self).2
        (hc.mono fun x hx => le_trans (hl t List.mem_cons_self).1 hx.1)
      obtain ⟨f2, t2, h2⟩ := ih fun t ht => hl t (List.mem_cons_of_mem _ ht)
      refine ⟨max f1 f2, t1 ++ t2, fun fuel hf => ?_⟩
      unfold densityDiscretization
      rw [h1 fuel (le_trans (le_max_left _ _) hf), h2 fuel (le_trans (le_max_right _ _) hf)]
      rfl
  by_cases hp : ChecksPass false obs ts
  · obtain ⟨fuel0, ts', h⟩ := hlist (ts.map (usedTess false)) (by
      intro t ht
      obtain ⟨t', ht', rfl⟩ := List.mem_map.1 ht
      rw [usedTess_false]
      rcases hp with hp | ⟨hv, -⟩
      · simp at hp
      · have := normLon_range t' (hv t' ht').1
        exact ⟨this.radii.1, this.bt⟩)
    cases htab : tessFieldTable field with
    | none =>
      refine ⟨0, .error .ValueError, fun fuel _ => ?_⟩
      rw [tesseroidGravity_func, htab]
    | some kc =>
      have hlen : (ts'.length = 0 ∧ obs.length ≠ 0) ∨ ¬ (ts'.length = 0 ∧ obs.length ≠ 0) := em _
      rcases hlen with hlen | hlen
      · refine ⟨fuel0, .error .ValueError, fun fuel hf => ?_⟩
        rw [tesseroidGravity_func, htab]
        simp only [if_pos hp, h fuel hf, if_pos hlen]
      · refine ⟨fuel0, tessCompute junk mode stack0 small0 (obs.map (·.x)) (obs.map (·.y))
          (obs.map (·.z)) shape field radial ts' fun lonr cosphi sinphi radius _ t =>
            glqVariable lonr cosphi sinphi radius t f glq2 kc.1, fun fuel hf => ?_⟩
        rw [tesseroidGravity_func, htab]
        simp only [if_pos hp, h fuel hf, if_neg hlen]
  · refine ⟨0, .error .ValueError, fun fuel _ => ?_⟩
    rw [tesseroidGravity_func]
    cases tessFieldTable field with
    | none => rfl
    | some kc => simp only [if_neg hp]

/-- C03 is false of `tesseroid_gravity` with a density function: a valid tesseroid of null thickness,
which is discarded when the density is an array, is not discarded and the call fails with
ZeroDivisionError. -/
theorem C03_null_tesseroid_with_function_raises (junk : Junk) (M : Minimizer) (hM : M.InBounds)
    (fuel : ℕ) (stack0 small0 : ℕ → Tess) (f : ℝ → ℝ) (radial : Bool) :
    tesseroidGravity junk .serial M fuel stack0 small0 (arrays [1] [⟨0, 0, 8000⟩])
      [⟨0, 10, 0, 10, 6000, 6000⟩] (.func f) "g_z" radial false =
        some (.error .ZeroDivisionError) := by
  have hp : ChecksPass false [⟨0, 0, 8000⟩] [⟨0, 10, 0, 10, 6000, 6000⟩] := by
    refine Or.inr ⟨?_, ?_⟩
    · simp only [List.mem_singleton, forall_eq]
      exact ⟨⟨by norm_num, by norm_num, by norm_num, by norm_num, by norm_num,
        by norm_num, by norm_num⟩, Or.inl ⟨by norm_num, by norm_num⟩⟩
    · rintro ⟨q, hq, t, ht, hc⟩
      simp only [List.map_cons, List.map_nil, List.mem_singleton] at hq ht
      subst hq ht
      rw [usedTess_false, normLon_of_le (by norm_num),
        conflict_iff _ _ (by norm_num) (by norm_num)] at hc
      have := hc.2.2.2
      norm_num at this
  have hu : ([⟨0, 10, 0, 10, 6000, 6000⟩] : List Tess).map (usedTess false) =
      [⟨0, 10, 0, 10, 6000, 6000⟩] := by
    rw [usedTess_false]
    simp only [List.map_cons, List.map_nil]
    rw [normLon_of_le (by norm_num)]
  have hd : densityDiscretization M f fuel [⟨0, 10, 0, 10, 6000, 6000⟩] =
      some [⟨0, 10, 0, 10, 6000, 6000⟩] := by
    unfold densityDiscretization densityDiscretization densityDiscretization1
    simp only
    rw [minmax_degenerate M hM f 6000, if_pos (isclose_refl _)]
    rfl
  rw [tesseroidGravity_func, show tessFieldTable "g_z" = some (gravityUSpherical, -10 ^ 5) from rfl]
  simp only [if_pos hp, hu, hd]
  rw [if_neg (by simp)]
  have hpc : ∀ q : P3, tessPieces (tessParams "g_z" radial q) ⟨0, 10, 0, 10, 6000, 6000⟩ =
      .error .ZeroDivisionError := by
    intro q
    have hdiv : divisions (tessParams "g_z" radial q) ⟨0, 10, 0, 10, 6000, 6000⟩ =
        .error .ZeroDivisionError := by
      unfold divisions divLt
      have hr : (dimensions ⟨0, 10, 0, 10, 6000, 6000⟩).2.2 = 0 := by simp [dimensions]
      simp only [hr, if_true]
      by_cases h1 : (dimensions ⟨0, 10, 0, 10, 6000, 6000⟩).1 = 0
      · rw [if_pos h1]; rfl
      · rw [if_neg h1]
        by_cases h2 : (dimensions ⟨0, 10, 0, 10, 6000, 6000⟩).2.1 = 0
        · rw [if_pos h2]; rfl
        · rw [if_neg h2]; rfl
    unfold tessPieces adaptiveFuel
    simp only [adList, hdiv]
  obtain ⟨q', hq', s', hs', e', h1, h2⟩ := tessCompute_error junk .serial stack0 small0
    [⟨0, 0, 8000⟩] [1] "g_z" radial [(⟨0, 10, 0, 10, 6000, 6000⟩ : Tess)] id 0 trivial
    (fun lonr cosphi sinphi radius _ t =>
        glqVariable lonr cosphi sinphi radius t f glq2 gravityUSpherical)
    ⟨0, 0, 8000⟩ (by simp) ⟨0, 10, 0, 10, 6000, 6000⟩ (by simp) _ (hpc _)
  simp only [List.mem_singleton] at hs'
  subst hs'
  simp only [id] at h1
  rw [hpc] at h1
  simp at h1
  subst h1
  simp only [List.map_id] at h2
  rw [h2]

/-- ideal minimisers exist -/
example : ∃ M : Minimizer, M.InBounds ∧ M.Exact := by
  classical
  have key : ∀ (f : ℝ → ℝ) (a b : ℝ), ∃ x, (a ≤ b → a ≤ x ∧ x ≤ b) ∧
      (ContinuousOn f (Set.Icc a b) → ∀ y, a ≤ y → y ≤ b → f x ≤ f y) := by
    intro f a b
    by_cases hc : ContinuousOn f (Set.Icc a b)
    · by_cases hab : a ≤ b
      · obtain ⟨x, hx, hm⟩ := isCompact_Icc.exists_isMinOn (Set.nonempty_Icc.2 hab) hc
        exact ⟨x, fun _ => hx, fun _ y h1 h2 => hm ⟨h1, h2⟩⟩
      · exact ⟨a, fun h => absurd h hab, fun _ y h1 h2 => absurd (h1.trans h2) hab⟩
    · exact ⟨a, fun h => ⟨le_rfl, h⟩, fun h => absurd h hc⟩
  choose X h1 h2 using key
  exact ⟨fun f a b => (X f a b, f (X f a b)), fun f a b hab => ⟨h1 f a b hab, rfl⟩,
    fun f a b hc x hx1 hx2 => h2 f a b hc x hx1 hx2⟩

/-- the midpoint rule is a minimiser in the sense of these theorems -/
example : Minimizer.InBounds fun f a b => ((a + b) / 2, f ((a + b) / 2)) :=
  fun f a b h => ⟨⟨by simp only; linarith, by simp only; linarith⟩, rfl⟩

end Verif.Tesseroid
