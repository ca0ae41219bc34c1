import Verif.Forward.Upward

/-! C164: gravity never exceeds over a plane above the sources what it is on the plane. -/

namespace Verif.Forward

open MeasureTheory Filter Topology
open Verif.Distance (P3)
open Verif.Engine (Mode)

/-! ### Fields that are derivatives of one another -/

theorem gap_along {q d : P3} {h : ℝ} (hh : 0 ≤ h) (hd : d.x ^ 2 + d.y ^ 2 + d.z ^ 2 = 1) : gap (moved q (along d h)) q = h := by
  simp only [gap, moved, along, add_sub_cancel_left]
  rw [show (h * d.x) ^ 2 + (h * d.y) ^ 2 + (h * d.z) ^ 2 = h ^ 2 * (d.x ^ 2 + d.y ^ 2 + d.z ^ 2) by ring, hd, mul_one,
    Real.sqrt_sq hh]

theorem EastDeriv.along {f : P3 → ℝ} {v : ℝ} {q : P3} (h : EastDeriv f v q) :
    HasDerivAt (fun t => f (moved q (along ⟨1, 0, 0⟩ t))) v 0 := by
  unfold EastDeriv at h
  rw [← add_zero q.x] at h
  simpa [moved, Forward.along] using h.comp_const_add q.x 0

theorem NorthDeriv.along {f : P3 → ℝ} {v : ℝ} {q : P3} (h : NorthDeriv f v q) :
    HasDerivAt (fun t => f (moved q (along ⟨0, 1, 0⟩ t))) v 0 := by
  unfold NorthDeriv at h
  rw [← add_zero q.y] at h
  simpa [moved, Forward.along] using h.comp_const_add q.y 0

theorem UpDeriv.along {f : P3 → ℝ} {v : ℝ} {q : P3} (h : UpDeriv f v q) :
    HasDerivAt (fun t => f (moved q (along ⟨0, 0, 1⟩ t))) v 0 := by
  unfold UpDeriv at h
  rw [← add_zero q.z] at h
  simpa [moved, Forward.along] using h.comp_const_add q.z 0

theorem Good.part {z1 : ℝ} {f g : P3 → ℝ} (hf : Good z1 f) {d : P3} (hd1 : d.x ^ 2 + d.y ^ 2 + d.z ^ 2 = 1)
    (hdz : 0 ≤ d.z) {c C : ℝ} (hc : c ≠ 0)
    (hder : ∀ q : P3, z1 ≤ q.z → HasDerivAt (fun t => f (moved q (along d t))) (c * g q) 0)
    (hlip : ∀ q q' : P3, z1 ≤ q.z → z1 ≤ q'.z → |g q - g q'| ≤ C * gap q q') : Good z1 g := by
  have := (Good.deriv (f' := fun q => c * g q) hf hdz hder (C := |c| * C) (by
    intro q h hq hh
    rw [← mul_sub, abs_mul, mul_assoc]
    refine mul_le_mul_of_nonneg_left ?_ (abs_nonneg _)
    have := hlip (moved q (along d h)) q (by
      have := mul_nonneg hh hdz
      simp only [moved, along]
      linarith) hq
    rwa [gap_along hh hd1] at this)).smul c⁻¹
  simpa [← mul_assoc, inv_mul_cancel₀ hc] using this

theorem continuous_of_move {f : P3 → ℝ} {z1 C : ℝ}
    (hC : ∀ q q' : P3, z1 ≤ q.z → z1 ≤ q'.z → |f q - f q'| ≤ C * gap q q') :
    ContinuousOn (fun r : ℝ × ℝ × ℝ => f (pointAt r)) {r | z1 ≤ r.2.2} := by
  intro r hr
  have hg : Tendsto (fun r' : ℝ × ℝ × ℝ => C * gap (pointAt r') (pointAt r)) (𝓝[{r | z1 ≤ r.2.2}] r) (𝓝 0) := by
    have : Continuous fun r' : ℝ × ℝ × ℝ => C * gap (pointAt r') (pointAt r) := by
      unfold gap pointAt
      fun_prop
    have := this.tendsto r
    rw [gap_self, mul_zero] at this
    exact this.mono_left nhdsWithin_le_nhds
  rw [ContinuousWithinAt, tendsto_iff_norm_sub_tendsto_zero]
  refine squeeze_zero' (.of_forall fun _ => norm_nonneg _) ?_ hg
  filter_upwards [self_mem_nhdsWithin] with r' hr'
  exact hC _ _ hr' hr

theorem consistent_good {F : String → P3 → ℝ} {z1 : ℝ} (hcons : ∀ q : P3, z1 ≤ q.z → PrismConsistent F q)
    (hlip : ∀ field ∈ prismFieldNames, ∃ C, ∀ q q' : P3, z1 ≤ q.z → z1 ≤ q'.z → |F field q - F field q'| ≤ C * gap q q')
    (hdec : ∀ ε > 0, ∃ R, ∀ q : P3, z1 ≤ q.z → R ≤ |q.x| ∨ R ≤ |q.y| ∨ R ≤ q.z - z1 → |F "potential" q| ≤ ε) :
    ∀ field ∈ prismFieldNames, Good z1 (F field) := by
  have hpot : Nice z1 (F "potential") := by
    refine ⟨?_, fun q hq => ?_, hdec⟩
    · obtain ⟨C, hC⟩ := hlip "potential" (by simp [prismFieldNames])
      exact continuous_of_move hC
    · refine ⟨fun t => F "g_e" ⟨t, q.y, q.z⟩ / 10 ^ 5, fun t => F "g_n" ⟨q.x, t, q.z⟩ / 10 ^ 5,
        fun t => -F "g_z" ⟨q.x, q.y, t⟩ / 10 ^ 5, _, _, _, .of_forall fun t => (hcons ⟨t, q.y, q.z⟩ hq.le).g_e,
        (hcons q hq.le).g_ee.div_const _, .of_forall fun t => (hcons ⟨q.x, t, q.z⟩ hq.le).g_n,
        (hcons q hq.le).g_nn.div_const _, ?_, (hcons q hq.le).g_zz.fun_neg.div_const _, ?_⟩
      · filter_upwards [lt_mem_nhds hq] with t ht
        exact (hcons ⟨q.x, q.y, t⟩ (le_of_lt ht)).g_z
      · have := (hcons q hq.le).trace
        linarith
  have east : ∀ {a b : String}, b ∈ prismFieldNames → Good z1 (F a) → ∀ {c : ℝ}, c ≠ 0 →
      (∀ q : P3, z1 ≤ q.z → EastDeriv (F a) (c * F b q) q) → Good z1 (F b) := by
    intro a b hb ha c hc h
    obtain ⟨C, hC⟩ := hlip b hb
    exact ha.part (d := ⟨1, 0, 0⟩) (by norm_num) (by norm_num) hc (fun q hq => (h q hq).along) hC
  have north : ∀ {a b : String}, b ∈ prismFieldNames → Good z1 (F a) → ∀ {c : ℝ}, c ≠ 0 →
      (∀ q : P3, z1 ≤ q.z → NorthDeriv (F a) (c * F b q) q) → Good z1 (F b) := by
    intro a b hb ha c hc h
    obtain ⟨C, hC⟩ := hlip b hb
    exact ha.part (d := ⟨0, 1, 0⟩) (by norm_num) (by norm_num) hc (fun q hq => (h q hq).along) hC
  have up : ∀ {a b : String}, b ∈ prismFieldNames → Good z1 (F a) → ∀ {c : ℝ}, c ≠ 0 →
      (∀ q : P3, z1 ≤ q.z → UpDeriv (F a) (c * F b q) q) → Good z1 (F b) := by
    intro a b hb ha c hc h
    obtain ⟨C, hC⟩ := hlip b hb
    exact ha.part (d := ⟨0, 0, 1⟩) (by norm_num) (by norm_num) hc (fun q hq => (h q hq).along) hC
  have e5 : ∀ x : ℝ, x / 10 ^ 5 = (1 / 10 ^ 5) * x := fun x => by ring
  have e4 : ∀ x : ℝ, x / 10 ^ 4 = (1 / 10 ^ 4) * x := fun x => by ring
  have n5 : ∀ x : ℝ, -x / 10 ^ 5 = (-1 / 10 ^ 5) * x := fun x => by ring
  have n4 : ∀ x : ℝ, -x / 10 ^ 4 = (-1 / 10 ^ 4) * x := fun x => by ring
  have ge := east (a := "potential") (b := "g_e") (by simp [prismFieldNames]) hpot.good (c := 1 / 10 ^ 5) (by norm_num)
    fun q hq => by rw [← e5]; exact (hcons q hq).g_e
  have gn := north (a := "potential") (b := "g_n") (by simp [prismFieldNames]) hpot.good (c := 1 / 10 ^ 5) (by norm_num)
    fun q hq => by rw [← e5]; exact (hcons q hq).g_n
  have gz := up (a := "potential") (b := "g_z") (by simp [prismFieldNames]) hpot.good (c := -1 / 10 ^ 5) (by norm_num)
    fun q hq => by rw [← n5]; exact (hcons q hq).g_z
  intro field hf
  simp only [prismFieldNames, List.mem_cons, List.not_mem_nil, or_false] at hf
  rcases hf with rfl | rfl | rfl | rfl | rfl | rfl | rfl | rfl | rfl | rfl
  · exact hpot.good
  · exact ge
  · exact gn
  · exact gz
  · exact east (by simp [prismFieldNames]) ge (c := 1 / 10 ^ 4) (by norm_num) fun q hq => by
      rw [← e4]; exact (hcons q hq).g_ee
  · exact north (by simp [prismFieldNames]) gn (c := 1 / 10 ^ 4) (by norm_num) fun q hq => by
      rw [← e4]; exact (hcons q hq).g_nn
  · exact up (by simp [prismFieldNames]) gz (c := -1 / 10 ^ 4) (by norm_num) fun q hq => by
      rw [← n4]; exact (hcons q hq).g_zz
  · exact east (by simp [prismFieldNames]) gn (c := 1 / 10 ^ 4) (by norm_num) fun q hq => by
      rw [← e4]; exact (hcons q hq).g_ne
  · exact east (by simp [prismFieldNames]) gz (c := 1 / 10 ^ 4) (by norm_num) fun q hq => by
      rw [← e4]; exact (hcons q hq).g_ze
  · exact north (by simp [prismFieldNames]) gz (c := 1 / 10 ^ 4) (by norm_num) fun q hq => by
      rw [← e4]; exact (hcons q hq).g_zn

/-! ### Prisms and point masses -/

theorem newton_shift {field : String} {k0 : P3 → P3 → ℝ → ℝ} {f : ℝ}
    (h : pointFieldTable newtonKernels field = some (k0, f)) (q q' p : P3) (m : ℝ) :
    k0 q' p m = k0 q ⟨p.x + q.x - q'.x, p.y + q.y - q'.y, p.z + q.z - q'.z⟩ m := by
  have e : ∀ a b c : ℝ, c - a = b - (a + b - c) := fun a b c => by ring
  unfold pointFieldTable at h
  split_ifs at h
  all_goals
    simp only [Option.some.injEq, Prod.mk.injEq] at h
    obtain ⟨rfl, rfl⟩ := h
    simp only [newtonKernels, gap, ← e]

/-- The field of a mass at two points. -/
theorem newton_move {field : String} {k0 : P3 → P3 → ℝ → ℝ} {f : ℝ}
    (h : pointFieldTable newtonKernels field = some (k0, f)) {q q' p : P3} {r : ℝ} (hr : 0 < r) (hp : r ≤ gap q p)
    (hp' : r ≤ gap q' p) (m : ℝ) :
    |f * k0 q p m - f * k0 q' p m| ≤ (blur field).1 * (gravitationalConst * |m|) * gap q q' / r ^ (blur field).2 := by
  rw [newton_shift h q q']
  refine newton_near h hr hp (hp'.trans (le_of_eq ?_)) (le_of_eq ?_) m
  · unfold gap
    congr 1
    simp only
    ring
  · unfold gap
    congr 1
    simp only
    ring

theorem bodyField_move (srcs : List (Prism × ℝ)) (hord : ∀ s ∈ srcs, s.1.Ordered) {field : String}
    (hf : field ∈ prismFieldNames) {q q' : P3} {r : ℝ} (hr : 0 < r)
    (h : ∀ s ∈ srcs, ∀ x ∈ s.1.body, r ≤ gap q (pointAt x)) (h' : ∀ s ∈ srcs, ∀ x ∈ s.1.body, r ≤ gap q' (pointAt x)) :
    |bodyField srcs field q - bodyField srcs field q'| ≤
      (blur field).1 * gravitationalConst / r ^ (blur field).2 * (srcs.map fun s => |s.2| * s.1.volume).sum * gap q q' := by
  obtain ⟨k, f, hkf⟩ : ∃ k f, prismFieldTable bodyKernels field = some (k, f) := by
    simp only [prismFieldNames, List.mem_cons, List.not_mem_nil, or_false] at hf
    rcases hf with rfl | rfl | rfl | rfl | rfl | rfl | rfl | rfl | rfl | rfl <;> exact ⟨_, _, rfl⟩
  obtain ⟨k0, a, h0, -, ht, -⟩ := bodyKernels_newtonian.table hkf
  simp only [bodyField, ht]
  rw [← List.sum_map_mul_left, ← List.sum_map_mul_left, sum_map_sub']
  refine (abs_sum_le srcs _ (fun s => (blur field).1 * gravitationalConst * gap q q' / r ^ (blur field).2 *
    (|s.2| * s.1.volume)) ?_).trans (le_of_eq ?_)
  · intro s hs
    have ho := outside_of_far hr h s hs
    have ho' := outside_of_far hr h' s hs
    have hI : IntegrableOn (fun x => k0 q (pointAt x) s.2) s.1.body := h0.integrableOn_outside ho s.2
    have hI' : IntegrableOn (fun x => k0 q' (pointAt x) s.2) s.1.body := h0.integrableOn_outside ho' s.2
    have hlt := s.1.body_compact.measure_lt_top (μ := volume)
    rw [← integral_const_mul, ← integral_const_mul, ← integral_sub (hI.const_mul f) (hI'.const_mul f),
      ← Real.norm_eq_abs]
    refine (norm_setIntegral_le_of_norm_le_const (C := (blur field).1 * (gravitationalConst * |s.2|) * gap q q' /
      r ^ (blur field).2) hlt fun x hx => ?_).trans (le_of_eq ?_)
    · rw [Real.norm_eq_abs]
      exact newton_move ht hr (h s hs x hx) (h' s hs x hx) s.2
    · rw [s.1.volume_body (hord s hs)]
      ring
  · rw [List.sum_map_mul_left]
    ring

/-- Points at some height over everything in a list of compact bodies. -/
theorem above_all {A : Type*} (l : List A) (top : A → ℝ) {z1 : ℝ} (h : ∀ s ∈ l, top s < z1) :
    ∃ r > 0, ∀ s ∈ l, top s + r ≤ z1 := by
  induction l with
  | nil => exact ⟨1, one_pos, by simp⟩
  | cons s l ih =>
    obtain ⟨r, hr, h1⟩ := ih fun t ht => h t (List.mem_cons_of_mem _ ht)
    have := h s List.mem_cons_self
    refine ⟨min r (z1 - top s), lt_min hr (by linarith), fun t ht => ?_⟩
    rcases List.mem_cons.1 ht with rfl | ht
    · have := min_le_right r (z1 - top t)
      linarith
    · have := h1 t ht
      have := min_le_left r (z1 - top s)
      linarith

theorem within_all {A : Type*} (l : List A) (b : A → ℝ) : ∃ B > 0, ∀ s ∈ l, b s ≤ B := by
  induction l with
  | nil => exact ⟨1, one_pos, by simp⟩
  | cons s l ih =>
    obtain ⟨B, hB, h1⟩ := ih
    refine ⟨max B (b s), lt_max_of_lt_left hB, fun t ht => ?_⟩
    rcases List.mem_cons.1 ht with rfl | ht
    · exact le_max_right _ _
    · exact (h1 t ht).trans (le_max_left _ _)

/-- Far away from a bounded set every distance is large. -/
theorem far_gap {q p : P3} {z1 B R : ℝ} (hx : |p.x| ≤ B) (hy : |p.y| ≤ B) (hz : p.z ≤ z1)
    (h : R + B ≤ |q.x| ∨ R + B ≤ |q.y| ∨ R + B ≤ q.z - z1) : R ≤ gap q p := by
  obtain ⟨g1, g2, g3⟩ := abs_x_le_gap q p
  have hB := (abs_nonneg _).trans hx
  have a1 := abs_sub_abs_le_abs_sub q.x p.x
  have a2 := abs_sub_abs_le_abs_sub q.y p.y
  have a3 := le_abs_self (q.z - p.z)
  rcases h with h | h | h <;> linarith

theorem prisms_good (junk : Junk) {K : PrismKernels} (hK : K.Newtonian) (srcs : List (Prism × ℝ))
    (hord : ∀ s ∈ srcs, s.1.Ordered) :
    ∃ F : String → P3 → ℝ, PrismsReturn junk K srcs F ∧
      ∀ field ∈ prismFieldNames, ∀ z1, (∀ s ∈ srcs, s.1.top < z1) → Good z1 (F field) := by
  refine ⟨bodyField srcs, fun field hf mode shape obs dis hs hm ho =>
    prismGravity_body junk mode hK shape obs hs _ dis hord hm field hf ho, ?_⟩
  intro field hf z1 hz
  obtain ⟨r, hr, hab⟩ := above_all srcs (fun s => s.1.top) hz
  have far : ∀ q : P3, z1 ≤ q.z → ∀ s ∈ srcs, ∀ x ∈ s.1.body, r ≤ gap q (pointAt x) := by
    intro q hq s hs x hx
    have h1 := hab s hs
    have h2 := hx.2.2.2
    have h3 := (le_abs_self _).trans (abs_x_le_gap q (pointAt x)).2.2
    simp only [pointAt] at h3 ⊢
    linarith
  refine consistent_good (fun q hq => bodyField_consistent srcs q (outside_of_far hr (far q hq))) ?_ ?_ field hf
  · intro field hf
    exact ⟨_, fun q q' hq hq' => bodyField_move srcs hord hf hr (far q hq) (far q' hq')⟩
  · intro ε hε
    obtain ⟨B, hB, hin⟩ := within_all srcs fun s => max (max |s.1.west| |s.1.east|) (max |s.1.south| |s.1.north|)
    obtain ⟨F, hF, hbound⟩ := C133_prism_gravity junk hK srcs hord
    set S := gravitationalConst * (srcs.map fun s => |s.2| * s.1.volume).sum with hS
    refine ⟨(|S| / ε + 1) + B, fun q hq h => ?_⟩
    have hR : 0 < |S| / ε + 1 := by positivity
    have hd : ∀ s ∈ srcs, ∀ x ∈ s.1.body, |S| / ε + 1 ≤ gap q (pointAt x) := by
      intro s hs x hx
      have h1 := hin s hs
      simp only [max_le_iff] at h1
      obtain ⟨⟨b1, b2⟩, b3, b4⟩ := h1
      refine far_gap (B := B) (z1 := z1) ?_ ?_ ?_ h <;> simp only [pointAt]
      · exact abs_le.2 ⟨by linarith [hx.1.1, neg_abs_le s.1.west], by linarith [hx.1.2, le_abs_self s.1.east]⟩
      · exact abs_le.2 ⟨by linarith [hx.2.1.1, neg_abs_le s.1.south], by linarith [hx.2.1.2, le_abs_self s.1.north]⟩
      · have := hz s hs
        have := hx.2.2.2
        linarith
    have e : F "potential" q = bodyField srcs "potential" q := by
      have g1 := hF "potential" (by simp [prismFieldNames]) .serial [] [q] false rfl (by simp [Mode.Full])
        (by intro p _; exact Or.inl (by simp [everywhere]))
      have g2 := prismGravity_body junk .serial hK [] [q] rfl srcs false hord (by simp [Mode.Full]) "potential"
        (by simp [prismFieldNames]) (by intro p _; exact Or.inl (by simp [everywhere]))
      rw [g1] at g2
      simpa using g2
    rw [← e]
    refine (hbound "potential" (by simp [prismFieldNames]) q _ hR hd).trans ?_
    simp only [reach, reduceIte, one_mul, pow_one]
    rw [div_le_iff₀ hR]
    have : ε * (|S| / ε + 1) = |S| + ε := by field_simp
    rw [this]
    have := le_abs_self S
    linarith

theorem points_good (junk : Junk) {K : PointKernels} (hK : K.Newtonian) (srcs : List (P3 × ℝ)) :
    ∃ F : String → P3 → ℝ, PointsReturn junk K srcs F ∧
      ∀ field ∈ prismFieldNames, ∀ z1, (∀ s ∈ srcs, s.1.z < z1) → Good z1 (F field) := by
  refine ⟨_, pointGravity_fields junk srcs, ?_⟩
  set F : String → P3 → ℝ := fun field q => match pointFieldTable K field with
    | none => 0
    | some (k, factor) => factor * total (fun q s => k q s.1 s.2) srcs q with hF
  intro field hf z1 hz
  obtain ⟨r, hr, hab⟩ := above_all srcs (fun s => s.1.z) hz
  have far : ∀ q : P3, z1 ≤ q.z → ∀ s ∈ srcs, r ≤ gap q s.1 := by
    intro q hq s hs
    have h1 := hab s hs
    have h3 := (le_abs_self _).trans (abs_x_le_gap q s.1).2.2
    linarith
  have hne : ∀ q : P3, z1 ≤ q.z → ∀ s ∈ srcs, q ≠ s.1 := by
    intro q hq s hs e
    have := far q hq s hs
    rw [e, gap_self] at this
    linarith
  have same : ∀ {G : String → P3 → ℝ} {name : String}, name ∈ allFieldNames →
      (∀ mode shape obs, shape.prod = obs.length → mode.Full obs.length (2 * srcs.length) →
        pointGravity junk mode K (arrays shape obs) (arrays [] (srcs.map (·.1))) ⟨[], srcs.map (·.2)⟩ name
          "cartesian" = .ok ⟨shape, obs.map (G name)⟩) → G name = F name := by
    intro G name hn h
    funext q
    have g1 := h .serial [] [q] rfl (by simp [Mode.Full])
    rw [C04_point_gravity_cartesian junk .serial K [] [] [] [q] rfl srcs (by simp [Mode.Full])] at g1
    simp only [hF]
    simp only [allFieldNames, List.mem_cons, List.not_mem_nil, or_false] at hn
    rcases hn with rfl | rfl | rfl | rfl | rfl | rfl | rfl | rfl | rfl | rfl | rfl | rfl | rfl <;>
      simp [pointFieldTable] at g1 ⊢ <;> exact g1.symm
  have hcons : ∀ q : P3, z1 ≤ q.z → PrismConsistent F q := by
    intro q hq
    obtain ⟨G, h1, h2⟩ := C105_point_gravity junk K hK [] [] srcs
    have e : ∀ name ∈ allFieldNames, G name = F name := fun name hn =>
      same hn fun mode shape obs => h1 name hn mode shape obs
    obtain ⟨c1, c2, c3, c4, c5, c6, c7, c8, c9, c10, c11, c12, c13⟩ := h2 q (hne q hq)
    simp only [e "potential" (by simp [allFieldNames]), e "g_e" (by simp [allFieldNames]),
      e "g_n" (by simp [allFieldNames]), e "g_z" (by simp [allFieldNames]), e "g_ee" (by simp [allFieldNames]),
      e "g_nn" (by simp [allFieldNames]), e "g_zz" (by simp [allFieldNames]), e "g_en" (by simp [allFieldNames]),
      e "g_ez" (by simp [allFieldNames]), e "g_nz" (by simp [allFieldNames]), e "g_ne" (by simp [allFieldNames]),
      e "g_ze" (by simp [allFieldNames]), e "g_zn" (by simp [allFieldNames])] at c1 c2 c3 c4 c5 c6 c7 c8 c9 c10 c11 c12 c13
    have s1 : F "g_ne" = F "g_en" := by simp [hF, pointFieldTable]
    have s2 : F "g_ze" = F "g_ez" := by simp [hF, pointFieldTable]
    have s3 : F "g_zn" = F "g_nz" := by simp [hF, pointFieldTable]
    rw [s1] at c7
    rw [s2] at c10
    rw [s3] at c11
    exact ⟨c1, c2, c3, c4, c5, c6, c7, c8, c9, c10, c11, c12, c13⟩
  refine consistent_good hcons ?_ ?_ field hf
  · intro name hn
    obtain ⟨k, k0, f, t1, t2, hk⟩ : ∃ k k0 f, pointFieldTable K name = some (k, f) ∧
        pointFieldTable newtonKernels name = some (k0, f) ∧ ∀ q p m, q ≠ p → k q p m = k0 q p m := by
      simp only [prismFieldNames, List.mem_cons, List.not_mem_nil, or_false] at hn
      rcases hn with rfl | rfl | rfl | rfl | rfl | rfl | rfl | rfl | rfl | rfl
      · exact ⟨_, _, _, rfl, rfl, hK.pot⟩
      · exact ⟨_, _, _, rfl, rfl, hK.e⟩
      · exact ⟨_, _, _, rfl, rfl, hK.n⟩
      · exact ⟨_, _, _, rfl, rfl, hK.u⟩
      · exact ⟨_, _, _, rfl, rfl, hK.ee⟩
      · exact ⟨_, _, _, rfl, rfl, hK.nn⟩
      · exact ⟨_, _, _, rfl, rfl, hK.uu⟩
      · exact ⟨_, _, _, rfl, rfl, hK.en⟩
      · exact ⟨_, _, _, rfl, rfl, hK.eu⟩
      · exact ⟨_, _, _, rfl, rfl, hK.nu⟩
    refine ⟨(blur name).1 * gravitationalConst / r ^ (blur name).2 * (srcs.map fun s => |s.2|).sum, ?_⟩
    intro q q' hq hq'
    simp only [hF, t1, total]
    rw [← List.sum_map_mul_left, ← List.sum_map_mul_left, sum_map_sub']
    refine (abs_sum_le srcs _ (fun s => (blur name).1 * gravitationalConst * gap q q' / r ^ (blur name).2 *
      |s.2|) ?_).trans (le_of_eq ?_)
    · intro s hs
      rw [hk _ _ _ (hne q hq s hs), hk _ _ _ (hne q' hq' s hs)]
      refine (newton_move t2 hr (far q hq s hs) (far q' hq' s hs) s.2).trans (le_of_eq ?_)
      ring
    · rw [List.sum_map_mul_left]
      ring
  · intro ε hε
    obtain ⟨B, hB, hin⟩ := within_all srcs fun s => max |s.1.x| |s.1.y|
    obtain ⟨G, hG, hbound⟩ := C133_point_masses junk hK [] [] srcs
    have e := same (G := G) (name := "potential") (by simp [allFieldNames]) (hG "potential" (by simp [allFieldNames]))
    set S := gravitationalConst * (srcs.map fun s => |s.2|).sum with hS
    refine ⟨(|S| / ε + 1) + B, fun q hq h => ?_⟩
    have hR : 0 < |S| / ε + 1 := by positivity
    have hd : ∀ s ∈ srcs, |S| / ε + 1 ≤ gap q s.1 := by
      intro s hs
      have h1 := hin s hs
      simp only [max_le_iff] at h1
      exact far_gap (B := B) (z1 := z1) h1.1 h1.2 (hz s hs).le h
    rw [← e]
    refine (hbound "potential" (by simp [allFieldNames]) q _ hR hd).trans ?_
    simp only [reach, reduceIte, one_mul, pow_one]
    rw [div_le_iff₀ hR]
    have : ε * (|S| / ε + 1) = |S| + ε := by field_simp
    rw [this]
    have := le_abs_self S
    linarith

/-! ### C164 -/

/-- C164, prisms: over a plane above all the prisms, no field that `prism_gravity` returns is larger in size than the
largest size that it has on the plane. -/
theorem C164_prisms (junk : Junk) {K : PrismKernels} (hK : K.Newtonian) (srcs : List (Prism × ℝ))
    (hord : ∀ s ∈ srcs, s.1.Ordered) :
    ∃ F : String → P3 → ℝ, PrismsReturn junk K srcs F ∧
      ∀ field ∈ prismFieldNames, ∀ z1, (∀ s ∈ srcs, s.1.top < z1) → ∀ M, (∀ q : P3, q.z = z1 → |F field q| ≤ M) →
        ∀ q : P3, z1 ≤ q.z → |F field q| ≤ M := by
  obtain ⟨F, h1, h2⟩ := prisms_good junk hK srcs hord
  exact ⟨F, h1, fun field hf z1 hz M hM q hq => (h2 field hf z1 hz).apply hM q hq⟩

/-- C164, point masses: the same for `point_gravity` in Cartesian coordinates, over a plane above all the masses. -/
theorem C164_points (junk : Junk) {K : PointKernels} (hK : K.Newtonian) (srcs : List (P3 × ℝ)) :
    ∃ F : String → P3 → ℝ, PointsReturn junk K srcs F ∧
      ∀ field ∈ prismFieldNames, ∀ z1, (∀ s ∈ srcs, s.1.z < z1) → ∀ M, (∀ q : P3, q.z = z1 → |F field q| ≤ M) →
        ∀ q : P3, z1 ≤ q.z → |F field q| ≤ M := by
  obtain ⟨F, h1, h2⟩ := points_good junk hK srcs
  exact ⟨F, h1, fun field hf z1 hz M hM q hq => (h2 field hf z1 hz).apply hM q hq⟩

/-! ### Examples -/

example : ∃ F : String → P3 → ℝ, PrismsReturn (fun _ _ => 0) bodyKernels [(⟨-50, 50, -50, 50, -50, 50⟩, 2670)] F ∧
    ∀ M, (∀ q : P3, q.z = 60 → |F "g_zz" q| ≤ M) → |F "g_zz" ⟨0, 0, 1000⟩| ≤ M := by
  obtain ⟨F, h1, h2⟩ := C164_prisms (fun _ _ => 0) bodyKernels_newtonian
    [(⟨-50, 50, -50, 50, -50, 50⟩, 2670)] (by simp [Prism.Ordered])
  exact ⟨F, h1, fun M hM => h2 "g_zz" (by simp [prismFieldNames]) 60 (by norm_num) M hM ⟨0, 0, 1000⟩ (by norm_num)⟩

example : ∃ F : String → P3 → ℝ, PointsReturn (fun _ _ => 0) newtonKernels [(⟨0, 0, 0⟩, 1000), (⟨5, 5, -3⟩, -70)] F ∧
    ∀ M, (∀ q : P3, q.z = 10 → |F "g_z" q| ≤ M) → |F "g_z" ⟨0, 0, 1000⟩| ≤ M := by
  obtain ⟨F, h1, h2⟩ := C164_points (fun _ _ => 0) newtonKernels_newtonian [(⟨0, 0, 0⟩, 1000), (⟨5, 5, -3⟩, -70)]
  exact ⟨F, h1, fun M hM => h2 "g_z" (by simp [prismFieldNames]) 10 (by norm_num) M hM ⟨0, 0, 1000⟩ (by norm_num)⟩

end Verif.Forward
