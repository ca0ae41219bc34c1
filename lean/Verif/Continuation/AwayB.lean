import Verif.Continuation.Away
import Verif.Forward.PropsS

/-! The fields of prisms, point masses, dipoles and magnetized prisms away from the sources, for C167. -/

namespace Verif.Continuation
open Filter Topology
open Verif.Forward Verif.Distance Verif.EqSources
open Verif.Engine (Mode)

theorem away_pos {T : Set E3} {r s : ℝ} (h : s ≤ r) : Away T r ⊆ Away T s := fun _ hq t ht => h.trans (hq t ht)

theorem away_sub {T T' : Set E3} {r : ℝ} (h : T' ⊆ T) : Away T r ⊆ Away T' r := fun _ hq t ht => hq t (h ht)

theorem gap_east (q : P3) (t : ℝ) : gap ⟨t, q.y, q.z⟩ q = |t - q.x| := by
  simp [gap, Real.sqrt_sq_eq_abs]

theorem gap_north (q : P3) (t : ℝ) : gap ⟨q.x, t, q.z⟩ q = |t - q.y| := by
  simp [gap, Real.sqrt_sq_eq_abs]

theorem gap_up (q : P3) (t : ℝ) : gap ⟨q.x, q.y, t⟩ q = |t - q.z| := by
  simp [gap, Real.sqrt_sq_eq_abs]

theorem near_eventually (a : ℝ) {r : ℝ} (hr : 0 < r) : ∀ᶠ t in 𝓝 a, |t - a| ≤ r - r / 2 := by
  have : ∀ᶠ t in 𝓝 a, |t - a| < r / 2 := by
    have h := Metric.ball_mem_nhds a (half_pos hr)
    filter_upwards [h] with t ht
    rwa [Metric.mem_ball, Real.dist_eq] at ht
  filter_upwards [this] with t ht
  linarith

theorem continuousOn_of_lip {W : Set P3} {f : P3 → ℝ} {C : ℝ} (h : ∀ q ∈ W, ∀ q' ∈ W, |f q - f q'| ≤ C * gap q q') :
    ContinuousOn (fun x : E3 => f (pt x)) {x | pt x ∈ W} := by
  intro x hx
  have hg : Tendsto (fun y : E3 => C * dist y x) (𝓝[{x | pt x ∈ W}] x) (𝓝 0) := by
    have : Continuous fun y : E3 => C * dist y x := by fun_prop
    have := this.tendsto x
    rw [dist_self, mul_zero] at this
    exact this.mono_left nhdsWithin_le_nhds
  rw [ContinuousWithinAt, tendsto_iff_norm_sub_tendsto_zero]
  refine squeeze_zero' (.of_forall fun _ => norm_nonneg _) ?_ hg
  filter_upwards [self_mem_nhdsWithin] with y hy
  have := h _ hy _ hx
  rwa [← dist_gap, cartPos_pt, cartPos_pt] at this

theorem consistent_off {F : String → P3 → ℝ} {T : Set E3} (hcons : ∀ r > 0, ∀ q ∈ Away T r, PrismConsistent F q)
    (hlip : ∀ field ∈ prismFieldNames, ∀ r > 0, ∃ C, ∀ q ∈ Away T r, ∀ q' ∈ Away T r,
      |F field q - F field q'| ≤ C * gap q q')
    (hdec : ∀ r > 0, ∀ ε > 0, ∃ R, ∀ q ∈ Away T r, R ≤ ‖cartPos q‖ → |F "potential" q| ≤ ε) :
    ∀ field ∈ prismFieldNames, Off T (F field) := by
  have hpot : Off T (F "potential") := by
    intro r hr ε hε
    refine ⟨_, ⟨?_, fun q hq => ?_, hdec r hr⟩, fun q _ => by rw [sub_self, abs_zero]; exact hε.le⟩
    · obtain ⟨C, hC⟩ := hlip "potential" (by simp [prismFieldNames]) r hr
      exact continuousOn_of_lip hC
    · have cn : ∀ q', gap q' q ≤ r - r / 2 → PrismConsistent F q' := fun q' h =>
        hcons (r / 2) (half_pos hr) q' (away_near hq h)
      refine ⟨fun t => F "g_e" ⟨t, q.y, q.z⟩ / 10 ^ 5, fun t => F "g_n" ⟨q.x, t, q.z⟩ / 10 ^ 5,
        fun t => -F "g_z" ⟨q.x, q.y, t⟩ / 10 ^ 5, _, _, _, ?_,
        (hcons r hr q hq).g_ee.div_const _, ?_,
        (hcons r hr q hq).g_nn.div_const _, ?_, (hcons r hr q hq).g_zz.fun_neg.div_const _, ?_⟩
      · filter_upwards [near_eventually q.x hr] with t ht
        exact (cn ⟨t, q.y, q.z⟩ (by rw [gap_east]; exact ht)).g_e
      · filter_upwards [near_eventually q.y hr] with t ht
        exact (cn ⟨q.x, t, q.z⟩ (by rw [gap_north]; exact ht)).g_n
      · filter_upwards [near_eventually q.z hr] with t ht
        exact (cn ⟨q.x, q.y, t⟩ (by rw [gap_up]; exact ht)).g_z
      · have := (hcons r hr q hq).trace
        linarith
  have east : ∀ {a b : String}, b ∈ prismFieldNames → Off T (F a) → ∀ {c : ℝ}, c ≠ 0 →
      (∀ q, PrismConsistent F q → EastDeriv (F a) (c * F b q) q) → Off T (F b) := by
    intro a b hb ha c hc h
    exact ha.deriv (d := ⟨1, 0, 0⟩) (by norm_num) hc (fun r hr q hq => (h q (hcons r hr q hq)).along) (hlip b hb)
  have north : ∀ {a b : String}, b ∈ prismFieldNames → Off T (F a) → ∀ {c : ℝ}, c ≠ 0 →
      (∀ q, PrismConsistent F q → NorthDeriv (F a) (c * F b q) q) → Off T (F b) := by
    intro a b hb ha c hc h
    exact ha.deriv (d := ⟨0, 1, 0⟩) (by norm_num) hc (fun r hr q hq => (h q (hcons r hr q hq)).along) (hlip b hb)
  have up : ∀ {a b : String}, b ∈ prismFieldNames → Off T (F a) → ∀ {c : ℝ}, c ≠ 0 →
      (∀ q, PrismConsistent F q → UpDeriv (F a) (c * F b q) q) → Off T (F b) := by
    intro a b hb ha c hc h
    exact ha.deriv (d := ⟨0, 0, 1⟩) (by norm_num) hc (fun r hr q hq => (h q (hcons r hr q hq)).along) (hlip b hb)
  have e5 : ∀ x : ℝ, x / 10 ^ 5 = (1 / 10 ^ 5) * x := fun x => by ring
  have e4 : ∀ x : ℝ, x / 10 ^ 4 = (1 / 10 ^ 4) * x := fun x => by ring
  have n5 : ∀ x : ℝ, -x / 10 ^ 5 = (-1 / 10 ^ 5) * x := fun x => by ring
  have n4 : ∀ x : ℝ, -x / 10 ^ 4 = (-1 / 10 ^ 4) * x := fun x => by ring
  have ge := east (a := "potential") (b := "g_e") (by simp [prismFieldNames]) hpot (c := 1 / 10 ^ 5) (by norm_num)
    fun q hq => by rw [← e5]; exact hq.g_e
  have gn := north (a := "potential") (b := "g_n") (by simp [prismFieldNames]) hpot (c := 1 / 10 ^ 5) (by norm_num)
    fun q hq => by rw [← e5]; exact hq.g_n
  have gz := up (a := "potential") (b := "g_z") (by simp [prismFieldNames]) hpot (c := -1 / 10 ^ 5) (by norm_num)
    fun q hq => by rw [← n5]; exact hq.g_z
  intro field hf
  simp only [prismFieldNames, List.mem_cons, List.not_mem_nil, or_false] at hf
  rcases hf with rfl | rfl | rfl | rfl | rfl | rfl | rfl | rfl | rfl | rfl
  · exact hpot
  · exact ge
  · exact gn
  · exact gz
  · exact east (by simp [prismFieldNames]) ge (c := 1 / 10 ^ 4) (by norm_num) fun q hq => by
      rw [← e4]; exact hq.g_ee
  · exact north (by simp [prismFieldNames]) gn (c := 1 / 10 ^ 4) (by norm_num) fun q hq => by
      rw [← e4]; exact hq.g_nn
  · exact up (by simp [prismFieldNames]) gz (c := -1 / 10 ^ 4) (by norm_num) fun q hq => by
      rw [← n4]; exact hq.g_zz
  · exact east (by simp [prismFieldNames]) gn (c := 1 / 10 ^ 4) (by norm_num) fun q hq => by
      rw [← e4]; exact hq.g_ne
  · exact east (by simp [prismFieldNames]) gz (c := 1 / 10 ^ 4) (by norm_num) fun q hq => by
      rw [← e4]; exact hq.g_ze
  · exact north (by simp [prismFieldNames]) gz (c := 1 / 10 ^ 4) (by norm_num) fun q hq => by
      rw [← e4]; exact hq.g_zn

/-! ### Sources -/

/-- The points of the prisms of a list. -/
def prismPoints {A : Type*} (srcs : List (Prism × A)) : Set E3 :=
  ⋃ s ∈ {s | s ∈ srcs}, (fun x : ℝ × ℝ × ℝ => cartPos (pointAt x)) '' s.1.body

/-- The points of a list. -/
def listPoints {A : Type*} (srcs : List (P3 × A)) : Set E3 := ⋃ s ∈ {s | s ∈ srcs}, {cartPos s.1}

theorem mem_prismPoints {A : Type*} {srcs : List (Prism × A)} {t : E3} :
    t ∈ prismPoints srcs ↔ ∃ s ∈ srcs, ∃ x ∈ s.1.body, cartPos (pointAt x) = t := by
  simp [prismPoints]

theorem mem_listPoints {A : Type*} {srcs : List (P3 × A)} {t : E3} :
    t ∈ listPoints srcs ↔ ∃ s ∈ srcs, cartPos s.1 = t := by
  simp only [listPoints, Set.mem_iUnion, Set.mem_singleton_iff, exists_prop, eq_comm]
  rfl

theorem prismPoints_compact {A : Type*} (srcs : List (Prism × A)) : IsCompact (prismPoints srcs) :=
  (List.finite_toSet srcs).isCompact_biUnion fun s _ => s.1.body_compact.image (by unfold cartPos pointAt; fun_prop)

theorem listPoints_compact {A : Type*} (srcs : List (P3 × A)) : IsCompact (listPoints srcs) :=
  (List.finite_toSet srcs).isCompact_biUnion fun _ _ => isCompact_singleton

theorem away_prisms {A : Type*} {srcs : List (Prism × A)} {r : ℝ} {q : P3} (h : q ∈ Away (prismPoints srcs) r) :
    ∀ s ∈ srcs, ∀ x ∈ s.1.body, r ≤ gap q (pointAt x) := by
  intro s hs x hx
  rw [← dist_gap]
  exact h _ (mem_prismPoints.2 ⟨s, hs, x, hx, rfl⟩)

theorem away_points {A : Type*} {srcs : List (P3 × A)} {r : ℝ} {q : P3} (h : q ∈ Away (listPoints srcs) r) :
    ∀ s ∈ srcs, r ≤ gap q s.1 := by
  intro s hs
  rw [← dist_gap]
  exact h _ (mem_listPoints.2 ⟨s, hs, rfl⟩)

/-- Far away from bounded sources. -/
theorem far_away {T : Set E3} (hT : IsCompact T) : ∃ B, ∀ R, ∀ q : P3, R + B ≤ ‖cartPos q‖ → q ∈ Away T R := by
  obtain ⟨B, hB⟩ := hT.isBounded.exists_norm_le
  refine ⟨B, fun R q hq t ht => ?_⟩
  have h1 := hB t ht
  have h2 := norm_sub_norm_le (cartPos q) t
  rw [dist_eq_norm]
  linarith

/-! ### Prisms -/

theorem prisms_off (srcs : List (Prism × ℝ)) (hord : ∀ s ∈ srcs, s.1.Ordered) {field : String}
    (hf : field ∈ prismFieldNames) : Off (prismPoints srcs) (bodyField srcs field) := by
  refine consistent_off (fun r hr q hq => bodyField_consistent srcs q (outside_of_far hr (away_prisms hq))) ?_ ?_ field hf
  · intro field hf r hr
    exact ⟨_, fun q hq q' hq' => bodyField_move srcs hord hf hr (away_prisms hq) (away_prisms hq')⟩
  · intro r _ ε hε
    obtain ⟨B, hB⟩ := far_away (prismPoints_compact srcs)
    obtain ⟨F, hF, hbound⟩ := C133_prism_gravity (fun _ _ => 0) bodyKernels_newtonian srcs hord
    set S := gravitationalConst * (srcs.map fun s => |s.2| * s.1.volume).sum with hS
    refine ⟨(|S| / ε + 1) + B, fun q _ h => ?_⟩
    have hR : 0 < |S| / ε + 1 := by positivity
    have hd := away_prisms (hB _ q h)
    have e : F "potential" q = bodyField srcs "potential" q := by
      have g1 := hF "potential" (by simp [prismFieldNames]) .serial [] [q] false rfl (by simp [Mode.Full])
        (by intro p _; exact Or.inl (by simp [everywhere]))
      have g2 := prismGravity_body (fun _ _ => 0) .serial bodyKernels_newtonian [] [q] rfl srcs false hord
        (by simp [Mode.Full]) "potential"
        (by simp [prismFieldNames]) (by intro p _; exact Or.inl (by simp [everywhere]))
      have g3 := g1.symm.trans g2
      simpa using g3
    rw [← e]
    refine (hbound "potential" (by simp [prismFieldNames]) q _ hR hd).trans ?_
    simp only [reach, reduceIte, one_mul, pow_one]
    rw [div_le_iff₀ hR]
    have : ε * (|S| / ε + 1) = |S| + ε := by field_simp
    rw [this]
    have := le_abs_self S
    linarith

/-! ### Point masses -/

/-- What `point_gravity` returns in Cartesian coordinates. -/
noncomputable def pointField (K : PointKernels) (srcs : List (P3 × ℝ)) (field : String) (q : P3) : ℝ :=
  match pointFieldTable K field with
  | none => 0
  | some (k, factor) => factor * total (fun q s => k q s.1 s.2) srcs q

theorem points_off {K : PointKernels} (hK : K.Newtonian) (srcs : List (P3 × ℝ)) {field : String}
    (hf : field ∈ prismFieldNames) : Off (listPoints srcs) (pointField K srcs field) := by
  set F : String → P3 → ℝ := pointField K srcs with hF0
  have hF : ∀ field q, F field q = match pointFieldTable K field with
    | none => 0
    | some (k, factor) => factor * total (fun q s => k q s.1 s.2) srcs q := fun _ _ => rfl
  have hne : ∀ r > 0, ∀ q ∈ Away (listPoints srcs) r, ∀ s ∈ srcs, q ≠ s.1 := by
    intro r hr q hq s hs e
    have := away_points hq s hs
    rw [e, gap_self] at this
    linarith
  set junk : Junk := fun _ _ => 0
  have same : ∀ {G : String → P3 → ℝ} {name : String}, name ∈ allFieldNames →
      (∀ mode shape obs, shape.prod = obs.length → mode.Full obs.length (2 * srcs.length) →
        pointGravity junk mode K (arrays shape obs) (arrays [] (srcs.map (·.1))) ⟨[], srcs.map (·.2)⟩ name
          "cartesian" = .ok ⟨shape, obs.map (G name)⟩) → G name = F name := by
    intro G name hn h
    funext q
    have g1 := h .serial [] [q] rfl (by simp [Mode.Full])
    rw [C04_point_gravity_cartesian junk .serial K [] [] [] [q] rfl srcs (by simp [Mode.Full])] at g1
    simp only [hF]
    simp only [allFieldNames, List.mem_cons, List.not_mem_nil, or_false] at hn
    rcases hn with rfl | rfl | rfl | rfl | rfl | rfl | rfl | rfl | rfl | rfl | rfl | rfl | rfl <;>
      simp [pointFieldTable] at g1 ⊢ <;> exact g1.symm
  have hcons : ∀ r > 0, ∀ q ∈ Away (listPoints srcs) r, PrismConsistent F q := by
    intro r hr q hq
    obtain ⟨G, h1, h2⟩ := C105_point_gravity junk K hK [] [] srcs
    have e : ∀ name ∈ allFieldNames, G name = F name := fun name hn =>
      same hn fun mode shape obs => h1 name hn mode shape obs
    obtain ⟨c1, c2, c3, c4, c5, c6, c7, c8, c9, c10, c11, c12, c13⟩ := h2 q (hne r hr q hq)
    simp only [e "potential" (by simp [allFieldNames]), e "g_e" (by simp [allFieldNames]),
      e "g_n" (by simp [allFieldNames]), e "g_z" (by simp [allFieldNames]), e "g_ee" (by simp [allFieldNames]),
      e "g_nn" (by simp [allFieldNames]), e "g_zz" (by simp [allFieldNames]), e "g_en" (by simp [allFieldNames]),
      e "g_ez" (by simp [allFieldNames]), e "g_nz" (by simp [allFieldNames]), e "g_ne" (by simp [allFieldNames]),
      e "g_ze" (by simp [allFieldNames]), e "g_zn" (by simp [allFieldNames])] at c1 c2 c3 c4 c5 c6 c7 c8 c9 c10 c11 c12 c13
    have s1 : F "g_ne" = F "g_en" := by funext q; simp [hF, pointFieldTable]
    have s2 : F "g_ze" = F "g_ez" := by funext q; simp [hF, pointFieldTable]
    have s3 : F "g_zn" = F "g_nz" := by funext q; simp [hF, pointFieldTable]
    rw [s1] at c7
    rw [s2] at c10
    rw [s3] at c11
    exact ⟨c1, c2, c3, c4, c5, c6, c7, c8, c9, c10, c11, c12, c13⟩
  refine consistent_off hcons ?_ ?_ field hf
  · intro name hn r hr
    obtain ⟨k, k0, f, t1, t2, hk⟩ : ∃ k k0 f, pointFieldTable K name = some (k, f) ∧
        pointFieldTable newtonKernels name = some (k0, f) ∧ ∀ q p m, q ≠ p → k q p m = k0 q p m := by
      simp only [prismFieldNames, List.mem_cons, List.not_mem_nil, or_false] at hn
      rcases hn with rfl | rfl | rfl | rfl | rfl | rfl | rfl | rfl | rfl | rfl
      · exact ⟨_, _, _, rfl, rfl, hK.pot⟩
      · exact ⟨_, _, _, rfl, rfl, hK.e⟩
      · exact ⟨_, _, _, rfl, rfl, hK.n⟩
      · exact ⟨_, _, _, rfl, rfl, hK.u⟩
      · exact ⟨_, _, _, rfl, rfl, hK.ee⟩
      · exact ⟨_, _, _, rfl, rfl, hK.nn⟩
      · exact ⟨_, _, _, rfl, rfl, hK.uu⟩
      · exact ⟨_, _, _, rfl, rfl, hK.en⟩
      · exact ⟨_, _, _, rfl, rfl, hK.eu⟩
      · exact ⟨_, _, _, rfl, rfl, hK.nu⟩
    refine ⟨(blur name).1 * gravitationalConst / r ^ (blur name).2 * (srcs.map fun s => |s.2|).sum, ?_⟩
    intro q hq q' hq'
    simp only [hF, t1, total]
    rw [← List.sum_map_mul_left, ← List.sum_map_mul_left, sum_map_sub']
    refine (abs_sum_le srcs _ (fun s => (blur name).1 * gravitationalConst * gap q q' / r ^ (blur name).2 *
      |s.2|) ?_).trans (le_of_eq ?_)
    · intro s hs
      rw [hk _ _ _ (hne r hr q hq s hs), hk _ _ _ (hne r hr q' hq' s hs)]
      refine (newton_move t2 hr (away_points hq s hs) (away_points hq' s hs) s.2).trans (le_of_eq ?_)
      ring
    · rw [List.sum_map_mul_left]
      ring
  · intro r _ ε hε
    obtain ⟨B, hB⟩ := far_away (listPoints_compact srcs)
    obtain ⟨G, hG, hbound⟩ := C133_point_masses junk hK [] [] srcs
    have e := same (G := G) (name := "potential") (by simp [allFieldNames]) (hG "potential" (by simp [allFieldNames]))
    set S := gravitationalConst * (srcs.map fun s => |s.2|).sum with hS
    refine ⟨(|S| / ε + 1) + B, fun q _ h => ?_⟩
    have hR : 0 < |S| / ε + 1 := by positivity
    have hd := away_points (hB _ q h)
    rw [← e]
    refine (hbound "potential" (by simp [allFieldNames]) q _ hR hd).trans ?_
    simp only [reach, reduceIte, one_mul, pow_one]
    rw [div_le_iff₀ hR]
    have : ε * (|S| / ε + 1) = |S| + ε := by field_simp
    rw [this]
    have := le_abs_self S
    linarith

end Verif.Continuation
