import Verif.Tesseroid.PropsE

/-! C91: the sign of the attraction. -/

namespace Verif.Tesseroid
open Verif.Distance Verif.Forward Verif.Engine

theorem cospsi_le_one (a b c : ℝ) :
    Real.sin a * Real.sin b + Real.cos a * Real.cos b * Real.cos c ≤ 1 := by
  have h1 := Real.sin_sq_add_cos_sq a
  have h2 := Real.sin_sq_add_cos_sq b
  have h3 := Real.neg_one_le_cos c
  have h4 := Real.cos_le_one c
  have h5 : Real.cos a * Real.cos b * Real.cos c ≤ |Real.cos a| * |Real.cos b| := by
    calc _ ≤ |Real.cos a * Real.cos b * Real.cos c| := le_abs_self _
      _ = |Real.cos a| * |Real.cos b| * |Real.cos c| := by rw [abs_mul, abs_mul]
      _ ≤ |Real.cos a| * |Real.cos b| * 1 :=
        mul_le_mul_of_nonneg_left (abs_le.2 ⟨h3, h4⟩) (by positivity)
      _ = _ := mul_one _
  have h6 : Real.sin a * Real.sin b ≤ |Real.sin a| * |Real.sin b| := by
    rw [← abs_mul]; exact le_abs_self _
  have e1 := sq_abs (Real.sin a)
  have e2 := sq_abs (Real.sin b)
  have e3 := sq_abs (Real.cos a)
  have e4 := sq_abs (Real.cos b)
  nlinarith [sq_nonneg (|Real.sin a| - |Real.sin b|), sq_nonneg (|Real.cos a| - |Real.cos b|)]

theorem gravitationalConst_pos : 0 < gravitationalConst := by unfold gravitationalConst; positivity

/-- contribution of a mass to a field (with sign and units) is not negative: always for the potential,
and for points that are not below the mass in the case of the attraction -/
theorem eval_nonneg (field : String) (kc : SphKernel × ℝ) (htab : tessFieldTable field = some kc)
    (q p : P3) (m : ℝ) (hm : 0 ≤ m) (hz : field = "g_z" → 0 ≤ p.z ∧ p.z ≤ q.z) :
    0 ≤ kc.2 * (PointKernel.spherical kc.1).eval q p m := by
  have hG := gravitationalConst_pos
  unfold tessFieldTable at htab
  split_ifs at htab with h1 h2
  · simp at htab; subst htab
    simp only [PointKernel.eval, potentialSpherical, one_mul]
    have : 0 ≤ (distanceSphericalCore (radians q.x) (Real.cos (radians q.y)) (Real.sin (radians q.y)) q.z
      (radians p.x) (Real.cos (radians p.y)) (Real.sin (radians p.y)) p.z).1 := Real.sqrt_nonneg _
    positivity
  · simp at htab; subst htab
    obtain ⟨z1, z2⟩ := hz h2
    simp only [PointKernel.eval, gravityUSpherical]
    have hd : 0 ≤ (distanceSphericalCore (radians q.x) (Real.cos (radians q.y)) (Real.sin (radians q.y)) q.z
      (radians p.x) (Real.cos (radians p.y)) (Real.sin (radians p.y)) p.z).1 := Real.sqrt_nonneg _
    have hc : (distanceSphericalCore (radians q.x) (Real.cos (radians q.y)) (Real.sin (radians q.y)) q.z
      (radians p.x) (Real.cos (radians p.y)) (Real.sin (radians p.y)) p.z).2.1 ≤ 1 :=
      cospsi_le_one _ _ _
    generalize (distanceSphericalCore (radians q.x) (Real.cos (radians q.y)) (Real.sin (radians q.y)) q.z
      (radians p.x) (Real.cos (radians p.y)) (Real.sin (radians p.y)) p.z) = r at hd hc
    have h3 : 0 ≤ q.z - p.z * r.2.1 := by nlinarith
    have : -10 ^ 5 * (m * (-gravitationalConst * (q.z - p.z * r.2.1) / r.1 ^ 3)) =
        10 ^ 5 * (m * (gravitationalConst * (q.z - p.z * r.2.1) / r.1 ^ 3)) := by ring
    rw [this]
    positivity

/-- strictly positive for a positive mass below the point -/
theorem eval_pos (field : String) (kc : SphKernel × ℝ) (htab : tessFieldTable field = some kc)
    (q p : P3) (m : ℝ) (hm : 0 < m) (z1 : 0 ≤ p.z) (z2 : p.z < q.z) :
    0 < kc.2 * (PointKernel.spherical kc.1).eval q p m := by
  have hG := gravitationalConst_pos
  have hc : (distanceSphericalCore (radians q.x) (Real.cos (radians q.y)) (Real.sin (radians q.y)) q.z
    (radians p.x) (Real.cos (radians p.y)) (Real.sin (radians p.y)) p.z).2.1 ≤ 1 :=
    cospsi_le_one _ _ _
  have hd : 0 < (distanceSphericalCore (radians q.x) (Real.cos (radians q.y)) (Real.sin (radians q.y)) q.z
      (radians p.x) (Real.cos (radians p.y)) (Real.sin (radians p.y)) p.z).1 := by
    refine Real.sqrt_pos.2 ?_
    have h1 : 0 < (q.z - p.z) ^ 2 := by
      have : 0 < q.z - p.z := by linarith
      positivity
    have h2 : 0 ≤ 2 * q.z * p.z * (1 - (distanceSphericalCore (radians q.x) (Real.cos (radians q.y))
      (Real.sin (radians q.y)) q.z (radians p.x) (Real.cos (radians p.y)) (Real.sin (radians p.y)) p.z).2.1) := by
      apply mul_nonneg
      · have : 0 ≤ q.z := by linarith
        positivity
      · linarith
    exact add_pos_of_pos_of_nonneg h1 h2
  unfold tessFieldTable at htab
  split_ifs at htab with h1 h2
  · simp at htab; subst htab
    simp only [PointKernel.eval, potentialSpherical, one_mul]
    positivity
  · simp at htab; subst htab
    simp only [PointKernel.eval, gravityUSpherical]
    generalize (distanceSphericalCore (radians q.x) (Real.cos (radians q.y)) (Real.sin (radians q.y)) q.z
      (radians p.x) (Real.cos (radians p.y)) (Real.sin (radians p.y)) p.z) = r at hd hc
    have h3 : 0 < q.z - p.z * r.2.1 := by nlinarith
    have : -10 ^ 5 * (m * (-gravitationalConst * (q.z - p.z * r.2.1) / r.1 ^ 3)) =
        10 ^ 5 * (m * (gravitationalConst * (q.z - p.z * r.2.1) / r.1 ^ 3)) := by ring
    rw [this]
    positivity

/-- boundaries in order and not equal -/
def Tess.Strict (t : Tess) : Prop := t.w < t.e ∧ t.s < t.n ∧ t.bottom < t.top

theorem splitPieces_strict {t p : Tess} {a b c : ℕ} (ha : 1 ≤ a) (hb : 1 ≤ b) (hc : 1 ≤ c)
    (ht : t.Strict) (hp : p ∈ splitPieces t a b c) : p.Strict := by
  unfold splitPieces at hp
  simp only [List.mem_flatMap, List.mem_map] at hp
  obtain ⟨i, -, j, -, k, -, rfl⟩ := hp
  have pa : (0 : ℝ) < a := by exact_mod_cast ha
  have pb : (0 : ℝ) < b := by exact_mod_cast hb
  have pc : (0 : ℝ) < c := by exact_mod_cast hc
  have h1 : 0 < (t.e - t.w) / a := div_pos (by linarith [ht.1]) pa
  have h2 : 0 < (t.n - t.s) / b := div_pos (by linarith [ht.2.1]) pb
  have h3 : 0 < (t.top - t.bottom) / c := div_pos (by linarith [ht.2.2]) pc
  refine ⟨?_, ?_, ?_⟩ <;> simp only <;> linarith

theorem pieces_strict (field : String) (radial : Bool) (q : P3) (t : Tess) (ht : t.Strict) (p : List Tess)
    (hp : tessPieces (tessParams field radial q) t = .ok p) :
    p ≠ [] ∧ ∀ x ∈ p, x.Strict ∧ t.s ≤ x.s ∧ x.n ≤ t.n ∧ t.bottom ≤ x.bottom ∧ x.top ≤ t.top := by
  have ho : t.Ordered := ⟨ht.1.le, ht.2.1.le, ht.2.2.le⟩
  rcases adaptive_cases (tessParams field radial q) stackSize_pos (fun _ => t) (fun _ => t) t with
    ⟨n, small, h1, h2⟩ | ⟨e, -, h2⟩
  · have h3 := hp
    rw [h2] at h3
    injection h3 with h3
    obtain ⟨a1, -, -, a4⟩ := C16_partition _ stackSize_pos _ _ _ t ho n small h1
    have hs := (adList_invariant (tessParams field radial q) Tess.Strict (fun t => prodF id id id t) (by
      intro x a b c hx hd _
      obtain ⟨p1, p2, p3, -⟩ := divisions_ok_pos hd
      exact ⟨fun p hp => splitPieces_strict p1 p2 p3 hx hp, splitPieces_sum id id id x a b c p1 p2 p3⟩)
      _ [t] [] p (by simpa using ht) (by simp) (by simp)
      (by rw [tessPieces_spec _ stackSize_pos, hp])).1
    constructor
    · intro h0
      rw [h0] at h3
      have := a1 t.w t.s t.bottom
      rw [show (List.range n).map small = [] from h3] at this
      rw [if_pos ⟨⟨le_refl _, ht.1⟩, ⟨le_refl _, ht.2.1⟩, le_refl _, ht.2.2⟩] at this
      simp at this
    · intro x hx
      have hx' := hx
      rw [← h3] at hx'
      obtain ⟨i, hi, rfl⟩ := List.mem_map.1 hx'
      obtain ⟨-, -, -, b4, b5, b6, b7⟩ := a4 i (List.mem_range.1 hi)
      exact ⟨(hs _ hx).1, b4, b5, b6, b7⟩
  · rw [h2] at hp; simp at hp

theorem pieceEffect_pos (field : String) (kc : SphKernel × ℝ) (htab : tessFieldTable field = some kc)
    (q : P3) (t : Tess) (ht : t.Strict) (hs : -90 ≤ t.s) (hn : t.n ≤ 90) (hb : 0 ≤ t.bottom) (ρ : ℝ)
    (hρ : 0 < ρ) :
    ((field = "g_z" → t.top ≤ q.z) → 0 ≤ kc.2 * pieceEffect kc.1 q t fun _ => ρ) ∧
    (t.top ≤ q.z → 0 < kc.2 * pieceEffect kc.1 q t fun _ => ρ) := by
  have hin := C17_masses_inside t ht.1 hs ht.2.1 hn hb ht.2.2 (fun _ => ρ) (fun _ _ _ => hρ)
  unfold pieceEffect total
  rw [← List.sum_map_mul_left]
  constructor
  · intro hz
    apply List.sum_nonneg
    intro x hx
    obtain ⟨s, hs, rfl⟩ := List.mem_map.1 hx
    obtain ⟨-, -, h3, h4⟩ := hin s hs
    exact eval_nonneg field kc htab q s.1 s.2 h4.le
      (fun h => ⟨by linarith [h3.1], by linarith [h3.2, hz h]⟩)
  · intro hz
    apply List.sum_pos
    · intro x hx
      obtain ⟨s, hs, rfl⟩ := List.mem_map.1 hx
      obtain ⟨-, -, h3, h4⟩ := hin s hs
      exact eval_pos field kc htab q s.1 s.2 h4 (by linarith [h3.1]) (by linarith [h3.2])
    · simp [pointMasses]

theorem tessEffect_pos (field : String) (kc : SphKernel × ℝ) (htab : tessFieldTable field = some kc)
    (radial : Bool) (q : P3) (t : Tess) (ht : t.Strict) (hs : -90 ≤ t.s) (hn : t.n ≤ 90)
    (hb : 0 ≤ t.bottom) (ρ : ℝ) (hρ : 0 < ρ) (p : List Tess)
    (hp : tessPieces (tessParams field radial q) t = .ok p) :
    ((field = "g_z" → t.top ≤ q.z) → 0 ≤ kc.2 * tessEffect field radial kc.1 q (t, ρ)) ∧
    (t.top ≤ q.z → 0 < kc.2 * tessEffect field radial kc.1 q (t, ρ)) := by
  rw [tessEffect_eq, usedPieces_ok hp, ← List.sum_map_mul_left]
  obtain ⟨hne, hst⟩ := pieces_strict field radial q t ht p hp
  have hpart : ∀ x ∈ p, x.Strict ∧ -90 ≤ x.s ∧ x.n ≤ 90 ∧ 0 ≤ x.bottom ∧ x.top ≤ t.top := by
    intro x hx
    obtain ⟨b1, b4, b5, b6, b7⟩ := hst x hx
    exact ⟨b1, by linarith, by linarith, by linarith, b7⟩
  constructor
  · intro hz
    apply List.sum_nonneg
    intro x hx
    obtain ⟨s, hs, rfl⟩ := List.mem_map.1 hx
    obtain ⟨c1, c2, c3, c4, c5⟩ := hpart s hs
    exact (pieceEffect_pos field kc htab q s c1 c2 c3 c4 ρ hρ).1 fun h => c5.trans (hz h)
  · intro hz
    apply List.sum_pos
    · intro x hx
      obtain ⟨s, hs, rfl⟩ := List.mem_map.1 hx
      obtain ⟨c1, c2, c3, c4, c5⟩ := hpart s hs
      exact (pieceEffect_pos field kc htab q s c1 c2 c3 c4 ρ hρ).2 (c5.trans hz)
    · simpa using hne

/-- what a valid tesseroid that is kept looks like when it is used -/
theorem used_strict {s : Tess × ℝ} (hr : s.1.ValidRange) (hl : s.1.ValidLon)
    (hk : keepTess (usedSrc false s) = true) : (normLon s.1).Strict ∧ s.2 ≠ 0 := by
  have h := (normLon_valid_iff s.1).1 hl
  have hn := normLon_range s.1 hr
  unfold keepTess nullTess usedSrc at hk
  rw [usedTess_false] at hk
  simp only [Bool.not_eq_true', Bool.or_eq_false_iff, decide_eq_false_iff_not, not_or] at hk
  obtain ⟨⟨h1, h2, h3⟩, h4⟩ := hk
  exact ⟨⟨lt_of_le_of_ne h.1 h1, lt_of_le_of_ne hn.sn h2, lt_of_le_of_ne hn.bt h3⟩, h4⟩

theorem checked {field : String} {radial : Bool} {obs : List P3} {srcs : List (Tess × ℝ)}
    (h : Returns field radial false obs srcs) : ∀ s ∈ srcs, s.1.ValidRange ∧ s.1.ValidLon := by
  rcases h.1 with h0 | h0
  · simp at h0
  · exact fun s hs => h0.1 s.1 (List.mem_map.2 ⟨s, hs, rfl⟩)

/-- C91: tesseroids whose densities are not negative never have a negative potential, and the attraction
(`g_z`, positive downwards) is not negative at points that are not below the top of any of them. -/
theorem C91_not_negative (field : String) (hf : field = "potential" ∨ field = "g_z")
    (junk : Junk) (m : Mode) (M : Minimizer) (fuel : ℕ)
    (stack0 small0 : ℕ → Tess) (shape : List ℕ) (obs : List P3)
    (hshape : shape.prod = obs.length) (srcs : List (Tess × ℝ)) (radial : Bool)
    (hm : m.Full obs.length (2 * (100000 * srcs.length))) (r : NdArray)
    (hρ : ∀ s ∈ srcs, 0 ≤ s.2)
    (hz : field = "g_z" → ∀ q ∈ obs, ∀ s ∈ srcs, s.1.top ≤ q.z)
    (h : tesseroidGravity junk m M fuel stack0 small0 (arrays shape obs) (srcs.map (·.1))
        (.values (srcs.map (·.2))) field radial false = some (.ok r)) :
    ∀ v ∈ r.data, 0 ≤ v := by
  obtain ⟨kc, htab⟩ : ∃ kc, tessFieldTable field = some kc := by
    rcases hf with rfl | rfl
    · exact ⟨_, rfl⟩
    · exact ⟨_, rfl⟩
  obtain ⟨hret, rfl⟩ := returns_of_ok htab hshape hm h
  intro v hv
  obtain ⟨q, hq, rfl⟩ := List.mem_map.1 hv
  unfold total
  rw [← List.sum_map_mul_left]
  apply List.sum_nonneg
  intro x hx
  obtain ⟨s, hs, rfl⟩ := List.mem_map.1 hx
  obtain ⟨p, hp⟩ := hret.2 q hq s hs
  obtain ⟨hs1, hs2⟩ := List.mem_filter.1 hs
  obtain ⟨s0, hs0, rfl⟩ := List.mem_map.1 hs1
  obtain ⟨g1, g2⟩ := checked hret s0 hs0
  obtain ⟨k1, k2⟩ := used_strict g1 g2 hs2
  have hn := normLon_range s0.1 g1
  obtain ⟨-, -, -, htop⟩ := normLon_same s0.1
  have hu : usedSrc false s0 = (normLon s0.1, s0.2) := by unfold usedSrc; rw [usedTess_false]
  rw [hu] at hp ⊢
  exact (tessEffect_pos field kc htab radial q _ k1 hn.lat_s.1 hn.lat_n.2 hn.radii.1 s0.2
    (lt_of_le_of_ne (hρ s0 hs0) (Ne.symm k2)) p hp).1 fun h => htop.le.trans (hz h q hq s0 hs0)

/-- C91: and they are positive at every point that is not below the top of any of them, as soon as one
of them has a positive density and a volume. -/
theorem C91_positive (field : String) (hf : field = "potential" ∨ field = "g_z")
    (junk : Junk) (m : Mode) (M : Minimizer) (fuel : ℕ)
    (stack0 small0 : ℕ → Tess) (shape : List ℕ) (obs : List P3)
    (hshape : shape.prod = obs.length) (srcs : List (Tess × ℝ)) (radial : Bool)
    (hm : m.Full obs.length (2 * (100000 * srcs.length))) (r : NdArray)
    (hρ : ∀ s ∈ srcs, 0 ≤ s.2) (hz : ∀ q ∈ obs, ∀ s ∈ srcs, s.1.top ≤ q.z)
    (body : Tess × ℝ) (hb : body ∈ srcs) (h1 : 0 < body.2) (h2 : 0 < eastEnd body.1.w body.1.e - body.1.w)
    (h3 : body.1.s < body.1.n) (h4 : body.1.bottom < body.1.top)
    (h : tesseroidGravity junk m M fuel stack0 small0 (arrays shape obs) (srcs.map (·.1))
        (.values (srcs.map (·.2))) field radial false = some (.ok r)) :
    ∀ v ∈ r.data, 0 < v := by
  obtain ⟨kc, htab⟩ : ∃ kc, tessFieldTable field = some kc := by
    rcases hf with rfl | rfl
    · exact ⟨_, rfl⟩
    · exact ⟨_, rfl⟩
  obtain ⟨hret, rfl⟩ := returns_of_ok htab hshape hm h
  intro v hv
  obtain ⟨q, hq, rfl⟩ := List.mem_map.1 hv
  unfold total
  rw [← List.sum_map_mul_left]
  apply List.sum_pos
  · intro x hx
    obtain ⟨s, hs, rfl⟩ := List.mem_map.1 hx
    obtain ⟨p, hp⟩ := hret.2 q hq s hs
    obtain ⟨hs1, hs2⟩ := List.mem_filter.1 hs
    obtain ⟨s0, hs0, rfl⟩ := List.mem_map.1 hs1
    obtain ⟨g1, g2⟩ := checked hret s0 hs0
    obtain ⟨k1, k2⟩ := used_strict g1 g2 hs2
    have hn := normLon_range s0.1 g1
    obtain ⟨-, -, -, htop⟩ := normLon_same s0.1
    have hu : usedSrc false s0 = (normLon s0.1, s0.2) := by unfold usedSrc; rw [usedTess_false]
    rw [hu] at hp ⊢
    exact (tessEffect_pos field kc htab radial q _ k1 hn.lat_s.1 hn.lat_n.2 hn.radii.1 s0.2
      (lt_of_le_of_ne (hρ s0 hs0) (Ne.symm k2)) p hp).2 (htop.le.trans (hz q hq s0 hs0))
  · have hmem : usedSrc false body ∈ (srcs.map (usedSrc false)).filter keepTess := by
      refine List.mem_filter.2 ⟨List.mem_map.2 ⟨body, hb, rfl⟩, ?_⟩
      have hw := normLon_width body.1 (checked hret body hb).2
      obtain ⟨e1, e2, e3, e4⟩ := normLon_same body.1
      unfold keepTess nullTess usedSrc
      rw [usedTess_false]
      simp only [Bool.not_eq_true', Bool.or_eq_false_iff, decide_eq_false_iff_not, not_or, e1, e2, e3, e4]
      exact ⟨⟨fun h => by rw [h] at hw; linarith, h3.ne, h4.ne⟩, h1.ne'⟩
    intro h0
    have := List.map_eq_nil_iff.1 h0
    rw [this] at hmem
    simp at hmem

/-- C91 for `point_gravity` in spherical coordinates. -/
theorem C91_point_gravity (field : String) (hf : field = "potential" ∨ field = "g_z")
    (junk : Junk) (mode : Mode) (K : PointKernels) (shape ps ms : List ℕ)
    (obs : List P3) (hshape : shape.prod = obs.length) (srcs : List (P3 × ℝ))
    (hm : mode.Full obs.length (2 * srcs.length)) (hmass : ∀ s ∈ srcs, 0 ≤ s.2)
    (hz : field = "g_z" → ∀ q ∈ obs, ∀ s ∈ srcs, 0 ≤ s.1.z ∧ s.1.z ≤ q.z) :
    ∃ r, pointGravity junk mode K (arrays shape obs) (arrays ps (srcs.map (·.1)))
        ⟨ms, srcs.map (·.2)⟩ field "spherical" = .ok r ∧ ∀ v ∈ r.data, 0 ≤ v := by
  obtain ⟨kc, htab⟩ : ∃ kc, tessFieldTable field = some kc := by
    rcases hf with rfl | rfl
    · exact ⟨_, rfl⟩
    · exact ⟨_, rfl⟩
  refine ⟨_, pointGravity_tab field kc htab junk mode K shape ps ms obs hshape srcs hm, ?_⟩
  intro v hv
  obtain ⟨q, hq, rfl⟩ := List.mem_map.1 hv
  unfold total
  rw [← List.sum_map_mul_left]
  apply List.sum_nonneg
  intro x hx
  obtain ⟨s, hs, rfl⟩ := List.mem_map.1 hx
  exact eval_nonneg field kc htab q s.1 s.2 (hmass s hs) fun h => hz h q hq s hs

/-! ### non-vacuity -/

/-- the body of `far_call_returns`, rotated by 359 degrees, with the boundaries written as in [0, 360) -/
example (junk : Junk) (M : Minimizer) (stack0 small0 : ℕ → Tess) :
    ∃ r, tesseroidGravity junk .serial M 0 stack0 small0 (arrays [1] [⟨0, 0, 1000⟩])
        [⟨-1, 1, -1, 1, 1, 2⟩] (.values [1]) "g_z" true false = some (.ok r) ∧
      tesseroidGravity junk .serial M 0 stack0 small0 (arrays [1] [⟨-1, 0, 1000⟩])
        [⟨358, 0, -1, 1, 1, 2⟩] (.values [1]) "g_z" true false = some (.ok r) := by
  obtain ⟨r, hr⟩ := far_call_returns junk M stack0 small0
  refine ⟨r, hr, ?_⟩
  have e1 : eastEnd (358 : ℝ) 0 = 360 := by
    unfold eastEnd
    rw [if_neg (by norm_num), show ⌈((358 : ℝ) - 0) / 360⌉ = 1 by
      rw [Int.ceil_eq_iff]; constructor <;> norm_num]
    norm_num
  have e2 : eastEnd (-1 : ℝ) 1 = 1 := by unfold eastEnd; rw [if_pos (by norm_num)]
  refine C90_rotation "g_z" (Or.inr rfl) junk junk .serial .serial M M 0 0 stack0 small0 stack0 small0 [1]
    [⟨0, 0, 1000⟩] [⟨-1, 0, 1000⟩] (by simp) [(⟨-1, 1, -1, 1, 1, 2⟩, 1)] [(⟨358, 0, -1, 1, 1, 2⟩, 1)] true 359
    (.cons ⟨⟨-1, by norm_num⟩, rfl, rfl⟩ .nil)
    (.cons ⟨⟨⟨0, by norm_num⟩, ⟨-1, by norm_num⟩, by simp only [e1, e2]; norm_num, rfl, rfl, rfl, rfl⟩, rfl⟩ .nil)
    ?_ trivial trivial r hr
  intro s hs
  rw [List.mem_singleton] at hs
  subst hs
  refine ⟨⟨by norm_num, by norm_num⟩, ⟨by norm_num, by norm_num⟩, Or.inr ⟨by norm_num, -2, 0, ?_, ?_, by norm_num⟩⟩
  · exact ⟨by norm_num, by norm_num, -1, by norm_num⟩
  · exact ⟨by norm_num, by norm_num, 0, by norm_num⟩

/-- the two mirror images of the call: the body is its own image in the meridian 0 and in the equator -/
example (junk : Junk) (M : Minimizer) (stack0 small0 : ℕ → Tess) :
    ∃ r, tesseroidGravity junk .serial M 0 stack0 small0 (arrays [1] [⟨0, 0, 1000⟩])
        [⟨-1, 1, -1, 1, 1, 2⟩] (.values [1]) "g_z" true false = some (.ok r) ∧
      Mirrored 0 ⟨-1, 1, -1, 1, 1, 2⟩ ⟨-1, 1, -1, 1, 1, 2⟩ ∧ MirroredPoint 0 ⟨0, 0, 1000⟩ ⟨0, 0, 1000⟩ ∧
      ∀ v ∈ r.data, 0 < v := by
  obtain ⟨r, hr⟩ := far_call_returns junk M stack0 small0
  refine ⟨r, hr, ⟨⟨0, by norm_num⟩, ⟨0, by norm_num⟩, rfl, rfl, rfl, rfl, rfl⟩, ⟨⟨0, by norm_num⟩, rfl, rfl⟩, ?_⟩
  refine C91_positive "g_z" (Or.inr rfl) junk .serial M 0 stack0 small0 [1] [⟨0, 0, 1000⟩] (by simp)
    [(⟨-1, 1, -1, 1, 1, 2⟩, 1)] true trivial r ?_ ?_ (⟨-1, 1, -1, 1, 1, 2⟩, 1) (by simp) (by norm_num) ?_
    (by norm_num) (by norm_num) hr
  · simp
  · intro q hq s hs
    rw [List.mem_singleton] at hq hs
    subst hq hs
    norm_num
  · rw [eastEnd_of_le (by norm_num)]; norm_num

/-- a call that returns for points twice as far from a body twice as large -/
example (junk : Junk) (M : Minimizer) (stack0 small0 : ℕ → Tess) :
    ∃ r, tesseroidGravity junk .serial M 0 stack0 small0 (arrays [1] [⟨0, 0, 2000⟩])
        [⟨-1, 1, -1, 1, 2, 4⟩] (.values [1]) "g_z" true false = some (.ok r) := by
  obtain ⟨r, hr⟩ := far_call_returns junk M stack0 small0
  have := C90_scale "g_z" (Or.inr rfl) junk junk .serial .serial M M 0 0 stack0 small0 stack0 small0 [1]
    [⟨0, 0, 1000⟩] (by simp) [(⟨-1, 1, -1, 1, 1, 2⟩, 1)] true false 2 (by norm_num) trivial trivial r hr
  norm_num at this
  exact ⟨_, this⟩

example : List.Forall₂ (RotatedPoint 0) [⟨10, 20, 30⟩] [⟨370, 20, 30⟩] :=
  .cons ⟨⟨1, by norm_num⟩, rfl, rfl⟩ .nil

end Verif.Tesseroid
