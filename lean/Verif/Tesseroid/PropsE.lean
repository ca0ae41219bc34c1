import Verif.Tesseroid.Symmetry
import Verif.Tesseroid.PropsD

/-! C90: symmetries of the fields of tesseroids and of point masses in spherical coordinates. -/

namespace Verif.Tesseroid
open Verif.Distance Verif.Forward Verif.Engine

theorem nullTess_shift (β : ℝ) (t : Tess) : nullTess (t.shift β) = nullTess t := by
  unfold nullTess Tess.shift; simp

theorem nullTess_mirror (β : ℝ) (t : Tess) : nullTess (t.mirror β) = nullTess t := by
  unfold nullTess Tess.mirror
  simp [eq_comm]

theorem nullTess_flip (t : Tess) : nullTess t.flip = nullTess t := by
  unfold nullTess Tess.flip
  simp [eq_comm]

theorem nullTess_scale (c : ℝ) (hc : 0 < c) (t : Tess) : nullTess (t.scale c) = nullTess t := by
  unfold nullTess Tess.scale
  simp [hc.ne']

/-- relation between the tesseroids that are used -/
def ShiftRel (α : ℝ) (s s' : Tess × ℝ) : Prop :=
  ∃ β, SameLon β α ∧ s'.1 = s.1.shift β ∧ s'.2 = s.2

theorem shiftRel_turns {α β : ℝ} {q q' : P3} (hq : RotatedPoint α q q') (hβ : SameLon β α) :
    ∃ k : ℤ, q'.x = q.x + β + 360 * k := by
  obtain ⟨⟨k, hk⟩, -⟩ := hq
  obtain ⟨l, hl⟩ := hβ
  exact ⟨k - l, by rw [hk, hl]; push_cast; ring⟩

theorem rotated_call (field : String) (kc : SphKernel × ℝ) (htab : tessFieldTable field = some kc)
    (junk junk' : Junk) (m m' : Mode) (M M' : Minimizer) (fuel fuel' : ℕ)
    (stack0 small0 stack1 small1 : ℕ → Tess) (shape : List ℕ) (obs obs' : List P3)
    (hshape : shape.prod = obs.length) (srcs srcs' : List (Tess × ℝ)) (radial dis : Bool) (α : ℝ)
    (hobs : List.Forall₂ (RotatedPoint α) obs obs')
    (hsrc : List.Forall₂ (ShiftRel α) (srcs.map (usedSrc dis)) (srcs'.map (usedSrc dis)))
    (hc : ChecksPass dis obs (srcs.map (·.1)) → ChecksPass dis obs' (srcs'.map (·.1)))
    (hm : m.Full obs.length (2 * (100000 * srcs.length)))
    (hm' : m'.Full obs'.length (2 * (100000 * srcs'.length))) (r : NdArray)
    (h : tesseroidGravity junk m M fuel stack0 small0 (arrays shape obs) (srcs.map (·.1))
        (.values (srcs.map (·.2))) field radial dis = some (.ok r)) :
    tesseroidGravity junk' m' M' fuel' stack1 small1 (arrays shape obs') (srcs'.map (·.1))
        (.values (srcs'.map (·.2))) field radial dis = some (.ok r) := by
  obtain ⟨hret, rfl⟩ := returns_of_ok htab hshape hm h
  have hk : ∀ s s', ShiftRel α s s' → keepTess s' = keepTess s := by
    rintro s s' ⟨β, -, h1, h2⟩
    unfold keepTess
    rw [h1, h2, nullTess_shift]
  have hret' : Returns field radial dis obs' srcs' := by
    refine sym_pieces field radial dis hk ?_ hobs hsrc hret (hc hret.1)
    rintro q q' s s' p hq ⟨β, hβ, h1, -⟩ hp
    obtain ⟨k, hx⟩ := shiftRel_turns hq hβ
    rw [h1]
    exact ⟨_, pieces_map field radial q q' (Tess.shift β)
      (divisions_shift field radial q q' hq.2.1 hq.2.2 β k hx)
      (fun t a b c _ _ _ => splitPieces_shift β t a b c) s.1 p hp⟩
  have hlen : shape.prod = obs'.length := by rw [hshape, hobs.length_eq]
  rw [(tesseroidGravity_form field kc htab junk' m' M' fuel' stack1 small1 shape obs' hlen srcs'
    radial dis hm').1 hret']
  rw [sym_values 1 kc.2 field radial dis kc.1 hk ?_ hobs hsrc hret hret']
  · simp
  rintro q q' s s' p p' hq ⟨β, hβ, h1, h2⟩ hp hp'
  obtain ⟨k, hx⟩ := shiftRel_turns hq hβ
  rw [one_mul, tessEffect_eq, tessEffect_eq, usedPieces_ok hp, usedPieces_ok hp', h2]
  rw [h1] at hp'
  exact pieces_sum field radial q q' (Tess.shift β) _ _
    (divisions_shift field radial q q' hq.2.1 hq.2.2 β k hx)
    (fun t a b c _ _ _ _ _ => .of_eq (splitPieces_shift β t a b c))
    (fun t => pieceEffect_shift field kc htab q q' hq.2.1 hq.2.2 β k hx t _) s.1 p p' hp hp'

theorem rotated_used {α : ℝ} {t t' : Tess} (h : Rotated α t t') (hv : t.ValidLon) (hv' : t'.ValidLon) :
    ∃ β, SameLon β α ∧ normLon t' = (normLon t).shift β := by
  obtain ⟨⟨k, hk⟩, -, hw, h1, h2, h3, h4⟩ := h
  obtain ⟨a, ha⟩ := normLon_turns t
  obtain ⟨b, hb⟩ := normLon_turns t'
  have w1 := normLon_width t hv
  have w2 := normLon_width t' hv'
  obtain ⟨c1, c2, c3, c4⟩ := normLon_same t
  obtain ⟨d1, d2, d3, d4⟩ := normLon_same t'
  refine ⟨(normLon t').w - (normLon t).w, ⟨k + b - a, ?_⟩, ?_⟩
  · rw [ha, hb, hk]; push_cast; ring
  · unfold Tess.shift
    ext <;> simp only
    · ring
    · linarith
    · rw [d1, c1, h1]
    · rw [d2, c2, h2]
    · rw [d3, c3, h3]
    · rw [d4, c4, h4]

/-- a rotation does not move a point into a body -/
theorem conflict_shift {α β : ℝ} {q q' : P3} (hq : RotatedPoint α q q') (hβ : SameLon β α) (t : Tess)
    (h1 : -180 ≤ t.w) (h2 : t.e ≤ 360) (h3 : -180 ≤ (t.shift β).w) (h4 : (t.shift β).e ≤ 360)
    (h : conflict q' (t.shift β)) : conflict q t := by
  rw [conflict_iff _ _ h3 h4] at h
  rw [conflict_iff _ _ h1 h2]
  obtain ⟨l, hx⟩ := shiftRel_turns hq hβ
  obtain ⟨⟨k, hk1, hk2⟩, hy, hz⟩ := h
  refine ⟨⟨k + l, ?_, ?_⟩, ?_, ?_⟩
  · simp only [Tess.shift, hx] at hk1; push_cast; linarith
  · simp only [Tess.shift, hx] at hk2; push_cast; linarith
  · rw [← hq.2.1]; exact hy
  · rw [← hq.2.2]; exact hz

/-- C90: the fields of tesseroids do not depend on the origin of the longitudes: if the computation
points and the bodies are rotated together by any angle about the polar axis, with longitudes written
in any accepted way (any number of turns for the points, boundaries in [-180, 360] for the bodies), the
call returns the same array. -/
theorem C90_rotation (field : String) (hf : field = "potential" ∨ field = "g_z")
    (junk junk' : Junk) (m m' : Mode) (M M' : Minimizer) (fuel fuel' : ℕ)
    (stack0 small0 stack1 small1 : ℕ → Tess) (shape : List ℕ) (obs obs' : List P3)
    (hshape : shape.prod = obs.length) (srcs srcs' : List (Tess × ℝ)) (radial : Bool) (α : ℝ)
    (hobs : List.Forall₂ (RotatedPoint α) obs obs')
    (hsrc : List.Forall₂ (fun s s' => Rotated α s.1 s'.1 ∧ s'.2 = s.2) srcs srcs')
    (hvalid : ∀ s ∈ srcs', (-180 ≤ s.1.w ∧ s.1.w ≤ 360) ∧ (-180 ≤ s.1.e ∧ s.1.e ≤ 360) ∧ s.1.ValidLon)
    (hm : m.Full obs.length (2 * (100000 * srcs.length)))
    (hm' : m'.Full obs'.length (2 * (100000 * srcs'.length))) (r : NdArray)
    (h : tesseroidGravity junk m M fuel stack0 small0 (arrays shape obs) (srcs.map (·.1))
        (.values (srcs.map (·.2))) field radial false = some (.ok r)) :
    tesseroidGravity junk' m' M' fuel' stack1 small1 (arrays shape obs') (srcs'.map (·.1))
        (.values (srcs'.map (·.2))) field radial false = some (.ok r) := by
  obtain ⟨kc, htab⟩ : ∃ kc, tessFieldTable field = some kc := by
    rcases hf with rfl | rfl
    · exact ⟨_, rfl⟩
    · exact ⟨_, rfl⟩
  have hret := (returns_of_ok htab hshape hm h).1
  have hcheck : (∀ t ∈ srcs.map (·.1), t.ValidRange ∧ t.ValidLon) ∧
      ¬ ∃ q ∈ obs, ∃ t ∈ (srcs.map (·.1)).map (usedTess false), conflict q t := by
    rcases hret.1 with h0 | h0
    · simp at h0
    · exact h0
  have hpair : List.Forall₂ (fun s s' : Tess × ℝ => Rotated α s.1 s'.1 ∧ s'.2 = s.2 ∧ s.1.ValidRange ∧
      s.1.ValidLon ∧ s'.1.ValidRange ∧ s'.1.ValidLon ∧ s ∈ srcs) srcs srcs' := by
    rw [List.forall₂_iff_get] at hsrc ⊢
    refine ⟨hsrc.1, fun i h1 h2 => ?_⟩
    obtain ⟨ha, hb⟩ := hsrc.2 i h1 h2
    have hv := hvalid _ (List.get_mem srcs' ⟨i, h2⟩)
    have hu := hcheck.1 (srcs.get ⟨i, h1⟩).1 (List.mem_map.2 ⟨_, List.get_mem srcs ⟨i, h1⟩, rfl⟩)
    obtain ⟨b1, b2, b3, b4⟩ := ha.same
    have g := hu.1
    refine ⟨ha, hb, hu.1, hu.2, ⟨?_, ?_, ?_, ?_, ?_, hv.1, hv.2.1⟩, hv.2.2, List.get_mem srcs ⟨i, h1⟩⟩
    · rw [b1]; exact g.lat_s
    · rw [b2]; exact g.lat_n
    · rw [b1, b2]; exact g.sn
    · rw [b3, b4]; exact g.radii
    · rw [b3, b4]; exact g.bt
  refine rotated_call field kc htab junk junk' m m' M M' fuel fuel' stack0 small0 stack1 small1 shape obs
    obs' hshape srcs srcs' radial false α hobs ?_ ?_ hm hm' r h
  · rw [List.forall₂_map_left_iff, List.forall₂_map_right_iff]
    refine hpair.imp fun s s' ⟨ha, hb, _, hv, _, hv', _⟩ => ?_
    obtain ⟨β, hβ, hn⟩ := rotated_used ha hv hv'
    exact ⟨β, hβ, by simpa [usedSrc, usedTess_false] using hn, hb⟩
  · intro _
    right
    constructor
    · intro t ht
      obtain ⟨s', hs', rfl⟩ := List.mem_map.1 ht
      obtain ⟨s, -, ha⟩ := forall2_mem hpair s' hs'
      exact ⟨ha.2.2.2.2.1, ha.2.2.2.2.2.1⟩
    · rintro ⟨q', hq', t, ht, hcon⟩
      rw [List.map_map] at ht
      obtain ⟨s', hs', rfl⟩ := List.mem_map.1 ht
      obtain ⟨q, hq, hqr⟩ := forall2_mem hobs q' hq'
      obtain ⟨s, -, ha, hb, hr, hv, hr', hv', hs⟩ := forall2_mem hpair s' hs'
      obtain ⟨β, hβ, hn⟩ := rotated_used ha hv hv'
      simp only [Function.comp_apply, usedTess_false] at hcon
      have g1 := normLon_range _ hr
      have g2 := normLon_range _ hr'
      rw [hn] at hcon g2
      refine hcheck.2 ⟨q, hq, normLon s.1, ?_, conflict_shift hqr hβ (normLon s.1) g1.lon_w.1 g1.lon_e.2
        g2.lon_w.1 g2.lon_e.2 hcon⟩
      rw [List.map_map]
      exact List.mem_map.2 ⟨s, hs, by simp [usedTess_false]⟩

/-- C90: the same with the checks disabled, for boundaries that are all moved by the same angle. -/
theorem C90_rotation_unchecked (field : String) (hf : field = "potential" ∨ field = "g_z")
    (junk junk' : Junk) (m m' : Mode) (M M' : Minimizer) (fuel fuel' : ℕ)
    (stack0 small0 stack1 small1 : ℕ → Tess) (shape : List ℕ) (obs : List P3)
    (hshape : shape.prod = obs.length) (srcs : List (Tess × ℝ)) (radial : Bool) (α : ℝ)
    (hm : m.Full obs.length (2 * (100000 * srcs.length)))
    (hm' : m'.Full obs.length (2 * (100000 * srcs.length))) (r : NdArray)
    (h : tesseroidGravity junk m M fuel stack0 small0 (arrays shape obs) (srcs.map (·.1))
        (.values (srcs.map (·.2))) field radial true = some (.ok r)) :
    tesseroidGravity junk' m' M' fuel' stack1 small1
        (arrays shape (obs.map fun q => ⟨q.x + α, q.y, q.z⟩))
        (srcs.map fun s => { s.1 with w := s.1.w + α, e := s.1.e + α })
        (.values (srcs.map (·.2))) field radial true = some (.ok r) := by
  obtain ⟨kc, htab⟩ : ∃ kc, tessFieldTable field = some kc := by
    rcases hf with rfl | rfl
    · exact ⟨_, rfl⟩
    · exact ⟨_, rfl⟩
  have := rotated_call field kc htab junk junk' m m' M M' fuel fuel' stack0 small0 stack1 small1 shape obs
    (obs.map fun q => ⟨q.x + α, q.y, q.z⟩) hshape srcs (srcs.map fun s => (s.1.shift α, s.2)) radial true α
    ?_ ?_ (fun _ => Or.inl rfl) hm (by simpa using hm') r h
  · simpa [List.map_map, Function.comp_def, Tess.shift] using this
  · rw [List.forall₂_map_right_iff, List.forall₂_same]
    exact fun q _ => ⟨⟨0, by simp⟩, rfl, rfl⟩
  · rw [List.map_map, List.forall₂_map_left_iff, List.forall₂_map_right_iff, List.forall₂_same]
    exact fun s _ => ⟨α, ⟨0, by simp⟩, by simp [usedSrc, usedTess_true], rfl⟩

/-- C90: a computation point may be given with any number of complete turns added to its longitude. -/
theorem C90_turns (field : String) (hf : field = "potential" ∨ field = "g_z")
    (junk junk' : Junk) (m m' : Mode) (M M' : Minimizer) (fuel fuel' : ℕ)
    (stack0 small0 stack1 small1 : ℕ → Tess) (shape : List ℕ) (obs obs' : List P3)
    (hshape : shape.prod = obs.length) (srcs : List (Tess × ℝ)) (radial : Bool)
    (hobs : List.Forall₂ (RotatedPoint 0) obs obs')
    (hm : m.Full obs.length (2 * (100000 * srcs.length)))
    (hm' : m'.Full obs'.length (2 * (100000 * srcs.length))) (r : NdArray)
    (h : tesseroidGravity junk m M fuel stack0 small0 (arrays shape obs) (srcs.map (·.1))
        (.values (srcs.map (·.2))) field radial false = some (.ok r)) :
    tesseroidGravity junk' m' M' fuel' stack1 small1 (arrays shape obs') (srcs.map (·.1))
        (.values (srcs.map (·.2))) field radial false = some (.ok r) := by
  obtain ⟨kc, htab⟩ : ∃ kc, tessFieldTable field = some kc := by
    rcases hf with rfl | rfl
    · exact ⟨_, rfl⟩
    · exact ⟨_, rfl⟩
  have hret := (returns_of_ok htab hshape hm h).1
  have hcheck : (∀ t ∈ srcs.map (·.1), t.ValidRange ∧ t.ValidLon) := by
    rcases hret.1 with h0 | h0
    · simp at h0
    · exact h0.1
  refine C90_rotation field hf junk junk' m m' M M' fuel fuel' stack0 small0 stack1 small1 shape obs obs'
    hshape srcs srcs radial 0 hobs ?_ ?_ hm hm' r h
  · rw [List.forall₂_same]
    exact fun s _ => ⟨⟨⟨0, by simp⟩, ⟨0, by simp⟩, rfl, rfl, rfl, rfl, rfl⟩, rfl⟩
  · intro s hs
    have := hcheck s.1 (List.mem_map.2 ⟨s, hs, rfl⟩)
    exact ⟨this.1.lon_w, this.1.lon_e, this.2⟩

/-! ### scale -/

theorem usedTess_scale (dis : Bool) (c : ℝ) (t : Tess) :
    usedTess dis (t.scale c) = (usedTess dis t).scale c := by
  cases dis
  · rw [usedTess_false]
    unfold normLon
    have : ((t.scale c).w > (t.scale c).e) = (t.w > t.e) := rfl
    simp only [this]
    split_ifs <;> rfl
  · rw [usedTess_true]; rfl

/-- C90: if every radius is multiplied by `c > 0`, with the densities unchanged, the potential is
multiplied by `c²` and the attraction by `c`. With or without the checks. -/
theorem C90_scale (field : String) (hf : field = "potential" ∨ field = "g_z")
    (junk junk' : Junk) (m m' : Mode) (M M' : Minimizer) (fuel fuel' : ℕ)
    (stack0 small0 stack1 small1 : ℕ → Tess) (shape : List ℕ) (obs : List P3)
    (hshape : shape.prod = obs.length) (srcs : List (Tess × ℝ)) (radial dis : Bool) (c : ℝ) (hc : 0 < c)
    (hm : m.Full obs.length (2 * (100000 * srcs.length)))
    (hm' : m'.Full obs.length (2 * (100000 * srcs.length))) (r : NdArray)
    (h : tesseroidGravity junk m M fuel stack0 small0 (arrays shape obs) (srcs.map (·.1))
        (.values (srcs.map (·.2))) field radial dis = some (.ok r)) :
    tesseroidGravity junk' m' M' fuel' stack1 small1
        (arrays shape (obs.map fun q => ⟨q.x, q.y, c * q.z⟩))
        (srcs.map fun s => { s.1 with bottom := c * s.1.bottom, top := c * s.1.top })
        (.values (srcs.map (·.2))) field radial dis =
      some (.ok ⟨shape, r.data.map fun v => (if field = "potential" then c ^ 2 else c) * v⟩) := by
  obtain ⟨kc, htab⟩ : ∃ kc, tessFieldTable field = some kc := by
    rcases hf with rfl | rfl
    · exact ⟨_, rfl⟩
    · exact ⟨_, rfl⟩
  obtain ⟨hret, rfl⟩ := returns_of_ok htab hshape hm h
  let R : Tess × ℝ → Tess × ℝ → Prop := fun s s' => s'.1 = s.1.scale c ∧ s'.2 = s.2
  let Rq : P3 → P3 → Prop := fun q q' => q' = ⟨q.x, q.y, c * q.z⟩
  have hobs : List.Forall₂ Rq obs (obs.map fun q => ⟨q.x, q.y, c * q.z⟩) := by
    rw [List.forall₂_map_right_iff, List.forall₂_same]
    exact fun q _ => rfl
  have hsrc : List.Forall₂ R (srcs.map (usedSrc dis))
      ((srcs.map fun s => (s.1.scale c, s.2)).map (usedSrc dis)) := by
    rw [List.map_map, List.forall₂_map_left_iff, List.forall₂_map_right_iff, List.forall₂_same]
    exact fun s _ => ⟨by simp [usedSrc, usedTess_scale], rfl⟩
  have hk : ∀ s s', R s s' → keepTess s' = keepTess s := by
    rintro s s' ⟨h1, h2⟩
    unfold keepTess
    rw [h1, h2, nullTess_scale c hc]
  have hchk : ChecksPass dis (obs.map fun q => ⟨q.x, q.y, c * q.z⟩)
      ((srcs.map fun s => (s.1.scale c, s.2)).map (·.1)) := by
    rcases hret.1 with h0 | ⟨h1, h2⟩
    · exact Or.inl h0
    · refine Or.inr ⟨?_, ?_⟩
      · intro t ht
        rw [List.map_map] at ht
        obtain ⟨s, hs, rfl⟩ := List.mem_map.1 ht
        obtain ⟨g, gl⟩ := h1 s.1 (List.mem_map.2 ⟨s, hs, rfl⟩)
        refine ⟨⟨g.lat_s, g.lat_n, g.sn, ?_, ?_, g.lon_w, g.lon_e⟩, gl⟩
        · exact ⟨mul_nonneg hc.le g.radii.1, mul_nonneg hc.le g.radii.2⟩
        · exact mul_le_mul_of_nonneg_left g.bt hc.le
      · rintro ⟨q, hq, t, ht, hcon⟩
        obtain ⟨q0, hq0, rfl⟩ := List.mem_map.1 hq
        rw [List.map_map, List.map_map] at ht
        obtain ⟨s, hs, rfl⟩ := List.mem_map.1 ht
        refine h2 ⟨q0, hq0, usedTess dis s.1, ?_, ?_⟩
        · rw [List.map_map]; exact List.mem_map.2 ⟨s, hs, rfl⟩
        · simp only [Function.comp_apply, usedTess_scale] at hcon
          unfold conflict at hcon ⊢
          obtain ⟨a, b, e1, e2⟩ := hcon
          exact ⟨a, b, lt_of_mul_lt_mul_left e1 hc.le, lt_of_mul_lt_mul_left e2 hc.le⟩
  have hret' : Returns field radial dis (obs.map fun q => ⟨q.x, q.y, c * q.z⟩)
      (srcs.map fun s => (s.1.scale c, s.2)) := by
    refine sym_pieces field radial dis hk ?_ hobs hsrc hret hchk
    rintro q q' s s' p rfl ⟨h1, -⟩ hp
    rw [h1]
    exact ⟨_, pieces_map field radial q _ (Tess.scale c) (divisions_scale field radial c hc q)
      (fun t a b d _ _ _ => splitPieces_scale c t a b d) s.1 p hp⟩
  have hv := sym_values (Rq := Rq) (Rs := R) (scaleFactor field c) kc.2 field radial dis kc.1 hk (by
    rintro q q' s s' p p' rfl ⟨h1, h2⟩ hp hp'
    rw [tessEffect_eq, tessEffect_eq, usedPieces_ok hp, usedPieces_ok hp', h2, ← List.sum_map_mul_left]
    rw [h1] at hp'
    exact pieces_sum field radial q _ (Tess.scale c) _ _ (divisions_scale field radial c hc q)
      (fun t a b d _ _ _ _ _ => .of_eq (splitPieces_scale c t a b d))
      (fun t => pieceEffect_scale field kc htab c hc q t _ _ (fun _ => rfl)) s.1 p p' hp hp')
    hobs hsrc hret hret'
  have hform := (tesseroidGravity_form field kc htab junk' m' M' fuel' stack1 small1 shape
    (obs.map fun q => ⟨q.x, q.y, c * q.z⟩) (by simpa using hshape)
    (srcs.map fun s => (s.1.scale c, s.2)) radial dis (by simpa using hm')).1 hret'
  rw [hv] at hform
  simpa [List.map_map, Function.comp_def, Tess.scale, scaleFactor] using hform

/-! ### mirrors -/

theorem mirrored_used {α : ℝ} {t t' : Tess} (h : Mirrored α t t') (hv : t.ValidLon) (hv' : t'.ValidLon) :
    ∃ β, SameLon β α ∧ normLon t' = (normLon t).mirror β := by
  obtain ⟨⟨k, hk⟩, ⟨l, hl⟩, hw, h1, h2, h3, h4⟩ := h
  obtain ⟨a, ha⟩ := normLon_turns t
  obtain ⟨b, hb⟩ := normLon_turns t'
  have w1 := normLon_width t hv
  have w2 := normLon_width t' hv'
  obtain ⟨c1, c2, c3, c4⟩ := normLon_same t
  obtain ⟨d1, d2, d3, d4⟩ := normLon_same t'
  have he : ∃ j : ℤ, (normLon t).e = t.e + 360 * j := by
    unfold normLon
    split_ifs
    · obtain ⟨-, -, k, hk⟩ := to180_rep t.e
      exact ⟨k, hk⟩
    · exact ⟨0, by simp⟩
  obtain ⟨j, hj⟩ := he
  refine ⟨(normLon t').w + (normLon t).e, ⟨k + b + j, ?_⟩, ?_⟩
  · rw [hj, hb, hk]; push_cast; ring
  · unfold Tess.mirror
    ext <;> simp only
    · ring
    · linarith
    · rw [d1, c1, h1]
    · rw [d2, c2, h2]
    · rw [d3, c3, h3]
    · rw [d4, c4, h4]

/-- C90: mirror images in a meridian have the same fields. (The pieces of a body are found in another
order, so that the stack may overflow for one of the two only: the calls that return are compared.) -/
theorem C90_mirror_meridian (field : String) (hf : field = "potential" ∨ field = "g_z")
    (junk junk' : Junk) (m m' : Mode) (M M' : Minimizer) (fuel fuel' : ℕ)
    (stack0 small0 stack1 small1 : ℕ → Tess) (shape : List ℕ) (obs obs' : List P3)
    (hshape : shape.prod = obs.length) (srcs srcs' : List (Tess × ℝ)) (radial : Bool) (α : ℝ)
    (hobs : List.Forall₂ (MirroredPoint α) obs obs')
    (hsrc : List.Forall₂ (fun s s' => Mirrored α s.1 s'.1 ∧ s'.2 = s.2) srcs srcs')
    (hm : m.Full obs.length (2 * (100000 * srcs.length)))
    (hm' : m'.Full obs'.length (2 * (100000 * srcs'.length))) (r r' : NdArray)
    (h : tesseroidGravity junk m M fuel stack0 small0 (arrays shape obs) (srcs.map (·.1))
        (.values (srcs.map (·.2))) field radial false = some (.ok r))
    (h' : tesseroidGravity junk' m' M' fuel' stack1 small1 (arrays shape obs') (srcs'.map (·.1))
        (.values (srcs'.map (·.2))) field radial false = some (.ok r')) : r' = r := by
  obtain ⟨kc, htab⟩ : ∃ kc, tessFieldTable field = some kc := by
    rcases hf with rfl | rfl
    · exact ⟨_, rfl⟩
    · exact ⟨_, rfl⟩
  have hlen : shape.prod = obs'.length := by rw [hshape, hobs.length_eq]
  obtain ⟨hret, rfl⟩ := returns_of_ok htab hshape hm h
  obtain ⟨hret', rfl⟩ := returns_of_ok htab hlen hm' h'
  have hcheck : ∀ t ∈ srcs.map (·.1), t.ValidLon := by
    rcases hret.1 with h0 | h0
    · simp at h0
    · exact fun t ht => (h0.1 t ht).2
  have hcheck' : ∀ t ∈ srcs'.map (·.1), t.ValidLon := by
    rcases hret'.1 with h0 | h0
    · simp at h0
    · exact fun t ht => (h0.1 t ht).2
  let R : Tess × ℝ → Tess × ℝ → Prop := fun s s' => ∃ β, SameLon β α ∧ s'.1 = s.1.mirror β ∧ s'.2 = s.2
  have hrel : List.Forall₂ R (srcs.map (usedSrc false)) (srcs'.map (usedSrc false)) := by
    rw [List.forall₂_map_left_iff, List.forall₂_map_right_iff]
    rw [List.forall₂_iff_get] at hsrc ⊢
    refine ⟨hsrc.1, fun i h1 h2 => ?_⟩
    obtain ⟨ha, hb⟩ := hsrc.2 i h1 h2
    obtain ⟨β, hβ, hn⟩ := mirrored_used ha
      (hcheck _ (List.mem_map.2 ⟨_, List.get_mem srcs ⟨i, h1⟩, rfl⟩))
      (hcheck' _ (List.mem_map.2 ⟨_, List.get_mem srcs' ⟨i, h2⟩, rfl⟩))
    exact ⟨β, hβ, by simpa [usedSrc, usedTess_false] using hn, hb⟩
  have hk : ∀ s s', R s s' → keepTess s' = keepTess s := by
    rintro s s' ⟨β, -, h1, h2⟩
    unfold keepTess
    rw [h1, h2, nullTess_mirror]
  rw [sym_values (Rs := R) 1 kc.2 field radial false kc.1 hk ?_ hobs hrel hret hret']
  · simp
  rintro q q' s s' p p' hq ⟨β, hβ, h1, h2⟩ hp hp'
  obtain ⟨k, hx⟩ : ∃ k : ℤ, q'.x = β - q.x + 360 * k := by
    obtain ⟨⟨k, hk⟩, -⟩ := hq
    obtain ⟨l, hl⟩ := hβ
    exact ⟨k - l, by rw [hk, hl]; push_cast; ring⟩
  rw [one_mul, tessEffect_eq, tessEffect_eq, usedPieces_ok hp, usedPieces_ok hp', h2]
  rw [h1] at hp'
  exact pieces_sum field radial q q' (Tess.mirror β) _ _
    (divisions_mirror field radial q q' hq.2.1 hq.2.2 β k hx)
    (fun t a b c a1 a2 _ _ _ => splitPieces_mirror β t a b c a1 a2)
    (fun t => pieceEffect_mirror field kc htab q q' hq.2.1 hq.2.2 β k hx t _) s.1 p p' hp hp'

theorem usedTess_flip (dis : Bool) (t : Tess) : usedTess dis t.flip = (usedTess dis t).flip := by
  cases dis
  · rw [usedTess_false]
    unfold normLon
    have : (t.flip.w > t.flip.e) = (t.w > t.e) := rfl
    simp only [this]
    split_ifs <;> rfl
  · rw [usedTess_true]; rfl

/-- C90: mirror images in the equator have the same fields, with or without the checks. -/
theorem C90_mirror_equator (field : String) (hf : field = "potential" ∨ field = "g_z")
    (junk junk' : Junk) (m m' : Mode) (M M' : Minimizer) (fuel fuel' : ℕ)
    (stack0 small0 stack1 small1 : ℕ → Tess) (shape : List ℕ) (obs : List P3)
    (hshape : shape.prod = obs.length) (srcs : List (Tess × ℝ)) (radial dis : Bool)
    (hm : m.Full obs.length (2 * (100000 * srcs.length)))
    (hm' : m'.Full obs.length (2 * (100000 * srcs.length))) (r r' : NdArray)
    (h : tesseroidGravity junk m M fuel stack0 small0 (arrays shape obs) (srcs.map (·.1))
        (.values (srcs.map (·.2))) field radial dis = some (.ok r))
    (h' : tesseroidGravity junk' m' M' fuel' stack1 small1
        (arrays shape (obs.map fun q => ⟨q.x, -q.y, q.z⟩))
        (srcs.map fun s => { s.1 with s := -s.1.n, n := -s.1.s })
        (.values (srcs.map (·.2))) field radial dis = some (.ok r')) : r' = r := by
  obtain ⟨kc, htab⟩ : ∃ kc, tessFieldTable field = some kc := by
    rcases hf with rfl | rfl
    · exact ⟨_, rfl⟩
    · exact ⟨_, rfl⟩
  have e1 : (srcs.map fun s => ({ s.1 with s := -s.1.n, n := -s.1.s } : Tess)) =
      (srcs.map fun s => (s.1.flip, s.2)).map (·.1) := by rw [List.map_map]; rfl
  have e2 : srcs.map (·.2) = (srcs.map fun s => (s.1.flip, s.2)).map (·.2) := by rw [List.map_map]; rfl
  obtain ⟨hret, rfl⟩ := returns_of_ok htab hshape hm h
  rw [e1, e2] at h'
  obtain ⟨hret', rfl⟩ := returns_of_ok htab (by simpa using hshape) (by simpa using hm') h'
  let R : Tess × ℝ → Tess × ℝ → Prop := fun s s' => s'.1 = s.1.flip ∧ s'.2 = s.2
  let Rq : P3 → P3 → Prop := fun q q' => q' = ⟨q.x, -q.y, q.z⟩
  have hobs : List.Forall₂ Rq obs (obs.map fun q => ⟨q.x, -q.y, q.z⟩) := by
    rw [List.forall₂_map_right_iff, List.forall₂_same]
    exact fun q _ => rfl
  have hsrc : List.Forall₂ R (srcs.map (usedSrc dis))
      ((srcs.map fun s => (s.1.flip, s.2)).map (usedSrc dis)) := by
    rw [List.map_map, List.forall₂_map_left_iff, List.forall₂_map_right_iff, List.forall₂_same]
    exact fun s _ => ⟨by simp [usedSrc, usedTess_flip], rfl⟩
  have hk : ∀ s s', R s s' → keepTess s' = keepTess s := by
    rintro s s' ⟨h1, h2⟩
    unfold keepTess
    rw [h1, h2, nullTess_flip]
  rw [sym_values (Rq := Rq) (Rs := R) 1 kc.2 field radial dis kc.1 hk ?_ hobs hsrc hret hret']
  · simp
  rintro q q' s s' p p' rfl ⟨h1, h2⟩ hp hp'
  rw [one_mul, tessEffect_eq, tessEffect_eq, usedPieces_ok hp, usedPieces_ok hp', h2]
  rw [h1] at hp'
  exact pieces_sum field radial q _ Tess.flip _ _ (divisions_flip field radial q)
    (fun t a b c _ _ b1 b2 _ => splitPieces_flip t a b c b1 b2)
    (fun t => pieceEffect_flip field kc htab q t _) s.1 p p' hp hp'

/-! ### point masses -/

theorem pointGravity_tab (field : String) (kc : SphKernel × ℝ) (htab : tessFieldTable field = some kc)
    (junk : Junk) (mode : Mode) (K : PointKernels)
    (shape ps ms : List ℕ) (obs : List P3) (hshape : shape.prod = obs.length)
    (srcs : List (P3 × ℝ)) (hm : mode.Full obs.length (2 * srcs.length)) :
    pointGravity junk mode K (arrays shape obs) (arrays ps (srcs.map (·.1)))
        ⟨ms, srcs.map (·.2)⟩ field "spherical" =
      .ok ⟨shape, obs.map fun q =>
        kc.2 * total (fun q s => (PointKernel.spherical kc.1).eval q s.1 s.2) srcs q⟩ := by
  rw [C04_point_gravity_spherical junk mode K shape ps ms obs hshape srcs hm]
  unfold tessFieldTable at htab
  split_ifs at htab with h1 h2
  · simp at htab; subst htab
    rw [if_pos h1]
    simp only [one_mul]
    congr 3
    funext q
    unfold total
    congr 1
    apply List.map_congr_left
    intro s _
    have := C10_distance_spherical q s.1
    unfold distanceSpherical at this
    simp only at this
    simp only [PointKernel.eval, potentialSpherical, newtonPotential_eq, this]
    ring
  · simp at htab; subst htab
    rw [if_neg h1, if_pos h2]

/-- C90 for `point_gravity` in spherical coordinates: rotating points and masses together about the
polar axis, mirroring them in a meridian or in the equator, in any accepted way of writing the
longitudes, changes nothing. -/
theorem C90_point_gravity (field : String) (hf : field = "potential" ∨ field = "g_z")
    (junk junk' : Junk) (mode mode' : Mode) (K K' : PointKernels) (shape ps ms : List ℕ)
    (obs obs' : List P3) (hshape : shape.prod = obs.length) (srcs srcs' : List (P3 × ℝ))
    (hm : mode.Full obs.length (2 * srcs.length)) (hm' : mode'.Full obs'.length (2 * srcs'.length))
    (α : ℝ) (R : P3 → P3 → Prop) (hR : R = RotatedPoint α ∨ R = MirroredPoint α ∨
      R = fun q q' => q' = ⟨q.x, -q.y, q.z⟩)
    (hobs : List.Forall₂ R obs obs')
    (hsrc : List.Forall₂ (fun s s' => R s.1 s'.1 ∧ s'.2 = s.2) srcs srcs') :
    pointGravity junk' mode' K' (arrays shape obs') (arrays ps (srcs'.map (·.1)))
        ⟨ms, srcs'.map (·.2)⟩ field "spherical" =
      pointGravity junk mode K (arrays shape obs) (arrays ps (srcs.map (·.1)))
        ⟨ms, srcs.map (·.2)⟩ field "spherical" := by
  obtain ⟨kc, htab⟩ : ∃ kc, tessFieldTable field = some kc := by
    rcases hf with rfl | rfl
    · exact ⟨_, rfl⟩
    · exact ⟨_, rfl⟩
  have hlen : shape.prod = obs'.length := by rw [hshape, hobs.length_eq]
  rw [pointGravity_tab field kc htab junk mode K shape ps ms obs hshape srcs hm,
    pointGravity_tab field kc htab junk' mode' K' shape ps ms obs' hlen srcs' hm']
  have key : ∀ q q' p p' m, R q q' → R p p' → (PointKernel.spherical kc.1).eval q' p' m =
      (PointKernel.spherical kc.1).eval q p m := by
    intro q q' p p' m hq hp
    rcases hR with rfl | rfl | rfl
    · obtain ⟨⟨k, hk⟩, q2, q3⟩ := hq
      obtain ⟨⟨l, hl⟩, p2, p3⟩ := hp
      exact eval_congr field kc htab _ _ _ _ q3 p3 (coreOf_lon _ _ _ _ q2 q3 p2 p3 (l - k)
        (Or.inl (by rw [hk, hl]; push_cast; ring))) m
    · obtain ⟨⟨k, hk⟩, q2, q3⟩ := hq
      obtain ⟨⟨l, hl⟩, p2, p3⟩ := hp
      exact eval_congr field kc htab _ _ _ _ q3 p3 (coreOf_lon _ _ _ _ q2 q3 p2 p3 (l - k)
        (Or.inr (by rw [hk, hl]; push_cast; ring))) m
    · subst hq hp
      exact eval_congr field kc htab q p ⟨q.x, -q.y, q.z⟩ ⟨p.x, -p.y, p.z⟩ rfl rfl (coreOf_flip q p) m
  congr 2
  clear hshape hlen hm hm'
  induction hobs with
  | nil => rfl
  | cons h0 _ ih =>
    simp only [List.map_cons]
    rw [ih]
    congr 2
    unfold total
    have := sym_total (R := fun s s' : P3 × ℝ => R s.1 s'.1 ∧ s'.2 = s.2) 1
      (fun s => (PointKernel.spherical kc.1).eval _ s.1 s.2)
      (fun s => (PointKernel.spherical kc.1).eval _ s.1 s.2) hsrc (fun _ => True) (fun _ => True)
      (fun _ _ => trivial) (fun _ _ => trivial)
      (fun s s' hr _ _ => by rw [one_mul, hr.2]; exact key _ _ _ _ _ h0 hr.1)
    rw [one_mul] at this
    exact this

/-- C90 for `point_gravity` in spherical coordinates: radii multiplied by `c > 0` and masses by `c³`
(a scaled body of the same density). -/
theorem C90_point_gravity_scale (field : String) (hf : field = "potential" ∨ field = "g_z")
    (junk junk' : Junk) (mode mode' : Mode) (K K' : PointKernels) (shape ps ms : List ℕ)
    (obs : List P3) (hshape : shape.prod = obs.length) (srcs : List (P3 × ℝ))
    (hm : mode.Full obs.length (2 * srcs.length)) (hm' : mode'.Full obs.length (2 * srcs.length))
    (c : ℝ) (hc : 0 < c) :
    pointGravity junk' mode' K' (arrays shape (obs.map fun q => ⟨q.x, q.y, c * q.z⟩))
        (arrays ps (srcs.map fun s => ⟨s.1.x, s.1.y, c * s.1.z⟩))
        ⟨ms, srcs.map fun s => c ^ 3 * s.2⟩ field "spherical" =
      (pointGravity junk mode K (arrays shape obs) (arrays ps (srcs.map (·.1)))
        ⟨ms, srcs.map (·.2)⟩ field "spherical").map fun r =>
          ⟨r.shape, r.data.map fun v => (if field = "potential" then c ^ 2 else c) * v⟩ := by
  obtain ⟨kc, htab⟩ : ∃ kc, tessFieldTable field = some kc := by
    rcases hf with rfl | rfl
    · exact ⟨_, rfl⟩
    · exact ⟨_, rfl⟩
  have h2 := pointGravity_tab field kc htab junk' mode' K' shape ps ms
    (obs.map fun q => ⟨q.x, q.y, c * q.z⟩) (by simpa using hshape)
    (srcs.map fun s => (⟨s.1.x, s.1.y, c * s.1.z⟩, c ^ 3 * s.2)) (by simpa using hm')
  simp only [List.map_map, Function.comp_def] at h2
  rw [h2, pointGravity_tab field kc htab junk mode K shape ps ms obs hshape srcs hm]
  simp only [Except.map, List.map_map, Function.comp_def]
  congr 2
  apply List.map_congr_left
  intro q _
  unfold total
  rw [List.map_map]
  have : ((fun s : P3 × ℝ => (PointKernel.spherical kc.1).eval ⟨q.x, q.y, c * q.z⟩ s.1 s.2) ∘
      fun s : P3 × ℝ => (⟨s.1.x, s.1.y, c * s.1.z⟩, c ^ 3 * s.2)) =
      fun s => scaleFactor field c * (PointKernel.spherical kc.1).eval q s.1 s.2 := by
    funext s
    exact eval_scale field kc htab c hc q s.1 s.2
  rw [this, List.sum_map_mul_left]
  unfold scaleFactor
  ring

end Verif.Tesseroid
