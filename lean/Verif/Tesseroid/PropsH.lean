import Verif.Tesseroid.PropsG

/-! C90 for tesseroids whose density is a function of the radius. -/

namespace Verif.Tesseroid
open Verif.Distance Verif.Forward Verif.Engine

/-- a relation between tesseroids that is kept when both are cut at the same radii -/
def Radial (R : Tess → Tess → Prop) : Prop :=
  ∀ t t', R t t' → t'.bottom = t.bottom ∧ t'.top = t.top ∧
    ∀ b a, R ⟨t.w, t.e, t.s, t.n, b, a⟩ ⟨t'.w, t'.e, t'.s, t'.n, b, a⟩

theorem densityLoop_rel (M : Minimizer) (nd : ℝ → ℝ) (size w e s n w' e' s' n' : ℝ)
    (R : Tess → Tess → Prop) (hR : ∀ b a, R ⟨w, e, s, n, b, a⟩ ⟨w', e', s', n', b, a⟩) (fuel : ℕ) :
    ∀ p p' o o', List.Forall₂ (fun t t' : Tess => t'.bottom = t.bottom ∧ t'.top = t.top) p p' →
      List.Forall₂ R o o' → ∀ l, densityLoop M nd size w e s n fuel p o = some l →
      ∃ l', densityLoop M nd size w' e' s' n' fuel p' o' = some l' ∧ List.Forall₂ R l l' := by
  induction fuel with
  | zero =>
    intro p p' o o' hp ho l h
    cases hp with
    | nil => simp only [densityLoop, Option.some.injEq] at h ⊢; subst h; exact ⟨o', rfl, ho⟩
    | cons _ _ => simp [densityLoop] at h
  | succ fuel ih =>
    intro p p' o o' hp ho l h
    cases hp with
    | nil => simp only [densityLoop, Option.some.injEq] at h ⊢; subst h; exact ⟨o', rfl, ho⟩
    | cons h0 hp =>
      rename_i t t' q q'
      simp only [densityLoop] at h ⊢
      rw [h0.1, h0.2]
      split at h
      · rename_i hc
        rw [if_pos hc]
        refine ih _ _ _ _ ?_ ho l h
        exact List.rel_append hp (.cons ⟨rfl, rfl⟩ (.cons ⟨rfl, rfl⟩ .nil))
      · rename_i hc
        rw [if_neg hc]
        exact ih _ _ _ _ hp (List.rel_append ho (.cons (hR _ _) .nil)) l h

theorem densityDiscretization_rel (M : Minimizer) (f : ℝ → ℝ) (fuel : ℕ) (R : Tess → Tess → Prop)
    (hR : Radial R) {ts ts' : List Tess} (h : List.Forall₂ R ts ts') :
    ∀ l, densityDiscretization M f fuel ts = some l →
      ∃ l', densityDiscretization M f fuel ts' = some l' ∧ List.Forall₂ R l l' := by
  induction h with
  | nil => intro l hl; simp only [densityDiscretization, Option.some.injEq] at hl ⊢; subst hl; exact ⟨_, rfl, .nil⟩
  | @cons t t' ts ts' h0 _ ih =>
    intro l hl
    simp only [densityDiscretization] at hl ⊢
    cases h1 : densityDiscretization1 M f fuel t with
    | none => rw [h1] at hl; simp at hl
    | some a =>
      cases h2 : densityDiscretization M f fuel ts with
      | none => rw [h1, h2] at hl; simp at hl
      | some b =>
        rw [h1, h2] at hl
        have hl' : a ++ b = l := by simpa using hl
        obtain ⟨b', hb', rb⟩ := ih b h2
        obtain ⟨a', ha', ra⟩ : ∃ a', densityDiscretization1 M f fuel t' = some a' ∧ List.Forall₂ R a a' := by
          obtain ⟨e1, e2, e3⟩ := hR t t' h0
          unfold densityDiscretization1 at h1 ⊢
          simp only [e1, e2] at h1 ⊢
          split at h1
          · rename_i hc
            rw [if_pos (by rw [e1, e2]; exact hc)]
            simp only [Option.some.injEq] at h1
            subst h1
            exact ⟨_, rfl, .cons h0 .nil⟩
          · rename_i hc
            rw [if_neg (by rw [e1, e2]; exact hc)]
            exact densityLoop_rel M _ _ _ _ _ _ _ _ _ _ R e3 fuel _ _ _ _ (.cons ⟨e1, e2⟩ .nil) .nil a h1
        rw [ha', hb']
        exact ⟨a' ++ b', rfl, hl' ▸ List.rel_append ra rb⟩

theorem sym_values_func {Rq : P3 → P3 → Prop} {R : Tess → Tess → Prop} (κ c : ℝ)
    (field : String) (radial : Bool) (kernel : SphKernel) (f f' : ℝ → ℝ) {obs obs' : List P3}
    {l l' : List Tess}
    (he : ∀ q q' t t' p p', Rq q q' → R t t' → tessPieces (tessParams field radial q) t = .ok p →
      tessPieces (tessParams field radial q') t' = .ok p' →
      layerEffect field radial kernel f' q' t' = κ * layerEffect field radial kernel f q t)
    (hobs : List.Forall₂ Rq obs obs') (hl : List.Forall₂ R l l')
    (h : ∀ q ∈ obs, ∀ t ∈ l, ∃ p, tessPieces (tessParams field radial q) t = .ok p)
    (h' : ∀ q ∈ obs', ∀ t ∈ l', ∃ p, tessPieces (tessParams field radial q) t = .ok p) :
    (obs'.map fun q => c * total (layerEffect field radial kernel f') l' q) =
      (obs.map fun q => c * total (layerEffect field radial kernel f) l q).map (κ * ·) := by
  induction hobs with
  | nil => rfl
  | cons h0 _ ih =>
    simp only [List.map_cons]
    rw [ih (fun q hq => h q (by simp [hq])) (fun q hq => h' q (by simp [hq]))]
    congr 1
    unfold total
    rw [sym_total κ _ _ hl _ _ (h _ List.mem_cons_self) (h' _ List.mem_cons_self)
      (fun t t' hr ⟨p, hp⟩ ⟨p', hp'⟩ => he _ _ t t' p p' h0 hr hp hp')]
    ring

theorem layerEffect_pieces (field : String) (radial : Bool) (kernel : SphKernel) (f : ℝ → ℝ) (q : P3)
    (t : Tess) : layerEffect field radial kernel f q t =
      ((usedPieces field radial q t).map fun p => pieceEffect kernel q p f).sum := rfl

/-- C90 for a density function: if the computation points and the bodies are rotated together by any
angle about the polar axis, with longitudes written in any accepted way, the call returns the same array. -/
theorem C90_rotation_func (field : String) (hf : field = "potential" ∨ field = "g_z")
    (junk junk' : Junk) (m m' : Mode) (M : Minimizer) (fuel : ℕ)
    (stack0 small0 stack1 small1 : ℕ → Tess) (shape : List ℕ) (obs obs' : List P3)
    (hshape : shape.prod = obs.length) (ts ts' : List Tess) (f : ℝ → ℝ) (radial : Bool) (α : ℝ)
    (hobs : List.Forall₂ (RotatedPoint α) obs obs') (hts : List.Forall₂ (Rotated α) ts ts')
    (hvalid : ∀ t ∈ ts', (-180 ≤ t.w ∧ t.w ≤ 360) ∧ (-180 ≤ t.e ∧ t.e ≤ 360) ∧ t.ValidLon)
    (k : ℕ) (hk : ∀ l, densityDiscretization M f fuel (ts.map (usedTess false)) = some l →
      2 * (100000 * l.length) ≤ k)
    (hm : m.Full obs.length k) (hm' : m'.Full obs'.length k) (r : NdArray)
    (h : tesseroidGravity junk m M fuel stack0 small0 (arrays shape obs) ts (.func f) field radial false =
      some (.ok r)) :
    tesseroidGravity junk' m' M fuel stack1 small1 (arrays shape obs') ts' (.func f) field radial false =
      some (.ok r) := by
  obtain ⟨kc, htab⟩ : ∃ kc, tessFieldTable field = some kc := by
    rcases hf with rfl | rfl
    · exact ⟨_, rfl⟩
    · exact ⟨_, rfl⟩
  obtain ⟨l, hret, rfl⟩ := returnsFunc_of_ok htab hshape hk hm h
  obtain ⟨hc, hd, hne, hp⟩ := hret
  have hcheck : (∀ t ∈ ts, t.ValidRange ∧ t.ValidLon) ∧
      ¬ ∃ q ∈ obs, ∃ t ∈ ts.map (usedTess false), conflict q t := by
    rcases hc with h0 | h0
    · simp at h0
    · exact h0
  have hpair : List.Forall₂ (fun t t' : Tess => Rotated α t t' ∧ t.ValidRange ∧ t.ValidLon ∧
      t'.ValidRange ∧ t'.ValidLon ∧ t ∈ ts) ts ts' := by
    rw [List.forall₂_iff_get] at hts ⊢
    refine ⟨hts.1, fun i h1 h2 => ?_⟩
    have ha := hts.2 i h1 h2
    have hv := hvalid _ (List.get_mem ts' ⟨i, h2⟩)
    have hu := hcheck.1 _ (List.get_mem ts ⟨i, h1⟩)
    obtain ⟨b1, b2, b3, b4⟩ := ha.same
    have g := hu.1
    refine ⟨ha, hu.1, hu.2, ⟨?_, ?_, ?_, ?_, ?_, hv.1, hv.2.1⟩, hv.2.2, List.get_mem ts ⟨i, h1⟩⟩
    · rw [b1]; exact g.lat_s
    · rw [b2]; exact g.lat_n
    · rw [b1, b2]; exact g.sn
    · rw [b3, b4]; exact g.radii
    · rw [b3, b4]; exact g.bt
  let R : Tess → Tess → Prop := fun t t' => ∃ β, SameLon β α ∧ t' = t.shift β
  have hR : Radial R := by
    rintro t t' ⟨β, hβ, rfl⟩
    exact ⟨rfl, rfl, fun b a => ⟨β, hβ, rfl⟩⟩
  have hrel : List.Forall₂ R (ts.map (usedTess false)) (ts'.map (usedTess false)) := by
    rw [List.forall₂_map_left_iff, List.forall₂_map_right_iff]
    refine hpair.imp fun t t' ⟨ha, _, hv, _, hv', _⟩ => ?_
    obtain ⟨β, hβ, hn⟩ := rotated_used ha hv hv'
    exact ⟨β, hβ, by simpa [usedTess_false] using hn⟩
  obtain ⟨l', hd', hl⟩ := densityDiscretization_rel M f fuel R hR hrel l hd
  have hchk : ChecksPass false obs' ts' := by
    right
    constructor
    · intro t' ht'
      obtain ⟨t, -, ha⟩ := forall2_mem hpair t' ht'
      exact ⟨ha.2.2.2.1, ha.2.2.2.2.1⟩
    · rintro ⟨q', hq', t0, ht, hcon⟩
      obtain ⟨t', ht', rfl⟩ := List.mem_map.1 ht
      obtain ⟨q, hq, hqr⟩ := forall2_mem hobs q' hq'
      obtain ⟨t, -, ha, hr, hv, hr', hv', hs⟩ := forall2_mem hpair t' ht'
      obtain ⟨β, hβ, hn⟩ := rotated_used ha hv hv'
      rw [usedTess_false] at hcon
      have g1 := normLon_range _ hr
      have g2 := normLon_range _ hr'
      rw [hn] at hcon g2
      refine hcheck.2 ⟨q, hq, normLon t, ?_, conflict_shift hqr hβ (normLon t) g1.lon_w.1 g1.lon_e.2
        g2.lon_w.1 g2.lon_e.2 hcon⟩
      exact List.mem_map.2 ⟨t, hs, by rw [usedTess_false]⟩
  have hp' : ∀ q ∈ obs', ∀ t ∈ l', ∃ p, tessPieces (tessParams field radial q) t = .ok p := by
    intro q' hq' t' ht'
    obtain ⟨q, hq, hqr⟩ := forall2_mem hobs q' hq'
    obtain ⟨t, ht, β, hβ, rfl⟩ := forall2_mem hl t' ht'
    obtain ⟨p, hpp⟩ := hp q hq t ht
    obtain ⟨j, hx⟩ := shiftRel_turns hqr hβ
    exact ⟨_, pieces_map field radial q q' (Tess.shift β)
      (divisions_shift field radial q q' hqr.2.1 hqr.2.2 β j hx)
      (fun t a b c _ _ _ => splitPieces_shift β t a b c) t p hpp⟩
  have hlen : shape.prod = obs'.length := by rw [hshape, hobs.length_eq]
  rw [tesseroidGravity_func_ok field kc htab junk' m' M fuel stack1 small1 shape obs' hlen ts' l' f radial
    false k (by rw [← hl.length_eq]; exact hk l hd) hm' ⟨hchk, hd', ?_, hp'⟩]
  · rw [sym_values_func (R := R) 1 kc.2 field radial kc.1 f f ?_ hobs hl hp hp']
    · simp
    rintro q q' t t' p p' hq ⟨β, hβ, rfl⟩ h1 h2
    obtain ⟨j, hx⟩ := shiftRel_turns hq hβ
    rw [one_mul, layerEffect_pieces, layerEffect_pieces, usedPieces_ok h1, usedPieces_ok h2]
    exact pieces_sum field radial q q' (Tess.shift β) _ _
      (divisions_shift field radial q q' hq.2.1 hq.2.2 β j hx)
      (fun t a b c _ _ _ _ _ => .of_eq (splitPieces_shift β t a b c))
      (fun t => pieceEffect_shift field kc htab q q' hq.2.1 hq.2.2 β j hx t _) t p p' h1 h2
  · intro h0
    rw [h0] at hl
    cases hl
    have := hne rfl
    rw [this] at hobs
    cases hobs
    rfl

/-- C90 for a density function: mirror images in the equator have the same fields, with or without the
checks. -/
theorem C90_mirror_equator_func (field : String) (hf : field = "potential" ∨ field = "g_z")
    (junk junk' : Junk) (m m' : Mode) (M : Minimizer) (fuel : ℕ)
    (stack0 small0 stack1 small1 : ℕ → Tess) (shape : List ℕ) (obs : List P3)
    (hshape : shape.prod = obs.length) (ts : List Tess) (f : ℝ → ℝ) (radial dis : Bool)
    (k : ℕ) (hk : ∀ l, densityDiscretization M f fuel (ts.map (usedTess dis)) = some l →
      2 * (100000 * l.length) ≤ k)
    (hm : m.Full obs.length k) (hm' : m'.Full obs.length k) (r r' : NdArray)
    (h : tesseroidGravity junk m M fuel stack0 small0 (arrays shape obs) ts (.func f) field radial dis =
      some (.ok r))
    (h' : tesseroidGravity junk' m' M fuel stack1 small1
        (arrays shape (obs.map fun q => ⟨q.x, -q.y, q.z⟩))
        (ts.map fun t => { t with s := -t.n, n := -t.s }) (.func f) field radial dis = some (.ok r')) :
    r' = r := by
  obtain ⟨kc, htab⟩ : ∃ kc, tessFieldTable field = some kc := by
    rcases hf with rfl | rfl
    · exact ⟨_, rfl⟩
    · exact ⟨_, rfl⟩
  let R : Tess → Tess → Prop := fun t t' => t' = t.flip
  let Rq : P3 → P3 → Prop := fun q q' => q' = ⟨q.x, -q.y, q.z⟩
  have hR : Radial R := by
    rintro t t' rfl
    exact ⟨rfl, rfl, fun b a => rfl⟩
  have hrel : List.Forall₂ R (ts.map (usedTess dis)) ((ts.map Tess.flip).map (usedTess dis)) := by
    rw [List.map_map, List.forall₂_map_left_iff, List.forall₂_map_right_iff, List.forall₂_same]
    exact fun t _ => usedTess_flip dis t
  have hobs : List.Forall₂ Rq obs (obs.map fun q => ⟨q.x, -q.y, q.z⟩) := by
    rw [List.forall₂_map_right_iff, List.forall₂_same]
    exact fun q _ => rfl
  obtain ⟨l, hret, rfl⟩ := returnsFunc_of_ok htab hshape hk hm h
  obtain ⟨hc, hd, hne, hp⟩ := hret
  obtain ⟨l', hd', hl⟩ := densityDiscretization_rel M f fuel R hR hrel l hd
  change tesseroidGravity junk' m' M fuel stack1 small1 _ (ts.map Tess.flip) _ _ _ _ = _ at h'
  obtain ⟨l2, hret2, rfl⟩ := returnsFunc_of_ok (k := k) htab (by simpa using hshape) (fun x hx => by
    rw [hd'] at hx
    obtain rfl : l' = x := by simpa using hx
    rw [← hl.length_eq]; exact hk l hd) (by simpa using hm') h'
  obtain ⟨hc', hd2, hne', hp'⟩ := hret2
  rw [hd'] at hd2
  obtain rfl : l' = l2 := by simpa using hd2
  rw [sym_values_func (Rq := Rq) (R := R) 1 kc.2 field radial kc.1 f f ?_ hobs hl hp hp']
  · simp
  rintro q q' t t' p p' rfl rfl h1 h2
  rw [one_mul, layerEffect_pieces, layerEffect_pieces, usedPieces_ok h1, usedPieces_ok h2]
  exact pieces_sum field radial q _ Tess.flip _ _ (divisions_flip field radial q)
    (fun t a b c _ _ b1 b2 _ => splitPieces_flip t a b c b1 b2)
    (fun t => pieceEffect_flip field kc htab q t _) t p p' h1 h2

/-- C90 for a density function: mirror images in a meridian have the same fields. -/
theorem C90_mirror_meridian_func (field : String) (hf : field = "potential" ∨ field = "g_z")
    (junk junk' : Junk) (m m' : Mode) (M : Minimizer) (fuel : ℕ)
    (stack0 small0 stack1 small1 : ℕ → Tess) (shape : List ℕ) (obs obs' : List P3)
    (hshape : shape.prod = obs.length) (ts ts' : List Tess) (f : ℝ → ℝ) (radial : Bool) (α : ℝ)
    (hobs : List.Forall₂ (MirroredPoint α) obs obs') (hts : List.Forall₂ (Mirrored α) ts ts')
    (k : ℕ) (hk : ∀ l, densityDiscretization M f fuel (ts.map (usedTess false)) = some l →
      2 * (100000 * l.length) ≤ k)
    (hm : m.Full obs.length k) (hm' : m'.Full obs'.length k) (r r' : NdArray)
    (h : tesseroidGravity junk m M fuel stack0 small0 (arrays shape obs) ts (.func f) field radial false =
      some (.ok r))
    (h' : tesseroidGravity junk' m' M fuel stack1 small1 (arrays shape obs') ts' (.func f) field radial
      false = some (.ok r')) : r' = r := by
  obtain ⟨kc, htab⟩ : ∃ kc, tessFieldTable field = some kc := by
    rcases hf with rfl | rfl
    · exact ⟨_, rfl⟩
    · exact ⟨_, rfl⟩
  have hlen : shape.prod = obs'.length := by rw [hshape, hobs.length_eq]
  have valid : ∀ {ts : List Tess} {obs : List P3}, ChecksPass false obs ts → ∀ t ∈ ts, t.ValidLon := by
    intro ts obs h t ht
    rcases h with h0 | h0
    · simp at h0
    · exact (h0.1 t ht).2
  obtain ⟨l, hret, rfl⟩ := returnsFunc_of_ok htab hshape hk hm h
  obtain ⟨hc, hd, hne, hp⟩ := hret
  have hc' : ChecksPass false obs' ts' := by
    by_contra hn
    rw [tesseroidGravity_func, htab] at h'
    simp only [if_neg hn] at h'
    simp at h'
  let R : Tess → Tess → Prop := fun t t' => ∃ β, SameLon β α ∧ t' = t.mirror β
  have hR : Radial R := by
    rintro t t' ⟨β, hβ, rfl⟩
    exact ⟨rfl, rfl, fun b a => ⟨β, hβ, rfl⟩⟩
  have hrel : List.Forall₂ R (ts.map (usedTess false)) (ts'.map (usedTess false)) := by
    rw [List.forall₂_map_left_iff, List.forall₂_map_right_iff]
    rw [List.forall₂_iff_get] at hts ⊢
    refine ⟨hts.1, fun i h1 h2 => ?_⟩
    obtain ⟨β, hβ, hn⟩ := mirrored_used (hts.2 i h1 h2) (valid hc _ (List.get_mem ts ⟨i, h1⟩))
      (valid hc' _ (List.get_mem ts' ⟨i, h2⟩))
    exact ⟨β, hβ, by simpa [usedTess_false] using hn⟩
  obtain ⟨l', hd', hl⟩ := densityDiscretization_rel M f fuel R hR hrel l hd
  obtain ⟨l2, hret2, rfl⟩ := returnsFunc_of_ok htab hlen (fun x hx => by
    rw [hd'] at hx
    obtain rfl : l' = x := by simpa using hx
    rw [← hl.length_eq]; exact hk l hd) hm' h'
  obtain ⟨-, hd2, hne', hp'⟩ := hret2
  rw [hd'] at hd2
  obtain rfl : l' = l2 := by simpa using hd2
  rw [sym_values_func (R := R) 1 kc.2 field radial kc.1 f f ?_ hobs hl hp hp']
  · simp
  rintro q q' t t' p p' hq ⟨β, hβ, rfl⟩ h1 h2
  obtain ⟨j, hx⟩ : ∃ k : ℤ, q'.x = β - q.x + 360 * k := by
    obtain ⟨⟨k, hk⟩, -⟩ := hq
    obtain ⟨l, hl⟩ := hβ
    exact ⟨k - l, by rw [hk, hl]; push_cast; ring⟩
  rw [one_mul, layerEffect_pieces, layerEffect_pieces, usedPieces_ok h1, usedPieces_ok h2]
  exact pieces_sum field radial q q' (Tess.mirror β) _ _
    (divisions_mirror field radial q q' hq.2.1 hq.2.2 β j hx)
    (fun t a b c a1 a2 _ _ _ => splitPieces_mirror β t a b c a1 a2)
    (fun t => pieceEffect_mirror field kc htab q q' hq.2.1 hq.2.2 β j hx t _) t p p' h1 h2

/-! ### Cases that meet the hypotheses -/

/-- a body of linear density and a point, rotated by 359 degrees, the body written across 360 -/
example (junk : Junk) (stack0 small0 : ℕ → Tess) :
    ∃ r, tesseroidGravity junk .serial midpoint 1 stack0 small0 (arrays [1] [⟨0, 0, 1000⟩])
        [⟨-1, 1, -1, 1, 1, 2⟩] (.func fun r => r) "g_z" true false = some (.ok r) ∧
      tesseroidGravity junk .serial midpoint 1 stack0 small0 (arrays [1] [⟨-1, 0, 1000⟩])
        [⟨358, 0, -1, 1, 1, 2⟩] (.func fun r => r) "g_z" true false = some (.ok r) := by
  obtain ⟨r, hr⟩ := linear_call_returns junk stack0 small0
  refine ⟨r, hr, ?_⟩
  have e1 : eastEnd (358 : ℝ) 0 = 360 := by
    unfold eastEnd
    rw [if_neg (by norm_num), show ⌈((358 : ℝ) - 0) / 360⌉ = 1 by
      rw [Int.ceil_eq_iff]; constructor <;> norm_num]
    norm_num
  have e2 : eastEnd (-1 : ℝ) 1 = 1 := by unfold eastEnd; rw [if_pos (by norm_num)]
  refine C90_rotation_func "g_z" (Or.inr rfl) junk junk .serial .serial midpoint 1 stack0 small0 stack0 small0
    [1] [⟨0, 0, 1000⟩] [⟨-1, 0, 1000⟩] (by simp) [⟨-1, 1, -1, 1, 1, 2⟩] [⟨358, 0, -1, 1, 1, 2⟩] _ true 359
    (.cons ⟨⟨-1, by norm_num⟩, rfl, rfl⟩ .nil)
    (.cons ⟨⟨0, by norm_num⟩, ⟨-1, by norm_num⟩, by simp only [e1, e2]; norm_num, rfl, rfl, rfl, rfl⟩ .nil)
    ?_ (2 * (100000 * ((densityDiscretization midpoint (fun r => r) 1
      ([⟨-1, 1, -1, 1, 1, 2⟩].map (usedTess false))).getD []).length)) ?_ trivial trivial r hr
  · intro s hs
    rw [List.mem_singleton] at hs
    subst hs
    refine ⟨⟨by norm_num, by norm_num⟩, ⟨by norm_num, by norm_num⟩, Or.inr ⟨by norm_num, -2, 0, ?_, ?_, by norm_num⟩⟩
    · exact ⟨by norm_num, by norm_num, -1, by norm_num⟩
    · exact ⟨by norm_num, by norm_num, 0, by norm_num⟩
  · intro l hl
    rw [hl]
    exact le_refl _

end Verif.Tesseroid
