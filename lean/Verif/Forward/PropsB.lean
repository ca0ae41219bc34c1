import Verif.Forward.Props

/-! Properties C02, C03, C05 to C09 and C11 for point masses, dipoles and prisms. -/

namespace Verif.Forward
open Verif.Engine Verif.Distance

theorem total_append {S : Type} (k : P3 → S → ℝ) (a b : List S) (q : P3) :
    total k (a ++ b) q = total k a q + total k b q := by simp [total]

theorem total_perm {S : Type} (k : P3 → S → ℝ) (a b : List S) (h : a.Perm b) (q : P3) :
    total k a q = total k b q := (h.map _).sum_eq

theorem total_smul {S : Type} (k : P3 → S → ℝ) (a : List S) (c : ℝ) (f : S → S)
    (hf : ∀ q s, s ∈ a → k q (f s) = c * k q s) (q : P3) :
    total k (a.map f) q = c * total k a q := by
  unfold total
  rw [← List.sum_map_mul_left, List.map_map]
  congr 1
  apply List.map_congr_left
  intro s hs
  exact hf q s hs

theorem total_zero {S : Type} (k : P3 → S → ℝ) (a : List S) (q : P3) (h : ∀ s ∈ a, k q s = 0) :
    total k a q = 0 := by
  unfold total
  apply List.sum_eq_zero
  intro x hx
  obtain ⟨s, hs, rfl⟩ := List.mem_map.1 hx
  exact h s hs

/-- dropping sources that contribute nothing does not change the field -/
theorem total_filter {S : Type} (k : P3 → S → ℝ) (a : List S) (keep : S → Bool) (q : P3)
    (h : ∀ s ∈ a, keep s = false → k q s = 0) : total k (a.filter keep) q = total k a q := by
  induction a with
  | nil => rfl
  | cons s a ih =>
    have ih := ih fun t ht => h t (List.mem_cons_of_mem _ ht)
    by_cases hk : keep s
    · simp only [total, List.filter_cons, hk, if_true, List.map_cons, List.sum_cons] at ih ⊢
      rw [ih]
    · have h0 := h s (by simp) (by simpa using hk)
      simp only [total, List.filter_cons, hk, List.map_cons, List.sum_cons] at ih ⊢
      rw [h0, zero_add]; exact ih

/-- Whatever the field and the system, `point_gravity` on well-formed inputs is either an error that
does not depend on points and sources, or a fixed multiple of the sum of the contributions. -/
theorem pointGravity_form (K : PointKernels) (field system : String) :
    (∃ e, ∀ junk mode shape (obs : List P3) (srcs : List (P3 × ℝ)) ps ms,
      shape.prod = obs.length → mode.Full obs.length (2 * srcs.length) →
      pointGravity junk mode K (arrays shape obs) (arrays ps (srcs.map (·.1)))
        ⟨ms, srcs.map (·.2)⟩ field system = .error e) ∨
    (∃ (kernel : PointKernel) (c : ℝ), getKernel K system field = .ok kernel ∧
      ∀ junk mode shape (obs : List P3) (srcs : List (P3 × ℝ)) ps ms,
      shape.prod = obs.length → mode.Full obs.length (2 * srcs.length) →
      pointGravity junk mode K (arrays shape obs) (arrays ps (srcs.map (·.1)))
        ⟨ms, srcs.map (·.2)⟩ field system =
          .ok ⟨shape, obs.map fun q => c * total (fun q s => kernel.eval q s.1 s.2) srcs q⟩) := by
  cases hc : checkCoordinateSystem system ["cartesian", "spherical"] with
  | error e =>
    left
    refine ⟨e, fun junk mode shape obs srcs ps ms hs hm => ?_⟩
    rw [pointGravity_eq junk mode K shape obs hs srcs ps ms hm, hc]; rfl
  | ok u =>
    cases hk : getKernel K system field with
    | error e =>
      left
      refine ⟨e, fun junk mode shape obs srcs ps ms hs hm => ?_⟩
      rw [pointGravity_eq junk mode K shape obs hs srcs ps ms hm, hc, hk]; rfl
    | ok kernel =>
      right
      have hsc : ∀ (fields : List String) (a : ℝ), ∃ b : ℝ, ∀ l : List ℝ,
          scaleIf field fields a l = l.map (b * ·) := by
        intro fields a
        unfold scaleIf
        split
        · exact ⟨a, fun l => List.map_congr_left fun x _ => mul_comm _ _⟩
        · exact ⟨1, fun l => by simp⟩
      obtain ⟨b1, h1⟩ := hsc ["g_z", "g_ez", "g_ze", "g_nz", "g_zn"] (-1)
      obtain ⟨b2, h2⟩ := hsc ["g_e", "g_n", "g_z"] 1e5
      obtain ⟨b3, h3⟩ := hsc
        ["g_ee", "g_nn", "g_zz", "g_en", "g_ez", "g_nz", "g_ne", "g_ze", "g_zn"] 1e9
      refine ⟨kernel, b3 * b2 * b1, rfl, fun junk mode shape obs srcs ps ms hs hm => ?_⟩
      rw [pointGravity_eq junk mode K shape obs hs srcs ps ms hm, hc, hk]
      simp only [bind, Except.bind, pure, Except.pure, h1, h2, h3, List.map_map]
      congr 2
      apply List.map_congr_left
      intro q _
      simp only [Function.comp_apply]
      ring

/-! ## C02: superposition -/

/-- C02, `point_gravity`: the field of the union of two sets of masses is the sum of the fields. -/
theorem C02_point_gravity_split (junk : Junk) (K : PointKernels) (m m1 m2 : Mode)
    (shape : List ℕ) (obs : List P3) (hshape : shape.prod = obs.length)
    (srcs1 srcs2 : List (P3 × ℝ))
    (hm : m.Full obs.length (2 * (srcs1 ++ srcs2).length))
    (hm1 : m1.Full obs.length (2 * srcs1.length)) (hm2 : m2.Full obs.length (2 * srcs2.length))
    (field system : String) :
    pointGravity junk m K (arrays shape obs) (arrays1 ((srcs1 ++ srcs2).map (·.1)))
        (array1 ((srcs1 ++ srcs2).map (·.2))) field system =
      addPy
        (pointGravity junk m1 K (arrays shape obs) (arrays1 (srcs1.map (·.1)))
          (array1 (srcs1.map (·.2))) field system)
        (pointGravity junk m2 K (arrays shape obs) (arrays1 (srcs2.map (·.1)))
          (array1 (srcs2.map (·.2))) field system) := by
  rcases pointGravity_form K field system with ⟨e, h⟩ | ⟨kernel, c, -, h⟩
  · rw [arrays1, arrays1, arrays1, array1, array1, array1, h junk m shape obs _ _ _ hshape hm,
      h junk m1 shape obs _ _ _ hshape hm1]; rfl
  · rw [arrays1, arrays1, arrays1, array1, array1, array1, h junk m shape obs _ _ _ hshape hm,
      h junk m1 shape obs _ _ _ hshape hm1, h junk m2 shape obs _ _ _ hshape hm2]
    simp only [addPy, bind, Except.bind, pure, Except.pure, List.zipWith_map, List.zipWith_self]
    congr 2
    apply List.map_congr_left
    intro q _
    rw [total_append, mul_add]

/-- C02, `point_gravity`: the order of the masses is irrelevant. -/
theorem C02_point_gravity_perm (junk : Junk) (K : PointKernels) (m m' : Mode)
    (shape : List ℕ) (obs : List P3) (hshape : shape.prod = obs.length)
    (srcs srcs' : List (P3 × ℝ)) (hp : srcs.Perm srcs')
    (hm : m.Full obs.length (2 * srcs.length)) (hm' : m'.Full obs.length (2 * srcs'.length))
    (field system : String) :
    pointGravity junk m K (arrays shape obs) (arrays1 (srcs.map (·.1)))
        (array1 (srcs.map (·.2))) field system =
      pointGravity junk m' K (arrays shape obs) (arrays1 (srcs'.map (·.1)))
        (array1 (srcs'.map (·.2))) field system := by
  rcases pointGravity_form K field system with ⟨e, h⟩ | ⟨kernel, c, -, h⟩
  · rw [arrays1, arrays1, array1, array1, h junk m shape obs _ _ _ hshape hm,
      h junk m' shape obs _ _ _ hshape hm']
  · rw [arrays1, arrays1, array1, array1, h junk m shape obs _ _ _ hshape hm,
      h junk m' shape obs _ _ _ hshape hm']
    simp only [total_perm _ _ _ hp]

/-- C02, `point_gravity` is linear in the masses. The hypothesis on choclo's kernels (linear in the
mass) is only used in Cartesian coordinates. -/
theorem C02_point_gravity_scale (junk : Junk) (K : PointKernels) (m m' : Mode)
    (hK : ∀ field kernel, (cartesianKernels K).lookup field = some kernel →
      ∀ q p a x, kernel q p (a * x) = a * kernel q p x)
    (shape : List ℕ) (obs : List P3) (hshape : shape.prod = obs.length)
    (srcs : List (P3 × ℝ)) (a : ℝ)
    (hm : m.Full obs.length (2 * srcs.length)) (hm' : m'.Full obs.length (2 * srcs.length))
    (field system : String) :
    pointGravity junk m K (arrays shape obs) (arrays1 (srcs.map (·.1)))
        (array1 (srcs.map fun s => a * s.2)) field system =
      smulPy a (pointGravity junk m' K (arrays shape obs) (arrays1 (srcs.map (·.1)))
        (array1 (srcs.map (·.2))) field system) := by
  have e1 : srcs.map (·.1) = (srcs.map fun s => (s.1, a * s.2)).map (·.1) := by simp
  have e2 : (srcs.map fun s => a * s.2) = (srcs.map fun s => (s.1, a * s.2)).map (·.2) := by simp
  have hm1 : m.Full obs.length (2 * (srcs.map fun s => (s.1, a * s.2)).length) := by simpa using hm
  rcases pointGravity_form K field system with ⟨e, h⟩ | ⟨kernel, c, hkern, h⟩
  · rw [arrays1, array1, array1, h junk m' shape obs srcs _ _ hshape hm', e2]
    conv_lhs => rw [e1]
    rw [h junk m shape obs _ _ _ hshape hm1]; rfl
  · rw [arrays1, array1, array1, h junk m' shape obs srcs _ _ hshape hm', e2]
    conv_lhs => rw [e1]
    rw [h junk m shape obs _ _ _ hshape hm1]
    simp only [smulPy, bind, Except.bind, pure, Except.pure, List.map_map]
    congr 2
    apply List.map_congr_left
    intro q _
    have hlin : ∀ q p x, kernel.eval q p (a * x) = a * kernel.eval q p x := by
      intro q p x
      cases kernel with
      | cartesian f =>
        have : (cartesianKernels K).lookup field = some f := by
          unfold getKernel at hkern
          split at hkern
          · split at hkern
            · simp at hkern
            · simp only [Except.ok.injEq, PointKernel.cartesian.injEq] at hkern
              rename_i h'; rw [h', hkern]
          · split at hkern <;> simp at hkern
        exact hK field f this q p a x
      | spherical f => simp only [PointKernel.eval]; ring
    simp only [Function.comp_apply]
    rw [total_smul (fun q s => kernel.eval q s.1 s.2) srcs a (fun s => (s.1, a * s.2))
      (fun q s _ => hlin q s.1 s.2)]
    ring

/-- C02: no masses, no field. -/
theorem C02_point_gravity_empty (junk : Junk) (K : PointKernels) (m : Mode) (shape : List ℕ)
    (obs : List P3) (hshape : shape.prod = obs.length) (hm : m.Full obs.length 0)
    (field system : String) (r : NdArray)
    (hr : pointGravity junk m K (arrays shape obs) (arrays1 []) (array1 []) field system = .ok r) :
    ∀ x ∈ r.data, x = 0 := by
  rcases pointGravity_form K field system with ⟨e, h⟩ | ⟨kernel, c, -, h⟩
  · have := h junk m shape obs [] [0] [0] hshape hm
    rw [show pointGravity junk m K (arrays shape obs) (arrays1 []) (array1 []) field system
      = .error e from this] at hr
    simp at hr
  · have := h junk m shape obs [] [0] [0] hshape hm
    rw [show pointGravity junk m K (arrays shape obs) (arrays1 []) (array1 []) field system
      = _ from this] at hr
    simp only [Except.ok.injEq] at hr
    subst hr
    simp [total]

/-- field of `prism_gravity` without the warning flag -/
noncomputable def prismField (junk : Junk) (mode : Mode) (K : PrismKernels) (shape : List ℕ)
    (obs : List P3) (srcs : List (Prism × ℝ)) (field : String) (dis : Bool) : Py NdArray :=
  (prismGravity junk mode K (arrays shape obs) (srcs.map (·.1)) (srcs.map (·.2)) field dis).map (·.2)

open Classical in
theorem prismField_form (K : PrismKernels) (field : String) :
    (∀ junk mode shape (obs : List P3) (srcs : List (Prism × ℝ)) dis, shape.prod = obs.length →
      mode.Full obs.length (2 * srcs.length) →
      prismField junk mode K shape obs srcs field dis = .error .ValueError) ∨
    (∃ k c, prismFieldTable K field = some (k, c) ∧
      ∀ junk mode shape (obs : List P3) (srcs : List (Prism × ℝ)) dis,
      shape.prod = obs.length → mode.Full obs.length (2 * srcs.length) →
      prismField junk mode K shape obs srcs field dis =
        if dis = true ∨ ∀ s ∈ srcs, s.1.Ordered then
          .ok ⟨shape, obs.map fun q => c * total (fun q s => k q s.1 s.2)
            (srcs.filter fun s => s.1.volume ≠ 0 ∧ s.2 ≠ 0) q⟩
        else .error .ValueError) := by
  have hbad : ∀ junk mode shape (obs : List P3) (srcs : List (Prism × ℝ)) dis,
      shape.prod = obs.length → mode.Full obs.length (2 * srcs.length) →
      ¬ (dis = true ∨ ∀ s ∈ srcs, s.1.Ordered) →
      prismField junk mode K shape obs srcs field dis = .error .ValueError := by
    intro junk mode shape obs srcs dis hs hm hb
    unfold prismField
    rw [prismGravity_eq junk mode K shape obs hs srcs hm]
    have : dis = false ∧ ¬ ∀ s ∈ srcs, s.1.Ordered := by
      rw [not_or] at hb; exact ⟨by simpa using hb.1, hb.2⟩
    simp only [if_pos this]
    cases (prismFields K).lookup field <;> rfl
  cases ht : prismFieldTable K field with
  | none =>
    left
    intro junk mode shape obs srcs dis hs hm
    by_cases hb : dis = true ∨ ∀ s ∈ srcs, s.1.Ordered
    · unfold prismField
      rw [C04_prism_gravity junk mode K shape obs hs srcs dis hb hm field, ht]
    · exact hbad junk mode shape obs srcs dis hs hm hb
  | some kc =>
    right
    refine ⟨kc.1, kc.2, rfl, fun junk mode shape obs srcs dis hs hm => ?_⟩
    by_cases hb : dis = true ∨ ∀ s ∈ srcs, s.1.Ordered
    · rw [if_pos hb]
      unfold prismField
      rw [C04_prism_gravity junk mode K shape obs hs srcs dis hb hm field, ht]
    · rw [if_neg hb]
      exact hbad junk mode shape obs srcs dis hs hm hb

/-- C02, `prism_gravity`: union of two sets of prisms (errors included: the union is rejected iff
one of the parts is). -/
theorem C02_prism_gravity_split (junk : Junk) (K : PrismKernels) (m m1 m2 : Mode)
    (shape : List ℕ) (obs : List P3) (hshape : shape.prod = obs.length)
    (srcs1 srcs2 : List (Prism × ℝ))
    (hm : m.Full obs.length (2 * (srcs1 ++ srcs2).length))
    (hm1 : m1.Full obs.length (2 * srcs1.length)) (hm2 : m2.Full obs.length (2 * srcs2.length))
    (field : String) (dis : Bool) :
    prismField junk m K shape obs (srcs1 ++ srcs2) field dis =
      addPy (prismField junk m1 K shape obs srcs1 field dis)
        (prismField junk m2 K shape obs srcs2 field dis) := by
  rcases prismField_form K field with h | ⟨k, c, -, h⟩
  · rw [h _ _ _ _ _ _ hshape hm, h _ _ _ _ _ _ hshape hm1]; rfl
  · rw [h _ _ _ _ _ _ hshape hm, h _ _ _ _ _ _ hshape hm1, h _ _ _ _ _ _ hshape hm2]
    have hiff : (dis = true ∨ ∀ s ∈ srcs1 ++ srcs2, s.1.Ordered) ↔
        (dis = true ∨ ∀ s ∈ srcs1, s.1.Ordered) ∧ (dis = true ∨ ∀ s ∈ srcs2, s.1.Ordered) := by
      rw [List.forall_mem_append, ← or_and_left]
    by_cases h1 : dis = true ∨ ∀ s ∈ srcs1, s.1.Ordered
    · by_cases h2 : dis = true ∨ ∀ s ∈ srcs2, s.1.Ordered
      · rw [if_pos (hiff.2 ⟨h1, h2⟩), if_pos h1, if_pos h2]
        simp only [addPy, bind, Except.bind, pure, Except.pure, List.zipWith_map,
          List.zipWith_self, List.filter_append]
        congr 2
        apply List.map_congr_left
        intro q _
        rw [total_append, mul_add]
      · rw [if_neg (fun h => h2 (hiff.1 h).2), if_pos h1, if_neg h2]; rfl
    · rw [if_neg (fun h => h1 (hiff.1 h).1), if_neg h1]; rfl

/-- C02, `prism_gravity`: the order of the prisms is irrelevant. -/
theorem C02_prism_gravity_perm (junk : Junk) (K : PrismKernels) (m m' : Mode)
    (shape : List ℕ) (obs : List P3) (hshape : shape.prod = obs.length)
    (srcs srcs' : List (Prism × ℝ)) (hp : srcs.Perm srcs')
    (hm : m.Full obs.length (2 * srcs.length)) (hm' : m'.Full obs.length (2 * srcs'.length))
    (field : String) (dis : Bool) :
    prismField junk m K shape obs srcs field dis =
      prismField junk m' K shape obs srcs' field dis := by
  rcases prismField_form K field with h | ⟨k, c, -, h⟩
  · rw [h _ _ _ _ _ _ hshape hm, h _ _ _ _ _ _ hshape hm']
  · rw [h _ _ _ _ _ _ hshape hm, h _ _ _ _ _ _ hshape hm']
    have hiff : (dis = true ∨ ∀ s ∈ srcs, s.1.Ordered) ↔
        (dis = true ∨ ∀ s ∈ srcs', s.1.Ordered) := by
      constructor <;> rintro (h | h)
      · exact .inl h
      · exact .inr fun s hs => h s (hp.mem_iff.2 hs)
      · exact .inl h
      · exact .inr fun s hs => h s (hp.mem_iff.1 hs)
    by_cases h1 : dis = true ∨ ∀ s ∈ srcs, s.1.Ordered
    · rw [if_pos h1, if_pos (hiff.1 h1)]
      simp only [total_perm _ _ _ (hp.filter _)]
    · rw [if_neg h1, if_neg (fun h => h1 (hiff.2 h))]

/-- C02, `prism_gravity` is linear in the density (choclo's kernels are assumed linear in it). -/
theorem C02_prism_gravity_scale (junk : Junk) (K : PrismKernels) (m m' : Mode)
    (hK : ∀ field k c, prismFieldTable K field = some (k, c) →
      ∀ q p a x, k q p (a * x) = a * k q p x)
    (shape : List ℕ) (obs : List P3) (hshape : shape.prod = obs.length)
    (srcs : List (Prism × ℝ)) (a : ℝ)
    (hm : m.Full obs.length (2 * srcs.length)) (hm' : m'.Full obs.length (2 * srcs.length))
    (field : String) (dis : Bool) :
    prismField junk m K shape obs (srcs.map fun s => (s.1, a * s.2)) field dis =
      smulPy a (prismField junk m' K shape obs srcs field dis) := by
  have hm1 : m.Full obs.length (2 * (srcs.map fun s => (s.1, a * s.2)).length) := by simpa using hm
  rcases prismField_form K field with h | ⟨k, c, ht, h⟩
  · rw [h _ _ _ _ _ _ hshape hm1, h _ _ _ _ _ _ hshape hm']; rfl
  · rw [h _ _ _ _ _ _ hshape hm1, h _ _ _ _ _ _ hshape hm']
    have hlin := hK field k c ht
    have hzero : ∀ q p, k q p 0 = 0 := fun q p => by have := hlin q p 0 0; simpa using this
    have hiff : (dis = true ∨ ∀ s ∈ srcs.map fun s => (s.1, a * s.2), s.1.Ordered) ↔
        (dis = true ∨ ∀ s ∈ srcs, s.1.Ordered) := by
      constructor <;> rintro (h | h)
      · exact .inl h
      · exact .inr fun s hs => h (s.1, a * s.2)
          (List.mem_map_of_mem (f := fun s : Prism × ℝ => (s.1, a * s.2)) hs)
      · exact .inl h
      · refine .inr fun s hs => ?_
        obtain ⟨t, ht, rfl⟩ := List.mem_map.1 hs
        exact h t ht
    have hf : ∀ (l : List (Prism × ℝ)) q, total (fun q s => k q s.1 s.2)
        (l.filter fun s => s.1.volume ≠ 0 ∧ s.2 ≠ 0) q
        = total (fun q s => k q s.1 s.2) (l.filter fun s => s.1.volume ≠ 0) q := by
      intro l q
      have : (l.filter fun s => s.1.volume ≠ 0 ∧ s.2 ≠ 0)
          = (l.filter fun s => s.1.volume ≠ 0).filter fun s => s.2 ≠ 0 := by
        rw [List.filter_filter]
        apply List.filter_congr
        intro s _
        simp [and_comm]
      rw [this]
      apply total_filter
      intro s _ hs
      have : s.2 = 0 := by simpa using hs
      rw [this, hzero]
    by_cases h1 : dis = true ∨ ∀ s ∈ srcs, s.1.Ordered
    · rw [if_pos h1, if_pos (hiff.2 h1)]
      simp only [smulPy, bind, Except.bind, pure, Except.pure, List.map_map]
      congr 2
      apply List.map_congr_left
      intro q _
      simp only [Function.comp_apply]
      rw [hf, hf, List.filter_map]
      rw [total_smul (fun q s => k q s.1 s.2) _ a (fun s => (s.1, a * s.2))
        (fun q s _ => hlin q s.1 a s.2)]
      simp only [Function.comp_def]
      ring
    · rw [if_neg h1, if_neg (fun h => h1 (hiff.1 h))]; rfl

/-! ## C03: null prisms -/

open Classical in
/-- C03: the arrays passed to the loops are those of the bodies with non-zero volume and non-zero
density, in the original order and each with its own density. -/
theorem C03_prism_discard_exact (srcs : List (Prism × ℝ)) :
    let kept := srcs.filter fun s => s.1.volume ≠ 0 ∧ s.2 ≠ 0
    discardNullPrisms (srcs.map (·.1)) (srcs.map (·.2)) =
      .ok (kept.map (·.1), kept.map (·.2)) := by
  intro kept
  have hkeep : srcs.filter keepPrism = kept := by
    apply List.filter_congr
    intro s hs
    unfold keepPrism zeroVolume Prism.volume
    rw [Bool.eq_iff_iff]
    have h1 : s.1.east - s.1.west = 0 ↔ s.1.west = s.1.east := by rw [sub_eq_zero, eq_comm]
    have h2 : s.1.north - s.1.south = 0 ↔ s.1.south = s.1.north := by rw [sub_eq_zero, eq_comm]
    have h3 : s.1.top - s.1.bottom = 0 ↔ s.1.bottom = s.1.top := by rw [sub_eq_zero, eq_comm]
    simp [h1, h2, h3, not_or, and_assoc]
  rw [discardNullPrisms_eq, hkeep]

/-- C03, `prism_gravity`: the result is the sum over all the bodies, nothing is lost by dropping
(the kernels of a body without mass are zero). -/
theorem C03_prism_gravity_no_loss (junk : Junk) (mode : Mode) (K : PrismKernels)
    (shape : List ℕ) (obs : List P3) (hshape : shape.prod = obs.length)
    (srcs : List (Prism × ℝ)) (hm : mode.Full obs.length (2 * srcs.length))
    (dis : Bool) (hord : dis = true ∨ ∀ s ∈ srcs, s.1.Ordered) (field : String)
    (k : P3 → Prism → ℝ → ℝ) (c : ℝ) (ht : prismFieldTable K field = some (k, c))
    (hnull : ∀ q p d, p.volume = 0 ∨ d = 0 → k q p d = 0) :
    prismField junk mode K shape obs srcs field dis =
      .ok ⟨shape, obs.map fun q => c * total (fun q s => k q s.1 s.2) srcs q⟩ := by
  unfold prismField
  rw [C04_prism_gravity junk mode K shape obs hshape srcs dis hord hm field, ht]
  simp only
  congr 2
  apply List.map_congr_left
  intro q _
  rw [total_filter]
  intro s _ hs
  apply hnull
  by_contra h
  rw [not_or] at h
  simp [h.1, h.2] at hs

/-- a non-trivial case for C03: a list with a kept prism, an empty one and one without density -/
example : discardNullPrisms [⟨0, 1, 0, 1, 0, 1⟩, ⟨0, 0, 0, 1, 0, 1⟩, ⟨0, 2, 0, 1, 0, 1⟩] [5, 6, 0]
    = .ok ([⟨0, 1, 0, 1, 0, 1⟩], [5]) := by
  have h := C03_prism_discard_exact
    [(⟨0, 1, 0, 1, 0, 1⟩, 5), (⟨0, 0, 0, 1, 0, 1⟩, 6), (⟨0, 2, 0, 1, 0, 1⟩, 0)]
  simpa [Prism.volume] using h

/-! ## C05: magnetic fields -/

/-- C05, `dipole_magnetic`: names, units and sums for every field string. -/
theorem C05_dipole_magnetic (junk : Junk) (mode : Mode) (K : MagKernels P3) (shape ps : List ℕ)
    (obs : List P3) (hshape : shape.prod = obs.length) (srcs : List (P3 × V3))
    (hm : mode.Full obs.length (6 * srcs.length)) (field : String) (dis : Bool) :
    dipoleMagnetic junk mode K (arrays shape obs) (arrays ps (srcs.map (·.1)))
        [(srcs.map (·.2)).map (·.x), (srcs.map (·.2)).map (·.y), (srcs.map (·.2)).map (·.z)]
        field dis = magSpec K shape obs srcs field :=
  dipoleMagnetic_eq junk mode K shape ps obs hshape srcs hm field dis

open Classical in
/-- C05, `prism_magnetic`: names, units and sums for every field string. -/
theorem C05_prism_magnetic (junk : Junk) (mode : Mode) (K : MagKernels Prism) (shape : List ℕ)
    (obs : List P3) (hshape : shape.prod = obs.length) (srcs : List (Prism × V3))
    (hm : mode.Full obs.length (6 * srcs.length)) (field : String) (dis : Bool) :
    prismMagnetic junk mode K (arrays shape obs) (srcs.map (·.1))
        [(srcs.map (·.2)).map (·.x), (srcs.map (·.2)).map (·.y), (srcs.map (·.2)).map (·.z)]
        field dis =
      if dis = true ∨ ∀ s ∈ srcs, s.1.Ordered then
        magSpec K shape obs
          (srcs.filter fun s => s.1.volume ≠ 0 ∧ ¬ (s.2.x = 0 ∧ s.2.y = 0 ∧ s.2.z = 0)) field
      else .error .ValueError := by
  rw [prismMagnetic_eq junk mode K shape obs hshape srcs hm field dis]
  have hkeep : srcs.filter keepMag
      = srcs.filter fun s => s.1.volume ≠ 0 ∧ ¬ (s.2.x = 0 ∧ s.2.y = 0 ∧ s.2.z = 0) := by
    apply List.filter_congr
    intro s hs
    unfold keepMag zeroVolume Prism.volume
    rw [Bool.eq_iff_iff]
    have h1 : s.1.east - s.1.west = 0 ↔ s.1.west = s.1.east := by rw [sub_eq_zero, eq_comm]
    have h2 : s.1.north - s.1.south = 0 ↔ s.1.south = s.1.north := by rw [sub_eq_zero, eq_comm]
    have h3 : s.1.top - s.1.bottom = 0 ↔ s.1.bottom = s.1.top := by rw [sub_eq_zero, eq_comm]
    simp [h1, h2, h3, not_or, and_assoc, or_assoc]
  rw [hkeep]
  by_cases hb : dis = true ∨ ∀ s ∈ srcs, s.1.Ordered
  · rw [if_pos hb, if_neg]
    rintro ⟨h1, h2⟩
    rcases hb with h | h
    · simp [h] at h1
    · exact h2 h
  · rw [if_neg hb, if_pos]
    rw [not_or] at hb
    exact ⟨by simpa using hb.1, hb.2⟩

/-- C05: on any list of sources, "b" is the triple of the three components (choclo's vector kernel
returns the three component kernels). -/
theorem C05_vector_eq_components {S : Type} (K : MagKernels S)
    (hK : ∀ q s m, K.field q s m = (K.e q s m, K.n q s m, K.u q s m))
    (shape : List ℕ) (obs : List P3) (srcs : List (S × V3)) :
    ∃ be bn bu, magSpec K shape obs srcs "b_e" = .ok (.single be) ∧
      magSpec K shape obs srcs "b_n" = .ok (.single bn) ∧
      magSpec K shape obs srcs "b_u" = .ok (.single bu) ∧
      magSpec K shape obs srcs "b" = .ok (.vector be bn bu) := by
  refine ⟨_, _, _, by simp [magSpec]; rfl, by simp [magSpec]; rfl, by simp [magSpec]; rfl, ?_⟩
  simp [magSpec, hK]

/-- C05 for the API: `dipole_magnetic(..., field="b")` is the tuple of the results for "b_e", "b_n"
and "b_u", each run serially or in parallel. -/
theorem C05_dipole_b (junk : Junk) (m m1 m2 m3 : Mode) (K : MagKernels P3)
    (hK : ∀ q s m, K.field q s m = (K.e q s m, K.n q s m, K.u q s m))
    (shape ps : List ℕ) (obs : List P3) (hshape : shape.prod = obs.length)
    (srcs : List (P3 × V3)) (dis : Bool)
    (hm : m.Full obs.length (6 * srcs.length)) (hm1 : m1.Full obs.length (6 * srcs.length))
    (hm2 : m2.Full obs.length (6 * srcs.length)) (hm3 : m3.Full obs.length (6 * srcs.length)) :
    let call := fun mode field =>
      dipoleMagnetic junk mode K (arrays shape obs) (arrays ps (srcs.map (·.1)))
        [(srcs.map (·.2)).map (·.x), (srcs.map (·.2)).map (·.y), (srcs.map (·.2)).map (·.z)]
        field dis
    ∃ be bn bu, call m1 "b_e" = .ok (.single be) ∧ call m2 "b_n" = .ok (.single bn) ∧
      call m3 "b_u" = .ok (.single bu) ∧ call m "b" = .ok (.vector be bn bu) := by
  intro call
  simp only [call, dipoleMagnetic_eq junk _ K shape ps obs hshape srcs hm,
    dipoleMagnetic_eq junk _ K shape ps obs hshape srcs hm1,
    dipoleMagnetic_eq junk _ K shape ps obs hshape srcs hm2,
    dipoleMagnetic_eq junk _ K shape ps obs hshape srcs hm3]
  exact C05_vector_eq_components K hK shape obs srcs

/-- C05 for the API: the same for `prism_magnetic`. -/
theorem C05_prism_b (junk : Junk) (m m1 m2 m3 : Mode) (K : MagKernels Prism)
    (hK : ∀ q s m, K.field q s m = (K.e q s m, K.n q s m, K.u q s m))
    (shape : List ℕ) (obs : List P3) (hshape : shape.prod = obs.length)
    (srcs : List (Prism × V3)) (dis : Bool) (hord : dis = true ∨ ∀ s ∈ srcs, s.1.Ordered)
    (hm : m.Full obs.length (6 * srcs.length)) (hm1 : m1.Full obs.length (6 * srcs.length))
    (hm2 : m2.Full obs.length (6 * srcs.length)) (hm3 : m3.Full obs.length (6 * srcs.length)) :
    let call := fun mode field =>
      prismMagnetic junk mode K (arrays shape obs) (srcs.map (·.1))
        [(srcs.map (·.2)).map (·.x), (srcs.map (·.2)).map (·.y), (srcs.map (·.2)).map (·.z)]
        field dis
    ∃ be bn bu, call m1 "b_e" = .ok (.single be) ∧ call m2 "b_n" = .ok (.single bn) ∧
      call m3 "b_u" = .ok (.single bu) ∧ call m "b" = .ok (.vector be bn bu) := by
  intro call
  simp only [call, C05_prism_magnetic junk _ K shape obs hshape srcs hm,
    C05_prism_magnetic junk _ K shape obs hshape srcs hm1,
    C05_prism_magnetic junk _ K shape obs hshape srcs hm2,
    C05_prism_magnetic junk _ K shape obs hshape srcs hm3, if_pos hord]
  exact C05_vector_eq_components K hK shape obs _

/-- elementwise linear combination of magnetic results -/
noncomputable def MagResult.lin (a b : ℝ) : MagResult → MagResult → Option MagResult
  | .single x, .single y => some (.single ⟨x.shape, List.zipWith (a * · + b * ·) x.data y.data⟩)
  | .vector x1 x2 x3, .vector y1 y2 y3 =>
    some (.vector ⟨x1.shape, List.zipWith (a * · + b * ·) x1.data y1.data⟩
      ⟨x2.shape, List.zipWith (a * · + b * ·) x2.data y2.data⟩
      ⟨x3.shape, List.zipWith (a * · + b * ·) x3.data y3.data⟩)
  | _, _ => none

/-- linear combination of two vectors -/
noncomputable def V3.lin (a b : ℝ) (m m' : V3) : V3 :=
  ⟨a * m.x + b * m'.x, a * m.y + b * m'.y, a * m.z + b * m'.z⟩

theorem total_lin {S : Type} (k : P3 → S → V3 → ℝ) (a b : ℝ)
    (hk : ∀ q s m m', k q s (V3.lin a b m m') = a * k q s m + b * k q s m')
    (srcs : List (S × V3 × V3)) (q : P3) :
    total (fun q s => k q s.1 s.2) (srcs.map fun s => (s.1, V3.lin a b s.2.1 s.2.2)) q =
      a * total (fun q s => k q s.1 s.2) (srcs.map fun s => (s.1, s.2.1)) q +
      b * total (fun q s => k q s.1 s.2) (srcs.map fun s => (s.1, s.2.2)) q := by
  unfold total
  induction srcs with
  | nil => simp
  | cons s srcs ih =>
    simp only [List.map_cons, List.sum_cons] at ih ⊢
    rw [ih, hk]; ring

/-- C05, linearity in the magnetic moments: for sources with two sets of moments, the field of the
combination is the combination of the fields (kernels linear in the moment). -/
theorem C05_dipole_linear (junk : Junk) (m m1 m2 : Mode) (K : MagKernels P3) (a b : ℝ)
    (hf : ∀ q s x y, K.field q s (V3.lin a b x y) =
      (a * (K.field q s x).1 + b * (K.field q s y).1,
       a * (K.field q s x).2.1 + b * (K.field q s y).2.1,
       a * (K.field q s x).2.2 + b * (K.field q s y).2.2))
    (he : ∀ q s x y, K.e q s (V3.lin a b x y) = a * K.e q s x + b * K.e q s y)
    (hn : ∀ q s x y, K.n q s (V3.lin a b x y) = a * K.n q s x + b * K.n q s y)
    (hu : ∀ q s x y, K.u q s (V3.lin a b x y) = a * K.u q s x + b * K.u q s y)
    (shape ps : List ℕ) (obs : List P3) (hshape : shape.prod = obs.length)
    (srcs : List (P3 × V3 × V3)) (dis : Bool) (field : String) (x y : MagResult)
    (hm : m.Full obs.length (6 * srcs.length)) (hm1 : m1.Full obs.length (6 * srcs.length))
    (hm2 : m2.Full obs.length (6 * srcs.length)) :
    let call := fun mode (l : List (P3 × V3)) =>
      dipoleMagnetic junk mode K (arrays shape obs) (arrays ps (l.map (·.1)))
        [(l.map (·.2)).map (·.x), (l.map (·.2)).map (·.y), (l.map (·.2)).map (·.z)] field dis
    call m1 (srcs.map fun s => (s.1, s.2.1)) = .ok x →
    call m2 (srcs.map fun s => (s.1, s.2.2)) = .ok y →
    ∃ z, MagResult.lin a b x y = some z ∧
      call m (srcs.map fun s => (s.1, V3.lin a b s.2.1 s.2.2)) = .ok z := by
  intro call hx hy
  simp only [call] at hx hy ⊢
  rw [dipoleMagnetic_eq junk _ K shape ps obs hshape _ (by simpa using hm1)] at hx
  rw [dipoleMagnetic_eq junk _ K shape ps obs hshape _ (by simpa using hm2)] at hy
  rw [dipoleMagnetic_eq junk _ K shape ps obs hshape _ (by simpa using hm)]
  have hfe := total_lin (fun q s m => (K.field q s m).1) a b
    (fun q s m m' => by rw [hf]) srcs
  have hfn := total_lin (fun q s m => (K.field q s m).2.1) a b
    (fun q s m m' => by rw [hf]) srcs
  have hfu := total_lin (fun q s m => (K.field q s m).2.2) a b
    (fun q s m m' => by rw [hf]) srcs
  have hce := total_lin K.e a b he srcs
  have hcn := total_lin K.n a b hn srcs
  have hcu := total_lin K.u a b hu srcs
  unfold magSpec at hx hy ⊢
  simp only at hx hy ⊢
  split at hx
  · rename_i hb
    simp only [hb, if_true, Except.ok.injEq] at hx hy ⊢
    subst hx hy
    refine ⟨_, rfl, ?_⟩
    simp only [List.zipWith_map, List.zipWith_self, hfe, hfn, hfu]
    refine congr (congr (congrArg MagResult.vector ?_) ?_) ?_ <;>
      refine congrArg (NdArray.mk shape) ?_ <;>
      apply List.map_congr_left <;> intro q _ <;> ring
  split at hx
  · rename_i hb0 hb
    simp only [hb] at hx hy ⊢
    simp at hx hy ⊢
    subst hx hy
    simp only [MagResult.lin, List.zipWith_map, List.zipWith_self, hce]
    refine congrArg (fun l => some (MagResult.single (NdArray.mk shape l))) ?_
    apply List.map_congr_left; intro q _; ring
  split at hx
  · rename_i hb0 hb1 hb
    simp only [hb] at hx hy ⊢
    simp at hx hy ⊢
    subst hx hy
    simp only [MagResult.lin, List.zipWith_map, List.zipWith_self, hcn]
    refine congrArg (fun l => some (MagResult.single (NdArray.mk shape l))) ?_
    apply List.map_congr_left; intro q _; ring
  split at hx
  · rename_i hb0 hb1 hb2 hb
    simp only [hb] at hx hy ⊢
    simp at hx hy ⊢
    subst hx hy
    simp only [MagResult.lin, List.zipWith_map, List.zipWith_self, hcu]
    refine congrArg (fun l => some (MagResult.single (NdArray.mk shape l))) ?_
    apply List.map_congr_left; intro q _; ring
  · simp at hx

/-! ## C06: validation of prisms -/

/-- C06: `check_prisms` accepts exactly the lists of ordered prisms and otherwise raises
ValueError. -/
theorem C06_check_prisms (prisms : List Prism) :
    (checkPrisms prisms = .ok () ↔
      ∀ p ∈ prisms, p.west ≤ p.east ∧ p.south ≤ p.north ∧ p.bottom ≤ p.top) ∧
    (checkPrisms prisms ≠ .ok () → checkPrisms prisms = .error .ValueError) := by
  rw [checkPrisms_eq]
  constructor
  · constructor
    · intro h
      split at h
      · assumption
      · simp at h
    · intro h; rw [if_pos]; exact h
  · split <;> simp

/-- C06 at the level of the API: with the checks on, an unordered prism is always rejected by
`prism_gravity` and `prism_magnetic`; prisms with equal bounds are not. -/
theorem C06_prism_gravity_rejects (junk : Junk) (mode : Mode) (K : PrismKernels)
    (coordinates : NdArray × NdArray × NdArray) (prisms : List Prism) (density : List ℝ)
    (field : String) (h : ∃ p ∈ prisms, p.west > p.east ∨ p.south > p.north ∨ p.bottom > p.top) :
    prismGravity junk mode K coordinates prisms density field false = .error .ValueError := by
  have hbad : checkPrisms prisms = .error .ValueError := by
    apply (C06_check_prisms prisms).2
    intro hok
    obtain ⟨p, hp, h⟩ := h
    have := (C06_check_prisms prisms).1.1 hok p hp
    rcases h with h | h | h <;> linarith [this.1, this.2.1, this.2.2]
  unfold prismGravity
  split
  · rfl
  · unfold npBroadcast
    split
    · rfl
    · simp only [bind, Except.bind, Bool.not_false, Bool.true_and, if_true, hbad]
      split <;> rfl

theorem C06_prism_magnetic_rejects (junk : Junk) (mode : Mode) (K : MagKernels Prism)
    (coordinates : NdArray × NdArray × NdArray) (prisms : List Prism) (mag : List (List ℝ))
    (field : String) (h : ∃ p ∈ prisms, p.west > p.east ∨ p.south > p.north ∨ p.bottom > p.top) :
    prismMagnetic junk mode K coordinates prisms mag field false = .error .ValueError := by
  have hbad : checkPrisms prisms = .error .ValueError := by
    apply (C06_check_prisms prisms).2
    intro hok
    obtain ⟨p, hp, h⟩ := h
    have := (C06_check_prisms prisms).1.1 hok p hp
    rcases h with h | h | h <;> linarith [this.1, this.2.1, this.2.2]
  have hb : ∀ a b c, npBroadcast a b c = .error .ValueError ∨ ∃ r, npBroadcast a b c = .ok r := by
    intro a b c
    unfold npBroadcast
    split
    · exact .inl rfl
    · exact .inr ⟨_, rfl⟩
  unfold prismMagnetic
  rcases hb coordinates.1 coordinates.2.1 coordinates.2.2 with h0 | ⟨r, h0⟩
  · simp only [Py.throw_eq, Py.bind_error, h0]
    split <;> rfl
  · simp only [Py.throw_eq, Py.bind_error, Py.bind_ok, Bool.not_false, Bool.true_and, if_true, hbad,
      h0]
    repeat' split
    all_goals rfl

end Verif.Forward
