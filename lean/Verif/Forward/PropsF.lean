import Verif.Forward.PrismBody

/-!
C111: the gravity of prisms depends on the distribution of density only, and not on the frame.
C112: it is bounded by the mass over (the square of) the distance.
-/

namespace Verif.Forward
open Verif.Distance Verif.Engine Filter Topology MeasureTheory

/-! ### Lemmas -/

theorem prism_integral {k0 : P3 → P3 → ℝ → ℝ} {a : ℕ} (h0 : PointField k0 a) (q : P3) (p : Prism) (ρ : ℝ) :
    ∫ r in p.body, k0 q (pointAt r) ρ = ∫ r, p.body.indicator (fun _ => ρ) r * k0 q (pointAt r) 1 := by
  rw [← integral_indicator p.body_meas]
  congr 1
  funext r
  by_cases hr : r ∈ p.body
  · rw [Set.indicator_of_mem hr, Set.indicator_of_mem hr, h0.lin]
  · rw [Set.indicator_of_notMem hr, Set.indicator_of_notMem hr, zero_mul]

theorem prism_integrable {k0 : P3 → P3 → ℝ → ℝ} {a : ℕ} (h0 : PointField k0 a) (q : P3) (p : Prism) (ρ : ℝ)
    (ho : a ≤ 2 ∨ coords q ∉ p.body) :
    Integrable fun r => p.body.indicator (fun _ => ρ) r * k0 q (pointAt r) 1 := by
  have hI : IntegrableOn (fun r => k0 q (pointAt r) ρ) p.body := by
    rcases ho with ho | ho
    · exact h0.integrableOn ho q p ρ
    · exact h0.integrableOn_outside ho ρ
  refine ((integrable_indicator_iff p.body_meas).2 hI).congr (Eventually.of_forall fun r => ?_)
  simp only
  by_cases hr : r ∈ p.body
  · rw [Set.indicator_of_mem hr, Set.indicator_of_mem hr, h0.lin]
  · rw [Set.indicator_of_notMem hr, Set.indicator_of_notMem hr, zero_mul]

open Classical in
/-- The sum over the prisms that are not discarded is the sum of all the integrals. -/
theorem total_kept {k : P3 → Prism → ℝ → ℝ} {k0 : P3 → P3 → ℝ → ℝ} {a : ℕ} (h0 : PointField k0 a)
    (hk : ∀ q p ρ, p.Ordered → (a ≤ 2 ∨ coords q ∉ p.body) → k q p ρ = ∫ r in p.body, k0 q (pointAt r) ρ)
    (srcs : List (Prism × ℝ)) (hord : ∀ s ∈ srcs, s.1.Ordered) (q : P3)
    (ho : a ≤ 2 ∨ ∀ s ∈ srcs, coords q ∉ s.1.body) :
    total (fun q s => k q s.1 s.2) (srcs.filter fun s => s.1.volume ≠ 0 ∧ s.2 ≠ 0) q =
      (srcs.map fun s => ∫ r in s.1.body, k0 q (pointAt r) s.2).sum := by
  unfold total
  induction srcs with
  | nil => rfl
  | cons s srcs ih =>
    have ih := ih (fun s hs => hord s (by simp [hs])) (ho.imp id fun h s hs => h s (by simp [hs]))
    have h1 := hord s (by simp)
    by_cases hs : s.1.volume ≠ 0 ∧ s.2 ≠ 0
    · rw [List.filter_cons_of_pos (by simpa using hs), List.map_cons, List.map_cons, List.sum_cons, List.sum_cons, ih]
      beta_reduce
      rw [hk q s.1 s.2 h1 (ho.imp id fun h => h s (by simp))]
    · rw [List.filter_cons_of_neg (by simpa using hs), List.map_cons, List.sum_cons, ih]
      have : ∫ r in s.1.body, k0 q (pointAt r) s.2 = 0 := by
        by_cases hv : s.1.volume = 0
        · exact s.1.integral_null h1 hv _
        · have h2 : s.2 = 0 := by
            by_contra h
            exact hs ⟨hv, h⟩
          have hz : ∀ r, k0 q (pointAt r) s.2 = 0 := fun r => by rw [h0.lin, h2, zero_mul]
          simp only [hz, integral_zero]
      rw [this, zero_add]

/-- The sum of the integrals is the integral of the density of all prisms. -/
theorem sum_integrals {k0 : P3 → P3 → ℝ → ℝ} {a : ℕ} (h0 : PointField k0 a) (srcs : List (Prism × ℝ)) (q : P3)
    (ho : a ≤ 2 ∨ ∀ s ∈ srcs, coords q ∉ s.1.body) :
    (srcs.map fun s => ∫ r in s.1.body, k0 q (pointAt r) s.2).sum =
        ∫ r, densityAt srcs r * k0 q (pointAt r) 1 ∧
      Integrable fun r => densityAt srcs r * k0 q (pointAt r) 1 := by
  induction srcs with
  | nil => simp [densityAt]
  | cons s srcs ih =>
    obtain ⟨ih1, ih2⟩ := ih (ho.imp id fun h s hs => h s (by simp [hs]))
    have hs := prism_integrable h0 q s.1 s.2 (ho.imp id fun h => h s (by simp))
    have e : (fun r => densityAt (s :: srcs) r * k0 q (pointAt r) 1) = fun r =>
        s.1.body.indicator (fun _ => s.2) r * k0 q (pointAt r) 1 + densityAt srcs r * k0 q (pointAt r) 1 := by
      funext r
      simp only [densityAt, List.map_cons, List.sum_cons, add_mul]
    rw [e]
    refine ⟨?_, hs.add ih2⟩
    rw [integral_add hs ih2, List.map_cons, List.sum_cons, ih1, prism_integral h0]

/-- The fields that exist everywhere, also inside of the prisms. -/
def everywhere : List String := ["potential", "g_e", "g_n", "g_z"]

/-- `q` may be used for this field: tensor components are for points outside the prisms. -/
def Allowed (field : String) (srcs : List (Prism × ℝ)) (q : P3) : Prop :=
  field ∈ everywhere ∨ ∀ s ∈ srcs, coords q ∉ s.1.body

/-- What `prism_gravity` returns, in terms of the density. -/
theorem prismGravity_density (junk : Junk) (mode : Mode) {K : PrismKernels} (hK : K.Newtonian) (shape : List ℕ)
    (obs : List P3) (hshape : shape.prod = obs.length) (srcs : List (Prism × ℝ)) (dis : Bool)
    (hord : ∀ s ∈ srcs, s.1.Ordered) (hm : mode.Full obs.length (2 * srcs.length)) (field : String)
    (ho : ∀ q ∈ obs, Allowed field srcs q) :
    (prismGravity junk mode K (arrays shape obs) (srcs.map (·.1)) (srcs.map (·.2)) field dis).map (·.2) =
      match prismFieldTable K field, pointFieldTable newtonKernels field with
      | some _, some (k0, factor) =>
        .ok ⟨shape, obs.map fun q => factor * ∫ r, densityAt srcs r * k0 q (pointAt r) 1⟩
      | _, _ => .error .ValueError := by
  rw [C04_prism_gravity junk mode K shape obs hshape srcs dis (Or.inr hord) hm field]
  cases h : prismFieldTable K field with
  | none => rfl
  | some kf =>
    obtain ⟨k, factor⟩ := kf
    obtain ⟨k0, a, h0, ha, ht, hk⟩ := hK.table h
    rw [ht]
    simp only
    congr 2
    apply List.map_congr_left
    intro q hq
    have hoq : a ≤ 2 ∨ ∀ s ∈ srcs, coords q ∉ s.1.body := (ho q hq).imp (fun h => ha h) id
    rw [total_kept h0 hk srcs hord q hoq, (sum_integrals h0 srcs q hoq).1]

/-! ### C111 -/

/-- C111: two sets of prisms with the same density at (almost) every point of space have the same gravity, for every
field: prisms may be divided, joined, reordered or overlap. The components of the tensor, for observation points
outside the prisms. -/
theorem C111_same_density (junk junk' : Junk) (mode mode' : Mode) {K : PrismKernels} (hK : K.Newtonian)
    (shape : List ℕ) (obs : List P3) (hshape : shape.prod = obs.length) (srcs srcs' : List (Prism × ℝ))
    (dis dis' : Bool) (hord : ∀ s ∈ srcs, s.1.Ordered) (hord' : ∀ s ∈ srcs', s.1.Ordered)
    (hm : mode.Full obs.length (2 * srcs.length)) (hm' : mode'.Full obs.length (2 * srcs'.length)) (field : String)
    (ho : ∀ q ∈ obs, Allowed field (srcs ++ srcs') q)
    (h : ∀ᵐ r, densityAt srcs r = densityAt srcs' r) :
    (prismGravity junk mode K (arrays shape obs) (srcs.map (·.1)) (srcs.map (·.2)) field dis).map (·.2) =
    (prismGravity junk' mode' K (arrays shape obs) (srcs'.map (·.1)) (srcs'.map (·.2)) field dis').map (·.2) := by
  rw [prismGravity_density junk mode hK shape obs hshape srcs dis hord hm field
      fun q hq => (ho q hq).imp id fun h s hs => h s (List.mem_append_left _ hs),
    prismGravity_density junk' mode' hK shape obs hshape srcs' dis' hord' hm' field
      fun q hq => (ho q hq).imp id fun h s hs => h s (List.mem_append_right _ hs)]
  cases prismFieldTable K field with
  | none => rfl
  | some _ =>
    cases pointFieldTable newtonKernels field with
    | none => rfl
    | some kf =>
      simp only
      congr 2
      apply List.map_congr_left
      intro q _
      congr 1
      apply integral_congr_ae
      filter_upwards [h] with r hr
      rw [hr]

/-- The parts of a prism at both sides of a vertical plane (first two) or of a horizontal plane. -/
def Prism.cutEasting (p : Prism) (c : ℝ) : Prism × Prism := ({ p with east := c }, { p with west := c })
@[inherit_doc Prism.cutEasting]
def Prism.cutNorthing (p : Prism) (c : ℝ) : Prism × Prism := ({ p with north := c }, { p with south := c })
@[inherit_doc Prism.cutEasting]
def Prism.cutUpward (p : Prism) (c : ℝ) : Prism × Prism := ({ p with top := c }, { p with bottom := c })

theorem plane_x (c : ℝ) : ∀ᵐ r : ℝ × ℝ × ℝ, r.1 ≠ c := by
  rw [ae_iff]
  have : {r : ℝ × ℝ × ℝ | ¬ r.1 ≠ c} = {c} ×ˢ Set.univ := by ext r; simp
  rw [this, Measure.volume_eq_prod, Measure.prod_prod]
  simp

theorem plane_y (c : ℝ) : ∀ᵐ r : ℝ × ℝ × ℝ, r.2.1 ≠ c := by
  rw [ae_iff]
  have : {r : ℝ × ℝ × ℝ | ¬ r.2.1 ≠ c} = Set.univ ×ˢ ({c} ×ˢ Set.univ) := by ext r; simp
  rw [this, Measure.volume_eq_prod, Measure.prod_prod, Measure.volume_eq_prod, Measure.prod_prod]
  simp

theorem plane_z (c : ℝ) : ∀ᵐ r : ℝ × ℝ × ℝ, r.2.2 ≠ c := by
  rw [ae_iff]
  have : {r : ℝ × ℝ × ℝ | ¬ r.2.2 ≠ c} = Set.univ ×ˢ (Set.univ ×ˢ {c}) := by ext r; simp
  rw [this, Measure.volume_eq_prod, Measure.prod_prod, Measure.volume_eq_prod, Measure.prod_prod]
  simp

theorem indicator_cut {A B C : Set (ℝ × ℝ × ℝ)} {r : ℝ × ℝ × ℝ} (ρ : ℝ)
    (h : (r ∈ A ↔ r ∈ B ∨ r ∈ C) ∧ ¬ (r ∈ B ∧ r ∈ C)) :
    A.indicator (fun _ => ρ) r = B.indicator (fun _ => ρ) r + C.indicator (fun _ => ρ) r := by
  classical
  simp only [Set.indicator_apply]
  by_cases hB : r ∈ B <;> by_cases hC : r ∈ C <;> simp_all

theorem cut_density (p : Prism) (ρ c : ℝ) :
    (p.west ≤ c → c ≤ p.east → ∀ᵐ r, p.body.indicator (fun _ => ρ) r =
      (p.cutEasting c).1.body.indicator (fun _ => ρ) r + (p.cutEasting c).2.body.indicator (fun _ => ρ) r) ∧
    (p.south ≤ c → c ≤ p.north → ∀ᵐ r, p.body.indicator (fun _ => ρ) r =
      (p.cutNorthing c).1.body.indicator (fun _ => ρ) r + (p.cutNorthing c).2.body.indicator (fun _ => ρ) r) ∧
    (p.bottom ≤ c → c ≤ p.top → ∀ᵐ r, p.body.indicator (fun _ => ρ) r =
      (p.cutUpward c).1.body.indicator (fun _ => ρ) r + (p.cutUpward c).2.body.indicator (fun _ => ρ) r) := by
  refine ⟨fun h1 h2 => ?_, fun h1 h2 => ?_, fun h1 h2 => ?_⟩
  · filter_upwards [plane_x c] with r hr
    apply indicator_cut
    simp only [Prism.body, Prism.cutEasting, Set.mem_prod, Set.mem_Icc]
    constructor
    · constructor
      · rintro ⟨⟨a, b⟩, h⟩
        rcases le_total r.1 c with h' | h'
        · exact Or.inl ⟨⟨a, h'⟩, h⟩
        · exact Or.inr ⟨⟨h', b⟩, h⟩
      · rintro (⟨⟨a, b⟩, h⟩ | ⟨⟨a, b⟩, h⟩)
        · exact ⟨⟨a, b.trans h2⟩, h⟩
        · exact ⟨⟨h1.trans a, b⟩, h⟩
    · rintro ⟨⟨⟨a, b⟩, -⟩, ⟨⟨a', b'⟩, -⟩⟩
      exact hr (le_antisymm b a')
  · filter_upwards [plane_y c] with r hr
    apply indicator_cut
    simp only [Prism.body, Prism.cutNorthing, Set.mem_prod, Set.mem_Icc]
    constructor
    · constructor
      · rintro ⟨g, ⟨a, b⟩, h⟩
        rcases le_total r.2.1 c with h' | h'
        · exact Or.inl ⟨g, ⟨a, h'⟩, h⟩
        · exact Or.inr ⟨g, ⟨h', b⟩, h⟩
      · rintro (⟨g, ⟨a, b⟩, h⟩ | ⟨g, ⟨a, b⟩, h⟩)
        · exact ⟨g, ⟨a, b.trans h2⟩, h⟩
        · exact ⟨g, ⟨h1.trans a, b⟩, h⟩
    · rintro ⟨⟨-, ⟨a, b⟩, -⟩, ⟨-, ⟨a', b'⟩, -⟩⟩
      exact hr (le_antisymm b a')
  · filter_upwards [plane_z c] with r hr
    apply indicator_cut
    simp only [Prism.body, Prism.cutUpward, Set.mem_prod, Set.mem_Icc]
    constructor
    · constructor
      · rintro ⟨g, h, ⟨a, b⟩⟩
        rcases le_total r.2.2 c with h' | h'
        · exact Or.inl ⟨g, h, ⟨a, h'⟩⟩
        · exact Or.inr ⟨g, h, ⟨h', b⟩⟩
      · rintro (⟨g, h, ⟨a, b⟩⟩ | ⟨g, h, ⟨a, b⟩⟩)
        · exact ⟨g, h, ⟨a, b.trans h2⟩⟩
        · exact ⟨g, h, ⟨h1.trans a, b⟩⟩
    · rintro ⟨⟨-, -, ⟨a, b⟩⟩, ⟨-, -, ⟨a', b'⟩⟩⟩
      exact hr (le_antisymm b a')

theorem densityAt_append (a b : List (Prism × ℝ)) (r : ℝ × ℝ × ℝ) :
    densityAt (a ++ b) r = densityAt a r + densityAt b r := by
  simp [densityAt]

/-- C111, cutting a prism: the gravity does not change when any of the prisms is cut in two by a plane. -/
theorem C111_cut (junk junk' : Junk) (mode mode' : Mode) {K : PrismKernels} (hK : K.Newtonian)
    (shape : List ℕ) (obs : List P3) (hshape : shape.prod = obs.length) (before after : List (Prism × ℝ)) (p : Prism)
    (ρ c : ℝ) (parts : Prism × Prism)
    (hcut : (p.west ≤ c ∧ c ≤ p.east ∧ parts = p.cutEasting c) ∨
      (p.south ≤ c ∧ c ≤ p.north ∧ parts = p.cutNorthing c) ∨ (p.bottom ≤ c ∧ c ≤ p.top ∧ parts = p.cutUpward c))
    (dis dis' : Bool) (hord : ∀ s ∈ before ++ (p, ρ) :: after, s.1.Ordered)
    (hm : mode.Full obs.length (2 * (before.length + after.length + 1)))
    (hm' : mode'.Full obs.length (2 * (before.length + after.length + 2))) (field : String)
    (ho : ∀ q ∈ obs, Allowed field (before ++ (p, ρ) :: after) q) :
    let srcs := before ++ (p, ρ) :: after
    let srcs' := before ++ (parts.1, ρ) :: (parts.2, ρ) :: after
    (prismGravity junk mode K (arrays shape obs) (srcs.map (·.1)) (srcs.map (·.2)) field dis).map (·.2) =
    (prismGravity junk' mode' K (arrays shape obs) (srcs'.map (·.1)) (srcs'.map (·.2)) field dis').map (·.2) := by
  intro srcs srcs'
  have hp := hord (p, ρ) (by simp)
  have hparts : (parts.1.Ordered ∧ parts.2.Ordered) ∧ parts.1.body ⊆ p.body ∧ parts.2.body ⊆ p.body ∧
      ∀ᵐ r, p.body.indicator (fun _ => ρ) r =
        parts.1.body.indicator (fun _ => ρ) r + parts.2.body.indicator (fun _ => ρ) r := by
    obtain ⟨hp1, hp2, hp3⟩ := hp
    obtain ⟨d1, d2, d3⟩ := cut_density p ρ c
    rcases hcut with ⟨h1, h2, rfl⟩ | ⟨h1, h2, rfl⟩ | ⟨h1, h2, rfl⟩
    · refine ⟨⟨⟨h1, hp2, hp3⟩, ⟨h2, hp2, hp3⟩⟩, ?_, ?_, d1 h1 h2⟩
      · rintro r ⟨⟨a, b⟩, h⟩; exact ⟨⟨a, b.trans h2⟩, h⟩
      · rintro r ⟨⟨a, b⟩, h⟩; exact ⟨⟨h1.trans a, b⟩, h⟩
    · refine ⟨⟨⟨hp1, h1, hp3⟩, ⟨hp1, h2, hp3⟩⟩, ?_, ?_, d2 h1 h2⟩
      · rintro r ⟨g, ⟨a, b⟩, h⟩; exact ⟨g, ⟨a, b.trans h2⟩, h⟩
      · rintro r ⟨g, ⟨a, b⟩, h⟩; exact ⟨g, ⟨h1.trans a, b⟩, h⟩
    · refine ⟨⟨⟨hp1, hp2, h1⟩, ⟨hp1, hp2, h2⟩⟩, ?_, ?_, d3 h1 h2⟩
      · rintro r ⟨g, h, ⟨a, b⟩⟩; exact ⟨g, h, ⟨a, b.trans h2⟩⟩
      · rintro r ⟨g, h, ⟨a, b⟩⟩; exact ⟨g, h, ⟨h1.trans a, b⟩⟩
  obtain ⟨⟨o1, o2⟩, s1, s2, hd⟩ := hparts
  have hmem : ∀ s ∈ srcs', s = (parts.1, ρ) ∨ s = (parts.2, ρ) ∨ s ∈ srcs := by
    intro s hs
    simp only [srcs', srcs, List.mem_append, List.mem_cons] at hs ⊢
    tauto
  refine C111_same_density junk junk' mode mode' hK shape obs hshape srcs srcs' dis dis' hord ?_ ?_ ?_ field ?_ ?_
  · intro s hs
    rcases hmem s hs with rfl | rfl | h
    · exact o1
    · exact o2
    · exact hord s h
  · have : srcs.length = before.length + after.length + 1 := by simp [srcs]; omega
    rw [this]; exact hm
  · have : srcs'.length = before.length + after.length + 2 := by simp [srcs']; omega
    rw [this]; exact hm'
  · intro q hq
    refine (ho q hq).imp id fun h s hs => ?_
    rcases List.mem_append.1 hs with hs | hs
    · exact h s hs
    · have hp0 := h (p, ρ) (by simp)
      rcases hmem s hs with rfl | rfl | hs
      · exact fun hin => hp0 (s1 hin)
      · exact fun hin => hp0 (s2 hin)
      · exact h s hs
  · filter_upwards [hd] with r hr
    simp only [srcs, srcs', densityAt, List.map_append, List.map_cons, List.sum_append, List.sum_cons, hr]
    ring

/-! ### The frame -/

/-- A prism and a point in a frame with another origin. -/
def Prism.move (d : P3) (p : Prism) : Prism :=
  ⟨p.west + d.x, p.east + d.x, p.south + d.y, p.north + d.y, p.bottom + d.z, p.top + d.z⟩
@[inherit_doc Prism.move]
def movePoint (d q : P3) : P3 := ⟨q.x + d.x, q.y + d.y, q.z + d.z⟩

theorem move_body (d : P3) (p : Prism) : (fun r => r + coords d) ⁻¹' (p.move d).body = p.body := by
  ext r
  simp only [Prism.body, Prism.move, coords, Set.mem_preimage, Set.mem_prod, Set.mem_Icc, Prod.fst_add, Prod.snd_add,
    add_le_add_iff_right]

theorem mem_move (d : P3) (p : Prism) (q : P3) : coords (movePoint d q) ∈ (p.move d).body ↔ coords q ∈ p.body := by
  rw [← move_body d p]
  rfl

theorem integral_move {k0 : P3 → P3 → ℝ → ℝ} {a : ℕ} (h0 : PointField k0 a) (d q : P3) (p : Prism) (ρ : ℝ) :
    ∫ r in (p.move d).body, k0 (movePoint d q) (pointAt r) ρ = ∫ r in p.body, k0 q (pointAt r) ρ := by
  have hmp : MeasurePreserving (fun r : ℝ × ℝ × ℝ => r + coords d) volume volume := measurePreserving_add_right _ _
  rw [← hmp.setIntegral_preimage_emb (MeasurableEquiv.addRight (coords d)).measurableEmbedding, move_body]
  congr 1
  funext r
  exact h0.move q (pointAt r) ρ d

/-- C111, frame: the gravity does not change when the observation points and the prisms are moved together. -/
theorem C111_frame (junk junk' : Junk) (mode mode' : Mode) {K : PrismKernels} (hK : K.Newtonian)
    (shape : List ℕ) (obs : List P3) (hshape : shape.prod = obs.length) (srcs : List (Prism × ℝ)) (d : P3)
    (dis dis' : Bool) (hord : ∀ s ∈ srcs, s.1.Ordered)
    (hm : mode.Full obs.length (2 * srcs.length)) (hm' : mode'.Full obs.length (2 * srcs.length)) (field : String)
    (ho : ∀ q ∈ obs, Allowed field srcs q) :
    let srcs' := srcs.map fun s => (s.1.move d, s.2)
    (prismGravity junk mode K (arrays shape obs) (srcs.map (·.1)) (srcs.map (·.2)) field dis).map (·.2) =
    (prismGravity junk' mode' K (arrays shape (obs.map (movePoint d))) (srcs'.map (·.1)) (srcs'.map (·.2)) field
      dis').map (·.2) := by
  intro srcs'
  have hord' : ∀ s ∈ srcs', s.1.Ordered := by
    intro s hs
    obtain ⟨s0, hs0, rfl⟩ := List.mem_map.1 hs
    obtain ⟨h1, h2, h3⟩ := hord s0 hs0
    exact ⟨by simpa [Prism.move] using h1, by simpa [Prism.move] using h2, by simpa [Prism.move] using h3⟩
  rw [prismGravity_density junk mode hK shape obs hshape srcs dis hord hm field ho,
    prismGravity_density junk' mode' hK shape (obs.map (movePoint d)) (by simpa using hshape) srcs' dis' hord'
      (by simpa [srcs'] using hm') field (by
        intro q hq
        obtain ⟨q0, hq0, rfl⟩ := List.mem_map.1 hq
        refine (ho q0 hq0).imp id fun h s hs => ?_
        obtain ⟨s0, hs0, rfl⟩ := List.mem_map.1 hs
        rw [mem_move]
        exact h s0 hs0)]
  cases ht : prismFieldTable K field with
  | none => rfl
  | some kf =>
    obtain ⟨k, factor⟩ := kf
    obtain ⟨k0, a, h0, ha, ht, hk⟩ := hK.table ht
    rw [ht]
    simp only [List.map_map]
    congr 2
    apply List.map_congr_left
    intro q hq
    have hoq : a ≤ 2 ∨ ∀ s ∈ srcs, coords q ∉ s.1.body := (ho q hq).imp (fun h => ha h) id
    have hoq' : a ≤ 2 ∨ ∀ s ∈ srcs', coords (movePoint d q) ∉ s.1.body := hoq.imp id fun h s hs => by
      obtain ⟨s0, hs0, rfl⟩ := List.mem_map.1 hs
      rw [mem_move]
      exact h s0 hs0
    simp only [Function.comp]
    rw [← (sum_integrals h0 srcs q hoq).1, ← (sum_integrals h0 srcs' _ hoq').1, List.map_map]
    congr 2
    apply List.map_congr_left
    intro s _
    exact (integral_move h0 d q s.1 s.2).symm

/-! ### C112 -/

/-- Mass of prisms with densities. -/
def prismMass (srcs : List (Prism × ℝ)) : ℝ := (srcs.map fun s => s.2 * s.1.volume).sum

theorem prism_bounds {k0 : P3 → P3 → ℝ → ℝ} {a : ℕ} (h0 : PointField k0 a) (q : P3) (p : Prism) (hp : p.Ordered)
    (ρ : ℝ) (hρ : 0 ≤ ρ) (ho : coords q ∉ p.body) (A B : ℝ)
    (h : ∀ r ∈ p.body, A ≤ k0 q (pointAt r) 1 ∧ k0 q (pointAt r) 1 ≤ B) :
    A * (ρ * p.volume) ≤ ∫ r in p.body, k0 q (pointAt r) ρ ∧
    ∫ r in p.body, k0 q (pointAt r) ρ ≤ B * (ρ * p.volume) := by
  have hI := h0.integrableOn_outside ho ρ
  have hc : ∀ c : ℝ, ∫ _ in p.body, c * ρ = c * (ρ * p.volume) := by
    intro c
    rw [setIntegral_const, p.volume_body hp, smul_eq_mul]
    ring
  have hci : ∀ c : ℝ, IntegrableOn (fun _ : ℝ × ℝ × ℝ => c * ρ) p.body := fun c =>
    integrableOn_const p.body_compact.measure_lt_top.ne
  constructor
  · rw [← hc]
    refine setIntegral_mono_on (hci A) hI p.body_meas fun r hr => ?_
    rw [h0.lin, mul_comm]
    exact mul_le_mul_of_nonneg_left (h r hr).1 hρ
  · rw [← hc]
    refine setIntegral_mono_on hI (hci B) p.body_meas fun r hr => ?_
    rw [h0.lin, mul_comm B]
    exact mul_le_mul_of_nonneg_left (h r hr).2 hρ

theorem sum_bounds {k0 : P3 → P3 → ℝ → ℝ} {a : ℕ} (h0 : PointField k0 a) (q : P3) (srcs : List (Prism × ℝ))
    (hord : ∀ s ∈ srcs, s.1.Ordered) (hρ : ∀ s ∈ srcs, 0 ≤ s.2) (ho : ∀ s ∈ srcs, coords q ∉ s.1.body) (A B : ℝ)
    (h : ∀ s ∈ srcs, ∀ r ∈ s.1.body, A ≤ k0 q (pointAt r) 1 ∧ k0 q (pointAt r) 1 ≤ B) :
    A * prismMass srcs ≤ (srcs.map fun s => ∫ r in s.1.body, k0 q (pointAt r) s.2).sum ∧
    (srcs.map fun s => ∫ r in s.1.body, k0 q (pointAt r) s.2).sum ≤ B * prismMass srcs := by
  unfold prismMass
  rw [← List.sum_map_mul_left, ← List.sum_map_mul_left]
  have key := fun s hs => prism_bounds h0 q s.1 (hord s hs) s.2 (hρ s hs) (ho s hs) A B (h s hs)
  exact ⟨List.sum_le_sum fun s hs => (key s hs).1, List.sum_le_sum fun s hs => (key s hs).2⟩

open Classical in
/-- C112: with densities that are not negative and all points of the prisms at distances between `lo` and `hi` from
the observation point, the potential is between `G M / hi` and `G M / lo`, and each component of the acceleration
(mGal) is at most `G M / lo²`; where all the prisms are lower than the observation point by `depth`, the downward
component is at least `G M depth / hi³`. -/
theorem C112_mass_over_distance (junk : Junk) (mode : Mode) {K : PrismKernels} (hK : K.Newtonian)
    (shape : List ℕ) (obs : List P3) (hshape : shape.prod = obs.length) (srcs : List (Prism × ℝ)) (dis : Bool)
    (hord : ∀ s ∈ srcs, s.1.Ordered) (hρ : ∀ s ∈ srcs, 0 ≤ s.2) (hm : mode.Full obs.length (2 * srcs.length)) :
    ∃ F : String → P3 → ℝ,
      (∀ field ∈ everywhere, (prismGravity junk mode K (arrays shape obs) (srcs.map (·.1)) (srcs.map (·.2)) field
        dis).map (·.2) = .ok ⟨shape, obs.map (F field)⟩) ∧
      ∀ q ∈ obs, ∀ lo hi, 0 < lo →
        (∀ s ∈ srcs, ∀ r ∈ s.1.body, lo ≤ gap q (pointAt r) ∧ gap q (pointAt r) ≤ hi) →
        (gravitationalConst * prismMass srcs / hi ≤ F "potential" q ∧
          F "potential" q ≤ gravitationalConst * prismMass srcs / lo) ∧
        (∀ field ∈ ["g_e", "g_n", "g_z"], |F field q| ≤ 10 ^ 5 * (gravitationalConst * prismMass srcs / lo ^ 2)) ∧
        ∀ depth, 0 ≤ depth → (∀ s ∈ srcs, s.1.top ≤ q.z - depth) →
          10 ^ 5 * (gravitationalConst * prismMass srcs * depth / hi ^ 3) ≤ F "g_z" q := by
  have hG := gravConst_pos
  refine ⟨fun field q => match pointFieldTable newtonKernels field with
    | some (k0, factor) => factor * ∫ r, densityAt srcs r * k0 q (pointAt r) 1
    | none => 0, ?_, ?_⟩
  · intro field hf
    rw [prismGravity_density junk mode hK shape obs hshape srcs dis hord hm field fun q _ => Or.inl hf]
    simp only [everywhere, List.mem_cons, List.not_mem_nil, or_false] at hf
    rcases hf with rfl | rfl | rfl | rfl <;> simp [pointFieldTable, prismFieldTable]
  · intro q hq lo hi hlo hd
    have ho : ∀ s ∈ srcs, coords q ∉ s.1.body := by
      intro s hs hin
      have := (hd s hs _ hin).1
      rw [pointAt_coords, gap_self] at this
      linarith
    have hne : ∀ s ∈ srcs, ∀ r ∈ s.1.body, q ≠ pointAt r := fun s hs r hr => ne_of_outside (ho s hs) hr
    simp only [pointFieldTable, reduceIte, String.reduceEq]
    refine ⟨?_, ?_, ?_⟩
    · rw [← (sum_integrals newton_pot srcs q (Or.inl (by norm_num))).1, one_mul]
      have := sum_bounds newton_pot q srcs hord hρ ho (gravitationalConst / hi) (gravitationalConst / lo)
        (by
          intro s hs r hr
          obtain ⟨h1, h2⟩ := hd s hs r hr
          simp only [newtonKernels, mul_one]
          exact ⟨div_le_div_of_nonneg_left hG.le (by linarith) h2, div_le_div_of_nonneg_left hG.le hlo h1⟩)
      rw [div_mul_eq_mul_div, div_mul_eq_mul_div] at this
      exact this
    · have key : ∀ (k0 : P3 → P3 → ℝ → ℝ), PointField k0 2 →
          (∀ q p, q ≠ p → |k0 q p 1| ≤ gravitationalConst / gap q p ^ 2) →
          |∫ r, densityAt srcs r * k0 q (pointAt r) 1| ≤ gravitationalConst * prismMass srcs / lo ^ 2 := by
        intro k0 h0 hb
        rw [← (sum_integrals h0 srcs q (Or.inl le_rfl)).1]
        have := sum_bounds h0 q srcs hord hρ ho (-(gravitationalConst / lo ^ 2)) (gravitationalConst / lo ^ 2)
          (by
            intro s hs r hr
            obtain ⟨h1, h2⟩ := hd s hs r hr
            rw [← abs_le]
            exact (hb q _ (hne s hs r hr)).trans
              (div_le_div_of_nonneg_left hG.le (by positivity) (pow_le_pow_left₀ hlo.le h1 2)))
        rw [abs_le, mul_div_right_comm]
        rw [neg_mul] at this
        exact this
      intro field hf
      simp only [List.mem_cons, List.not_mem_nil, or_false] at hf
      have ke := key _ newton_e fun q p h => accel_bound hG.le (gap_pos h) (abs_x_le_gap q p).1
      have kn := key _ newton_n fun q p h => accel_bound hG.le (gap_pos h) (abs_x_le_gap q p).2.1
      have ku := key _ newton_u fun q p h => accel_bound hG.le (gap_pos h) (abs_x_le_gap q p).2.2
      have h5 : |(10 : ℝ) ^ 5| = 10 ^ 5 := abs_of_pos (by norm_num)
      have h5' : |-(10 : ℝ) ^ 5| = 10 ^ 5 := by rw [abs_neg]; exact h5
      rcases hf with rfl | rfl | rfl
      · simp only [reduceIte, String.reduceEq]
        rw [abs_mul, h5]
        exact mul_le_mul_of_nonneg_left ke (by norm_num)
      · simp only [reduceIte, String.reduceEq]
        rw [abs_mul, h5]
        exact mul_le_mul_of_nonneg_left kn (by norm_num)
      · simp only [reduceIte, String.reduceEq]
        rw [abs_mul, h5']
        exact mul_le_mul_of_nonneg_left ku (by norm_num)
    · intro depth hdep hz
      rw [← (sum_integrals newton_u srcs q (Or.inl le_rfl)).1]
      have := (sum_bounds newton_u q srcs hord hρ ho (-(gravitationalConst / lo ^ 2))
        (-(gravitationalConst * depth / hi ^ 3)) (by
          intro s hs r hr
          obtain ⟨h1, h2⟩ := hd s hs r hr
          have hg : 0 < gap q (pointAt r) := by linarith
          refine ⟨?_, ?_⟩
          · have hb := accel_bound hG.le hg (abs_x_le_gap q (pointAt r)).2.2
            refine le_trans ?_ (abs_le.1 hb).1
            exact neg_le_neg (div_le_div_of_nonneg_left hG.le (by positivity) (pow_le_pow_left₀ hlo.le h1 2))
          · have hr2 : depth ≤ q.z - (pointAt r).z := by
              have := hz s hs
              have := hr.2.2.2
              simp only [pointAt]
              linarith
            simp only [newtonKernels, mul_one]
            rw [neg_div]
            apply neg_le_neg
            calc gravitationalConst * depth / hi ^ 3 ≤ gravitationalConst * depth / gap q (pointAt r) ^ 3 :=
                  div_le_div_of_nonneg_left (by positivity) (by positivity) (pow_le_pow_left₀ hg.le h2 3)
              _ ≤ _ := div_le_div_of_nonneg_right (mul_le_mul_of_nonneg_left hr2 hG.le) (by positivity))).2
      have e : gravitationalConst * prismMass srcs * depth / hi ^ 3 =
          -(-(gravitationalConst * depth / hi ^ 3) * prismMass srcs) := by ring
      rw [e]
      linarith

/-! ### Examples -/

/-- Kernels with the documented values. -/
noncomputable def bodyKernels : PrismKernels where
  pot q p ρ := ∫ r in p.body, newtonKernels.pot q (pointAt r) ρ
  e q p ρ := ∫ r in p.body, newtonKernels.e q (pointAt r) ρ
  n q p ρ := ∫ r in p.body, newtonKernels.n q (pointAt r) ρ
  u q p ρ := ∫ r in p.body, newtonKernels.u q (pointAt r) ρ
  ee q p ρ := ∫ r in p.body, newtonKernels.ee q (pointAt r) ρ
  nn q p ρ := ∫ r in p.body, newtonKernels.nn q (pointAt r) ρ
  uu q p ρ := ∫ r in p.body, newtonKernels.uu q (pointAt r) ρ
  en q p ρ := ∫ r in p.body, newtonKernels.en q (pointAt r) ρ
  eu q p ρ := ∫ r in p.body, newtonKernels.eu q (pointAt r) ρ
  nu q p ρ := ∫ r in p.body, newtonKernels.nu q (pointAt r) ρ

theorem bodyKernels_newtonian : bodyKernels.Newtonian := by
  constructor <;> intros <;> rfl

/-- two overlapping prisms of opposite densities are the same as none, also at a point inside of them -/
example : (prismGravity (fun _ _ => 0) .serial bodyKernels (arrays [1] [⟨0, 0, 0⟩])
      [⟨-1, 1, -1, 1, -1, 1⟩, ⟨-1, 1, -1, 1, -1, 1⟩] [2, -2] "g_z" false).map (·.2) =
    (prismGravity (fun _ _ => 0) .serial bodyKernels (arrays [1] [⟨0, 0, 0⟩]) [] [] "g_z" false).map (·.2) := by
  refine C111_same_density _ _ .serial .serial bodyKernels_newtonian [1] [⟨0, 0, 0⟩] (by simp)
    [(⟨-1, 1, -1, 1, -1, 1⟩, 2), (⟨-1, 1, -1, 1, -1, 1⟩, -2)] [] false false (by simp [Prism.Ordered]) (by simp) trivial
    trivial "g_z" (fun q _ => Or.inl (by simp [everywhere])) (Eventually.of_forall fun r => ?_)
  simp only [densityAt, List.map_cons, List.map_nil, List.sum_cons, List.sum_nil, add_zero]
  by_cases hr : r ∈ Prism.body ⟨-1, 1, -1, 1, -1, 1⟩
  · rw [Set.indicator_of_mem hr, Set.indicator_of_mem hr]; norm_num
  · rw [Set.indicator_of_notMem hr, Set.indicator_of_notMem hr]; norm_num

/-- the vertical gradient above a prism and above its lower and upper parts -/
example : (prismGravity (fun _ _ => 0) .serial bodyKernels (arrays [1] [⟨0, 0, 9⟩]) [⟨-1, 1, -1, 1, -3, 1⟩] [2] "g_zz"
      false).map (·.2) =
    (prismGravity (fun _ _ => 0) .serial bodyKernels (arrays [1] [⟨0, 0, 9⟩])
      [⟨-1, 1, -1, 1, -3, -2⟩, ⟨-1, 1, -1, 1, -2, 1⟩] [2, 2] "g_zz" false).map (·.2) := by
  refine C111_cut _ _ .serial .serial bodyKernels_newtonian [1] [⟨0, 0, 9⟩] (by simp) [] [] ⟨-1, 1, -1, 1, -3, 1⟩ 2 (-2)
    (⟨-1, 1, -1, 1, -3, -2⟩, ⟨-1, 1, -1, 1, -2, 1⟩) (Or.inr (Or.inr ⟨by norm_num, by norm_num, rfl⟩)) false false
    (by simp [Prism.Ordered]; norm_num) trivial trivial "g_zz" fun q hq => Or.inr ?_
  simp only [List.mem_singleton] at hq
  subst hq
  simp [Prism.body, coords]

/-- a cube of 24 kg eleven metres below the observation point -/
example : ∃ V, (prismGravity (fun _ _ => 0) .serial bodyKernels (arrays [1] [⟨0, 0, 11⟩]) [⟨-1, 1, -1, 1, -1, 1⟩] [3]
      "potential" false).map (·.2) = .ok ⟨[1], [V]⟩ ∧
    gravitationalConst * 24 / 13 ≤ V ∧ V ≤ gravitationalConst * 24 / 10 := by
  obtain ⟨F, h, hb⟩ := C112_mass_over_distance (fun _ _ => 0) .serial bodyKernels_newtonian [1] [⟨0, 0, 11⟩] (by simp)
    [(⟨-1, 1, -1, 1, -1, 1⟩, 3)] false (by simp [Prism.Ordered]) (by simp) trivial
  refine ⟨F "potential" ⟨0, 0, 11⟩, h "potential" (by simp [everywhere]), ?_⟩
  have := (hb ⟨0, 0, 11⟩ (by simp) 10 13 (by norm_num) (by
    intro s hs r hr
    simp only [List.mem_singleton] at hs
    subst hs
    obtain ⟨⟨a, b⟩, ⟨c, d⟩, e, f⟩ := hr
    simp only at a b c d e f
    simp only [gap, pointAt]
    constructor
    · exact Real.le_sqrt_of_sq_le (by nlinarith)
    · exact Real.sqrt_le_iff.2 ⟨by norm_num, by nlinarith⟩)).1
  have hM : prismMass [(⟨-1, 1, -1, 1, -1, 1⟩, 3)] = 24 := by simp [prismMass, Prism.volume]; norm_num
  rwa [hM] at this

end Verif.Forward
