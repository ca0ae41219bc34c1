import Verif.Forward.PropsG

/-! C116: the field of `prism_magnetic` depends on the magnetization in space only. -/

namespace Verif.Forward
open Verif.Distance Verif.Engine Filter Topology MeasureTheory

/-- One component of the magnetizations. -/
def component (a : P3 → ℝ) (srcs : List (Prism × V3)) : List (Prism × ℝ) := srcs.map fun s => (s.1, a s.2)

/-- Total magnetization of prisms at a point (A/m): the sum of the magnetizations of those that contain it. -/
noncomputable def magnetizationAt (srcs : List (Prism × V3)) (r : ℝ × ℝ × ℝ) : V3 :=
  ⟨densityAt (component P3.x srcs) r, densityAt (component P3.y srcs) r, densityAt (component P3.z srcs) r⟩

/-- The field is linear in the moment, with bounds, for each axis. -/
structure DipoleField (k : P3 → P3 → V3 → ℝ) : Prop where
  lin : ∀ q p m, k q p m = m.x * k q p ⟨1, 0, 0⟩ + m.y * k q p ⟨0, 1, 0⟩ + m.z * k q p ⟨0, 0, 1⟩
  point : ∀ m, PointField (fun q p c => c * k q p m) 3

theorem dipoleField_e (mu0 : ℝ) : DipoleField (dipoleKernels mu0).e where
  lin q p m := by simp only [dipoleKernels]; ring
  point := dipole_e mu0

theorem dipoleField_n (mu0 : ℝ) : DipoleField (dipoleKernels mu0).n where
  lin q p m := by simp only [dipoleKernels]; ring
  point := dipole_n mu0

theorem dipoleField_u (mu0 : ℝ) : DipoleField (dipoleKernels mu0).u where
  lin q p m := by simp only [dipoleKernels]; ring
  point := dipole_u mu0

theorem component_outside {a : P3 → ℝ} {srcs : List (Prism × V3)} {q : P3} (ho : ∀ s ∈ srcs, coords q ∉ s.1.body) :
    ∀ s ∈ component a srcs, coords q ∉ s.1.body := by
  intro s hs
  obtain ⟨s0, hs0, rfl⟩ := List.mem_map.1 hs
  exact ho s0 hs0

theorem bodyMag_sums {k : P3 → P3 → V3 → ℝ} (hk : DipoleField k) (srcs : List (Prism × V3)) (q : P3)
    (ho : ∀ s ∈ srcs, coords q ∉ s.1.body) :
    bodyMag k srcs q =
      (((component P3.x srcs).map fun s => ∫ r in s.1.body, s.2 * k q (pointAt r) ⟨1, 0, 0⟩).sum +
       ((component P3.y srcs).map fun s => ∫ r in s.1.body, s.2 * k q (pointAt r) ⟨0, 1, 0⟩).sum +
       ((component P3.z srcs).map fun s => ∫ r in s.1.body, s.2 * k q (pointAt r) ⟨0, 0, 1⟩).sum) * 10 ^ 9 := by
  unfold bodyMag component
  congr 1
  induction srcs with
  | nil => simp
  | cons s srcs ih =>
    have hs := ho s (by simp)
    have i1 := (hk.point ⟨1, 0, 0⟩).integrableOn_outside hs s.2.x
    have i2 := (hk.point ⟨0, 1, 0⟩).integrableOn_outside hs s.2.y
    have i3 := (hk.point ⟨0, 0, 1⟩).integrableOn_outside hs s.2.z
    have e : ∫ r in s.1.body, k q (pointAt r) s.2 = (∫ r in s.1.body, s.2.x * k q (pointAt r) ⟨1, 0, 0⟩) +
        (∫ r in s.1.body, s.2.y * k q (pointAt r) ⟨0, 1, 0⟩) + ∫ r in s.1.body, s.2.z * k q (pointAt r) ⟨0, 0, 1⟩ := by
      rw [← integral_add i1 i2]
      refine Eq.trans ?_ (integral_add (i1.add i2) i3)
      congr 1
      funext r
      exact hk.lin q (pointAt r) s.2
    simp only [List.map_cons, List.sum_cons]
    rw [ih fun s hs => ho s (by simp [hs]), e]
    ring

/-- The field as one integral over space. -/
theorem bodyMag_density {k : P3 → P3 → V3 → ℝ} (hk : DipoleField k) (srcs : List (Prism × V3)) (q : P3)
    (ho : ∀ s ∈ srcs, coords q ∉ s.1.body) :
    bodyMag k srcs q = (∫ r, k q (pointAt r) (magnetizationAt srcs r)) * 10 ^ 9 := by
  rw [bodyMag_sums hk srcs q ho]
  obtain ⟨s1, i1⟩ := sum_integrals (hk.point ⟨1, 0, 0⟩) (component P3.x srcs) q (Or.inr (component_outside ho))
  obtain ⟨s2, i2⟩ := sum_integrals (hk.point ⟨0, 1, 0⟩) (component P3.y srcs) q (Or.inr (component_outside ho))
  obtain ⟨s3, i3⟩ := sum_integrals (hk.point ⟨0, 0, 1⟩) (component P3.z srcs) q (Or.inr (component_outside ho))
  rw [s1, s2, s3, ← integral_add i1 i2]
  congr 1
  refine (integral_add (i1.add i2) i3).symm.trans ?_
  congr 1
  funext r
  rw [hk.lin q (pointAt r) (magnetizationAt srcs r)]
  simp only [one_mul, magnetizationAt, Pi.add_apply]

/-- What `prism_magnetic` returns, from the magnetization in space. -/
noncomputable def fieldOf (k : P3 → P3 → V3 → ℝ) (M : ℝ × ℝ × ℝ → V3) (q : P3) : ℝ :=
  (∫ r, k q (pointAt r) (M r)) * 10 ^ 9

theorem prismMagnetic_other (junk : Junk) (mode : Mode) (K : MagKernels Prism) (shape : List ℕ) (obs : List P3)
    (hshape : shape.prod = obs.length) (srcs : List (Prism × V3)) (dis : Bool) (hord : ∀ s ∈ srcs, s.1.Ordered)
    (hm : mode.Full obs.length (6 * srcs.length)) (field : String) (hf : field ∉ ["b", "b_e", "b_n", "b_u"]) :
    prismMagnetic junk mode K (arrays shape obs) (srcs.map (·.1))
      [(srcs.map (·.2)).map (·.x), (srcs.map (·.2)).map (·.y), (srcs.map (·.2)).map (·.z)] field dis =
      .error .ValueError := by
  have C := C05_prism_magnetic junk mode K shape obs hshape srcs hm field dis
  simp only [if_pos (Or.inr hord : dis = true ∨ ∀ s ∈ srcs, s.1.Ordered)] at C
  rw [C]
  simp only [List.mem_cons, List.not_mem_nil, or_false, not_or] at hf
  simp [magSpec, hf]

/-! ### C116 -/

/-- C116: the result of `prism_magnetic` at points outside the prisms is the integral, over space, of the field of
dipoles with the total magnetization as moment per unit volume (nT). -/
theorem C116_body (junk : Junk) (mode : Mode) {mu0 : ℝ} {K : MagKernels Prism} (hK : K.Magnetized mu0)
    (shape : List ℕ) (obs : List P3) (hshape : shape.prod = obs.length) (srcs : List (Prism × V3)) (dis : Bool)
    (hord : ∀ s ∈ srcs, s.1.Ordered) (hm : mode.Full obs.length (6 * srcs.length))
    (ho : ∀ q ∈ obs, ∀ s ∈ srcs, coords q ∉ s.1.body) (M : ℝ × ℝ × ℝ → V3)
    (hM : ∀ᵐ r, magnetizationAt srcs r = M r) :
    let call := fun field => prismMagnetic junk mode K (arrays shape obs) (srcs.map (·.1))
      [(srcs.map (·.2)).map (·.x), (srcs.map (·.2)).map (·.y), (srcs.map (·.2)).map (·.z)] field dis
    let B_e := fieldOf (dipoleKernels mu0).e M
    let B_n := fieldOf (dipoleKernels mu0).n M
    let B_u := fieldOf (dipoleKernels mu0).u M
    call "b" = .ok (.vector ⟨shape, obs.map B_e⟩ ⟨shape, obs.map B_n⟩ ⟨shape, obs.map B_u⟩) ∧
    call "b_e" = .ok (.single ⟨shape, obs.map B_e⟩) ∧
    call "b_n" = .ok (.single ⟨shape, obs.map B_n⟩) ∧
    call "b_u" = .ok (.single ⟨shape, obs.map B_u⟩) := by
  intro call B_e B_n B_u
  obtain ⟨h1, h2, h3, h4⟩ := prismMagnetic_body junk mode hK shape obs hshape srcs dis hord hm ho
  have key : ∀ {k : P3 → P3 → V3 → ℝ}, DipoleField k → obs.map (bodyMag k srcs) = obs.map (fieldOf k M) := by
    intro k hk
    apply List.map_congr_left
    intro q hq
    rw [bodyMag_density hk srcs q (ho q hq)]
    unfold fieldOf
    congr 1
    apply integral_congr_ae
    filter_upwards [hM] with r hr
    rw [hr]
  have ke := key (dipoleField_e mu0)
  have kn := key (dipoleField_n mu0)
  have ku := key (dipoleField_u mu0)
  simp only [call, B_e, B_n, B_u, ← ke, ← kn, ← ku]
  exact ⟨h1, h2, h3, h4⟩

/-- C116: two sets of prisms with the same total magnetization at almost every point have the same magnetic field
outside of them, for every field name. -/
theorem C116_same_magnetization (junk junk' : Junk) (mode mode' : Mode) {mu0 : ℝ} {K : MagKernels Prism}
    (hK : K.Magnetized mu0) (shape : List ℕ) (obs : List P3) (hshape : shape.prod = obs.length)
    (srcs srcs' : List (Prism × V3)) (dis dis' : Bool)
    (hord : ∀ s ∈ srcs, s.1.Ordered) (hord' : ∀ s ∈ srcs', s.1.Ordered)
    (hm : mode.Full obs.length (6 * srcs.length)) (hm' : mode'.Full obs.length (6 * srcs'.length))
    (ho : ∀ q ∈ obs, ∀ s ∈ srcs, coords q ∉ s.1.body) (ho' : ∀ q ∈ obs, ∀ s ∈ srcs', coords q ∉ s.1.body)
    (hM : ∀ᵐ r, magnetizationAt srcs r = magnetizationAt srcs' r) (field : String) :
    prismMagnetic junk mode K (arrays shape obs) (srcs.map (·.1))
      [(srcs.map (·.2)).map (·.x), (srcs.map (·.2)).map (·.y), (srcs.map (·.2)).map (·.z)] field dis =
    prismMagnetic junk' mode' K (arrays shape obs) (srcs'.map (·.1))
      [(srcs'.map (·.2)).map (·.x), (srcs'.map (·.2)).map (·.y), (srcs'.map (·.2)).map (·.z)] field dis' := by
  obtain ⟨h1, h2, h3, h4⟩ := C116_body junk mode hK shape obs hshape srcs dis hord hm ho _ hM
  obtain ⟨h1', h2', h3', h4'⟩ := C116_body junk' mode' hK shape obs hshape srcs' dis' hord' hm' ho' _
    (Eventually.of_forall fun _ => rfl)
  by_cases hf : field ∈ ["b", "b_e", "b_n", "b_u"]
  · simp only [List.mem_cons, List.not_mem_nil, or_false] at hf
    rcases hf with rfl | rfl | rfl | rfl
    · exact h1.trans h1'.symm
    · exact h2.trans h2'.symm
    · exact h3.trans h3'.symm
    · exact h4.trans h4'.symm
  · rw [prismMagnetic_other junk mode K shape obs hshape srcs dis hord hm field hf,
      prismMagnetic_other junk' mode' K shape obs hshape srcs' dis' hord' hm' field hf]

theorem component_cut (a : P3 → ℝ) (before after : List (Prism × V3)) (p : Prism) (m : V3) (parts : Prism × Prism)
    (r : ℝ × ℝ × ℝ) (h : p.body.indicator (fun _ => a m) r =
      parts.1.body.indicator (fun _ => a m) r + parts.2.body.indicator (fun _ => a m) r) :
    densityAt (component a (before ++ (p, m) :: after)) r =
      densityAt (component a (before ++ (parts.1, m) :: (parts.2, m) :: after)) r := by
  simp only [component, densityAt, List.map_append, List.map_cons, List.sum_append, List.sum_cons, h]
  ring

/-- C116: cutting a prism in two by a plane does not change the magnetic field. -/
theorem C116_cut (junk junk' : Junk) (mode mode' : Mode) {mu0 : ℝ} {K : MagKernels Prism} (hK : K.Magnetized mu0)
    (shape : List ℕ) (obs : List P3) (hshape : shape.prod = obs.length) (before after : List (Prism × V3)) (p : Prism)
    (m : V3) (c : ℝ) (parts : Prism × Prism)
    (hcut : (p.west ≤ c ∧ c ≤ p.east ∧ parts = p.cutEasting c) ∨
      (p.south ≤ c ∧ c ≤ p.north ∧ parts = p.cutNorthing c) ∨ (p.bottom ≤ c ∧ c ≤ p.top ∧ parts = p.cutUpward c))
    (dis dis' : Bool) (hord : ∀ s ∈ before ++ (p, m) :: after, s.1.Ordered)
    (hm : mode.Full obs.length (6 * (before.length + after.length + 1)))
    (hm' : mode'.Full obs.length (6 * (before.length + after.length + 2))) (field : String)
    (ho : ∀ q ∈ obs, ∀ s ∈ before ++ (p, m) :: after, coords q ∉ s.1.body) :
    let srcs := before ++ (p, m) :: after
    let srcs' := before ++ (parts.1, m) :: (parts.2, m) :: after
    prismMagnetic junk mode K (arrays shape obs) (srcs.map (·.1))
      [(srcs.map (·.2)).map (·.x), (srcs.map (·.2)).map (·.y), (srcs.map (·.2)).map (·.z)] field dis =
    prismMagnetic junk' mode' K (arrays shape obs) (srcs'.map (·.1))
      [(srcs'.map (·.2)).map (·.x), (srcs'.map (·.2)).map (·.y), (srcs'.map (·.2)).map (·.z)] field dis' := by
  intro srcs srcs'
  have hp := hord (p, m) (by simp)
  have hparts : (parts.1.Ordered ∧ parts.2.Ordered) ∧ parts.1.body ⊆ p.body ∧ parts.2.body ⊆ p.body ∧
      ∀ ρ : ℝ, ∀ᵐ r, p.body.indicator (fun _ => ρ) r =
        parts.1.body.indicator (fun _ => ρ) r + parts.2.body.indicator (fun _ => ρ) r := by
    obtain ⟨hp1, hp2, hp3⟩ := hp
    rcases hcut with ⟨h1, h2, rfl⟩ | ⟨h1, h2, rfl⟩ | ⟨h1, h2, rfl⟩
    · refine ⟨⟨⟨h1, hp2, hp3⟩, ⟨h2, hp2, hp3⟩⟩, ?_, ?_, fun ρ => (cut_density p ρ c).1 h1 h2⟩
      · rintro r ⟨⟨a, b⟩, h⟩; exact ⟨⟨a, b.trans h2⟩, h⟩
      · rintro r ⟨⟨a, b⟩, h⟩; exact ⟨⟨h1.trans a, b⟩, h⟩
    · refine ⟨⟨⟨hp1, h1, hp3⟩, ⟨hp1, h2, hp3⟩⟩, ?_, ?_, fun ρ => (cut_density p ρ c).2.1 h1 h2⟩
      · rintro r ⟨g, ⟨a, b⟩, h⟩; exact ⟨g, ⟨a, b.trans h2⟩, h⟩
      · rintro r ⟨g, ⟨a, b⟩, h⟩; exact ⟨g, ⟨h1.trans a, b⟩, h⟩
    · refine ⟨⟨⟨hp1, hp2, h1⟩, ⟨hp1, hp2, h2⟩⟩, ?_, ?_, fun ρ => (cut_density p ρ c).2.2 h1 h2⟩
      · rintro r ⟨g, h, ⟨a, b⟩⟩; exact ⟨g, h, ⟨a, b.trans h2⟩⟩
      · rintro r ⟨g, h, ⟨a, b⟩⟩; exact ⟨g, h, ⟨h1.trans a, b⟩⟩
  obtain ⟨⟨o1, o2⟩, s1, s2, hd⟩ := hparts
  have hmem : ∀ s ∈ srcs', s = (parts.1, m) ∨ s = (parts.2, m) ∨ s ∈ srcs := by
    intro s hs
    simp only [srcs', srcs, List.mem_append, List.mem_cons] at hs ⊢
    tauto
  refine C116_same_magnetization junk junk' mode mode' hK shape obs hshape srcs srcs' dis dis' hord ?_ ?_ ?_ ho ?_ ?_
    field
  · intro s hs
    rcases hmem s hs with rfl | rfl | h
    · exact o1
    · exact o2
    · exact hord s h
  · have : srcs.length = before.length + after.length + 1 := by simp [srcs]; omega
    rw [this]; exact hm
  · have : srcs'.length = before.length + after.length + 2 := by simp [srcs']; omega
    rw [this]; exact hm'
  · intro q hq s hs
    have hp0 := ho q hq (p, m) (by simp)
    rcases hmem s hs with rfl | rfl | hs
    · exact fun hin => hp0 (s1 hin)
    · exact fun hin => hp0 (s2 hin)
    · exact ho q hq s hs
  · filter_upwards [hd m.x, hd m.y, hd m.z] with r h1 h2 h3
    simp only [magnetizationAt, srcs, srcs']
    rw [component_cut P3.x before after p m parts r h1, component_cut P3.y before after p m parts r h2,
      component_cut P3.z before after p m parts r h3]

/-- C116, frame: the magnetic field does not change when the observation points and the prisms are moved together. -/
theorem C116_frame (junk junk' : Junk) (mode mode' : Mode) {mu0 : ℝ} {K : MagKernels Prism} (hK : K.Magnetized mu0)
    (shape : List ℕ) (obs : List P3) (hshape : shape.prod = obs.length) (srcs : List (Prism × V3)) (d : P3)
    (dis dis' : Bool) (hord : ∀ s ∈ srcs, s.1.Ordered)
    (hm : mode.Full obs.length (6 * srcs.length)) (hm' : mode'.Full obs.length (6 * srcs.length))
    (ho : ∀ q ∈ obs, ∀ s ∈ srcs, coords q ∉ s.1.body) (field : String) :
    let srcs' := srcs.map fun s => (s.1.move d, s.2)
    prismMagnetic junk mode K (arrays shape obs) (srcs.map (·.1))
      [(srcs.map (·.2)).map (·.x), (srcs.map (·.2)).map (·.y), (srcs.map (·.2)).map (·.z)] field dis =
    prismMagnetic junk' mode' K (arrays shape (obs.map (movePoint d))) (srcs'.map (·.1))
      [(srcs'.map (·.2)).map (·.x), (srcs'.map (·.2)).map (·.y), (srcs'.map (·.2)).map (·.z)] field dis' := by
  intro srcs'
  have hord' : ∀ s ∈ srcs', s.1.Ordered := by
    intro s hs
    obtain ⟨s0, hs0, rfl⟩ := List.mem_map.1 hs
    obtain ⟨h1, h2, h3⟩ := hord s0 hs0
    exact ⟨by simpa [Prism.move] using h1, by simpa [Prism.move] using h2, by simpa [Prism.move] using h3⟩
  have ho' : ∀ q ∈ obs.map (movePoint d), ∀ s ∈ srcs', coords q ∉ s.1.body := by
    intro q hq s hs
    obtain ⟨q0, hq0, rfl⟩ := List.mem_map.1 hq
    obtain ⟨s0, hs0, rfl⟩ := List.mem_map.1 hs
    rw [mem_move]
    exact ho q0 hq0 s0 hs0
  have hsh' : shape.prod = (obs.map (movePoint d)).length := by simpa using hshape
  have hm2 : mode'.Full (obs.map (movePoint d)).length (6 * srcs'.length) := by simpa [srcs'] using hm'
  obtain ⟨h1, h2, h3, h4⟩ := prismMagnetic_body junk mode hK shape obs hshape srcs dis hord hm ho
  obtain ⟨h1', h2', h3', h4'⟩ := prismMagnetic_body junk' mode' hK shape (obs.map (movePoint d)) hsh' srcs' dis' hord'
    hm2 ho'
  have key : ∀ {k : P3 → P3 → V3 → ℝ}, DipoleField k →
      obs.map (bodyMag k srcs) = (obs.map (movePoint d)).map (bodyMag k srcs') := by
    intro k hk
    rw [List.map_map]
    apply List.map_congr_left
    intro q hq
    simp only [Function.comp, bodyMag, srcs', List.map_map]
    congr 2
    apply List.map_congr_left
    intro s _
    have := integral_move (hk.point s.2) d q s.1 1
    simp only [one_mul] at this
    exact this.symm
  have ke := key (dipoleField_e mu0)
  have kn := key (dipoleField_n mu0)
  have ku := key (dipoleField_u mu0)
  by_cases hf : field ∈ ["b", "b_e", "b_n", "b_u"]
  · simp only [List.mem_cons, List.not_mem_nil, or_false] at hf
    rcases hf with rfl | rfl | rfl | rfl
    · refine h1.trans (Eq.trans ?_ h1'.symm); rw [ke, kn, ku]
    · refine h2.trans (Eq.trans ?_ h2'.symm); rw [ke]
    · refine h3.trans (Eq.trans ?_ h3'.symm); rw [kn]
    · refine h4.trans (Eq.trans ?_ h4'.symm); rw [ku]
  · rw [prismMagnetic_other junk mode K shape obs hshape srcs dis hord hm field hf,
      prismMagnetic_other junk' mode' K shape _ hsh' srcs' dis' hord' hm2 field hf]

/-! ### Examples -/

/-- a magnetized cube and its two halves, one of them in two overlapping parts -/
example : prismMagnetic (fun _ _ => 0) .serial (bodyMagKernels 1) (arrays [1] [⟨0, 0, 9⟩]) [⟨-1, 1, -1, 1, -1, 1⟩]
      [[1], [0], [5]] "b" false =
    prismMagnetic (fun _ _ => 0) .serial (bodyMagKernels 1) (arrays [1] [⟨0, 0, 9⟩])
      [⟨-1, 1, -1, 1, -1, 1⟩, ⟨-1, 1, -1, 1, -1, 1⟩] [[3, -2], [1, -1], [5, 0]] "b" true := by
  refine C116_same_magnetization _ _ .serial .serial (bodyMagKernels_magnetized 1) [1] [⟨0, 0, 9⟩] (by simp)
    [(⟨-1, 1, -1, 1, -1, 1⟩, ⟨1, 0, 5⟩)] [(⟨-1, 1, -1, 1, -1, 1⟩, ⟨3, 1, 5⟩), (⟨-1, 1, -1, 1, -1, 1⟩, ⟨-2, -1, 0⟩)]
    false true (by simp [Prism.Ordered]) (by simp [Prism.Ordered]) trivial trivial ?_ ?_ (Eventually.of_forall fun r => ?_)
    "b"
  · simpa using above_cube
  · simpa using above_cube
  · simp only [magnetizationAt, component, densityAt, List.map_cons, List.map_nil, List.sum_cons, List.sum_nil, add_zero]
    by_cases hr : r ∈ Prism.body ⟨-1, 1, -1, 1, -1, 1⟩
    · simp only [Set.indicator_of_mem hr]; norm_num
    · simp only [Set.indicator_of_notMem hr]; norm_num

example : prismMagnetic (fun _ _ => 0) .serial (bodyMagKernels 1) (arrays [1] [⟨0, 0, 9⟩]) [⟨-1, 1, -1, 1, -1, 1⟩]
      [[1], [0], [5]] "b_u" false =
    prismMagnetic (fun _ _ => 0) .serial (bodyMagKernels 1) (arrays [1] [⟨0, 0, 9⟩])
      [⟨-1, 0, -1, 1, -1, 1⟩, ⟨0, 1, -1, 1, -1, 1⟩] [[1, 1], [0, 0], [5, 5]] "b_u" false :=
  C116_cut _ _ .serial .serial (bodyMagKernels_magnetized 1) [1] [⟨0, 0, 9⟩] (by simp) [] [] ⟨-1, 1, -1, 1, -1, 1⟩
    ⟨1, 0, 5⟩ 0 (⟨-1, 0, -1, 1, -1, 1⟩, ⟨0, 1, -1, 1, -1, 1⟩) (Or.inl ⟨by norm_num, by norm_num, rfl⟩) false false
    (by simp [Prism.Ordered]) trivial trivial "b_u" (by simpa using above_cube)

end Verif.Forward
