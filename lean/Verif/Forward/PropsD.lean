import Verif.Forward.PropsC

/-! C02 and C05 for the magnetic fields of dipoles and prisms: superposition over the sources (errors
included), irrelevance of their order, and linearity in the magnetic moments or magnetizations. -/

namespace Verif.Forward
open Verif.Engine Verif.Distance

/-- `a * x + b * y` for two results of the magnetic functions, elementwise; an exception of either
is the outcome. -/
noncomputable def linMag (a b : ℝ) (x y : Py MagResult) : Py MagResult := do
  let x ← x
  let y ← y
  match MagResult.lin a b x y with
  | some z => pure z
  | none => throw .TypeError

/-- Kernels that are linear in the magnetic moment or magnetization of the source (choclo's are). -/
structure MagKernels.Linear {S : Type} (K : MagKernels S) : Prop where
  field : ∀ a b q s x y, K.field q s (V3.lin a b x y) =
    (a * (K.field q s x).1 + b * (K.field q s y).1,
     a * (K.field q s x).2.1 + b * (K.field q s y).2.1,
     a * (K.field q s x).2.2 + b * (K.field q s y).2.2)
  e : ∀ a b q s x y, K.e q s (V3.lin a b x y) = a * K.e q s x + b * K.e q s y
  n : ∀ a b q s x y, K.n q s (V3.lin a b x y) = a * K.n q s x + b * K.n q s y
  u : ∀ a b q s x y, K.u q s (V3.lin a b x y) = a * K.u q s x + b * K.u q s y

/-- the kernels of the six outputs -/
def MagKernels.all {S : Type} (K : MagKernels S) : List (P3 → S → V3 → ℝ) :=
  [fun q s m => (K.field q s m).1, fun q s m => (K.field q s m).2.1,
   fun q s m => (K.field q s m).2.2, K.e, K.n, K.u]

theorem MagKernels.Linear.all {S : Type} {K : MagKernels S} (hK : K.Linear) :
    ∀ k ∈ K.all, ∀ a b q s x y, k q s (V3.lin a b x y) = a * k q s x + b * k q s y := by
  intro k hk a b q s x y
  simp only [MagKernels.all, List.mem_cons, List.not_mem_nil, or_false] at hk
  rcases hk with rfl | rfl | rfl | rfl | rfl | rfl
  · simp [hK.field]
  · simp [hK.field]
  · simp [hK.field]
  · exact hK.e ..
  · exact hK.n ..
  · exact hK.u ..

/-- The documented value follows the totals: if those of `l` are the combination of those of `l1` and
`l2`, so is the result. -/
theorem magSpec_lin {S : Type} (K : MagKernels S) (shape : List ℕ) (obs : List P3)
    (l l1 l2 : List (S × V3)) (a b : ℝ)
    (h : ∀ k ∈ K.all, ∀ q, total (fun q s => k q s.1 s.2) l q =
      a * total (fun q s => k q s.1 s.2) l1 q + b * total (fun q s => k q s.1 s.2) l2 q)
    (field : String) :
    magSpec K shape obs l field =
      linMag a b (magSpec K shape obs l1 field) (magSpec K shape obs l2 field) := by
  simp only [MagKernels.all, List.forall_mem_cons, List.not_mem_nil, false_imp_iff, implies_true,
    and_true] at h
  obtain ⟨h1, h2, h3, he, hn, hu⟩ := h
  unfold magSpec
  simp only
  split_ifs
  · simp only [linMag, bind, Except.bind, MagResult.lin, pure, Except.pure, List.zipWith_map,
      List.zipWith_self, h1, h2, h3]
    refine congrArg Except.ok (congr (congr (congrArg MagResult.vector ?_) ?_) ?_) <;>
      refine congrArg (NdArray.mk shape) ?_ <;>
      apply List.map_congr_left <;> intro q _ <;> ring
  all_goals first
    | rfl
    | simp only [linMag, bind, Except.bind, MagResult.lin, pure, Except.pure, List.zipWith_map,
        List.zipWith_self, he, hn, hu]
      refine congrArg (fun l => Except.ok (MagResult.single (NdArray.mk shape l))) ?_
      apply List.map_congr_left; intro q _; ring

theorem magSpec_perm {S : Type} (K : MagKernels S) (shape : List ℕ) (obs : List P3)
    (l l' : List (S × V3)) (h : l.Perm l') (field : String) :
    magSpec K shape obs l field = magSpec K shape obs l' field := by
  unfold magSpec
  simp only [total_perm _ _ _ h]

/-- `dipole_magnetic` for dipoles given with their moments -/
noncomputable def dipoleField (junk : Junk) (mode : Mode) (K : MagKernels P3) (shape : List ℕ)
    (obs : List P3) (srcs : List (P3 × V3)) (field : String) (dis : Bool) : Py MagResult :=
  dipoleMagnetic junk mode K (arrays shape obs) (arrays1 (srcs.map (·.1)))
    [(srcs.map (·.2)).map (·.x), (srcs.map (·.2)).map (·.y), (srcs.map (·.2)).map (·.z)] field dis

/-- `prism_magnetic` for prisms given with their magnetizations -/
noncomputable def prismMagField (junk : Junk) (mode : Mode) (K : MagKernels Prism) (shape : List ℕ)
    (obs : List P3) (srcs : List (Prism × V3)) (field : String) (dis : Bool) : Py MagResult :=
  prismMagnetic junk mode K (arrays shape obs) (srcs.map (·.1))
    [(srcs.map (·.2)).map (·.x), (srcs.map (·.2)).map (·.y), (srcs.map (·.2)).map (·.z)] field dis

/-! ## Dipoles -/

/-- C02, `dipole_magnetic`: the field of the union of two sets of dipoles is the sum of the fields. -/
theorem C02_dipole_magnetic_split (junk : Junk) (K : MagKernels P3) (m m1 m2 : Mode)
    (shape : List ℕ) (obs : List P3) (hshape : shape.prod = obs.length)
    (srcs1 srcs2 : List (P3 × V3))
    (hm : m.Full obs.length (6 * (srcs1 ++ srcs2).length))
    (hm1 : m1.Full obs.length (6 * srcs1.length)) (hm2 : m2.Full obs.length (6 * srcs2.length))
    (field : String) (dis : Bool) :
    dipoleField junk m K shape obs (srcs1 ++ srcs2) field dis =
      linMag 1 1 (dipoleField junk m1 K shape obs srcs1 field dis)
        (dipoleField junk m2 K shape obs srcs2 field dis) := by
  unfold dipoleField arrays1
  rw [dipoleMagnetic_eq junk m K shape _ obs hshape _ hm,
    dipoleMagnetic_eq junk m1 K shape _ obs hshape _ hm1,
    dipoleMagnetic_eq junk m2 K shape _ obs hshape _ hm2]
  exact magSpec_lin K shape obs _ _ _ 1 1
    (fun k _ q => by rw [total_append, one_mul, one_mul]) field

/-- C02, `dipole_magnetic`: the order of the dipoles is irrelevant. -/
theorem C02_dipole_magnetic_perm (junk : Junk) (K : MagKernels P3) (m m' : Mode)
    (shape : List ℕ) (obs : List P3) (hshape : shape.prod = obs.length)
    (srcs srcs' : List (P3 × V3)) (hp : srcs.Perm srcs')
    (hm : m.Full obs.length (6 * srcs.length)) (hm' : m'.Full obs.length (6 * srcs'.length))
    (field : String) (dis : Bool) :
    dipoleField junk m K shape obs srcs field dis =
      dipoleField junk m' K shape obs srcs' field dis := by
  unfold dipoleField arrays1
  rw [dipoleMagnetic_eq junk m K shape _ obs hshape _ hm,
    dipoleMagnetic_eq junk m' K shape _ obs hshape _ hm', magSpec_perm K shape obs _ _ hp]

/-- C02, `dipole_magnetic`: linear in the moments, errors included. -/
theorem C02_dipole_magnetic_linear (junk : Junk) (K : MagKernels P3) (hK : K.Linear)
    (m m1 m2 : Mode) (shape : List ℕ) (obs : List P3) (hshape : shape.prod = obs.length)
    (srcs : List (P3 × V3 × V3)) (a b : ℝ)
    (hm : m.Full obs.length (6 * srcs.length)) (hm1 : m1.Full obs.length (6 * srcs.length))
    (hm2 : m2.Full obs.length (6 * srcs.length)) (field : String) (dis : Bool) :
    dipoleField junk m K shape obs (srcs.map fun s => (s.1, V3.lin a b s.2.1 s.2.2)) field dis =
      linMag a b
        (dipoleField junk m1 K shape obs (srcs.map fun s => (s.1, s.2.1)) field dis)
        (dipoleField junk m2 K shape obs (srcs.map fun s => (s.1, s.2.2)) field dis) := by
  unfold dipoleField arrays1
  rw [dipoleMagnetic_eq junk m K shape _ obs hshape _ (by simpa using hm),
    dipoleMagnetic_eq junk m1 K shape _ obs hshape _ (by simpa using hm1),
    dipoleMagnetic_eq junk m2 K shape _ obs hshape _ (by simpa using hm2)]
  exact magSpec_lin K shape obs _ _ _ a b
    (fun k hk q => total_lin k a b (fun q s x y => hK.all k hk a b q s x y) srcs q) field

/-! ## Prisms -/

open Classical in
theorem prismMagField_eq (junk : Junk) (mode : Mode) (K : MagKernels Prism) (shape : List ℕ)
    (obs : List P3) (hshape : shape.prod = obs.length) (srcs : List (Prism × V3))
    (hm : mode.Full obs.length (6 * srcs.length)) (field : String) (dis : Bool) :
    prismMagField junk mode K shape obs srcs field dis =
      if dis = true ∨ ∀ s ∈ srcs, s.1.Ordered then
        magSpec K shape obs
          (srcs.filter fun s => s.1.volume ≠ 0 ∧ ¬ (s.2.x = 0 ∧ s.2.y = 0 ∧ s.2.z = 0)) field
      else .error .ValueError :=
  C05_prism_magnetic junk mode K shape obs hshape srcs hm field dis

/-- a bad field name is a ValueError for any sources -/
theorem magSpec_bad {S : Type} (K : MagKernels S) (shape : List ℕ) (obs : List P3)
    (l : List (S × V3)) (field : String) :
    (∃ x, magSpec K shape obs l field = .ok x) ∨ magSpec K shape obs l field = .error .ValueError := by
  unfold magSpec
  simp only
  split_ifs
  · exact .inl ⟨_, rfl⟩
  · exact .inl ⟨_, rfl⟩
  · exact .inl ⟨_, rfl⟩
  · exact .inl ⟨_, rfl⟩
  · exact .inr rfl

/-- C02, `prism_magnetic`: union of two sets of prisms (errors included: the union is rejected iff
one of the parts is). -/
theorem C02_prism_magnetic_split (junk : Junk) (K : MagKernels Prism) (m m1 m2 : Mode)
    (shape : List ℕ) (obs : List P3) (hshape : shape.prod = obs.length)
    (srcs1 srcs2 : List (Prism × V3))
    (hm : m.Full obs.length (6 * (srcs1 ++ srcs2).length))
    (hm1 : m1.Full obs.length (6 * srcs1.length)) (hm2 : m2.Full obs.length (6 * srcs2.length))
    (field : String) (dis : Bool) :
    prismMagField junk m K shape obs (srcs1 ++ srcs2) field dis =
      linMag 1 1 (prismMagField junk m1 K shape obs srcs1 field dis)
        (prismMagField junk m2 K shape obs srcs2 field dis) := by
  rw [prismMagField_eq junk m K shape obs hshape _ hm,
    prismMagField_eq junk m1 K shape obs hshape _ hm1,
    prismMagField_eq junk m2 K shape obs hshape _ hm2]
  have hiff : (dis = true ∨ ∀ s ∈ srcs1 ++ srcs2, s.1.Ordered) ↔
      (dis = true ∨ ∀ s ∈ srcs1, s.1.Ordered) ∧ (dis = true ∨ ∀ s ∈ srcs2, s.1.Ordered) := by
    rw [List.forall_mem_append, ← or_and_left]
  by_cases h1 : dis = true ∨ ∀ s ∈ srcs1, s.1.Ordered
  · by_cases h2 : dis = true ∨ ∀ s ∈ srcs2, s.1.Ordered
    · rw [if_pos (hiff.2 ⟨h1, h2⟩), if_pos h1, if_pos h2, List.filter_append]
      exact magSpec_lin K shape obs _ _ _ 1 1
        (fun k _ q => by rw [total_append, one_mul, one_mul]) field
    · rw [if_neg (fun h => h2 (hiff.1 h).2), if_pos h1, if_neg h2]
      rcases magSpec_bad K shape obs
        (srcs1.filter fun s => s.1.volume ≠ 0 ∧ ¬ (s.2.x = 0 ∧ s.2.y = 0 ∧ s.2.z = 0)) field
        with ⟨x, hx⟩ | hx <;> rw [hx] <;> rfl
  · rw [if_neg (fun h => h1 (hiff.1 h).1), if_neg h1]; rfl

/-- C02, `prism_magnetic`: the order of the prisms is irrelevant. -/
theorem C02_prism_magnetic_perm (junk : Junk) (K : MagKernels Prism) (m m' : Mode)
    (shape : List ℕ) (obs : List P3) (hshape : shape.prod = obs.length)
    (srcs srcs' : List (Prism × V3)) (hp : srcs.Perm srcs')
    (hm : m.Full obs.length (6 * srcs.length)) (hm' : m'.Full obs.length (6 * srcs'.length))
    (field : String) (dis : Bool) :
    prismMagField junk m K shape obs srcs field dis =
      prismMagField junk m' K shape obs srcs' field dis := by
  rw [prismMagField_eq junk m K shape obs hshape _ hm,
    prismMagField_eq junk m' K shape obs hshape _ hm']
  have hiff : (dis = true ∨ ∀ s ∈ srcs, s.1.Ordered) ↔
      (dis = true ∨ ∀ s ∈ srcs', s.1.Ordered) := by
    simp only [hp.mem_iff]
  by_cases h1 : dis = true ∨ ∀ s ∈ srcs, s.1.Ordered
  · rw [if_pos h1, if_pos (hiff.1 h1), magSpec_perm K shape obs _ _ (hp.filter _)]
  · rw [if_neg h1, if_neg (fun h => h1 (hiff.2 h))]

/-- C02 and C05, `prism_magnetic` is linear in the magnetization, errors included: also when a
combination of magnetizations vanishes and the prism is discarded. -/
theorem C05_prism_linear (junk : Junk) (K : MagKernels Prism) (hK : K.Linear)
    (m m1 m2 : Mode) (shape : List ℕ) (obs : List P3) (hshape : shape.prod = obs.length)
    (srcs : List (Prism × V3 × V3)) (a b : ℝ)
    (hm : m.Full obs.length (6 * srcs.length)) (hm1 : m1.Full obs.length (6 * srcs.length))
    (hm2 : m2.Full obs.length (6 * srcs.length)) (field : String) (dis : Bool) :
    prismMagField junk m K shape obs (srcs.map fun s => (s.1, V3.lin a b s.2.1 s.2.2)) field dis =
      linMag a b
        (prismMagField junk m1 K shape obs (srcs.map fun s => (s.1, s.2.1)) field dis)
        (prismMagField junk m2 K shape obs (srcs.map fun s => (s.1, s.2.2)) field dis) := by
  rw [prismMagField_eq junk m K shape obs hshape _ (by simpa using hm),
    prismMagField_eq junk m1 K shape obs hshape _ (by simpa using hm1),
    prismMagField_eq junk m2 K shape obs hshape _ (by simpa using hm2)]
  have hord : ∀ f : Prism × V3 × V3 → V3,
      (∀ s ∈ srcs.map fun s => (s.1, f s), s.1.Ordered) ↔ ∀ s ∈ srcs, s.1.Ordered := by
    intro f
    rw [List.forall_mem_map]
  have hor : ∀ f : Prism × V3 × V3 → V3,
      (dis = true ∨ ∀ s ∈ srcs.map fun s => (s.1, f s), s.1.Ordered) ↔
        (dis = true ∨ ∀ s ∈ srcs, s.1.Ordered) := fun f => or_congr Iff.rfl (hord f)
  by_cases h1 : dis = true ∨ ∀ s ∈ srcs, s.1.Ordered
  · rw [if_pos ((hor fun s => V3.lin a b s.2.1 s.2.2).2 h1), if_pos ((hor fun s => s.2.1).2 h1),
      if_pos ((hor fun s => s.2.2).2 h1)]
    refine magSpec_lin K shape obs _ _ _ a b (fun k hk q => ?_) field
    have hz : ∀ q s, k q s ⟨0, 0, 0⟩ = 0 := by
      intro q s
      have := hK.all k hk 0 0 q s ⟨0, 0, 0⟩ ⟨0, 0, 0⟩
      simpa [V3.lin] using this
    -- the discarded prisms with volume contribute nothing
    have hf : ∀ f : Prism × V3 × V3 → V3, total (fun q s => k q s.1 s.2)
        ((srcs.map fun s => (s.1, f s)).filter fun s =>
          s.1.volume ≠ 0 ∧ ¬ (s.2.x = 0 ∧ s.2.y = 0 ∧ s.2.z = 0)) q
        = total (fun q s => k q s.1 s.2)
          ((srcs.filter fun s => s.1.volume ≠ 0).map fun s => (s.1, f s)) q := by
      intro f
      have h2 : ((srcs.map fun s => (s.1, f s)).filter fun s =>
            s.1.volume ≠ 0 ∧ ¬ (s.2.x = 0 ∧ s.2.y = 0 ∧ s.2.z = 0))
          = ((srcs.filter fun s => s.1.volume ≠ 0).map fun s => (s.1, f s)).filter fun s =>
            ¬ (s.2.x = 0 ∧ s.2.y = 0 ∧ s.2.z = 0) := by
        rw [List.filter_map, List.filter_map, List.filter_filter]
        congr 1
        apply List.filter_congr
        intro s _
        simp only [Function.comp_apply, Bool.decide_and, Bool.and_comm]
      rw [h2]
      apply total_filter
      intro s _ hs
      have hs' : s.2.x = 0 ∧ s.2.y = 0 ∧ s.2.z = 0 := by simpa using hs
      have : s.2 = ⟨0, 0, 0⟩ := by
        obtain ⟨s1, x, y, z⟩ := s
        simp only at hs'
        simp [hs']
      rw [this, hz]
    rw [hf, hf (fun s => s.2.1), hf (fun s => s.2.2)]
    exact total_lin k a b (fun q s x y => hK.all k hk a b q s x y) _ q
  · rw [if_neg (fun h => h1 ((hor fun s => V3.lin a b s.2.1 s.2.2).1 h)),
      if_neg (fun h => h1 ((hor fun s => s.2.1).1 h))]
    rfl

/-! ## No sources -/

/-- a result that is zero everywhere, on the given number of points -/
def MagResult.Zero (n : ℕ) : MagResult → Prop
  | .single x => x.data = List.replicate n 0
  | .vector x y z => x.data = List.replicate n 0 ∧ y.data = List.replicate n 0 ∧
      z.data = List.replicate n 0

theorem magSpec_nil {S : Type} (K : MagKernels S) (shape : List ℕ) (obs : List P3)
    (field : String) (r : MagResult) (hr : magSpec K shape obs [] field = .ok r) :
    r.Zero obs.length := by
  unfold magSpec at hr
  simp only at hr
  split_ifs at hr <;> simp only [Except.ok.injEq] at hr <;> subst hr <;>
    simp [MagResult.Zero, total]

/-- C02: no dipoles, no field. -/
theorem C02_dipole_magnetic_empty (junk : Junk) (K : MagKernels P3) (m : Mode) (shape : List ℕ)
    (obs : List P3) (hshape : shape.prod = obs.length) (hm : m.Full obs.length 0)
    (field : String) (dis : Bool) (r : MagResult)
    (hr : dipoleField junk m K shape obs [] field dis = .ok r) : r.Zero obs.length := by
  unfold dipoleField arrays1 at hr
  rw [dipoleMagnetic_eq junk m K shape _ obs hshape [] hm] at hr
  exact magSpec_nil K shape obs field r hr

/-- C02: no prism with volume and magnetization, no field. -/
theorem C02_prism_magnetic_empty (junk : Junk) (K : MagKernels Prism) (m : Mode) (shape : List ℕ)
    (obs : List P3) (hshape : shape.prod = obs.length) (srcs : List (Prism × V3))
    (hm : m.Full obs.length (6 * srcs.length))
    (h0 : ∀ s ∈ srcs, s.1.volume = 0 ∨ s.2 = ⟨0, 0, 0⟩)
    (field : String) (dis : Bool) (r : MagResult)
    (hr : prismMagField junk m K shape obs srcs field dis = .ok r) : r.Zero obs.length := by
  rw [prismMagField_eq junk m K shape obs hshape _ hm] at hr
  have hnil : (srcs.filter fun s => s.1.volume ≠ 0 ∧ ¬ (s.2.x = 0 ∧ s.2.y = 0 ∧ s.2.z = 0)) = [] := by
    rw [List.filter_eq_nil_iff]
    intro s hs
    rcases h0 s hs with h | h <;> simp [h]
  rw [hnil] at hr
  split_ifs at hr
  exact magSpec_nil K shape obs field r hr

/-- C02: no prism with volume and density, no gravity field. -/
theorem C02_prism_gravity_empty (junk : Junk) (K : PrismKernels) (m : Mode) (shape : List ℕ)
    (obs : List P3) (hshape : shape.prod = obs.length) (srcs : List (Prism × ℝ))
    (hm : m.Full obs.length (2 * srcs.length)) (h0 : ∀ s ∈ srcs, s.1.volume = 0 ∨ s.2 = 0)
    (field : String) (dis : Bool) (r : NdArray)
    (hr : prismField junk m K shape obs srcs field dis = .ok r) :
    r.data = List.replicate obs.length 0 := by
  rcases prismField_form K field with h | ⟨k, c, -, h⟩
  · rw [h _ _ _ _ _ _ hshape hm] at hr; simp at hr
  · rw [h _ _ _ _ _ _ hshape hm] at hr
    have hnil : (srcs.filter fun s => s.1.volume ≠ 0 ∧ s.2 ≠ 0) = [] := by
      rw [List.filter_eq_nil_iff]
      intro s hs
      rcases h0 s hs with h | h <;> simp [h]
    rw [hnil] at hr
    split_ifs at hr
    simp only [Except.ok.injEq] at hr
    subst hr
    simp [total]

/-! ## A case that meets the hypotheses -/

/-- kernels that are linear in the moment and depend on point and source -/
noncomputable def linearKernels (S : Type) (w : P3 → S → ℝ) : MagKernels S where
  field q s m := (w q s * m.x, w q s * m.y, w q s * m.z)
  e q s m := w q s * m.x
  n q s m := w q s * m.y
  u q s m := w q s * m.z

theorem linearKernels_linear (S : Type) (w : P3 → S → ℝ) : (linearKernels S w).Linear := by
  constructor <;> intro a b q s x y <;> simp [linearKernels, V3.lin] <;>
    first | exact ⟨by ring, by ring, by ring⟩ | ring

/-- two prisms; the combination of the magnetizations of the first one vanishes -/
example : prismMagField (fun _ _ => 0) .serial (linearKernels Prism fun q p => q.x + p.volume) [1]
      [⟨2, 0, 0⟩] ([(⟨0, 1, 0, 1, 0, 1⟩, ⟨1, 0, 0⟩, ⟨-1, 0, 0⟩), (⟨0, 2, 0, 1, 0, 1⟩, ⟨3, 1, 0⟩, ⟨1, 1, 1⟩)].map
        fun s => (s.1, V3.lin 1 1 s.2.1 s.2.2)) "b_e" false = .ok (.single ⟨[1], [16 * 10 ^ 9]⟩) := by
  rw [C05_prism_linear _ _ (linearKernels_linear _ _) .serial .serial .serial [1] _ (by simp) _ 1 1
    trivial trivial trivial]
  rw [prismMagField_eq _ .serial _ _ _ (by simp) _ trivial,
    prismMagField_eq _ .serial _ _ _ (by simp) _ trivial]
  rw [if_pos (by right; simp [Prism.Ordered]), if_pos (by right; simp [Prism.Ordered])]
  simp [magSpec, linMag, MagResult.lin, bind, Except.bind, pure, Except.pure, Prism.volume, total,
    linearKernels, List.filter]
  norm_num

/-! ## C03 -/

open Classical in
/-- C03: the arrays passed to the loops are those of the prisms with non-zero volume and with a
magnetization that is not zero in all its components, in the original order and each with its own
magnetization. -/
theorem C03_prism_magnetic_discard_exact (srcs : List (Prism × V3)) :
    let kept := srcs.filter fun s => s.1.volume ≠ 0 ∧ ¬ (s.2.x = 0 ∧ s.2.y = 0 ∧ s.2.z = 0)
    discardNullPrismsMag (srcs.map (·.1)) ((srcs.map (·.2)).map (·.x)) ((srcs.map (·.2)).map (·.y))
        ((srcs.map (·.2)).map (·.z)) =
      .ok (kept.map (·.1), (kept.map (·.2)).map (·.x), (kept.map (·.2)).map (·.y),
        (kept.map (·.2)).map (·.z)) := by
  intro kept
  have hkeep : srcs.filter keepMag = kept := by
    apply List.filter_congr
    intro s hs
    unfold keepMag zeroVolume Prism.volume
    rw [Bool.eq_iff_iff]
    have h1 : s.1.east - s.1.west = 0 ↔ s.1.west = s.1.east := by rw [sub_eq_zero, eq_comm]
    have h2 : s.1.north - s.1.south = 0 ↔ s.1.south = s.1.north := by rw [sub_eq_zero, eq_comm]
    have h3 : s.1.top - s.1.bottom = 0 ↔ s.1.bottom = s.1.top := by rw [sub_eq_zero, eq_comm]
    simp [h1, h2, h3, not_or, and_assoc, or_assoc]
  rw [discardNullPrismsMag_eq, hkeep]

/-- C03, `prism_magnetic`: the result is the documented one for all the prisms, nothing is lost by
dropping (the kernels of a prism without volume or magnetization are zero). -/
theorem C03_prism_magnetic_no_loss (junk : Junk) (mode : Mode) (K : MagKernels Prism)
    (shape : List ℕ) (obs : List P3) (hshape : shape.prod = obs.length)
    (srcs : List (Prism × V3)) (hm : mode.Full obs.length (6 * srcs.length))
    (dis : Bool) (hord : dis = true ∨ ∀ s ∈ srcs, s.1.Ordered) (field : String)
    (hnull : ∀ k ∈ K.all, ∀ q p m, p.volume = 0 ∨ m = ⟨0, 0, 0⟩ → k q p m = 0) :
    prismMagField junk mode K shape obs srcs field dis = magSpec K shape obs srcs field := by
  rw [prismMagField_eq junk mode K shape obs hshape _ hm, if_pos hord]
  have ht : ∀ k ∈ K.all, ∀ q, total (fun q s => k q s.1 s.2)
      (srcs.filter fun s => s.1.volume ≠ 0 ∧ ¬ (s.2.x = 0 ∧ s.2.y = 0 ∧ s.2.z = 0)) q =
      total (fun q s => k q s.1 s.2) srcs q := by
    intro k hk q
    apply total_filter
    intro s _ hs
    apply hnull k hk
    by_contra h
    rw [not_or] at h
    have h2 : ¬ (s.2.x = 0 ∧ s.2.y = 0 ∧ s.2.z = 0) := by
      rintro ⟨hx, hy, hz⟩
      exact h.2 (by
        obtain ⟨s1, x, y, z⟩ := s
        simp only at hx hy hz
        simp [hx, hy, hz])
    simp [h.1, h2] at hs
  simp only [MagKernels.all, List.forall_mem_cons, List.not_mem_nil, false_imp_iff, implies_true,
    and_true] at ht
  obtain ⟨h1, h2, h3, he, hn, hu⟩ := ht
  unfold magSpec
  simp only [h1, h2, h3, he, hn, hu]

/-- a case for C03: a prism that is kept although two components of its magnetization are zero, a flat
one and one without magnetization -/
example : discardNullPrismsMag [⟨0, 1, 0, 1, 0, 1⟩, ⟨0, 0, 0, 1, 0, 1⟩, ⟨0, 2, 0, 1, 0, 1⟩]
    [0, 6, 0] [0, 1, 0] [7, 0, 0] = .ok ([⟨0, 1, 0, 1, 0, 1⟩], [0], [0], [7]) := by
  have h := C03_prism_magnetic_discard_exact
    [(⟨0, 1, 0, 1, 0, 1⟩, ⟨0, 0, 7⟩), (⟨0, 0, 0, 1, 0, 1⟩, ⟨6, 1, 0⟩), (⟨0, 2, 0, 1, 0, 1⟩, ⟨0, 0, 0⟩)]
  simpa [Prism.volume] using h

/-- kernels that vanish for null prisms -/
example : ∀ k ∈ (linearKernels Prism fun q p => q.x * p.volume).all, ∀ q p m,
    p.volume = 0 ∨ m = ⟨0, 0, 0⟩ → k q p m = 0 := by
  intro k hk q p m h
  simp only [MagKernels.all, linearKernels, List.mem_cons, List.not_mem_nil, or_false] at hk
  rcases hk with rfl | rfl | rfl | rfl | rfl | rfl <;> rcases h with h | h <;> simp [h]

end Verif.Forward
