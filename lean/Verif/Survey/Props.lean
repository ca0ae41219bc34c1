import Verif.Survey.Spec
import Verif.Forward.PropsD
import Verif.Tesseroid.PropsH
import Verif.Layers.PropsB
import Verif.EqSources.Lemmas
import Verif.Ellipsoids.PropsC
import Verif.Igrf.Props

/-! C103: values at a point do not depend on the other points of the call. -/

namespace Verif.Survey

open Verif.Engine Verif.Distance Verif.Forward

theorem forall₂_eq_map' {α β : Type} (f : α → β) (R : α → β → Prop) (l : List α)
    (h : ∀ a ∈ l, ∀ b, R a b ↔ b = f a) (m : List β) : List.Forall₂ R l m ↔ m = l.map f := by
  induction l generalizing m with
  | nil => simp [List.forall₂_nil_left_iff]
  | cons a l ih =>
    have ih := ih fun a ha => h a (List.mem_cons_of_mem _ ha)
    have h := h a List.mem_cons_self
    rw [List.forall₂_cons_left_iff, List.map_cons]
    constructor
    · rintro ⟨b, m', h1, h2, rfl⟩
      rw [(h b).1 h1, (ih m').1 h2]
    · rintro rfl
      exact ⟨f a, l.map f, (h _).2 rfl, (ih _).2 rfl, rfl⟩

theorem forall₂_eq_map {α β : Type} (f : α → β) (R : α → β → Prop) (h : ∀ a b, R a b ↔ b = f a)
    (l : List α) (m : List β) : List.Forall₂ R l m ↔ m = l.map f :=
  forall₂_eq_map' f R l (fun a _ => h a) m

/-- calls that return a function of the point -/
theorem oneByOne_map {P : Type} (shape : List ℕ) (obs : List P) (f : P → ℝ) {batch : Py NdArray}
    {single : P → Py NdArray} (hb : batch = .ok ⟨shape, obs.map f⟩)
    (hs : ∀ q, single q = .ok ⟨[1], [f q]⟩) : OneByOne shape obs batch single := by
  intro r
  rw [hb, forall₂_eq_map f _ (fun q x => by
    rw [hs, Except.ok.injEq, NdArray.mk.injEq]; simp [eq_comm])]
  obtain ⟨s, d⟩ := r
  rw [Except.ok.injEq, NdArray.mk.injEq, eq_comm (a := shape), eq_comm (b := d)]

/-- calls that fail whatever the points are -/
theorem oneByOne_error {P : Type} (shape : List ℕ) {obs : List P} (hne : obs ≠ []) {e : PyErr}
    {e' : P → PyErr} {batch : Py NdArray} {single : P → Py NdArray} (hb : batch = .error e)
    (hs : ∀ q, single q = .error (e' q)) : OneByOne shape obs batch single := by
  intro r
  rw [hb]
  cases obs with
  | nil => exact absurd rfl hne
  | cons q obs => simp [List.forall₂_cons_left_iff, hs]

theorem oneByOne3_map {P : Type} (shape : List ℕ) (obs : List P) (f : P → ℝ × ℝ × ℝ)
    {batch : Py (NdArray × NdArray × NdArray)} {single : P → Py (NdArray × NdArray × NdArray)}
    (hb : batch = .ok (components shape (obs.map f)))
    (hs : ∀ q, single q = .ok (components [1] [f q])) : OneByOne3 shape obs batch single := by
  intro r
  rw [hb, Except.ok.injEq]
  have key := fun vs => forall₂_eq_map f (fun q v => single q = .ok (components [1] [v])) (fun q x => by
    rw [hs, Except.ok.injEq]
    simp only [components, List.map_cons, List.map_nil, Prod.mk.injEq, NdArray.mk.injEq, true_and,
      List.cons.injEq, and_true]
    rw [Prod.ext_iff, Prod.ext_iff]
    simp [eq_comm]) obs vs
  constructor
  · rintro rfl; exact ⟨_, rfl, (key _).2 rfl⟩
  · rintro ⟨vs, rfl, h⟩; rw [(key vs).1 h]

theorem oneByOne3_error {P : Type} (shape : List ℕ) {obs : List P} (hne : obs ≠ []) {e : PyErr}
    {batch : Py (NdArray × NdArray × NdArray)} {single : P → Py (NdArray × NdArray × NdArray)}
    (hb : batch = .error e) {e' : P → PyErr} (hs : ∀ q, single q = .error (e' q)) :
    OneByOne3 shape obs batch single := by
  intro r
  rw [hb]
  cases obs with
  | nil => exact absurd rfl hne
  | cons q obs => simp [List.forall₂_cons_left_iff, hs]

/-- C103, `point_gravity`, every field and system, serial or parallel. -/
theorem C103_point_gravity (junk : Junk) (mode mode1 : Mode) (K : PointKernels) (shape : List ℕ)
    (obs : List P3) (hshape : shape.prod = obs.length) (hne : obs ≠ []) (srcs : List (P3 × ℝ))
    (hm : mode.Full obs.length (2 * srcs.length)) (hm1 : mode1.Full 1 (2 * srcs.length))
    (field system : String) :
    OneByOne shape obs
      (pointGravity junk mode K (arrays shape obs) (arrays1 (srcs.map (·.1)))
        (array1 (srcs.map (·.2))) field system)
      (fun q => pointGravity junk mode1 K (arrays1 [q]) (arrays1 (srcs.map (·.1)))
        (array1 (srcs.map (·.2))) field system) := by
  rcases pointGravity_form K field system with ⟨e, h⟩ | ⟨kernel, c, -, h⟩
  · exact oneByOne_error shape hne (h _ _ _ _ _ _ _ hshape hm)
      (fun q => h _ _ [1] [q] _ _ _ rfl hm1)
  · exact oneByOne_map shape obs _ (h _ _ _ _ _ _ _ hshape hm) (fun q => h _ _ [1] [q] _ _ _ rfl hm1)

/-- C103, `prism_gravity`, every field. -/
theorem C103_prism_gravity (junk : Junk) (mode mode1 : Mode) (K : PrismKernels) (shape : List ℕ)
    (obs : List P3) (hshape : shape.prod = obs.length) (hne : obs ≠ []) (srcs : List (Prism × ℝ))
    (hm : mode.Full obs.length (2 * srcs.length)) (hm1 : mode1.Full 1 (2 * srcs.length))
    (field : String) (dis : Bool) :
    OneByOne shape obs
      ((prismGravity junk mode K (arrays shape obs) (srcs.map (·.1)) (srcs.map (·.2)) field dis).map
        (·.2))
      (fun q => (prismGravity junk mode1 K (arrays1 [q]) (srcs.map (·.1)) (srcs.map (·.2)) field
        dis).map (·.2)) := by
  rcases prismField_form K field with h | ⟨k, c, -, h⟩
  · exact oneByOne_error shape hne (h _ _ _ _ _ _ hshape hm)
      (fun q => h _ _ [1] [q] _ _ rfl hm1)
  · by_cases hd : dis = true ∨ ∀ s ∈ srcs, s.1.Ordered
    · refine oneByOne_map shape obs _ ((h _ _ _ _ _ _ hshape hm).trans (if_pos hd))
        (fun q => (h _ _ [1] [q] _ _ rfl hm1).trans (if_pos hd))
    · exact oneByOne_error shape hne ((h _ _ _ _ _ _ hshape hm).trans (if_neg hd))
        (fun q => (h _ _ [1] [q] _ _ rfl hm1).trans (if_neg hd))

/-- the array of a result of the magnetic models, when it is one array -/
def single : MagResult → Py NdArray
  | .single a => .ok a
  | .vector _ _ _ => .error .TypeError

/-- the arrays of a result of the magnetic models, when they are three -/
def vector : MagResult → Py (NdArray × NdArray × NdArray)
  | .single _ => .error .TypeError
  | .vector a b c => .ok (a, b, c)

theorem magSpec_oneByOne {S : Type} (K : MagKernels S) (shape : List ℕ) (obs : List P3) (hne : obs ≠ [])
    (srcs : List (S × V3)) (field : String) :
    OneByOne shape obs ((magSpec K shape obs srcs field).bind single)
      (fun q => (magSpec K [1] [q] srcs field).bind single) ∧
    OneByOne3 shape obs ((magSpec K shape obs srcs field).bind vector)
      (fun q => (magSpec K [1] [q] srcs field).bind vector) := by
  unfold magSpec
  by_cases h1 : field = "b"
  · simp only [h1, if_true]
    refine ⟨oneByOne_error shape hne rfl (fun q => rfl), oneByOne3_map shape obs
      (fun q => (total (fun q s => (K.field q s.1 s.2).1) srcs q * 10 ^ 9,
        total (fun q s => (K.field q s.1 s.2).2.1) srcs q * 10 ^ 9,
        total (fun q s => (K.field q s.1 s.2).2.2) srcs q * 10 ^ 9)) ?_ (fun q => rfl)⟩
    simp [Except.bind, vector, components, Function.comp_def]
  have one : ∀ k : P3 → S → V3 → ℝ, ∀ r, r = (fun shape (obs : List P3) => (Except.ok (MagResult.single
      ⟨shape, obs.map fun q => total (fun q s => k q s.1 s.2) srcs q * 10 ^ 9⟩) : Py MagResult)) →
      OneByOne shape obs ((r shape obs).bind single) (fun q => (r [1] [q]).bind single) ∧
      OneByOne3 shape obs ((r shape obs).bind vector) (fun q => (r [1] [q]).bind vector) := by
    rintro k r rfl
    exact ⟨oneByOne_map shape obs _ rfl (fun q => rfl), oneByOne3_error shape hne rfl (fun q => rfl)⟩
  simp only [if_neg h1]
  by_cases h2 : field = "b_e"
  · simp only [if_pos h2]
    exact one K.e _ rfl
  simp only [if_neg h2]
  by_cases h3 : field = "b_n"
  · simp only [if_pos h3]
    exact one K.n _ rfl
  simp only [if_neg h3]
  by_cases h4 : field = "b_u"
  · simp only [if_pos h4]
    exact one K.u _ rfl
  simp only [if_neg h4]
  exact ⟨oneByOne_error shape hne rfl (fun q => rfl), oneByOne3_error shape hne rfl (fun q => rfl)⟩

/-- C103, `dipole_magnetic`, one component or the vector. -/
theorem C103_dipole_magnetic (junk : Junk) (mode mode1 : Mode) (K : MagKernels P3) (shape ps : List ℕ)
    (obs : List P3) (hshape : shape.prod = obs.length) (hne : obs ≠ []) (srcs : List (P3 × V3))
    (hm : mode.Full obs.length (6 * srcs.length)) (hm1 : mode1.Full 1 (6 * srcs.length))
    (field : String) (dis : Bool) :
    let call (mode : Mode) (coordinates : NdArray × NdArray × NdArray) :=
      dipoleMagnetic junk mode K coordinates (arrays ps (srcs.map (·.1)))
        [(srcs.map (·.2)).map (·.x), (srcs.map (·.2)).map (·.y), (srcs.map (·.2)).map (·.z)] field dis
    OneByOne shape obs ((call mode (arrays shape obs)).bind single)
      (fun q => (call mode1 (arrays1 [q])).bind single) ∧
    OneByOne3 shape obs ((call mode (arrays shape obs)).bind vector)
      (fun q => (call mode1 (arrays1 [q])).bind vector) := by
  intro call
  have h1 : call mode (arrays shape obs) = magSpec K shape obs srcs field :=
    dipoleMagnetic_eq junk mode K shape ps obs hshape srcs hm field dis
  have h2 : ∀ q, call mode1 (arrays1 [q]) = magSpec K [1] [q] srcs field := fun q =>
    dipoleMagnetic_eq junk mode1 K [1] ps [q] rfl srcs hm1 field dis
  simp only [h1, h2]
  exact magSpec_oneByOne K shape obs hne srcs field

/-- C103, `prism_magnetic`. -/
theorem C103_prism_magnetic (junk : Junk) (mode mode1 : Mode) (K : MagKernels Prism) (shape : List ℕ)
    (obs : List P3) (hshape : shape.prod = obs.length) (hne : obs ≠ []) (srcs : List (Prism × V3))
    (hm : mode.Full obs.length (6 * srcs.length)) (hm1 : mode1.Full 1 (6 * srcs.length))
    (field : String) (dis : Bool) :
    let call (mode : Mode) (coordinates : NdArray × NdArray × NdArray) :=
      prismMagnetic junk mode K coordinates (srcs.map (·.1))
        [(srcs.map (·.2)).map (·.x), (srcs.map (·.2)).map (·.y), (srcs.map (·.2)).map (·.z)] field dis
    OneByOne shape obs ((call mode (arrays shape obs)).bind single)
      (fun q => (call mode1 (arrays1 [q])).bind single) ∧
    OneByOne3 shape obs ((call mode (arrays shape obs)).bind vector)
      (fun q => (call mode1 (arrays1 [q])).bind vector) := by
  intro call
  have h1 := prismMagnetic_eq junk mode K shape obs hshape srcs hm field dis
  have h2 := fun q => prismMagnetic_eq junk mode1 K [1] [q] rfl srcs hm1 field dis
  by_cases hd : dis = false ∧ ¬ ∀ s ∈ srcs, s.1.Ordered
  · simp only [if_pos hd] at h1 h2
    have h1' : call mode (arrays shape obs) = _ := h1
    have h2' : ∀ q, call mode1 (arrays1 [q]) = _ := h2
    simp only [h1', h2']
    exact ⟨oneByOne_error shape hne rfl (fun q => rfl), oneByOne3_error shape hne rfl (fun q => rfl)⟩
  · simp only [if_neg hd] at h1 h2
    have h1' : call mode (arrays shape obs) = _ := h1
    have h2' : ∀ q, call mode1 (arrays1 [q]) = _ := h2
    simp only [h1', h2']
    exact magSpec_oneByOne K shape obs hne _ field
/-- calls that return only when each point meets a condition -/
theorem oneByOne_cond {P : Type} (shape : List ℕ) (obs : List P) (f : P → ℝ) (C : P → Prop)
    {batch : Py NdArray} {single : P → Py NdArray}
    (hb : (∀ q ∈ obs, C q) → batch = .ok ⟨shape, obs.map f⟩)
    (hb' : ¬ (∀ q ∈ obs, C q) → ∃ e, batch = .error e)
    (hs : ∀ q, C q → single q = .ok ⟨[1], [f q]⟩)
    (hs' : ∀ q, ¬ C q → ∃ e, single q = .error e) : OneByOne shape obs batch single := by
  intro r
  by_cases hC : ∀ q ∈ obs, C q
  · rw [hb hC, Except.ok.injEq]
    obtain ⟨s, d⟩ := r
    rw [NdArray.mk.injEq, eq_comm (a := shape)]
    refine and_congr_right fun _ => ?_
    clear hb hb'
    simp only
    induction obs generalizing d with
    | nil => simp [eq_comm]
    | cons q obs ih =>
      have ih := ih fun q hq => hC q (List.mem_cons_of_mem _ hq)
      rw [List.forall₂_cons_left_iff, List.map_cons]
      constructor
      · rintro rfl
        exact ⟨_, _, hs q (hC q List.mem_cons_self), (ih _).1 rfl, rfl⟩
      · rintro ⟨x, m, h1, h2, rfl⟩
        rw [hs q (hC q List.mem_cons_self), Except.ok.injEq, NdArray.mk.injEq] at h1
        rw [(ih m).2 h2]
        simpa using h1.2
  · obtain ⟨e, he⟩ := hb' hC
    rw [he]
    push Not at hC
    obtain ⟨q, hq, hC⟩ := hC
    obtain ⟨e', he'⟩ := hs' q hC
    refine ⟨fun h => (nomatch h), fun h => ?_⟩
    obtain ⟨hl, hi⟩ := List.forall₂_iff_get.1 h.2
    obtain ⟨i, hlt, rfl⟩ := List.mem_iff_getElem.1 hq
    have := hi i hlt (hl ▸ hlt)
    simp only [List.get_eq_getElem] at this
    rw [he'] at this
    cases this

/-- what a call that may not end returns; here a call that does not end is as one that raises -/
def ends : Option (Py NdArray) → Py NdArray
  | none => .error .TypeError
  | some x => x

open Verif.Tesseroid in
/-- C103, `tesseroid_gravity` with values of density. Whether the call returns also has to be decided
point by point: points inside tesseroids and overflows of the adaptive discretization raise. -/
theorem C103_tesseroid_gravity (junk : Junk) (mode mode1 : Mode) (M : Minimizer) (fuel : ℕ)
    (stack0 small0 stack1 small1 : ℕ → Tess) (shape : List ℕ) (obs : List P3)
    (hshape : shape.prod = obs.length) (hne : obs ≠ []) (srcs : List (Tess × ℝ)) (field : String)
    (radial dis : Bool) (hm : mode.Full obs.length (2 * (100000 * srcs.length)))
    (hm1 : mode1.Full 1 (2 * (100000 * srcs.length))) :
    OneByOne shape obs
      (ends (tesseroidGravity junk mode M fuel stack0 small0 (arrays shape obs) (srcs.map (·.1))
        (.values (srcs.map (·.2))) field radial dis))
      (fun q => ends (tesseroidGravity junk mode1 M fuel stack1 small1 (arrays1 [q]) (srcs.map (·.1))
        (.values (srcs.map (·.2))) field radial dis)) := by
  cases htab : tessFieldTable field with
  | none =>
    refine oneByOne_error (e := .ValueError) (e' := fun _ => .ValueError) shape hne ?_ (fun q => ?_) <;>
      simp [arrays1, tesseroidGravity_values, htab, ends]
  | some kc =>
    have hR : Returns field radial dis obs srcs ↔ ∀ q ∈ obs, Returns field radial dis [q] srcs := by
      unfold Returns ChecksPass
      constructor
      · rintro ⟨h1, h2⟩ q hq
        refine ⟨h1.imp id fun h => ⟨h.1, ?_⟩, fun q' hq' => by
          rw [List.mem_singleton.1 hq']; exact h2 q hq⟩
        rintro ⟨q', hq', h'⟩
        rw [List.mem_singleton.1 hq'] at h'
        exact h.2 ⟨q, hq, h'⟩
      · intro h
        obtain ⟨q0, hq0⟩ := List.exists_mem_of_ne_nil obs hne
        refine ⟨?_, fun q hq => (h q hq).2 q List.mem_cons_self⟩
        by_cases hd : dis = true
        · exact .inl hd
        · refine .inr ⟨((h q0 hq0).1.resolve_left hd).1, ?_⟩
          rintro ⟨q, hq, h'⟩
          exact ((h q hq).1.resolve_left hd).2 ⟨q, List.mem_cons_self, h'⟩
    have h1 := tesseroidGravity_form field kc htab junk mode M fuel stack0 small0 shape obs hshape srcs
      radial dis hm
    have h2 := fun q => tesseroidGravity_form field kc htab junk mode1 M fuel stack1 small1 [1] [q] rfl
      srcs radial dis hm1
    refine oneByOne_cond shape obs _ (fun q => Returns field radial dis [q] srcs)
      (fun h => by rw [h1.1 (hR.2 h)]; rfl) (fun h => ?_) (fun q h => by
        rw [show arrays1 [q] = arrays [1] [q] from rfl, (h2 q).1 h]; rfl) (fun q h => ?_)
    · obtain ⟨e, he, -⟩ := h1.2 (fun h' => h (hR.1 h'))
      exact ⟨e, by rw [he]; rfl⟩
    · obtain ⟨e, he, -⟩ := (h2 q).2 h
      exact ⟨e, by rw [show arrays1 [q] = arrays [1] [q] from rfl, he]; rfl⟩

open Verif.Tesseroid in
/-- C103, `tesseroid_gravity` with a function of the radius as density. -/
theorem C103_tesseroid_gravity_function (junk : Junk) (mode mode1 : Mode) (M : Minimizer) (fuel : ℕ)
    (stack0 small0 stack1 small1 : ℕ → Tess) (shape : List ℕ) (obs : List P3)
    (hshape : shape.prod = obs.length) (hne : obs ≠ []) (ts : List Tess) (f : ℝ → ℝ) (field : String)
    (radial dis : Bool) (k : ℕ)
    (hk : ∀ ts', densityDiscretization M f fuel (ts.map (usedTess dis)) = some ts' →
      2 * (100000 * ts'.length) ≤ k)
    (hm : mode.Full obs.length k) (hm1 : mode1.Full 1 k) :
    OneByOne shape obs
      (ends (tesseroidGravity junk mode M fuel stack0 small0 (arrays shape obs) ts (.func f) field
        radial dis))
      (fun q => ends (tesseroidGravity junk mode1 M fuel stack1 small1 (arrays1 [q]) ts (.func f)
        field radial dis)) := by
  classical
  have e1 := tesseroidGravity_func junk mode M fuel stack0 small0 shape obs ts f field radial dis
  have e2 : ∀ q, tesseroidGravity junk mode1 M fuel stack1 small1 (arrays1 [q]) ts (.func f)
    field radial dis = _ := fun q =>
    tesseroidGravity_func junk mode1 M fuel stack1 small1 [1] [q] ts f field radial dis
  simp only [e1, e2]
  clear e1 e2
  cases htab : tessFieldTable field with
  | none =>
    exact oneByOne_error shape hne rfl (fun q => rfl)
  | some kc =>
    dsimp only
    cases hdd : densityDiscretization M f fuel (ts.map (usedTess dis)) with
    | none =>
      intro r
      have h0 : ∀ (c : Prop) [Decidable c], ends (if c then none else some (.error .ValueError)) ≠ .ok r := by
        intro c _; split <;> exact fun h => nomatch h
      have h1 : ∀ (c : Prop) [Decidable c] x, ends (if c then none else some (.error .ValueError)) ≠
          .ok (⟨[1], [x]⟩ : NdArray) := by
        intro c _ x; split <;> exact fun h => nomatch h
      obtain ⟨q, obs, rfl⟩ := List.exists_cons_of_ne_nil hne
      simp only [h0, false_iff, List.forall₂_cons_left_iff]
      rintro ⟨-, x, m, hx, -⟩
      exact h1 _ _ hx
    | some ts' =>
      dsimp only
      by_cases hl : ts'.length = 0
      · intro r
        obtain ⟨q, obs, rfl⟩ := List.exists_cons_of_ne_nil hne
        simp only [hl, List.length_cons, ne_eq, Nat.add_eq_zero_iff, one_ne_zero, and_false,
          not_false_eq_true, and_self, if_true, ite_self, ends, List.forall₂_cons_left_iff,
          reduceCtorEq, false_and, exists_false]
      · simp only [hl, false_and, if_false]
        let pcs : P3 → Tess → List Tess := fun q t =>
          match tessPieces (tessParams field radial q) t with | .ok p => p | .error _ => []
        let C : P3 → Prop := fun q => ChecksPass dis [q] ts ∧
          ∀ s ∈ ts'.zipIdx, ∃ p, tessPieces (tessParams field radial q) s.1 = .ok p
        let F : P3 → ℝ := fun q => kc.2 * total (fun q (s : Tess × ℕ) => ((pcs q s.1).map
          (fun t => glqVariable (radians q.x) (Real.cos (radians q.y)) (Real.sin (radians q.y)) q.z t f
            glq2 kc.1)).sum) ts'.zipIdx q
        have hC : ∀ obs : List P3, obs ≠ [] → (ChecksPass dis obs ts ↔ ∀ q ∈ obs, ChecksPass dis [q] ts) := by
          intro obs hne
          unfold ChecksPass
          constructor
          · intro h q hq
            refine h.imp id fun h => ⟨h.1, ?_⟩
            rintro ⟨q', hq', h'⟩
            rw [List.mem_singleton.1 hq'] at h'
            exact h.2 ⟨q, hq, h'⟩
          · intro h
            obtain ⟨q0, hq0⟩ := List.exists_mem_of_ne_nil obs hne
            by_cases hd : dis = true
            · exact .inl hd
            · refine .inr ⟨((h q0 hq0).resolve_left hd).1, ?_⟩
              rintro ⟨q, hq, h'⟩
              exact ((h q hq).resolve_left hd).2 ⟨q, List.mem_cons_self, h'⟩
        have good : ∀ (m : Mode) (st sm : ℕ → Tess) (shape : List ℕ) (obs : List P3),
            shape.prod = obs.length → obs ≠ [] → m.Full obs.length k → (∀ q ∈ obs, C q) →
            ends (if ChecksPass dis obs ts then some (tessCompute junk m st sm (obs.map (·.x))
              (obs.map (·.y)) (obs.map (·.z)) shape field radial ts' fun lonr cosphi sinphi radius _ t =>
                glqVariable lonr cosphi sinphi radius t f glq2 kc.1) else some (.error .ValueError)) =
              .ok ⟨shape, obs.map F⟩ := by
          intro m st sm shape obs hshape hne hm h
          rw [if_pos ((hC obs hne).2 fun q hq => (h q hq).1)]
          have hts : ts' = ts'.zipIdx.map (·.1) := by rw [List.zipIdx_map_fst]
          have key := tessCompute_ok junk m st sm obs shape hshape field
            radial ts'.zipIdx (·.1) k (by simpa [MAX_DISCRETIZATIONS] using hk ts' hdd) hm
            (fun lonr cosphi sinphi radius _ t => glqVariable lonr cosphi sinphi radius t f glq2 kc.1)
            (fun q _ t => glqVariable (radians q.x) (Real.cos (radians q.y)) (Real.sin (radians q.y)) q.z t f
              glq2 kc.1) (by intro q j hj t; rfl) pcs (by
                intro q hq s hs
                obtain ⟨p, hp⟩ := (h q hq).2 s hs
                simp only [pcs, hp])
          rw [← hts] at key
          rw [key, scale_tess field kc htab, List.map_map]
          rfl
        have bad : ∀ (m : Mode) (st sm : ℕ → Tess) (shape : List ℕ) (obs : List P3), obs ≠ [] →
            m.Full obs.length k → ¬ (∀ q ∈ obs, C q) →
            ∃ e, ends (if ChecksPass dis obs ts then some (tessCompute junk m st sm (obs.map (·.x))
              (obs.map (·.y)) (obs.map (·.z)) shape field radial ts' fun lonr cosphi sinphi radius _ t =>
                glqVariable lonr cosphi sinphi radius t f glq2 kc.1) else some (.error .ValueError)) =
              .error e := by
          intro m st sm shape obs hne hm h
          by_cases hc : ChecksPass dis obs ts
          · rw [if_pos hc]
            have : ∃ q ∈ obs, ∃ s ∈ ts'.zipIdx, ∃ e,
                tessPieces (tessParams field radial q) s.1 = .error e := by
              by_contra hn
              apply h
              refine fun q hq => ⟨(hC obs hne).1 hc q hq, fun s hs => ?_⟩
              cases hh : tessPieces (tessParams field radial q) s.1 with
              | ok p => exact ⟨p, rfl⟩
              | error e => exact absurd ⟨q, hq, s, hs, e, hh⟩ hn
            obtain ⟨q, hq, s, hs, e, he⟩ := this
            obtain ⟨-, -, -, -, e1, -, h1⟩ := tessCompute_error junk m st sm obs shape field radial
              ts'.zipIdx (·.1) k hm (fun lonr cosphi sinphi radius _ t =>
                glqVariable lonr cosphi sinphi radius t f glq2 kc.1) q hq s hs e he
            rw [List.zipIdx_map_fst] at h1
            exact ⟨e1, by rw [h1]; rfl⟩
          · rw [if_neg hc]
            exact ⟨_, rfl⟩
        exact oneByOne_cond shape obs F C (fun h => good _ _ _ _ _ hshape hne hm h)
          (fun h => bad _ _ _ _ _ hne hm h)
          (fun q h => good mode1 stack1 small1 [1] [q] rfl (by simp) hm1 (by simpa using h))
          (fun q h => bad mode1 stack1 small1 [1] [q] (by simp) hm1 (by simpa using h))

open Verif.Layers in
/-- C103, `prism_layer.gravity`. -/
theorem C103_prism_layer (junk : Junk) (mode mode1 : Mode) (K : PrismKernels) (shape : List ℕ)
    (obs : List P3) (hshape : shape.prod = obs.length) (hne : obs ≠ []) {nn ne : ℕ} (hn : 2 ≤ nn)
    (he : 2 ≤ ne) (E N : ℕ → ℝ) (B T D : ℕ → ℕ → Option ℝ) (vars : List (String × List (Option ℝ)))
    (density_name : String) (hD : vars.lookup density_name = some (grid nn ne D))
    (threshold : Option ℝ) (hm : mode.Full obs.length (2 * (nn * ne)))
    (hm1 : mode1.Full 1 (2 * (nn * ne))) (field : String) :
    OneByOne shape obs
      (layerGravity junk mode K ⟨coords ne E, coords nn N, grid nn ne T, grid nn ne B, vars⟩
        (arrays shape obs) field density_name threshold)
      (fun q => layerGravity junk mode1 K ⟨coords ne E, coords nn N, grid nn ne T, grid nn ne B, vars⟩
        (arrays1 [q]) field density_name threshold) := by
  cases hl : (prismFields K).lookup field with
  | none =>
    refine oneByOne_error (e := .ValueError) (e' := fun _ => .ValueError) shape hne ?_ (fun q => ?_) <;>
      simp [layerGravity, hl]
  | some kernel =>
    cases hreg : checkRegularGrid (coords ne E) (coords nn N) with
    | error e =>
      refine oneByOne_error (e := e) (e' := fun _ => e) shape hne ?_ (fun q => ?_) <;>
        simp [layerGravity, hl, hreg, Py.bind_error]
    | ok u =>
      obtain ⟨re, hre⟩ := coords_two he E
      obtain ⟨rn, hrn⟩ := coords_two hn N
      have hsc : ∀ (fields : List String) (a : ℝ), ∃ b : ℝ, ∀ l : List ℝ,
          scaleIf field fields a l = l.map (b * ·) := by
        intro fields a
        unfold scaleIf
        split
        · exact ⟨a, fun l => List.map_congr_left fun x _ => mul_comm _ _⟩
        · exact ⟨1, fun l => by simp⟩
      obtain ⟨b1, h1⟩ := hsc ["g_z", "g_ez", "g_nz"] (-1)
      obtain ⟨b2, h2⟩ := hsc ["g_e", "g_n", "g_z"] 1e5
      obtain ⟨b3, h3⟩ := hsc ["g_ee", "g_nn", "g_zz", "g_en", "g_ez", "g_nz"] 1e9
      have key : ∀ (m : Mode) (shape : List ℕ) (obs : List P3), shape.prod = obs.length →
          m.Full obs.length (2 * (nn * ne)) →
          layerGravity junk m K ⟨coords ne E, coords nn N, grid nn ne T, grid nn ne B, vars⟩
            (arrays shape obs) field density_name threshold = .ok ⟨shape, obs.map fun q =>
              b3 * (b2 * (b1 * total (fun q s => kernel q s.1 s.2)
                (gravityElements E N B T D (threshold.getD 0) nn ne) q))⟩ := by
        intro m shape obs hshape hm
        have hsum := layerLoop_result junk kernel m obs E N B T D (threshold.getD 0) nn ne hm
        unfold layerGravity
        simp only [hl, hreg, npBroadcast_arrays, Py.bind_ok, hD]
        rw [hre, hrn] at hsum ⊢
        simp only [arrays, List.length_map, hshape, hsum, Py.pure_eq, h1, h2, h3, List.map_map]
        rfl
      exact oneByOne_map shape obs _ (key mode shape obs hshape hm) (fun q => key mode1 [1] [q] rfl hm1)

open Verif.EqSources in
/-- C103, `EquivalentSources.predict` (and the gradient-boosted sources, which inherit it). -/
theorem C103_predict (junk : Junk) (mode mode1 : Mode) (P : Params) (hd : P.dtype.IsFloat)
    (d1 d2 d3 d1' d2' d3' : DType) (shape : List ℕ) (obs : List P3) (hshape : shape.prod = obs.length)
    (srcs : List (P3 × ℝ)) (hm : mode.Full obs.length (2 * srcs.length))
    (hm1 : mode1.Full 1 (2 * srcs.length)) (s : State)
    (hp : s.points_ = some (pointArrs (srcs.map (·.1)))) (hc : s.coefs_ = some (srcs.map (·.2))) :
    OneByOne shape obs (predict junk mode P (coordArrs d1 d2 d3 shape obs) s)
      (fun q => predict junk mode1 P (coordArrs d1' d2' d3' [1] [q]) s) :=
  oneByOne_map shape obs _ (predict_eq junk mode P hd d1 d2 d3 shape obs hshape srcs hm s hp hc)
    (fun q => predict_eq junk mode1 P hd d1' d2' d3' [1] [q] rfl srcs hm1 s hp hc)

open Verif.EqSources in
/-- C103, `EquivalentSourcesSph.predict`. -/
theorem C103_predict_spherical (junk : Junk) (mode mode1 : Mode)
    (d1 d2 d3 d1' d2' d3' : DType) (hd : d1.IsFloat) (hd' : d1'.IsFloat) (shape : List ℕ)
    (obs : List P3) (hshape : shape.prod = obs.length)
    (srcs : List (P3 × ℝ)) (hm : mode.Full obs.length (2 * srcs.length))
    (hm1 : mode1.Full 1 (2 * srcs.length)) (s : State)
    (hp : s.points_ = some (pointArrs (srcs.map (·.1)))) (hc : s.coefs_ = some (srcs.map (·.2))) :
    OneByOne shape obs (predictSph junk mode (coordArrs d1 d2 d3 shape obs) s)
      (fun q => predictSph junk mode1 (coordArrs d1' d2' d3' [1] [q]) s) :=
  oneByOne_map shape obs _ (predictSph_eq junk mode d1 d2 d3 hd shape obs hshape srcs hm s hp hc)
    (fun q => predictSph_eq junk mode1 d1' d2' d3' hd' [1] [q] rfl srcs hm1 s hp hc)

open Verif.Ellipsoids in
/-- C103, `ellipsoid_gravity`. -/
theorem C103_ellipsoid_gravity (shape : List ℕ) (pts : List P3) (hshape : pts.length = shape.prod)
    (bodies : Bodies) (h : ∀ e ∈ bodies.toList, e.Valid) :
    OneByOne3 shape pts ((ellipsoidGravity (arrays shape pts) bodies).map (·.1))
      (fun q => (ellipsoidGravity (arrays1 [q]) bodies).map (·.1)) := by
  obtain ⟨field, hf⟩ := fields_exist
  have key := fun shape pts hshape => ellipsoidGravity_eq shape pts hshape bodies field
    (fun e he d hd => (hf e (h e he)).1 _ d hd) (fun e he => (hf e (h e he)).2.1)
  set F : Ellipsoids.V3 → Ellipsoids.V3 := fun p => (bodies.toList.map fun e => field e p).sum with hF
  refine oneByOne3_map shape pts (fun q => (F (vec q) 0 * 10 ^ 5, F (vec q) 1 * 10 ^ 5,
    -F (vec q) 2 * 10 ^ 5)) ?_ (fun q => ?_)
  · rw [key shape pts hshape]
    simp [Except.map, gravityResult, components, Function.comp_def]
  · rw [show arrays1 [q] = arrays [1] [q] from rfl, key [1] [q] rfl]
    simp [Except.map, gravityResult, components]

open Verif.Ellipsoids in
/-- C103, `ellipsoid_magnetic`. -/
theorem C103_ellipsoid_magnetic (mu0 : ℝ) (shape : List ℕ) (pts : List P3)
    (hshape : pts.length = shape.prod) (bodies : Bodies)
    (h : ∀ e ∈ bodies.toList, e.Valid ∧ e.Passive) (B0 : Ellipsoids.V3) :
    OneByOne3 shape pts ((ellipsoidMagnetic mu0 (arrays shape pts) bodies B0).map (·.1))
      (fun q => (ellipsoidMagnetic mu0 (arrays1 [q]) bodies B0).map (·.1)) := by
  obtain ⟨field, hf⟩ := magneticFields_exist mu0 (inducingH mu0 B0)
  have key := fun shape pts hshape => ellipsoidMagnetic_eq mu0 shape pts hshape bodies B0 field
    (fun e he hne => (hf e (h e he).1 (h e he).2).1 hne _)
    (fun e he hpl => (hf e (h e he).1 (h e he).2).2.1 hpl)
  set F : Ellipsoids.V3 → Ellipsoids.V3 := fun p => (bodies.toList.map fun e => field e p).sum with hF
  refine oneByOne3_map shape pts (fun q => (10 ^ 9 * F (vec q) 0, 10 ^ 9 * F (vec q) 1,
    10 ^ 9 * F (vec q) 2)) ?_ (fun q => ?_)
  · rw [key shape pts hshape]
    simp [Except.map, magneticResult, components, Function.comp_def]
  · rw [show arrays1 [q] = arrays [1] [q] from rfl, key [1] [q] rfl]
    simp [Except.map, magneticResult, components]

open Verif.Igrf in
/-- C103, `IGRF14.predict` at one date. -/
theorem C103_igrf_predict (mode mode1 : Mode) (junk junk1 : Igrf.Junk) (self : Igrf)
    (c : Legendre.Arr × Legendre.Arr)
    (points : List (ℝ × ℝ × ℝ)) (hN : 1 ≤ self.max_degree)
    (hm : mode.Full points.length (accesses self.max_degree))
    (hm1 : mode1.Full 1 (accesses self.max_degree))
    (hlat : ∀ x ∈ points, self.ellipsoid.latitude x.2.1 x.2.2 ∈ Set.Icc (-90) 90)
    (r : List Igrf.V3) :
    predictWith mode junk self c points = .ok r ↔
      List.Forall₂ (fun x v => predictWith mode1 junk1 self c [x] = .ok [v]) points r := by
  rw [C57_predict mode junk self c points hN hm hlat, Except.ok.injEq,
    forall₂_eq_map' (fun x : ℝ × ℝ × ℝ =>
      vectorSphericalToGeodetic x.2.1 (self.ellipsoid.latitude x.2.1 x.2.2)
        (field c.1 c.2 self.min_degree self.max_degree (radians x.1,
          radians (90 - self.ellipsoid.latitude x.2.1 x.2.2),
          6371.2e3 / self.ellipsoid.radius x.2.1 x.2.2)))]
  · exact eq_comm
  · intro x hx v
    rw [C57_predict mode1 junk1 self c [x] hN hm1 (by simpa using hlat x hx), Except.ok.injEq]
    simp [eq_comm]

end Verif.Survey
