import Verif.Shapes.Spec
import Verif.Layers.Model
import Verif.EqSources.Model
import Verif.Ellipsoids.Model

/-! C08: the shape of what the forward models and the equivalent sources return. -/

namespace Verif.Shapes

open Verif.Engine Verif.Forward

theorem broadcastRev_some : ∀ (a b s : List ℕ), broadcastRev a b = some s →
    s.length = max a.length b.length ∧
    ∀ k, (a.getD k 1 = s.getD k 1 ∨ a.getD k 1 = 1) ∧ (b.getD k 1 = s.getD k 1 ∨ b.getD k 1 = 1) ∧
      (a.getD k 1 = s.getD k 1 ∨ b.getD k 1 = s.getD k 1)
  | [], b, s, h => by
    simp only [broadcastRev, Option.some.injEq] at h
    subst h
    refine ⟨by simp, fun k => ⟨Or.inr (by simp), Or.inl rfl, Or.inr rfl⟩⟩
  | x :: a, [], s, h => by
    simp only [broadcastRev, Option.some.injEq] at h
    subst h
    refine ⟨by simp, fun k => ⟨Or.inl rfl, Or.inr (by simp), Or.inl rfl⟩⟩
  | x :: a, y :: b, s, h => by
    rw [broadcastRev, Option.bind_eq_some_iff] at h
    obtain ⟨r, hr, h⟩ := h
    obtain ⟨ih1, ih2⟩ := broadcastRev_some a b r hr
    have key : ∀ z, some (z :: r) = some s → (x = z ∨ x = 1) → (y = z ∨ y = 1) → (x = z ∨ y = z) →
        s.length = max (x :: a).length (y :: b).length ∧
        ∀ k, ((x :: a).getD k 1 = s.getD k 1 ∨ (x :: a).getD k 1 = 1) ∧
          ((y :: b).getD k 1 = s.getD k 1 ∨ (y :: b).getD k 1 = 1) ∧
          ((x :: a).getD k 1 = s.getD k 1 ∨ (y :: b).getD k 1 = s.getD k 1) := by
      intro z hz h1 h2 h3
      rw [Option.some.injEq] at hz
      subst hz
      refine ⟨by simp [ih1], fun k => ?_⟩
      cases k with
      | zero => exact ⟨h1, h2, h3⟩
      | succ k => simpa using ih2 k
    split at h
    · rename_i e; exact key _ h (Or.inl rfl) (Or.inl e.symm) (Or.inl rfl)
    · split at h
      · rename_i e; exact key _ h (Or.inr e) (Or.inl rfl) (Or.inr rfl)
      · split at h
        · rename_i e; exact key _ h (Or.inl rfl) (Or.inr e) (Or.inl rfl)
        · cases h

theorem broadcastRev_none : ∀ (a b : List ℕ), broadcastRev a b = none →
    ∃ k, a.getD k 1 ≠ b.getD k 1 ∧ a.getD k 1 ≠ 1 ∧ b.getD k 1 ≠ 1
  | [], b, h => by simp [broadcastRev] at h
  | x :: a, [], h => by simp [broadcastRev] at h
  | x :: a, y :: b, h => by
    rw [broadcastRev] at h
    cases hr : broadcastRev a b with
    | none =>
      obtain ⟨k, hk⟩ := broadcastRev_none a b hr
      exact ⟨k + 1, by simpa using hk⟩
    | some r =>
      rw [hr, Option.bind_some] at h
      split at h
      · cases h
      · split at h
        · cases h
        · split at h
          · cases h
          · rename_i h1 h2 h3
            exact ⟨0, h1, h2, h3⟩

/-- The shape that the code works out is the broadcast one, and it fails for shapes without one. -/
theorem npBroadcast_spec (a b c : NdArray) :
    (∀ s, npBroadcast a b c = .ok s → IsBroadcast [a.shape, b.shape, c.shape] s) ∧
    ((∀ s, ¬ IsBroadcast [a.shape, b.shape, c.shape] s) → npBroadcast a b c = .error .ValueError) := by
  have first : ∀ s, npBroadcast a b c = .ok s → IsBroadcast [a.shape, b.shape, c.shape] s := by
    intro s h
    unfold npBroadcast at h
    split at h
    · cases h
    · rename_i r hr
      rw [Except.ok.injEq] at h
      subst h
      rw [Option.bind_eq_some_iff] at hr
      obtain ⟨q, hq, hr⟩ := hr
      obtain ⟨l1, d1⟩ := broadcastRev_some _ _ _ hq
      obtain ⟨l2, d2⟩ := broadcastRev_some _ _ _ hr
      simp only [List.length_reverse] at l1 l2
      refine ⟨⟨?_, ?_⟩, ?_, ?_⟩
      · simp only [List.mem_cons, List.not_mem_nil, or_false, forall_eq_or_imp, forall_eq, List.length_reverse]
        omega
      · simp only [List.mem_cons, List.not_mem_nil, or_false, exists_eq_or_imp, exists_eq_left,
          List.length_reverse]
        omega
      · intro k
        simp only [List.mem_cons, List.not_mem_nil, or_false, forall_eq_or_imp, forall_eq, dim,
          List.reverse_reverse]
        have h1 := d1 k
        have h2 := d2 k
        omega
      · intro k
        simp only [List.mem_cons, List.not_mem_nil, or_false, exists_eq_or_imp, exists_eq_left, dim,
          List.reverse_reverse]
        have h1 := d1 k
        have h2 := d2 k
        omega
  refine ⟨first, fun h => ?_⟩
  cases hn : npBroadcast a b c with
  | ok s => exact absurd (first s hn) (h s)
  | error e =>
    unfold npBroadcast at hn
    split at hn <;> cases hn
    rfl

/-- Shapes with a broadcast shape are accepted. -/
theorem npBroadcast_ok (a b c : NdArray) {s : List ℕ} (h : IsBroadcast [a.shape, b.shape, c.shape] s) :
    npBroadcast a b c = .ok s := by
  have sizes : ∀ k, ∀ t ∈ [a.shape, b.shape, c.shape], dim t k = dim s k ∨ dim t k = 1 := h.sizes
  have unique : ∀ s', IsBroadcast [a.shape, b.shape, c.shape] s' → s' = s := by
    intro s' h'
    have hl : s'.length = s.length := by
      obtain ⟨t, ht, e⟩ := h.axes.2
      obtain ⟨t', ht', e'⟩ := h'.axes.2
      have := h.axes.1 t' ht'
      have := h'.axes.1 t ht
      omega
    have hd : ∀ k, dim s' k = dim s k := by
      intro k
      obtain ⟨t, ht, e⟩ := h.some k
      obtain ⟨t', ht', e'⟩ := h'.some k
      have := h.sizes k t' ht'
      have := h'.sizes k t ht
      omega
    have : s'.reverse = s.reverse := by
      apply List.ext_getElem (by simpa using hl)
      intro k h1 h2
      have := hd k
      simpa [dim, List.getD_eq_getElem?_getD, List.getElem?_eq_getElem h1, List.getElem?_eq_getElem h2] using this
    exact List.reverse_injective this
  cases hn : npBroadcast a b c with
  | ok s' => rw [unique s' ((npBroadcast_spec a b c).1 s' hn)]
  | error e =>
    exfalso
    unfold npBroadcast at hn
    split at hn
    · rename_i hr
      rw [Option.bind_eq_none_iff] at hr
      cases hq : broadcastRev a.shape.reverse b.shape.reverse with
      | none =>
        obtain ⟨k, h1, h2, h3⟩ := broadcastRev_none _ _ hq
        have ha := sizes k a.shape (by simp)
        have hb := sizes k b.shape (by simp)
        simp only [dim] at ha hb
        omega
      | some q =>
        obtain ⟨-, d1⟩ := broadcastRev_some _ _ _ hq
        obtain ⟨k, h1, h2, h3⟩ := broadcastRev_none _ _ (hr q hq)
        have ha := sizes k a.shape (by simp)
        have hb := sizes k b.shape (by simp)
        have hc := sizes k c.shape (by simp)
        simp only [dim] at ha hb hc
        have := d1 k
        omega
    · cases hn

/-- C08: the shape that the statements of the other theorems and of the full property take for the output is the
broadcast shape. -/
theorem C08_shape_rule (a b c : NdArray) (s : List ℕ) :
    npBroadcast a b c = .ok s ↔ IsBroadcast [a.shape, b.shape, c.shape] s :=
  ⟨(npBroadcast_spec a b c).1 s, npBroadcast_ok a b c⟩

theorem ok_bind {α β : Type} {x : Py α} {f : α → Py β} {b : β} (h : (x >>= f) = .ok b) :
    ∃ a, x = .ok a ∧ f a = .ok b := by
  cases x with
  | error e => cases h
  | ok a => exact ⟨a, rfl, h⟩

/-- Goes through a block that succeeds. -/
local macro "peel" h:ident : tactic => `(tactic| repeat' first
  | (cases $h:ident; done)
  | (obtain ⟨_, -, $h⟩ := ok_bind $h)
  | split at $h:ident)

/-- The three shapes of coordinates. -/
def shapesOf (c : NdArray × NdArray × NdArray) : List (List ℕ) := [c.1.shape, c.2.1.shape, c.2.2.shape]

theorem scaleIf_length (field : String) (fields : List String) (factor : ℝ) (l : List ℝ) :
    (scaleIf field fields factor l).length = l.length := by
  unfold scaleIf
  split <;> simp

/-- C08 for `point_gravity`: what is returned has the broadcast shape of the coordinates, with as many values;
coordinates that cannot be broadcast raise ValueError. -/
theorem C08_shape_point_gravity (junk : Junk) (mode : Mode) (K : PointKernels)
    (coordinates points : NdArray × NdArray × NdArray) (masses : NdArray) (field system : String) :
    (∀ g, pointGravity junk mode K coordinates points masses field system = .ok g →
      IsBroadcast (shapesOf coordinates) g.shape ∧ g.data.length = g.shape.prod) ∧
    ((∀ s, ¬ IsBroadcast (shapesOf coordinates) s) →
      pointGravity junk mode K coordinates points masses field system = .error .ValueError) := by
  constructor
  · intro g h
    unfold pointGravity at h
    obtain ⟨_, -, h⟩ := ok_bind h
    obtain ⟨shape, hs, h⟩ := ok_bind h
    dsimp only at h
    peel h
    all_goals
      simp only [Py.pure_eq, Except.ok.injEq] at h
      subst h
      exact ⟨(npBroadcast_spec _ _ _).1 _ hs, by simp [scaleIf_length]⟩
  · intro h
    unfold pointGravity
    rw [(npBroadcast_spec _ _ _).2 h]
    unfold Distance.checkCoordinateSystem
    split <;> rfl

/-- C08 for `prism_gravity`. -/
theorem C08_shape_prism_gravity (junk : Junk) (mode : Mode) (K : PrismKernels)
    (coordinates : NdArray × NdArray × NdArray) (prisms : List Prism) (density : List ℝ) (field : String)
    (disableChecks : Bool) :
    (∀ warn g, prismGravity junk mode K coordinates prisms density field disableChecks = .ok (warn, g) →
      IsBroadcast (shapesOf coordinates) g.shape ∧ g.data.length = g.shape.prod) ∧
    ((∀ s, ¬ IsBroadcast (shapesOf coordinates) s) →
      prismGravity junk mode K coordinates prisms density field disableChecks = .error .ValueError) := by
  constructor
  · intro warn g h
    unfold prismGravity at h
    split at h
    · cases h
    obtain ⟨shape, hs, h⟩ := ok_bind h
    dsimp only at h
    peel h
    all_goals
      simp only [Py.pure_eq, Except.ok.injEq, Prod.mk.injEq] at h
      obtain ⟨-, rfl⟩ := h
      exact ⟨(npBroadcast_spec _ _ _).1 _ hs, by simp [scaleIf_length]⟩
  · intro h
    unfold prismGravity
    rw [(npBroadcast_spec _ _ _).2 h]
    split <;> rfl

/-- The shapes of the arrays that magnetic forward models return: of a component, or of the three. -/
def magShapes : MagResult → List NdArray
  | .single a => [a]
  | .vector b_e b_n b_u => [b_e, b_n, b_u]

theorem magCompute_shape {S : Type} {junk : Junk} {mode : Mode} {K : MagKernels S} {shape : List ℕ}
    {e n u : List ℝ} {nsrc : ℕ} {src : ℕ → S} {me mn mu : List ℝ} {field : String} {r : MagResult}
    (h : magCompute junk mode K shape e n u nsrc src me mn mu field = .ok r) :
    ∀ b ∈ magShapes r, b.shape = shape ∧ b.data.length = shape.prod := by
  unfold magCompute at h
  dsimp only at h
  split at h
  · rw [Except.ok.injEq] at h
    subst h
    simp [magShapes]
  · split at h
    · cases h
    · rw [Except.ok.injEq] at h
      subst h
      simp [magShapes]

/-- C08 for `dipole_magnetic`. -/
theorem C08_shape_dipole_magnetic (junk : Junk) (mode : Mode) (K : MagKernels Distance.P3)
    (coordinates dipoles : NdArray × NdArray × NdArray) (moments : List (List ℝ)) (field : String)
    (disableChecks : Bool) :
    (∀ r, dipoleMagnetic junk mode K coordinates dipoles moments field disableChecks = .ok r →
      ∀ b ∈ magShapes r, IsBroadcast (shapesOf coordinates) b.shape ∧ b.data.length = b.shape.prod) ∧
    ((∀ s, ¬ IsBroadcast (shapesOf coordinates) s) →
      dipoleMagnetic junk mode K coordinates dipoles moments field disableChecks = .error .ValueError) := by
  constructor
  · intro r h
    unfold dipoleMagnetic at h
    dsimp only at h
    split at h
    · cases h
    obtain ⟨shape, hs, h⟩ := ok_bind h
    peel h
    all_goals
      intro b hb
      obtain ⟨h1, h2⟩ := magCompute_shape h b hb
      rw [h1]
      exact ⟨(npBroadcast_spec _ _ _).1 _ hs, h2⟩
  · intro h
    unfold dipoleMagnetic
    dsimp only
    rw [(npBroadcast_spec _ _ _).2 h]
    split <;> rfl

/-- C08 for `prism_magnetic`. -/
theorem C08_shape_prism_magnetic (junk : Junk) (mode : Mode) (K : MagKernels Prism)
    (coordinates : NdArray × NdArray × NdArray) (prisms : List Prism) (magnetization : List (List ℝ))
    (field : String) (disableChecks : Bool) :
    (∀ r, prismMagnetic junk mode K coordinates prisms magnetization field disableChecks = .ok r →
      ∀ b ∈ magShapes r, IsBroadcast (shapesOf coordinates) b.shape ∧ b.data.length = b.shape.prod) ∧
    ((∀ s, ¬ IsBroadcast (shapesOf coordinates) s) →
      prismMagnetic junk mode K coordinates prisms magnetization field disableChecks = .error .ValueError) := by
  constructor
  · intro r h
    unfold prismMagnetic at h
    dsimp only at h
    split at h
    · cases h
    obtain ⟨shape, hs, h⟩ := ok_bind h
    peel h
    all_goals
      intro b hb
      obtain ⟨h1, h2⟩ := magCompute_shape h b hb
      rw [h1]
      exact ⟨(npBroadcast_spec _ _ _).1 _ hs, h2⟩
  · intro h
    unfold prismMagnetic
    dsimp only
    rw [(npBroadcast_spec _ _ _).2 h]
    split <;> rfl

/-- C08 for `tesseroid_gravity`. -/
theorem C08_shape_tesseroid_gravity (junk : Junk) (mode : Mode) (M : Tesseroid.Minimizer) (fuel : ℕ)
    (stack0 small0 : ℕ → Tesseroid.Tess) (coordinates : NdArray × NdArray × NdArray)
    (ts : List Tesseroid.Tess) (density : Tesseroid.Density) (field : String) (radial disableChecks : Bool) :
    (∀ g, Tesseroid.tesseroidGravity junk mode M fuel stack0 small0 coordinates ts density field radial
        disableChecks = some (.ok g) →
      IsBroadcast (shapesOf coordinates) g.shape ∧ g.data.length = g.shape.prod) ∧
    ((∀ s, ¬ IsBroadcast (shapesOf coordinates) s) →
      Tesseroid.tesseroidGravity junk mode M fuel stack0 small0 coordinates ts density field radial
        disableChecks = some (.error .ValueError)) := by
  constructor
  · intro g h
    unfold Tesseroid.tesseroidGravity at h
    split at h
    · cases h
    dsimp only at h
    split at h
    · cases h
    rename_i shape ts' hs
    obtain ⟨shape', hb, hs'⟩ := ok_bind hs
    obtain ⟨_, -, hs'⟩ := ok_bind hs'
    obtain ⟨_, -, hs'⟩ := ok_bind hs'
    simp only [Py.pure_eq, Except.ok.injEq, Prod.mk.injEq] at hs'
    obtain ⟨rfl, -⟩ := hs'
    have done : ∀ l : List ℝ, l.length = shape'.prod → (⟨shape', l⟩ : NdArray) = g →
        IsBroadcast (shapesOf coordinates) g.shape ∧ g.data.length = g.shape.prod := by
      rintro l hl rfl
      exact ⟨(npBroadcast_spec _ _ _).1 _ hb, hl⟩
    split at h
    · split at h
      · cases h
      · rw [Option.some.injEq] at h
        peel h
        all_goals
          simp only [Py.pure_eq, Except.ok.injEq] at h
          exact done _ (by simp [scaleIf_length]) h
    · rw [Option.some.injEq] at h
      peel h
      all_goals
        simp only [Py.pure_eq, Except.ok.injEq] at h
        exact done _ (by simp [scaleIf_length]) h
  · intro h
    unfold Tesseroid.tesseroidGravity
    dsimp only
    rw [(npBroadcast_spec _ _ _).2 h]
    split <;> rfl

theorem reshape_ok {data : List ℝ} {shape : List ℕ} {g : NdArray} (h : Ellipsoids.reshape data shape = .ok g) :
    g.shape = shape ∧ g.data.length = shape.prod := by
  unfold Ellipsoids.reshape at h
  split at h
  · cases h
    exact ⟨rfl, by assumption⟩
  · cases h

/-- C08 for `ellipsoid_gravity`. -/
theorem C08_shape_ellipsoid_gravity (coordinates : NdArray × NdArray × NdArray)
    (ellipsoids : Ellipsoids.Bodies) :
    (∀ ge gn gz w, Ellipsoids.ellipsoidGravity coordinates ellipsoids = .ok ((ge, gn, gz), w) →
      ∀ g ∈ [ge, gn, gz], IsBroadcast (shapesOf coordinates) g.shape ∧ g.data.length = g.shape.prod) ∧
    ((∀ s, ¬ IsBroadcast (shapesOf coordinates) s) →
      Ellipsoids.ellipsoidGravity coordinates ellipsoids = .error .ValueError) := by
  constructor
  · intro ge gn gz w h
    unfold Ellipsoids.ellipsoidGravity at h
    obtain ⟨shape, hs, h⟩ := ok_bind h
    dsimp only at h
    obtain ⟨_, -, h⟩ := ok_bind h
    obtain ⟨_, h1, h⟩ := ok_bind h
    obtain ⟨_, h2, h⟩ := ok_bind h
    obtain ⟨_, h3, h⟩ := ok_bind h
    simp only [Py.pure_eq, Except.ok.injEq, Prod.mk.injEq] at h
    obtain ⟨⟨rfl, rfl, rfl⟩, -⟩ := h
    have hb := (npBroadcast_spec _ _ _).1 _ hs
    intro g hg
    simp only [List.mem_cons, List.not_mem_nil, or_false] at hg
    rcases hg with rfl | rfl | rfl
    · obtain ⟨e1, e2⟩ := reshape_ok h1; rw [e1]; exact ⟨hb, e2⟩
    · obtain ⟨e1, e2⟩ := reshape_ok h2; rw [e1]; exact ⟨hb, e2⟩
    · obtain ⟨e1, e2⟩ := reshape_ok h3; rw [e1]; exact ⟨hb, e2⟩
  · intro h
    unfold Ellipsoids.ellipsoidGravity
    rw [(npBroadcast_spec _ _ _).2 h]
    rfl

/-- C08 for `ellipsoid_magnetic`. -/
theorem C08_shape_ellipsoid_magnetic (mu0 : ℝ) (coordinates : NdArray × NdArray × NdArray)
    (ellipsoids : Ellipsoids.Bodies) (inducing_field : Ellipsoids.V3) :
    (∀ be bn bu w, Ellipsoids.ellipsoidMagnetic mu0 coordinates ellipsoids inducing_field =
        .ok ((be, bn, bu), w) →
      ∀ b ∈ [be, bn, bu], IsBroadcast (shapesOf coordinates) b.shape ∧ b.data.length = b.shape.prod) ∧
    ((∀ s, ¬ IsBroadcast (shapesOf coordinates) s) →
      Ellipsoids.ellipsoidMagnetic mu0 coordinates ellipsoids inducing_field = .error .ValueError) := by
  constructor
  · intro ge gn gz w h
    unfold Ellipsoids.ellipsoidMagnetic at h
    obtain ⟨shape, hs, h⟩ := ok_bind h
    dsimp only at h
    obtain ⟨_, -, h⟩ := ok_bind h
    obtain ⟨_, h1, h⟩ := ok_bind h
    obtain ⟨_, h2, h⟩ := ok_bind h
    obtain ⟨_, h3, h⟩ := ok_bind h
    simp only [Py.pure_eq, Except.ok.injEq, Prod.mk.injEq] at h
    obtain ⟨⟨rfl, rfl, rfl⟩, -⟩ := h
    have hb := (npBroadcast_spec _ _ _).1 _ hs
    intro g hg
    simp only [List.mem_cons, List.not_mem_nil, or_false] at hg
    rcases hg with rfl | rfl | rfl
    · obtain ⟨e1, e2⟩ := reshape_ok h1; rw [e1]; exact ⟨hb, e2⟩
    · obtain ⟨e1, e2⟩ := reshape_ok h2; rw [e1]; exact ⟨hb, e2⟩
    · obtain ⟨e1, e2⟩ := reshape_ok h3; rw [e1]; exact ⟨hb, e2⟩
  · intro h
    unfold Ellipsoids.ellipsoidMagnetic
    rw [(npBroadcast_spec _ _ _).2 h]
    rfl

/-- C08 for the gravity of a layer of prisms. -/
theorem C08_shape_prism_layer (junk : Junk) (mode : Mode) (K : PrismKernels) (layer : Layers.Layer)
    (coordinates : NdArray × NdArray × NdArray) (field density_name : String)
    (thickness_threshold : Option ℝ) {g : NdArray}
    (h : Layers.layerGravity junk mode K layer coordinates field density_name thickness_threshold = .ok g) :
    IsBroadcast (shapesOf coordinates) g.shape ∧ g.data.length = g.shape.prod := by
  unfold Layers.layerGravity at h
  split at h
  · cases h
  obtain ⟨_, -, h⟩ := ok_bind h
  obtain ⟨shape, hs, h⟩ := ok_bind h
  dsimp only at h
  split at h
  · cases h
  · simp only [Py.pure_eq, Except.ok.injEq] at h
    subst h
    exact ⟨(npBroadcast_spec _ _ _).1 _ hs, by simp [scaleIf_length]⟩
  · cases h

/-- C08 for `predict` of equivalent sources (Cartesian or gradient-boosted), fitted or not. -/
theorem C08_shape_predict (junk : Junk) (mode : Mode) (P : EqSources.Params)
    (coordinates : EqSources.Coords) (s : EqSources.State) {g : NdArray}
    (h : EqSources.predict junk mode P coordinates s = .ok g) :
    IsBroadcast [coordinates.1.shape, coordinates.2.1.shape, coordinates.2.2.shape] g.shape ∧
      g.data.length = g.shape.prod := by
  unfold EqSources.predict at h
  split at h
  · obtain ⟨shape, hs, h⟩ := ok_bind h
    simp only [Py.pure_eq, Except.ok.injEq] at h
    subst h
    exact ⟨(npBroadcast_spec _ _ _).1 _ hs, by simp [EqSources.predictKernel]⟩
  · cases h
  · cases h

/-- C08 for `predict` of equivalent sources in spherical coordinates. -/
theorem C08_shape_predict_spherical (junk : Junk) (mode : Mode)
    (coordinates : EqSources.Coords) (s : EqSources.State) {g : NdArray}
    (h : EqSources.predictSph junk mode coordinates s = .ok g) :
    IsBroadcast [coordinates.1.shape, coordinates.2.1.shape, coordinates.2.2.shape] g.shape ∧
      g.data.length = g.shape.prod := by
  unfold EqSources.predictSph at h
  split at h
  · obtain ⟨shape, hs, h⟩ := ok_bind h
    simp only [Py.pure_eq, Except.ok.injEq] at h
    subst h
    exact ⟨(npBroadcast_spec _ _ _).1 _ hs, by simp [EqSources.predictKernel]⟩
  · cases h
  · cases h

end Verif.Shapes
