import Verif.Layers.ModelD
import Verif.Layers.Props

/-! C136: layers built from DataArrays. -/

namespace Verif.Layers
open Verif.Utils

/-! ## Specification -/

/-- The value of a DataArray at the position (row, column) of its values. -/
noncomputable def GridData.atPosition (g : GridData) (k j : ℕ) : Option ℝ :=
  if g.transposed then g.val (g.northing.getD j 0) (g.easting.getD k 0)
  else g.val (g.northing.getD k 0) (g.easting.getD j 0)

/-- The number of rows and columns of a DataArray are those of the layer. -/
def GridData.Fits (g : GridData) (nn ne : ℕ) : Prop :=
  if g.transposed then g.easting.length = nn ∧ g.northing.length = ne
  else g.northing.length = nn ∧ g.easting.length = ne

/-- The DataArray has the dimensions and the labels of the layer, in the same order. -/
def GridData.SameCoordinates (g : GridData) (northing easting : List ℝ) : Prop :=
  g.transposed = false ∧ g.northing = northing ∧ g.easting = easting

/-! ## Lemmas -/

private theorem flat_get (f : ℝ → ℝ → Option ℝ) (B : List ℝ) : ∀ (A : List ℝ) (k j : ℕ), k < A.length → j < B.length →
    (A.flatMap fun a => B.map fun b => f a b)[k * B.length + j]? = some (f (A.getD k 0) (B.getD j 0))
  | [], k, j, hk, _ => by simp at hk
  | a :: A, 0, j, _, hj => by
    rw [List.flatMap_cons, List.getElem?_append_left (by simpa using hj)]
    simp [hj]
  | a :: A, k + 1, j, hk, hj => by
    rw [List.flatMap_cons, List.getElem?_append_right (by simp; nlinarith)]
    have e : (k + 1) * B.length + j - (B.map fun b => f a b).length = k * B.length + j := by
      rw [List.length_map, Nat.succ_mul]; omega
    rw [e, flat_get f B A k j (by simpa using hk) hj]
    simp

private theorem flat_length (f : ℝ → ℝ → Option ℝ) (A B : List ℝ) :
    (A.flatMap fun a => B.map fun b => f a b).length = A.length * B.length := by
  induction A with
  | nil => simp
  | cons a A ih => rw [List.flatMap_cons, List.length_append, ih, List.length_map, List.length_cons]; ring

private theorem asarray_get (g : GridData) (nn ne : ℕ) (h : g.Fits nn ne) (k j : ℕ) (hk : k < nn) (hj : j < ne) :
    g.asarray.data[k * ne + j]? = some (g.atPosition k j) := by
  unfold GridData.Fits at h
  unfold GridData.asarray GridData.atPosition
  cases ht : g.transposed with
  | true =>
    rw [ht] at h; simp only [if_true] at h ⊢
    rw [← h.2, flat_get (fun e n => g.val n e) g.northing g.easting k j (h.1 ▸ hk) (h.2 ▸ hj)]
  | false =>
    rw [ht] at h; simp only [Bool.false_eq_true, if_false] at h ⊢
    rw [← h.2, flat_get (fun n e => g.val n e) g.easting g.northing k j (h.1 ▸ hk) (h.2 ▸ hj)]

private theorem asarray_shape (g : GridData) (nn ne : ℕ) : g.asarray.shape = [nn, ne] ↔ g.Fits nn ne := by
  unfold GridData.Fits GridData.asarray
  cases g.transposed <;> simp

private theorem asarray_length (g : GridData) (nn ne : ℕ) (h : g.Fits nn ne) : g.asarray.data.length = nn * ne := by
  unfold GridData.Fits at h
  unfold GridData.asarray
  cases ht : g.transposed with
  | true =>
    rw [ht] at h; simp only [if_true] at h ⊢
    rw [flat_length (fun e n => g.val n e), h.1, h.2]
  | false =>
    rw [ht] at h; simp only [Bool.false_eq_true, if_false] at h ⊢
    rw [flat_length (fun n e => g.val n e), h.1, h.2]

private theorem asarray_kind (g : GridData) : g.asarray.kind = g.kind := by
  unfold GridData.asarray; split <;> rfl

/-! ## C136 -/

/-- C136: surfaces, references and properties (of floats) with as many rows and columns as the layer are accepted,
whatever their labels, and their values are taken by position. -/
theorem C136_positions (ov : Bool) (easting northing : List ℝ) (surface : GridData) (reference : ℝ ⊕ GridData)
    (props : List (String × GridData)) (hs : surface.Fits northing.length easting.length)
    (hr : ∀ g, reference = .inr g → g.Fits northing.length easting.length ∧ g.kind = .float)
    (hp : ∀ p ∈ props, p.2.Fits northing.length easting.length) (hk : surface.kind = .float)
    (hreg : checkRegularGrid easting northing = .ok ()) (hov : ov = true → checkOverlap easting = .ok ()) :
    ∃ layer, makeLayerX ov easting northing surface reference props = .ok layer ∧
      layer.easting = easting ∧ layer.northing = northing ∧
      ∀ k j, k < northing.length → j < easting.length →
        (let r := reference.elim some (·.atPosition k j)
         layer.top[k * easting.length + j]? = some (topSpec (surface.atPosition k j) r) ∧
         layer.bottom[k * easting.length + j]? = some (bottomSpec (surface.atPosition k j) r)) ∧
        ∀ (i : ℕ) (p : String × GridData), props[i]? = some p → ∃ data, layer.vars[i]? = some (p.1, data) ∧
          data[k * easting.length + j]? = some (p.2.atPosition k j) := by
  obtain ⟨heap', layer, h1, -, h2, h3, h4, h5⟩ := C19_layer_partial ov [surface.asarray, referenceArr reference] easting
    northing 0 1 (props.map fun p => (p.1, p.2.asarray)) surface.asarray (referenceArr reference) rfl rfl
    ((asarray_shape _ _ _).2 hs)
    (by
      cases reference with
      | inl x => exact Or.inl rfl
      | inr g => exact Or.inr ((asarray_shape _ _ _).2 (hr g rfl).1))
    (by rw [asarray_length _ _ _ hs]; simp [layerShape])
    (by rw [asarray_kind, hk]; intro h; cases h)
    (by
      cases reference with
      | inl x => intro h; exact absurd rfl h
      | inr g => intro _ h; rw [referenceArr, asarray_kind, (hr g rfl).2] at h; cases h)
    (by
      intro p hp'
      obtain ⟨q, hq, rfl⟩ := List.mem_map.1 hp'
      exact (asarray_shape _ _ _).2 (hp q hq))
    hreg hov
  refine ⟨layer, by unfold makeLayerX; rw [h1]; rfl, h2, h3, fun k j hk' hj' => ⟨?_, ?_⟩⟩
  · refine h5 _ _ _ (asarray_get _ _ _ hs k j hk' hj') ?_
    cases reference with
    | inl x => rfl
    | inr g =>
      have hsh := (asarray_shape g northing.length easting.length).2 (hr g rfl).1
      unfold refAt referenceArr
      simp only [hsh, List.cons_ne_nil, if_false]
      exact asarray_get _ _ _ (hr g rfl).1 k j hk' hj'
  · intro i p hip
    refine ⟨p.2.asarray.data, ?_, asarray_get _ _ _ (hp p (List.mem_of_getElem? hip)) k j hk' hj'⟩
    rw [h4, List.map_map, List.getElem?_map, hip]; rfl

/-- The full claim: the values of a surface that has the dimensions and the labels of the layer, in any order, are
matched with the elements of the layer by the labels. -/
def C136_full : Prop :=
  ∀ (ov : Bool) (easting northing : List ℝ) (surface : GridData) (x : ℝ) (layer : Layer),
    surface.kind = .float → surface.northing.Perm northing → surface.easting.Perm easting →
    makeLayerX ov easting northing surface (.inl x) [] = .ok layer →
    ∀ k j n e, northing[k]? = some n → easting[j]? = some e →
      layer.top[k * easting.length + j]? = some (topSpec (surface.val n e) (some x))

/-- C136, partial: when every DataArray has the dimensions and the labels of the layer in the same order, each element of
the layer has the maximum and the minimum of surface and reference at its own coordinates as top and bottom, and the
properties of its own coordinates. Missing: other orders, for which it is false. -/
theorem C136_same_coordinates_partial (ov : Bool) (easting northing : List ℝ) (surface : GridData)
    (reference : ℝ ⊕ GridData) (props : List (String × GridData)) (hs : surface.SameCoordinates northing easting)
    (hr : ∀ g, reference = .inr g → g.SameCoordinates northing easting ∧ g.kind = .float)
    (hp : ∀ p ∈ props, p.2.SameCoordinates northing easting) (hk : surface.kind = .float)
    (hreg : checkRegularGrid easting northing = .ok ()) (hov : ov = true → checkOverlap easting = .ok ()) :
    ∃ layer, makeLayerX ov easting northing surface reference props = .ok layer ∧
      layer.easting = easting ∧ layer.northing = northing ∧
      ∀ k j n e, northing[k]? = some n → easting[j]? = some e →
        (let r := reference.elim some (·.val n e)
         layer.top[k * easting.length + j]? = some (topSpec (surface.val n e) r) ∧
         layer.bottom[k * easting.length + j]? = some (bottomSpec (surface.val n e) r)) ∧
        ∀ (i : ℕ) (p : String × GridData), props[i]? = some p → ∃ data, layer.vars[i]? = some (p.1, data) ∧
          data[k * easting.length + j]? = some (p.2.val n e) := by
  have hfit : ∀ g : GridData, g.SameCoordinates northing easting → g.Fits northing.length easting.length := by
    rintro g ⟨h1, h2, h3⟩
    unfold GridData.Fits
    rw [h1, h2, h3]; simp
  have hval : ∀ g : GridData, g.SameCoordinates northing easting → ∀ k j n e, northing[k]? = some n →
      easting[j]? = some e → g.atPosition k j = g.val n e := by
    rintro g ⟨h1, h2, h3⟩ k j n e hn he
    unfold GridData.atPosition
    rw [h1, h2, h3]
    simp [List.getD_eq_getElem?_getD, hn, he]
  obtain ⟨layer, h1, h2, h3, h4⟩ := C136_positions ov easting northing surface reference props (hfit _ hs)
    (fun g h => ⟨hfit _ (hr g h).1, (hr g h).2⟩) (fun p h => hfit _ (hp p h)) hk hreg hov
  refine ⟨layer, h1, h2, h3, fun k j n e hn he => ?_⟩
  obtain ⟨h5, h6⟩ := h4 k j (List.getElem?_eq_some_iff.1 hn).1 (List.getElem?_eq_some_iff.1 he).1
  refine ⟨?_, fun i p hip => ?_⟩
  · rw [hval _ hs k j n e hn he] at h5
    cases reference with
    | inl x => exact h5
    | inr g =>
      simp only [Sum.elim_inr] at h5 ⊢
      rw [hval _ (hr g rfl).1 k j n e hn he] at h5
      exact h5
  · rw [← hval _ (hp p (List.mem_of_getElem? hip)) k j n e hn he]
    exact h6 i p hip

/-- C136: a transposed DataArray of the same grid is not accepted, unless the layer has as many rows as columns:
ValueError. -/
theorem C136_transposed_rejected (ov : Bool) (easting northing : List ℝ) (surface : GridData) (reference : ℝ ⊕ GridData)
    (ht : surface.transposed = true)
    (he : surface.easting.length = easting.length) (hne : northing.length ≠ easting.length)
    (hreg : checkRegularGrid easting northing = .ok ()) (hov : ov = true → checkOverlap easting = .ok ()) :
    makeLayerX ov easting northing surface reference [] = .error .ValueError := by
  unfold makeLayerX
  rw [C19_layer_wrong_shape ov [surface.asarray, referenceArr reference] easting northing 0 1 _ surface.asarray
    (referenceArr reference) rfl rfl (Or.inl ?_) (by intro p hp; cases hp) hreg hov]
  · rfl
  · unfold layerShape
    rw [ne_eq, asarray_shape]
    unfold GridData.Fits
    rw [ht]
    simp only [if_true]
    intro h
    exact hne (h.1.symm.trans he)

/-- C136: a transposed DataArray of the same grid is accepted by a layer with as many rows as columns, and every element
gets the value of another place: the one with row and column exchanged. -/
theorem C136_transposed_square (ov : Bool) (easting northing : List ℝ) (surface : GridData) (x : ℝ)
    (ht : surface.transposed = true) (hn : surface.northing = northing) (he : surface.easting = easting)
    (hsq : northing.length = easting.length) (hk : surface.kind = .float)
    (hreg : checkRegularGrid easting northing = .ok ()) (hov : ov = true → checkOverlap easting = .ok ()) :
    ∃ layer, makeLayerX ov easting northing surface (.inl x) [] = .ok layer ∧
      ∀ k j n e, northing[j]? = some n → easting[k]? = some e →
        layer.top[k * easting.length + j]? = some (topSpec (surface.val n e) (some x)) := by
  obtain ⟨layer, h1, -, -, h4⟩ := C136_positions ov easting northing surface (.inl x) []
    (by unfold GridData.Fits; rw [ht, hn, he]; simp [hsq]) (fun g h => by cases h) (fun p h => by cases h) hk hreg hov
  refine ⟨layer, h1, fun k j n e hn' he' => ?_⟩
  have := (h4 k j (hsq ▸ (List.getElem?_eq_some_iff.1 he').1) (hsq ▸ (List.getElem?_eq_some_iff.1 hn').1)).1.1
  rw [this]
  unfold GridData.atPosition
  rw [ht, hn, he]
  simp [List.getD_eq_getElem?_getD, hn', he']

/-- C136: so the full claim is false. A surface with the northings 1, 0 in this order makes a layer with northings 0, 1 that
is upside down. -/
theorem C136_not_full : ¬ C136_full := by
  intro h
  have hax : axis 0 1 2 = [0, 1] := by norm_num [axis, List.range_succ]
  have hreg : checkRegularGrid [(0 : ℝ), 1] [0, 1] = .ok () := by
    have := checkRegular_axis 0 1 0 1 (n := 2) (m := 2) (by norm_num) (by norm_num)
    rwa [hax] at this
  obtain ⟨layer, h1, -, -, h4⟩ := C136_positions false [0, 1] [0, 1] ⟨.float, false, [1, 0], [0, 1], fun n _ => some n⟩
    (.inl (-1)) [] (by simp [GridData.Fits]) (fun g h => by cases h) (fun p h => by cases h) rfl hreg
    (fun h => by cases h)
  have h5 := (h4 0 0 (by simp) (by simp)).1.1
  have h6 := h false [0, 1] [0, 1] _ (-1) layer rfl (List.Perm.swap _ _ _) (List.Perm.refl _) h1 0 0 0 0 rfl rfl
  rw [h5] at h6
  norm_num [GridData.atPosition, topSpec] at h6

/-- The hypotheses of `C136_same_coordinates_partial` are met: a layer of 2 × 2 prisms with a density. -/
example : ∃ layer, makeLayerX false [0, 1] [0, 1] ⟨.float, false, [0, 1], [0, 1], fun n e => some (n + 2 * e)⟩
      (.inr ⟨.float, false, [0, 1], [0, 1], fun _ e => some e⟩)
      [("density", ⟨.float, false, [0, 1], [0, 1], fun n _ => some (2670 + n)⟩)] = .ok layer ∧
    layer.top[2 * 1 + 0]? = some (some 1) ∧ layer.bottom[2 * 1 + 0]? = some (some 0) := by
  have hax : axis 0 1 2 = [0, 1] := by norm_num [axis, List.range_succ]
  have hreg : checkRegularGrid [(0 : ℝ), 1] [0, 1] = .ok () := by
    have := checkRegular_axis 0 1 0 1 (n := 2) (m := 2) (by norm_num) (by norm_num)
    rwa [hax] at this
  obtain ⟨layer, h1, -, -, h4⟩ := C136_same_coordinates_partial false [0, 1] [0, 1]
    ⟨.float, false, [0, 1], [0, 1], fun n e => some (n + 2 * e)⟩
    (.inr ⟨.float, false, [0, 1], [0, 1], fun _ e => some e⟩)
    [("density", ⟨.float, false, [0, 1], [0, 1], fun n _ => some (2670 + n)⟩)] ⟨rfl, rfl, rfl⟩
    (fun g h => by cases h; exact ⟨⟨rfl, rfl, rfl⟩, rfl⟩)
    (fun p h => by simp only [List.mem_cons, List.not_mem_nil, or_false] at h; subst h; exact ⟨rfl, rfl, rfl⟩)
    rfl hreg (fun h => by cases h)
  have := (h4 1 0 1 0 rfl rfl).1
  refine ⟨layer, h1, ?_, ?_⟩
  · have h := this.1
    simpa [topSpec] using h
  · have h := this.2
    simpa [bottomSpec] using h

end Verif.Layers
