import Verif.Layers.Lemmas
import Mathlib.Tactic.IntervalCases

/-! Properties of the layers: C19-C23 and the layer part of C72. -/

namespace Verif.Layers
open Verif.Forward Verif.Engine Verif.Distance Verif.Utils

/-! ### C19: top and bottom -/

/-- C19: the full claim for `update_top_bottom`, for any dtype (an integer array holds integers). -/
def C19_full : Prop :=
  ∀ (shape : List ℕ) (heap : Heap) (a b : ℕ) (S R : Arr), heap[a]? = some S → heap[b]? = some R →
    S.shape = shape → (R.shape = [] ∨ R.shape = shape) →
    S.data.length = shape.prod → R.data.length = R.shape.prod →
    (S.kind = .int → ∀ x ∈ S.data, IntVal x) → (R.kind = .int → ∀ x ∈ R.data, IntVal x) →
    ∃ heap' t bt top bottom, updateTopBottom shape heap a b = .ok (heap', t, bt) ∧
      heap'[t]? = some top ∧ heap'[bt]? = some bottom ∧
      ∀ i s r, S.data[i]? = some s → refAt R i = some r →
        top.data[i]? = some (topSpec s r) ∧ bottom.data[i]? = some (bottomSpec s r)

theorem refAt_get (shape : List ℕ) (R R1 : Arr) (i : ℕ) (r : Option ℝ) (hi : i < shape.prod)
    (h1 : R1 = if R.shape = [] then
        ⟨.float, shape, List.replicate shape.prod (R.data.headD none)⟩ else R)
    (hr : refAt R i = some r) : R1.data[i]? = some r := by
  unfold refAt at hr
  by_cases h0 : R.shape = []
  · rw [if_pos h0] at h1 hr
    subst h1
    have : R.data.headD none = r := by
      cases hR : R.data with
      | nil => rw [hR] at hr; cases hr
      | cons x l => rw [hR] at hr; simpa using hr
    simp only [this]
    simp [hi]
  · rw [if_neg h0] at h1 hr
    subst h1; exact hr

/-- C19, partial: top is the maximum and bottom the minimum of surface and reference, if each
value can be stored in the other array: an integer surface needs integer reference values, an
integer reference array integer surface values. A float surface with a scalar or float reference
always qualifies. Missing: arrays of integers whose counterpart has fractional values, where the
claim is false (`C19_not_all_dtypes`). -/
theorem C19_top_bottom_partial (shape : List ℕ) (heap : Heap) (a b : ℕ) (S R : Arr)
    (hS : heap[a]? = some S) (hR : heap[b]? = some R) (hs : S.shape = shape)
    (hr : R.shape = [] ∨ R.shape = shape) (hlS : S.data.length = shape.prod)
    (hkS : S.kind = .int → ∀ x ∈ R.data, IntVal x)
    (hkR : R.shape ≠ [] → R.kind = .int → ∀ x ∈ S.data, IntVal x) :
    ∃ heap' t bt top bottom, updateTopBottom shape heap a b = .ok (heap', t, bt) ∧
      heap'[t]? = some top ∧ heap'[bt]? = some bottom ∧
      ∀ i s r, S.data[i]? = some s → refAt R i = some r →
        top.data[i]? = some (topSpec s r) ∧ bottom.data[i]? = some (bottomSpec s r) := by
  obtain ⟨heap', t, bt, R1, h, -, -, -, hR1, ht, hb⟩ :=
    updateTopBottom_ok shape heap a b S R hS hR hs hr
  refine ⟨heap', t, bt, _, _, h, ht, hb, fun i s r hsi hri => ?_⟩
  have hi : i < shape.prod := by
    rw [← hlS]; exact (List.getElem?_eq_some_iff.1 hsi).1
  have h1 := refAt_get shape R R1 i r hi hR1 hri
  have hm := zipWith_get nanLt S.data R1.data i s r hsi h1
  rw [maskedCopy_get S R1 _ i s r _ hsi h1 hm, maskedCopy_get R1 S _ i r s _ h1 hsi hm]
  have hrmem : r ∈ R.data := by
    unfold refAt at hri
    split_ifs at hri
    · cases hRd : R.data with
      | nil => rw [hRd] at hri; cases hri
      | cons x l => rw [hRd] at hri; simp at hri; simp [hri]
    · exact List.mem_of_getElem? hri
  have hc1 : castTo S.kind r = r := castTo_intVal fun hk => hkS hk r hrmem
  have hc2 : castTo R1.kind s = s := by
    apply castTo_intVal
    intro hk
    by_cases h0 : R.shape = []
    · rw [if_pos h0] at hR1; rw [hR1] at hk; cases hk
    · rw [if_neg h0] at hR1; rw [hR1] at hk
      exact hkR h0 hk s (List.mem_of_getElem? hsi)
  rw [hc1, hc2]
  cases s with
  | none => cases r <;> simp [nanLt, topSpec, bottomSpec]
  | some s =>
    cases r with
    | none => simp [nanLt, topSpec, bottomSpec]
    | some r =>
      by_cases hlt : s < r
      · simp [nanLt, topSpec, bottomSpec, hlt, max_eq_right hlt.le, min_eq_left hlt.le]
      · simp [nanLt, topSpec, bottomSpec, hlt, max_eq_left (not_lt.1 hlt), min_eq_right (not_lt.1 hlt)]

/-- C19: no array that existed before the call is modified, in particular neither surface nor
reference, and the new coordinates are two different new arrays. -/
theorem C19_inputs_untouched (shape : List ℕ) (heap heap' : Heap) (a b t bt : ℕ)
    (h : updateTopBottom shape heap a b = .ok (heap', t, bt)) :
    (∀ i < heap.length, heap'[i]? = heap[i]?) ∧ heap.length ≤ t ∧ heap.length ≤ bt ∧ t ≠ bt := by
  cases hS : heap[a]? with
  | none => simp [updateTopBottom, hS] at h
  | some S =>
    cases hR : heap[b]? with
    | none => simp [updateTopBottom, hS, hR] at h
    | some R =>
      by_cases hs : S.shape = shape
      · by_cases hr : R.shape = [] ∨ R.shape = shape
        · obtain ⟨heap'', t', bt', R1, h', h1, h2, h3, -, -, -⟩ :=
            updateTopBottom_ok shape heap a b S R hS hR hs hr
          rw [h'] at h
          cases h
          exact ⟨h1, h2, by omega, by omega⟩
        · rw [not_or] at hr
          simp [updateTopBottom, hS, hR, hs, hr] at h
      · simp [updateTopBottom, hS, hR, hs] at h

theorem le_trunc {s r : ℝ} (z : ℤ) (hz : s = z) (h : s < r) : s ≤ truncZ r := by
  subst hz
  unfold truncZ
  split_ifs
  · exact_mod_cast Int.le_floor.2 h.le
  · exact_mod_cast (Int.lt_ceil.2 h).le

theorem trunc_le {s r : ℝ} (z : ℤ) (hz : r = z) (h : s < r) : truncZ s ≤ r := by
  subst hz
  unfold truncZ
  split_ifs
  · exact_mod_cast (Int.floor_lt.2 h).le
  · exact_mod_cast Int.ceil_le.2 h.le

/-- C19: for every combination of dtypes the top is not below the bottom. -/
theorem C19_order (shape : List ℕ) (heap heap' : Heap) (a b t bt : ℕ) (S R top bottom : Arr)
    (hS : heap[a]? = some S) (hR : heap[b]? = some R) (hlS : S.data.length = shape.prod)
    (hkS : S.kind = .int → ∀ x ∈ S.data, IntVal x) (hkR : R.kind = .int → ∀ x ∈ R.data, IntVal x)
    (hlR : R.data.length = R.shape.prod)
    (h : updateTopBottom shape heap a b = .ok (heap', t, bt))
    (ht : heap'[t]? = some top) (hb : heap'[bt]? = some bottom)
    (i : ℕ) (x y : ℝ) (hx : top.data[i]? = some (some x)) (hy : bottom.data[i]? = some (some y)) :
    y ≤ x := by
  by_cases hs : S.shape = shape
  swap; · simp [updateTopBottom, hS, hR, hs] at h
  by_cases hr : R.shape = [] ∨ R.shape = shape
  swap
  · rw [not_or] at hr
    simp [updateTopBottom, hS, hR, hs, hr] at h
  obtain ⟨heap'', t', bt', R1, h', -, -, -, hR1, ht', hb'⟩ :=
    updateTopBottom_ok shape heap a b S R hS hR hs hr
  rw [h'] at h; cases h
  rw [ht'] at ht; rw [hb'] at hb; cases ht; cases hb
  have hkR1 : R1.kind = .int → ∀ x ∈ R1.data, IntVal x := by
    rw [hR1]; split_ifs with h0
    · intro hk; cases hk
    · exact hkR
  have hi : i < S.data.length := by
    have := (List.getElem?_eq_some_iff.1 hx).1
    simp [maskedCopy] at this
    omega
  have hlR1 : R1.data.length = shape.prod := by
    rw [hR1]; split_ifs with h0
    · simp
    · rw [hlR, hr.resolve_left h0]
  obtain ⟨s, hsi⟩ : ∃ s, S.data[i]? = some s := ⟨_, List.getElem?_eq_getElem hi⟩
  obtain ⟨r, hri⟩ : ∃ r, R1.data[i]? = some r :=
    ⟨_, List.getElem?_eq_getElem (by rw [hlR1, ← hlS]; exact hi)⟩
  have hm := zipWith_get nanLt S.data R1.data i s r hsi hri
  rw [maskedCopy_get S R1 _ i s r _ hsi hri hm] at hx
  rw [maskedCopy_get R1 S _ i r s _ hri hsi hm] at hy
  have hsI : S.kind = .int → IntVal s := fun hk => hkS hk s (List.mem_of_getElem? hsi)
  have hrI : R1.kind = .int → IntVal r := fun hk => hkR1 hk r (List.mem_of_getElem? hri)
  cases s with
  | none => simp [nanLt] at hx
  | some s =>
    cases r with
    | none => simp [nanLt] at hy
    | some r =>
      by_cases hlt : s < r
      · simp only [nanLt, hlt, decide_true, if_true, Option.some.injEq] at hx hy
        cases hk1 : S.kind with
        | float =>
          cases hk2 : R1.kind with
          | float =>
            rw [hk1] at hx; rw [hk2] at hy
            simp [castTo] at hx hy; linarith
          | int =>
            rw [hk1] at hx; rw [hk2] at hy
            simp [castTo] at hx hy
            obtain ⟨z, hz⟩ := hrI hk2 r rfl
            rw [← hx, ← hy]; exact trunc_le z hz hlt
        | int =>
          obtain ⟨z, hz⟩ := hsI hk1 s rfl
          cases hk2 : R1.kind with
          | float =>
            rw [hk1] at hx; rw [hk2] at hy
            simp [castTo] at hx hy
            rw [← hx, ← hy]; exact le_trunc z hz hlt
          | int =>
            rw [hk1] at hx; rw [hk2] at hy
            simp [castTo] at hx hy
            obtain ⟨w, hw⟩ := hrI hk2 r rfl
            rw [← hx, ← hy, hz, truncZ_int, ← hz]
            exact le_trunc z hz hlt
      · simp [nanLt, hlt] at hx hy
        linarith [not_lt.1 hlt]

/-- C19: a surface or a (non scalar) reference of another shape than the layer raises ValueError. -/
theorem C19_wrong_shape (shape : List ℕ) (heap : Heap) (a b : ℕ) (S R : Arr)
    (hS : heap[a]? = some S) (hR : heap[b]? = some R)
    (hbad : S.shape ≠ shape ∨ (R.shape ≠ [] ∧ R.shape ≠ shape)) :
    updateTopBottom shape heap a b = .error .ValueError := by
  unfold updateTopBottom
  simp only [hS, hR]
  by_cases hs : S.shape ≠ shape
  · rw [if_pos hs]
  · rw [if_neg hs, if_pos (hbad.resolve_left hs)]

/-- C19 is false for integer arrays: the surface −10 with the reference 0.5 gives the top 0. -/
theorem C19_not_all_dtypes : ¬ C19_full := by
  intro h
  obtain ⟨heap', t, bt, top, bottom, h1, h2, -, h4⟩ := h [1, 1]
    [⟨.int, [1, 1], [some (-10)]⟩, ⟨.float, [], [some (1 / 2)]⟩] 0 1 _ _ rfl rfl rfl (.inl rfl)
    rfl rfl (by intro _ x hx v hv; simp at hx; subst hx; cases hv; exact ⟨-10, by norm_num⟩)
    (by intro hk; cases hk)
  have h5 := (h4 0 _ _ rfl rfl).1
  obtain ⟨heap'', t', bt', R1, h1', -, -, -, hR1, ht', -⟩ := updateTopBottom_ok [1, 1]
    [⟨.int, [1, 1], [some (-10)]⟩, ⟨.float, [], [some (1 / 2)]⟩] 0 1 _ _ rfl rfl rfl (.inl rfl)
  rw [h1] at h1'; cases h1'
  rw [h2] at ht'; cases ht'
  rw [hR1] at h5
  norm_num [maskedCopy, nanLt, castTo, truncZ, topSpec] at h5

/-- concrete case: a float surface above and below a scalar reference, with a NaN -/
example : ∃ (heap' : Heap) (t bt : ℕ) (top bottom : Arr), updateTopBottom [1, 3]
      [⟨.float, [1, 3], [some 5, some (-7), none]⟩, ⟨.int, [], [some 1]⟩] 0 1 = .ok (heap', t, bt) ∧
      heap'[t]? = some top ∧ heap'[bt]? = some bottom ∧ top.data[0]? = some (some (5 : ℝ)) ∧
      top.data[1]? = some (some (1 : ℝ)) ∧ bottom.data[1]? = some (some (-7 : ℝ)) ∧
      top.data[2]? = some none := by
  obtain ⟨heap', t, bt, top, bottom, h1, h2, h3, h4⟩ := C19_top_bottom_partial [1, 3]
    [⟨.float, [1, 3], [some 5, some (-7), none]⟩, ⟨.int, [], [some 1]⟩] 0 1 _ _ rfl rfl rfl
    (.inl rfl) rfl (by intro h; cases h) (by intro h; exact absurd rfl h)
  refine ⟨heap', t, bt, top, bottom, h1, h2, h3, ?_, ?_, ?_, ?_⟩
  · rw [(h4 0 _ _ rfl rfl).1]; norm_num [topSpec]
  · rw [(h4 1 _ _ rfl rfl).1]; norm_num [topSpec]
  · rw [(h4 1 _ _ rfl rfl).2]; norm_num [bottomSpec]
  · rw [(h4 2 _ _ rfl rfl).1]; rfl

theorem makeLayer_eq (ov : Bool) (heap : Heap) (easting northing : List ℝ) (a b : ℕ)
    (props : List (String × Arr)) (S R : Arr) (hS : heap[a]? = some S) (hR : heap[b]? = some R)
    (hs : S.shape = layerShape easting northing)
    (hr : R.shape = [] ∨ R.shape = layerShape easting northing)
    (hp : ∀ p ∈ props, p.2.shape = layerShape easting northing)
    (hreg : checkRegularGrid easting northing = .ok ()) :
    (∀ e, ov = true → checkOverlap easting = .error e →
      makeLayer ov heap easting northing a b props = .error e) ∧
    ((ov = true → checkOverlap easting = .ok ()) →
      ∃ heap' t bt top bottom,
        updateTopBottom (layerShape easting northing) heap a b = .ok (heap', t, bt) ∧
        heap'[t]? = some top ∧ heap'[bt]? = some bottom ∧
        makeLayer ov heap easting northing a b props = .ok (heap',
          ⟨easting, northing, top.data, bottom.data, props.map fun p => (p.1, p.2.data)⟩)) := by
  have hany : (props.any fun p => decide (p.2.shape ≠ layerShape easting northing)) = false := by
    rw [List.any_eq_false]
    intro p hp'
    simpa using hp p hp'
  unfold makeLayer
  rw [hany]
  constructor
  · rintro e rfl he
    simp [hreg, he, Py.bind_ok, Py.bind_error]
  · intro hov
    obtain ⟨heap', t, bt, R1, h1, -, -, -, -, ht, hb⟩ :=
      updateTopBottom_ok (layerShape easting northing) heap a b S R hS hR hs hr
    refine ⟨heap', t, bt, _, _, h1, ht, hb, ?_⟩
    cases ov with
    | false => simp [hreg, h1, ht, hb, Py.bind_ok, Py.pure_eq]
    | true => simp [hreg, hov rfl, h1, ht, hb, Py.bind_ok, Py.pure_eq]

/-- C19, partial, for `prism_layer` (`ov = false`) and `tesseroid_layer` (`ov = true`): the new
layer has the given coordinates and properties, top the maximum and bottom the minimum. Same
restriction on integer arrays as `C19_top_bottom_partial`. -/
theorem C19_layer_partial (ov : Bool) (heap : Heap) (easting northing : List ℝ) (a b : ℕ)
    (props : List (String × Arr)) (S R : Arr) (hS : heap[a]? = some S) (hR : heap[b]? = some R)
    (hs : S.shape = layerShape easting northing)
    (hr : R.shape = [] ∨ R.shape = layerShape easting northing)
    (hlS : S.data.length = (layerShape easting northing).prod)
    (hkS : S.kind = .int → ∀ x ∈ R.data, IntVal x)
    (hkR : R.shape ≠ [] → R.kind = .int → ∀ x ∈ S.data, IntVal x)
    (hp : ∀ p ∈ props, p.2.shape = layerShape easting northing)
    (hreg : checkRegularGrid easting northing = .ok ())
    (hov : ov = true → checkOverlap easting = .ok ()) :
    ∃ heap' layer, makeLayer ov heap easting northing a b props = .ok (heap', layer) ∧
      (∀ i < heap.length, heap'[i]? = heap[i]?) ∧
      layer.easting = easting ∧ layer.northing = northing ∧
      layer.vars = props.map (fun p => (p.1, p.2.data)) ∧
      ∀ i s r, S.data[i]? = some s → refAt R i = some r →
        layer.top[i]? = some (topSpec s r) ∧ layer.bottom[i]? = some (bottomSpec s r) := by
  obtain ⟨heap', t, bt, top, bottom, h1, h2, h3, h4⟩ :=
    C19_top_bottom_partial _ heap a b S R hS hR hs hr hlS hkS hkR
  obtain ⟨heap'', t', bt', top', bottom', h1', h2', h3', h5⟩ :=
    (makeLayer_eq ov heap easting northing a b props S R hS hR hs hr hp hreg).2 hov
  rw [h1] at h1'; cases h1'
  rw [h2] at h2'; cases h2'
  rw [h3] at h3'; cases h3'
  exact ⟨_, _, h5, (C19_inputs_untouched _ _ _ _ _ _ _ h1).1, rfl, rfl, rfl, h4⟩

/-- C19: a layer whose surface or reference has the wrong shape is not built. -/
theorem C19_layer_wrong_shape (ov : Bool) (heap : Heap) (easting northing : List ℝ) (a b : ℕ)
    (props : List (String × Arr)) (S R : Arr) (hS : heap[a]? = some S) (hR : heap[b]? = some R)
    (hbad : S.shape ≠ layerShape easting northing ∨
      (R.shape ≠ [] ∧ R.shape ≠ layerShape easting northing))
    (hp : ∀ p ∈ props, p.2.shape = layerShape easting northing)
    (hreg : checkRegularGrid easting northing = .ok ())
    (hov : ov = true → checkOverlap easting = .ok ()) :
    makeLayer ov heap easting northing a b props = .error .ValueError := by
  have hany : (props.any fun p => decide (p.2.shape ≠ layerShape easting northing)) = false := by
    rw [List.any_eq_false]
    intro p hp'
    simpa using hp p hp'
  unfold makeLayer
  rw [hany]
  have := C19_wrong_shape _ heap a b S R hS hR hbad
  cases ov with
  | false => simp [hreg, this, Py.bind_ok, Py.bind_error]
  | true => simp [hreg, hov rfl, this, Py.bind_ok, Py.bind_error]

/-- C19: properties of the wrong shape and coordinates that are not evenly spaced raise
ValueError. -/
theorem C19_layer_rejects (ov : Bool) (heap : Heap) (easting northing : List ℝ) (a b : ℕ)
    (props : List (String × Arr))
    (hbad : (∃ p ∈ props, p.2.shape ≠ layerShape easting northing) ∨
      checkRegularGrid easting northing = .error .ValueError) :
    makeLayer ov heap easting northing a b props = .error .ValueError := by
  unfold makeLayer
  by_cases h : (props.any fun p => decide (p.2.shape ≠ layerShape easting northing)) = true
  · rw [h]; rfl
  · rw [Bool.not_eq_true] at h
    rw [h]
    rcases hbad with ⟨p, hp, hne⟩ | hreg
    · rw [List.any_eq_false] at h
      exact absurd hne (by simpa using h p hp)
    · simp [hreg, Py.bind_error]

/-! ### C20: the elements tile the region of the layer -/

/-- C20: the rows of the whole layer, in C order. -/
theorem C20_rows {nn ne : ℕ} (hn : 2 ≤ nn) (he : 2 ≤ ne) (E N : ℕ → ℝ) (B T : ℕ → ℕ → Option ℝ)
    (vars : List (String × List (Option ℝ)))
    (hreg : checkRegularGrid (coords ne E) (coords nn N) = .ok ()) :
    toRows ⟨coords ne E, coords nn N, grid nn ne T, grid nn ne B, vars⟩
      = .ok (grid nn ne (elementRow E N B T)) :=
  toRows_grid hn he E N B T vars hreg

/-- C20: one element, with positive or negative indices, is the element of the full conversion. -/
theorem C20_get_element {nn ne : ℕ} (hn : 2 ≤ nn) (he : 2 ≤ ne) (E N : ℕ → ℝ)
    (B T : ℕ → ℕ → Option ℝ) (vars : List (String × List (Option ℝ)))
    (hreg : checkRegularGrid (coords ne E) (coords nn N) = .ok ()) (k j : ℕ) (hk : k < nn)
    (hj : j < ne) (k' j' : ℤ) (hk' : k' = k ∨ k' = (k : ℤ) - nn) (hj' : j' = j ∨ j' = (j : ℤ) - ne) :
    getElement ⟨coords ne E, coords nn N, grid nn ne T, grid nn ne B, vars⟩ k' j'
      = .ok (elementRow E N B T k j) ∧
    ∃ rows, toRows ⟨coords ne E, coords nn N, grid nn ne T, grid nn ne B, vars⟩ = .ok rows ∧
      rows[k * ne + j]? = some (elementRow E N B T k j) ∧ rows.length = nn * ne := by
  refine ⟨?_, _, toRows_grid hn he E N B T vars hreg, grid_get nn ne k j _ hk hj, by
    simp [grid, cells_length]⟩
  have hpk : pyIndex nn k' = .ok k := by
    unfold pyIndex
    rcases hk' with rfl | rfl
    · rw [if_pos ⟨by omega, by omega⟩]; rfl
    · rw [if_neg (by omega), if_pos ⟨by omega, by omega⟩]
      congr 1; omega
  have hpj : pyIndex ne j' = .ok j := by
    unfold pyIndex
    rcases hj' with rfl | rfl
    · rw [if_pos ⟨by omega, by omega⟩]; rfl
    · rw [if_neg (by omega), if_pos ⟨by omega, by omega⟩]
      congr 1; omega
  have hle : (coords ne E).length = ne := by simp
  have hln : (coords nn N).length = nn := by simp
  unfold getElement
  simp only [hle, hln, hpk, hpj, Py.bind_ok, coords_get E hj, coords_get N hk,
    grid_get nn ne k j _ hk hj, spacing_coords hn he E N hreg, Py.pure_eq]
  rfl

/-- C20: indices outside the layer raise IndexError. -/
theorem C20_index_out_of_range (layer : Layer) (k j : ℤ)
    (h : j < -layer.easting.length ∨ (layer.easting.length : ℤ) ≤ j ∨
      k < -layer.northing.length ∨ (layer.northing.length : ℤ) ≤ k) :
    getElement layer k j = .error .IndexError := by
  unfold getElement
  by_cases hj : j < -layer.easting.length ∨ (layer.easting.length : ℤ) ≤ j
  · have : pyIndex layer.easting.length j = .error .IndexError := by
      unfold pyIndex
      rw [if_neg (by omega), if_neg (by omega)]
    rw [this]; rfl
  · have h1 : pyIndex layer.northing.length k = .error .IndexError := by
      unfold pyIndex
      rw [if_neg (by omega), if_neg (by omega)]
    have h2 : ∃ m, pyIndex layer.easting.length j = .ok m := by
      unfold pyIndex
      by_cases h0 : 0 ≤ j ∧ j < layer.easting.length
      · exact ⟨_, if_pos h0⟩
      · rw [if_neg h0, if_pos (by omega)]; exact ⟨_, rfl⟩
    obtain ⟨m, hm⟩ := h2
    rw [hm, h1]; rfl

/-- C20, partial (ascending coordinates; for descending ones it is false, see
`C20_descending`): each element is centred on its node, has positive extent, and shares its faces
with its neighbours. -/
theorem C20_elements_partial (e0 se n0 sn : ℝ) (hse : 0 < se) (hsn : 0 < sn)
    (B T : ℕ → ℕ → Option ℝ) (k j : ℕ) :
    let row := elementRow (fun j => e0 + j * se) (fun k => n0 + k * sn) B T
    (row k j).west < (row k j).east ∧ (row k j).south < (row k j).north ∧
    ((row k j).west + (row k j).east) / 2 = e0 + j * se ∧
    ((row k j).south + (row k j).north) / 2 = n0 + k * sn ∧
    (row k j).east - (row k j).west = se ∧ (row k j).north - (row k j).south = sn ∧
    (row k (j + 1)).west = (row k j).east ∧ (row (k + 1) j).south = (row k j).north ∧
    (row k j).bottom = B k j ∧ (row k j).top = T k j := by
  refine ⟨?_, ?_, ?_, ?_, ?_, ?_, ?_, ?_, rfl, rfl⟩ <;>
    simp only [elementRow] <;> push_cast <;> linarith

/-- C20: in any accepted grid, evenly spaced up to the tolerance, the gap or overlap between
neighbours is within the tolerance. -/
theorem C20_gap {nn ne : ℕ} (hn : 2 ≤ nn) (he : 2 ≤ ne) (E N : ℕ → ℝ) (B T : ℕ → ℕ → Option ℝ)
    (hreg : checkRegularGrid (coords ne E) (coords nn N) = .ok ()) (k j : ℕ) :
    (j + 1 < ne → |(elementRow E N B T k j).east - (elementRow E N B T k (j + 1)).west|
      ≤ 1 / 10 ^ 8 + 1 / 10 ^ 5 * |E (j + 1) - E j|) ∧
    (k + 1 < nn → |(elementRow E N B T k j).north - (elementRow E N B T (k + 1) j).south|
      ≤ 1 / 10 ^ 8 + 1 / 10 ^ 5 * |N (k + 1) - N k|) := by
  obtain ⟨be, h1, h2⟩ := evenlySpaced_coords he E
  obtain ⟨bn, h3, h4⟩ := evenlySpaced_coords hn N
  have hbe : be = true ∧ bn = true := by
    unfold checkRegularGrid at hreg
    rw [h1] at hreg
    cases be with
    | false => simp [Py.bind_ok, Py.throw_eq, Py.bind_error] at hreg
    | true =>
      rw [h3] at hreg
      cases bn with
      | false => simp [Py.bind_ok, Py.throw_eq, Py.bind_error, Py.pure_eq] at hreg
      | true => exact ⟨rfl, rfl⟩
  constructor
  · intro hj
    have := h2.1 hbe.1 j hj
    simp only [elementRow]
    rwa [show E j + (E 1 - E 0) / 2 - (E (j + 1) - (E 1 - E 0) / 2)
      = E 1 - E 0 - (E (j + 1) - E j) by ring]
  · intro hk
    have := h4.1 hbe.2 k hk
    simp only [elementRow]
    rwa [show N k + (N 1 - N 0) / 2 - (N (k + 1) - (N 1 - N 0) / 2)
      = N 1 - N 0 - (N (k + 1) - N k) by ring]

/-- C20, partial (ascending coordinates): the region reported by `boundaries`. -/
theorem C20_boundaries_partial (e0 se n0 sn : ℝ) (hse : 0 < se) (hsn : 0 < sn) {nn ne : ℕ}
    (hn : 2 ≤ nn) (he : 2 ≤ ne) :
    boundaries (axis e0 se ne) (axis n0 sn nn) =
      .ok (e0 - se / 2, e0 + (ne - 1 : ℝ) * se + se / 2, n0 - sn / 2,
        n0 + (nn - 1 : ℝ) * sn + sn / 2) := by
  have hsp := spacing_coords hn he (fun (j : ℕ) => e0 + j * se) (fun (k : ℕ) => n0 + k * sn)
    (checkRegular_axis e0 se n0 sn he hn)
  unfold boundaries
  rw [axis_eq_coords, axis_eq_coords, hsp, ← axis_eq_coords, ← axis_eq_coords]
  obtain ⟨me, rfl⟩ : ∃ m, ne = m + 1 := ⟨ne - 1, by omega⟩
  obtain ⟨mn, rfl⟩ : ∃ m, nn = m + 1 := ⟨nn - 1, by omega⟩
  have hme := foldl_max_axis e0 se hse.le me
  have hmn := foldl_max_axis n0 sn hsn.le mn
  have hle := foldl_min_axis e0 se hse.le (me + 1)
  have hln := foldl_min_axis n0 sn hsn.le (mn + 1)
  obtain ⟨re, hre⟩ := axis_cons e0 se he
  obtain ⟨rn, hrn⟩ := axis_cons n0 sn hn
  rw [hre] at hme hle ⊢
  rw [hrn] at hmn hln ⊢
  simp only [Py.bind_ok, Py.pure_eq, hme, hmn, hle, hln]
  simp only [Except.ok.injEq, Prod.mk.injEq]
  refine ⟨?_, ?_, ?_, ?_⟩ <;> push_cast <;> ring

/-- cell of an axis containing a coordinate -/
theorem axis_cell (c0 s x : ℝ) (hs : 0 < s) (n : ℕ) :
    (∃ j : ℕ, j < n ∧ c0 + j * s - s / 2 ≤ x ∧ x < c0 + j * s + s / 2) ↔
      (c0 - s / 2 ≤ x ∧ x < c0 + (n - 1 : ℝ) * s + s / 2) := by
  constructor
  · rintro ⟨j, hj, h1, h2⟩
    have hj1 : (j : ℝ) + 1 ≤ n := by exact_mod_cast hj
    have : 0 ≤ (j : ℝ) * s := by positivity
    constructor
    · linarith
    · nlinarith
  · rintro ⟨h1, h2⟩
    have hy : 0 ≤ (x - (c0 - s / 2)) / s := div_nonneg (by linarith) hs.le
    refine ⟨⌊(x - (c0 - s / 2)) / s⌋₊, ?_, ?_, ?_⟩
    · rw [Nat.floor_lt hy, div_lt_iff₀ hs]
      nlinarith
    · have := Nat.floor_le hy
      rw [le_div_iff₀ hs] at this
      linarith
    · have := Nat.lt_floor_add_one ((x - (c0 - s / 2)) / s)
      rw [div_lt_iff₀ hs] at this
      linarith

theorem axis_cell_unique (c0 s x : ℝ) (hs : 0 < s) (i j : ℕ)
    (hi : c0 + i * s - s / 2 ≤ x ∧ x < c0 + i * s + s / 2)
    (hj : c0 + j * s - s / 2 ≤ x ∧ x < c0 + j * s + s / 2) : i = j := by
  have h1 : (i : ℝ) < j + 1 := by
    by_contra h
    have := mul_le_mul_of_nonneg_right (not_lt.1 h) hs.le
    nlinarith [hi.1, hj.2]
  have h2 : (j : ℝ) < i + 1 := by
    by_contra h
    have := mul_le_mul_of_nonneg_right (not_lt.1 h) hs.le
    nlinarith [hj.1, hi.2]
  have h1 : i < j + 1 := by exact_mod_cast h1
  have h2 : j < i + 1 := by exact_mod_cast h2
  omega

/-- C20, partial (ascending coordinates): a point lies in the region reported by `boundaries` iff
it lies in an element of the layer, and then in only one. -/
theorem C20_tiling_partial (e0 se n0 sn : ℝ) (hse : 0 < se) (hsn : 0 < sn) {nn ne : ℕ}
    (hn : 2 ≤ nn) (he : 2 ≤ ne) (B T : ℕ → ℕ → Option ℝ) (vars : List (String × List (Option ℝ)))
    (x y : ℝ) :
    ∃ region rows, boundaries (axis e0 se ne) (axis n0 sn nn) = .ok region ∧
      toRows ⟨axis e0 se ne, axis n0 sn nn, grid nn ne T, grid nn ne B, vars⟩ = .ok rows ∧
      (InRegion region x y ↔ ∃ row ∈ rows, Row.Has row x y) ∧
      (∀ (i i' : ℕ) (r r' : Row), rows[i]? = some r → rows[i']? = some r' → Row.Has r x y →
        Row.Has r' x y → i = i') := by
  refine ⟨_, _, C20_boundaries_partial e0 se n0 sn hse hsn hn he,
    toRows_grid hn he (fun (j : ℕ) => e0 + j * se) (fun (k : ℕ) => n0 + k * sn) B T vars
      (checkRegular_axis e0 se n0 sn he hn), ?_, ?_⟩
  · have hE := axis_cell e0 se x hse ne
    have hN := axis_cell n0 sn y hsn nn
    unfold InRegion
    simp only
    rw [← hE, ← hN]
    constructor
    · rintro ⟨⟨j, hj, h1, h2⟩, k, hk, h3, h4⟩
      refine ⟨_, List.mem_map.2 ⟨(k, j), mem_cells.2 ⟨hk, hj⟩, rfl⟩, ?_⟩
      unfold Row.Has elementRow
      refine ⟨⟨?_, ?_⟩, ?_, ?_⟩ <;> simp only <;> push_cast <;> linarith
    · rintro ⟨row, hrow, hx, hy⟩
      obtain ⟨p, hp, rfl⟩ := List.mem_map.1 hrow
      have hp := mem_cells.1 hp
      simp only [elementRow] at hx hy
      push_cast at hx hy
      exact ⟨⟨p.2, hp.2, by linarith, by linarith⟩, p.1, hp.1, by linarith, by linarith⟩
  · intro i i' r r' hr hr' hh hh'
    have hpos : ∀ i r, (grid nn ne (elementRow (fun (j : ℕ) => e0 + j * se)
        (fun (k : ℕ) => n0 + k * sn) B T))[i]? = some r → ∃ k j, k < nn ∧ j < ne ∧ i = k * ne + j ∧
        r = elementRow (fun (j : ℕ) => e0 + j * se) (fun (k : ℕ) => n0 + k * sn) B T k j := by
      intro i r h
      have hi : i < nn * ne := by
        have := (List.getElem?_eq_some_iff.1 h).1
        simpa [grid, cells_length] using this
      have hk : i / ne < nn := (Nat.div_lt_iff_lt_mul (by omega)).2 hi
      have hj : i % ne < ne := Nat.mod_lt _ (by omega)
      have hi' : i / ne * ne + i % ne = i := Nat.div_add_mod' i ne
      refine ⟨i / ne, i % ne, hk, hj, hi'.symm, ?_⟩
      have := grid_get nn ne (i / ne) (i % ne) (elementRow (fun (j : ℕ) => e0 + j * se)
        (fun (k : ℕ) => n0 + k * sn) B T) hk hj
      rw [hi', h] at this
      exact Option.some.inj this
    obtain ⟨k, j, hk, hj, rfl, rfl⟩ := hpos i r hr
    obtain ⟨k', j', hk', hj', rfl, rfl⟩ := hpos i' r' hr'
    unfold Row.Has elementRow at hh hh'
    simp only at hh hh'
    push_cast at hh hh'
    have h1 : j = j' := axis_cell_unique e0 se x hse j j' (by constructor <;> linarith [hh.1.1, hh.1.2])
      (by constructor <;> linarith [hh'.1.1, hh'.1.2])
    have h2 : k = k' := axis_cell_unique n0 sn y hsn k k' (by constructor <;> linarith [hh.2.1, hh.2.2])
      (by constructor <;> linarith [hh'.2.1, hh'.2.2])
    rw [h1, h2]

/-- C20: the full claim, for grids in any direction. -/
def C20_full : Prop :=
  ∀ (e0 se n0 sn : ℝ), se ≠ 0 → sn ≠ 0 → ∀ nn ne : ℕ, 2 ≤ nn → 2 ≤ ne →
    ∀ (B T : ℕ → ℕ → Option ℝ) (vars : List (String × List (Option ℝ))),
    ∃ region rows, boundaries (axis e0 se ne) (axis n0 sn nn) = .ok region ∧
      toRows ⟨axis e0 se ne, axis n0 sn nn, grid nn ne T, grid nn ne B, vars⟩ = .ok rows ∧
      (∀ row ∈ rows, row.west < row.east ∧ row.south < row.north) ∧
      ∀ x y, InRegion region x y ↔ ∃ row ∈ rows, Row.Has row x y

/-- C20 is false for descending coordinates: eastings 1, 0 are accepted and give prisms with
west > east, and an empty region. -/
theorem C20_descending : ¬ C20_full ∧
    boundaries (axis 1 (-1) 2) (axis 0 1 2) = .ok (1 / 2, 1 / 2, -1 / 2, 3 / 2) := by
  constructor
  · intro h
    obtain ⟨region, rows, -, h2, h3, -⟩ := h 1 (-1) 0 1 (by norm_num) (by norm_num) 2 2 le_rfl le_rfl
      (fun _ _ => some 0) (fun _ _ => some 1) []
    have := toRows_grid le_rfl le_rfl (fun (j : ℕ) => (1 : ℝ) + j * (-1)) (fun (k : ℕ) => 0 + k * 1)
      (fun _ _ => some 0) (fun _ _ => some 1) [] (checkRegular_axis 1 (-1) 0 1 le_rfl le_rfl)
    rw [axis_eq_coords, axis_eq_coords, this] at h2
    cases h2
    have := (h3 _ (List.mem_map.2 ⟨(0, 0), mem_cells.2 ⟨by norm_num, by norm_num⟩, rfl⟩)).1
    norm_num [elementRow] at this
  · have hsp := spacing_coords le_rfl le_rfl (fun (j : ℕ) => (1 : ℝ) + j * (-1))
      (fun (k : ℕ) => (0 : ℝ) + k * 1) (checkRegular_axis 1 (-1) 0 1 le_rfl le_rfl)
    unfold boundaries
    rw [axis_eq_coords, axis_eq_coords, hsp]
    norm_num [coords, List.range_succ, Py.bind_ok, Py.pure_eq]

/-- concrete case: the layer of the documentation of `prism_layer` -/
example : boundaries (axis 0 (5 / 2) 5) (axis 2 2 4) = .ok (-(5 / 4), 45 / 4, 1, 9) := by
  rw [C20_boundaries_partial _ _ _ _ (by norm_num) (by norm_num) (by norm_num) (by norm_num)]
  norm_num

/-! ### C21: gravity of a layer of prisms -/

/-- C21: `prism_layer.gravity` is `prism_gravity` of the prisms of the layer whose density, top and
bottom are numbers, whose density is not zero and whose thickness is not below the threshold, for
every field. `hK`: either the threshold is positive or choclo's kernel vanishes for the elements of zero
thickness, which `prism_gravity` skips and the layer does not. The checks of `prism_gravity` are
disabled (`dis`) or the coordinates are ascending and the threshold not negative. -/
theorem C21_layer_gravity (junk : Junk) (mode mode' : Mode) (K : PrismKernels) (shape : List ℕ)
    (obs : List P3) (hshape : shape.prod = obs.length) {nn ne : ℕ} (hn : 2 ≤ nn) (he : 2 ≤ ne)
    (E N : ℕ → ℝ) (hreg : checkRegularGrid (coords ne E) (coords nn N) = .ok ())
    (B T D : ℕ → ℕ → Option ℝ) (vars : List (String × List (Option ℝ))) (density_name : String)
    (hD : vars.lookup density_name = some (grid nn ne D)) (threshold : Option ℝ)
    (dis : Bool) (field : String)
    (hE : E 0 ≠ E 1) (hN : N 0 ≠ N 1)
    (hdis : dis = true ∨ (E 0 < E 1 ∧ N 0 < N 1 ∧ ∀ t ∈ threshold, 0 ≤ t))
    (hK : (∃ t ∈ threshold, 0 < t) ∨
      ∀ k c, prismFieldTable K field = some (k, c) → ∀ q ∈ obs,
        ∀ s ∈ gravityElements E N B T D (threshold.getD 0) nn ne, s.1.bottom = s.1.top → k q s.1 s.2 = 0)
    (hm : mode.Full obs.length (2 * (nn * ne))) (hm' : mode'.Full obs.length
      (2 * (gravityElements E N B T D (threshold.getD 0) nn ne).length)) :
    layerGravity junk mode K ⟨coords ne E, coords nn N, grid nn ne T, grid nn ne B, vars⟩
        (arrays shape obs) field density_name threshold
      = prismField junk mode' K shape obs (gravityElements E N B T D (threshold.getD 0) nn ne)
        field dis := by
  have hmem : ∀ s ∈ gravityElements E N B T D (threshold.getD 0) nn ne,
      s.1.east - s.1.west = E 1 - E 0 ∧ s.1.north - s.1.south = N 1 - N 0 ∧ s.2 ≠ 0 ∧
      threshold.getD 0 ≤ s.1.top - s.1.bottom := by
    intro s hs
    obtain ⟨p, -, hp⟩ := List.mem_filterMap.1 hs
    split at hp
    · split_ifs at hp with hc
      cases hp
      exact ⟨by simp only; ring, by simp only; ring, hc.1, hc.2⟩
    · cases hp
  have hord : dis = true ∨ ∀ s ∈ gravityElements E N B T D (threshold.getD 0) nn ne, s.1.Ordered := by
    rcases hdis with h | ⟨h1, h2, h3⟩
    · exact .inl h
    · right
      intro s hs
      obtain ⟨a1, a2, -, a4⟩ := hmem s hs
      have : 0 ≤ threshold.getD 0 := by
        cases threshold with
        | none => simp
        | some t => exact h3 t rfl
      unfold Prism.Ordered
      refine ⟨?_, ?_, ?_⟩ <;> linarith
  unfold prismField
  rw [prismGravity_eq junk mode' K shape obs hshape _ hm']
  unfold layerGravity
  cases hl : (prismFields K).lookup field with
  | none => rfl
  | some kernel =>
    obtain ⟨re, hre⟩ := coords_two he E
    obtain ⟨rn, hrn⟩ := coords_two hn N
    have hsum := layerLoop_result junk kernel mode obs E N B T D (threshold.getD 0) nn ne hm
    have hn' : ¬ (dis = false ∧ ¬ ∀ s ∈ gravityElements E N B T D (threshold.getD 0) nn ne,
        s.1.Ordered) := by
      rintro ⟨h1, h2⟩
      rcases hord with h | h
      · simp [h] at h1
      · exact h2 h
    have hzero : ∀ s ∈ gravityElements E N B T D (threshold.getD 0) nn ne, keepPrism s = false →
        ∀ q ∈ obs, kernel q s.1 s.2 = 0 := by
      intro s hs hk q hq
      obtain ⟨a1, a2, a3, a4⟩ := hmem s hs
      have hbt : s.1.bottom = s.1.top := by
        unfold keepPrism zeroVolume at hk
        simp [a3] at hk
        by_contra hne
        have hw : ¬ s.1.west = s.1.east := fun h => hE (by linarith)
        have hs' : ¬ s.1.south = s.1.north := fun h => hN (by linarith)
        exact hne (by tauto)
      rcases hK with ⟨t, ht, h0⟩ | hK
      · cases ht
        simp only [Option.getD_some] at a4
        linarith
      · have htab : ∃ c, prismFieldTable K field = some (kernel, c) := by
          rw [prismFields_lookup] at hl
          cases h : prismFieldTable K field with
          | none => rw [h] at hl; cases hl
          | some kc => rw [h] at hl; cases hl; exact ⟨_, rfl⟩
        obtain ⟨c, hc⟩ := htab
        exact hK kernel c hc q hq s hs hbt
    have htot : ∀ q ∈ obs, total (fun q s => kernel q s.1 s.2)
        (gravityElements E N B T D (threshold.getD 0) nn ne) q
        = total (fun q s => kernel q s.1 s.2)
        ((gravityElements E N B T D (threshold.getD 0) nn ne).filter keepPrism) q := by
      intro q hq
      generalize gravityElements E N B T D (threshold.getD 0) nn ne = L at hzero
      induction L with
      | nil => rfl
      | cons s L ih =>
        have ih := ih fun s' hs' => hzero s' (List.mem_cons_of_mem _ hs')
        unfold total at ih ⊢
        cases hk : keepPrism s with
        | true => simp [hk, ih]
        | false => simp [hk, ih, hzero s List.mem_cons_self hk q hq]
    have hobs : (List.map (total (fun q s => kernel q s.1 s.2)
        (gravityElements E N B T D (threshold.getD 0) nn ne)) obs)
        = obs.map (total (fun q s => kernel q s.1 s.2)
          ((gravityElements E N B T D (threshold.getD 0) nn ne).filter keepPrism)) :=
      List.map_congr_left htot
    simp only [hreg, npBroadcast_arrays, Py.bind_ok, hD, if_neg hn']
    rw [hre, hrn] at hsum ⊢
    simp only [arrays, List.length_map, hshape, hsum, hobs, Py.pure_eq, Except.map]

/-- C21: unknown fields raise ValueError. -/
theorem C21_unknown_field (junk : Junk) (mode : Mode) (K : PrismKernels) (layer : Layer)
    (coordinates : NdArray × NdArray × NdArray) (field density_name : String)
    (threshold : Option ℝ) (h : prismFieldTable K field = none) :
    layerGravity junk mode K layer coordinates field density_name threshold = .error .ValueError := by
  have : (prismFields K).lookup field = none := by
    rw [prismFields_lookup, h]; rfl
  unfold layerGravity
  rw [this]

/-- C21: an unknown density name raises KeyError. -/
theorem C21_missing_density (junk : Junk) (mode : Mode) (K : PrismKernels) (layer : Layer)
    (shape : List ℕ) (obs : List P3) (field density_name : String) (threshold : Option ℝ)
    (hreg : checkRegularGrid layer.easting layer.northing = .ok ())
    (h : prismFieldTable K field ≠ none) (hD : layer.vars.lookup density_name = none) :
    layerGravity junk mode K layer (arrays shape obs) field density_name threshold
      = .error .KeyError := by
  have : (prismFields K).lookup field ≠ none := by
    rw [prismFields_lookup]
    simpa using h
  unfold layerGravity
  cases hl : (prismFields K).lookup field with
  | none => exact absurd hl this
  | some k =>
    simp only [hreg, npBroadcast_arrays, Py.bind_ok, hD]
    rfl

/-- concrete case: four prisms, one with zero density, one with NaN density, one thin -/
example (K : PrismKernels) (hK : ∀ q p d, K.u q p d = d * p.volume) (junk : Junk) :
    layerGravity junk .serial K ⟨coords 2 (fun j => j), coords 2 (fun k => k),
      grid 2 2 (fun k j => if k = 1 ∧ j = 1 then some 1 else some 5), grid 2 2 (fun _ _ => some 0),
      [("density", grid 2 2 (fun k j => if k = 0 ∧ j = 0 then none else some (k + j)))]⟩
      (arrays [1] [⟨0, 0, 10⟩]) "g_z" "density" (some 2) = .ok ⟨[1], [-1000000]⟩ := by
  have hreg : checkRegularGrid (coords 2 (fun (j : ℕ) => (j : ℝ))) (coords 2 (fun (k : ℕ) => (k : ℝ)))
      = .ok () := by
    have := checkRegular_axis 0 1 0 1 (n := 2) (m := 2) le_rfl le_rfl
    simpa [axis, coords] using this
  rw [C21_layer_gravity junk .serial .serial K [1] [⟨0, 0, 10⟩] rfl le_rfl le_rfl _ _ hreg
    (fun _ _ => some 0) (fun k j => if k = 1 ∧ j = 1 then some 1 else some 5)
    (fun k j => if k = 0 ∧ j = 0 then none else some (k + j)) _ "density" rfl (some 2) false "g_z"
    (by norm_num) (by norm_num) (.inr ⟨by norm_num, by norm_num, by intro t ht; cases ht; norm_num⟩)
    (.inl ⟨2, rfl, by norm_num⟩) trivial trivial]
  have hels : gravityElements (fun (j : ℕ) => (j : ℝ)) (fun (k : ℕ) => (k : ℝ)) (fun _ _ => some 0)
      (fun k j => if k = 1 ∧ j = 1 then some 1 else some 5)
      (fun k j => if k = 0 ∧ j = 0 then none else some (k + j)) ((some (2 : ℝ)).getD 0) 2 2
      = [(⟨1 / 2, 3 / 2, -(1 / 2), 1 / 2, 0, 5⟩, 1), (⟨-(1 / 2), 1 / 2, 1 / 2, 3 / 2, 0, 5⟩, 1)] := by
    have hc : cells 2 2 = [(0, 0), (0, 1), (1, 0), (1, 1)] := by decide
    unfold gravityElements
    rw [hc]
    norm_num [List.filterMap_cons]
  rw [hels]
  unfold prismField
  rw [C04_prism_gravity junk .serial K [1] [⟨0, 0, 10⟩] rfl _ false
    (by right; intro s hs; simp at hs; rcases hs with rfl | rfl <;> norm_num [Prism.Ordered]) trivial]
  simp [prismFieldTable, total, Prism.volume, hK]
  norm_num

/-! ### C22: overlapping tesseroids -/

theorem overlap_iff (c0 s : ℝ) (n : ℕ) (hs : 0 < s) (hn : 2 ≤ n) : Overlap c0 s n ↔ 360 < n * s := by
  constructor
  · rintro ⟨i, j, hij, hj, k, x, h1, h2⟩
    by_contra hle
    rw [not_lt] at hle
    rw [abs_of_pos hs, abs_lt] at h1 h2
    have a1 : (i : ℝ) + 1 ≤ j := by exact_mod_cast hij
    have a2 : (j : ℝ) + 1 ≤ n := by exact_mod_cast hj
    have a3 : (0 : ℝ) ≤ i := by positivity
    have b1 : s ≤ (j - i : ℝ) * s := by nlinarith
    have b2 : (j - i : ℝ) * s ≤ 360 - s := by nlinarith
    rcases le_or_gt k 0 with hk | hk
    · have : (k : ℝ) ≤ 0 := by exact_mod_cast hk
      nlinarith [h1.1, h1.2, h2.1, h2.2]
    · have : (1 : ℝ) ≤ k := by exact_mod_cast hk
      nlinarith [h1.1, h1.2, h2.1, h2.2]
  · intro h
    obtain ⟨j, hj1, hj2, hj3⟩ : ∃ j : ℕ, 1 ≤ j ∧ j < n ∧ |(j : ℝ) * s - 360| < s := by
      by_cases hc : 360 ≤ ((n - 1 : ℕ) : ℝ) * s
      · have hpos : (0 : ℝ) < 360 / s := by positivity
        refine ⟨⌈360 / s⌉₊, Nat.one_le_iff_ne_zero.2 (Nat.ceil_pos.2 hpos).ne', ?_, ?_⟩
        · have : ⌈360 / s⌉₊ ≤ n - 1 := by
            rw [Nat.ceil_le, div_le_iff₀ hs]; exact hc
          omega
        · have h1 := Nat.le_ceil (360 / s)
          have h2 := Nat.ceil_lt_add_one hpos.le
          rw [div_le_iff₀ hs] at h1
          rw [← sub_lt_iff_lt_add, lt_div_iff₀ hs] at h2
          rw [abs_lt]; constructor <;> nlinarith
      · refine ⟨n - 1, by omega, by omega, ?_⟩
        rw [not_le] at hc
        have : ((n - 1 : ℕ) : ℝ) = n - 1 := by
          rw [Nat.cast_sub (by omega)]; simp
        rw [this] at hc ⊢
        rw [abs_lt]; constructor <;> nlinarith
    refine ⟨0, j, by omega, hj2, 1, c0 + (j * s - 360) / 2, ?_, ?_⟩
    · rw [abs_of_pos hs, abs_lt]
      rw [abs_lt] at hj3
      push_cast; constructor <;> linarith [hj3.1, hj3.2]
    · rw [abs_of_pos hs, abs_lt]
      rw [abs_lt] at hj3
      push_cast; constructor <;> linarith [hj3.1, hj3.2]

theorem checkOverlap_axis (c0 s : ℝ) (n : ℕ) (hs : 0 < s) (hn : 2 ≤ n) :
    checkOverlap (axis c0 s n) = if 360 ≤ n * s then .error .ValueError else .ok () := by
  obtain ⟨m, rfl⟩ : ∃ m, n = m + 1 := ⟨n - 1, by omega⟩
  have hmax := foldl_max_axis c0 s hs.le m
  have hmin := foldl_min_axis c0 s hs.le (m + 1)
  obtain ⟨re, hre⟩ := axis_cons c0 s hn
  unfold checkOverlap
  rw [hre] at hmax hmin ⊢
  simp only [hmax, hmin]
  congr 1
  apply propext
  push_cast
  constructor <;> intro h <;> nlinarith

/-- C22: the full claim. -/
def C22_full : Prop :=
  ∀ (heap : Heap) (c0 s n0 sn : ℝ) (n nn : ℕ) (a b : ℕ) (S R : Arr), s ≠ 0 → 2 ≤ n → 2 ≤ nn →
    heap[a]? = some S → heap[b]? = some R → S.shape = [nn, n] → R.shape = [] →
    (makeLayer true heap (axis c0 s n) (axis n0 sn nn) a b [] = .error .ValueError ↔ Overlap c0 s n)

/-- C22, partial: with ascending longitudes, overlapping layers are rejected with ValueError; a
layer is rejected only if its tesseroids overlap or cover the globe exactly once; all others are
built. Missing: the exact cover, which does not overlap but is rejected, and descending longitudes
(see `C22_not_full`). -/
theorem C22_overlap_partial (heap : Heap) (c0 s n0 sn : ℝ) (n nn : ℕ) (a b : ℕ) (S R : Arr)
    (hs : 0 < s) (hn : 2 ≤ n) (hnn : 2 ≤ nn) (hS : heap[a]? = some S) (hR : heap[b]? = some R)
    (hSs : S.shape = [nn, n]) (hRs : R.shape = []) :
    (Overlap c0 s n →
      makeLayer true heap (axis c0 s n) (axis n0 sn nn) a b [] = .error .ValueError) ∧
    (makeLayer true heap (axis c0 s n) (axis n0 sn nn) a b [] = .error .ValueError →
      Overlap c0 s n ∨ n * s = 360) ∧
    (¬ Overlap c0 s n → n * s ≠ 360 →
      ∃ r, makeLayer true heap (axis c0 s n) (axis n0 sn nn) a b [] = .ok r) := by
  have hov := overlap_iff c0 s n hs hn
  have hck := checkOverlap_axis c0 s n hs hn
  have hsh : layerShape (axis c0 s n) (axis n0 sn nn) = [nn, n] := by simp [layerShape, axis]
  have hml := makeLayer_eq true heap (axis c0 s n) (axis n0 sn nn) a b [] S R hS hR
    (by rw [hsh, hSs]) (.inl hRs) (by simp) (checkRegular_axis c0 s n0 sn hn hnn)
  have hok : ¬ 360 ≤ n * s → ∃ r, makeLayer true heap (axis c0 s n) (axis n0 sn nn) a b [] = .ok r := by
    intro h
    rw [if_neg h] at hck
    obtain ⟨heap', t, bt, top, bottom, -, -, -, h5⟩ := hml.2 fun _ => hck
    exact ⟨_, h5⟩
  refine ⟨?_, ?_, ?_⟩
  · intro h
    rw [hov] at h
    rw [if_pos h.le] at hck
    exact hml.1 _ rfl hck
  · intro h
    by_cases h360 : 360 ≤ n * s
    · rcases h360.lt_or_eq with h' | h'
      · exact .inl (hov.2 h')
      · exact .inr h'.symm
    · obtain ⟨r, hr⟩ := hok h360
      rw [hr] at h; cases h
  · intro h1 h2
    apply hok
    intro h
    rcases h.lt_or_eq with h' | h'
    · exact h1 (hov.2 h')
    · exact h2 h'.symm

/-- C22 is false in both directions: the four quarters of the globe are rejected although they do
not overlap, and five tesseroids 80 degrees wide are accepted, although they overlap, if the
longitudes are descending. -/
theorem C22_not_full : ¬ C22_full ∧
    (¬ Overlap 0 90 4 ∧ checkOverlap (axis 0 90 4) = .error .ValueError) ∧
    (Overlap 320 (-80) 5 ∧ checkOverlap (axis 320 (-80) 5) = .ok ()) := by
  have h1 : ¬ Overlap 0 90 4 := by
    rw [overlap_iff 0 90 4 (by norm_num) (by norm_num)]; norm_num
  have h2 : checkOverlap (axis 0 90 4) = .error .ValueError := by
    rw [checkOverlap_axis 0 90 4 (by norm_num) (by norm_num), if_pos (by norm_num)]
  refine ⟨?_, ⟨h1, h2⟩, ?_, ?_⟩
  · intro h
    have := h [⟨.float, [2, 4], List.replicate 8 (some 1)⟩, ⟨.float, [], [some 0]⟩] 0 90 0 10 4 2 0 1
      _ _ (by norm_num) (by norm_num) (by norm_num) rfl rfl rfl rfl
    apply h1
    rw [← this]
    have hml := makeLayer_eq true [⟨.float, [2, 4], List.replicate 8 (some 1)⟩,
      ⟨.float, [], [some 0]⟩] (axis 0 90 4) (axis 0 10 2) 0 1 [] _ _ rfl rfl
      (by simp [layerShape, axis]) (.inl rfl) (by simp)
      (checkRegular_axis 0 90 0 10 (by norm_num) (by norm_num))
    exact hml.1 _ rfl h2
  · refine ⟨0, 4, by norm_num, by norm_num, -1, 340, ?_, ?_⟩ <;> norm_num [abs_lt]
  · norm_num [checkOverlap, axis, List.range_succ]

/-! ### C23: gravity of a layer of tesseroids -/

/-- C23: the forward model receives exactly the elements whose top, bottom and density are numbers
and whose thickness is not below the threshold, each with its own density, in C order. -/
theorem C23_elements {α : Type} (forward : List Row → List (Option ℝ) → Py α) {nn ne : ℕ}
    (hn : 2 ≤ nn) (he : 2 ≤ ne) (E N : ℕ → ℝ)
    (hreg : checkRegularGrid (coords ne E) (coords nn N) = .ok ()) (B T D : ℕ → ℕ → Option ℝ)
    (vars : List (String × List (Option ℝ))) (density_name : String)
    (hD : vars.lookup density_name = some (grid nn ne D)) (threshold : Option ℝ) :
    tessLayerGravity forward ⟨coords ne E, coords nn N, grid nn ne T, grid nn ne B, vars⟩
        density_name threshold
      = forward ((tessCells B T D threshold nn ne).map fun p => elementRow E N B T p.1 p.2)
          ((tessCells B T D threshold nn ne).map fun p => D p.1 p.2) := by
  unfold tessLayerGravity
  rw [toRows_grid hn he E N B T vars hreg]
  have hmask : nonansMask (grid nn ne T) (grid nn ne B) (grid nn ne D)
      = (cells nn ne).map fun p => (T p.1 p.2).isSome && (B p.1 p.2).isSome && (D p.1 p.2).isSome := by
    unfold nonansMask grid
    rw [List.map_map, List.map_map, List.map_map, List.zipWith_map, List.zipWith_self,
      List.zipWith_map, List.zipWith_self]
    rfl
  simp only [Py.bind_ok, hD, hmask]
  unfold grid
  rw [maskIndex_map, maskIndex_map]
  simp only [Py.bind_ok]
  cases threshold with
  | none =>
    simp only [Py.pure_eq, Py.bind_ok]
    have : ((cells nn ne).filter fun p =>
        (T p.1 p.2).isSome && (B p.1 p.2).isSome && (D p.1 p.2).isSome)
        = tessCells B T D none nn ne := by
      unfold tessCells
      apply List.filter_congr
      intro p _
      rw [Bool.eq_iff_iff]
      cases T p.1 p.2 <;> cases B p.1 p.2 <;> cases D p.1 p.2 <;> simp
    rw [this]
  | some h =>
    unfold discardThin
    simp only [List.map_map]
    rw [maskIndex_map, Py.bind_ok, maskIndex_map, Py.bind_ok, List.filter_filter]
    simp only [Py.pure_eq, Py.bind_ok]
    have : ((cells nn ne).filter fun p =>
        (((fun x => !x) ∘ rowThin h) ∘ fun p : ℕ × ℕ => elementRow E N B T p.1 p.2) p &&
        ((T p.1 p.2).isSome && (B p.1 p.2).isSome && (D p.1 p.2).isSome))
        = tessCells B T D (some h) nn ne := by
      unfold tessCells
      apply List.filter_congr
      intro p _
      rw [Bool.eq_iff_iff]
      simp only [Function.comp, elementRow, rowThin]
      cases hT : T p.1 p.2 <;> cases hB : B p.1 p.2 <;> cases D p.1 p.2 <;> simp
    rw [← this]
    rfl

/-- C23: an unknown density name raises KeyError. -/
theorem C23_missing_density {α : Type} (forward : List Row → List (Option ℝ) → Py α) {nn ne : ℕ}
    (hn : 2 ≤ nn) (he : 2 ≤ ne) (E N : ℕ → ℝ)
    (hreg : checkRegularGrid (coords ne E) (coords nn N) = .ok ()) (B T : ℕ → ℕ → Option ℝ)
    (vars : List (String × List (Option ℝ))) (density_name : String)
    (hD : vars.lookup density_name = none) (threshold : Option ℝ) :
    tessLayerGravity forward ⟨coords ne E, coords nn N, grid nn ne T, grid nn ne B, vars⟩
        density_name threshold = .error .KeyError := by
  unfold tessLayerGravity
  rw [toRows_grid hn he E N B T vars hreg]
  simp only [Py.bind_ok, hD]
  rfl

/-- concrete case: of four elements one has NaN density and one is thin -/
example : tessLayerGravity (fun rows d => .ok (rows.map (·.west), d))
      ⟨coords 2 (fun j => j), coords 2 (fun k => k),
      grid 2 2 (fun k j => if k = 1 ∧ j = 1 then some 1 else some 5), grid 2 2 (fun _ _ => some 0),
      [("density", grid 2 2 (fun k j => if k = 0 ∧ j = 0 then none else some (2 * k + j)))]⟩
      "density" (some 2) = .ok ([1 / 2, -(1 / 2)], [some 1, some 2]) := by
  have hreg : checkRegularGrid (coords 2 (fun (j : ℕ) => (j : ℝ))) (coords 2 (fun (k : ℕ) => (k : ℝ)))
      = .ok () := by
    have := checkRegular_axis 0 1 0 1 (n := 2) (m := 2) le_rfl le_rfl
    simpa [axis, coords] using this
  rw [C23_elements _ le_rfl le_rfl _ _ hreg (fun _ _ => some 0)
    (fun k j => if k = 1 ∧ j = 1 then some 1 else some 5)
    (fun k j => if k = 0 ∧ j = 0 then none else some (2 * k + j)) _ "density" rfl]
  have : tessCells (fun _ _ => some 0) (fun k j => if k = 1 ∧ j = 1 then some 1 else some 5)
      (fun k j => if k = 0 ∧ j = 0 then none else some (2 * (k : ℝ) + j)) (some 2) 2 2
      = [(0, 1), (1, 0)] := by
    norm_num [tessCells, cells, List.range_succ, List.filter_cons]
    rw [if_pos (by simp), if_pos (by simp)]
  rw [this]
  norm_num [elementRow]

/-! ### C72: layers in pyvista -/

open Classical in
/-- C72 for layers: the cells are the elements of the layer in C order, each between its bottom and its top and half a
spacing to each side of its node, without those that have no
volume or NaN top or bottom (if `drop`), each with its own value of every property. -/
theorem C72_layer (junk : ℕ → ℕ → ℕ → Option ℝ) (drop : Bool) {nn ne : ℕ}
    (hn : 2 ≤ nn) (he : 2 ≤ ne) (E N : ℕ → ℝ)
    (hreg : checkRegularGrid (coords ne E) (coords nn N) = .ok ()) (B T : ℕ → ℕ → Option ℝ)
    (vars : List (String × (ℕ → ℕ → Option ℝ))) :
    let kept := (cells nn ne).filter fun p => ¬ (drop = true ∧
      (T p.1 p.2 = B p.1 p.2 ∨ T p.1 p.2 = none ∨ B p.1 p.2 = none))
    layerToPyvista junk ⟨coords ne E, coords nn N, grid nn ne T, grid nn ne B,
        vars.map fun v => (v.1, grid nn ne v.2)⟩ drop
      = prismToPyvista junk (kept.map fun p => ![some (E p.2 - (E 1 - E 0) / 2), some (E p.2 + (E 1 - E 0) / 2),
          some (N p.1 - (N 1 - N 0) / 2), some (N p.1 + (N 1 - N 0) / 2), B p.1 p.2, T p.1 p.2])
          (if vars = [] then none else some (vars.map fun v =>
            (v.1, [kept.length], kept.map fun p => v.2 p.1 p.2))) := by
  intro kept
  unfold layerToPyvista
  rw [toRows_grid hn he E N B T _ hreg]
  unfold grid
  simp only [Py.bind_ok, List.map_map]
  rw [maskIndex_map]
  have hkept : (cells nn ne).filter (((fun x => !x) ∘ (fun r : Row => drop &&
        (decide (r.top = r.bottom) || r.top.isNone || r.bottom.isNone))) ∘
        fun p : ℕ × ℕ => elementRow E N B T p.1 p.2) = kept := by
    apply List.filter_congr
    intro p _
    rw [Bool.eq_iff_iff]
    simp [elementRow, Option.isSome_iff_ne_none, and_assoc]
  have hmapM : ∀ vs : List (String × (ℕ → ℕ → Option ℝ)),
      (vs.map fun v => (v.1, (cells nn ne).map fun p => v.2 p.1 p.2)).mapM (fun v => (do
        let data ← maskIndex v.2 ((cells nn ne).map (((fun x => !x) ∘ (fun r : Row => drop &&
          (decide (r.top = r.bottom) || r.top.isNone || r.bottom.isNone))) ∘
          fun p : ℕ × ℕ => elementRow E N B T p.1 p.2))
        pure (v.1, [data.length], data) : Py (String × List ℕ × List (Option ℝ))))
      = .ok (vs.map fun v => (v.1, [kept.length], kept.map fun p => v.2 p.1 p.2)) := by
    intro vs
    induction vs with
    | nil => rfl
    | cons v vs ih =>
      rw [List.map_cons, List.mapM_cons, ih, maskIndex_map, hkept]
      simp [Py.bind_ok, Py.pure_eq]
  simp only [Py.bind_ok]
  rw [hmapM, hkept]
  cases vars with
  | nil => simp [Py.bind_ok, Py.pure_eq, Function.comp_def, Row.cols, elementRow]
  | cons v vs => simp [Py.bind_ok, Py.pure_eq, Function.comp_def, Row.cols, elementRow]

end Verif.Layers
