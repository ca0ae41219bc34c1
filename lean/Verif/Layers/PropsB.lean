import Verif.Layers.Props

/-! C19 for every dtype, and the check of the coordinates of a layer. -/

namespace Verif.Layers
open Verif.Forward Verif.Engine Verif.Distance Verif.Utils

/-! ### Specification -/

/-- `y` is what is left of `x` in an array of the given kind: `x` itself, or its integer part. -/
def Stored (k : Kind) (x y : ℝ) : Prop :=
  match k with
  | .float => y = x
  | .int => (∃ z : ℤ, y = z) ∧ |y| ≤ |x| ∧ |x - y| < 1 ∧ 0 ≤ x * y

/-- Coordinates are regular: the steps are close to the first one (in the sense of `np.allclose`). -/
def Regular (c : List ℝ) : Prop :=
  ∃ c0 c1, c[0]? = some c0 ∧ c[1]? = some c1 ∧ ∀ i a b, c[i]? = some a → c[i + 1]? = some b →
    |(c1 - c0) - (b - a)| ≤ 1 / 10 ^ 8 + 1 / 10 ^ 5 * |b - a|

/-! ### Theorems -/

theorem truncZ_stored (x : ℝ) : Stored .int x (truncZ x) := by
  unfold Stored truncZ
  simp only
  by_cases h : 0 ≤ x
  · rw [if_pos h]
    have h0 : (0 : ℝ) ≤ ⌊x⌋ := by exact_mod_cast Int.floor_nonneg.2 h
    have h1 := Int.floor_le x
    have h2 := Int.lt_floor_add_one x
    refine ⟨⟨_, rfl⟩, ?_, ?_, mul_nonneg h h0⟩
    · rw [abs_of_nonneg h0, abs_of_nonneg h]; exact h1
    · rw [abs_of_nonneg (by linarith)]; linarith
  · rw [if_neg h]
    push Not at h
    have h0 : (⌈x⌉ : ℝ) ≤ 0 := by exact_mod_cast Int.ceil_le.2 (by simpa using h.le)
    have h1 := Int.le_ceil x
    have h2 := Int.ceil_lt_add_one x
    refine ⟨⟨_, rfl⟩, ?_, ?_, mul_nonneg_of_nonpos_of_nonpos h.le h0⟩
    · rw [abs_of_nonpos h0, abs_of_nonpos h.le]; linarith
    · rw [abs_of_nonpos (by linarith)]; linarith

theorem castTo_stored (k : Kind) (x : ℝ) : ∃ y, castTo k (some x) = some y ∧ Stored k x y := by
  cases k with
  | float => exact ⟨x, rfl, rfl⟩
  | int => exact ⟨truncZ x, rfl, truncZ_stored x⟩

/-- C19 for every dtype: where the surface is below the reference, the two are exchanged, each converted to
the dtype of the array it is written into (a scalar reference becomes an array of floats); everywhere else,
NaN included, top is the surface and bottom the reference. -/
theorem C19_all_dtypes (shape : List ℕ) (heap : Heap) (a b : ℕ) (S R : Arr)
    (hS : heap[a]? = some S) (hR : heap[b]? = some R) (hs : S.shape = shape)
    (hr : R.shape = [] ∨ R.shape = shape) (hlS : S.data.length = shape.prod) :
    ∃ heap' t bt top bottom, updateTopBottom shape heap a b = .ok (heap', t, bt) ∧
      heap'[t]? = some top ∧ heap'[bt]? = some bottom ∧
      (∀ i s r, S.data[i]? = some (some s) → refAt R i = some (some r) → s < r →
        ∃ y z, top.data[i]? = some (some y) ∧ bottom.data[i]? = some (some z) ∧
          Stored S.kind r y ∧ Stored (if R.shape = [] then .float else R.kind) s z) ∧
      ∀ i s r, S.data[i]? = some s → refAt R i = some r → (¬ ∃ x ∈ s, ∃ y ∈ r, x < y) →
        top.data[i]? = some s ∧ bottom.data[i]? = some r := by
  obtain ⟨heap', t, bt, R1, h, -, -, -, hR1, ht, hb⟩ :=
    updateTopBottom_ok shape heap a b S R hS hR hs hr
  have hget : ∀ i s r, S.data[i]? = some s → refAt R i = some r →
      (maskedCopy S R1 (List.zipWith nanLt S.data R1.data)).data[i]? =
        some (if nanLt s r then castTo S.kind r else s) ∧
      (maskedCopy R1 S (List.zipWith nanLt S.data R1.data)).data[i]? =
        some (if nanLt s r then castTo R1.kind s else r) := by
    intro i s r hsi hri
    have hi : i < shape.prod := by
      rw [← hlS]; exact (List.getElem?_eq_some_iff.1 hsi).1
    have h1 := refAt_get shape R R1 i r hi hR1 hri
    have hm := zipWith_get nanLt S.data R1.data i s r hsi h1
    exact ⟨maskedCopy_get S R1 _ i s r _ hsi h1 hm, maskedCopy_get R1 S _ i r s _ h1 hsi hm⟩
  have hk : R1.kind = if R.shape = [] then .float else R.kind := by
    rw [hR1]; split_ifs <;> rfl
  refine ⟨heap', t, bt, _, _, h, ht, hb, fun i s r hsi hri hlt => ?_, fun i s r hsi hri hn => ?_⟩
  · obtain ⟨e1, e2⟩ := hget i _ _ hsi hri
    have : nanLt (some s) (some r) = true := by simp [nanLt, hlt]
    rw [this, if_pos rfl] at e1 e2
    obtain ⟨y, hy, hy'⟩ := castTo_stored S.kind r
    obtain ⟨z, hz, hz'⟩ := castTo_stored R1.kind s
    rw [hy] at e1
    rw [hz] at e2
    rw [hk] at hz'
    exact ⟨y, z, e1, e2, hy', hz'⟩
  · obtain ⟨e1, e2⟩ := hget i _ _ hsi hri
    have : nanLt s r = false := by
      cases s with
      | none => rfl
      | some s =>
        cases r with
        | none => rfl
        | some r =>
          simp only [nanLt, decide_eq_false_iff_not]
          exact fun hlt => hn ⟨s, rfl, r, rfl, hlt⟩
    rw [this] at e1 e2
    exact ⟨e1, e2⟩

open Classical in
theorem evenlySpaced_eq (c : List ℝ) (h : 2 ≤ c.length) : evenlySpaced c = .ok (decide (Regular c)) := by
  match c, h with
  | c0 :: c1 :: l, _ =>
    unfold evenlySpaced
    simp only [Except.ok.injEq, decide_eq_decide]
    unfold Regular
    constructor
    · intro h
      exact ⟨c0, c1, rfl, rfl, fun i a b ha hb => h i a ha b hb⟩
    · rintro ⟨x, y, hx, hy, h⟩ i a ha b hb
      cases hx
      cases hy
      exact h i a b ha hb

open Classical in
/-- C19: the coordinates of a layer (at least two in each direction) are accepted if and only if both are
regular; other coordinates raise ValueError, and a single coordinate raises IndexError. -/
theorem C19_regular_coordinates (easting northing : List ℝ) :
    (2 ≤ easting.length → 2 ≤ northing.length →
      (Regular easting ∧ Regular northing → checkRegularGrid easting northing = .ok ()) ∧
      (¬ (Regular easting ∧ Regular northing) → checkRegularGrid easting northing = .error .ValueError)) ∧
    (easting.length < 2 → checkRegularGrid easting northing = .error .IndexError) ∧
    (2 ≤ easting.length → northing.length < 2 → checkRegularGrid easting northing =
      .error (if Regular easting then .IndexError else .ValueError)) := by
  have hshort : ∀ c : List ℝ, c.length < 2 → evenlySpaced c = .error .IndexError := by
    intro c hc
    match c, hc with
    | [], _ => rfl
    | [_], _ => rfl
  refine ⟨fun he hn => ?_, fun he => ?_, fun he hn => ?_⟩
  · unfold checkRegularGrid
    rw [evenlySpaced_eq _ he, evenlySpaced_eq _ hn]
    by_cases h1 : Regular easting <;> by_cases h2 : Regular northing <;>
      simp [h1, h2, Py.bind_ok, Py.bind_error, Py.throw_eq, Py.pure_eq]
  · unfold checkRegularGrid
    rw [hshort _ he]; rfl
  · unfold checkRegularGrid
    rw [evenlySpaced_eq _ he, hshort _ hn]
    by_cases h1 : Regular easting <;> simp [h1, Py.bind_ok, Py.bind_error, Py.throw_eq]

/-- C19: layers with coordinates that are not regular are not built: ValueError. -/
theorem C19_layer_irregular (ov : Bool) (heap : Heap) (easting northing : List ℝ) (a b : ℕ)
    (props : List (String × Arr)) (he : 2 ≤ easting.length) (hn : 2 ≤ northing.length)
    (hbad : ¬ (Regular easting ∧ Regular northing)) :
    makeLayer ov heap easting northing a b props = .error .ValueError :=
  C19_layer_rejects ov heap easting northing a b props
    (.inr (((C19_regular_coordinates easting northing).1 he hn).2 hbad))

/-- an integer surface below a reference of one half: the top of the layer is 0, not one half -/
example : Stored .int (1 / 2) 0 ∧ ¬ Stored .int (1 / 2) 1 := by
  refine ⟨⟨⟨0, by norm_num⟩, by norm_num, by norm_num [abs_of_pos], by norm_num⟩, ?_⟩
  rintro ⟨-, h, -⟩
  norm_num [abs_of_pos] at h

/-- regular and irregular coordinates -/
example : Regular [0, 1, 2] ∧ ¬ Regular [0, 1, 3] := by
  constructor
  · refine ⟨0, 1, rfl, rfl, fun i a b ha hb => ?_⟩
    match i, ha, hb with
    | 0, ha, hb => cases ha; cases hb; norm_num
    | 1, ha, hb => cases ha; cases hb; norm_num
    | n + 2, ha, hb => simp at hb
  · rintro ⟨c0, c1, h0, h1, h⟩
    cases h0
    cases h1
    have := h 1 1 3 rfl rfl
    norm_num [abs_of_pos] at this

end Verif.Layers
