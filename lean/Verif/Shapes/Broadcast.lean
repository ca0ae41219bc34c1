import Verif.Shapes.Props
import Verif.Forward.PropsC
import Mathlib.Data.List.GetD

/-! Arrays of one element, and arrays with as many elements as the result, when they are broadcast. -/

namespace Verif.Shapes

open Verif.Forward

/-- Shapes with the same number of axes, where the first can be broadcast to the second. -/
def Compat (t s : List ℕ) : Prop := List.Forall₂ (fun x y => x = y ∨ x = 1) t s

theorem Compat.prod_le {t s : List ℕ} (h : Compat t s) (hs : 0 < s.prod) : t.prod ≤ s.prod := by
  induction h with
  | nil => simp
  | @cons x y t s hxy _ ih =>
    simp only [List.prod_cons] at hs ⊢
    have h1 : 0 < s.prod := Nat.pos_of_mul_pos_left hs
    have h2 : 0 < y := Nat.pos_of_mul_pos_right hs
    rcases hxy with rfl | rfl
    · exact Nat.mul_le_mul_left _ (ih h1)
    · exact Nat.mul_le_mul h2 (ih h1)

theorem Compat.eq {t s : List ℕ} (h : Compat t s) (hs : 0 < s.prod) (hp : t.prod = s.prod) : t = s := by
  induction h with
  | nil => rfl
  | @cons x y t s hxy hc ih =>
    simp only [List.prod_cons] at hs hp ⊢
    have h1 : 0 < s.prod := Nat.pos_of_mul_pos_left hs
    have h2 : 0 < y := Nat.pos_of_mul_pos_right hs
    rcases hxy with rfl | rfl
    · rw [ih h1 (Nat.eq_of_mul_eq_mul_left h2 hp)]
    · have h3 : t.prod ≤ s.prod := Compat.prod_le hc h1
      have h4 : y * s.prod ≤ 1 * s.prod := by omega
      have h5 : y ≤ 1 := Nat.le_of_mul_le_mul_right h4 h1
      have h6 : y = 1 := by omega
      subst h6
      rw [ih h1 (by omega)]

theorem length_flatten_const {k : ℕ} {l : List (List ℝ)} (h : ∀ x ∈ l, x.length = k) :
    l.flatten.length = l.length * k := by
  induction l with
  | nil => simp
  | cons a l ih =>
    rw [List.flatten_cons, List.length_append, ih (fun x hx => h x (List.mem_cons_of_mem _ hx)),
      h a List.mem_cons_self, List.length_cons]
    ring

theorem broadcastTo_length {t s : List ℕ} (h : Compat t s) (d : List ℝ) (hd : d.length = t.prod) :
    (broadcastTo t s d).length = s.prod := by
  induction h generalizing d with
  | nil => simpa [broadcastTo] using hd
  | @cons x y t s hxy hc ih =>
    have hrow : ∀ i < x, (broadcastTo t s ((d.drop (i * t.prod)).take t.prod)).length = s.prod := by
      intro i hi
      apply ih
      rw [List.length_take, List.length_drop, hd, List.prod_cons]
      have : (i + 1) * t.prod ≤ x * t.prod := Nat.mul_le_mul_right _ hi
      rw [Nat.succ_mul] at this
      omega
    simp only [broadcastTo, List.prod_cons]
    split
    · rename_i hx
      rw [length_flatten_const (k := s.prod)]
      · simp [hx]
      · intro r hr
        obtain ⟨i, hi, rfl⟩ := List.mem_map.1 hr
        exact hrow i (List.mem_range.1 hi)
    · rename_i hx
      have h1 : x = 1 := hxy.resolve_left hx
      subst h1
      rw [length_flatten_const (k := s.prod)]
      · simp
      · intro r hr
        rw [List.eq_of_mem_replicate hr]
        simpa using hrow 0 (by omega)

theorem broadcastTo_one {t s : List ℕ} (h : Compat t s) (v : ℝ) (ht : t.prod = 1) :
    broadcastTo t s [v] = List.replicate s.prod v := by
  induction h with
  | nil => simp [broadcastTo]
  | @cons x y t s hxy hc ih =>
    rw [List.prod_cons] at ht
    have hx : x = 1 := Nat.eq_one_of_mul_eq_one_right ht
    subst hx
    rw [one_mul] at ht
    simp only [broadcastTo, List.prod_cons, ht]
    split
    · rename_i hy
      subst hy
      simp [ih ht]
    · simp [ih ht]

theorem broadcastTo_full {t s : List ℕ} (h : Compat t s) (d : List ℝ) (hd : d.length = t.prod)
    (hp : t.prod = s.prod) : broadcastTo t s d = d := by
  rcases Nat.eq_zero_or_pos s.prod with h0 | h0
  · have h1 := broadcastTo_length h d hd
    rw [h0] at h1
    have h2 : d.length = 0 := by omega
    rw [List.length_eq_zero_iff.1 h1, List.length_eq_zero_iff.1 h2]
  · rw [h.eq h0 hp]
    apply Forward.broadcastTo_self
    omega

theorem dim_pad (t : List ℕ) (k axis : ℕ) : dim (List.replicate k 1 ++ t) axis = dim t axis := by
  unfold dim
  rw [List.reverse_append, List.reverse_replicate]
  rcases lt_or_ge axis t.reverse.length with h | h
  · rw [List.getD_append _ _ _ _ h]
  · rw [List.getD_append_right _ _ _ _ h, List.getD_eq_default _ _ h]
    rcases lt_or_ge (axis - t.reverse.length) k with h' | h'
    · rw [List.getD_replicate _ h']
    · rw [List.getD_eq_default]
      simpa using h'

theorem dim_get (t : List ℕ) (i : ℕ) (h : i < t.length) : t[i] = dim t (t.length - 1 - i) := by
  unfold dim
  rw [List.getD_eq_getElem _ _ (by simp; omega), List.getElem_reverse]
  congr 1
  omega

theorem compat_pad {shapes : List (List ℕ)} {s t : List ℕ} (h : IsBroadcast shapes s) (ht : t ∈ shapes) :
    Compat (List.replicate (s.length - t.length) 1 ++ t) s := by
  have hl : (List.replicate (s.length - t.length) 1 ++ t).length = s.length := by
    have := h.axes.1 t ht
    simp
    omega
  rw [Compat, List.forall₂_iff_get]
  refine ⟨hl, fun i h1 h2 => ?_⟩
  simp only [List.get_eq_getElem]
  rw [dim_get _ _ h1, dim_get _ _ h2, hl, dim_pad]
  exact h.sizes _ t ht

/-- An array with one element: it is repeated. -/
theorem nd_broadcastTo_one {shapes : List (List ℕ)} {s : List ℕ} (h : IsBroadcast shapes s) (a : NdArray)
    (ha : a.Wf) (hm : a.shape ∈ shapes) (h1 : a.data.length = 1) :
    a.broadcastTo s = List.replicate s.prod (a.data.headD 0) := by
  obtain ⟨v, hv⟩ := List.length_eq_one_iff.1 h1
  unfold NdArray.broadcastTo
  have hp : a.shape.prod = 1 := by unfold NdArray.Wf at ha; omega
  rw [hv, broadcastTo_one (compat_pad h hm) v (by simp [hp])]
  rfl

/-- An array with as many elements as the result: it is flattened. -/
theorem nd_broadcastTo_full {shapes : List (List ℕ)} {s : List ℕ} (h : IsBroadcast shapes s) (a : NdArray)
    (ha : a.Wf) (hm : a.shape ∈ shapes) (h1 : a.data.length = s.prod) :
    a.broadcastTo s = a.data := by
  unfold NdArray.Wf at ha
  unfold NdArray.broadcastTo
  apply broadcastTo_full (compat_pad h hm) <;> simp <;> omega

theorem nd_broadcastTo_length {shapes : List (List ℕ)} {s : List ℕ} (h : IsBroadcast shapes s) (a : NdArray)
    (ha : a.Wf) (hm : a.shape ∈ shapes) : (a.broadcastTo s).length = s.prod := by
  unfold NdArray.Wf at ha
  exact broadcastTo_length (compat_pad h hm) _ (by simpa using ha)

end Verif.Shapes
