import Verif.Tesseroid.Spec
import Verif.Tesseroid.Adaptive
import Verif.Distance.Props

/-! Lemmas on splitting, sizes, and longitudes of tesseroids. -/

namespace Verif.Tesseroid
open Verif.Distance Verif.Forward

/-! ### splitting -/

/-- product of increments of three functions: what both volumes and indicator functions are -/
def prodF (g h k : ℝ → ℝ) (t : Tess) : ℝ :=
  (g t.e - g t.w) * (h t.n - h t.s) * (k t.top - k t.bottom)

theorem sum_range_tele (G : ℕ → ℝ) (m : ℕ) :
    ((List.range m).map fun i => G (i + 1) - G i).sum = G m - G 0 := by
  induction m with
  | zero => simp
  | succ m ih => rw [List.range_succ, List.map_append, List.sum_append, ih]; simp

theorem sum_split (g : ℝ → ℝ) (a b : ℝ) (m : ℕ) (hm : 1 ≤ m) :
    ((List.range m).map fun i : ℕ =>
      g (a + (b - a) / m * (i + 1)) - g (a + (b - a) / m * i)).sum = g b - g a := by
  have := sum_range_tele (fun i : ℕ => g (a + (b - a) / m * i)) m
  have h0 : (m : ℝ) ≠ 0 := by positivity
  simp only [Nat.cast_add, Nat.cast_one] at this
  rw [this]
  congr 2
  · field_simp; ring
  · simp

theorem sum_flatMap {α : Type} (l : List α) (f : α → List ℝ) :
    (l.flatMap f).sum = (l.map fun x => (f x).sum).sum := by
  induction l with
  | nil => rfl
  | cons a l ih => simp [List.flatMap_cons, ih]

theorem map_flatMap' {α β γ : Type} (l : List α) (f : α → List β) (g : β → γ) :
    (l.flatMap f).map g = l.flatMap fun x => (f x).map g := by
  rw [List.map_flatMap]

/-- splitting conserves every product of increments -/
theorem splitPieces_sum (g h k : ℝ → ℝ) (t : Tess) (a b c : ℕ) (ha : 1 ≤ a) (hb : 1 ≤ b)
    (hc : 1 ≤ c) : ((splitPieces t a b c).map (prodF g h k)).sum = prodF g h k t := by
  unfold splitPieces
  simp only [map_flatMap', sum_flatMap, List.map_map, Function.comp_def, prodF]
  simp only [List.sum_map_mul_left, List.sum_map_mul_right, sum_split _ _ _ _ ha,
    sum_split _ _ _ _ hb, sum_split _ _ _ _ hc]

theorem splitPieces_mem {t : Tess} {a b c : ℕ} {p : Tess} (h : p ∈ splitPieces t a b c) :
    ∃ i j k : ℕ, i < a ∧ j < b ∧ k < c ∧ p =
      { w := t.w + (t.e - t.w) / a * i, e := t.w + (t.e - t.w) / a * (i + 1)
        s := t.s + (t.n - t.s) / b * j, n := t.s + (t.n - t.s) / b * (j + 1)
        bottom := t.bottom + (t.top - t.bottom) / c * k
        top := t.bottom + (t.top - t.bottom) / c * (k + 1) } := by
  unfold splitPieces at h
  simp only [List.mem_flatMap, List.mem_map, List.mem_range] at h
  obtain ⟨i, hi, j, hj, k, hk, rfl⟩ := h
  exact ⟨i, j, k, hi, hj, hk, rfl⟩

/-- ends of the `i`-th of `m` equal parts of `[a, b]` -/
theorem part_bounds {a b : ℝ} {m i : ℕ} (hi : i < m) (hab : a ≤ b) :
    a ≤ a + (b - a) / m * i ∧ a + (b - a) / m * i ≤ a + (b - a) / m * (i + 1) ∧
      a + (b - a) / m * (i + 1) ≤ b := by
  have hm : (0 : ℝ) < m := by exact_mod_cast (by omega : 0 < m)
  have hd : 0 ≤ (b - a) / m := div_nonneg (by linarith) hm.le
  have hi' : (i : ℝ) + 1 ≤ m := by exact_mod_cast hi
  refine ⟨by nlinarith [mul_nonneg hd (Nat.cast_nonneg (α := ℝ) i)], by nlinarith, ?_⟩
  have : (b - a) / m * (i + 1) ≤ (b - a) / m * m := mul_le_mul_of_nonneg_left hi' hd
  rw [div_mul_cancel₀ _ hm.ne'] at this
  linarith

theorem part_lt {a b : ℝ} {m i : ℕ} (hi : i < m) (hab : a < b) :
    a + (b - a) / m * i < a + (b - a) / m * (i + 1) := by
  have hm : (0 : ℝ) < m := by exact_mod_cast (by omega : 0 < m)
  have hd : 0 < (b - a) / m := div_pos (by linarith) hm
  nlinarith

/-- pieces of an ordered tesseroid are ordered and inside of it -/
def Within (t p : Tess) : Prop :=
  p.Ordered ∧ t.w ≤ p.w ∧ p.e ≤ t.e ∧ t.s ≤ p.s ∧ p.n ≤ t.n ∧ t.bottom ≤ p.bottom ∧ p.top ≤ t.top

theorem splitPieces_within {t : Tess} (ht : t.Ordered) {a b c : ℕ} {p : Tess}
    (h : p ∈ splitPieces t a b c) : Within t p := by
  obtain ⟨i, j, k, hi, hj, hk, rfl⟩ := splitPieces_mem h
  obtain ⟨h1, h2, h3⟩ := part_bounds hi ht.1
  obtain ⟨h4, h5, h6⟩ := part_bounds hj ht.2.1
  obtain ⟨h7, h8, h9⟩ := part_bounds hk ht.2.2
  exact ⟨⟨h2, h5, h8⟩, h1, h3, h4, h6, h7, h9⟩

theorem Within.trans {t p r : Tess} (h : Within t p) (h' : Within p r) : Within t r := by
  obtain ⟨_, a1, a2, a3, a4, a5, a6⟩ := h
  obtain ⟨o, b1, b2, b3, b4, b5, b6⟩ := h'
  exact ⟨o, by linarith, by linarith, by linarith, by linarith, by linarith, by linarith⟩

theorem Within.refl {t : Tess} (h : t.Ordered) : Within t t :=
  ⟨h, le_refl _, le_refl _, le_refl _, le_refl _, le_refl _, le_refl _⟩

theorem Tess.Proper.ordered {t : Tess} (h : t.Proper) : t.Ordered :=
  ⟨h.we.le, h.sn.le, h.bt.le⟩

theorem splitPieces_proper {t : Tess} (ht : t.Proper) {a b c : ℕ} {p : Tess}
    (h : p ∈ splitPieces t a b c) : p.Proper := by
  have hw := splitPieces_within ht.ordered h
  obtain ⟨i, j, k, hi, hj, hk, rfl⟩ := splitPieces_mem h
  obtain ⟨_, a1, a2, a3, a4, a5, a6⟩ := hw
  have := ht.width; have := ht.south; have := ht.north; have := ht.bottom
  exact ⟨part_lt hi ht.we, by linarith, by linarith, part_lt hj ht.sn, by linarith, by linarith,
    part_lt hk ht.bt⟩

open Classical in
theorem ind_eq_prodF (t : Tess) (ht : t.Ordered) (x y z : ℝ) :
    (if t.Mem x y z then (1 : ℝ) else 0) =
      prodF (fun u => if u ≤ x then -1 else 0) (fun u => if u ≤ y then -1 else 0)
        (fun u => if u ≤ z then -1 else 0) t := by
  obtain ⟨h1, h2, h3⟩ := ht
  have key : ∀ a b x : ℝ, a ≤ b → (if b ≤ x then (-1 : ℝ) else 0) - (if a ≤ x then -1 else 0) =
      if a ≤ x ∧ x < b then 1 else 0 := by
    intro a b x hab
    by_cases hb : b ≤ x
    · have ha : a ≤ x := le_trans hab hb
      simp [hb, ha]
    · by_cases ha : a ≤ x
      · simp [hb, ha, not_le.1 hb]
      · simp [hb, ha]
  unfold prodF Tess.Mem
  simp only
  rw [key _ _ x h1, key _ _ y h2, key _ _ z h3]
  by_cases a : t.w ≤ x ∧ x < t.e <;> by_cases b : t.s ≤ y ∧ y < t.n <;>
    by_cases c : t.bottom ≤ z ∧ z < t.top <;> simp [a, b, c]

open Classical in
theorem partition_of_sum (pieces : List Tess) (t : Tess)
    (hp : ∀ p ∈ pieces, p.Ordered) (ht : t.Ordered)
    (h : ∀ g h k : ℝ → ℝ, (pieces.map (prodF g h k)).sum = prodF g h k t) : IsPartition pieces t := by
  intro x y z
  have := h (fun u => if u ≤ x then -1 else 0) (fun u => if u ≤ y then -1 else 0)
        (fun u => if u ≤ z then -1 else 0)
  rw [← ind_eq_prodF t ht] at this
  rw [List.map_congr_left (g := fun p : Tess => if p.Mem x y z then (1 : ℝ) else 0)
    (fun p hpm => (ind_eq_prodF p (hp p hpm) x y z).symm)] at this
  have hc : ∀ l : List Tess, ((l.map fun p : Tess => if p.Mem x y z then (1 : ℝ) else 0).sum) =
      ((l.countP (fun p => decide (p.Mem x y z)) : ℕ) : ℝ) := by
    intro l
    induction l with
    | nil => simp
    | cons a l ih =>
      rw [List.map_cons, List.sum_cons, ih, List.countP_cons]
      by_cases ha : a.Mem x y z <;> simp [ha, add_comm]
  rw [hc] at this
  have h2 : ((if t.Mem x y z then 1 else 0 : ℕ) : ℝ) = if t.Mem x y z then (1 : ℝ) else 0 := by
    split <;> simp
  rw [← h2] at this
  exact_mod_cast this

theorem volume_eq_prodF (t : Tess) :
    t.volume = prodF radians (fun φ => Real.sin (radians φ)) (fun r => r ^ 3 / 3) t := by
  unfold Tess.volume prodF
  rw [integral_pow, integral_cos]
  norm_num
  ring

/-! ### sizes -/

theorem norm_unitPos (lon lat : ℝ) : ‖unitPos lon lat‖ = 1 := by
  unfold unitPos sphPos
  rw [EuclideanSpace.norm_eq]
  simp only [Fin.sum_univ_three, one_mul, Real.norm_eq_abs, sq_abs]
  rw [Real.sqrt_eq_one]
  simp
  nlinarith [Real.sin_sq_add_cos_sq (radians lon), Real.sin_sq_add_cos_sq (radians lat)]

theorem inner_unitPos (lon lat lon' lat' : ℝ) :
    inner ℝ (unitPos lon lat) (unitPos lon' lat') =
      Real.sin (radians lat) * Real.sin (radians lat') +
      Real.cos (radians lat) * Real.cos (radians lat') *
        Real.cos (radians lon' - radians lon) := by
  unfold unitPos sphPos
  simp [PiLp.inner_apply, Fin.sum_univ_three]
  rw [Real.cos_sub]
  ring

theorem sizeLon_eq (t : Tess) : (dimensions t).1 = t.sizeLon := by
  unfold dimensions Tess.sizeLon InnerProductGeometry.angle
  simp only [inner_unitPos, norm_unitPos]
  congr 2
  have : radians ((t.s + t.n) / 2) = (radians t.n + radians t.s) / 2 := by unfold radians; ring
  rw [this]
  ring

theorem radians_le {a b : ℝ} : radians a ≤ radians b ↔ a ≤ b := by
  unfold radians
  exact mul_le_mul_iff_left₀ (by positivity)

theorem radians_lt {a b : ℝ} : radians a < radians b ↔ a < b := by
  unfold radians
  exact mul_lt_mul_iff_left₀ (by positivity)

theorem sizeLat_eq (t : Tess) (hs : -90 ≤ t.s) (hsn : t.s ≤ t.n) (hn : t.n ≤ 90) :
    (dimensions t).2.1 = t.sizeLat := by
  unfold dimensions Tess.sizeLat
  simp only
  congr 1
  have : Real.sin (radians t.n) * Real.sin (radians t.s) +
      Real.cos (radians t.n) * Real.cos (radians t.s) = Real.cos (radians t.n - radians t.s) := by
    rw [Real.cos_sub]; ring
  rw [this, Real.arccos_cos]
  · have := radians_le.2 hsn; linarith
  · have h180 : radians 180 = Real.pi := by unfold radians; ring
    rw [← radians_sub, ← h180]
    exact radians_le.2 (by linarith)

theorem sizeLon_pos {t : Tess} (h : t.Proper) : 0 < t.sizeLon := by
  have htop : 0 < t.top := lt_of_le_of_lt h.bottom h.bt
  unfold Tess.sizeLon
  apply mul_pos htop
  unfold InnerProductGeometry.angle
  rw [Real.arccos_pos, inner_unitPos, norm_unitPos, norm_unitPos]
  simp only [mul_one, div_one]
  set c := radians ((t.s + t.n) / 2)
  have hpi : radians 90 = Real.pi / 2 := by unfold radians; ring
  have hc : 0 < Real.cos c := by
    apply Real.cos_pos_of_mem_Ioo
    constructor
    · have : radians (-90) < c := radians_lt.2 (by have := h.south; have := h.sn; linarith)
      have h2 : radians (-90) = -(Real.pi / 2) := by unfold radians; ring
      linarith
    · have : c < radians 90 := radians_lt.2 (by have := h.north; have := h.sn; linarith)
      linarith
  have hd : Real.cos (radians t.e - radians t.w) < 1 := by
    apply lt_of_le_of_ne (Real.cos_le_one _)
    intro hcos
    have h1 := radians_lt.2 h.we
    have h2 : radians t.e - radians t.w < 2 * Real.pi := by
      rw [← radians_sub]
      have : radians 360 = 2 * Real.pi := by unfold radians; ring
      rw [← this]
      exact radians_lt.2 h.width
    have := (Real.cos_eq_one_iff_of_lt_of_lt (by linarith [Real.pi_pos]) h2).1 hcos
    linarith
  nlinarith [Real.sin_sq_add_cos_sq c, mul_pos hc hc]

theorem sizeLat_pos {t : Tess} (h : t.Proper) : 0 < t.sizeLat := by
  have htop : 0 < t.top := lt_of_le_of_lt h.bottom h.bt
  have := radians_lt.2 h.sn
  unfold Tess.sizeLat
  exact mul_pos htop (by linarith)

theorem centreDistance_eq (t : Tess) (q : P3) : distanceTessPoint q t = t.centreDistance q := by
  unfold distanceTessPoint Tess.centreDistance
  exact C10_distance_spherical _ _

/-- the number of divisions for a proper tesseroid, in terms of the specification -/
theorem divisions_proper (P : AParams) {t : Tess} (h : t.Proper) :
    divisions P t = .ok (open Classical in
      (if t.centreDistance P.point / t.sizeLon < P.ratio then 2 else 1,
       if t.centreDistance P.point / t.sizeLat < P.ratio then 2 else 1,
       if t.centreDistance P.point / t.sizeRad < P.ratio ∧ P.radial = true then 2 else 1)) := by
  have h1 := sizeLon_pos h
  have h2 := sizeLat_pos h
  have h3 : 0 < t.sizeRad := by unfold Tess.sizeRad; linarith [h.bt]
  have e3 : (dimensions t).2.2 = t.sizeRad := rfl
  unfold divisions divLt
  simp only [sizeLon_eq, sizeLat_eq t h.south h.sn.le h.north, e3, centreDistance_eq, h1.ne',
    h2.ne', h3.ne', if_false, bind, Except.bind, pure, Except.pure]
  congr 1
  by_cases a : t.centreDistance P.point / t.sizeLon < P.ratio <;>
  by_cases b : t.centreDistance P.point / t.sizeLat < P.ratio <;>
  by_cases c : t.centreDistance P.point / t.sizeRad < P.ratio <;>
  cases P.radial <;> simp [a, b, c]

/-! ### longitudes -/

theorem pymod_bounds (a : ℝ) : 0 ≤ pymod a 360 ∧ pymod a 360 < 360 := by
  unfold pymod
  have h1 := Int.floor_le (a / 360)
  have h2 := Int.lt_floor_add_one (a / 360)
  constructor <;> linarith

theorem pymod_eq (a : ℝ) : ∃ k : ℤ, pymod a 360 = a + 360 * k :=
  ⟨-⌊a / 360⌋, by unfold pymod; push_cast; ring⟩

theorem to180_rep (x : ℝ) : IsRep180 x (to180 x) := by
  have h := pymod_bounds (x + 180)
  obtain ⟨k, hk⟩ := pymod_eq (x + 180)
  unfold to180
  exact ⟨by linarith, by linarith, k, by rw [hk]; ring⟩

theorem rep180_unique {x r r' : ℝ} (h : IsRep180 x r) (h' : IsRep180 x r') : r = r' := by
  obtain ⟨a1, a2, k, hk⟩ := h
  obtain ⟨b1, b2, m, hm⟩ := h'
  have h1 : (-1 : ℝ) < (k - m : ℤ) := by push_cast; linarith
  have h2 : ((k - m : ℤ) : ℝ) < 1 := by push_cast; linarith
  have h1' : (-1 : ℤ) < k - m := by exact_mod_cast h1
  have h2' : k - m < 1 := by exact_mod_cast h2
  have : k = m := by omega
  rw [hk, hm, this]

end Verif.Tesseroid
