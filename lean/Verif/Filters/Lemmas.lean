import Verif.Filters.Dft

/-!
`apply_filter` in terms of the discrete Fourier transform.
-/

namespace Verif.Filters
open Complex Finset Verif.Utils
open scoped ComplexConjugate

/-- Evenly spaced coordinates. -/
noncomputable def coordList (n : ℕ) (c0 d : ℝ) : List ℝ := (List.range n).map fun (i : ℕ) => c0 + i * d

theorem coordList_getD {n : ℕ} {c0 d : ℝ} {i : ℕ} (h : i < n) :
    (coordList n c0 d).getD i 0 = c0 + i * d := by
  simp [coordList, List.getD, h]

theorem coordList_length (n : ℕ) (c0 d : ℝ) : (coordList n c0 d).length = n := by simp [coordList]

theorem coordList_head {n : ℕ} (h : 0 < n) (c0 d : ℝ) : (coordList n c0 d).headD 0 = c0 := by
  obtain ⟨k, rfl⟩ := Nat.exists_eq_add_of_lt h
  simp [coordList, List.range_succ_eq_map]

theorem coordList_last {n : ℕ} (h : 0 < n) (c0 d : ℝ) :
    (coordList n c0 d).getLastD 0 = c0 + ((n : ℝ) - 1) * d := by
  obtain ⟨k, rfl⟩ := Nat.exists_eq_add_of_lt h
  simp [coordList, List.range_succ]

theorem spacing_of (l : List ℝ) (a b : ℝ) (t : List ℝ) (hl : l = a :: b :: t) (hd : b - a ≠ 0)
    (hall : ∀ i (h : i + 1 < l.length), l[i + 1] - l[i] = b - a) : spacing l = .ok (b - a) := by
  subst hl
  unfold spacing
  simp only
  rw [if_pos ⟨hd, hall⟩]

theorem spacing_coordList {n : ℕ} (h : 2 ≤ n) {c0 d : ℝ} (hd : d ≠ 0) :
    spacing (coordList n c0 d) = .ok d := by
  obtain ⟨k, rfl⟩ := Nat.exists_eq_add_of_le h
  have e : coordList (2 + k) c0 d = c0 :: (c0 + d) :: ((List.range k).map fun i => c0 + (i + 2 : ℕ) * d) := by
    rw [add_comm 2 k]
    simp [coordList, List.range_succ_eq_map, Function.comp_def]
    intro a _; left; ring
  have := spacing_of _ _ _ _ e (by simpa using hd) (by
    intro i hi
    simp [coordList]; ring)
  simpa using this

theorem firstCoord_pos {n : ℕ} (h : 0 < n) {c0 d : ℝ} (hd : 0 < d) :
    firstCoord (coordList n c0 d) = c0 := by
  unfold firstCoord
  rw [coordList_head h, coordList_last h, min_eq_left]
  have : (1 : ℝ) ≤ n := by exact_mod_cast h
  nlinarith

theorem firstCoord_neg {n : ℕ} (h : 0 < n) {c0 d : ℝ} (hd : d < 0) :
    firstCoord (coordList n c0 d) = c0 + ((n : ℝ) - 1) * d := by
  unfold firstCoord
  rw [coordList_head h, coordList_last h, min_eq_right]
  have : (1 : ℝ) ≤ n := by exact_mod_cast h
  nlinarith

/-- Values of a kernel at the frequencies of a grid. -/
noncomputable def kval (n m : ℕ) (dy dx : ℝ) (K : Kernel) (p q : ℕ) : ℂ :=
  (K (freq m dx q) (freq n dy p)).getD 0

/-- The kernel is finite at the frequencies of a grid. -/
def KFinite (n m : ℕ) (dy dx : ℝ) (K : Kernel) : Prop :=
  ∀ p < n, ∀ q < m, (K (freq m dx q) (freq n dy p)).isSome

open Classical in
/-- The filtered values. -/
noncomputable def out (n m : ℕ) (dy dx : ℝ) (K : Kernel) (v : ℕ → ℕ → ℝ) (i j : ℕ) : Option ℝ :=
  if KFinite n m dy dx K then
    some (idft n m (fun p q => dft n m (fun i j => v i j) p q * kval n m dy dx K p q) i j).re
  else none

/-- An array with evenly spaced coordinates. -/
noncomputable def regular (n m : ℕ) (y0 dy x0 dx : ℝ) (v : ℕ → ℕ → ℝ) : Arr2 :=
  ⟨n, m, coordList n y0 dy, coordList m x0 dx, v⟩

theorem freq_phase {n : ℕ} (hn : 0 < n) {d : ℝ} (hd : d ≠ 0) (p i : ℕ) :
    freq n d p * (i * d) = ((p : ℝ) - (n / 2 : ℕ)) * i / n := by
  unfold freq
  have : (n : ℝ) ≠ 0 := by exact_mod_cast hn.ne'
  field_simp

/-- Filter of an array with increasing coordinates. -/
theorem filter_regular {n m : ℕ} (hn : 2 ≤ n) (hm : 2 ≤ m) {y0 dy x0 dx : ℝ} (hdy : 0 < dy)
    (hdx : 0 < dx) (v : ℕ → ℕ → ℝ) :
    ∃ s, fft (regular n m y0 dy x0 dx v) = .ok s ∧
      ∀ K i j, filterSpectrum K s i j = out n m dy dx K v i j := by
  have hn0 : 0 < n := by omega
  have hm0 : 0 < m := by omega
  refine ⟨⟨n, m, dy, dx, y0, x0, fun p q => dy * dx * ∑ i ∈ range n, ∑ j ∈ range m,
    v i j * exp (-(2 * Real.pi * I * (freq n dy p * (coordList n y0 dy).getD i 0 +
      freq m dx q * (coordList m x0 dx).getD j 0)))⟩, ?_, ?_⟩
  · unfold fft regular
    simp only [spacing_coordList hn hdy.ne', spacing_coordList hm hdx.ne', Py.bind_ok, Py.pure_eq,
      abs_of_pos hdy, abs_of_pos hdx, firstCoord_pos hn0 hdy, firstCoord_pos hm0 hdx]
  · intro K i j
    unfold filterSpectrum out
    simp only
    have hfin : (∃ p < n, ∃ q < m, K (freq m dx q) (freq n dy p) = none) ↔ ¬ KFinite n m dy dx K := by
      unfold KFinite
      push Not
      simp [Option.not_isSome_iff_eq_none]
    by_cases hK : KFinite n m dy dx K
    · rw [if_neg (by rw [hfin]; simpa using hK), if_pos hK]
      congr 2
      unfold ifft idft
      simp only
      have ncne : (n : ℂ) ≠ 0 := by exact_mod_cast hn0.ne'
      have mcne : (m : ℂ) ≠ 0 := by exact_mod_cast hm0.ne'
      have yne : (dy : ℂ) ≠ 0 := by exact_mod_cast hdy.ne'
      have xne : (dx : ℂ) ≠ 0 := by exact_mod_cast hdx.ne'
      have e1 : ∀ p q, (dy : ℂ) * dx * ∑ i ∈ range n, ∑ j ∈ range m, (v i j : ℂ) * exp (-(2 * Real.pi * I *
            (freq n dy p * (coordList n y0 dy).getD i 0 + freq m dx q * (coordList m x0 dx).getD j 0))) =
          dy * dx * (dft n m (fun i j => v i j) p q *
            exp (-(2 * Real.pi * I * (freq n dy p * y0 + freq m dx q * x0)))) := by
        intro p q
        congr 1
        unfold dft
        rw [sum_mul]
        refine sum_congr rfl fun i hi => ?_
        rw [sum_mul]
        refine sum_congr rfl fun j hj => ?_
        rw [coordList_getD (mem_range.1 hi), coordList_getD (mem_range.1 hj), conj_wave, conj_wave,
          ← freq_phase hn0 hdy.ne', ← freq_phase hm0 hdx.ne', ← Complex.exp_add]
        simp only [mul_assoc ((v i j : ℂ))]
        rw [← Complex.exp_add]
        congr 2
        push_cast; ring
      simp only [e1]
      rw [mul_sum, mul_sum]
      refine sum_congr rfl fun p _ => ?_
      rw [mul_sum, mul_sum]
      refine sum_congr rfl fun q _ => ?_
      have e2 : exp (2 * Real.pi * I * (freq n dy p * (y0 + i * dy : ℝ) + freq m dx q * (x0 + j * dx : ℝ))) =
          exp (2 * Real.pi * I * (freq n dy p * y0 + freq m dx q * x0)) *
            (wave n p i * wave m q j) := by
        rw [wave, wave, ← freq_phase hn0 hdy.ne', ← freq_phase hm0 hdx.ne', ← Complex.exp_add,
          ← Complex.exp_add]
        congr 1
        push_cast; ring
      have e3 : exp (-(2 * Real.pi * I * (freq n dy p * y0 + freq m dx q * x0))) *
          exp (2 * Real.pi * I * (freq n dy p * y0 + freq m dx q * x0)) = 1 := by
        rw [← Complex.exp_add]; simp
      rw [e2]
      have : ∀ a b c d e f g : ℂ, a * (b * c * d * (e * f)) = a * b * d * f * (c * e) := by
        intros; ring
      simp only [kval]
      generalize exp (-(2 * Real.pi * I * (freq n dy p * y0 + freq m dx q * x0))) = A at e3 ⊢
      generalize exp (2 * Real.pi * I * (freq n dy p * y0 + freq m dx q * x0)) = B at e3 ⊢
      generalize (K (freq m dx q) (freq n dy p)).getD 0 = kk
      generalize dft n m (fun i j => (v i j : ℂ)) p q = D
      generalize wave n p i * wave m q j = w
      have h2 : 1 / (n * dy : ℂ) * (1 / (m * dx)) * (dy * dx * (D * A) * kk * (B * w)) =
          1 / (n * m) * (D * kk * w) * (A * B) := by
        field_simp
      rw [h2, e3, mul_one]
    · rw [if_pos (by rw [hfin]; exact hK), if_neg hK]

/-- Coordinates after padding. -/
theorem padCoord_coordList {n : ℕ} (hn : 0 < n) (c0 d : ℝ) (w : ℕ × ℕ) :
    padCoord (coordList n c0 d) d w = coordList (w.1 + n + w.2) (c0 - w.1 * d) d := by
  unfold padCoord
  rw [coordList_head hn, coordList_length]
  unfold coordList
  exact List.map_congr_left fun i _ => by ring

/-- Values of the padded array. -/
noncomputable def padded (fill : Fill) (mode : String) (c : Option ℝ) (wy wx : ℕ × ℕ) (g : Arr2) (i j : ℕ) :
    ℝ :=
  if wy.1 ≤ i ∧ i < wy.1 + g.n ∧ wx.1 ≤ j ∧ j < wx.1 + g.m then g.val (i - wy.1) (j - wx.1)
  else fill mode c wy wx g i j

theorem xrftPad_regular {n m : ℕ} (hn : 2 ≤ n) (hm : 2 ≤ m) {y0 dy x0 dx : ℝ} (hdy : dy ≠ 0)
    (hdx : dx ≠ 0) (v : ℕ → ℕ → ℝ) (fill : Fill) (mode : String) (c : Option ℝ) (wy wx : ℕ × ℕ) :
    xrftPad fill mode c wy wx (regular n m y0 dy x0 dx v) =
      .ok (regular (wy.1 + n + wy.2) (wx.1 + m + wx.2) (y0 - wy.1 * dy) dy (x0 - wx.1 * dx) dx
        (padded fill mode c wy wx (regular n m y0 dy x0 dx v))) := by
  unfold xrftPad
  simp only [regular, spacing_coordList hn hdy, spacing_coordList hm hdx, Py.bind_ok, Py.pure_eq,
    padCoord_coordList (show 0 < n by omega), padCoord_coordList (show 0 < m by omega)]
  rfl

theorem padded_inside (fill : Fill) (mode : String) (c : Option ℝ) (wy wx : ℕ × ℕ) (g : Arr2) {i j : ℕ}
    (hi : i < g.n) (hj : j < g.m) : padded fill mode c wy wx g (i + wy.1) (j + wx.1) = g.val i j := by
  unfold padded
  rw [if_pos (by omega)]
  simp

/-- Values set to zero outside of the array. -/
def trunc (n m : ℕ) (v : ℕ → ℕ → ℝ) (i j : ℕ) : ℝ := if i < n ∧ j < m then v i j else 0

/-- The dictionary that `apply_filter` uses. -/
def effective (G : Geo) (kw : Option PadKwargs) : PadKwargs :=
  setDefaults (kw.getD {}) [G.d0, G.d1] [G.n, G.m]

/-- The array after padding. -/
noncomputable def Geo.paddedValues (G : Geo) (fill : Fill) (kw : PadKwargs) (v : ℕ → ℕ → ℝ) : ℕ → ℕ → ℝ :=
  padded fill (kw.mode.getD "") (kw.constant_values.getD none) (width kw G.d0) (width kw G.d1)
    (regular G.n G.m G.y0 G.dy G.x0 G.dx (trunc G.n G.m v))

/-- Sizes of the transformed array. -/
def Geo.nn (G : Geo) (pad : Bool) (kw : PadKwargs) : ℕ :=
  if pad then (width kw G.d0).1 + G.n + (width kw G.d0).2 else G.n

def Geo.mm (G : Geo) (pad : Bool) (kw : PadKwargs) : ℕ :=
  if pad then (width kw G.d1).1 + G.m + (width kw G.d1).2 else G.m

/-- Values of the transformed array. -/
noncomputable def Geo.vv (G : Geo) (fill : Fill) (pad : Bool) (kw : PadKwargs) (v : ℕ → ℕ → ℝ) : ℕ → ℕ → ℝ :=
  if pad then G.paddedValues fill kw v else trunc G.n G.m v

/-- Position of an element in the transformed array. -/
def Geo.oy (G : Geo) (pad : Bool) (kw : PadKwargs) : ℕ := if pad then (width kw G.d0).1 else 0

def Geo.ox (G : Geo) (pad : Bool) (kw : PadKwargs) : ℕ := if pad then (width kw G.d1).1 else 0

/-- Filtered values of a grid. -/
noncomputable def Geo.filtered (G : Geo) (fill : Fill) (K : Kernel) (pad : Bool) (kw : PadKwargs)
    (v : ℕ → ℕ → ℝ) (i j : ℕ) : Option ℝ :=
  out (G.nn pad kw) (G.mm pad kw) G.dy G.dx K (G.vv fill pad kw v) (i + G.oy pad kw) (j + G.ox pad kw)

theorem sanity_ok {A : Grid} {G : Geo} {v : ℕ → ℕ → ℝ} (h : IsGrid A G v) :
    gridSanityChecks A = .ok () := by
  unfold gridSanityChecks
  rw [if_neg (by simp [h.dims]), if_neg]
  rintro ⟨idx, h1, h2⟩
  rw [h.sizes] at h1
  match idx, h1 with
  | [i, j], h1 =>
    simp only [InRange] at h1
    rw [h.data i h1.1 j h1.2.1] at h2
    cases h2
  | [], h1 => exact h1
  | [_], h1 => simp [InRange] at h1
  | _ :: _ :: _ :: _, h1 => simp [InRange] at h1

theorem toArr2_ok {A : Grid} {G : Geo} {v : ℕ → ℕ → ℝ} (h : IsGrid A G v) :
    toArr2 A G.d0 G.d1 G.n G.m = .ok (regular G.n G.m G.y0 G.dy G.x0 G.dx (trunc G.n G.m v)) := by
  unfold toArr2
  rw [h.northing, h.easting]
  simp only [Except.ok.injEq, regular, coordList, Arr2.mk.injEq, true_and]
  refine ⟨rfl, rfl, ?_⟩
  funext i j
  unfold trunc
  by_cases hh : i < G.n ∧ j < G.m
  · rw [if_pos hh, if_pos hh, h.data i hh.1 j hh.2]; rfl
  · rw [if_neg hh, if_neg hh]

theorem setDefaults_pad_width (kw : PadKwargs) (dims : List String) (sizes : List ℕ) :
    (setDefaults kw dims sizes).pad_width = some (kw.pad_width.getD
      (List.zipWith (fun d n => (d, (n / 4, n / 4))) dims sizes)) := by
  unfold setDefaults
  rcases kw with ⟨a, b, c⟩
  cases a <;> cases b <;> cases c <;> rfl

theorem effective_keys {G : Geo} {kw : Option PadKwargs} (hkw : WidthsFor G kw) :
    ¬ ∃ w ∈ (effective G kw).pad_width.getD [], w.1 ≠ G.d0 ∧ w.1 ≠ G.d1 := by
  rintro ⟨w, hw, h0, h1⟩
  unfold effective at hw
  rw [setDefaults_pad_width] at hw
  simp only [Option.getD_some] at hw
  cases kw with
  | none =>
    simp at hw
    rcases hw with rfl | rfl
    · exact h0 rfl
    · exact h1 rfl
  | some k =>
    simp only [Option.getD_some] at hw
    cases hp : k.pad_width with
    | none =>
      rw [hp] at hw
      simp at hw
      rcases hw with rfl | rfl
      · exact h0 rfl
      · exact h1 rfl
    | some l =>
      rw [hp] at hw
      have := hkw k rfl w (by rw [hp]; exact hw)
      tauto

theorem filteredValues_ok {G : Geo} (hG : G.Increasing) (fill : Fill) (K : Py Kernel) (pad : Bool)
    (kw : PadKwargs) (v : ℕ → ℕ → ℝ) :
    filteredValues fill K pad kw G.d0 G.d1 (regular G.n G.m G.y0 G.dy G.x0 G.dx (trunc G.n G.m v)) =
      K.map fun K => G.filtered fill K pad kw v := by
  have := hG.n2
  have := hG.m2
  unfold filteredValues
  cases pad
  · obtain ⟨s, h1, h2⟩ := filter_regular (y0 := G.y0) (x0 := G.x0) hG.n2 hG.m2 hG.dy hG.dx
      (trunc G.n G.m v)
    simp only [Bool.false_eq_true, if_false, h1, Py.bind_ok]
    cases K with
    | error e => rfl
    | ok K =>
      simp only [Py.bind_ok, Py.pure_eq, Except.map]
      congr 1
      funext i j
      rw [h2]; rfl
  · simp only [if_true]
    rw [xrftPad_regular hG.n2 hG.m2 hG.dy0 hG.dx0]
    obtain ⟨s, h1, h2⟩ := filter_regular (n := (width kw G.d0).1 + G.n + (width kw G.d0).2)
      (m := (width kw G.d1).1 + G.m + (width kw G.d1).2) (y0 := G.y0 - (width kw G.d0).1 * G.dy)
      (x0 := G.x0 - (width kw G.d1).1 * G.dx) (by omega) (by omega) hG.dy hG.dx
      (G.paddedValues fill kw v)
    simp only [Py.bind_ok]
    unfold Geo.paddedValues at h1
    rw [h1]
    simp only [Py.bind_ok]
    cases K with
    | error e => rfl
    | ok K =>
      simp only [Py.bind_ok, Py.pure_eq, Except.map]
      congr 1
      funext i j
      unfold xrftUnpad
      rw [h2]; rfl

/-- The result of `apply_filter`. -/
noncomputable def resultGrid (A : Grid) (G : Geo) (drop : Bool) (val : ℕ → ℕ → Option ℝ) : Grid :=
  restoreCoords A G.d0 G.d1 drop val

theorem applyFilter_eq {A : Grid} {G : Geo} {v : ℕ → ℕ → ℝ} (hA : IsGrid A G v) (hG : G.Increasing)
    (fill : Fill) (K : Py Kernel) (pad : Bool) (kw : Option PadKwargs) (hkw : WidthsFor G kw)
    (drop : Bool) :
    (applyFilter fill A K pad kw drop).2 = K.map fun K =>
      resultGrid A G drop (G.filtered fill K pad (effective G kw) v) := by
  have key : ∀ k : PadKwargs, (pad = true → ¬ ∃ w ∈ (setDefaults k A.dims A.sizes).pad_width.getD [],
        w.1 ≠ G.d0 ∧ w.1 ≠ G.d1) →
      (applyFilterDict fill A K pad k drop).2 = K.map fun K =>
        resultGrid A G drop (G.filtered fill K pad (setDefaults k A.dims A.sizes) v) := by
    intro k hk
    unfold applyFilterDict
    rw [sanity_ok hA]
    simp only
    rw [hA.dims, hA.sizes] at hk ⊢
    simp only
    have hff : ∀ k K, G.filtered fill K false k v = G.filtered fill K false
        (setDefaults k [G.d0, G.d1] [G.n, G.m]) v := by
      intro k K; rfl
    cases pad
    · simp only [Bool.false_eq_true, false_and, if_false, toArr2_ok hA, Py.bind_ok,
        filteredValues_ok hG]
      cases K with
      | error e => rfl
      | ok K =>
        simp only [Except.map, Py.bind_ok, Py.pure_eq]
        rw [← hff]; rfl
    · rw [if_neg (by simpa using hk rfl)]
      simp only [if_true, toArr2_ok hA, Py.bind_ok, filteredValues_ok hG]
      cases K with
      | error e => rfl
      | ok K => rfl
  have hd := effective_keys hkw
  unfold effective at hd ⊢
  unfold applyFilter
  rw [← hA.dims, ← hA.sizes] at hd ⊢
  cases kw with
  | none => exact key {} (fun _ => hd)
  | some k => exact key k (fun _ => hd)

/-! ### coordinates of the result -/

theorem lookup_filter_append {α : Type} (l : List (String × α)) (P : String → Prop) [DecidablePred P]
    (name : String) :
    (l.filter (fun c => P c.1) ++ l.filter fun c => ¬ P c.1).lookup name = l.lookup name := by
  induction l with
  | nil => rfl
  | cons a l ih =>
    obtain ⟨k, b⟩ := a
    by_cases hk : P k
    · simp only [List.filter_cons, hk, decide_true, if_true, not_true, decide_false,
        Bool.false_eq_true, if_false, List.cons_append, List.lookup_cons]
      split
      · rfl
      · simpa using ih
    · simp only [List.filter_cons, hk, decide_false, Bool.false_eq_true, if_false, not_false_eq_true,
        decide_true, if_true]
      rw [List.lookup_append, List.lookup_cons, List.lookup_cons]
      rw [List.lookup_append] at ih
      by_cases hn : name = k
      · subst hn
        have : (l.filter fun c => decide (P c.1)).lookup name = none := by
          rw [List.lookup_eq_none_iff]
          intro p hp
          simp only [List.mem_filter, decide_eq_true_eq] at hp
          simp only [bne_iff_ne, ne_eq]
          rintro rfl
          exact hk hp.2
        simp [this]
      · have : (name == k) = false := by simpa using hn
        rw [this]
        simpa using ih

theorem lookup_filter {α : Type} (l : List (String × α)) (P : String → Prop) [DecidablePred P]
    (name : String) :
    (l.filter (fun c => P c.1)).lookup name = if P name then l.lookup name else none := by
  induction l with
  | nil => simp
  | cons a l ih =>
    obtain ⟨k, b⟩ := a
    by_cases hk : P k
    · simp only [List.filter_cons, hk, decide_true, if_true, List.lookup_cons]
      by_cases hn : name = k
      · subst hn; simp [hk]
      · have : (name == k) = false := by simpa using hn
        rw [this]; simpa using ih
    · simp only [List.filter_cons, hk, decide_false, Bool.false_eq_true, if_false, List.lookup_cons]
      by_cases hn : name = k
      · subst hn; simp [hk, ih]
      · have : (name == k) = false := by simpa using hn
        rw [this]; simpa using ih

theorem resultGrid_coord (A : Grid) (G : Geo) (val : ℕ → ℕ → Option ℝ) (name : String) :
    (resultGrid A G false val).coord name = A.coord name :=
  lookup_filter_append A.coords (fun s => s = G.d1 ∨ s = G.d0) name

theorem resultGrid_coord_drop (A : Grid) (G : Geo) (val : ℕ → ℕ → Option ℝ) (name : String) :
    (resultGrid A G true val).coord name =
      if name = G.d1 ∨ name = G.d0 then A.coord name else none := by
  unfold resultGrid restoreCoords Grid.coord
  simp only [if_true, List.append_nil]
  exact lookup_filter A.coords (fun s => s = G.d1 ∨ s = G.d0) name

/-- The result is a grid with the same geometry. -/
theorem resultGrid_isGrid {A : Grid} {G : Geo} {v : ℕ → ℕ → ℝ} (hA : IsGrid A G v) (drop : Bool)
    (val : ℕ → ℕ → Option ℝ) (w : ℕ → ℕ → ℝ)
    (h : ∀ i < G.n, ∀ j < G.m, val i j = some (w i j)) : IsGrid (resultGrid A G drop val) G w := by
  refine ⟨hA.dims, hA.sizes, ?_, ?_, h⟩
  · cases drop
    · rw [resultGrid_coord, hA.northing]
    · rw [resultGrid_coord_drop, if_pos (Or.inr rfl), hA.northing]
  · cases drop
    · rw [resultGrid_coord, hA.easting]
    · rw [resultGrid_coord_drop, if_pos (Or.inl rfl), hA.easting]

/-! ### sizes -/

theorem Geo.nn_le (G : Geo) (pad : Bool) (kw : PadKwargs) {i : ℕ} (h : i < G.n) :
    i + G.oy pad kw < G.nn pad kw := by
  unfold Geo.oy Geo.nn; cases pad <;> simp <;> omega

theorem Geo.mm_le (G : Geo) (pad : Bool) (kw : PadKwargs) {j : ℕ} (h : j < G.m) :
    j + G.ox pad kw < G.mm pad kw := by
  unfold Geo.ox Geo.mm; cases pad <;> simp <;> omega

theorem Geo.vv_inside (G : Geo) (fill : Fill) (pad : Bool) (kw : PadKwargs) (v : ℕ → ℕ → ℝ) {i j : ℕ}
    (hi : i < G.n) (hj : j < G.m) :
    G.vv fill pad kw v (i + G.oy pad kw) (j + G.ox pad kw) = v i j := by
  unfold Geo.vv Geo.oy Geo.ox
  cases pad
  · simp [trunc, hi, hj]
  · simp only [if_true, Geo.paddedValues]
    rw [padded_inside _ _ _ _ _ _ (by simpa [regular] using hi) (by simpa [regular] using hj)]
    simp [regular, trunc, hi, hj]

end Verif.Filters
