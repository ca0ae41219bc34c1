import Verif.Tesseroid.Geometry
import Verif.Forward.Lemmas

/-! Lemmas on validation and on `tesseroid_gravity`. -/

namespace Verif.Tesseroid
open Verif.Distance Verif.Forward Verif.Engine

/-! ### validation -/

open Classical in
/-- longitude continuity of one tesseroid -/
noncomputable def normLon (t : Tess) : Tess :=
  if t.w > t.e then { t with e := to180 t.e, w := to180 t.w } else t

theorem longitudeContinuity_eq (ts : List Tess) : longitudeContinuity ts = ts.map normLon := rfl

theorem normLon_of_le {t : Tess} (h : t.w ≤ t.e) : normLon t = t := by
  unfold normLon; rw [if_neg (not_lt.2 h)]

theorem map_normLon_id (ts : List Tess) (h : ¬ ∃ t ∈ ts, t.w > t.e) : ts.map normLon = ts := by
  push Not at h
  conv_rhs => rw [← List.map_id ts]
  exact List.map_congr_left fun t ht => normLon_of_le (h t ht)

theorem normLon_valid_iff (t : Tess) :
    t.ValidLon ↔ (normLon t).w ≤ (normLon t).e ∧ (normLon t).e - (normLon t).w ≤ 360 := by
  unfold Tess.ValidLon
  by_cases h : t.w > t.e
  · have hn : normLon t = { t with e := to180 t.e, w := to180 t.w } := by
      unfold normLon; rw [if_pos h]
    rw [hn]
    simp only
    constructor
    · rintro (⟨h1, _⟩ | ⟨_, w', e', hw, he, hle⟩)
      · exact absurd h1 (not_le.2 h)
      · rw [rep180_unique (to180_rep t.w) hw, rep180_unique (to180_rep t.e) he]
        exact ⟨hle, by linarith [hw.1, he.2.1]⟩
    · rintro ⟨h1, _⟩
      exact Or.inr ⟨h, _, _, to180_rep _, to180_rep _, h1⟩
  · rw [normLon_of_le (not_lt.1 h)]
    constructor
    · rintro (h1 | ⟨h1, _⟩)
      · exact h1
      · exact absurd h1 h
    · exact Or.inl

open Classical in
theorem checkTesseroids_eq (ts : List Tess) :
    checkTesseroids ts = if ∀ t ∈ ts, t.ValidRange ∧ t.ValidLon then .ok (ts.map normLon)
      else .error .ValueError := by
  unfold checkTesseroids
  by_cases h1 : ∃ t ∈ ts, (t.s < -90 ∨ t.s > 90) ∨ (t.n < -90 ∨ t.n > 90)
  · rw [if_pos h1, if_neg (c := ∀ t ∈ ts, t.ValidRange ∧ t.ValidLon)]; rfl
    obtain ⟨t, ht, h⟩ := h1
    intro hh
    have := (hh t ht).1
    have a := this.lat_s; have b := this.lat_n
    rcases h with (h | h) | (h | h) <;> linarith [a.1, a.2, b.1, b.2]
  rw [if_neg h1]
  by_cases h2 : ∃ t ∈ ts, t.s > t.n
  · rw [if_pos h2, if_neg (c := ∀ t ∈ ts, t.ValidRange ∧ t.ValidLon)]; rfl
    obtain ⟨t, ht, h⟩ := h2
    intro hh
    linarith [(hh t ht).1.sn]
  rw [if_neg h2]
  by_cases h3 : ∃ t ∈ ts, t.bottom < 0 ∨ t.top < 0
  · rw [if_pos h3, if_neg (c := ∀ t ∈ ts, t.ValidRange ∧ t.ValidLon)]; rfl
    obtain ⟨t, ht, h⟩ := h3
    intro hh
    have := (hh t ht).1.radii
    rcases h with h | h <;> linarith [this.1, this.2]
  rw [if_neg h3]
  by_cases h4 : ∃ t ∈ ts, t.bottom > t.top
  · rw [if_pos h4, if_neg (c := ∀ t ∈ ts, t.ValidRange ∧ t.ValidLon)]; rfl
    obtain ⟨t, ht, h⟩ := h4
    intro hh
    linarith [(hh t ht).1.bt]
  rw [if_neg h4]
  by_cases h5 : ∃ t ∈ ts, (t.w < -180 ∨ t.w > 360) ∨ (t.e < -180 ∨ t.e > 360)
  · rw [if_pos h5, if_neg (c := ∀ t ∈ ts, t.ValidRange ∧ t.ValidLon)]; rfl
    obtain ⟨t, ht, h⟩ := h5
    intro hh
    have := (hh t ht).1
    have a := this.lon_w; have b := this.lon_e
    rcases h with (h | h) | (h | h) <;> linarith [a.1, a.2, b.1, b.2]
  rw [if_neg h5]
  have hcont : (if ∃ t ∈ ts, t.w > t.e then longitudeContinuity ts else ts) = ts.map normLon := by
    split
    · rfl
    · rename_i h; rw [map_normLon_id ts h]
  have hr : ∀ t ∈ ts, t.ValidRange := by
    push Not at h1 h2 h3 h4 h5
    intro t ht
    exact ⟨⟨(h1 t ht).1.1, (h1 t ht).1.2⟩, ⟨(h1 t ht).2.1, (h1 t ht).2.2⟩, h2 t ht, h3 t ht,
      h4 t ht, ⟨(h5 t ht).1.1, (h5 t ht).1.2⟩, ⟨(h5 t ht).2.1, (h5 t ht).2.2⟩⟩
  simp only [hcont, bind, Except.bind, pure, Except.pure, throw, throwThe, MonadExceptOf.throw]
  by_cases h6 : ∃ t ∈ ts.map normLon, t.w > t.e
  · rw [if_pos h6, if_neg (c := ∀ t ∈ ts, t.ValidRange ∧ t.ValidLon)]
    obtain ⟨t', ht', h⟩ := h6
    obtain ⟨t, ht, rfl⟩ := List.mem_map.1 ht'
    intro hh
    linarith [((normLon_valid_iff t).1 (hh t ht).2).1]
  rw [if_neg h6]
  by_cases h7 : ∃ t ∈ ts.map normLon, t.e - t.w > 360
  · rw [if_pos h7, if_neg (c := ∀ t ∈ ts, t.ValidRange ∧ t.ValidLon)]
    obtain ⟨t', ht', h⟩ := h7
    obtain ⟨t, ht, rfl⟩ := List.mem_map.1 ht'
    intro hh
    linarith [((normLon_valid_iff t).1 (hh t ht).2).2]
  rw [if_neg h7, if_pos]
  intro t ht
  refine ⟨hr t ht, (normLon_valid_iff t).2 ⟨?_, ?_⟩⟩
  · by_contra hc; exact h6 ⟨_, List.mem_map_of_mem ht, not_le.1 hc⟩
  · by_contra hc; exact h7 ⟨_, List.mem_map_of_mem ht, not_le.1 hc⟩

theorem eastEnd_of_le {w e : ℝ} (h : w ≤ e) : eastEnd w e = e := by unfold eastEnd; rw [if_pos h]

/-- longitude continuity does not change the body -/
theorem normLon_body (t : Tess) (ht : t.ValidLon) (q : P3) : (normLon t).Body q ↔ t.Body q := by
  by_cases h : t.w > t.e
  · have hn : normLon t = { t with e := to180 t.e, w := to180 t.w } := by
      unfold normLon; rw [if_pos h]
    have hv := (normLon_valid_iff t).1 ht
    rw [hn] at hv ⊢
    unfold Tess.Body
    simp only at hv ⊢
    obtain ⟨b1, b2, a, ha⟩ := to180_rep t.w
    obtain ⟨c1, c2, b, hb⟩ := to180_rep t.e
    have hceil : ⌈(t.w - t.e) / 360⌉ = b - a := by
      rw [Int.ceil_eq_iff]
      push_cast
      have h1 := hv.1
      rw [ha, hb] at h1
      rw [ha] at b1 b2; rw [hb] at c1 c2
      constructor <;> linarith
    have hend : eastEnd t.w t.e = to180 t.e - 360 * a := by
      unfold eastEnd
      rw [if_neg (not_le.2 h), hceil, hb]; push_cast; ring
    have : OnArc (to180 t.w) (to180 t.e) q.x ↔ OnArc t.w t.e q.x := by
      unfold OnArc
      rw [hend, eastEnd_of_le hv.1]
      constructor
      · rintro ⟨k, h1, h2⟩
        refine ⟨k - a, ?_, ?_⟩ <;> push_cast <;> linarith
      · rintro ⟨k, h1, h2⟩
        refine ⟨k + a, ?_, ?_⟩ <;> push_cast <;> linarith
    rw [this]
  · rw [normLon_of_le (not_lt.1 h)]

theorem normLon_range (t : Tess) (h : t.ValidRange) : (normLon t).ValidRange := by
  unfold normLon
  split
  · have a := to180_rep t.w
    have b := to180_rep t.e
    exact ⟨h.lat_s, h.lat_n, h.sn, h.radii, h.bt, ⟨a.1, by linarith [a.2.1]⟩,
      ⟨b.1, by linarith [b.2.1]⟩⟩
  · exact h

/-! ### points inside -/

/-- the two representatives that the code tries are enough -/
theorem conflict_iff (q : P3) (t : Tess) (hw : -180 ≤ t.w) (he : t.e ≤ 360) :
    conflict q t ↔ (∃ k : ℤ, t.w < q.x + 360 * k ∧ q.x + 360 * k < t.e) ∧
      (t.s < q.y ∧ q.y < t.n) ∧ (t.bottom < q.z ∧ q.z < t.top) := by
  unfold conflict
  simp only
  apply and_congr_left
  intro _
  obtain ⟨a1, a2⟩ := pymod_bounds q.x
  obtain ⟨a, ha⟩ := pymod_eq q.x
  obtain ⟨b1, b2⟩ := pymod_bounds (q.x + 180)
  obtain ⟨b, hb⟩ := pymod_eq (q.x + 180)
  constructor
  · rintro (⟨h1, h2⟩ | ⟨h1, h2⟩)
    · exact ⟨b, by linarith, by linarith⟩
    · exact ⟨a, by linarith, by linarith⟩
  · rintro ⟨k, h1, h2⟩
    by_cases hk : q.x + 360 * k < 180
    · left
      have e1 : (-1 : ℝ) < (k - b : ℤ) := by push_cast; linarith
      have e2 : ((k - b : ℤ) : ℝ) < 1 := by push_cast; linarith
      have e1' : (-1 : ℤ) < k - b := by exact_mod_cast e1
      have e2' : k - b < 1 := by exact_mod_cast e2
      have : k = b := by omega
      subst this
      rw [hb]
      constructor <;> linarith
    · right
      have e1 : (-1 : ℝ) < (k - a : ℤ) := by push_cast; linarith
      have e2 : ((k - a : ℤ) : ℝ) < 1 := by push_cast; linarith
      have e1' : (-1 : ℤ) < k - a := by exact_mod_cast e1
      have e2' : k - a < 1 := by exact_mod_cast e2
      have : k = a := by omega
      subst this
      rw [ha]
      constructor <;> linarith

open Classical in
theorem checkPointsOutside_eq (junk : Junk) (obs : List P3) (ts : List Tess) :
    checkPointsOutside junk (obs.map (·.x)) (obs.map (·.y)) (obs.map (·.z)) ts =
      if ∃ q ∈ obs, ∃ t ∈ ts, conflict q t then .error .ValueError else .ok () := by
  unfold checkPointsOutside
  simp only [List.length_map]
  congr 1
  apply propext
  constructor
  · rintro ⟨i, hi, p, hp, h⟩
    rw [rd_map junk _ _ obs i hi, rd_map junk _ _ obs i hi, rd_map junk _ _ obs i hi] at h
    exact ⟨obs[i], List.getElem_mem hi, p, hp, h⟩
  · rintro ⟨q, hq, p, hp, h⟩
    obtain ⟨i, hi, rfl⟩ := List.getElem_of_mem hq
    refine ⟨i, hi, p, hp, ?_⟩
    rw [rd_map junk _ _ obs i hi, rd_map junk _ _ obs i hi, rd_map junk _ _ obs i hi]
    exact h

open Classical in
/-- tesseroids that contribute -/
noncomputable def keepTess (s : Tess × ℝ) : Bool := !(nullTess s.1 || decide (s.2 = 0))

theorem discardNullTess_eq (srcs : List (Tess × ℝ)) :
    discardNullTess (srcs.map (·.1)) (srcs.map (·.2)) =
      .ok ((srcs.filter keepTess).map (·.1), (srcs.filter keepTess).map (·.2)) := by
  unfold discardNullTess
  simp only [List.map_map, maskSetTrue_map, bind, Except.bind]
  rw [maskIndex_map]
  simp only
  rw [maskIndex_map]
  rfl

/-! ### quadrature -/

/-- The point masses of the quadrature: positions (longitude, latitude in degrees, radius) and
masses. -/
noncomputable def glqMasses (g : Glq) (t : Tess) (density : ℝ → ℝ) : List (P3 × ℝ) :=
  g.lat.flatMap fun lat => g.rad.flatMap fun rad => g.lon.map fun lon =>
    let p : P3 := ⟨0.5 * (t.e - t.w) * lon.1 + 0.5 * (t.e + t.w),
      0.5 * (t.n - t.s) * lat.1 + 0.5 * (t.n + t.s),
      0.5 * (t.top - t.bottom) * rad.1 + 0.5 * (t.top + t.bottom)⟩
    (p, density p.z * (1 / 8 * radians (t.e - t.w) * radians (t.n - t.s) * (t.top - t.bottom)) *
      (p.z ^ 2 * Real.cos (radians p.y)) * lon.2 * lat.2 * rad.2)

theorem foldl_add_map {α : Type} (l : List α) (f : α → ℝ) (a : ℝ) :
    l.foldl (fun r x => r + f x) a = a + (l.map f).sum := by
  induction l generalizing a with
  | nil => simp
  | cons x l ih => simp [ih, add_assoc]

theorem foldl_add_of {α : Type} (l : List α) (F : ℝ → α → ℝ) (f : α → ℝ) (a : ℝ)
    (h : ∀ r x, x ∈ l → F r x = r + f x) : l.foldl F a = a + (l.map f).sum := by
  induction l generalizing a with
  | nil => simp
  | cons x l ih =>
    rw [List.foldl_cons, h a x (by simp), ih _ fun r y hy => h r y (by simp [hy])]
    simp [add_assoc]

theorem glqVariable_eq (q : P3) (t : Tess) (density : ℝ → ℝ) (g : Glq) (kernel : SphKernel) :
    glqVariable (radians q.x) (Real.cos (radians q.y)) (Real.sin (radians q.y)) q.z t density g
        kernel =
      total (fun q s => (PointKernel.spherical kernel).eval q s.1 s.2) (glqMasses g t density) q := by
  unfold glqVariable glqMasses total
  simp only
  rw [foldl_add_of g.lat _ (fun lat => (((g.rad.flatMap fun rad => g.lon.map fun lon =>
    let p : P3 := ⟨0.5 * (t.e - t.w) * lon.1 + 0.5 * (t.e + t.w),
      0.5 * (t.n - t.s) * lat.1 + 0.5 * (t.n + t.s),
      0.5 * (t.top - t.bottom) * rad.1 + 0.5 * (t.top + t.bottom)⟩
    (p, density p.z * (1 / 8 * radians (t.e - t.w) * radians (t.n - t.s) * (t.top - t.bottom)) *
      (p.z ^ 2 * Real.cos (radians p.y)) * lon.2 * lat.2 * rad.2)).map
        fun s => (PointKernel.spherical kernel).eval q s.1 s.2).sum)), zero_add]
  · rw [map_flatMap', sum_flatMap]
  · intro r lat _
    rw [foldl_add_of g.rad _ (fun rad => ((g.lon.map fun lon =>
    let p : P3 := ⟨0.5 * (t.e - t.w) * lon.1 + 0.5 * (t.e + t.w),
      0.5 * (t.n - t.s) * lat.1 + 0.5 * (t.n + t.s),
      0.5 * (t.top - t.bottom) * rad.1 + 0.5 * (t.top + t.bottom)⟩
    (p, density p.z * (1 / 8 * radians (t.e - t.w) * radians (t.n - t.s) * (t.top - t.bottom)) *
      (p.z ^ 2 * Real.cos (radians p.y)) * lon.2 * lat.2 * rad.2)).map
        fun s => (PointKernel.spherical kernel).eval q s.1 s.2).sum)]
    · rw [map_flatMap', sum_flatMap]
    · intro r rad _
      rw [foldl_add_map]
      simp only [List.map_map]
      rfl

theorem glq_eq_variable (a b c d : ℝ) (t : Tess) (density : ℝ) (g : Glq) (kernel : SphKernel) :
    glq a b c d t density g kernel = glqVariable a b c d t (fun _ => density) g kernel := rfl

/-! ### tesseroid_gravity -/

/-- The pieces of a tesseroid for a computation point, or the exception. -/
noncomputable def tessPieces (P : AParams) (t : Tess) : Py (List Tess) :=
  match adList P (adaptiveFuel P.stackSize P.smallSize) [t] [] with
  | some r => r
  | none => .error .AttributeError

theorem tessPieces_spec (P : AParams) (hP : 1 ≤ P.stackSize) (t : Tess) :
    adList P (adaptiveFuel P.stackSize P.smallSize) [t] [] = some (tessPieces P t) := by
  have := adList_terminates P (adaptiveFuel P.stackSize P.smallSize) [t] [] (by simpa using hP)
    (by simp) (by
      unfold adaptiveFuel
      simp only [List.length_nil, List.length_singleton, Nat.sub_zero]
      rw [Nat.add_mul]
      omega)
  unfold tessPieces
  cases h : adList P (adaptiveFuel P.stackSize P.smallSize) [t] [] with
  | none => exact absurd h this
  | some r => rfl

theorem adaptive_cases (P : AParams) (hP : 1 ≤ P.stackSize) (stack0 small0 : ℕ → Tess) (t : Tess) :
    (∃ n small, adaptive P stack0 small0 (adaptiveFuel P.stackSize P.smallSize) t
        = some (.ok n small) ∧ tessPieces P t = .ok (prefixList small n)) ∨
    (∃ e, adaptive P stack0 small0 (adaptiveFuel P.stackSize P.smallSize) t = some (.raised e) ∧
      tessPieces P t = .error e) := by
  have h := adaptive_eq P hP stack0 small0 (adaptiveFuel P.stackSize P.smallSize) t
  rw [tessPieces_spec P hP t] at h
  cases ha : adaptive P stack0 small0 (adaptiveFuel P.stackSize P.smallSize) t with
  | none => rw [ha] at h; simp at h
  | some r =>
    rw [ha] at h
    cases r with
    | ok n small => left; exact ⟨n, small, rfl, by simpa [Halt.toPy] using h.1.symm⟩
    | raised e => right; exact ⟨e, rfl, by simpa [Halt.toPy] using h.1.symm⟩
    | fault => exact absurd rfl h.2

/-- values added for a list of tesseroids, on lists -/
noncomputable def listValues (P : AParams) (effect : ℕ → Tess → ℝ) : List (Tess × ℕ) → Py (List ℝ)
  | [] => .ok []
  | (t, j) :: ts =>
    match tessPieces P t with
    | .error e => .error e
    | .ok pieces =>
      match listValues P effect ts with
      | .error e => .error e
      | .ok rest => .ok (pieces.map (effect j) ++ rest)

theorem tessValues_eq (P : AParams) (hP : 1 ≤ P.stackSize) (effect : ℕ → Tess → ℝ)
    (ts : List (Tess × ℕ)) : ∀ stack small,
    tessValues P effect stack small ts = listValues P effect ts := by
  induction ts with
  | nil => intro stack small; rfl
  | cons a ts ih =>
    intro stack small
    obtain ⟨t, j⟩ := a
    unfold tessValues listValues
    rcases adaptive_cases P hP stack small t with ⟨n, small', h1, h2⟩ | ⟨e, h1, h2⟩
    · simp only [h1, h2, ih]
      cases listValues P effect ts with
      | error e => rfl
      | ok rest => simp [prefixList, Function.comp_def]
    · simp only [h1, h2]

theorem tessPieces_length (P : AParams) (hP : 1 ≤ P.stackSize) (t : Tess) (pieces : List Tess)
    (h : tessPieces P t = .ok pieces) : pieces.length ≤ P.smallSize := by
  have hs := tessPieces_spec P hP t
  rw [h] at hs
  have hF : ∀ t : Tess, ∀ a b c, True → divisions P t = .ok (a, b, c) → a * b * c > 1 →
      (∀ p ∈ splitPieces t a b c, True) ∧
        ((splitPieces t a b c).map (prodF (fun _ => 0) (fun _ => 0) (fun _ => 0))).sum
          = prodF (fun _ => 0) (fun _ => 0) (fun _ => 0) t := by
    intro t a b c _ hd _
    obtain ⟨h1, h2, h3, -⟩ := divisions_ok_pos hd
    exact ⟨fun _ _ => trivial, splitPieces_sum _ _ _ t a b c h1 h2 h3⟩
  exact (adList_invariant P (fun _ => True) _ hF _ _ _ _ (fun _ _ => trivial) (by simp) (by simp)
    hs).2.1

theorem listValues_ok (P : AParams) (hP : 1 ≤ P.stackSize) (effect : ℕ → Tess → ℝ)
    (ts : List (Tess × ℕ)) (pcs : Tess → List Tess) (h : ∀ s ∈ ts, tessPieces P s.1 = .ok (pcs s.1)) :
    listValues P effect ts = .ok (ts.flatMap fun s => (pcs s.1).map (effect s.2)) ∧
    (ts.flatMap fun s => (pcs s.1).map (effect s.2)).length ≤ P.smallSize * ts.length := by
  induction ts with
  | nil => exact ⟨rfl, by simp⟩
  | cons s ts ih =>
    obtain ⟨t, j⟩ := s
    obtain ⟨i1, i2⟩ := ih fun s hs => h s (by simp [hs])
    have h0 := h (t, j) (by simp)
    simp only at h0
    have hl := tessPieces_length P hP t _ h0
    constructor
    · unfold listValues
      rw [h0, i1]; simp
    · simp only [List.flatMap_cons, List.length_append, List.length_map, List.length_cons,
        Nat.mul_add, Nat.mul_one]
      omega

theorem listValues_error (P : AParams) (effect : ℕ → Tess → ℝ) (ts : List (Tess × ℕ)) (e : PyErr)
    (h : listValues P effect ts = .error e) : ∃ s ∈ ts, tessPieces P s.1 = .error e := by
  induction ts with
  | nil => simp [listValues] at h
  | cons s ts ih =>
    obtain ⟨t, j⟩ := s
    unfold listValues at h
    cases h0 : tessPieces P t with
    | error e' =>
      rw [h0] at h; simp at h; subst h
      exact ⟨(t, j), List.mem_cons_self, h0⟩
    | ok p =>
      rw [h0] at h
      cases h1 : listValues P effect ts with
      | error e' =>
        rw [h1] at h; simp at h; subst h
        obtain ⟨s, hs, hh⟩ := ih h1
        exact ⟨s, List.mem_cons_of_mem _ hs, hh⟩
      | ok r => rw [h1] at h; simp at h

theorem listValues_is_error (P : AParams) (effect : ℕ → Tess → ℝ) (ts : List (Tess × ℕ))
    (s : Tess × ℕ) (hs : s ∈ ts) (e : PyErr) (h : tessPieces P s.1 = .error e) :
    ∃ e', listValues P effect ts = .error e' := by
  induction ts with
  | nil => simp at hs
  | cons a ts ih =>
    obtain ⟨t, j⟩ := a
    unfold listValues
    cases h0 : tessPieces P t with
    | error e' => exact ⟨e', rfl⟩
    | ok p =>
      rcases List.mem_cons.1 hs with rfl | hs
      · rw [h] at h0; simp at h0
      · obtain ⟨e', he⟩ := ih hs
        exact ⟨e', by rw [he]⟩

theorem firstError_ok (vals : ℕ → Py (List ℝ)) (l : List ℕ) (h : ∀ i ∈ l, ∃ v, vals i = .ok v) :
    firstError vals l = .ok () := by
  induction l with
  | nil => rfl
  | cons i l ih =>
    obtain ⟨v, hv⟩ := h i (by simp)
    unfold firstError
    rw [hv]
    exact ih fun j hj => h j (by simp [hj])

theorem firstError_error (vals : ℕ → Py (List ℝ)) (l : List ℕ) (i : ℕ) (hi : i ∈ l) (e : PyErr)
    (h : vals i = .error e) : ∃ j ∈ l, ∃ e', vals j = .error e' ∧ firstError vals l = .error e' := by
  induction l with
  | nil => simp at hi
  | cons k l ih =>
    unfold firstError
    cases hk : vals k with
    | error e' => exact ⟨k, by simp, e', hk, rfl⟩
    | ok v =>
      rcases List.mem_cons.1 hi with rfl | hi
      · rw [h] at hk; simp at hk
      · obtain ⟨j, hj, e', h1, h2⟩ := ih hi
        exact ⟨j, by simp [hj], e', h1, h2⟩

/-- parameters of the adaptive discretization used by `tesseroid_gravity` -/
noncomputable def tessParams (field : String) (radial : Bool) (q : P3) : AParams :=
  ⟨q, distanceSizeRatio field, STACK_SIZE, MAX_DISCRETIZATIONS, radial⟩

/-- the body of `compute` -/
noncomputable def tessCompute (junk : Junk) (mode : Mode) (stack0 small0 : ℕ → Tess)
    (lon lat rad : List ℝ) (shape : List ℕ) (field : String) (radial : Bool) (ts : List Tess)
    (quad : ℝ → ℝ → ℝ → ℝ → ℕ → Tess → ℝ) : Py NdArray := do
  let vals := fun i =>
    let lonr := radians (rd junk "longitude" lon i)
    let latr := radians (rd junk "latitude" lat i)
    let r := rd junk "radius" rad i
    tessValues
      ⟨⟨rd junk "longitude" lon i, rd junk "latitude" lat i, r⟩,
        distanceSizeRatio field, STACK_SIZE, MAX_DISCRETIZATIONS, radial⟩
      (quad lonr (Real.cos latr) (Real.sin latr) r) stack0 small0 ts.zipIdx
  firstError vals (Mode.order lon.length mode)
  let out := run mode lon.length (fun i => (okValues vals i).flatMap (accum i)) 0 (fun _ => 0)
  let result := (List.range shape.prod).map out
  let result := scaleIf field ["g_z"] (-1) result
  let result := scaleIf field ["g_z"] 1e5 result
  return ⟨shape, result⟩

theorem zipIdx_flatMap_map {α β γ : Type} (l : List α) (f : α → β) (g : β × ℕ → List γ)
    (F : α → List γ) (h : ∀ i (hi : i < l.length), g (f l[i], i) = F l[i]) :
    (l.map f).zipIdx.flatMap g = l.flatMap F := by
  rw [List.flatMap_def, List.flatMap_def, zipIdx_map_eq l f g F h]

theorem order_mem {n k i : ℕ} {mode : Mode} (hm : mode.Full n k) (hi : i ∈ Mode.order n mode) :
    i < n := by
  cases mode with
  | serial => simpa [Mode.order] using hi
  | parallel sched =>
    simp only [Mode.order, List.mem_append, List.mem_range] at hi
    rcases hi with hi | hi
    · exact hm.1 i hi
    · exact hi

theorem mem_order {n i : ℕ} (mode : Mode) (hi : i < n) : i ∈ Mode.order n mode := by
  cases mode <;> simp [Mode.order, hi]

/-- The computation on well-formed inputs when no discretization overflows. -/
theorem tessCompute_ok {S : Type} (junk : Junk) (mode : Mode) (stack0 small0 : ℕ → Tess)
    (obs : List P3) (shape : List ℕ) (hshape : shape.prod = obs.length) (field : String)
    (radial : Bool) (srcs : List S) (tess : S → Tess) (k : ℕ)
    (hk : 2 * (MAX_DISCRETIZATIONS * srcs.length) ≤ k)
    (hm : mode.Full obs.length k)
    (quad : ℝ → ℝ → ℝ → ℝ → ℕ → Tess → ℝ) (eff : P3 → S → Tess → ℝ)
    (heff : ∀ q j (hj : j < srcs.length) t,
      quad (radians q.x) (Real.cos (radians q.y)) (Real.sin (radians q.y)) q.z j t = eff q srcs[j] t)
    (pcs : P3 → Tess → List Tess)
    (hp : ∀ q ∈ obs, ∀ s ∈ srcs, tessPieces (tessParams field radial q) (tess s) =
      .ok (pcs q (tess s))) :
    tessCompute junk mode stack0 small0 (obs.map (·.x)) (obs.map (·.y)) (obs.map (·.z)) shape field
        radial (srcs.map tess) quad =
      .ok ⟨shape, scaleIf field ["g_z"] 1e5 (scaleIf field ["g_z"] (-1)
        (obs.map (total (fun q s => ((pcs q (tess s)).map (eff q s)).sum) srcs)))⟩ := by
  unfold tessCompute
  simp only [List.length_map]
  set vals := fun i : ℕ => tessValues
      ⟨⟨rd junk "longitude" (obs.map (·.x)) i, rd junk "latitude" (obs.map (·.y)) i,
        rd junk "radius" (obs.map (·.z)) i⟩,
        distanceSizeRatio field, STACK_SIZE, MAX_DISCRETIZATIONS, radial⟩
      (quad (radians (rd junk "longitude" (obs.map (·.x)) i))
        (Real.cos (radians (rd junk "latitude" (obs.map (·.y)) i)))
        (Real.sin (radians (rd junk "latitude" (obs.map (·.y)) i)))
        (rd junk "radius" (obs.map (·.z)) i)) stack0 small0 (srcs.map tess).zipIdx with hvals
  have hval : ∀ i (hi : i < obs.length), vals i = .ok (srcs.flatMap fun s =>
      (pcs obs[i] (tess s)).map (eff obs[i] s)) ∧
      (srcs.flatMap fun s => (pcs obs[i] (tess s)).map (eff obs[i] s)).length ≤
        MAX_DISCRETIZATIONS * srcs.length := by
    intro i hi
    rw [hvals]
    simp only [rd_map junk _ _ obs i hi]
    rw [tessValues_eq _ (by show 1 ≤ STACK_SIZE; unfold STACK_SIZE; omega)]
    have := listValues_ok (tessParams field radial obs[i])
      (by show 1 ≤ STACK_SIZE; unfold STACK_SIZE; omega)
      (quad (radians obs[i].x) (Real.cos (radians obs[i].y)) (Real.sin (radians obs[i].y)) obs[i].z)
      (srcs.map tess).zipIdx (pcs obs[i]) (by
        intro s hs
        have : s.1 ∈ srcs.map tess := by
          have := List.mem_map_of_mem (f := Prod.fst) hs
          rwa [List.zipIdx_map_fst] at this
        obtain ⟨s', hs', he⟩ := List.mem_map.1 this
        rw [← he]
        exact hp _ (List.getElem_mem hi) _ hs')
    rw [zipIdx_flatMap_map srcs tess _ (fun s => (pcs obs[i] (tess s)).map (eff obs[i] s))
      (by
        intro j hj
        apply List.map_congr_left
        intro t _
        exact heff _ _ hj t)] at this
    simp only [List.length_zipIdx, List.length_map] at this
    exact this
  rw [firstError_ok vals _ (fun i hi => ⟨_, (hval i (order_mem hm hi)).1⟩)]
  simp only [Py.bind_ok, Py.pure_eq, hshape]
  congr 1
  have := accum_result obs k (okValues vals) mode hm (by
      intro i hi
      unfold okValues
      rw [(hval i hi).1]
      have := (hval i hi).2
      simp only
      omega)
    (total (fun q s => ((pcs q (tess s)).map (eff q s)).sum) srcs) (by
      intro i hi
      unfold okValues
      rw [(hval i hi).1]
      simp only [total]
      rw [sum_flatMap])
  rw [this]

/-- The computation on well-formed inputs when some discretization fails. -/
theorem tessCompute_error {S : Type} (junk : Junk) (mode : Mode) (stack0 small0 : ℕ → Tess)
    (obs : List P3) (shape : List ℕ) (field : String)
    (radial : Bool) (srcs : List S) (tess : S → Tess) (k : ℕ)
    (hm : mode.Full obs.length k)
    (quad : ℝ → ℝ → ℝ → ℝ → ℕ → Tess → ℝ)
    (q : P3) (hq : q ∈ obs) (s : S) (hs : s ∈ srcs) (e : PyErr)
    (he : tessPieces (tessParams field radial q) (tess s) = .error e) :
    ∃ q' ∈ obs, ∃ s' ∈ srcs, ∃ e', tessPieces (tessParams field radial q') (tess s') = .error e' ∧
    tessCompute junk mode stack0 small0 (obs.map (·.x)) (obs.map (·.y)) (obs.map (·.z)) shape field
        radial (srcs.map tess) quad = .error e' := by
  unfold tessCompute
  simp only [List.length_map]
  set vals := fun i : ℕ => tessValues
      ⟨⟨rd junk "longitude" (obs.map (·.x)) i, rd junk "latitude" (obs.map (·.y)) i,
        rd junk "radius" (obs.map (·.z)) i⟩,
        distanceSizeRatio field, STACK_SIZE, MAX_DISCRETIZATIONS, radial⟩
      (quad (radians (rd junk "longitude" (obs.map (·.x)) i))
        (Real.cos (radians (rd junk "latitude" (obs.map (·.y)) i)))
        (Real.sin (radians (rd junk "latitude" (obs.map (·.y)) i)))
        (rd junk "radius" (obs.map (·.z)) i)) stack0 small0 (srcs.map tess).zipIdx with hvals
  have hv : ∀ i (hi : i < obs.length), vals i = listValues (tessParams field radial obs[i])
      (quad (radians obs[i].x) (Real.cos (radians obs[i].y)) (Real.sin (radians obs[i].y)) obs[i].z)
      (srcs.map tess).zipIdx := by
    intro i hi
    rw [hvals]
    simp only [rd_map junk _ _ obs i hi]
    rw [tessValues_eq _ (by show 1 ≤ STACK_SIZE; unfold STACK_SIZE; omega)]
    rfl
  obtain ⟨i, hi, rfl⟩ := List.getElem_of_mem hq
  obtain ⟨j, hj, rfl⟩ := List.getElem_of_mem hs
  obtain ⟨e1, h1⟩ := listValues_is_error (tessParams field radial obs[i])
    (quad (radians obs[i].x) (Real.cos (radians obs[i].y)) (Real.sin (radians obs[i].y)) obs[i].z)
    (srcs.map tess).zipIdx (tess srcs[j], j) (by
      rw [List.mem_zipIdx_iff_getElem?]; simp [hj]) e he
  obtain ⟨i', hi', e', h2, h3⟩ := firstError_error vals _ i (mem_order mode hi) e1
    (by rw [hv i hi, h1])
  have hi'' := order_mem hm hi'
  rw [hv i' hi''] at h2
  obtain ⟨s', hs', h4⟩ := listValues_error _ _ _ _ h2
  have : s'.1 ∈ srcs.map tess := by
    have := List.mem_map_of_mem (f := Prod.fst) hs'
    rwa [List.zipIdx_map_fst] at this
  obtain ⟨s'', hs'', he''⟩ := List.mem_map.1 this
  refine ⟨obs[i'], List.getElem_mem hi'', s'', hs'', e', by rw [he'']; exact h4, ?_⟩
  rw [h3]
  rfl

end Verif.Tesseroid
