import Verif.Igrf.Spec
import Verif.Legendre.Props
import Mathlib.Topology.Algebra.Order.Group
import Mathlib.Topology.Instances.Real.Lemmas

/-! Helper lemmas for C56: the interpolation. -/

namespace Verif.Igrf

open Verif.Legendre

noncomputable section

theorem daysBefore_lt_succ (y : ℤ) : daysBefore y < daysBefore (y + 1) := by
  unfold daysBefore
  omega

theorem daysBefore_strictMono : StrictMono daysBefore :=
  strictMono_int_of_lt_succ daysBefore_lt_succ

theorem jan1_lt {y y' : ℤ} : jan1 y < jan1 y' ↔ y < y' := by
  unfold jan1
  constructor
  · intro h
    have : (daysBefore y : ℝ) < daysBefore y' := by linarith
    exact daysBefore_strictMono.lt_iff_lt.1 (by exact_mod_cast this)
  · intro h
    have := daysBefore_strictMono h
    have : (daysBefore y : ℝ) < daysBefore y' := by exact_mod_cast this
    linarith

theorem jan1_le {y y' : ℤ} : jan1 y ≤ jan1 y' ↔ y ≤ y' := by
  rw [← not_lt, jan1_lt, not_lt]

theorem year_of_time {d : Date} (hd : d.Valid) {y : ℤ} : jan1 y ≤ d.time ↔ y ≤ d.year := by
  obtain ⟨h0, h1⟩ := hd
  constructor
  · intro h
    have := jan1_lt.1 (lt_of_le_of_lt h h1)
    omega
  · intro h
    have := jan1_le.2 h
    unfold Date.time
    linarith

theorem interpolateLoop_values (N index size : ℕ) (since epoch ys : ℝ) (T : Table) :
    HasValues (interpolateLoop N index size since epoch ys T).1
      (interpolateLoop N index size since epoch ys T).2 N
      (fun n m => T.g index n m + since * (if index + 1 ≥ size then T.g_sv n m / ys
        else (T.g (index + 1) n m - T.g index n m) / epoch))
      (fun n m => T.h index n m + since * (if index + 1 ≥ size then T.h_sv n m / ys
        else (T.h (index + 1) n m - T.h index n m) / epoch)) := by
  set vg : Arr := fun n m => T.g index n m + since * (if index + 1 ≥ size then T.g_sv n m / ys
        else (T.g (index + 1) n m - T.g index n m) / epoch) with hvg
  set vh : Arr := fun n m => T.h index n m + since * (if index + 1 ≥ size then T.h_sv n m / ys
        else (T.h (index + 1) n m - T.h index n m) / epoch) with hvh
  have key : ∀ S : ℕ → ℕ → Prop, (∀ i j, S i j ↔ (1 ≤ i ∧ i ≤ N ∧ j ≤ i)) → ∀ r : Arr × Arr,
      (Filled vg (fun _ _ => 0) S r.1 ∧ Filled vh (fun _ _ => 0) S r.2) → HasValues r.1 r.2 N vg vh := by
    intro S hS r hr n m
    exact ⟨fun h1 h2 h3 => ⟨(hr.1 n m).1 ((hS n m).2 ⟨h1, h2, h3⟩), (hr.2 n m).1 ((hS n m).2 ⟨h1, h2, h3⟩)⟩,
      fun h => ⟨(hr.1 n m).2 (fun s => h ((hS n m).1 s)), (hr.2 n m).2 (fun s => h ((hS n m).1 s))⟩⟩
  refine key (fun i j => 1 ≤ i ∧ i < N + 1 ∧ j ≤ i) (fun i j => by omega) _ ?_
  unfold interpolateLoop
  refine forRange_inv (fun (s : Arr × Arr) n => forRange 0 (n + 1) s fun s m =>
      (upd s.1 n m (T.g index n m + since * (if index + 1 ≥ size then T.g_sv n m / ys
        else (T.g (index + 1) n m - T.g index n m) / epoch)),
       upd s.2 n m (T.h index n m + since * (if index + 1 ≥ size then T.h_sv n m / ys
        else (T.h (index + 1) n m - T.h index n m) / epoch))))
    (fun n r => Filled vg (fun _ _ => 0) (fun i j => 1 ≤ i ∧ i < n ∧ j ≤ i) r.1 ∧
      Filled vh (fun _ _ => 0) (fun i j => 1 ≤ i ∧ i < n ∧ j ≤ i) r.2) 1 (N + 1) _ (by omega) ?_ ?_
  · exact ⟨Filled.start _ _ _ (fun i j => by omega), Filled.start _ _ _ (fun i j => by omega)⟩
  · intro n s hn _ hs
    have := forRange_inv (fun (s : Arr × Arr) m =>
      (upd s.1 n m (T.g index n m + since * (if index + 1 ≥ size then T.g_sv n m / ys
        else (T.g (index + 1) n m - T.g index n m) / epoch)),
       upd s.2 n m (T.h index n m + since * (if index + 1 ≥ size then T.h_sv n m / ys
        else (T.h (index + 1) n m - T.h index n m) / epoch))))
      (fun m r => Filled vg (fun _ _ => 0) (fun i j => (1 ≤ i ∧ i < n ∧ j ≤ i) ∨ (i = n ∧ j < m)) r.1 ∧
        Filled vh (fun _ _ => 0) (fun i j => (1 ≤ i ∧ i < n ∧ j ≤ i) ∨ (i = n ∧ j < m)) r.2) 0 (n + 1) s
      (by omega) ⟨hs.1.mono (fun i j => by omega), hs.2.mono (fun i j => by omega)⟩ (by
        intro m r _ _ hr
        exact ⟨hr.1.upd rfl (fun i j => by omega), hr.2.upd rfl (fun i j => by omega)⟩)
    exact ⟨this.1.mono (fun i j => by omega), this.2.mono (fun i j => by omega)⟩

variable {T : Table} {y0 : ℤ} {K : ℕ}

theorem regular_item (hT : T.Regular y0 K) {i : ℕ} (hi : i < K) : T.years[i]? = some (y0 + 5 * (i : ℤ)) := by
  rw [hT.years]
  simp [hi]

theorem regular_head (hT : T.Regular y0 K) : T.years.head? = some y0 := by
  have := regular_item hT (i := 0) hT.nonempty
  rw [List.head?_eq_getElem?, this]
  simp

theorem regular_length (hT : T.Regular y0 K) : T.years.length = K := by rw [hT.years]; simp

theorem regular_last (hT : T.Regular y0 K) : T.years.getLast? = some (y0 + 5 * (K : ℤ) - 5) := by
  have h := hT.nonempty
  rw [List.getLast?_eq_getElem?, regular_length hT, regular_item hT (by omega)]
  congr 1
  omega

/-- The result in general. -/
theorem interpolate_eq (hT : T.Regular y0 K) (date : Date) (hd : date.Valid) (hz : date.aware = false)
    (N : ℕ) (hN : N ≤ 13) (i : ℕ) (hi : i < K) (h0 : epochTime y0 i ≤ date.time)
    (h1 : date.time < epochTime y0 (i + 1)) :
    interpolateCoefficients date N T = .ok (interpolateLoop N i K (date.time - epochTime y0 i)
      (epochTime y0 (i + 1) - epochTime y0 i) (365.25 * 24 * 60 * 60) T) := by
  have hy0 := (year_of_time hd).1 h0
  have hy1 : date.year < y0 + 5 * ((i : ℤ) + 1) := by
    by_contra hc
    have := (year_of_time hd (y := y0 + 5 * ((i : ℤ) + 1))).2 (by omega)
    unfold epochTime at h1
    push_cast at h1
    linarith
  have hidx : ((date.year - y0) / 5).toNat = i := by omega
  have hl := hT.last
  have hf := hT.first
  unfold interpolateCoefficients
  rw [regular_head hT, regular_last hT]
  simp only [item, Py.bind_ok]
  unfold checkDate
  rw [if_neg (by omega), Py.bind_ok, hidx, regular_item hT hi]
  simp only [Py.bind_ok]
  unfold newYear
  rw [if_pos (by omega), Py.bind_ok]
  unfold Date.sub
  rw [hz, if_neg (by simp), Py.bind_ok, if_pos (by omega), Py.bind_ok]
  unfold checkDegree tableDegree
  rw [if_neg (by omega), Py.bind_ok, Py.pure_eq, regular_length hT]
  have : y0 + 5 * (i : ℤ) + 5 = y0 + 5 * ((i + 1 : ℕ) : ℤ) := by push_cast; ring
  unfold epochTime
  rw [this]

/-- Every time in the range has its epoch. -/
theorem exists_epoch (hK : 1 ≤ K) (date : Date) (h0 : epochTime y0 0 ≤ date.time)
    (h1 : date.time < epochTime y0 K) :
    ∃ i < K, epochTime y0 i ≤ date.time ∧ date.time < epochTime y0 (i + 1) := by
  induction K with
  | zero => omega
  | succ k ih =>
    by_cases h : epochTime y0 k ≤ date.time
    · exact ⟨k, by omega, h, h1⟩
    · push Not at h
      by_cases hk : 1 ≤ k
      · obtain ⟨i, hi, a, b⟩ := ih hk h
        exact ⟨i, by omega, a, b⟩
      · have : k = 0 := by omega
        subst this
        linarith

theorem epochTime_lt (y0 : ℤ) {i j : ℕ} (h : i < j) : epochTime y0 i < epochTime y0 j := by
  unfold epochTime
  rw [jan1_lt]
  omega

theorem epochTime_le (y0 : ℤ) {i j : ℕ} (h : i ≤ j) : epochTime y0 i ≤ epochTime y0 j := by
  rcases h.lt_or_eq with h | h
  · exact (epochTime_lt y0 h).le
  · rw [h]

/-- The piecewise linear function with these values at the epochs, and a slope after the last. -/
def piecewise (y0 : ℤ) (K : ℕ) (c : ℕ → ℝ) (slope : ℝ) (t : ℝ) : ℝ :=
  c 0 + (∑ i ∈ Finset.range (K - 1), (c (i + 1) - c i) / (epochTime y0 (i + 1) - epochTime y0 i) *
    max 0 (min (t - epochTime y0 i) (epochTime y0 (i + 1) - epochTime y0 i))) +
    slope * max 0 (t - epochTime y0 (K - 1))

theorem piecewise_continuous (y0 : ℤ) (K : ℕ) (c : ℕ → ℝ) (slope : ℝ) :
    Continuous (piecewise y0 K c slope) := by
  unfold piecewise
  fun_prop

theorem piecewise_sum (y0 : ℤ) (c : ℕ → ℝ) (t : ℝ) (i : ℕ) (h0 : epochTime y0 i ≤ t)
    (h1 : t < epochTime y0 (i + 1)) : ∀ k,
    (∑ j ∈ Finset.range k, (c (j + 1) - c j) / (epochTime y0 (j + 1) - epochTime y0 j) *
    max 0 (min (t - epochTime y0 j) (epochTime y0 (j + 1) - epochTime y0 j))) =
    (if i < k then c i - c 0 + (c (i + 1) - c i) / (epochTime y0 (i + 1) - epochTime y0 i) *
      (t - epochTime y0 i) else c k - c 0) := by
  intro k
  induction k with
  | zero => simp
  | succ k ih =>
    rw [Finset.sum_range_succ, ih]
    have hpos : 0 < epochTime y0 (k + 1) - epochTime y0 k := by
      have := epochTime_lt y0 (Nat.lt_succ_self k)
      exact sub_pos.2 this
    rcases lt_trichotomy i k with h | h | h
    · rw [if_pos h, if_pos (by omega)]
      have : t ≤ epochTime y0 k := h1.le.trans (epochTime_le y0 h)
      rw [max_eq_left ((min_le_left _ _).trans (by linarith))]
      ring
    · subst h
      rw [if_neg (by omega), if_pos (by omega), min_eq_left (by linarith), max_eq_right (by linarith)]
    · rw [if_neg (by omega), if_neg (by omega)]
      have : epochTime y0 (k + 1) ≤ t := (epochTime_le y0 h).trans h0
      rw [min_eq_right (by linarith), max_eq_right hpos.le, div_mul_cancel₀ _ hpos.ne']
      ring

theorem piecewise_eq (y0 : ℤ) (K : ℕ) (c : ℕ → ℝ) (slope t : ℝ) (i : ℕ) (hi : i < K)
    (h0 : epochTime y0 i ≤ t) (h1 : t < epochTime y0 (i + 1)) :
    piecewise y0 K c slope t = c i + (t - epochTime y0 i) * (if i + 1 ≥ K then slope
      else (c (i + 1) - c i) / (epochTime y0 (i + 1) - epochTime y0 i)) := by
  unfold piecewise
  rw [piecewise_sum y0 c t i h0 h1]
  by_cases h : i < K - 1
  · rw [if_pos h, if_neg (by omega)]
    have : t ≤ epochTime y0 (K - 1) := h1.le.trans (epochTime_le y0 h)
    rw [max_eq_left (by linarith)]
    ring
  · have : i = K - 1 := by omega
    subst this
    rw [if_neg h, if_pos (by omega), max_eq_right (by linarith)]
    ring

theorem yearSeconds_eq : (365.25 * 24 * 60 * 60 : ℝ) = yearSeconds := by
  unfold yearSeconds
  norm_num

end

end Verif.Igrf
