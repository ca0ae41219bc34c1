import Verif.Igrf.LemmasC

/-!
C56-C59, C73 and C01 for the IGRF.
-/

namespace Verif.Igrf

open Verif.Legendre Verif.Engine

noncomputable section

variable {T : Table} {y0 : ℤ} {K : ℕ}

/-! ### C56 -/

theorem interpolate_spec (hT : T.Regular y0 K) (date : Date) (hd : date.Valid) (hz : date.aware = false)
    (N : ℕ) (hN : N ≤ 13) (i : ℕ) (hi : i < K) (h0 : epochTime y0 i ≤ date.time)
    (h1 : date.time < epochTime y0 (i + 1)) :
    ∃ G H, interpolateCoefficients date N T = .ok (G, H) ∧ HasValues G H N
      (fun n m => T.g i n m + (date.time - epochTime y0 i) * (if i + 1 ≥ K then T.g_sv n m / yearSeconds
        else (T.g (i + 1) n m - T.g i n m) / (epochTime y0 (i + 1) - epochTime y0 i)))
      (fun n m => T.h i n m + (date.time - epochTime y0 i) * (if i + 1 ≥ K then T.h_sv n m / yearSeconds
        else (T.h (i + 1) n m - T.h i n m) / (epochTime y0 (i + 1) - epochTime y0 i))) := by
  rw [interpolate_eq hT date hd hz N hN i hi h0 h1, yearSeconds_eq]
  exact ⟨_, _, rfl, interpolateLoop_values _ _ _ _ _ _ _⟩

theorem HasValues.congr {G H vg vh vg' vh' : Arr} {N : ℕ} (h : HasValues G H N vg vh)
    (hg : ∀ n m, vg n m = vg' n m) (hh : ∀ n m, vh n m = vh' n m) : HasValues G H N vg' vh' := by
  intro n m
  rw [← hg, ← hh]
  exact h n m

/-- C56, time axis. The first of January of the year 1 is the origin, and a year lasts 365 days, or 366 if
it is divisible by 4 and not by 100, or divisible by 400. -/
theorem C56_calendar (y : ℤ) : jan1 1 = 0 ∧ jan1 (y + 1) - jan1 y =
    86400 * (if (4 ∣ y ∧ ¬ 100 ∣ y) ∨ 400 ∣ y then 366 else 365) := by
  refine ⟨by simp [jan1, daysBefore], ?_⟩
  have h : daysBefore (y + 1) - daysBefore y =
      if (4 ∣ y ∧ ¬ 100 ∣ y) ∨ 400 ∣ y then 366 else 365 := by
    unfold daysBefore
    split_ifs with h <;> omega
  unfold jan1
  rw [← mul_sub]
  congr 1
  have h2 : ((daysBefore (y + 1) - daysBefore y : ℤ) : ℝ) =
      ((if (4 ∣ y ∧ ¬ 100 ∣ y) ∨ 400 ∣ y then 366 else 365 : ℤ) : ℝ) := by rw [h]
  push_cast at h2
  rw [h2]

/-- 2000 is a leap year and 1900 is not. -/
example : jan1 2001 - jan1 2000 = 86400 * 366 ∧ jan1 1901 - jan1 1900 = 86400 * 365 :=
  ⟨by have := (C56_calendar 2000).2; norm_num at this ⊢; exact this,
   by have := (C56_calendar 1900).2; norm_num at this ⊢; exact this⟩

/-- C56. At the start of the year of an epoch the coefficients are those of the table. -/
theorem C56_epoch (hT : T.Regular y0 K) (i : ℕ) (hi : i < K) (N : ℕ) (hN : N ≤ 13) :
    ∃ G H, interpolateCoefficients { year := y0 + 5 * (i : ℤ), seconds := 0, aware := false } N T = .ok (G, H) ∧
      HasValues G H N (T.g i) (T.h i) := by
  set d : Date := { year := y0 + 5 * (i : ℤ), seconds := 0, aware := false } with hd
  have ht : d.time = epochTime y0 i := by simp [d, Date.time, epochTime]
  have hv : d.Valid := ⟨le_rfl, by rw [ht]; unfold epochTime; rw [jan1_lt]; simp [d]⟩
  obtain ⟨G, H, h, v⟩ := interpolate_spec hT d hv rfl N hN i hi ht.ge (ht ▸ epochTime_lt y0 (Nat.lt_succ_self i))
  refine ⟨G, H, h, v.congr ?_ ?_⟩ <;> (intro n m; rw [ht, sub_self, zero_mul, add_zero])

/-- C56. Between two epochs: linear interpolation, with the fraction of time elapsed. -/
theorem C56_between (hT : T.Regular y0 K) (date : Date) (hd : date.Valid) (hz : date.aware = false)
    (N : ℕ) (hN : N ≤ 13) (i : ℕ) (hi : i + 1 < K) (h0 : epochTime y0 i ≤ date.time)
    (h1 : date.time < epochTime y0 (i + 1)) :
    ∃ G H s, interpolateCoefficients date N T = .ok (G, H) ∧
      s = (date.time - epochTime y0 i) / (epochTime y0 (i + 1) - epochTime y0 i) ∧ 0 ≤ s ∧ s < 1 ∧
      HasValues G H N (fun n m => lerp (T.g i n m) (T.g (i + 1) n m) s)
        (fun n m => lerp (T.h i n m) (T.h (i + 1) n m) s) := by
  have hpos : 0 < epochTime y0 (i + 1) - epochTime y0 i := sub_pos.2 (epochTime_lt y0 (Nat.lt_succ_self i))
  obtain ⟨G, H, h, v⟩ := interpolate_spec hT date hd hz N hN i (by omega) h0 h1
  refine ⟨G, H, _, h, rfl, div_nonneg (by linarith) hpos.le, (div_lt_one hpos).2 (by linarith), v.congr ?_ ?_⟩ <;>
    (intro n m; rw [if_neg (show ¬ (i + 1 ≥ K) by omega)]; unfold lerp; field_simp; ring)

/-- C56. After the last epoch: the secular variation, per year of 365.25 days. -/
theorem C56_secular_variation (hT : T.Regular y0 K) (date : Date) (hd : date.Valid) (hz : date.aware = false)
    (N : ℕ) (hN : N ≤ 13) (h0 : epochTime y0 (K - 1) ≤ date.time) (h1 : date.time < epochTime y0 K) :
    ∃ G H, interpolateCoefficients date N T = .ok (G, H) ∧
      HasValues G H N
        (fun n m => T.g (K - 1) n m + (date.time - epochTime y0 (K - 1)) / yearSeconds * T.g_sv n m)
        (fun n m => T.h (K - 1) n m + (date.time - epochTime y0 (K - 1)) / yearSeconds * T.h_sv n m) := by
  have hK := hT.nonempty
  obtain ⟨G, H, h, v⟩ := interpolate_spec hT date hd hz N hN (K - 1) (by omega) h0
    (by rwa [show K - 1 + 1 = K by omega])
  refine ⟨G, H, h, v.congr ?_ ?_⟩ <;>
    (intro n m; rw [if_pos (show K - 1 + 1 ≥ K by omega)]; ring)

/-- C56. The coefficients are continuous functions of time in the whole range. -/
theorem C56_continuous (hT : T.Regular y0 K) (N : ℕ) (hN : N ≤ 13) :
    ∃ G H : ℕ → ℕ → ℝ → ℝ, (∀ n m, Continuous (G n m) ∧ Continuous (H n m)) ∧
      ∀ date : Date, date.Valid → date.aware = false → epochTime y0 0 ≤ date.time →
        date.time < epochTime y0 K →
        ∃ G' H', interpolateCoefficients date N T = .ok (G', H') ∧
          ∀ n m, G' n m = G n m date.time ∧ H' n m = H n m date.time := by
  classical
  refine ⟨fun n m t => if 1 ≤ n ∧ n ≤ N ∧ m ≤ n then
      piecewise y0 K (fun i => T.g i n m) (T.g_sv n m / yearSeconds) t else 0,
    fun n m t => if 1 ≤ n ∧ n ≤ N ∧ m ≤ n then
      piecewise y0 K (fun i => T.h i n m) (T.h_sv n m / yearSeconds) t else 0, ?_, ?_⟩
  · intro n m
    by_cases h : 1 ≤ n ∧ n ≤ N ∧ m ≤ n
    · simp only [if_pos h]
      exact ⟨piecewise_continuous _ _ _ _, piecewise_continuous _ _ _ _⟩
    · simp only [if_neg h]
      exact ⟨continuous_const, continuous_const⟩
  · intro date hd hz h0 h1
    obtain ⟨i, hi, ha, hb⟩ := exists_epoch hT.nonempty date h0 h1
    obtain ⟨G', H', e, v⟩ := interpolate_spec hT date hd hz N hN i hi ha hb
    refine ⟨G', H', e, fun n m => ?_⟩
    have := v n m
    dsimp only
    by_cases h : 1 ≤ n ∧ n ≤ N ∧ m ≤ n
    · rw [if_pos h, if_pos h, piecewise_eq y0 K _ _ _ i hi ha hb, piecewise_eq y0 K _ _ _ i hi ha hb]
      exact this.1 h.1 h.2.1 h.2.2
    · rw [if_neg h, if_neg h]
      exact this.2 h

/-- C56. Dates outside the range raise ValueError (with or without time zone, for any degree). -/
theorem C56_out_of_range (hT : T.Regular y0 K) (date : Date) (hd : date.Valid) (N : ℕ)
    (h : date.time < epochTime y0 0 ∨ epochTime y0 K ≤ date.time) :
    interpolateCoefficients date N T = .error .ValueError := by
  have hy : date.year < y0 ∨ date.year ≥ y0 + 5 * (K : ℤ) := by
    rcases h with h | h
    · left
      by_contra hc
      have := (year_of_time hd (y := y0)).2 (by omega)
      unfold epochTime at h
      simp only [Nat.cast_zero, mul_zero, add_zero] at h
      linarith
    · right
      exact (year_of_time hd).1 h
  unfold interpolateCoefficients
  rw [regular_head hT, regular_last hT]
  simp only [item, Py.bind_ok]
  unfold checkDate
  rw [if_pos (by omega), Py.bind_error]

/-- C56. Dates of the range with a time zone raise TypeError, for any degree. -/
theorem C56_time_zone (hT : T.Regular y0 K) (date : Date) (hd : date.Valid) (hz : date.aware = true)
    (N : ℕ) (h0 : epochTime y0 0 ≤ date.time) (h1 : date.time < epochTime y0 K) :
    interpolateCoefficients date N T = .error .TypeError := by
  obtain ⟨i, hi, ha, hb⟩ := exists_epoch hT.nonempty date h0 h1
  have hy0 := (year_of_time hd).1 ha
  have hy1 : date.year < y0 + 5 * ((i : ℤ) + 1) := by
    by_contra hc
    have := (year_of_time hd (y := y0 + 5 * ((i : ℤ) + 1))).2 (by omega)
    unfold epochTime at hb
    push_cast at hb
    linarith
  have hidx : ((date.year - y0) / 5).toNat = i := by omega
  have hl := hT.last
  have hf := hT.first
  unfold interpolateCoefficients
  rw [regular_head hT, regular_last hT]
  simp only [item, Py.bind_ok]
  unfold checkDate
  rw [if_neg (by omega), Py.bind_ok, hidx, regular_item hT hi]
  simp only [Py.bind_ok]
  unfold newYear
  rw [if_pos (by omega), Py.bind_ok]
  unfold Date.sub
  rw [hz, if_pos rfl, Py.bind_error]

/-- C56. Degrees that the table does not have raise IndexError. -/
theorem C56_degree (hT : T.Regular y0 K) (date : Date) (hd : date.Valid) (hz : date.aware = false)
    (N : ℕ) (hN : 13 < N) (h0 : epochTime y0 0 ≤ date.time) (h1 : date.time < epochTime y0 K) :
    interpolateCoefficients date N T = .error .IndexError := by
  obtain ⟨i, hi, ha, hb⟩ := exists_epoch hT.nonempty date h0 h1
  have hy0 := (year_of_time hd).1 ha
  have hy1 : date.year < y0 + 5 * ((i : ℤ) + 1) := by
    by_contra hc
    have := (year_of_time hd (y := y0 + 5 * ((i : ℤ) + 1))).2 (by omega)
    unfold epochTime at hb
    push_cast at hb
    linarith
  have hidx : ((date.year - y0) / 5).toNat = i := by omega
  have hl := hT.last
  have hf := hT.first
  unfold interpolateCoefficients
  rw [regular_head hT, regular_last hT]
  simp only [item, Py.bind_ok]
  unfold checkDate
  rw [if_neg (by omega), Py.bind_ok, hidx, regular_item hT hi]
  simp only [Py.bind_ok]
  unfold newYear
  rw [if_pos (by omega), Py.bind_ok]
  unfold Date.sub
  rw [hz, if_neg (by simp), Py.bind_ok, if_pos (by omega), Py.bind_ok]
  unfold checkDegree tableDegree
  rw [if_pos hN, Py.bind_error]

/-! ### C57 -/

/-- C57. The three components are the documented sums, for every list of points, coefficients, range of
degrees, mode of execution and previous contents of the arrays. -/
theorem C57_synthesis (mode : Mode) (junk : Junk) (points : List (ℝ × ℝ × ℝ)) (g h : Arr)
    (min_degree max_degree : ℕ) (hN : 1 ≤ max_degree)
    (hm : mode.Full points.length (accesses max_degree))
    (hθ : ∀ x ∈ points, x.2.1 ∈ Set.Icc 0 Real.pi) :
    magneticField mode junk points g h min_degree max_degree =
      .ok (points.map (field g h min_degree max_degree)) :=
  magneticField_field mode junk points g h min_degree max_degree hN hm hθ

/-- C57. The field is minus the gradient of the potential: derivatives with respect to longitude, colatitude
(one sided at the poles) and radius. -/
theorem C57_gradient (mode : Mode) (junk : Junk) (R : ℝ) (points : List (ℝ × ℝ × ℝ)) (g h : Arr)
    (min_degree max_degree : ℕ) (hN : 1 ≤ max_degree)
    (hm : mode.Full points.length (accesses max_degree))
    (hθ : ∀ x ∈ points, x.2.1 ∈ Set.Icc 0 Real.pi) (hr : ∀ x ∈ points, x.2.2 ≠ 0) :
    ∃ out, magneticField mode junk (points.map fun x => (x.1, x.2.1, R / x.2.2)) g h min_degree max_degree =
        .ok out ∧
      List.Forall₂ (fun (x : ℝ × ℝ × ℝ) (b : ℝ × ℝ × ℝ) =>
        (1e-10 ≤ |Real.sin x.2.1| → HasDerivAt (fun l => potential R g h min_degree max_degree l x.2.1 x.2.2)
          (-(x.2.2 * Real.sin x.2.1 * b.1)) x.1) ∧
        HasDerivWithinAt (fun t => potential R g h min_degree max_degree x.1 t x.2.2) (x.2.2 * b.2.1)
          (Set.Icc 0 Real.pi) x.2.1 ∧
        HasDerivAt (fun r => potential R g h min_degree max_degree x.1 x.2.1 r) (-b.2.2) x.2.2) points out := by
  refine ⟨_, magneticField_field mode junk _ g h min_degree max_degree hN (by simpa using hm) ?_, ?_⟩
  · intro y hy
    obtain ⟨x, hx, rfl⟩ := List.mem_map.1 hy
    exact hθ x hx
  · rw [List.forall₂_map_right_iff, List.forall₂_map_right_iff, List.forall₂_same]
    intro x hx
    have hx0 := hr x hx
    have hd := hθ x hx
    obtain ⟨p, dp, -, hv⟩ := legendreAt_spec x.2.1 hd max_degree hN (fun _ _ => 0) (fun _ _ => 0)
    refine ⟨?_, ?_, ?_⟩
    · intro hs
      have hs0 : Real.sin x.2.1 ≠ 0 := by
        intro h0
        rw [h0, abs_zero] at hs
        norm_num at hs
      simp only [field, if_neg (not_lt.2 hs)]
      unfold potential bEast degreeSum
      have h1 : HasDerivAt (fun l : ℝ => R * ∑ n ∈ Finset.Icc min_degree max_degree,
          ∑ m ∈ Finset.range (n + 1), (R / x.2.2) ^ (n + 1) * (g n m * Real.cos (m * l) +
            h n m * Real.sin (m * l)) * schmidtP n m x.2.1)
          (R * ∑ n ∈ Finset.Icc min_degree max_degree, ∑ m ∈ Finset.range (n + 1),
            (R / x.2.2) ^ (n + 1) * (g n m * (-Real.sin (m * x.1) * (m * 1)) +
            h n m * (Real.cos (m * x.1) * (m * 1))) * schmidtP n m x.2.1) x.1 := by
        refine HasDerivAt.const_mul _ (HasDerivAt.fun_sum fun n _ => HasDerivAt.fun_sum fun m _ => ?_)
        have hl : HasDerivAt (fun l : ℝ => (m : ℝ) * l) (m * 1) x.1 := (hasDerivAt_id x.1).const_mul _
        exact (((hl.cos.const_mul _).add (hl.sin.const_mul _)).const_mul _).mul_const _
      refine h1.congr_deriv ?_
      have e : ∀ S : ℝ, -(x.2.2 * Real.sin x.2.1 * (-(1 / Real.sin x.2.1) * S)) = x.2.2 * S := by
        intro S
        field_simp
      rw [e]
      simp only [Finset.mul_sum]
      refine Finset.sum_congr rfl fun n _ => Finset.sum_congr rfl fun m _ => ?_
      rw [pow_succ (R / x.2.2) (n + 1)]
      field_simp
    · simp only [field]
      unfold potential bNorth degreeSum
      have h1 : HasDerivWithinAt (fun t : ℝ => R * ∑ n ∈ Finset.Icc min_degree max_degree,
          ∑ m ∈ Finset.range (n + 1), (R / x.2.2) ^ (n + 1) * (g n m * Real.cos (m * x.1) +
            h n m * Real.sin (m * x.1)) * schmidtP n m t)
          (R * ∑ n ∈ Finset.Icc min_degree max_degree, ∑ m ∈ Finset.range (n + 1),
            (R / x.2.2) ^ (n + 1) * (g n m * Real.cos (m * x.1) +
            h n m * Real.sin (m * x.1)) * schmidtDeriv n m x.2.1) (Set.Icc 0 Real.pi) x.2.1 := by
        refine HasDerivWithinAt.const_mul _ (HasDerivWithinAt.fun_sum fun n hn =>
          HasDerivWithinAt.fun_sum fun m hm => ?_)
        rw [Finset.mem_Icc] at hn
        rw [Finset.mem_range] at hm
        have := hv n m hn.2 (by omega)
        rw [← this.2.1]
        exact this.2.2.const_mul _
      refine h1.congr_deriv ?_
      simp only [Finset.mul_sum]
      refine Finset.sum_congr rfl fun n _ => Finset.sum_congr rfl fun m _ => ?_
      rw [pow_succ (R / x.2.2) (n + 1)]
      field_simp
    · simp only [field]
      unfold potential bRadial degreeSum
      have h1 : HasDerivAt (fun r : ℝ => R * ∑ n ∈ Finset.Icc min_degree max_degree,
          ∑ m ∈ Finset.range (n + 1), (R / r) ^ (n + 1) * (g n m * Real.cos (m * x.1) +
            h n m * Real.sin (m * x.1)) * schmidtP n m x.2.1)
          (R * ∑ n ∈ Finset.Icc min_degree max_degree, ∑ m ∈ Finset.range (n + 1),
            (((n + 1 : ℕ) : ℝ) * (R / x.2.2) ^ n * (R * -(x.2.2 ^ 2)⁻¹)) * (g n m * Real.cos (m * x.1) +
            h n m * Real.sin (m * x.1)) * schmidtP n m x.2.1) x.2.2 := by
        refine HasDerivAt.const_mul _ (HasDerivAt.fun_sum fun n _ => HasDerivAt.fun_sum fun m _ => ?_)
        have hq : HasDerivAt (fun r : ℝ => R / r) (R * -(x.2.2 ^ 2)⁻¹) x.2.2 := by
          simp only [div_eq_mul_inv]
          exact (hasDerivAt_inv hx0).const_mul R
        exact ((hq.fun_pow (n + 1)).mul_const _).mul_const _
      refine h1.congr_deriv ?_
      rw [← Finset.sum_neg_distrib, Finset.mul_sum]
      refine Finset.sum_congr rfl fun n _ => ?_
      rw [← Finset.sum_neg_distrib, Finset.mul_sum]
      refine Finset.sum_congr rfl fun m _ => ?_
      dsimp only
      rw [pow_succ (R / x.2.2) (n + 1), pow_succ (R / x.2.2) n]
      push_cast
      field_simp

/-- C57. Adding disjoint ranges of degrees adds the fields. -/
theorem C57_ranges (mode mode1 mode2 : Mode) (junk junk1 junk2 : Junk) (points : List (ℝ × ℝ × ℝ)) (g h : Arr)
    (a k b : ℕ) (hak : a ≤ k + 1) (hkb : k ≤ b) (hk : 1 ≤ k)
    (hm : mode.Full points.length (accesses b)) (hm1 : mode1.Full points.length (accesses k))
    (hm2 : mode2.Full points.length (accesses b)) (hθ : ∀ x ∈ points, x.2.1 ∈ Set.Icc 0 Real.pi) :
    ∃ v v1 v2, magneticField mode junk points g h a b = .ok v ∧
      magneticField mode1 junk1 points g h a k = .ok v1 ∧
      magneticField mode2 junk2 points g h (k + 1) b = .ok v2 ∧
      v = List.zipWith (fun x y => x + y) v1 v2 := by
  refine ⟨_, _, _, magneticField_field mode junk points g h a b (by omega) hm hθ,
    magneticField_field mode1 junk1 points g h a k hk hm1 hθ,
    magneticField_field mode2 junk2 points g h (k + 1) b (by omega) hm2 hθ, ?_⟩
  apply List.ext_getElem
  · simp
  intro i h1 h2
  simp only [List.getElem_map, List.getElem_zipWith]
  generalize points[i]'(by simpa using h1) = x
  unfold field bEast bNorth bRadial
  refine Prod.ext ?_ (Prod.ext ?_ ?_)
  · simp only [Prod.fst_add]
    split
    · simp
    · rw [← mul_add, degreeSum_split hak hkb]
  · simp only [Prod.snd_add, Prod.fst_add]
    rw [degreeSum_split hak hkb]
  · simp only [Prod.snd_add]
    rw [degreeSum_split hak hkb]

/-- C57. What `predict` returns: the field at the geocentric coordinates of each point, with its components in
the geodetic directions. -/
theorem C57_predict (mode : Mode) (junk : Junk) (self : Igrf) (c : Arr × Arr) (points : List (ℝ × ℝ × ℝ))
    (hN : 1 ≤ self.max_degree) (hm : mode.Full points.length (accesses self.max_degree))
    (hlat : ∀ x ∈ points, self.ellipsoid.latitude x.2.1 x.2.2 ∈ Set.Icc (-90) 90) :
    predictWith mode junk self c points = .ok (points.map fun x =>
      vectorSphericalToGeodetic x.2.1 (self.ellipsoid.latitude x.2.1 x.2.2)
        (field c.1 c.2 self.min_degree self.max_degree (radians x.1,
          radians (90 - self.ellipsoid.latitude x.2.1 x.2.2),
          6371.2e3 / self.ellipsoid.radius x.2.1 x.2.2))) := by
  unfold predictWith
  rw [magneticField_field mode junk _ _ _ _ _ hN (by simpa using hm), Py.bind_ok, Py.pure_eq]
  · congr 1
    apply List.ext_getElem
    · simp
    intro i h1 h2
    simp [toKernel, referenceRadius]
  · intro y hy
    obtain ⟨x, hx, rfl⟩ := List.mem_map.1 hy
    have := hlat x hx
    have hpi := Real.pi_pos
    simp only [toKernel, radians]
    constructor
    · have : 0 ≤ 90 - self.ellipsoid.latitude x.2.1 x.2.2 := by linarith [this.2]
      positivity
    · nlinarith [this.1]

/-! ### C59 -/

/-- C59. East and norm are kept. -/
theorem C59_norm (lat lat_s : ℝ) (v : V3) :
    (vectorSphericalToGeodetic lat lat_s v).1 = v.1 ∧
    (vectorSphericalToGeodetic lat lat_s v).2.1 ^ 2 + (vectorSphericalToGeodetic lat lat_s v).2.2 ^ 2 =
      v.2.1 ^ 2 + v.2.2 ^ 2 := by
  refine ⟨rfl, ?_⟩
  simp only [vectorSphericalToGeodetic]
  linear_combination (v.2.1 ^ 2 + v.2.2 ^ 2) * Real.sin_sq_add_cos_sq (radians (lat_s - lat))

/-- C59. Identity when latitudes agree. -/
theorem C59_identity (lat : ℝ) (v : V3) : vectorSphericalToGeodetic lat lat v = v := by
  simp [vectorSphericalToGeodetic, radians]

/-- C59. Inverted by swapping the latitudes. -/
theorem C59_inverse (lat lat_s : ℝ) (v : V3) :
    vectorSphericalToGeodetic lat_s lat (vectorSphericalToGeodetic lat lat_s v) = v := by
  have e : radians (lat - lat_s) = -radians (lat_s - lat) := by simp only [radians]; ring
  simp only [vectorSphericalToGeodetic, e, Real.cos_neg, Real.sin_neg]
  have h := Real.sin_sq_add_cos_sq (radians (lat_s - lat))
  refine Prod.ext rfl (Prod.ext ?_ ?_)
  · linear_combination v.2.1 * h
  · linear_combination v.2.2 * h

/-- C59. It is the same vector: its components in the plane of the meridian (away from the axis, and along
the axis) are those of the north and up directions of each latitude. -/
theorem C59_same_vector (lat lat_s : ℝ) (v : V3) :
    let w := vectorSphericalToGeodetic lat lat_s v
    Real.cos (radians lat) * w.2.2 - Real.sin (radians lat) * w.2.1 =
      Real.cos (radians lat_s) * v.2.2 - Real.sin (radians lat_s) * v.2.1 ∧
    Real.cos (radians lat) * w.2.1 + Real.sin (radians lat) * w.2.2 =
      Real.cos (radians lat_s) * v.2.1 + Real.sin (radians lat_s) * v.2.2 := by
  have e : radians (lat_s - lat) = radians lat_s - radians lat := by simp only [radians]; ring
  simp only [vectorSphericalToGeodetic, e, Real.cos_sub, Real.sin_sub]
  have h := Real.sin_sq_add_cos_sq (radians lat)
  constructor
  · linear_combination (-Real.sin (radians lat_s) * v.2.1 + Real.cos (radians lat_s) * v.2.2) * h
  · linear_combination (Real.cos (radians lat_s) * v.2.1 + Real.sin (radians lat_s) * v.2.2) * h

/-! ### C73 -/

theorem history_inv (load : Py Table) (self : Igrf) (as : List Access) (cache : Cache)
    (hc : cache = none ∨ ∃ c, load.bind (interpolateCoefficients self.date self.max_degree) = .ok c ∧
      cache = some c) :
    history load self cache as = as.map fun a => (access load self none a).1 := by
  induction as generalizing cache with
  | nil => rfl
  | cons a as ih =>
    have h1 : (coefficients load self cache).1 = (coefficients load self none).1 ∧
        ((coefficients load self cache).2 = none ∨
          ∃ c, load.bind (interpolateCoefficients self.date self.max_degree) = .ok c ∧
            (coefficients load self cache).2 = some c) := by
      rcases hc with rfl | ⟨c, hl, rfl⟩
      · refine ⟨rfl, ?_⟩
        unfold coefficients
        cases hl : load.bind (interpolateCoefficients self.date self.max_degree) with
        | error e => left; simp only [hl]
        | ok c => right; exact ⟨c, rfl, by simp only [hl]⟩
      · refine ⟨?_, Or.inr ⟨c, hl, rfl⟩⟩
        unfold coefficients
        simp only [hl]
    have h2 : (access load self cache a).1 = (access load self none a).1 ∧
        (access load self cache a).2 = (coefficients load self cache).2 := by
      cases a <;> simp only [access, predict, grid, h1.1, and_self]
    simp only [history, List.map_cons]
    rw [h2.1, ih _ (h2.2 ▸ h1.2)]

/-- C73. Every access of a history returns what it returns as the first access of a new object. -/
theorem C73_history (load : Py Table) (self : Igrf) (as : List Access) :
    history load self none as = as.map fun a => (access load self none a).1 :=
  history_inv load self as none (Or.inl rfl)

/-! ### C01 -/

/-- C01 for `IGRF14.predict`. -/
theorem C01_igrf_predict (mode : Mode) (junk : Junk) (self : Igrf) (c : Arr × Arr)
    (points : List (ℝ × ℝ × ℝ)) (hm : mode.Full points.length (accesses self.max_degree)) :
    predictWith mode junk self c points = predictWith .serial junk self c points := by
  unfold predictWith
  by_cases hN : 1 ≤ self.max_degree
  · rw [magneticField_eq mode junk _ _ _ _ _ hN (by simpa using hm)]
  · unfold magneticField
    rw [if_pos (by omega), if_pos (by omega)]

/-- C01 for `IGRF14.grid`: both parallel loops. -/
theorem C01_igrf_grid (mode mode' : Mode) (junk : Junk) (self : Igrf) (c : Arr × Arr) (x : Grid)
    (hm : mode.Full x.longitude.length (2 * (self.max_degree + 1)))
    (hm' : mode'.Full x.latitude.length (x.longitude.length * accesses self.max_degree)) :
    gridWith mode mode' junk self c x = gridWith .serial .serial junk self c x := by
  unfold gridWith
  by_cases hN : 1 ≤ self.max_degree
  · dsimp only
    rw [magneticFieldGrid_eq mode mode' junk (x.longitude.map radians) _ _ _ _ _ _ hN
      (by simpa using hm) (by simpa using hm')]
  · unfold magneticFieldGrid
    simp only [if_pos (show self.max_degree = 0 by omega)]

/-! ### C58 -/

/-- C58 for heights that are constant along each parallel: the field of the grid at each node is that of
`predict` at that node. Missing: heights that vary along a parallel, where it is false (`C58_not_full`). -/
theorem C58_grid_partial (mode mode' mode'' : Mode) (junk junk' : Junk) (self : Igrf) (c : Arr × Arr) (x : Grid)
    (hN : 1 ≤ self.max_degree) (hm : mode.Full x.longitude.length (2 * (self.max_degree + 1)))
    (hm' : mode'.Full x.latitude.length (x.longitude.length * accesses self.max_degree))
    (hm'' : mode''.Full 1 (accesses self.max_degree))
    (hlat : ∀ lat h, self.ellipsoid.latitude lat h ∈ Set.Icc (-90) 90)
    (hh : ∀ i j, i < x.latitude.length → j < x.longitude.length → x.height i j = x.height i 0) :
    ∃ b, gridWith mode mode' junk self c x = .ok b ∧
      ∀ i j lat lon, x.latitude[i]? = some lat → x.longitude[j]? = some lon →
        predictWith mode'' junk' self c [(lon, lat, x.height i j)] = .ok [b i j] := by
  have hpi := Real.pi_pos
  have hc : ∀ lat h, radians (90 - self.ellipsoid.latitude lat h) ∈ Set.Icc 0 Real.pi := by
    intro lat h
    have := hlat lat h
    simp only [radians]
    constructor
    · have : 0 ≤ 90 - self.ellipsoid.latitude lat h := by linarith [this.2]
      positivity
    · nlinarith [this.1]
  unfold gridWith
  obtain ⟨b, hb, hv⟩ := magneticFieldGrid_field mode mode' junk (x.longitude.map radians)
    ((List.range x.latitude.length).map fun i =>
      radians (90 - self.ellipsoid.latitude (x.latitude.getD i 0) (x.height i 0)))
    (fun i j => referenceRadius / self.ellipsoid.radius (x.latitude.getD i 0) (x.height i j)) c.1 c.2
    self.min_degree self.max_degree hN (by simpa using hm) (by simpa using hm') (by
      intro t ht
      obtain ⟨i, -, rfl⟩ := List.mem_map.1 ht
      exact hc _ _)
  simp only [hb, Py.bind_ok, Py.pure_eq]
  refine ⟨_, rfl, fun i j lat lon hi hj => ?_⟩
  rw [C57_predict mode'' junk' self c _ hN (by simpa using hm'') (by intro y hy; exact hlat _ _)]
  have hi' : i < x.latitude.length := (List.getElem?_eq_some_iff.1 hi).1
  have hj' : j < x.longitude.length := (List.getElem?_eq_some_iff.1 hj).1
  rw [hv i j (by simpa using hi') (by simpa using hj')]
  have e1 : x.latitude.getD i 0 = lat := by rw [List.getD_eq_getElem?_getD, hi]; rfl
  have e2 : (x.longitude.map radians).getD j 0 = radians lon := by
    rw [List.getD_eq_getElem?_getD, List.getElem?_map, hj]; rfl
  have e3 : ((List.range x.latitude.length).map fun i =>
      radians (90 - self.ellipsoid.latitude (x.latitude.getD i 0) (x.height i 0))).getD i 0 =
      radians (90 - self.ellipsoid.latitude lat (x.height i j)) := by
    rw [List.getD_eq_getElem?_getD, List.getElem?_map, List.getElem?_range hi', hh i j hi' hj']
    simp only [Option.map_some, Option.getD_some, e1]
  rw [e1, e2, e3]
  rfl

end

end Verif.Igrf
