import Verif.Survey.PropsB
import Verif.Layers.PropsC
import Verif.Tesseroid.PropsM

/-!
C146: the gravity of a layer of tesseroids is that of the body between its surface and its reference.
-/

namespace Verif.Survey
open Verif.Engine Verif.Distance Verif.Forward Verif.Layers Verif.Tesseroid MeasureTheory
open scoped InnerProductSpace

/-! ### specification -/

/-- `ρ` is the density of the body of a layer of tesseroids with `nn` latitudes and `ne` longitudes: around each node
it is the density of its column, and zero outside the region of the layer. A point of space is given by its
longitude, latitude and radius, the longitude modulo complete turns. On the vertical faces between columns, at the
center and on the axis any value. -/
structure SphericalBody (lon0 slon lat0 slat : ℝ) (nn ne : ℕ) (B T D : ℕ → ℕ → Option ℝ) (h : ℝ) (ρ : E3 → ℝ) :
    Prop where
  inside : ∀ k < nn, ∀ j < ne, ∀ q : P3, |q.x - (lon0 + j * slon)| < slon / 2 → |q.y - (lat0 + k * slat)| < slat / 2 →
    -90 < q.y → q.y < 90 → 0 < q.z → ρ (sphPos q) = columnDensity h (D k j) (B k j) (T k j) q.z
  outside : ∀ q : P3, -90 ≤ q.y → q.y ≤ 90 → 0 ≤ q.z →
    (∀ j < ne, ∀ turns : ℤ, slon / 2 < |q.x + 360 * turns - (lon0 + j * slon)|) ∨
      (∀ k < nn, slat / 2 < |q.y - (lat0 + k * slat)|) → ρ (sphPos q) = 0

/-! ### spherical coordinates -/

theorem sphPos_turns (q : P3) (n : ℤ) : sphPos ⟨q.x + 360 * n, q.y, q.z⟩ = sphPos q := by
  have : radians (q.x + 360 * n) = radians q.x + n * (2 * Real.pi) := by unfold radians; ring
  unfold sphPos
  simp only [this, Real.cos_add_int_mul_two_pi, Real.sin_add_int_mul_two_pi]

theorem sphPos_inj {a q : P3} (h : sphPos a = sphPos q) (ha : 0 ≤ a.z) (hq : 0 < q.z) (a1 : -90 ≤ a.y) (a2 : a.y ≤ 90)
    (q1 : -90 < q.y) (q2 : q.y < 90) : a.z = q.z ∧ a.y = q.y ∧ ∃ n : ℤ, a.x = q.x + 360 * n := by
  have hpi := Real.pi_pos
  have hz : a.z = q.z := by
    rw [← norm_sphPos a ha, h, norm_sphPos q hq.le]
  have e0 : a.z * Real.cos (radians a.y) * Real.cos (radians a.x) =
      q.z * Real.cos (radians q.y) * Real.cos (radians q.x) := congrArg (fun y : E3 => y 0) h
  have e1 : a.z * Real.cos (radians a.y) * Real.sin (radians a.x) =
      q.z * Real.cos (radians q.y) * Real.sin (radians q.x) := congrArg (fun y : E3 => y 1) h
  have e2 : a.z * Real.sin (radians a.y) = q.z * Real.sin (radians q.y) := congrArg (fun y : E3 => y 2) h
  rw [hz] at e0 e1 e2
  have hy : radians a.y = radians q.y :=
    Real.injOn_sin ⟨rad90' ▸ radians_le.2 a1, rad90 ▸ radians_le.2 a2⟩
      ⟨rad90' ▸ radians_le.2 q1.le, rad90 ▸ radians_le.2 q2.le⟩ (mul_left_cancel₀ hq.ne' e2)
  have hc : 0 < Real.cos (radians q.y) :=
    Real.cos_pos_of_mem_Ioo ⟨rad90' ▸ radians_lt.2 q1, rad90 ▸ radians_lt.2 q2⟩
  rw [hy] at e0 e1
  have hk := (mul_pos hq hc).ne'
  obtain ⟨n, hn⟩ := Real.Angle.angle_eq_iff_two_pi_dvd_sub.1
    (Real.Angle.cos_sin_inj (mul_left_cancel₀ hk e0) (mul_left_cancel₀ hk e1))
  refine ⟨hz, le_antisymm (radians_le.1 hy.le) (radians_le.1 hy.ge), n, ?_⟩
  have : (a.x - q.x) * (Real.pi / 180) = (360 * n) * (Real.pi / 180) := by
    unfold radians at hn
    linarith
  have := mul_right_cancel₀ (by positivity) this
  linarith

theorem region_iff {t : Tess} (ht : t.ValidRange) {q : P3} (hq : 0 < q.z) (q1 : -90 < q.y) (q2 : q.y < 90) :
    sphPos q ∈ t.region ↔ t.Body q := by
  constructor
  · rintro ⟨a, ha, e⟩
    obtain ⟨⟨k, k1, k2⟩, ⟨y1, y2⟩, z1, z2⟩ := ha
    obtain ⟨h1, h2, n, h3⟩ := sphPos_inj e (ht.radii.1.trans z1) hq (ht.lat_s.1.trans y1) (y2.trans ht.lat_n.2) q1 q2
    rw [h1] at z1 z2
    rw [h2] at y1 y2
    rw [h3] at k1 k2
    refine ⟨⟨n + k, ?_, ?_⟩, ⟨y1, y2⟩, z1, z2⟩ <;> push_cast <;> linarith
  · intro h
    exact ⟨q, h, rfl⟩

theorem exists_coords (x : E3) : ∃ q : P3, sphPos q = x ∧ q.z = ‖x‖ ∧ -90 ≤ q.y ∧ q.y ≤ 90 := by
  obtain ⟨q, hq, rfl⟩ : x ∈ (full 0 ‖x‖).region := by
    rw [full_region le_rfl]
    exact ⟨norm_nonneg _, le_rfl⟩
  exact ⟨q, rfl, (norm_sphPos q hq.2.2.1).symm, hq.2.1.1, hq.2.1.2⟩

/-- Bodies without volume. -/
theorem null_region {t : Tess} (hr : t.ValidRange) (hl : t.ValidLon) (h0 : t.bodyVolume = 0) : volume t.region = 0 := by
  have h := integral_region (g := fun _ => 1) hr (eastEnd_le_turn hl) continuous_const
  rw [integral_const_body, h0, mul_zero, setIntegral_const, smul_eq_mul, mul_one] at h
  have hfin : volume t.region ≠ ⊤ := (isCompact_region t).measure_lt_top.ne
  exact ((measureReal_eq_zero_iff hfin).1 h.symm)

theorem exists_turn (x a : ℝ) : ∃ k : ℤ, a ≤ x + 360 * k ∧ x + 360 * k < a + 360 := by
  refine ⟨-⌊(x - a) / 360⌋, ?_, ?_⟩
  · have := Int.floor_le ((x - a) / 360)
    push_cast
    linarith
  · have := Int.lt_floor_add_one ((x - a) / 360)
    push_cast
    linarith

theorem null_latitude (c : ℝ) : volume {x : E3 | ∃ q : P3, q.y = c ∧ -90 ≤ q.y ∧ q.y ≤ 90 ∧ 0 ≤ q.z ∧ sphPos q = x} = 0 := by
  by_cases hc : -90 ≤ c ∧ c ≤ 90
  · refine measure_mono_null (t := ⋃ R : ℕ, (⟨-180, 180, c, c, 0, R⟩ : Tess).region) ?_ ?_
    · rintro x ⟨q, rfl, -, -, hz, rfl⟩
      obtain ⟨R, hR⟩ := exists_nat_ge q.z
      obtain ⟨k, k1, k2⟩ := exists_turn q.x (-180)
      refine Set.mem_iUnion.2 ⟨R, q, ⟨⟨k, k1, ?_⟩, ⟨le_rfl, le_rfl⟩, hz, hR⟩, rfl⟩
      rw [eastEnd_of_le (by norm_num)]
      linarith
    · refine measure_iUnion_null fun R => null_region ⟨hc, hc, le_rfl, ⟨le_rfl, by simp⟩, by simp, by norm_num,
        by norm_num⟩ (Or.inl (by norm_num)) ?_
      simp [Tess.bodyVolume]
  · refine measure_mono_null (t := ∅) ?_ (by simp)
    rintro x ⟨q, rfl, h1, h2, -⟩
    exact absurd ⟨h1, h2⟩ hc

theorem null_longitude (c : ℝ) : volume {x : E3 | ∃ q : P3, (∃ n : ℤ, q.x + 360 * n = c) ∧ -90 ≤ q.y ∧ q.y ≤ 90 ∧
    0 ≤ q.z ∧ sphPos q = x} = 0 := by
  obtain ⟨m, m1, m2⟩ := exists_turn c 0
  refine measure_mono_null (t := ⋃ R : ℕ, (⟨c + 360 * m, c + 360 * m, -90, 90, 0, R⟩ : Tess).region) ?_ ?_
  · rintro x ⟨q, ⟨n, hn⟩, h1, h2, hz, rfl⟩
    obtain ⟨R, hR⟩ := exists_nat_ge q.z
    refine Set.mem_iUnion.2 ⟨R, q, ⟨⟨n + m, ?_, ?_⟩, ⟨h1, h2⟩, hz, hR⟩, rfl⟩
    · push_cast
      linarith
    · rw [eastEnd_of_le le_rfl]
      push_cast
      linarith
  · refine measure_iUnion_null fun R => null_region ⟨by norm_num, by norm_num, by norm_num, ⟨le_rfl, by simp⟩, by simp,
      ⟨by simp only; linarith, by simp only; linarith⟩, ⟨by simp only; linarith, by simp only; linarith⟩⟩
      (Or.inl ⟨le_rfl, by simp⟩) ?_
    unfold Tess.bodyVolume
    rw [eastEnd_of_le le_rfl]
    simp [radians]

/-! ### the density of the elements -/

/-- The density of one column at a point. -/
noncomputable def cellTerm (lon0 slon lat0 slat : ℝ) (B T D : ℕ → ℕ → Option ℝ) (h : ℝ) (q : P3) (p : ℕ × ℕ) : ℝ :=
  open Classical in
  if (∃ n : ℤ, |q.x + 360 * n - (lon0 + p.2 * slon)| ≤ slon / 2) ∧ |q.y - (lat0 + p.1 * slat)| ≤ slat / 2 then
    columnDensity h (D p.1 p.2) (B p.1 p.2) (T p.1 p.2) q.z else 0

theorem elements_term {lon0 slon lat0 slat : ℝ} (hs : 0 < slon) (nn ne : ℕ) (B T D : ℕ → ℕ → Option ℝ)
    (threshold : Option ℝ)
    (hv : ∀ s ∈ tessElements (fun j => lon0 + j * slon) (fun k => lat0 + k * slat) B T D threshold nn ne,
      s.1.ValidRange) {q : P3} (hq : 0 < q.z) (q1 : -90 < q.y) (q2 : q.y < 90) :
    tessDensity (tessElements (fun j => lon0 + j * slon) (fun k => lat0 + k * slat) B T D threshold nn ne) (sphPos q) =
      ((cells nn ne).map (cellTerm lon0 slon lat0 slat B T D (threshold.getD 0) q)).sum := by
  classical
  unfold tessDensity
  unfold tessElements at hv ⊢
  generalize cells nn ne = l at hv ⊢
  induction l with
  | nil => rfl
  | cons p l ih =>
    rw [List.map_cons, List.sum_cons]
    rw [List.filterMap_cons] at hv ⊢
    cases hd : D p.1 p.2 with
    | none =>
      simp only [hd] at hv ⊢
      rw [ih hv]
      simp [cellTerm, hd, columnDensity]
    | some d =>
      cases hb : B p.1 p.2 with
      | none =>
        simp only [hd, hb] at hv ⊢
        rw [ih hv]
        simp [cellTerm, hd, hb, columnDensity]
      | some b =>
        cases ht : T p.1 p.2 with
        | none =>
          simp only [hd, hb, ht] at hv ⊢
          rw [ih hv]
          simp [cellTerm, hd, hb, ht, columnDensity]
        | some t =>
          simp only [hd, hb, ht] at hv ⊢
          by_cases hc : ∀ h ∈ threshold, h ≤ t - b
          · simp only [if_pos hc] at hv ⊢
            rw [List.map_cons, List.sum_cons, ih fun s hs' => hv s (List.mem_cons_of_mem _ hs')]
            congr 1
            have hreg := region_iff (hv _ List.mem_cons_self) hq q1 q2
            simp only [hreg]
            have hbody : Tess.Body ⟨lon0 + p.2 * slon - ((lon0 + ((1 : ℕ) : ℝ) * slon) - (lon0 + ((0 : ℕ) : ℝ) * slon)) / 2,
                lon0 + p.2 * slon + ((lon0 + ((1 : ℕ) : ℝ) * slon) - (lon0 + ((0 : ℕ) : ℝ) * slon)) / 2,
                lat0 + p.1 * slat - ((lat0 + ((1 : ℕ) : ℝ) * slat) - (lat0 + ((0 : ℕ) : ℝ) * slat)) / 2,
                lat0 + p.1 * slat + ((lat0 + ((1 : ℕ) : ℝ) * slat) - (lat0 + ((0 : ℕ) : ℝ) * slat)) / 2, b, t⟩ q ↔
                ((∃ n : ℤ, |q.x + 360 * n - (lon0 + p.2 * slon)| ≤ slon / 2) ∧ |q.y - (lat0 + p.1 * slat)| ≤ slat / 2) ∧
                  b ≤ q.z ∧ q.z ≤ t := by
              unfold Tess.Body OnArc
              rw [eastEnd_of_le (by push_cast; linarith)]
              simp only [abs_cell]
              push_cast
              simp only [zero_mul, one_mul, add_zero, add_sub_cancel_left]
              tauto
            simp only [hbody, cellTerm, hd, hb, ht, columnDensity]
            by_cases h1 : (∃ n : ℤ, |q.x + 360 * n - (lon0 + p.2 * slon)| ≤ slon / 2) ∧
              |q.y - (lat0 + p.1 * slat)| ≤ slat / 2
            · simp only [h1, true_and, if_true]
              by_cases h2 : b ≤ q.z ∧ q.z ≤ t
              · have h3 : threshold.getD 0 ≤ t - b := by
                  cases threshold with
                  | none => simp only [Option.getD_none]; linarith [h2.1, h2.2]
                  | some h => exact hc h rfl
                rw [if_pos h2, if_pos ⟨h3, h2⟩]
              · rw [if_neg h2, if_neg fun h => h2 h.2]
            · simp only [h1, false_and, if_false]
          · simp only [if_neg hc] at hv ⊢
            rw [ih hv]
            have : ¬ threshold.getD 0 ≤ t - b := by
              cases threshold with
              | none => simp at hc
              | some h => simpa using hc
            simp [cellTerm, hd, hb, ht, columnDensity, this]

theorem cells_nodup (nn ne : ℕ) : (cells nn ne).Nodup := by
  unfold cells
  rw [List.nodup_flatMap]
  refine ⟨fun k _ => List.Nodup.map (fun a b h => (Prod.mk.inj h).2) List.nodup_range, ?_⟩
  refine List.Pairwise.imp ?_ List.nodup_range
  intro a b hab
  simp only [Function.onFun, List.disjoint_left, List.mem_map]
  rintro x ⟨_, _, rfl⟩ ⟨_, _, h⟩
  exact hab (Prod.mk.inj h).1.symm

theorem node_unique {c s x : ℝ} (hs : 0 < s) {j j' : ℕ} (h : |x - (c + j * s)| < s / 2)
    (h' : |x - (c + j' * s)| < s / 2) : j = j' := by
  rw [abs_lt] at h h'
  have h1 : ((j : ℝ) - j') * s < 1 * s := by linarith [h.2, h'.1, h.1, h'.2]
  have h2 : ((j' : ℝ) - j) * s < 1 * s := by linarith [h.2, h'.1, h.1, h'.2]
  have k1 := lt_of_mul_lt_mul_right h1 hs.le
  have k2 := lt_of_mul_lt_mul_right h2 hs.le
  have l1 : j < j' + 1 := by exact_mod_cast (by linarith : (j : ℝ) < j' + 1)
  have l2 : j' < j + 1 := by exact_mod_cast (by linarith : (j' : ℝ) < j + 1)
  omega

theorem node_turn {c s x : ℝ} (hs : 0 < s) {ne : ℕ} (hne : ne * s ≤ 360) {j j' : ℕ} (hj : j < ne) (hj' : j' < ne)
    {n n' : ℤ} (h : |x + 360 * n - (c + j * s)| < s / 2) (h' : |x + 360 * n' - (c + j' * s)| < s / 2) : j = j' := by
  have hjj : ∀ a b : ℕ, a < ne → ((a : ℝ) - b) * s ≤ 360 - s := by
    intro a b ha
    have : (a : ℝ) + 1 ≤ ne := by exact_mod_cast ha
    have h2 := mul_le_mul_of_nonneg_right this hs.le
    have h3 : 0 ≤ (b : ℝ) * s := by positivity
    linarith
  have h0 := h
  have h0' := h'
  rw [abs_lt] at h h'
  rcases lt_trichotomy n n' with hn | rfl | hn
  · exfalso
    have : (n : ℝ) + 1 ≤ n' := by exact_mod_cast hn
    linarith [hjj j' j hj', h.1, h'.2]
  · exact node_unique hs h0 h0'
  · exfalso
    have : (n' : ℝ) + 1 ≤ n := by exact_mod_cast hn
    linarith [hjj j j' hj, h'.1, h.2]

theorem not_face {x c s : ℝ} (h1 : x ≠ c - s / 2) (h2 : x ≠ c + s / 2) (h : |x - c| ≤ s / 2) : |x - c| < s / 2 := by
  refine lt_of_le_of_ne h fun e => ?_
  rcases abs_eq_abs.1 (show |x - c| = |s / 2| by
    rw [e]; exact (abs_of_nonneg (by rw [← e]; exact abs_nonneg _)).symm) with h | h
  · exact h2 (by linarith)
  · exact h1 (by linarith)

/-- The elements of a layer have the density of its body. -/
theorem body_density {lon0 slon lat0 slat : ℝ} (hs : 0 < slon) (hs' : 0 < slat) {nn ne : ℕ} (hne : ne * slon ≤ 360)
    (B T D : ℕ → ℕ → Option ℝ) (threshold : Option ℝ)
    (hv : ∀ s ∈ tessElements (fun j => lon0 + j * slon) (fun k => lat0 + k * slat) B T D threshold nn ne,
      s.1.ValidRange) {ρ : E3 → ℝ} (hρ : SphericalBody lon0 slon lat0 slat nn ne B T D (threshold.getD 0) ρ) :
    ∀ᵐ x, ρ x =
      tessDensity (tessElements (fun j => lon0 + j * slon) (fun k => lat0 + k * slat) B T D threshold nn ne) x := by
  have nlat : ∀ c : ℝ, ∀ᵐ x : E3, ¬ ∃ q : P3, q.y = c ∧ -90 ≤ q.y ∧ q.y ≤ 90 ∧ 0 ≤ q.z ∧ sphPos q = x := fun c =>
    measure_eq_zero_iff_ae_notMem.1 (null_latitude c)
  have nlon : ∀ c : ℝ, ∀ᵐ x : E3, ¬ ∃ q : P3, (∃ n : ℤ, q.x + 360 * n = c) ∧ -90 ≤ q.y ∧ q.y ≤ 90 ∧ 0 ≤ q.z ∧
      sphPos q = x := fun c => measure_eq_zero_iff_ae_notMem.1 (null_longitude c)
  have f1 : ∀ᵐ x : E3, ∀ k : ℕ, _ := ae_all_iff.2 fun k : ℕ => nlat (lat0 + k * slat - slat / 2)
  have f2 : ∀ᵐ x : E3, ∀ k : ℕ, _ := ae_all_iff.2 fun k : ℕ => nlat (lat0 + k * slat + slat / 2)
  have f3 : ∀ᵐ x : E3, ∀ k : ℕ, _ := ae_all_iff.2 fun k : ℕ => nlon (lon0 + k * slon - slon / 2)
  have f4 : ∀ᵐ x : E3, ∀ k : ℕ, _ := ae_all_iff.2 fun k : ℕ => nlon (lon0 + k * slon + slon / 2)
  filter_upwards [nlat 90, nlat (-90), f1, f2, f3, f4] with x g1 g2 g3 g4 g5 g6
  obtain ⟨q, rfl, hz, y1, y2⟩ := exists_coords x
  have hz0 : 0 ≤ q.z := hz ▸ norm_nonneg _
  have y1' : -90 < q.y := lt_of_le_of_ne y1 fun e => g2 ⟨q, e.symm, y1, y2, hz0, rfl⟩
  have y2' : q.y < 90 := lt_of_le_of_ne y2 fun e => g1 ⟨q, e, y1, y2, hz0, rfl⟩
  have hzp : 0 < q.z := by
    refine lt_of_le_of_ne hz0 fun e => g1 ⟨⟨q.x, 90, q.z⟩, rfl, by norm_num, by norm_num, hz0, ?_⟩
    unfold sphPos
    simp [← e]
  rw [elements_term hs nn ne B T D threshold hv hzp y1' y2']
  by_cases hin : ∃ k < nn, ∃ j < ne, ∃ n : ℤ, |q.x + 360 * n - (lon0 + j * slon)| ≤ slon / 2 ∧
    |q.y - (lat0 + k * slat)| ≤ slat / 2
  · obtain ⟨k, hk, j, hj, n, hx, hy⟩ := hin
    have strict : ∀ (k j : ℕ) (n : ℤ), |q.x + 360 * n - (lon0 + j * slon)| ≤ slon / 2 →
        |q.y - (lat0 + k * slat)| ≤ slat / 2 →
        |q.x + 360 * n - (lon0 + j * slon)| < slon / 2 ∧ |q.y - (lat0 + k * slat)| < slat / 2 := by
      intro k j n hx hy
      exact ⟨not_face (fun e => g5 j ⟨q, ⟨n, e⟩, y1, y2, hz0, rfl⟩) (fun e => g6 j ⟨q, ⟨n, e⟩, y1, y2, hz0, rfl⟩) hx,
        not_face (fun e => g3 k ⟨q, e, y1, y2, hz0, rfl⟩) (fun e => g4 k ⟨q, e, y1, y2, hz0, rfl⟩) hy⟩
    obtain ⟨hx', hy'⟩ := strict k j n hx hy
    have hkj : (k, j) ∈ cells nn ne := Verif.Layers.mem_cells.2 ⟨hk, hj⟩
    have e := hρ.inside k hk j hj ⟨q.x + 360 * n, q.y, q.z⟩ hx' hy' y1' y2' hzp
    rw [sphPos_turns] at e
    rw [e, List.sum_map_eq_nsmul_single (k, j) _ (by
      rintro ⟨k', j'⟩ hne' hmem
      unfold cellTerm
      refine if_neg ?_
      rintro ⟨⟨n', hx2⟩, hy2⟩
      obtain ⟨hx3, hy3⟩ := strict k' j' n' hx2 hy2
      rw [Verif.Layers.mem_cells] at hmem
      exact hne' (Prod.ext (node_unique hs' hy3 hy') (node_turn hs hne hmem.2 hj hx3 hx'))),
      @List.count_eq_one_of_mem _ instBEqOfDecidableEq _ _ _ (cells_nodup nn ne) hkj, one_smul]
    unfold cellTerm
    rw [if_pos ⟨⟨n, hx⟩, hy⟩]
  · rw [hρ.outside q y1 y2 hz0 (by
      by_contra hno
      rw [not_or] at hno
      obtain ⟨a, b⟩ := hno
      push Not at a b
      obtain ⟨j, hj, n, hx⟩ := a
      obtain ⟨k, hk, hy⟩ := b
      exact hin ⟨k, hk, j, hj, n, hx, hy⟩)]
    symm
    refine List.sum_eq_zero ?_
    intro y hy
    obtain ⟨p, hp, rfl⟩ := List.mem_map.1 hy
    rw [Verif.Layers.mem_cells] at hp
    unfold cellTerm
    refine if_neg ?_
    rintro ⟨⟨n, hx⟩, hy⟩
    exact hin ⟨p.1, hp.1, p.2, hp.2, n, hx, hy⟩

/-! ### the elements and the columns -/

/-- A point of the column of a node. -/
def InColumn (lon0 slon lat0 slat : ℝ) (B T : ℕ → ℕ → Option ℝ) (k j : ℕ) (a : P3) : Prop :=
  |a.x - (lon0 + j * slon)| ≤ slon / 2 ∧ |a.y - (lat0 + k * slat)| ≤ slat / 2 ∧
    ∃ b ∈ B k j, ∃ t ∈ T k j, b ≤ a.z ∧ a.z ≤ t

theorem mem_elements {lon0 slon lat0 slat : ℝ} {nn ne : ℕ} {B T D : ℕ → ℕ → Option ℝ} {threshold : Option ℝ}
    {s : Tess × ℝ} (hs : s ∈ tessElements (fun j => lon0 + j * slon) (fun k => lat0 + k * slat) B T D threshold nn ne) :
    ∃ k < nn, ∃ j < ne, ∃ b ∈ B k j, ∃ t ∈ T k j, ∃ d ∈ D k j,
      s = (⟨lon0 + j * slon - slon / 2, lon0 + j * slon + slon / 2, lat0 + k * slat - slat / 2,
        lat0 + k * slat + slat / 2, b, t⟩, d) := by
  classical
  unfold tessElements at hs
  obtain ⟨⟨k, j⟩, hp, h⟩ := List.mem_filterMap.1 hs
  rw [Verif.Layers.mem_cells] at hp
  refine ⟨k, hp.1, j, hp.2, ?_⟩
  simp only at h
  cases hd : D k j with
  | none => simp [hd] at h
  | some d =>
    cases hb : B k j with
    | none => simp [hd, hb] at h
    | some b =>
      cases ht : T k j with
      | none => simp [hd, hb, ht] at h
      | some t =>
        simp only [hd, hb, ht] at h
        split_ifs at h with hc
        refine ⟨b, rfl, t, rfl, d, rfl, ?_⟩
        rw [← Option.some_inj.1 h]
        push_cast
        simp only [zero_mul, one_mul, add_zero, add_sub_cancel_left]

theorem full_mono {mode : Mode} {n k k' : ℕ} (h : mode.Full n k) (hk : k' ≤ k) : mode.Full n k' := by
  cases mode with
  | serial => trivial
  | parallel sched => exact ⟨h.1, fun i hi => hk.trans (h.2 i hi)⟩

/-- The points of an element are those of its column. -/
theorem element_points {lon0 slon lat0 slat : ℝ} (hs : 0 < slon) {nn ne : ℕ} {B T D : ℕ → ℕ → Option ℝ}
    {threshold : Option ℝ} {s : Tess × ℝ}
    (h : s ∈ tessElements (fun j => lon0 + j * slon) (fun k => lat0 + k * slat) B T D threshold nn ne) :
    ∃ k < nn, ∃ j < ne, ∀ a, s.1.Body a → ∃ a', InColumn lon0 slon lat0 slat B T k j a' ∧ sphPos a' = sphPos a := by
  obtain ⟨k, hk, j, hj, b, hb, t, ht, d, hd, rfl⟩ := mem_elements h
  refine ⟨k, hk, j, hj, fun a ha => ?_⟩
  obtain ⟨⟨n, n1, n2⟩, y, z⟩ := ha
  rw [eastEnd_of_le (by simp only; linarith)] at n2
  exact ⟨⟨a.x + 360 * n, a.y, a.z⟩, ⟨(abs_cell _ _ _).2 ⟨n1, n2⟩, (abs_cell _ _ _).2 y, b, hb, t, ht, z⟩, sphPos_turns a n⟩

theorem elements_abs (E N : ℕ → ℝ) (B T D : ℕ → ℕ → Option ℝ) (threshold : Option ℝ) (nn ne : ℕ) :
    tessElements E N B T (fun k j => (D k j).map abs) threshold nn ne =
      (tessElements E N B T D threshold nn ne).map fun s => (s.1, |s.2|) := by
  classical
  unfold tessElements
  rw [List.map_filterMap]
  refine List.filterMap_congr fun p _ => ?_
  cases hd : D p.1 p.2 <;> cases hb : B p.1 p.2 <;> cases ht : T p.1 p.2 <;> simp [hd]

theorem SphericalBody.abs {lon0 slon lat0 slat : ℝ} {nn ne : ℕ} {B T D : ℕ → ℕ → Option ℝ} {h : ℝ} {ρ : E3 → ℝ}
    (hρ : SphericalBody lon0 slon lat0 slat nn ne B T D h ρ) :
    SphericalBody lon0 slon lat0 slat nn ne B T (fun k j => (D k j).map abs) h fun x => |ρ x| := by
  refine ⟨fun k hk j hj q hx hy h1 h2 hz => ?_, fun q h1 h2 h3 h4 => by rw [hρ.outside q h1 h2 h3 h4, abs_zero]⟩
  rw [hρ.inside k hk j hj q hx hy h1 h2 hz]
  cases hd : D k j <;> cases hb : B k j <;> cases ht : T k j <;> simp [columnDensity]
  split_ifs <;> simp

/-- The mass of the elements, with the densities in absolute value. -/
theorem abs_mass {lon0 slon lat0 slat : ℝ} (hs : 0 < slon) (hs' : 0 < slat) {nn ne : ℕ} (hne : ne * slon ≤ 360)
    (B T D : ℕ → ℕ → Option ℝ) (threshold : Option ℝ)
    (hv : ∀ s ∈ tessElements (fun j => lon0 + j * slon) (fun k => lat0 + k * slat) B T D threshold nn ne,
      s.1.ValidRange ∧ s.1.ValidLon) {ρ : E3 → ℝ}
    (hρ : SphericalBody lon0 slon lat0 slat nn ne B T D (threshold.getD 0) ρ) :
    ((tessElements (fun j => lon0 + j * slon) (fun k => lat0 + k * slat) B T D threshold nn ne).map fun s =>
      |s.2| * s.1.bodyVolume).sum = ∫ x, |ρ x| := by
  have hv' : ∀ s ∈ tessElements (fun j => lon0 + j * slon) (fun k => lat0 + k * slat) B T
      (fun k j => (D k j).map abs) threshold nn ne, s.1.ValidRange ∧ s.1.ValidLon := by
    intro s h
    rw [elements_abs] at h
    obtain ⟨s', h', rfl⟩ := List.mem_map.1 h
    exact hv s' h'
  have h := bodies_integral (g := fun _ => 1) hv' continuous_const
  rw [elements_abs, List.map_map] at h
  rw [integral_congr_ae (body_density hs hs' hne B T (fun k j => (D k j).map abs) threshold (fun s h => (hv' s h).1) hρ.abs)]
  rw [elements_abs]
  simp only [mul_one] at h
  rw [← h]
  congr 1
  refine List.map_congr_left fun s _ => ?_
  simp only [Function.comp, integral_const_body, one_mul]

/-- Where the density of the elements is not zero there is a point of a column. -/
theorem density_support {srcs : List (Tess × ℝ)} {x : E3} (h : tessDensity srcs x ≠ 0) :
    ∃ s ∈ srcs, ∃ a, s.1.Body a ∧ sphPos a = x := by
  classical
  by_contra hno
  refine h ?_
  unfold tessDensity
  refine List.sum_eq_zero fun y hy => ?_
  obtain ⟨s, hs, rfl⟩ := List.mem_map.1 hy
  refine if_neg ?_
  rintro ⟨a, ha, e⟩
  exact hno ⟨s, hs, a, ha, e⟩

theorem sum_factor {srcs : List (Tess × ℝ)} (c : ℝ) (K : Tess → ℝ) (k : ℝ) (hk : ∀ s ∈ srcs, K s.1 = k) :
    (srcs.map fun s => c * |s.2| * s.1.bodyVolume * K s.1).sum =
      c * (srcs.map fun s => |s.2| * s.1.bodyVolume).sum * k := by
  rw [← List.sum_map_mul_left, ← List.sum_map_mul_right]
  congr 1
  refine List.map_congr_left fun s hs => ?_
  rw [hk s hs]
  ring

theorem element_halfLat {lon0 slon lat0 slat : ℝ} {nn ne : ℕ} {B T D : ℕ → ℕ → Option ℝ} {threshold : Option ℝ}
    {s : Tess × ℝ} (hs : s ∈ tessElements (fun j => lon0 + j * slon) (fun k => lat0 + k * slat) B T D threshold nn ne) :
    s.1.halfLat = radians slat / 2 := by
  obtain ⟨k, hk, j, hj, b, hb, t, ht, d, hd, rfl⟩ := mem_elements hs
  unfold Tess.halfLat radians
  ring

/-- Every layer has a body. -/
theorem sphericalBody_exists {lon0 slon lat0 slat : ℝ} (hs : 0 < slon) (hs' : 0 < slat) {nn ne : ℕ}
    (hne : ne * slon ≤ 360) (B T D : ℕ → ℕ → Option ℝ) (h : ℝ) :
    ∃ ρ, SphericalBody lon0 slon lat0 slat nn ne B T D h ρ := by
  classical
  let P : E3 → ℕ × ℕ × P3 → Prop := fun x p => p.1 < nn ∧ p.2.1 < ne ∧ |p.2.2.x - (lon0 + p.2.1 * slon)| < slon / 2 ∧
    |p.2.2.y - (lat0 + p.1 * slat)| < slat / 2 ∧ -90 < p.2.2.y ∧ p.2.2.y < 90 ∧ 0 < p.2.2.z ∧ sphPos p.2.2 = x
  refine ⟨fun x => if hx : ∃ p, P x p then columnDensity h (D hx.choose.1 hx.choose.2.1) (B hx.choose.1 hx.choose.2.1)
    (T hx.choose.1 hx.choose.2.1) hx.choose.2.2.z else 0, ?_, ?_⟩
  · intro k hk j hj q h1 h2 h3 h4 h5
    have hx : ∃ p, P (sphPos q) p := ⟨(k, j, q), hk, hj, h1, h2, h3, h4, h5, rfl⟩
    rw [dif_pos hx]
    obtain ⟨c1, c2, c3, c4, c5, c6, c7, c8⟩ := hx.choose_spec
    obtain ⟨e1, e2, n, e3⟩ := sphPos_inj c8 c7.le h5 c5.le c6.le h3 h4
    rw [e2] at c4
    rw [e3] at c3
    have ek : hx.choose.1 = k := node_unique hs' c4 h2
    have ej : hx.choose.2.1 = j := node_turn (n := n) (n' := 0) hs hne c2 hj c3 (by simpa using h1)
    rw [e1, ek, ej]
  · intro q h1 h2 h3 h4
    refine dif_neg ?_
    rintro ⟨⟨k, j, p⟩, c1, c2, c3, c4, c5, c6, c7, c8⟩
    obtain ⟨e1, e2, n, e3⟩ := sphPos_inj c8.symm h3 c7 h1 h2 c5 c6
    rcases h4 with h4 | h4
    · have := h4 j c2 (-n)
      rw [e3] at this
      push_cast at this
      rw [show p.x + 360 * (n : ℝ) + 360 * -n = p.x by ring] at this
      exact absurd c3 (not_lt.2 this.le)
    · have := h4 k c1
      rw [e2] at this
      exact absurd c4 (not_lt.2 this.le)

/-! ### the properties -/

/-- C146: the potential of a layer of tesseroids at a point outside of its columns is `G ∫ ρ(x) / |q - x|` over the
space, where `ρ` is the density of the body of the layer, up to `G (∫ |ρ|) (δ / d² + h⁴ / (150 d))`: the point is at a
distance of at least `d` from the columns, no two points of a column are more than `δ` apart, and `h` is half the
spacing of the latitudes in radians. -/
theorem C146_potential (junk : Junk) (mode : Mode) (M : Minimizer) (fuel : ℕ) (stack0 small0 : ℕ → Tess)
    (shape : List ℕ) (obs : List P3) (hshape : shape.prod = obs.length) {lon0 slon lat0 slat : ℝ} (hs : 0 < slon)
    (hs' : 0 < slat) {nn ne : ℕ} (hn : 2 ≤ nn) (he : 2 ≤ ne) (hne : ne * slon ≤ 360) (B T D : ℕ → ℕ → Option ℝ)
    (vars : List (String × List (Option ℝ))) (name : String) (hD : vars.lookup name = some (grid nn ne D))
    (threshold : Option ℝ) (radial : Bool) (hm : mode.Full obs.length (2 * (100000 * (nn * ne)))) (r : NdArray)
    (h : tesseroidLayerGravity junk mode M fuel stack0 small0
      ⟨axis lon0 slon ne, axis lat0 slat nn, grid nn ne T, grid nn ne B, vars⟩ (arrays shape obs) "potential" radial
      false name threshold = .ok r)
    (ρ : E3 → ℝ) (hρ : SphericalBody lon0 slon lat0 slat nn ne B T D (threshold.getD 0) ρ)
    (i : ℕ) (q : P3) (hq : obs[i]? = some q) (d δ : ℝ) (hd : 0 < d)
    (hfar : ∀ k < nn, ∀ j < ne, ∀ a, InColumn lon0 slon lat0 slat B T k j a → d ≤ dist (sphPos q) (sphPos a))
    (hδ : ∀ k < nn, ∀ j < ne, ∀ a a', InColumn lon0 slon lat0 slat B T k j a →
      InColumn lon0 slon lat0 slat B T k j a' → dist (sphPos a) (sphPos a') ≤ δ) :
    ∃ v, r.data[i]? = some v ∧
      |v - gravitationalConst * ∫ x, ρ x * (1 / dist (sphPos q) x)| ≤
        gravitationalConst * (∫ x, |ρ x|) * (δ / d ^ 2 + (radians slat / 2) ^ 4 / (150 * d)) := by
  have hc := C23_gravity junk mode M fuel stack0 small0 (arrays shape obs) hn he (fun j => lon0 + j * slon)
    (fun k => lat0 + k * slat) (checkRegular_axis lon0 slon lat0 slat he hn) B T D vars name hD threshold "potential"
    radial false
  have hm' : mode.Full obs.length (2 * (100000 * (tessElements (fun j => lon0 + j * slon) (fun k => lat0 + k * slat) B T D
      threshold nn ne).length)) := full_mono hm (by
    have := tessElements_length (fun j => lon0 + j * slon) (fun k => lat0 + k * slat) B T D threshold nn ne
    omega)
  have hcall := hc.symm.trans (congrArg some h)
  have hret := (returns_of_ok (kc := (potentialSpherical, 1)) rfl hshape hm' hcall).1
  have hv := checked hret
  have hd' : ∀ s ∈ tessElements (fun j => lon0 + j * slon) (fun k => lat0 + k * slat) B T D threshold nn ne,
      ∀ a, s.1.Body a → d ≤ dist (sphPos q) (sphPos a) := by
    intro s h a ha
    obtain ⟨k, hk, j, hj, hp⟩ := element_points hs h
    obtain ⟨a', ha', e⟩ := hp a ha
    rw [← e]
    exact hfar k hk j hj a' ha'
  obtain ⟨v, h1, h2⟩ := C142_potential junk mode M fuel stack0 small0 shape obs hshape _ radial hm' r hcall i q hq
    (fun _ => d) (fun _ => δ) (fun _ _ => hd) hd' (by
      intro s h a b ha hb
      obtain ⟨k, hk, j, hj, hp⟩ := element_points hs h
      obtain ⟨a', ha', e⟩ := hp a ha
      obtain ⟨b', hb', e'⟩ := hp b hb
      rw [← e, ← e']
      exact hδ k hk j hj a' b' ha' hb')
  refine ⟨v, h1, ?_⟩
  have hb := body_density hs hs' hne B T D threshold (fun s h => (hv s h).1) hρ
  rw [sum_factor gravitationalConst (fun t => δ / d ^ 2 + t.halfLat ^ 4 / (150 * d))
    (δ / d ^ 2 + (radians slat / 2) ^ 4 / (150 * d)) (fun s h => by simp only [element_halfLat h]),
    abs_mass hs hs' hne B T D threshold hv hρ, exactPotential_integral hv hd hd'] at h2
  rw [integral_congr_ae (g := fun x => tessDensity (tessElements (fun j => lon0 + j * slon) (fun k => lat0 + k * slat)
    B T D threshold nn ne) x * (1 / max (dist (sphPos q) x) d))]
  · exact h2
  · filter_upwards [hb] with x hx
    rw [hx]
    by_cases h0 : tessDensity (tessElements (fun j => lon0 + j * slon) (fun k => lat0 + k * slat) B T D threshold nn ne)
      x = 0
    · rw [h0, zero_mul, zero_mul]
    · obtain ⟨s, h, a, ha, rfl⟩ := density_support h0
      rw [max_eq_left (hd' s h a ha)]

/-- C146 for the attraction towards the center, in mGal. -/
theorem C146_g_z (junk : Junk) (mode : Mode) (M : Minimizer) (fuel : ℕ) (stack0 small0 : ℕ → Tess)
    (shape : List ℕ) (obs : List P3) (hshape : shape.prod = obs.length) {lon0 slon lat0 slat : ℝ} (hs : 0 < slon)
    (hs' : 0 < slat) {nn ne : ℕ} (hn : 2 ≤ nn) (he : 2 ≤ ne) (hne : ne * slon ≤ 360) (B T D : ℕ → ℕ → Option ℝ)
    (vars : List (String × List (Option ℝ))) (name : String) (hD : vars.lookup name = some (grid nn ne D))
    (threshold : Option ℝ) (radial : Bool) (hm : mode.Full obs.length (2 * (100000 * (nn * ne)))) (r : NdArray)
    (h : tesseroidLayerGravity junk mode M fuel stack0 small0
      ⟨axis lon0 slon ne, axis lat0 slat nn, grid nn ne T, grid nn ne B, vars⟩ (arrays shape obs) "g_z" radial
      false name threshold = .ok r)
    (ρ : E3 → ℝ) (hρ : SphericalBody lon0 slon lat0 slat nn ne B T D (threshold.getD 0) ρ)
    (i : ℕ) (q : P3) (hq : obs[i]? = some q) (d δ : ℝ) (hd : 0 < d)
    (hfar : ∀ k < nn, ∀ j < ne, ∀ a, InColumn lon0 slon lat0 slat B T k j a → d ≤ dist (sphPos q) (sphPos a))
    (hδ : ∀ k < nn, ∀ j < ne, ∀ a a', InColumn lon0 slon lat0 slat B T k j a →
      InColumn lon0 slon lat0 slat B T k j a' → dist (sphPos a) (sphPos a') ≤ δ) :
    ∃ v, r.data[i]? = some v ∧
      |v - 10 ^ 5 * (gravitationalConst * ∫ x, ρ x * (⟪sphPos q - x, unitPos q.x q.y⟫_ℝ / dist (sphPos q) x ^ 3))| ≤
        10 ^ 5 * (gravitationalConst * (∫ x, |ρ x|) * (2 * δ / d ^ 3 + (radians slat / 2) ^ 4 / (150 * d ^ 2))) := by
  have hc := C23_gravity junk mode M fuel stack0 small0 (arrays shape obs) hn he (fun j => lon0 + j * slon)
    (fun k => lat0 + k * slat) (checkRegular_axis lon0 slon lat0 slat he hn) B T D vars name hD threshold "g_z"
    radial false
  have hm' : mode.Full obs.length (2 * (100000 * (tessElements (fun j => lon0 + j * slon) (fun k => lat0 + k * slat) B T D
      threshold nn ne).length)) := full_mono hm (by
    have := tessElements_length (fun j => lon0 + j * slon) (fun k => lat0 + k * slat) B T D threshold nn ne
    omega)
  have hcall := hc.symm.trans (congrArg some h)
  have hret := (returns_of_ok (kc := (gravityUSpherical, -10 ^ 5)) rfl hshape hm' hcall).1
  have hv := checked hret
  have hd' : ∀ s ∈ tessElements (fun j => lon0 + j * slon) (fun k => lat0 + k * slat) B T D threshold nn ne,
      ∀ a, s.1.Body a → d ≤ dist (sphPos q) (sphPos a) := by
    intro s h a ha
    obtain ⟨k, hk, j, hj, hp⟩ := element_points hs h
    obtain ⟨a', ha', e⟩ := hp a ha
    rw [← e]
    exact hfar k hk j hj a' ha'
  obtain ⟨v, h1, h2⟩ := C142_g_z junk mode M fuel stack0 small0 shape obs hshape _ radial hm' r hcall i q hq
    (fun _ => d) (fun _ => δ) (fun _ _ => hd) hd' (by
      intro s h a b ha hb
      obtain ⟨k, hk, j, hj, hp⟩ := element_points hs h
      obtain ⟨a', ha', e⟩ := hp a ha
      obtain ⟨b', hb', e'⟩ := hp b hb
      rw [← e, ← e']
      exact hδ k hk j hj a' b' ha' hb')
  refine ⟨v, h1, ?_⟩
  have hb := body_density hs hs' hne B T D threshold (fun s h => (hv s h).1) hρ
  rw [sum_factor gravitationalConst (fun t => 2 * δ / d ^ 3 + t.halfLat ^ 4 / (150 * d ^ 2))
    (2 * δ / d ^ 3 + (radians slat / 2) ^ 4 / (150 * d ^ 2)) (fun s h => by simp only [element_halfLat h]),
    abs_mass hs hs' hne B T D threshold hv hρ, exactAttraction_integral hv hd hd'] at h2
  rw [integral_congr_ae (g := fun x => tessDensity (tessElements (fun j => lon0 + j * slon) (fun k => lat0 + k * slat)
    B T D threshold nn ne) x * (⟪sphPos q - x, unitPos q.x q.y⟫_ℝ / max (dist (sphPos q) x) d ^ 3))]
  · exact h2
  · filter_upwards [hb] with x hx
    rw [hx]
    by_cases h0 : tessDensity (tessElements (fun j => lon0 + j * slon) (fun k => lat0 + k * slat) B T D threshold nn ne)
      x = 0
    · rw [h0, zero_mul, zero_mul]
    · obtain ⟨s, h, a, ha, rfl⟩ := density_support h0
      rw [max_eq_left (hd' s h a ha)]

/-- C146: two layers of tesseroids for the same body (two grids, or two ways to cut it in columns) have the same
potential at the same point, up to the errors of both. -/
theorem C146_same_body (junk junk' : Junk) (mode mode' : Mode) (M M' : Minimizer) (fuel fuel' : ℕ)
    (stack0 small0 stack0' small0' : ℕ → Tess) (shape : List ℕ) (obs : List P3) (hshape : shape.prod = obs.length)
    {lon0 slon lat0 slat lon0' slon' lat0' slat' : ℝ} (hs : 0 < slon) (hs' : 0 < slat) (ht : 0 < slon') (ht' : 0 < slat')
    {nn ne nn' ne' : ℕ} (hn : 2 ≤ nn) (he : 2 ≤ ne) (hn' : 2 ≤ nn') (he' : 2 ≤ ne') (hne : ne * slon ≤ 360)
    (hne' : ne' * slon' ≤ 360) (B T D B' T' D' : ℕ → ℕ → Option ℝ)
    (vars vars' : List (String × List (Option ℝ))) (name name' : String) (hD : vars.lookup name = some (grid nn ne D))
    (hD' : vars'.lookup name' = some (grid nn' ne' D')) (threshold threshold' : Option ℝ) (radial radial' : Bool)
    (hm : mode.Full obs.length (2 * (100000 * (nn * ne)))) (hm' : mode'.Full obs.length (2 * (100000 * (nn' * ne'))))
    (r r' : NdArray)
    (h : tesseroidLayerGravity junk mode M fuel stack0 small0
      ⟨axis lon0 slon ne, axis lat0 slat nn, grid nn ne T, grid nn ne B, vars⟩ (arrays shape obs) "potential" radial
      false name threshold = .ok r)
    (h' : tesseroidLayerGravity junk' mode' M' fuel' stack0' small0'
      ⟨axis lon0' slon' ne', axis lat0' slat' nn', grid nn' ne' T', grid nn' ne' B', vars'⟩ (arrays shape obs) "potential"
      radial' false name' threshold' = .ok r')
    (ρ : E3 → ℝ) (hρ : SphericalBody lon0 slon lat0 slat nn ne B T D (threshold.getD 0) ρ)
    (hρ' : SphericalBody lon0' slon' lat0' slat' nn' ne' B' T' D' (threshold'.getD 0) ρ)
    (i : ℕ) (q : P3) (hq : obs[i]? = some q) (d δ δ' : ℝ) (hd : 0 < d)
    (hfar : ∀ k < nn, ∀ j < ne, ∀ a, InColumn lon0 slon lat0 slat B T k j a → d ≤ dist (sphPos q) (sphPos a))
    (hfar' : ∀ k < nn', ∀ j < ne', ∀ a, InColumn lon0' slon' lat0' slat' B' T' k j a →
      d ≤ dist (sphPos q) (sphPos a))
    (hδ : ∀ k < nn, ∀ j < ne, ∀ a a', InColumn lon0 slon lat0 slat B T k j a →
      InColumn lon0 slon lat0 slat B T k j a' → dist (sphPos a) (sphPos a') ≤ δ)
    (hδ' : ∀ k < nn', ∀ j < ne', ∀ a a', InColumn lon0' slon' lat0' slat' B' T' k j a →
      InColumn lon0' slon' lat0' slat' B' T' k j a' → dist (sphPos a) (sphPos a') ≤ δ') :
    ∃ v v', r.data[i]? = some v ∧ r'.data[i]? = some v' ∧ |v' - v| ≤
      gravitationalConst * (∫ x, |ρ x|) * ((δ + δ') / d ^ 2 +
        ((radians slat / 2) ^ 4 + (radians slat' / 2) ^ 4) / (150 * d)) := by
  obtain ⟨v, h1, h2⟩ := C146_potential junk mode M fuel stack0 small0 shape obs hshape hs hs' hn he hne B T D vars name hD
    threshold radial hm r h ρ hρ i q hq d δ hd hfar hδ
  obtain ⟨v', h1', h2'⟩ := C146_potential junk' mode' M' fuel' stack0' small0' shape obs hshape ht ht' hn' he' hne' B' T'
    D' vars' name' hD' threshold' radial' hm' r' h' ρ hρ' i q hq d δ' hd hfar' hδ'
  refine ⟨v, v', h1, h1', ?_⟩
  have := abs_sub_le v' (gravitationalConst * ∫ x, ρ x * (1 / dist (sphPos q) x)) v
  rw [abs_sub_comm v] at h2
  refine this.trans ((add_le_add h2' h2).trans (le_of_eq ?_))
  ring

/-- C146: a layer made with `tesseroid_layer` from a surface and a reference (a number or an array) whose longitudes do
not complete a turn has the gravity of the body between them: `ρ` is zero outside the region of the layer, and around
each node it is the density of the node between the lower and the higher of surface and reference. -/
theorem C146_tesseroid_layer (heap : Heap) {lon0 slon lat0 slat : ℝ} (hs : 0 < slon) (hs' : 0 < slat) {nn ne : ℕ}
    (hn : 2 ≤ nn) (he : 2 ≤ ne) (hne : ne * slon < 360) (a b : ℕ) (surface reference : ℕ → ℕ → ℝ) (R : Arr)
    (hS : heap[a]? = some ⟨.float, [nn, ne], grid nn ne fun k j => some (surface k j)⟩) (hR : heap[b]? = some R)
    (hr : (∃ r, (∀ k j, reference k j = r) ∧ R.shape = [] ∧ R.data = [some r]) ∨
      R = ⟨.float, [nn, ne], grid nn ne fun k j => some (reference k j)⟩)
    (props : List (String × Arr)) (hp : ∀ p ∈ props, p.2.shape = [nn, ne]) (name : String) (density : ℕ → ℕ → ℝ)
    (kind : Verif.Utils.Kind) (hD : props.lookup name = some ⟨kind, [nn, ne], grid nn ne fun k j => some (density k j)⟩)
    (ρ : E3 → ℝ)
    (hin : ∀ k < nn, ∀ j < ne, ∀ q : P3, |q.x - (lon0 + j * slon)| < slon / 2 → |q.y - (lat0 + k * slat)| < slat / 2 →
      -90 < q.y → q.y < 90 → 0 < q.z →
      (min (surface k j) (reference k j) ≤ q.z ∧ q.z ≤ max (surface k j) (reference k j) →
        ρ (sphPos q) = density k j) ∧
      (q.z < min (surface k j) (reference k j) ∨ max (surface k j) (reference k j) < q.z → ρ (sphPos q) = 0))
    (hout : ∀ q : P3, -90 ≤ q.y → q.y ≤ 90 → 0 ≤ q.z →
      (∀ j < ne, ∀ turns : ℤ, slon / 2 < |q.x + 360 * turns - (lon0 + j * slon)|) ∨
        (∀ k < nn, slat / 2 < |q.y - (lat0 + k * slat)|) → ρ (sphPos q) = 0) :
    ∃ heap' layer, makeLayer true heap (axis lon0 slon ne) (axis lat0 slat nn) a b props = .ok (heap', layer) ∧
      ∀ (junk : Junk) (mode : Mode) (M : Minimizer) (fuel : ℕ) (stack0 small0 : ℕ → Tess) (shape : List ℕ)
        (obs : List P3), shape.prod = obs.length → mode.Full obs.length (2 * (100000 * (nn * ne))) →
        ∀ (radial : Bool) (i : ℕ) (q : P3), obs[i]? = some q → ∀ d δ : ℝ, 0 < d →
        (∀ k < nn, ∀ j < ne, ∀ a, InColumn lon0 slon lat0 slat (fun k j => some (min (surface k j) (reference k j)))
          (fun k j => some (max (surface k j) (reference k j))) k j a → d ≤ dist (sphPos q) (sphPos a)) →
        (∀ k < nn, ∀ j < ne, ∀ a a', InColumn lon0 slon lat0 slat (fun k j => some (min (surface k j) (reference k j)))
            (fun k j => some (max (surface k j) (reference k j))) k j a →
          InColumn lon0 slon lat0 slat (fun k j => some (min (surface k j) (reference k j)))
            (fun k j => some (max (surface k j) (reference k j))) k j a' → dist (sphPos a) (sphPos a') ≤ δ) →
        (∀ r, tesseroidLayerGravity junk mode M fuel stack0 small0 layer (arrays shape obs) "potential" radial false name
            none = .ok r → ∃ v, r.data[i]? = some v ∧
          |v - gravitationalConst * ∫ x, ρ x * (1 / dist (sphPos q) x)| ≤
            gravitationalConst * (∫ x, |ρ x|) * (δ / d ^ 2 + (radians slat / 2) ^ 4 / (150 * d))) ∧
        (∀ r, tesseroidLayerGravity junk mode M fuel stack0 small0 layer (arrays shape obs) "g_z" radial false name
            none = .ok r → ∃ v, r.data[i]? = some v ∧
          |v - 10 ^ 5 * (gravitationalConst * ∫ x, ρ x * (⟪sphPos q - x, unitPos q.x q.y⟫_ℝ / dist (sphPos q) x ^ 3))| ≤
            10 ^ 5 * (gravitationalConst * (∫ x, |ρ x|) *
              (2 * δ / d ^ 3 + (radians slat / 2) ^ 4 / (150 * d ^ 2)))) := by
  have hsh : layerShape (axis lon0 slon ne) (axis lat0 slat nn) = [nn, ne] := by simp [layerShape, axis]
  have hr' : R.shape = [] ∨ R.shape = [nn, ne] := by
    rcases hr with ⟨r, -, h, -⟩ | rfl
    · exact .inl h
    · exact .inr rfl
  have href : ∀ k < nn, ∀ j < ne, refAt R (k * ne + j) = some (some (reference k j)) := by
    intro k hk j hj
    unfold refAt
    rcases hr with ⟨r, h1, h2, h3⟩ | rfl
    · rw [if_pos h2, h3, h1]; rfl
    · rw [if_neg (by simp)]
      exact grid_get nn ne k j (fun k j => some (reference k j)) hk hj
  have hreg := checkRegular_axis lon0 slon lat0 slat he hn
  have hov : true = true → checkOverlap (axis lon0 slon ne) = .ok () := fun _ => by
    rw [checkOverlap_axis lon0 slon ne hs he, if_neg (not_le.2 hne)]
  obtain ⟨heap', t, bt, R1, hu, -, -, -, hR1, ht, hb⟩ :=
    updateTopBottom_ok (layerShape (axis lon0 slon ne) (axis lat0 slat nn)) heap a b _ R hS hR hsh.symm
      (by rw [hsh]; exact hr')
  obtain ⟨heap₂, t₂, bt₂, top, bottom, hu₂, ht₂, hb₂, hmake⟩ :=
    (makeLayer_eq true heap (axis lon0 slon ne) (axis lat0 slat nn) a b props _ R hS hR hsh.symm (by rw [hsh]; exact hr')
      (by rw [hsh]; exact hp) hreg).2 hov
  rw [hu] at hu₂; cases hu₂
  rw [ht] at ht₂; cases ht₂
  rw [hb] at hb₂; cases hb₂
  obtain ⟨heap₃, layer, hmake', -, -, -, -, hval⟩ := C19_layer_partial true heap (axis lon0 slon ne) (axis lat0 slat nn) a b
    props _ R hS hR hsh.symm (by rw [hsh]; exact hr') (by rw [hsh]; simp [grid, cells_length]) (by simp)
    (by
      intro h1 h2
      rcases hr with ⟨r, -, h, -⟩ | rfl
      · exact absurd h h1
      · cases h2) (by rw [hsh]; exact hp) hreg hov
  rw [hmake] at hmake'
  cases hmake'
  have hl1 : R1.data.length = nn * ne := by
    rw [hR1, hsh]
    rcases hr with ⟨r, -, h, -⟩ | rfl
    · rw [if_pos h]; simp
    · rw [if_neg (by simp)]; simp [grid, cells_length]
  have htop := grid_ext (nn := nn) (ne := ne) (f := fun k j => some (max (surface k j) (reference k j)))
    (l := (maskedCopy ⟨.float, [nn, ne], grid nn ne fun k j => some (surface k j)⟩ R1
      (List.zipWith nanLt (grid nn ne fun k j => some (surface k j)) R1.data)).data)
    (by simp [maskedCopy, grid, cells_length, hl1])
    (fun k hk j hj => (hval _ _ _ (grid_get nn ne k j (fun k j => some (surface k j)) hk hj) (href k hk j hj)).1)
  have hbot := grid_ext (nn := nn) (ne := ne) (f := fun k j => some (min (surface k j) (reference k j)))
    (l := (maskedCopy R1 ⟨.float, [nn, ne], grid nn ne fun k j => some (surface k j)⟩
      (List.zipWith nanLt (grid nn ne fun k j => some (surface k j)) R1.data)).data)
    (by simp [maskedCopy, grid, cells_length, hl1])
    (fun k hk j hj => (hval _ _ _ (grid_get nn ne k j (fun k j => some (surface k j)) hk hj) (href k hk j hj)).2)
  have hlook : (props.map fun p => (p.1, p.2.data)).lookup name = some (grid nn ne fun k j => some (density k j)) := by
    clear hmake hval hp
    induction props with
    | nil => cases hD
    | cons p l ih =>
      obtain ⟨pn, pa⟩ := p
      rw [List.map_cons]
      rw [List.lookup_cons] at hD ⊢
      cases hn : name == pn with
      | true =>
        simp only [hn] at hD ⊢
        cases hD; rfl
      | false =>
        simp only [hn] at hD ⊢
        exact ih hD
  have hρ : SphericalBody lon0 slon lat0 slat nn ne (fun k j => some (min (surface k j) (reference k j)))
      (fun k j => some (max (surface k j) (reference k j))) (fun k j => some (density k j))
      ((none : Option ℝ).getD 0) ρ := by
    refine ⟨fun k hk j hj q hx hy y1 y2 hz => ?_, hout⟩
    obtain ⟨h1, h2⟩ := hin k hk j hj q hx hy y1 y2 hz
    have h0 : min (surface k j) (reference k j) ≤ max (surface k j) (reference k j) := min_le_max
    simp only [columnDensity, Option.getD_none, sub_nonneg, h0, true_and]
    split_ifs with hz
    · exact h1 hz
    · rcases not_and_or.1 hz with h | h
      · exact h2 (.inl (not_le.1 h))
      · exact h2 (.inr (not_le.1 h))
  refine ⟨_, _, hmake, fun junk mode M fuel stack0 small0 shape obs hshape hm radial i q hq d δ hd hfar hδ => ?_⟩
  rw [htop, hbot]
  exact ⟨fun r h => C146_potential junk mode M fuel stack0 small0 shape obs hshape hs hs' hn he hne.le _ _ _ _ name hlook
    none radial hm r h ρ hρ i q hq d δ hd hfar hδ,
    fun r h => C146_g_z junk mode M fuel stack0 small0 shape obs hshape hs hs' hn he hne.le _ _ _ _ name hlook
    none radial hm r h ρ hρ i q hq d δ hd hfar hδ⟩

/-- a layer of two by two tesseroids seen from far away: the call returns and its potential is that of the body up to
a thousandth of `G ∫ ρ / R` -/
example (junk : Junk) (M : Minimizer) (stack0 small0 : ℕ → Tess) :
    ∃ ρ : E3 → ℝ, SphericalBody 0 10 0 10 2 2 (fun _ _ => some 1) (fun _ _ => some 2) (fun _ _ => some 2670) 0 ρ ∧
    ∃ r, tesseroidLayerGravity junk .serial M 0 stack0 small0 ⟨axis 0 10 2, axis 0 10 2, grid 2 2 fun _ _ => some 2,
        grid 2 2 fun _ _ => some 1, [("density", grid 2 2 fun _ _ => some 2670)]⟩ (arrays [1] [⟨90, 0, 10000⟩])
        "potential" true false "density" none = .ok r ∧
      ∃ v, r.data[0]? = some v ∧ |v - gravitationalConst * ∫ x, ρ x * (1 / dist (sphPos ⟨90, 0, 10000⟩) x)| ≤
        0.001 * (gravitationalConst * (∫ x, |ρ x|) / 10000) := by
  have hpi := Real.pi_le_four
  have hpi0 := Real.pi_pos
  obtain ⟨ρ, hρ⟩ := sphericalBody_exists (lon0 := 0) (slon := 10) (lat0 := 0) (slat := 10) (nn := 2) (ne := 2)
    (by norm_num) (by norm_num) (by norm_num) (fun _ _ => some 1) (fun _ _ => some 2) (fun _ _ => some 2670) 0
  refine ⟨ρ, hρ, ?_⟩
  have hc := C23_gravity junk .serial M 0 stack0 small0 (arrays [1] [⟨90, 0, 10000⟩]) (nn := 2) (ne := 2) le_rfl le_rfl
    (fun j => 0 + j * 10) (fun k => 0 + k * 10) (checkRegular_axis 0 10 0 10 le_rfl le_rfl) (fun _ _ => some 1)
    (fun _ _ => some 2) (fun _ _ => some 2670) [("density", grid 2 2 fun _ _ => some 2670)] "density" rfl none "potential"
    true false
  have he : ∀ s ∈ tessElements (fun j => 0 + j * 10) (fun k => 0 + k * 10) (fun _ _ => some 1) (fun _ _ => some 2)
      (fun _ _ => some 2670) none 2 2, ∃ k < 2, ∃ j < 2, s.1 = ⟨0 + (j : ℕ) * 10 - 10 / 2, 0 + (j : ℕ) * 10 + 10 / 2,
        0 + (k : ℕ) * 10 - 10 / 2, 0 + (k : ℕ) * 10 + 10 / 2, 1, 2⟩ := by
    intro s h
    obtain ⟨k, hk, j, hj, b, hb, t, ht, d, -, rfl⟩ := mem_elements h
    cases hb
    cases ht
    exact ⟨k, hk, j, hj, rfl⟩
  obtain ⟨r, hr⟩ := spaced_returns "potential" (potentialSpherical, 1) rfl true [⟨90, 0, 10000⟩]
    (tessElements (fun j => 0 + j * 10) (fun k => 0 + k * 10) (fun _ _ => some 1) (fun _ _ => some 2)
      (fun _ _ => some 2670) none 2 2)
    (fun q => by simp [tessParams, distanceSizeRatio]; norm_num) (by
      intro s h
      obtain ⟨k, hk, j, hj, e⟩ := he s h
      rw [e]
      interval_cases k <;> interval_cases j <;> refine ⟨⟨?_, ?_, ?_, ?_, ?_, ?_, ?_⟩, ?_, ?_⟩ <;> norm_num) (by
      intro q hq
      simp only [List.mem_singleton] at hq
      subst hq
      refine ⟨by norm_num, fun s h => ?_⟩
      obtain ⟨k, hk, j, hj, e⟩ := he s h
      have hx : s.1.extent ≤ 5 := by
        rw [e]
        unfold Tess.extent
        rw [eastEnd_of_le (by simp only; linarith)]
        unfold radians
        simp only
        linarith
      rw [e] at hx ⊢
      refine ⟨?_, Or.inr (by norm_num)⟩
      rw [abs_of_pos (by norm_num)]
      norm_num
      norm_num at hx
      linarith) junk stack0 small0 M [1] (by simp)
  have hcall := Option.some_inj.1 (hc.trans hr)
  refine ⟨r, hcall, ?_⟩
  have norms : ∀ k j : ℕ, ∀ a, InColumn 0 10 0 10 (fun _ _ => some 1) (fun _ _ => some 2) k j a → ‖sphPos a‖ ≤ 2 := by
    rintro k j a ⟨-, -, b, hb, t, ht, z1, z2⟩
    cases hb
    cases ht
    rw [norm_sphPos a (by linarith)]
    exact z2
  obtain ⟨v, h1, h2⟩ := C146_potential junk .serial M 0 stack0 small0 [1] [⟨90, 0, 10000⟩] (by simp) (lon0 := 0)
    (slon := 10) (lat0 := 0) (slat := 10) (by norm_num) (by norm_num) (nn := 2) (ne := 2) le_rfl le_rfl (by norm_num)
    (fun _ _ => some 1) (fun _ _ => some 2) (fun _ _ => some 2670) _ "density" rfl none true trivial r hcall ρ hρ 0
    ⟨90, 0, 10000⟩ rfl 9998 4 (by norm_num)
    (fun k _ j _ a ha => by
      have n2 := norm_sphPos ⟨90, 0, 10000⟩ (by norm_num)
      have t1 := norm_sub_norm_le (sphPos ⟨90, 0, 10000⟩) (sphPos a)
      have n1 := norms k j a ha
      rw [dist_eq_norm]
      simp only at n2
      linarith)
    (fun k _ j _ a a' ha ha' => by
      have n1 := norms k j a ha
      have n2 := norms k j a' ha'
      rw [dist_eq_norm]
      linarith [norm_sub_le (sphPos a) (sphPos a')])
  refine ⟨v, h1, h2.trans ?_⟩
  have hG := gravitationalConst_pos
  have hI : 0 ≤ ∫ x, |ρ x| := integral_nonneg fun x => abs_nonneg _
  have hx : (radians 10 / 2) ^ 4 ≤ (1 / 9) ^ 4 := by
    refine pow_le_pow_left₀ (by unfold radians; positivity) ?_ 4
    unfold radians
    linarith
  have hk : 4 / 9998 ^ 2 + (radians 10 / 2) ^ 4 / (150 * 9998) ≤ 0.001 / 10000 := by
    have : (radians 10 / 2) ^ 4 / (150 * 9998) ≤ (1 / 9) ^ 4 / (150 * 9998) := by gcongr
    refine (add_le_add_right this _).trans ?_
    norm_num
  calc _ ≤ gravitationalConst * (∫ x, |ρ x|) * (0.001 / 10000) := by gcongr
    _ = _ := by ring

/-- the same layer, made from a surface at a radius of two and a reference of one -/
example : ∃ ρ : E3 → ℝ, ∃ heap' layer, makeLayer true
      [⟨.float, [2, 2], grid 2 2 fun _ _ => some 2⟩, ⟨.float, [], [some 1]⟩] (axis 0 10 2) (axis 0 10 2) 0 1
      [("density", ⟨.float, [2, 2], grid 2 2 fun _ _ => some 2670⟩)] = .ok (heap', layer) ∧
    ρ (sphPos ⟨10, 10, 1.5⟩) = 2670 ∧
    ∀ (junk : Junk) (M : Minimizer) (fuel : ℕ) (stack0 small0 : ℕ → Tess) (r : NdArray),
      tesseroidLayerGravity junk .serial M fuel stack0 small0 layer (arrays [1] [⟨90, 0, 10000⟩]) "g_z" true false
        "density" none = .ok r → ∃ v, r.data[0]? = some v ∧
          |v - 10 ^ 5 * (gravitationalConst * ∫ x, ρ x *
            (⟪sphPos ⟨90, 0, 10000⟩ - x, unitPos 90 0⟫_ℝ / dist (sphPos ⟨90, 0, 10000⟩) x ^ 3))| ≤
          10 ^ 5 * (gravitationalConst * (∫ x, |ρ x|) *
            (2 * 4 / 9998 ^ 3 + (radians 10 / 2) ^ 4 / (150 * 9998 ^ 2))) := by
  obtain ⟨ρ, hρ⟩ := sphericalBody_exists (lon0 := 0) (slon := 10) (lat0 := 0) (slat := 10) (nn := 2) (ne := 2)
    (by norm_num) (by norm_num) (by norm_num) (fun _ _ => some 1) (fun _ _ => some 2) (fun _ _ => some 2670) 0
  obtain ⟨heap', layer, h, hg⟩ := C146_tesseroid_layer
    [⟨.float, [2, 2], grid 2 2 fun _ _ => some 2⟩, ⟨.float, [], [some 1]⟩] (lon0 := 0) (slon := 10) (lat0 := 0)
    (slat := 10) (by norm_num) (by norm_num) (nn := 2) (ne := 2) le_rfl le_rfl (by norm_num) 0 1 (fun _ _ => 2)
    (fun _ _ => 1) _ rfl rfl (.inl ⟨1, fun _ _ => rfl, rfl, rfl⟩)
    [("density", ⟨.float, [2, 2], grid 2 2 fun _ _ => some 2670⟩)] (by simp) "density" (fun _ _ => 2670) .float rfl ρ
    (fun k hk j hj q hx hy y1 y2 hz => by
      rw [hρ.inside k hk j hj q hx hy y1 y2 hz]
      simp only [columnDensity]
      norm_num
      intro h1 h2
      rcases h1 with h1 | h1 <;> linarith) hρ.outside
  have norms : ∀ k j : ℕ, ∀ a, InColumn 0 10 0 10 (fun _ _ => some (min 2 1)) (fun _ _ => some (max 2 1)) k j a →
      ‖sphPos a‖ ≤ 2 := by
    rintro k j a ⟨-, -, b, hb, t, ht, z1, z2⟩
    cases hb
    cases ht
    norm_num at z1 z2
    rw [norm_sphPos a (by linarith)]
    exact z2
  refine ⟨ρ, heap', layer, h, ?_, fun junk M fuel stack0 small0 r hr => ?_⟩
  · rw [hρ.inside 1 (by norm_num) 1 (by norm_num) ⟨10, 10, 1.5⟩ (by norm_num) (by norm_num) (by norm_num) (by norm_num)
      (by norm_num)]
    simp only [columnDensity]
    norm_num
  · refine (hg junk .serial M fuel stack0 small0 [1] [⟨90, 0, 10000⟩] (by simp) trivial true 0 ⟨90, 0, 10000⟩ rfl 9998 4
      (by norm_num) (fun k _ j _ a ha => ?_) fun k _ j _ a a' ha ha' => ?_).2 r hr
    · have n2 := norm_sphPos ⟨90, 0, 10000⟩ (by norm_num)
      have t1 := norm_sub_norm_le (sphPos ⟨90, 0, 10000⟩) (sphPos a)
      have n1 := norms k j a ha
      rw [dist_eq_norm]
      simp only at n2
      linarith
    · have n1 := norms k j a ha
      have n2 := norms k j a' ha'
      rw [dist_eq_norm]
      linarith [norm_sub_le (sphPos a) (sphPos a')]

end Verif.Survey
