import Verif.Tesseroid.Shell

/-!
C144: models of tesseroids that fill spherical shells.
-/

namespace Verif.Tesseroid
open Verif.Distance Verif.Forward Verif.Engine MeasureTheory Set
open scoped InnerProductSpace

/-! ### specification -/

/-- Shells with their inner radius, outer radius and density, none of them at the radius of the point. -/
def Apart (shells : List (ℝ × ℝ × ℝ)) (R : ℝ) : Prop :=
  ∀ s ∈ shells, 0 ≤ s.1 ∧ s.1 ≤ s.2.1 ∧ (s.2.1 < R ∨ R < s.1)

/-- Potential of the shells at the radius `R`: that of their masses at the center for those below, and a constant
for those above. -/
noncomputable def shellsPotential (shells : List (ℝ × ℝ × ℝ)) (R : ℝ) : ℝ :=
  gravitationalConst * (shells.map fun s => s.2.2 *
    if s.2.1 < R then 4 / 3 * Real.pi * (s.2.1 ^ 3 - s.1 ^ 3) / R else 2 * Real.pi * (s.2.1 ^ 2 - s.1 ^ 2)).sum

/-- Attraction of the shells at the radius `R`, towards the center, in mGal: that of the masses of those below. -/
noncomputable def shellsAttraction (shells : List (ℝ × ℝ × ℝ)) (R : ℝ) : ℝ :=
  10 ^ 5 * (gravitationalConst * (shells.map fun s => s.2.2 *
    if s.2.1 < R then 4 / 3 * Real.pi * (s.2.1 ^ 3 - s.1 ^ 3) / R ^ 2 else 0).sum)

/-- A global grid of `n × m` tesseroids between the radii `a` and `b`, all of them with the density `ρ`. -/
noncomputable def globalGrid (n m : ℕ) (a b ρ : ℝ) : List (Tess × ℝ) :=
  (List.range n).flatMap fun i : ℕ => (List.range m).map fun j : ℕ =>
    (⟨-180 + 360 * (i : ℝ) / n, -180 + 360 * ((i : ℝ) + 1) / n, -90 + 180 * (j : ℝ) / m,
      -90 + 180 * ((j : ℝ) + 1) / m, a, b⟩, ρ)

/-! ### integrals over the bodies -/

theorem exists_lower {α : Type} (L : List α) (f : α → ℝ) (h : ∀ s ∈ L, 0 < f s) : ∃ d, 0 < d ∧ ∀ s ∈ L, d ≤ f s := by
  induction L with
  | nil => exact ⟨1, one_pos, by simp⟩
  | cons s L ih =>
    obtain ⟨d, hd, hL⟩ := ih fun s hs => h s (List.mem_cons_of_mem _ hs)
    refine ⟨min (f s) d, lt_min (h s List.mem_cons_self) hd, ?_⟩
    intro x hx
    rcases List.mem_cons.1 hx with rfl | hx
    · exact min_le_left _ _
    · exact (min_le_right _ _).trans (hL x hx)

/-- A distance from the point to all bodies and all shells. -/
theorem common_distance {srcs : List (Tess × ℝ)} {shells : List (ℝ × ℝ × ℝ)} {q : P3} (hz : 0 < q.z)
    (lo : Tess → ℝ) (hlo : ∀ s ∈ srcs, 0 < lo s.1)
    (hd : ∀ s ∈ srcs, ∀ a, s.1.Body a → lo s.1 ≤ dist (sphPos q) (sphPos a)) (hs : Apart shells q.z) :
    ∃ d, 0 < d ∧ (∀ s ∈ srcs, ∀ a, s.1.Body a → d ≤ dist (sphPos q) (sphPos a)) ∧
      ∀ s ∈ shells, ∀ x ∈ shell s.1 s.2.1, d ≤ dist (sphPos q) x := by
  obtain ⟨d1, p1, h1⟩ := exists_lower srcs (fun s => lo s.1) hlo
  obtain ⟨d2, p2, h2⟩ := exists_lower shells (fun s => if s.2.1 < q.z then q.z - s.2.1 else s.1 - q.z) (by
    intro s h
    have := (hs s h).2.2
    split_ifs with hb
    · linarith
    · linarith [this.resolve_left hb])
  refine ⟨min d1 d2, lt_min p1 p2, fun s h a ha => (min_le_left _ _).trans ((h1 s h).trans (hd s h a ha)), ?_⟩
  intro s h x hx
  refine (min_le_right _ _).trans ((h2 s h).trans ?_)
  have hn := norm_sphPos q hz.le
  have t1 := norm_sub_norm_le (sphPos q) x
  have t2 := norm_sub_norm_le x (sphPos q)
  rw [norm_sub_rev] at t2
  rw [shell, mem_ofPred_eq] at hx
  rw [dist_eq_norm]
  split_ifs with hb
  · linarith [hx.2]
  · linarith [hx.1]

/-- Bodies and shells with the same density have the same integrals. -/
theorem bodies_shells {srcs : List (Tess × ℝ)} {shells : List (ℝ × ℝ × ℝ)}
    (hv : ∀ s ∈ srcs, s.1.ValidRange ∧ s.1.ValidLon) (hs : ∀ s ∈ shells, 0 ≤ s.1 ∧ s.1 ≤ s.2.1)
    (h : ∀ᵐ x, tessDensity srcs x = shellDensity shells x) {g : E3 → ℝ} (hg : Continuous g) :
    (srcs.map fun s => s.2 * s.1.integral g).sum =
      (shells.map fun s => s.2.2 * ∫ x in shell s.1 s.2.1, g x).sum := by
  classical
  have i1 := (sum_integrals srcs Tess.region (fun s _ => isCompact_region s.1) hg (tessDensity srcs) (by
    funext x
    unfold tessDensity
    congr 1
    refine List.map_congr_left fun s _ => ?_
    by_cases hx : x ∈ s.1.region <;> simp [hx])).2
  have i2 := (sum_integrals (shells.map fun s => ((s.1, s.2.1), s.2.2)) (fun s => shell s.1 s.2) (by
    intro s hs'
    obtain ⟨s, h1, rfl⟩ := List.mem_map.1 hs'
    simp only
    rw [← full_region (hs s h1).1]
    exact isCompact_region _) hg (shellDensity shells) (by
    funext x
    unfold shellDensity
    rw [List.map_map]
    congr 1
    refine List.map_congr_left fun s _ => ?_
    by_cases hx : x ∈ shell s.1 s.2.1
    · have hx' : s.1 ≤ ‖x‖ ∧ ‖x‖ ≤ s.2.1 := hx
      simp [hx, hx']
    · have hx' : ¬ (s.1 ≤ ‖x‖ ∧ ‖x‖ ≤ s.2.1) := hx
      simp [hx, hx'])).2
  rw [List.map_map] at i2
  have e1 : (srcs.map fun s => s.2 * s.1.integral g) = srcs.map fun s => s.2 * ∫ x in s.1.region, g x :=
    List.map_congr_left fun s hs' => by rw [integral_region (hv s hs').1 (eastEnd_le_turn (hv s hs').2) hg]
  rw [e1, ← i1]
  refine Eq.trans ?_ i2
  refine integral_congr_ae ?_
  filter_upwards [h] with x hx
  rw [hx]

theorem exactPotential_shells {srcs : List (Tess × ℝ)} {shells : List (ℝ × ℝ × ℝ)} {q : P3} (hz : 0 < q.z)
    (hv : ∀ s ∈ srcs, s.1.ValidRange ∧ s.1.ValidLon) (lo : Tess → ℝ) (hlo : ∀ s ∈ srcs, 0 < lo s.1)
    (hd : ∀ s ∈ srcs, ∀ a, s.1.Body a → lo s.1 ≤ dist (sphPos q) (sphPos a)) (hs : Apart shells q.z)
    (h : ∀ᵐ x, tessDensity srcs x = shellDensity shells x) :
    exactPotential srcs q = shellsPotential shells q.z := by
  obtain ⟨d, hd0, d1, d2⟩ := common_distance hz lo hlo hd hs
  have hg : Continuous fun p : E3 => 1 / max (dist (sphPos q) p) d :=
    continuous_const.div ((continuous_const.dist continuous_id).max continuous_const)
      fun p => (lt_of_lt_of_le hd0 (le_max_right _ _)).ne'
  have key := bodies_shells hv (fun s h => ⟨(hs s h).1, (hs s h).2.1⟩) h hg
  unfold exactPotential shellsPotential
  have e1 : (srcs.map fun s => gravitationalConst * s.2 * s.1.integral fun p => 1 / dist (sphPos q) p) =
      srcs.map fun s => gravitationalConst * (s.2 * s.1.integral fun p => 1 / max (dist (sphPos q) p) d) := by
    refine List.map_congr_left fun s hs' => ?_
    rw [mul_assoc]
    congr 2
    refine integral_congr_body (good_of_range (hv s hs').1) fun a ha => ?_
    rw [max_eq_left (d1 s hs' a ha)]
  rw [e1, List.sum_map_mul_left, key]
  congr 2
  refine List.map_congr_left fun s hs' => ?_
  rw [shell_potential (hs s hs').1 (hs s hs').2.1 (norm_sphPos q hz.le) hz (hs s hs').2.2 hg fun x hx => by
    rw [max_eq_left (d2 s hs' x hx)]]
  rfl

theorem sphPos_smul (q : P3) : sphPos q = q.z • unitPos q.x q.y := by
  unfold unitPos sphPos
  ext i
  fin_cases i <;> simp <;> ring

theorem exactAttraction_shells {srcs : List (Tess × ℝ)} {shells : List (ℝ × ℝ × ℝ)} {q : P3} (hz : 0 < q.z)
    (hv : ∀ s ∈ srcs, s.1.ValidRange ∧ s.1.ValidLon) (lo : Tess → ℝ) (hlo : ∀ s ∈ srcs, 0 < lo s.1)
    (hd : ∀ s ∈ srcs, ∀ a, s.1.Body a → lo s.1 ≤ dist (sphPos q) (sphPos a)) (hs : Apart shells q.z)
    (h : ∀ᵐ x, tessDensity srcs x = shellDensity shells x) :
    exactAttraction srcs q = shellsAttraction shells q.z := by
  obtain ⟨d, hd0, d1, d2⟩ := common_distance hz lo hlo hd hs
  have hg : Continuous fun p : E3 => ⟪sphPos q - p, unitPos q.x q.y⟫_ℝ / max (dist (sphPos q) p) d ^ 3 :=
    ((continuous_const.sub continuous_id).inner continuous_const).div
      (((continuous_const.dist continuous_id).max continuous_const).pow 3)
      fun p => (pow_pos (lt_of_lt_of_le hd0 (le_max_right _ _)) 3).ne'
  have key := bodies_shells hv (fun s h => ⟨(hs s h).1, (hs s h).2.1⟩) h hg
  unfold exactAttraction shellsAttraction
  have e1 : (srcs.map fun s => gravitationalConst * s.2 *
        s.1.integral fun p => ⟪sphPos q - p, unitPos q.x q.y⟫_ℝ / dist (sphPos q) p ^ 3) =
      srcs.map fun s => gravitationalConst * (s.2 *
        s.1.integral fun p => ⟪sphPos q - p, unitPos q.x q.y⟫_ℝ / max (dist (sphPos q) p) d ^ 3) := by
    refine List.map_congr_left fun s hs' => ?_
    rw [mul_assoc]
    congr 2
    refine integral_congr_body (good_of_range (hv s hs').1) fun a ha => ?_
    rw [max_eq_left (d1 s hs' a ha)]
  rw [e1, List.sum_map_mul_left, key]
  congr 3
  refine List.map_congr_left fun s hs' => ?_
  rw [shell_attraction (hs s hs').1 (hs s hs').2.1 (sphPos_smul q) (norm_unitPos q.x q.y) hz (hs s hs').2.2 hg
    fun x hx => by rw [max_eq_left (d2 s hs' x hx)]]
  rfl

/-! ### models that fill a shell -/

theorem shell_volume (a b : ℝ) : (full a b).bodyVolume = shellVolume a b := by
  unfold Tess.bodyVolume
  rw [full_east]
  simp only [full, rad90, rad90', integral_cos, integral_pow, Real.sin_neg, Real.sin_pi_div_two]
  unfold radians shellVolume
  push_cast
  ring

/-- Tesseroids that cover a shell and have the same volume. -/
theorem fills (L : List Tess) {a b : ℝ} (ρ : ℝ) (ha : 0 ≤ a) (hab : a ≤ b)
    (hv : ∀ t ∈ L, t.ValidRange ∧ t.ValidLon) (hcov : ∀ x ∈ shell a b, ∃ t ∈ L, x ∈ t.region)
    (hvol : (L.map Tess.bodyVolume).sum = shellVolume a b) :
    ∀ᵐ x, tessDensity (L.map fun t => (t, ρ)) x = shellDensity [(a, b, ρ)] x := by
  classical
  let cnt : List Tess → E3 → ℝ := fun L x => (L.map fun t => t.region.indicator (1 : E3 → ℝ) x).sum
  have hcnt : ∀ L : List Tess, (∀ t ∈ L, t.ValidRange ∧ t.ValidLon) →
      Integrable (cnt L) ∧ ∫ x, cnt L x = (L.map Tess.bodyVolume).sum := by
    intro L hv
    have h := sum_integrals (L.map fun t => (t, (1 : ℝ))) Tess.region (fun s _ => isCompact_region s.1)
      (g := fun _ => 1) continuous_const (cnt L) (by
        funext x
        simp only [cnt, List.map_map]
        congr 1
        refine List.map_congr_left fun s _ => ?_
        simp)
    simp only [mul_one] at h
    refine ⟨h.1, h.2.trans ?_⟩
    rw [List.map_map]
    congr 1
    refine List.map_congr_left fun t ht => ?_
    simp only [Function.comp, one_mul]
    rw [← integral_region (g := fun _ => 1) (hv t ht).1 (eastEnd_le_turn (hv t ht).2) continuous_const,
      integral_const_body, one_mul]
  have h1 := hcnt L hv
  have h2 := hcnt [full a b] (by simpa using full_valid ha hab)
  have hle : ∀ x, cnt [full a b] x ≤ cnt L x := by
    intro x
    have hnn : ∀ y ∈ L.map fun t => t.region.indicator (1 : E3 → ℝ) x, 0 ≤ y := by
      intro y hy
      obtain ⟨t, -, rfl⟩ := List.mem_map.1 hy
      exact indicator_nonneg (fun _ _ => by simp) _
    simp only [cnt, List.map_cons, List.map_nil, List.sum_cons, List.sum_nil, add_zero, full_region ha]
    by_cases hx : x ∈ shell a b
    · obtain ⟨t, ht, hxt⟩ := hcov x hx
      rw [indicator_of_mem hx]
      refine le_trans (le_of_eq ?_) (List.single_le_sum hnn _ (List.mem_map_of_mem ht))
      rw [indicator_of_mem hxt]
    · rw [indicator_of_notMem hx]
      exact List.sum_nonneg hnn
  have hae : cnt [full a b] =ᵐ[volume] cnt L := by
    rw [← integral_eq_iff_of_ae_le h2.1 h1.1 (Filter.Eventually.of_forall hle), h1.2, h2.2, hvol]
    simp [shell_volume]
  filter_upwards [hae] with x hx
  have e1 : tessDensity (L.map fun t => (t, ρ)) x = ρ * cnt L x := by
    simp only [tessDensity, cnt, List.map_map, ← List.sum_map_mul_left]
    congr 1
    refine List.map_congr_left fun t _ => ?_
    by_cases h : x ∈ t.region <;> simp [h]
  have e2 : shellDensity [(a, b, ρ)] x = ρ * cnt [full a b] x := by
    simp only [shellDensity, cnt, List.map_cons, List.map_nil, List.sum_cons, List.sum_nil, add_zero, full_region ha]
    by_cases h : x ∈ shell a b
    · have h' : a ≤ ‖x‖ ∧ ‖x‖ ≤ b := h
      simp [h, h']
    · have h' : ¬ (a ≤ ‖x‖ ∧ ‖x‖ ≤ b) := h
      simp [h, h']
  rw [e1, e2, hx]

theorem sum_map_flatMap {α β : Type} (L : List α) (f : α → List β) (g : β → ℝ) :
    ((L.flatMap f).map g).sum = (L.map fun x => ((f x).map g).sum).sum := by
  induction L with
  | nil => rfl
  | cons x L ih => rw [List.flatMap_cons, List.map_append, List.sum_append, ih]; rfl

theorem tessDensity_append (L L' : List (Tess × ℝ)) (x : E3) :
    tessDensity (L ++ L') x = tessDensity L x + tessDensity L' x := by
  simp [tessDensity]

/-- A node of a uniform division of an interval below a point. -/
theorem exists_cell {n : ℕ} (hn : 0 < n) {x : ℝ} (h0 : 0 ≤ x) (h1 : x ≤ 1) :
    ∃ i < n, (i : ℝ) / n ≤ x ∧ x ≤ ((i : ℝ) + 1) / n := by
  have hn' : (0 : ℝ) < n := by exact_mod_cast hn
  rcases h1.lt_or_eq with h1 | rfl
  · refine ⟨⌊x * n⌋₊, ?_, ?_, ?_⟩
    · rw [Nat.floor_lt (by positivity)]
      nlinarith
    · rw [div_le_iff₀ hn']
      exact Nat.floor_le (by positivity)
    · rw [le_div_iff₀ hn']
      exact (Nat.lt_floor_add_one _).le
  · refine ⟨n - 1, by omega, ?_, ?_⟩
    · rw [div_le_one hn']
      exact_mod_cast Nat.sub_le n 1
    · rw [one_le_div hn']
      have : n - 1 + 1 = n := by omega
      exact_mod_cast this.ge

theorem cell_bounds {n i : ℕ} (hi : i < n) : 0 ≤ (i : ℝ) / n ∧ ((i : ℝ) + 1) / n ≤ 1 ∧
    ((i : ℝ) + 1) / n - (i : ℝ) / n = 1 / n := by
  have hn' : (0 : ℝ) < n := by exact_mod_cast (by omega : 0 < n)
  refine ⟨by positivity, ?_, by ring⟩
  rw [div_le_one hn']
  exact_mod_cast hi

/-- The cells of the global grid. -/
noncomputable def cell (n m i j : ℕ) (a b : ℝ) : Tess :=
  ⟨-180 + 360 * (i : ℝ) / n, -180 + 360 * ((i : ℝ) + 1) / n, -90 + 180 * (j : ℝ) / m,
    -90 + 180 * ((j : ℝ) + 1) / m, a, b⟩

/-- The cells of the global grid. -/
noncomputable def gridCells (n m : ℕ) (a b : ℝ) : List Tess :=
  (List.range n).flatMap fun i => (List.range m).map fun j => cell n m i j a b

theorem globalGrid_eq (n m : ℕ) (a b ρ : ℝ) : globalGrid n m a b ρ = (gridCells n m a b).map fun t => (t, ρ) := by
  unfold globalGrid gridCells
  rw [List.map_flatMap]
  congr 1
  funext i
  rw [List.map_map]
  rfl

theorem mem_gridCells {n m : ℕ} {a b : ℝ} {t : Tess} : t ∈ gridCells n m a b ↔ ∃ i < n, ∃ j < m, t = cell n m i j a b := by
  unfold gridCells
  simp only [List.mem_flatMap, List.mem_range, List.mem_map]
  constructor
  · rintro ⟨i, hi, j, hj, rfl⟩
    exact ⟨i, hi, j, hj, rfl⟩
  · rintro ⟨i, hi, j, hj, rfl⟩
    exact ⟨i, hi, j, hj, rfl⟩

theorem cell_east {n m i j : ℕ} (hi : i < n) (a b : ℝ) :
    eastEnd (cell n m i j a b).w (cell n m i j a b).e = -180 + 360 * ((i : ℝ) + 1) / n := by
  have h := cell_bounds hi
  have hn' : (0 : ℝ) < n := by exact_mod_cast (by omega : 0 < n)
  refine eastEnd_of_le ?_
  simp only [cell]
  rw [mul_div_assoc, mul_div_assoc]
  have : 0 < 1 / (n : ℝ) := by positivity
  linarith [h.2.2]

theorem cell_valid {n m i j : ℕ} (hi : i < n) (hj : j < m) {a b : ℝ} (ha : 0 ≤ a) (hab : a ≤ b) :
    (cell n m i j a b).ValidRange ∧ (cell n m i j a b).ValidLon := by
  obtain ⟨x1, x2, x3⟩ := cell_bounds hi
  obtain ⟨y1, y2, y3⟩ := cell_bounds hj
  have hn' : (0 : ℝ) < 1 / n := by have : (0 : ℝ) < n := by exact_mod_cast (by omega : 0 < n)
                                   positivity
  have hm' : (0 : ℝ) < 1 / m := by have : (0 : ℝ) < m := by exact_mod_cast (by omega : 0 < m)
                                   positivity
  refine ⟨⟨?_, ?_, ?_, ⟨ha, ha.trans hab⟩, hab, ?_, ?_⟩, Or.inl ?_⟩ <;>
    simp only [cell, mul_div_assoc] <;> first | constructor <;> linarith | linarith

theorem cell_volume {n m i j : ℕ} (hi : i < n) (a b : ℝ) : (cell n m i j a b).bodyVolume =
    (b ^ 3 - a ^ 3) / 3 * (2 * Real.pi / n) * (Real.sin (radians (-90 + 180 * ((j : ℝ) + 1) / m)) -
      Real.sin (radians (-90 + 180 * (j : ℝ) / m))) := by
  unfold Tess.bodyVolume
  rw [cell_east hi]
  simp only [cell, integral_cos, integral_pow]
  rw [show -180 + 360 * ((i : ℝ) + 1) / n - (-180 + 360 * (i : ℝ) / n) = 360 / n by ring]
  rw [show radians (360 / n) = 2 * Real.pi / n by unfold radians; ring]
  push_cast
  ring

theorem cells_volume {n m : ℕ} (hn : 0 < n) (hm : 0 < m) (a b : ℝ) :
    ((gridCells n m a b).map Tess.bodyVolume).sum = shellVolume a b := by
  have hn' : (n : ℝ) ≠ 0 := by exact_mod_cast hn.ne'
  have hm' : (m : ℝ) ≠ 0 := by exact_mod_cast hm.ne'
  have row : ∀ i ∈ List.range n, (((List.range m).map fun j => cell n m i j a b).map Tess.bodyVolume).sum =
      (b ^ 3 - a ^ 3) / 3 * (2 * Real.pi / n) * 2 := by
    intro i hi
    rw [List.map_map]
    have e : (List.range m).map (Tess.bodyVolume ∘ fun j => cell n m i j a b) = (List.range m).map fun j : ℕ =>
        (b ^ 3 - a ^ 3) / 3 * (2 * Real.pi / n) * (Real.sin (radians (-90 + 180 * (((j + 1 : ℕ) : ℝ)) / m)) -
          Real.sin (radians (-90 + 180 * (j : ℝ) / m))) := by
      refine List.map_congr_left fun j _ => ?_
      rw [Function.comp, cell_volume (List.mem_range.1 hi)]
      push_cast
      rfl
    rw [e, List.sum_map_mul_left]
    congr 1
    have := Finset.sum_range_sub (fun j : ℕ => Real.sin (radians (-90 + 180 * (j : ℝ) / m))) m
    rw [Finset.sum_range] at this
    rw [← List.sum_ofFn] at this
    rw [show (List.range m).map (fun j : ℕ => Real.sin (radians (-90 + 180 * (((j + 1 : ℕ) : ℝ)) / m)) -
          Real.sin (radians (-90 + 180 * (j : ℝ) / m))) = List.ofFn fun j : Fin m =>
        Real.sin (radians (-90 + 180 * ((((j : ℕ) + 1 : ℕ) : ℝ)) / m)) -
          Real.sin (radians (-90 + 180 * ((j : ℕ) : ℝ) / m)) from by
      rw [List.ofFn_eq_map, ← List.map_coe_finRange_eq_range, List.map_map]; rfl]
    rw [this, mul_div_assoc, div_self hm']
    rw [show (-90 : ℝ) + 180 * 1 = 90 by norm_num, rad90]
    rw [show (-90 : ℝ) + 180 * ((0 : ℕ) : ℝ) / m = -90 by simp, rad90', Real.sin_neg, Real.sin_pi_div_two]
    norm_num
  unfold gridCells
  rw [sum_map_flatMap, List.map_congr_left row]
  simp only [List.map_const', List.length_range, List.sum_replicate, nsmul_eq_mul]
  unfold shellVolume
  field_simp
  ring

theorem cells_cover {n m : ℕ} (hn : 0 < n) (hm : 0 < m) {a b : ℝ} {x : E3} (hx : x ∈ shell a b) :
    ∃ t ∈ gridCells n m a b, x ∈ t.region := by
  obtain ⟨l, hl, φ, hφ, e⟩ := exists_rpos x
  have hpi := Real.pi_pos
  obtain ⟨i, hi, i1, i2⟩ := exists_cell hn (x := (l + Real.pi) / (2 * Real.pi))
    (div_nonneg (by linarith [hl.1]) (by linarith)) (by rw [div_le_one (by linarith)]; linarith [hl.2])
  obtain ⟨j, hj, j1, j2⟩ := exists_cell hm (x := (φ + Real.pi / 2) / Real.pi)
    (div_nonneg (by linarith [hφ.1]) hpi.le) (by rw [div_le_one hpi]; linarith [hφ.2])
  rw [le_div_iff₀ (by linarith)] at i1 j1
  rw [div_le_iff₀ (by linarith)] at i2 j2
  refine ⟨cell n m i j a b, mem_gridCells.2 ⟨i, hi, j, hj, rfl⟩, ?_⟩
  obtain ⟨q, hq, hpos⟩ := box_body (t := cell n m i j a b) (r := ‖x‖) (φ := φ) (l := l) hx
    (by
      simp only [cell, mul_div_assoc, radians]
      constructor <;> linarith)
    (by
      rw [cell_east hi]
      simp only [cell, mul_div_assoc, radians]
      constructor <;> linarith)
  exact ⟨q, hq, by rw [hpos, ← e]⟩

/-! ### the properties -/

/-- C144: a global grid of tesseroids fills a spherical shell. -/
theorem C144_grid {n m : ℕ} (hn : 0 < n) (hm : 0 < m) {a b : ℝ} (ρ : ℝ) (ha : 0 ≤ a) (hab : a ≤ b) :
    ∀ᵐ x, tessDensity (globalGrid n m a b ρ) x = shellDensity [(a, b, ρ)] x := by
  rw [globalGrid_eq]
  refine fills _ ρ ha hab ?_ (fun x hx => cells_cover hn hm hx) (cells_volume hn hm a b)
  intro t ht
  obtain ⟨i, hi, j, hj, rfl⟩ := mem_gridCells.1 ht
  exact cell_valid hi hj ha hab

/-- C144: the potential of tesseroids that fill spherical shells with uniform densities (the density of the model
is that of the shells at almost every point of space) is the one of the shells, `G M / R` for shells below the
point and a constant for shells above it, with the error of the approximation by point masses
(see `C142_potential`). -/
theorem C144_potential (junk : Junk) (m : Mode) (Mz : Minimizer) (fuel : ℕ)
    (stack0 small0 : ℕ → Tess) (shape : List ℕ) (obs : List P3)
    (hshape : shape.prod = obs.length) (srcs : List (Tess × ℝ)) (radial : Bool)
    (hm : m.Full obs.length (2 * (100000 * srcs.length))) (r : NdArray)
    (h : tesseroidGravity junk m Mz fuel stack0 small0 (arrays shape obs) (srcs.map (·.1))
        (.values (srcs.map (·.2))) "potential" radial false = some (.ok r))
    (i : ℕ) (q : P3) (hq : obs[i]? = some q) (hz : 0 < q.z) (lo δ : Tess → ℝ) (hlo : ∀ s ∈ srcs, 0 < lo s.1)
    (hd : ∀ s ∈ srcs, ∀ a, s.1.Body a → lo s.1 ≤ dist (sphPos q) (sphPos a))
    (hδ : ∀ s ∈ srcs, ∀ a b, s.1.Body a → s.1.Body b → dist (sphPos a) (sphPos b) ≤ δ s.1)
    (shells : List (ℝ × ℝ × ℝ)) (hs : Apart shells q.z)
    (hfill : ∀ᵐ x, tessDensity srcs x = shellDensity shells x) :
    ∃ v, r.data[i]? = some v ∧ |v - shellsPotential shells q.z| ≤
      (srcs.map fun s => gravitationalConst * |s.2| * s.1.bodyVolume *
        (δ s.1 / lo s.1 ^ 2 + s.1.halfLat ^ 4 / (150 * lo s.1))).sum := by
  have hret := (returns_of_ok (kc := (potentialSpherical, 1)) rfl hshape hm h).1
  rw [← exactPotential_shells hz (checked hret) lo hlo hd hs hfill]
  exact C142_potential junk m Mz fuel stack0 small0 shape obs hshape srcs radial hm r h i q hq lo δ hlo hd hδ

/-- C144: the same for the attraction: `G M / R²` (in mGal, downwards) where `M` is the mass of the shells below the
point, and nothing from the shells above it, with the error of the approximation by point masses
(see `C142_g_z`). -/
theorem C144_g_z (junk : Junk) (m : Mode) (Mz : Minimizer) (fuel : ℕ)
    (stack0 small0 : ℕ → Tess) (shape : List ℕ) (obs : List P3)
    (hshape : shape.prod = obs.length) (srcs : List (Tess × ℝ)) (radial : Bool)
    (hm : m.Full obs.length (2 * (100000 * srcs.length))) (r : NdArray)
    (h : tesseroidGravity junk m Mz fuel stack0 small0 (arrays shape obs) (srcs.map (·.1))
        (.values (srcs.map (·.2))) "g_z" radial false = some (.ok r))
    (i : ℕ) (q : P3) (hq : obs[i]? = some q) (hz : 0 < q.z) (lo δ : Tess → ℝ) (hlo : ∀ s ∈ srcs, 0 < lo s.1)
    (hd : ∀ s ∈ srcs, ∀ a, s.1.Body a → lo s.1 ≤ dist (sphPos q) (sphPos a))
    (hδ : ∀ s ∈ srcs, ∀ a b, s.1.Body a → s.1.Body b → dist (sphPos a) (sphPos b) ≤ δ s.1)
    (shells : List (ℝ × ℝ × ℝ)) (hs : Apart shells q.z)
    (hfill : ∀ᵐ x, tessDensity srcs x = shellDensity shells x) :
    ∃ v, r.data[i]? = some v ∧ |v - shellsAttraction shells q.z| ≤
      10 ^ 5 * (srcs.map fun s => gravitationalConst * |s.2| * s.1.bodyVolume *
        (2 * δ s.1 / lo s.1 ^ 3 + s.1.halfLat ^ 4 / (150 * lo s.1 ^ 2))).sum := by
  have hret := (returns_of_ok (kc := (gravityUSpherical, -10 ^ 5)) rfl hshape hm h).1
  rw [← exactAttraction_shells hz (checked hret) lo hlo hd hs hfill]
  exact C142_g_z junk m Mz fuel stack0 small0 shape obs hshape srcs radial hm r h i q hq lo δ hlo hd hδ

theorem layers_fill {n m : ℕ} (hn : 0 < n) (hm : 0 < m) (shells : List (ℝ × ℝ × ℝ))
    (hs : ∀ s ∈ shells, 0 ≤ s.1 ∧ s.1 ≤ s.2.1) :
    ∀ᵐ x, tessDensity (shells.flatMap fun s => globalGrid n m s.1 s.2.1 s.2.2) x = shellDensity shells x := by
  induction shells with
  | nil => exact Filter.Eventually.of_forall fun x => by simp [tessDensity, shellDensity]
  | cons s L ih =>
    have h0 := hs s List.mem_cons_self
    filter_upwards [ih fun s hs' => hs s (List.mem_cons_of_mem _ hs'), C144_grid hn hm s.2.2 h0.1 h0.2] with x h1 h2
    rw [List.flatMap_cons, tessDensity_append, h1, h2]
    simp [shellDensity]

/-- C144 for a model of concentric layers, each of them a global grid of `n × m` tesseroids with a uniform density,
seen from above: the potential is `G M / R`, where `M` is the total mass, with an explicit error that goes to zero
when the cells get smaller. `B` is the largest radius of the layers and `τ` the largest thickness. -/
theorem C144_global (junk : Junk) (md : Mode) (Mz : Minimizer) (fuel : ℕ)
    (stack0 small0 : ℕ → Tess) (shape : List ℕ) (obs : List P3)
    (hshape : shape.prod = obs.length) (n m : ℕ) (hn : 0 < n) (hm : 0 < m) (shells : List (ℝ × ℝ × ℝ)) (radial : Bool)
    (srcs : List (Tess × ℝ)) (hsrcs : srcs = shells.flatMap fun s => globalGrid n m s.1 s.2.1 s.2.2)
    (hmd : md.Full obs.length (2 * (100000 * srcs.length))) (r : NdArray)
    (h : tesseroidGravity junk md Mz fuel stack0 small0 (arrays shape obs) (srcs.map (·.1))
        (.values (srcs.map (·.2))) "potential" radial false = some (.ok r))
    (B τ : ℝ) (hs : ∀ s ∈ shells, 0 ≤ s.1 ∧ s.1 ≤ s.2.1 ∧ s.2.1 ≤ B ∧ s.2.1 - s.1 ≤ τ)
    (i : ℕ) (q : P3) (hq : obs[i]? = some q) (hB0 : 0 ≤ B) (hB : B < q.z) :
    ∃ v, r.data[i]? = some v ∧
      |v - gravitationalConst * (shells.map fun s => s.2.2 * (4 / 3 * Real.pi * (s.2.1 ^ 3 - s.1 ^ 3))).sum / q.z| ≤
        gravitationalConst * (shells.map fun s => |s.2.2| * (4 / 3 * Real.pi * (s.2.1 ^ 3 - s.1 ^ 3))).sum *
          ((τ + B * Real.pi / m + B * (2 * Real.pi) / n) / (q.z - B) ^ 2 +
            (Real.pi / (2 * m)) ^ 4 / (150 * (q.z - B))) := by
  have hmem : ∀ s ∈ srcs, ∃ c ∈ shells, ∃ i < n, ∃ j < m, s.1 = cell n m i j c.1 c.2.1 := by
    intro s hs'
    rw [hsrcs] at hs'
    obtain ⟨c, hc, hs'⟩ := List.mem_flatMap.1 hs'
    rw [globalGrid_eq] at hs'
    obtain ⟨t, ht, rfl⟩ := List.mem_map.1 hs'
    obtain ⟨i, hi, j, hj, rfl⟩ := mem_gridCells.1 ht
    exact ⟨c, hc, i, hi, j, hj, rfl⟩
  have hpi := Real.pi_pos
  have hn' : (0 : ℝ) < n := by exact_mod_cast hn
  have hm' : (0 : ℝ) < m := by exact_mod_cast hm
  obtain ⟨v, h1, h2⟩ := C142_above junk md Mz fuel stack0 small0 shape obs hshape srcs radial hmd r h i q hq B
    (τ + B * Real.pi / m + B * (2 * Real.pi) / n) (Real.pi / (2 * m)) hB0 hB (fun s hs' => by
      obtain ⟨c, hc, i, hi, j, hj, e⟩ := hmem s hs'
      rw [e]
      exact (hs c hc).2.2.1) (fun s hs' => by
      obtain ⟨c, hc, i, hi, j, hj, e⟩ := hmem s hs'
      obtain ⟨c1, c2, c3, c4⟩ := hs c hc
      rw [e]
      unfold Tess.extent
      rw [cell_east hi]
      simp only [cell]
      rw [show -180 + 360 * ((i : ℝ) + 1) / n - (-180 + 360 * (i : ℝ) / n) = 360 / n by ring,
        show -90 + 180 * ((j : ℝ) + 1) / m - (-90 + 180 * (j : ℝ) / m) = 180 / m by ring,
        show radians (360 / n) = 2 * Real.pi / n by unfold radians; ring,
        show radians (180 / m) = Real.pi / m by unfold radians; ring]
      have k1 := mul_le_mul_of_nonneg_right c3 (show 0 ≤ Real.pi / m by positivity)
      have k2 := mul_le_mul_of_nonneg_right c3 (show 0 ≤ 2 * Real.pi / n by positivity)
      rw [mul_div_assoc B, mul_div_assoc B]
      linarith) (fun s hs' => by
      obtain ⟨c, hc, i, hi, j, hj, e⟩ := hmem s hs'
      rw [e]
      unfold Tess.halfLat
      simp only [cell, radians]
      refine le_of_eq ?_
      field_simp
      ring)
  have hM : ∀ f : ℝ → ℝ, (srcs.map fun s => f s.2 * s.1.bodyVolume).sum =
      (shells.map fun s => f s.2.2 * shellVolume s.1 s.2.1).sum := by
    intro f
    rw [hsrcs, sum_map_flatMap]
    congr 1
    refine List.map_congr_left fun s _ => ?_
    rw [globalGrid_eq, List.map_map, ← cells_volume hn hm s.1 s.2.1, ← List.sum_map_mul_left]
    rfl
  have hret := (returns_of_ok (kc := (potentialSpherical, 1)) rfl hshape hmd h).1
  have hapart : Apart shells q.z := fun s hs' =>
    ⟨(hs s hs').1, (hs s hs').2.1, Or.inl (lt_of_le_of_lt (hs s hs').2.2.1 hB)⟩
  have hx := exactPotential_shells (lt_of_le_of_lt hB0 hB) (checked hret) (fun _ => q.z - B)
    (fun _ _ => by linarith) (fun s hs' a ha => by
      obtain ⟨c, hc, i, hi, j, hj, e⟩ := hmem s hs'
      obtain ⟨c1, c2, c3, c4⟩ := hs c hc
      rw [e] at ha
      obtain ⟨-, -, a5, a6⟩ := ha
      simp only [cell] at a5 a6
      have n1 := norm_sphPos a (c1.trans a5)
      have n2 := norm_sphPos q (by linarith)
      have t1 := norm_sub_norm_le (sphPos q) (sphPos a)
      rw [dist_eq_norm]
      linarith) hapart
    (by rw [hsrcs]; exact layers_fill hn hm shells fun s hs' => ⟨(hs s hs').1, (hs s hs').2.1⟩)
  refine ⟨v, h1, ?_⟩
  rw [hx] at h2
  have e1 : shellsPotential shells q.z =
      gravitationalConst * (shells.map fun s => s.2.2 * (4 / 3 * Real.pi * (s.2.1 ^ 3 - s.1 ^ 3))).sum / q.z := by
    unfold shellsPotential
    rw [mul_div_assoc, div_eq_mul_inv (List.sum _), ← List.sum_map_mul_right]
    congr 2
    refine List.map_congr_left fun s hs' => ?_
    rw [if_pos (lt_of_le_of_lt (hs s hs').2.2.1 hB)]
    ring
  have e2 : massOf (srcs.map fun s => (s.1, |s.2|)) =
      (shells.map fun s => |s.2.2| * (4 / 3 * Real.pi * (s.2.1 ^ 3 - s.1 ^ 3))).sum := by
    unfold massOf
    rw [List.map_map]
    exact hM fun x => |x|
  rw [e1, e2] at h2
  exact h2

/-! ### calls that return -/

theorem sizeLon_le {t : Tess} (h : t.Proper) : t.sizeLon ≤ t.top * radians (t.e - t.w) := by
  have htop : 0 < t.top := lt_of_le_of_lt h.bottom h.bt
  refine mul_le_mul_of_nonneg_left ?_ htop.le
  by_cases hpi : Real.pi ≤ radians (t.e - t.w)
  · exact (InnerProductGeometry.angle_le_pi _ _).trans hpi
  have h0 : 0 ≤ radians (t.e - t.w) := by
    unfold radians
    have := Real.pi_pos
    exact mul_nonneg (by linarith [h.we]) (by positivity)
  rw [← Real.arccos_cos h0 (not_le.1 hpi).le]
  unfold InnerProductGeometry.angle
  rw [inner_unitPos, norm_unitPos, norm_unitPos, radians_sub]
  refine Real.arccos_le_arccos ?_
  rw [mul_one, div_one]
  set c := radians ((t.s + t.n) / 2)
  have h1 := Real.cos_le_one (radians t.e - radians t.w)
  have h2 := Real.sin_sq_add_cos_sq c
  have h3 := mul_nonneg (sq_nonneg (Real.sin c)) (sub_nonneg.2 h1)
  have h4 : Real.sin c * Real.sin c + Real.cos c * Real.cos c * Real.cos (radians t.e - radians t.w) -
      Real.cos (radians t.e - radians t.w) = Real.sin c ^ 2 * (1 - Real.cos (radians t.e - radians t.w)) := by
    linear_combination Real.cos (radians t.e - radians t.w) * h2
  linarith

/-- Calls with points above or below all the bodies, at distances from their middle radii of more than two and a half
times their sizes, return. -/
theorem spaced_returns (field : String) (kc : SphKernel × ℝ) (htab : tessFieldTable field = some kc) (radial : Bool)
    (obs : List P3) (srcs : List (Tess × ℝ))
    (hr : ∀ q, 0 ≤ (tessParams field radial q).ratio ∧ (tessParams field radial q).ratio ≤ 2.5)
    (hv : ∀ s ∈ srcs, s.1.Proper ∧ -180 ≤ s.1.w ∧ s.1.e ≤ 360)
    (hobs : ∀ q ∈ obs, 0 ≤ q.z ∧ ∀ s ∈ srcs, 2.5 * s.1.extent ≤ |q.z - (s.1.bottom + s.1.top) / 2| ∧
      (q.z ≤ s.1.bottom ∨ s.1.top ≤ q.z))
    (junk : Junk) (stack0 small0 : ℕ → Tess) (M : Minimizer) (shape : List ℕ) (hshape : shape.prod = obs.length) :
    ∃ r, tesseroidGravity junk .serial M 0 stack0 small0 (arrays shape obs) (srcs.map (·.1))
      (.values (srcs.map (·.2))) field radial false = some (.ok r) := by
  have hus : ∀ s ∈ srcs, (usedSrc false s).1 = s.1 := by
    intro s hs
    unfold usedSrc
    rw [usedTess_false, normLon_of_le (hv s hs).1.we.le]
  refine ⟨_, (tesseroidGravity_form field kc htab junk .serial M 0 stack0 small0 shape obs hshape srcs radial false
    trivial).1 ⟨Or.inr ⟨?_, ?_⟩, ?_⟩⟩
  · intro t ht
    obtain ⟨s, hs, rfl⟩ := List.mem_map.1 ht
    obtain ⟨hp, hw, he⟩ := hv s hs
    exact ⟨⟨⟨hp.south, by linarith [hp.sn, hp.north]⟩, ⟨by linarith [hp.sn, hp.south], hp.north⟩, hp.sn.le,
      ⟨hp.bottom, by linarith [hp.bottom, hp.bt]⟩, hp.bt.le, ⟨hw, by linarith [hp.we]⟩, ⟨by linarith [hp.we], he⟩⟩,
      Or.inl ⟨hp.we.le, hp.width.le⟩⟩
  · rintro ⟨q, hq, t, ht, hc⟩
    obtain ⟨t', ht', rfl⟩ := List.mem_map.1 ht
    obtain ⟨s, hs, rfl⟩ := List.mem_map.1 ht'
    obtain ⟨hp, hw, he⟩ := hv s hs
    rw [usedTess_false, normLon_of_le hp.we.le, conflict_iff _ _ hw he] at hc
    rcases ((hobs q hq).2 s hs).2 with h | h
    · linarith [hc.2.2.1]
    · linarith [hc.2.2.2]
  · intro q hq s hs1
    obtain ⟨s, hs, rfl⟩ := List.mem_map.1 (List.mem_filter.1 hs1).1
    rw [hus s hs]
    obtain ⟨hp, hw, he⟩ := hv s hs
    obtain ⟨hz, hall⟩ := hobs q hq
    have hfar := (hall s hs).1
    have htop : 0 ≤ s.1.top := by linarith [hp.bottom, hp.bt]
    have hP : 1 ≤ (tessParams field radial q).stackSize := by
      show 1 ≤ STACK_SIZE; unfold STACK_SIZE; omega
    have hS : 1 ≤ (tessParams field radial q).smallSize := by
      show 1 ≤ MAX_DISCRETIZATIONS; unfold MAX_DISCRETIZATIONS; omega
    have hd : 2.5 * s.1.extent ≤ s.1.centreDistance q := by
      refine hfar.trans ?_
      unfold Tess.centreDistance
      have n1 := norm_sphPos ⟨(s.1.w + s.1.e) / 2, (s.1.s + s.1.n) / 2, (s.1.bottom + s.1.top) / 2⟩ (by
        simp only; linarith [hp.bottom])
      have n2 := norm_sphPos q hz
      have t1 := abs_norm_sub_norm_le (sphPos q)
        (sphPos ⟨(s.1.w + s.1.e) / 2, (s.1.s + s.1.n) / 2, (s.1.bottom + s.1.top) / 2⟩)
      rw [n1, n2] at t1
      rw [dist_eq_norm]
      exact t1
    obtain ⟨r0, r1⟩ := hr q
    have size : ∀ x, 0 ≤ x → x ≤ s.1.extent → (tessParams field radial q).ratio * x ≤ s.1.centreDistance q := by
      intro x h0 hx
      have := mul_le_mul r1 hx h0 (by norm_num)
      linarith
    have x1 := sizeLon_le hp
    have x2 := sizeLat_pos hp
    have x3 := sizeLon_pos hp
    have x4 := hp.bt
    have hext : s.1.extent = (s.1.top - s.1.bottom) + s.1.sizeLat + s.1.top * radians (s.1.e - s.1.w) := by
      unfold Tess.extent Tess.sizeLat
      rw [eastEnd_of_le hp.we.le, radians_sub s.1.n]
    obtain ⟨small, h1, -⟩ := C16_far_not_split (tessParams field radial q) hP hS stack0 small0 s.1 hp
      (size _ x3.le (by linarith)) (size _ x2.le (by linarith))
      (fun _ => size _ (by unfold Tess.sizeRad; linarith) (by unfold Tess.sizeRad; linarith))
    rcases adaptive_cases _ hP stack0 small0 s.1 with ⟨n, sm, -, h2⟩ | ⟨e, h2, -⟩
    · exact ⟨_, h2⟩
    · unfold adaptiveFuel at h2
      rw [h1] at h2
      simp at h2

/-- The bodies of layers of global grids. -/
theorem layers_proper {n m : ℕ} (hn : 1 < n) (shells : List (ℝ × ℝ × ℝ))
    (hs : ∀ s ∈ shells, 0 ≤ s.1 ∧ s.1 < s.2.1) :
    ∀ s ∈ shells.flatMap fun s => globalGrid n m s.1 s.2.1 s.2.2,
      (s.1.Proper ∧ -180 ≤ s.1.w ∧ s.1.e ≤ 360) ∧ (∃ c ∈ shells, s.1.bottom = c.1 ∧ s.1.top = c.2.1) ∧
      s.1.extent = (s.1.top - s.1.bottom) + s.1.top * (Real.pi / m) + s.1.top * (2 * Real.pi / n) := by
  intro s hs'
  obtain ⟨c, hc, hs'⟩ := List.mem_flatMap.1 hs'
  rw [globalGrid_eq] at hs'
  obtain ⟨t, ht, rfl⟩ := List.mem_map.1 hs'
  obtain ⟨i, hi, j, hj, rfl⟩ := mem_gridCells.1 ht
  obtain ⟨c1, c2⟩ := hs c hc
  obtain ⟨x1, x2, x3⟩ := cell_bounds hi
  obtain ⟨y1, y2, y3⟩ := cell_bounds hj
  have hn' : (0 : ℝ) < n := by exact_mod_cast (by omega : 0 < n)
  have hm' : (0 : ℝ) < 1 / m := by have : (0 : ℝ) < m := by exact_mod_cast (by omega : 0 < m)
                                   positivity
  have k1 : (0 : ℝ) < 1 / n := by positivity
  have k2 : 1 / (n : ℝ) < 1 := by
    rw [div_lt_one hn']
    exact_mod_cast hn
  refine ⟨⟨⟨?_, ?_, ?_, ?_, ?_, c1, c2⟩, ?_, ?_⟩, ⟨c, hc, rfl, rfl⟩, ?_⟩
  iterate 7 (simp only [cell, mul_div_assoc]; linarith)
  unfold Tess.extent
  rw [cell_east hi]
  simp only [cell]
  rw [show -180 + 360 * ((i : ℝ) + 1) / n - (-180 + 360 * (i : ℝ) / n) = 360 / n by ring,
    show -90 + 180 * ((j : ℝ) + 1) / m - (-90 + 180 * (j : ℝ) / m) = 180 / m by ring,
    show radians (360 / n) = 2 * Real.pi / n by unfold radians; ring,
    show radians (180 / m) = Real.pi / m by unfold radians; ring]

/-- two layers of 12 × 6 tesseroids with different densities, seen from a distance: the hypotheses of `C144_global`
are met, and the potential is `G M / R` within one percent -/
example (junk : Junk) (M : Minimizer) (stack0 small0 : ℕ → Tess) :
    let srcs := ([(1, 2, 3), (2, 3, 1)] : List (ℝ × ℝ × ℝ)).flatMap fun s => globalGrid 12 6 s.1 s.2.1 s.2.2
    srcs.length = 144 ∧
    ∃ r, tesseroidGravity junk .serial M 0 stack0 small0 (arrays [1] [⟨0, 0, 1000⟩])
      (srcs.map (·.1)) (.values (srcs.map (·.2))) "potential" true false = some (.ok r) ∧
    ∃ v, r.data[0]? = some v ∧
      |v - gravitationalConst * (4 / 3 * Real.pi * 40) / 1000| ≤ 0.01 * (gravitationalConst * (4 / 3 * Real.pi * 40) / 1000) := by
  intro srcs
  have hlen : srcs.length = 144 := by
    simp [srcs, globalGrid, List.length_flatMap]
  refine ⟨hlen, ?_⟩
  have hpi := Real.pi_le_four
  have hall := layers_proper (n := 12) (m := 6) (by norm_num) [(1, 2, 3), (2, 3, 1)] (by simp; norm_num)
  obtain ⟨r, hr⟩ := spaced_returns "potential" (potentialSpherical, 1) rfl true [⟨0, 0, 1000⟩] srcs
    (fun q => by simp [tessParams, distanceSizeRatio]; norm_num) (fun s hs => (hall s hs).1) (by
      simp only [List.mem_singleton, forall_eq]
      refine ⟨by norm_num, fun s hs => ?_⟩
      obtain ⟨-, ⟨c, hc, h1, h2⟩, h3⟩ := hall s hs
      rw [h3, h1, h2]
      simp only [List.mem_cons, List.not_mem_nil, or_false] at hc
      rcases hc with rfl | rfl
      all_goals
        refine ⟨?_, Or.inr (by norm_num)⟩
        rw [abs_of_pos (by norm_num)]
        push_cast
        linarith) junk stack0 small0 M [1] (by simp)
  refine ⟨r, hr, ?_⟩
  obtain ⟨v, h1, h2⟩ := C144_global junk .serial M 0 stack0 small0 [1] [⟨0, 0, 1000⟩] (by simp) 12 6 (by norm_num)
    (by norm_num) [(1, 2, 3), (2, 3, 1)] true srcs rfl trivial r hr 3 1 (by simp; norm_num) 0 ⟨0, 0, 1000⟩ rfl
    (by norm_num) (by norm_num)
  refine ⟨v, h1, ?_⟩
  have hpi0 := Real.pi_pos
  have hG := gravitationalConst_pos
  have hM : 0 ≤ gravitationalConst * (4 / 3 * Real.pi * 40) := by positivity
  simp only [List.map_cons, List.map_nil, List.sum_cons, List.sum_nil] at h2
  rw [abs_of_pos (by norm_num : (0 : ℝ) < 3), abs_of_pos (by norm_num : (0 : ℝ) < 1)] at h2
  rw [show (3 : ℝ) * (4 / 3 * Real.pi * (2 ^ 3 - 1 ^ 3)) + (1 * (4 / 3 * Real.pi * (3 ^ 3 - 2 ^ 3)) + 0) =
    4 / 3 * Real.pi * 40 by ring] at h2
  refine h2.trans ?_
  rw [show 0.01 * (gravitationalConst * (4 / 3 * Real.pi * 40) / 1000) =
    gravitationalConst * (4 / 3 * Real.pi * 40) * (0.01 / 1000) by ring]
  refine mul_le_mul_of_nonneg_left ?_ hM
  have k : (Real.pi / (2 * (6 : ℕ))) ^ 4 ≤ (1 / 3) ^ 4 := pow_le_pow_left₀ (by positivity) (by push_cast; linarith) 4
  have k1 : (1 + 3 * Real.pi / (6 : ℕ) + 3 * (2 * Real.pi) / (12 : ℕ)) / (1000 - 3) ^ 2 ≤ 5 / (1000 - 3) ^ 2 :=
    div_le_div_of_nonneg_right (by push_cast; linarith) (by norm_num)
  have k2 : (Real.pi / (2 * (6 : ℕ))) ^ 4 / (150 * (1000 - 3)) ≤ (1 / 3) ^ 4 / (150 * (1000 - 3)) :=
    div_le_div_of_nonneg_right k (by norm_num)
  refine (add_le_add k1 k2).trans ?_
  norm_num

/-- a hollow model, a layer of 72 × 36 tesseroids seen from a point close to the center: the call returns, the
hypotheses of `C144_g_z` are met and the attraction is zero up to the error of the point masses -/
example (junk : Junk) (M : Minimizer) (stack0 small0 : ℕ → Tess) :
    let srcs := globalGrid 72 36 10 11 2670
    ∃ r, tesseroidGravity junk .serial M 0 stack0 small0 (arrays [1] [⟨20, 30, 1⟩])
      (srcs.map (·.1)) (.values (srcs.map (·.2))) "g_z" true false = some (.ok r) ∧
    ∃ v, r.data[0]? = some v ∧ |v| ≤ 10 ^ 5 * (srcs.map fun s => gravitationalConst * |s.2| * s.1.bodyVolume *
      (2 * s.1.extent / 9 ^ 3 + s.1.halfLat ^ 4 / (150 * 9 ^ 2))).sum := by
  intro srcs
  have hpi := Real.pi_le_four
  have hsrcs : srcs = ([(10, 11, 2670)] : List (ℝ × ℝ × ℝ)).flatMap fun s => globalGrid 72 36 s.1 s.2.1 s.2.2 := by
    simp [srcs]
  have hall := layers_proper (n := 72) (m := 36) (by norm_num) [(10, 11, 2670)] (by simp; norm_num)
  rw [← hsrcs] at hall
  obtain ⟨r, hr⟩ := spaced_returns "g_z" (gravityUSpherical, -10 ^ 5) rfl true [⟨20, 30, 1⟩] srcs
    (fun q => by simp [tessParams, distanceSizeRatio]; norm_num) (fun s hs => (hall s hs).1) (by
      simp only [List.mem_singleton, forall_eq]
      refine ⟨by norm_num, fun s hs => ?_⟩
      obtain ⟨-, ⟨c, hc, h1, h2⟩, h3⟩ := hall s hs
      rw [h3, h1, h2]
      simp only [List.mem_singleton] at hc
      subst hc
      refine ⟨?_, Or.inl (by norm_num)⟩
      rw [abs_of_neg (by norm_num)]
      push_cast
      linarith) junk stack0 small0 M [1] (by simp)
  refine ⟨r, hr, ?_⟩
  obtain ⟨v, h1, h2⟩ := C144_g_z junk .serial M 0 stack0 small0 [1] [⟨20, 30, 1⟩] (by simp) srcs true trivial r hr 0
    ⟨20, 30, 1⟩ rfl (by norm_num) (fun _ => 9) Tess.extent (fun _ _ => by norm_num) (fun s hs a ha => by
      obtain ⟨-, ⟨c, hc, e1, e2⟩, -⟩ := hall s hs
      simp only [List.mem_singleton] at hc
      subst hc
      obtain ⟨-, -, a5, -⟩ := ha
      rw [e1] at a5
      simp only at a5
      have n1 := norm_sphPos a (by linarith)
      have n2 := norm_sphPos ⟨20, 30, 1⟩ (by norm_num)
      have t1 := norm_sub_norm_le (sphPos a) (sphPos ⟨20, 30, 1⟩)
      rw [dist_comm, dist_eq_norm]
      simp only at n2
      linarith)
    (fun s hs => C142_extent s.1 (hall s hs).1.1.bottom) [(10, 11, 2670)]
    (by simp only [Apart, List.mem_singleton, forall_eq]; norm_num)
    (C144_grid (by norm_num) (by norm_num) 2670 (by norm_num) (by norm_num))
  refine ⟨v, h1, ?_⟩
  have e : shellsAttraction [(10, 11, 2670)] (⟨20, 30, 1⟩ : P3).z = 0 := by
    simp only [shellsAttraction, List.map_cons, List.map_nil, List.sum_cons, List.sum_nil]
    rw [if_neg (by norm_num)]
    norm_num
  rw [e, sub_zero] at h2
  exact h2

end Verif.Tesseroid
