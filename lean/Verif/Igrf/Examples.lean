import Verif.Igrf.PropsC

/-!
Cases that meet the hypotheses, and the grid for which C58 is false.
-/

namespace Verif.Igrf

open Verif.Legendre Verif.Engine

noncomputable section

/-! ### C58 -/

/-- Only the axial dipole. -/
def axial : Arr := fun n m => if n = 1 ∧ m = 0 then 1 else 0

theorem schmidtP_one_zero (θ : ℝ) : schmidtP 1 0 θ = Real.cos θ := by
  unfold schmidtP
  rw [legendreNM_eq]
  have := (sv_one (Real.cos θ)).2.1
  unfold sv ev at this
  rw [pow_zero, one_mul, this]

theorem schmidtDeriv_one_zero {θ : ℝ} (h : θ ∈ Set.Icc 0 Real.pi) : schmidtDeriv 1 0 θ = -Real.sin θ := by
  unfold schmidtDeriv
  rw [show schmidtP 1 0 = Real.cos from funext schmidtP_one_zero]
  exact (Real.hasDerivAt_cos θ).hasDerivWithinAt.derivWithin ((uniqueDiffOn_Icc Real.pi_pos) θ h)

theorem degreeSum_one (f : ℕ → ℕ → ℝ) : degreeSum 1 1 f = f 1 0 + f 1 1 := by
  unfold degreeSum
  simp [Finset.sum_range_succ]

theorem field_axial (lon θ q : ℝ) (h : θ ∈ Set.Icc 0 Real.pi) :
    (field axial (fun _ _ => 0) 1 1 (lon, θ, q)).2 = (-(q ^ 3 * Real.sin θ), 2 * q ^ 3 * Real.cos θ) := by
  unfold field bNorth bRadial
  simp only [degreeSum_one, axial, schmidtP_one_zero, schmidtDeriv_one_zero h]
  refine Prod.ext ?_ ?_ <;> norm_num

theorem degrees_arcsin_mem (y : ℝ) : degrees (Real.arcsin y) ∈ Set.Icc (-90) 90 := by
  have := Real.arcsin_mem_Icc y
  have hp := Real.pi_pos
  unfold degrees
  constructor
  · have h1 := mul_le_mul_of_nonneg_right this.1 (by positivity : (0 : ℝ) ≤ 180 / Real.pi)
    have h2 : -(Real.pi / 2) * (180 / Real.pi) = -90 := by field_simp; norm_num
    linarith
  · have h1 := mul_le_mul_of_nonneg_right this.2 (by positivity : (0 : ℝ) ≤ 180 / Real.pi)
    have h2 : (Real.pi / 2) * (180 / Real.pi) = 90 := by field_simp; norm_num
    linarith

theorem cos_colatitude {y : ℝ} (h1 : -1 ≤ y) (h2 : y ≤ 1) :
    Real.cos (radians (90 - degrees (Real.arcsin y))) = y := by
  have : radians (90 - degrees (Real.arcsin y)) = Real.pi / 2 - Real.arcsin y := by
    unfold radians degrees
    have hp := Real.pi_pos
    field_simp
    ring
  rw [this, Real.cos_pi_div_two_sub, Real.sin_arcsin h1 h2]

theorem colatitude_mem (y : ℝ) : radians (90 - degrees (Real.arcsin y)) ∈ Set.Icc 0 Real.pi := by
  have h := degrees_arcsin_mem y
  have hp := Real.pi_pos
  unfold radians
  constructor
  · have : 0 ≤ 90 - degrees (Real.arcsin y) := by linarith [h.2]
    positivity
  · nlinarith [h.1]

/-- Squared sine of the geocentric latitude. -/
theorem ratio_sq {X Z : ℝ} (hX : 0 < X) : (Z / √(X ^ 2 + Z ^ 2)) ^ 2 = Z ^ 2 / (X ^ 2 + Z ^ 2) := by
  rw [div_pow, Real.sq_sqrt (by positivity)]

theorem ratio_mem {X Z : ℝ} (hX : 0 < X) : -1 ≤ Z / √(X ^ 2 + Z ^ 2) ∧ Z / √(X ^ 2 + Z ^ 2) ≤ 1 := by
  rw [← abs_le, ← sq_le_one_iff_abs_le_one, ratio_sq hX]
  exact div_le_one_of_le₀ (by nlinarith) (by positivity)

/-- A grid with two meridians, on the ellipsoid and far above it. -/
def tilted (h : ℝ) : Grid where
  longitude := [0, 1]
  latitude := [45, 46]
  height := fun _ j => if j = 0 then 0 else h

theorem square_ne {e2 : ℝ} (h0 : 0 < e2) (h1 : e2 < 1) {s N h : ℝ} (hs : 0 < s) (hN : 0 < N) (hh : 0 < h) :
    ((0 + (1 - e2) * N) * s) ^ 2 / (((0 + N) * s) ^ 2 + ((0 + (1 - e2) * N) * s) ^ 2) ≠
    ((h + (1 - e2) * N) * s) ^ 2 / (((h + N) * s) ^ 2 + ((h + (1 - e2) * N) * s) ^ 2) := by
  have k : 0 < 1 - e2 := by linarith
  intro heq
  rw [div_eq_div_iff (by positivity) (by positivity)] at heq
  -- squares of the ratios agree, so the ratios agree
  have e1 : ((1 - e2) * N * (h + N)) ^ 2 = ((h + (1 - e2) * N) * N) ^ 2 := by
    have hs4 : s ^ 4 ≠ 0 := by positivity
    apply mul_left_cancel₀ hs4
    linear_combination heq
  have e2' : (1 - e2) * N * (h + N) = (h + (1 - e2) * N) * N :=
    (pow_left_inj₀ (by positivity) (by positivity) two_ne_zero).1 e1
  have : e2 * (N * h) = 0 := by linear_combination -e2'
  have : 0 < e2 * (N * h) := by positivity
  linarith

/-- C58 is false when heights vary along a parallel: for every ellipsoid that is not a sphere, the axial
dipole and the grid above (the second meridian at any positive height), the field at a node differs from that
of `predict`. -/
theorem C58_not_full (a e2 : ℝ) (ha : 0 < a) (h0 : 0 < e2) (h1 : e2 < 1) (height : ℝ) (hh : 0 < height)
    (date : Date) (junk : Junk) :
    let self : Igrf := { date := date, min_degree := 1, max_degree := 1, ellipsoid := boule a e2 }
    ∃ b v, gridWith .serial .serial junk self (axial, fun _ _ => 0) (tilted height) = .ok b ∧
      predictWith .serial junk self (axial, fun _ _ => 0) [(1, 45, (tilted height).height 0 1)] = .ok [v] ∧
      b 0 1 ≠ v := by
  intro self
  have hp := Real.pi_pos
  set N := a / √(1 - e2 * Real.sin (radians 45) ^ 2) with hN
  have hr : radians 45 = Real.pi / 4 := by unfold radians; ring
  have hcs : Real.cos (radians 45) = Real.sin (radians 45) := by
    rw [hr, Real.cos_pi_div_four, Real.sin_pi_div_four]
  have hs : 0 < Real.sin (radians 45) := by
    rw [hr, Real.sin_pi_div_four]; positivity
  have hNpos : 0 < N := by
    have : Real.sin (radians 45) ^ 2 ≤ 1 := Real.sin_sq_le_one _
    have : 0 < 1 - e2 * Real.sin (radians 45) ^ 2 := by nlinarith
    positivity
  set s := Real.sin (radians 45) with hsd
  set y : ℝ → ℝ := fun h => ((h + (1 - e2) * N) * s) / √(((h + N) * s) ^ 2 + ((h + (1 - e2) * N) * s) ^ 2) with hy
  have hlat : ∀ h, (boule a e2).latitude 45 h = degrees (Real.arcsin (y h)) := by
    intro h
    simp only [boule, y]
    rw [hcs]
  have hX : ∀ h, 0 ≤ h → 0 < (h + N) * s := fun h hh' => by positivity
  obtain ⟨b, hb, hv⟩ := magneticFieldGrid_field .serial .serial junk ((tilted height).longitude.map radians)
    ((List.range (tilted height).latitude.length).map fun i =>
      radians (90 - self.ellipsoid.latitude ((tilted height).latitude.getD i 0) ((tilted height).height i 0)))
    (fun i j => referenceRadius / self.ellipsoid.radius ((tilted height).latitude.getD i 0)
      ((tilted height).height i j)) axial (fun _ _ => 0) 1 1 le_rfl trivial trivial (by
      intro t ht
      obtain ⟨i, -, rfl⟩ := List.mem_map.1 ht
      exact colatitude_mem _)
  have hb' : gridWith .serial .serial junk self (axial, fun _ _ => 0) (tilted height) = .ok fun i j =>
      vectorSphericalToGeodetic ((tilted height).latitude.getD i 0)
        (self.ellipsoid.latitude ((tilted height).latitude.getD i 0) ((tilted height).height i j)) (b i j) := by
    unfold gridWith
    simp only
    rw [show self.min_degree = 1 from rfl, show self.max_degree = 1 from rfl, hb, Py.bind_ok]
    rfl
  have hpred := C57_predict .serial junk self (axial, fun _ _ => 0) [(1, 45, (tilted height).height 0 1)]
    le_rfl trivial (by intro x _; exact degrees_arcsin_mem _)
  refine ⟨_, _, hb', hpred, ?_⟩
  intro heq
  have hv01 := hv 0 1 (by simp [tilted]) (by simp [tilted])
  set q := referenceRadius / (boule a e2).radius 45 height with hq
  have hrad : 0 < (boule a e2).radius 45 height := by
    simp only [boule]
    rw [hcs]
    refine Real.sqrt_pos.2 ?_
    have := hX height hh.le
    positivity
  have hqpos : 0 < q := by
    unfold q referenceRadius
    positivity
  have hv01' : b 0 1 = field axial (fun _ _ => 0) 1 1 (radians 1, radians (90 - degrees (Real.arcsin (y 0))), q) := by
    rw [hv01]
    simp only [tilted, self, List.length_cons, List.length_nil, List.range_succ, List.range_zero]
    simp [hlat, hq]
  -- norms
  have n1 := (C59_norm 45 (self.ellipsoid.latitude 45 ((tilted height).height 0 1)) (b 0 1)).2
  have n2 := (C59_norm 45 (self.ellipsoid.latitude 45 ((tilted height).height 0 1))
    (field axial (fun _ _ => 0) 1 1 (radians 1, radians (90 - degrees (Real.arcsin (y height))), q))).2
  have heq' : vectorSphericalToGeodetic 45 (self.ellipsoid.latitude 45 ((tilted height).height 0 1)) (b 0 1) =
      vectorSphericalToGeodetic 45 (self.ellipsoid.latitude 45 ((tilted height).height 0 1))
        (field axial (fun _ _ => 0) 1 1
          (radians 1, radians (90 - degrees (Real.arcsin (y height))), q)) := by
    have e : (tilted height).height 0 1 = height := by simp [tilted]
    rw [show (tilted height).latitude.getD 0 0 = 45 from rfl] at heq
    simp only [e, self, hlat] at heq ⊢
    rw [heq, hq]
    rfl
  rw [heq', n2, hv01'] at n1
  rw [field_axial _ _ _ (colatitude_mem _), field_axial _ _ _ (colatitude_mem _)] at n1
  simp only at n1
  have c0 := cos_colatitude (ratio_mem (Z := (0 + (1 - e2) * N) * s) (hX 0 le_rfl)).1
    (ratio_mem (Z := (0 + (1 - e2) * N) * s) (hX 0 le_rfl)).2
  have ch := cos_colatitude (ratio_mem (Z := (height + (1 - e2) * N) * s) (hX height hh.le)).1
    (ratio_mem (Z := (height + (1 - e2) * N) * s) (hX height hh.le)).2
  have e0 := ratio_sq (Z := (0 + (1 - e2) * N) * s) (hX 0 le_rfl)
  have eh := ratio_sq (Z := (height + (1 - e2) * N) * s) (hX height hh.le)
  have key := square_ne h0 h1 hs hNpos hh
  rw [← e0, ← eh] at key
  apply key
  change (y 0) ^ 2 = (y height) ^ 2
  change Real.cos (radians (90 - degrees (Real.arcsin (y 0)))) = y 0 at c0
  change Real.cos (radians (90 - degrees (Real.arcsin (y height)))) = y height at ch
  have p0 := Real.sin_sq_add_cos_sq (radians (90 - degrees (Real.arcsin (y 0))))
  have ph := Real.sin_sq_add_cos_sq (radians (90 - degrees (Real.arcsin (y height))))
  rw [c0] at p0 n1
  rw [ch] at ph n1
  have hq6 : 3 * q ^ 6 ≠ 0 := by positivity
  apply mul_left_cancel₀ hq6
  linear_combination -n1 - q ^ 6 * p0 + q ^ 6 * ph

/-- The other ellipsoids meet the hypothesis on latitudes of C57 and C58. -/
example (a e2 lat h : ℝ) : (boule a e2).latitude lat h ∈ Set.Icc (-90) 90 := degrees_arcsin_mem _

/-- With one height for the whole grid C58 holds on the same ellipsoid. -/
example (a e2 : ℝ) (date : Date) (junk junk' : Junk) (c : Arr × Arr) :
    ∃ b, gridWith .serial .serial junk ⟨date, 1, 13, boule a e2⟩ c ⟨[0, 1], [45, 46], fun _ _ => 100⟩ = .ok b ∧
      predictWith .serial junk' ⟨date, 1, 13, boule a e2⟩ c [(1, 45, 100)] = .ok [b 0 1] := by
  obtain ⟨b, h, v⟩ := C58_grid_partial .serial .serial .serial junk junk' ⟨date, 1, 13, boule a e2⟩ c
    ⟨[0, 1], [45, 46], fun _ _ => 100⟩ (by simp) trivial trivial trivial (fun _ _ => degrees_arcsin_mem _)
    (fun _ _ _ _ => rfl)
  exact ⟨b, h, v 0 1 45 1 rfl rfl⟩

/-- There are parallel modes for any number of points. -/
example (n k : ℕ) : (Mode.parallel ((List.range n).flatMap fun i => List.replicate k i)).Full n k := by
  constructor
  · intro i hi
    simp only [List.mem_flatMap, List.mem_range, List.mem_replicate] at hi
    obtain ⟨j, hj, -, rfl⟩ := hi
    exact hj
  · intro i hi
    rw [List.count_flatMap]
    have : k = (Function.comp (List.count i) fun i => List.replicate k i) i := by simp
    conv_lhs => rw [this]
    exact List.single_le_sum (by simp) _ (List.mem_map.2 ⟨i, by simpa using hi, rfl⟩)

/-- The field of an axial dipole is not trivial. -/
example : (field axial (fun _ _ => 0) 1 1 (0, Real.pi / 2, 1)).2 = (-1, 0) := by
  rw [field_axial _ _ _ ⟨by positivity, by linarith [Real.pi_pos]⟩]
  simp

/-! ### C56 -/

/-- Two epochs, 1900 and 1905. -/
def small : Table where
  years := [1900, 1905]
  g := fun t n m => if n = 1 ∧ m = 0 then (if t = 0 then -31543 else -31464) else 0
  h := fun _ _ _ => 0
  g_sv := fun n m => if n = 1 ∧ m = 0 then 10 else 0
  h_sv := fun _ _ => 0

theorem small_regular : small.Regular 1900 2 := by
  refine ⟨?_, by norm_num, by norm_num, by norm_num⟩
  simp [small, List.range_succ]

/-- Noon of the second of January of 1903. -/
def noon : Date := ⟨1903, 129600, false⟩

theorem noon_valid : noon.Valid := by
  refine ⟨by norm_num [noon], ?_⟩
  norm_num [noon, Date.time, jan1, daysBefore]

example : ∃ G H s, interpolateCoefficients noon 13 small = .ok (G, H) ∧ 0 < s ∧ s < 1 ∧
    G 1 0 = lerp (-31543) (-31464) s := by
  have h0 : epochTime 1900 0 + 1 ≤ noon.time := by
    norm_num [epochTime, noon, Date.time, jan1, daysBefore]
  have h1 : noon.time < epochTime 1900 (0 + 1) := by
    norm_num [epochTime, noon, Date.time, jan1, daysBefore]
  obtain ⟨G, H, s, e, hs, -, h3, v⟩ := C56_between small_regular noon noon_valid rfl 13 le_rfl 0 (by norm_num)
    (by linarith) h1
  refine ⟨G, H, s, e, ?_, h3, ?_⟩
  · rw [hs]
    exact div_pos (by linarith) (by linarith)
  · have := ((v 1 0).1 le_rfl (by norm_num) (by norm_num)).1
    rw [this]
    simp [small]

/-- A date after the last epoch, with the secular variation; and dates out of the range. -/
example : (⟨1909, 0, false⟩ : Date).Valid ∧ epochTime 1900 (2 - 1) ≤ (⟨1909, 0, false⟩ : Date).time ∧
    (⟨1909, 0, false⟩ : Date).time < epochTime 1900 2 ∧ epochTime 1900 2 ≤ (⟨1910, 0, true⟩ : Date).time := by
  refine ⟨⟨le_rfl, ?_⟩, ?_, ?_, ?_⟩ <;> norm_num [epochTime, Date.time, jan1, daysBefore]

/-! ### C77 -/

def toInt' (s : Str) : Option ℤ := if s = ['1'] then some 1 else if s = ['0'] then some 0
  else if s = ['1', '9', '0', '0'] then some 1900 else none

def toFloat' (s : Str) : Option ℝ := if s = ['7'] then some 7 else if s = ['8'] then some 8 else none

example : IsFile toInt' toFloat' [1900] [⟨true, 1, 0, [7], 8⟩, ⟨false, 1, 1, [8], 7⟩]
    ["# comment".toList, "#".toList, "c/s deg ord".toList, "g/h n m 1900.0 SV".toList, "g 1 0 7 8".toList,
     "h 1 1 8 7".toList] := by
  have line : ∀ ws : List Str, (∀ w ∈ ws, w ≠ [] ∧ ∀ c ∈ w, Icgem.isSpace c = false) →
      Icgem.IsLine ws (Icgem.spaced ws) := fun ws h => Icgem.isLine_spaced ws h
  refine ⟨_, _, _, _, _, rfl, ⟨['g', '/', 'h'], ['n'], ['m'], [['1', '9', '0', '0', '.', '0']], ['S', 'V'],
    line _ (by decide), ?_⟩, ?_, by simp, by simp⟩
  · refine .cons ⟨['1', '9', '0', '0'], ['.', '0'], rfl, by decide, by simp, ?_⟩ .nil
    decide
  · refine .cons ⟨⟨['1'], ['0'], [['7']], ['8'], line _ (by decide), by decide, by decide, ?_, ?_⟩, by norm_num,
      by norm_num⟩ (.cons ⟨⟨['1'], ['1'], [['8']], ['7'], line _ (by decide), by decide, by decide, ?_, ?_⟩,
      by norm_num, by norm_num⟩ .nil) <;> simp [toFloat']

/-- Lines that are refused: a word that is no number, an unknown key, a degree too large, too many values. -/
example : (∃ line, Icgem.IsLine (['g'] :: ['x'] :: ['1'] :: ([['7']] ++ [['8']])) line ∧ toInt' ['x'] = none) ∧
    (∃ line, Icgem.IsLine (['k'] :: ['1'] :: ['1'] :: ([['7']] ++ [['8']])) line ∧
      [['7']].map toFloat' = [7].map some) ∧
    (∃ line, Icgem.IsLine ((if true then ['g'] else ['h']) :: ['1', '9', '0', '0'] :: ['1'] :: ([['7']] ++ [['8']])) line ∧
      toInt' ['1', '9', '0', '0'] = some 1900) ∧
    (∃ line, Icgem.IsLine ((if true then ['g'] else ['h']) :: ['1'] :: ['1'] :: ([['7'], ['8']] ++ [['8']])) line ∧
      [['7'], ['8']].map toFloat' = [7, 8].map some) := by
  have line : ∀ ws : List Str, (∀ w ∈ ws, w ≠ [] ∧ ∀ c ∈ w, Icgem.isSpace c = false) →
      Icgem.IsLine ws (Icgem.spaced ws) := fun ws h => Icgem.isLine_spaced ws h
  refine ⟨⟨_, line _ (by decide), by decide⟩, ⟨_, line _ (by decide), by simp [toFloat']⟩,
    ⟨_, line _ (by decide), by decide⟩, ⟨_, line _ (by decide), by simp [toFloat']⟩⟩

end

end Verif.Igrf
