import Verif.Tesseroid.PropsF

/-! C02, density functions: scaling is refuted when `np.isclose` takes the small density for constant. -/

namespace Verif.Tesseroid
open Verif.Distance Verif.Forward Verif.Engine

/-- The full claim for density functions: scaling the function scales the field, for any minimiser that stays
within its bounds and does not depend on units. -/
def C02_func_scale_full : Prop :=
  ∀ (junk : Junk) (M : Minimizer), M.Homogeneous → M.InBounds → ∀ (fuel : ℕ) (stack0 small0 : ℕ → Tess)
    (obs : List P3) (ts : List Tess) (f : ℝ → ℝ) (a : ℝ), a ≠ 0 → ∀ (field : String) (radial : Bool)
    (r r' : NdArray),
    tesseroidGravity junk .serial M fuel stack0 small0 (arrays [obs.length] obs) ts (.func f) field radial
      false = some (.ok r) →
    tesseroidGravity junk .serial M fuel stack0 small0 (arrays [obs.length] obs) ts (.func fun r => a * f r)
      field radial false = some (.ok r') →
    r'.data = r.data.map (a * ·)

open Classical in
/-- an exact minimiser: a point where the function is smallest, if there is one -/
noncomputable def exactMin : Minimizer := fun g b t =>
  if h : ∃ x, (b ≤ x ∧ x ≤ t) ∧ ∀ y, b ≤ y → y ≤ t → g x ≤ g y then (h.choose, g h.choose) else (b, g b)

theorem exactMin_inBounds : exactMin.InBounds := by
  intro g b t hbt
  unfold exactMin
  split_ifs with h
  · exact ⟨h.choose_spec.1, rfl⟩
  · exact ⟨⟨le_refl _, hbt⟩, rfl⟩

theorem exactMin_homogeneous : exactMin.Homogeneous := by
  intro g a b t ha
  have hp : (fun x => (b ≤ x ∧ x ≤ t) ∧ ∀ y, b ≤ y → y ≤ t → a * g x ≤ a * g y) =
      fun x => (b ≤ x ∧ x ≤ t) ∧ ∀ y, b ≤ y → y ≤ t → g x ≤ g y := by
    funext x
    simp only [mul_le_mul_iff_right₀ ha]
  have hch : ∀ (p q : ℝ → Prop), p = q → ∀ (h1 : ∃ x, p x) (h2 : ∃ x, q x), h1.choose = h2.choose := by
    rintro p _ rfl _ _; rfl
  unfold exactMin
  by_cases h : ∃ x, (b ≤ x ∧ x ≤ t) ∧ ∀ y, b ≤ y → y ≤ t → g x ≤ g y
  · have h' : ∃ x, (b ≤ x ∧ x ≤ t) ∧ ∀ y, b ≤ y → y ≤ t → a * g x ≤ a * g y := by
      obtain ⟨x, hx⟩ := h
      exact ⟨x, (congrFun hp x).mpr hx⟩
    rw [dif_pos h, dif_pos h', hch _ _ hp h' h]
  · have h' : ¬ ∃ x, (b ≤ x ∧ x ≤ t) ∧ ∀ y, b ≤ y → y ≤ t → a * g x ≤ a * g y := by
      rintro ⟨x, hx⟩
      exact h ⟨x, (congrFun hp x).mp hx⟩
    rw [dif_neg h, dif_neg h']

/-- the value at a known minimum -/
theorem exactMin_value (g : ℝ → ℝ) (b t x : ℝ) (hx : b ≤ x ∧ x ≤ t) (h : ∀ y, b ≤ y → y ≤ t → g x ≤ g y) :
    (exactMin g b t).2 = g x := by
  have he : ∃ x, (b ≤ x ∧ x ≤ t) ∧ ∀ y, b ≤ y → y ≤ t → g x ≤ g y := ⟨x, hx, h⟩
  unfold exactMin
  rw [dif_pos he]
  obtain ⟨h1, h2⟩ := he.choose_spec
  exact le_antisymm (h2 x hx.1 hx.2) (h _ h1.1 h1.2)

/-- the point of a strict minimum -/
theorem exactMin_point (g : ℝ → ℝ) (b t x : ℝ) (hx : b ≤ x ∧ x ≤ t)
    (h : ∀ y, b ≤ y → y ≤ t → y ≠ x → g x < g y) : exactMin g b t = (x, g x) := by
  have hle : ∀ y, b ≤ y → y ≤ t → g x ≤ g y := fun y h1 h2 => by
    by_cases hy : y = x
    · rw [hy]
    · exact (h y h1 h2 hy).le
  have he : ∃ x, (b ≤ x ∧ x ≤ t) ∧ ∀ y, b ≤ y → y ≤ t → g x ≤ g y := ⟨x, hx, hle⟩
  unfold exactMin
  rw [dif_pos he]
  obtain ⟨h1, h2⟩ := he.choose_spec
  have : he.choose = x := by
    by_contra hne
    exact absurd (h2 x hx.1 hx.2) (not_le.2 (h _ h1.1 h1.2 hne))
  rw [this]

/-- a thin peak of density at the radius 2: zero at the nodes of the quadrature over [1, 3] -/
noncomputable def peak (r : ℝ) : ℝ := max 0 (1 - 2 * |r - 2|)

theorem peak_nonneg (r : ℝ) : 0 ≤ peak r := le_max_left _ _

theorem peak_le (r : ℝ) : peak r ≤ 1 := max_le zero_le_one (by have := abs_nonneg (r - 2); linarith)

theorem peak_mid (r : ℝ) (h : 3 / 2 ≤ r ∧ r ≤ 5 / 2) : peak r = 1 - 2 * |r - 2| := by
  have : |r - 2| ≤ 1 / 2 := abs_le.2 ⟨by linarith [h.1], by linarith [h.2]⟩
  exact max_eq_right (by linarith)

theorem peak_out (r : ℝ) (h : r ≤ 3 / 2 ∨ 5 / 2 ≤ r) : peak r = 0 := by
  have : 1 / 2 ≤ |r - 2| := by
    rcases h with h | h
    · rw [abs_of_nonpos (by linarith)]; linarith
    · rw [abs_of_nonneg (by linarith)]; linarith
  exact max_eq_left (by linarith)

/-- a tesseroid of two degrees between two radii -/
def block (b t : ℝ) : Tess := ⟨-1, 1, -1, 1, b, t⟩

theorem peak_minmax (c : ℝ) (hc : 0 < c) : densityMinmax exactMin (fun r => c * peak r) 1 3 = (0, c) := by
  have e1 : peak 1 = 0 := peak_out 1 (Or.inl (by norm_num))
  have e3 : peak 3 = 0 := peak_out 3 (Or.inr (by norm_num))
  have e2 : peak 2 = 1 := by rw [peak_mid 2 (by norm_num)]; simp
  unfold densityMinmax
  rw [exactMin_value (fun r => c * peak r) 1 3 1 (by norm_num) (by
      intro y _ _; simp only [e1, mul_zero]; exact mul_nonneg hc.le (peak_nonneg y)),
    exactMin_value (fun r => -(c * peak r)) 1 3 2 (by norm_num) (by
      intro y _ _; simp only [e2, mul_one]
      have := mul_le_mul_of_nonneg_left (peak_le y) hc.le
      linarith)]
  simp [e1, e2, e3, hc.le]

/-- the largest deviation from the straight line where the peak is a straight line -/
theorem peak_flat (b t : ℝ) (hbt : b < t) (p q : ℝ) (h : ∀ r, b ≤ r → r ≤ t → peak r = p * r + q) :
    (maximumAbsoluteDiff exactMin peak b t).2 = 0 := by
  have hline : ∀ r, b ≤ r → r ≤ t → |peak r - straightLine r peak b t| = 0 := by
    intro r h1 h2
    rw [abs_eq_zero]
    unfold straightLine
    rw [h r h1 h2, h b (le_refl _) hbt.le, h t hbt.le (le_refl _)]
    have : t - b ≠ 0 := by linarith
    field_simp
    ring
  unfold maximumAbsoluteDiff
  simp only
  rw [exactMin_value _ b t b ⟨le_refl _, hbt.le⟩ (by
    intro y h1 h2; rw [hline y h1 h2, hline b (le_refl _) hbt.le]), hline b (le_refl _) hbt.le]
  simp

/-- the deviation from the straight line at the edge of the peak -/
theorem peak_diff (b t x d : ℝ) (hx : b ≤ x ∧ x ≤ t) (hd : |peak x - straightLine x peak b t| = d)
    (h : ∀ y, b ≤ y → y ≤ t → y ≠ x → |peak y - straightLine y peak b t| < d) :
    maximumAbsoluteDiff exactMin peak b t = (x, d) := by
  unfold maximumAbsoluteDiff
  simp only
  rw [exactMin_point _ b t x hx (by intro y h1 h2 h3; have := h y h1 h2 h3; rw [hd]; linarith), hd]
  simp

theorem peak_layers :
    densityDiscretization1 exactMin peak 7 (block 1 3) =
      some [block (5 / 2) 3, block 2 (5 / 2), block (3 / 2) 2, block 1 (3 / 2)] := by
  have e1 : peak 1 = 0 := peak_out 1 (Or.inl (by norm_num))
  have e3 : peak 3 = 0 := peak_out 3 (Or.inr (by norm_num))
  have e2 : peak 2 = 1 := by rw [peak_mid 2 (by norm_num)]; simp
  have e4 : peak (3 / 2) = 0 := peak_out _ (Or.inl (le_refl _))
  have e5 : peak (5 / 2) = 0 := peak_out _ (Or.inr (le_refl _))
  have hmm : densityMinmax exactMin peak 1 3 = (0, 1) := by
    have := peak_minmax 1 one_pos
    simpa using this
  have hn : (fun radius => (peak radius - 0) / (1 - 0)) = peak := by funext r; simp
  have d13 : maximumAbsoluteDiff exactMin peak 1 3 = (2, 1) := by
    refine peak_diff 1 3 2 1 (by norm_num) ?_ ?_
    · unfold straightLine; rw [e1, e2, e3]; norm_num
    · intro y h1 h2 h3
      unfold straightLine
      rw [e1, e3]
      have : |peak y| < 1 := by
        rw [abs_of_nonneg (peak_nonneg y)]
        have : 0 < |y - 2| := abs_pos.2 (sub_ne_zero.2 h3)
        exact max_lt one_pos (by linarith)
      simpa using this
  have d23 : maximumAbsoluteDiff exactMin peak 2 3 = (5 / 2, 1 / 2) := by
    refine peak_diff 2 3 (5 / 2) (1 / 2) (by norm_num) ?_ ?_
    · unfold straightLine; rw [e2, e3, e5]; norm_num
    · intro y h1 h2 h3
      unfold straightLine
      rw [e2, e3]
      rcases lt_or_gt_of_ne h3 with h | h
      · rw [peak_mid y ⟨by linarith, h.le⟩, abs_of_nonneg (by linarith : 0 ≤ y - 2), abs_lt]
        constructor <;> norm_num <;> linarith
      · rw [peak_out y (Or.inr h.le), abs_lt]
        constructor <;> norm_num <;> linarith
  have d12 : maximumAbsoluteDiff exactMin peak 1 2 = (3 / 2, 1 / 2) := by
    refine peak_diff 1 2 (3 / 2) (1 / 2) (by norm_num) ?_ ?_
    · unfold straightLine; rw [e1, e2, e4]; norm_num
    · intro y h1 h2 h3
      unfold straightLine
      rw [e1, e2]
      rcases lt_or_gt_of_ne h3 with h | h
      · rw [peak_out y (Or.inl h.le), abs_lt]
        constructor <;> norm_num <;> linarith
      · rw [peak_mid y ⟨h.le, by linarith⟩, abs_of_nonpos (by linarith : y - 2 ≤ 0), abs_lt]
        constructor <;> norm_num <;> linarith
  have f1 := peak_flat (5 / 2) 3 (by norm_num) 0 0 (by intro r h1 _; rw [peak_out r (Or.inr h1)]; ring)
  have f4 := peak_flat 1 (3 / 2) (by norm_num) 0 0 (by intro r _ h1; rw [peak_out r (Or.inl h1)]; ring)
  have f2 := peak_flat 2 (5 / 2) (by norm_num) (-2) 5 (by
    intro r h1 h2; rw [peak_mid r ⟨by linarith, h2⟩, abs_of_nonneg (by linarith)]; ring)
  have f3 := peak_flat (3 / 2) 2 (by norm_num) 2 (-3) (by
    intro r h1 h2; rw [peak_mid r ⟨h1, by linarith⟩, abs_of_nonpos (by linarith)]; ring)
  show densityDiscretization1 exactMin peak 7 ⟨-1, 1, -1, 1, 1, 3⟩ = _
  unfold densityDiscretization1
  simp only
  rw [hmm]
  simp only [hn]
  rw [if_neg (by unfold isclose; norm_num)]
  rw [densityLoop]
  simp only [d13]
  rw [if_pos (by norm_num), List.nil_append, densityLoop]
  simp only [d23]
  rw [if_pos (by norm_num), List.cons_append, List.nil_append, densityLoop]
  simp only [d12]
  rw [if_pos (by norm_num), List.cons_append, List.cons_append, List.nil_append, densityLoop]
  simp only [f1]
  rw [if_neg (by norm_num), densityLoop]
  simp only [f2]
  rw [if_neg (by norm_num), densityLoop]
  simp only [f3]
  rw [if_neg (by norm_num), densityLoop]
  simp only [f4]
  rw [if_neg (by norm_num)]
  simp [densityLoop, block]

theorem far_pieces (b t : ℝ) (hb : 1 ≤ b) (hbt : b < t) (ht : t ≤ 3) :
    tessPieces (tessParams "g_z" true ⟨0, 0, 1000⟩) (block b t) = .ok [block b t] := by
  have hP : 1 ≤ (tessParams "g_z" true ⟨0, 0, 1000⟩).stackSize := by
    show 1 ≤ STACK_SIZE; unfold STACK_SIZE; omega
  have hS : 1 ≤ (tessParams "g_z" true ⟨0, 0, 1000⟩).smallSize := by
    show 1 ≤ MAX_DISCRETIZATIONS; unfold MAX_DISCRETIZATIONS; omega
  have hd : (block b t).centreDistance ⟨0, 0, 1000⟩ = 1000 - (b + t) / 2 := by
    unfold Tess.centreDistance block
    rw [← C10_distance_spherical]
    simp only [distanceSpherical, distanceSphericalCore, radians]
    norm_num
    rw [Real.sqrt_sq (by linarith)]
  have hr : (tessParams "g_z" true ⟨0, 0, 1000⟩).ratio = 2.5 := by
    simp [tessParams, distanceSizeRatio]
  have hpi := Real.pi_le_four
  obtain ⟨small, h1, h0⟩ := C16_far_not_split (tessParams "g_z" true ⟨0, 0, 1000⟩) hP hS
    (fun _ => block b t) (fun _ => block b t)
    (block b t) ⟨by simp [block], by norm_num [block], by norm_num [block], by norm_num [block],
      by norm_num [block], by simp only [block]; linarith, hbt⟩
    (by
      rw [hr]
      show _ ≤ (block b t).centreDistance ⟨0, 0, 1000⟩
      rw [hd]
      unfold Tess.sizeLon block
      have h4 := InnerProductGeometry.angle_le_pi (unitPos (-1) ((-1 + 1) / 2)) (unitPos 1 ((-1 + 1) / 2))
      have h5 := InnerProductGeometry.angle_nonneg (unitPos (-1) ((-1 + 1) / 2)) (unitPos 1 ((-1 + 1) / 2))
      simp only
      nlinarith)
    (by
      rw [hr]
      show _ ≤ (block b t).centreDistance ⟨0, 0, 1000⟩
      rw [hd]
      unfold Tess.sizeLat radians block
      simp only
      have := Real.pi_pos
      nlinarith)
    (by
      intro _
      rw [hr]
      show _ ≤ (block b t).centreDistance ⟨0, 0, 1000⟩
      rw [hd]
      unfold Tess.sizeRad block
      simp only
      linarith)
  rcases adaptive_cases _ hP (fun _ => block b t) (fun _ => block b t) (block b t) with
    ⟨n, sm, h2, h3⟩ | ⟨e, h2, -⟩
  · unfold adaptiveFuel at h2
    rw [h1] at h2
    cases h2
    rw [h3]
    simp [prefixList, h0]
  · unfold adaptiveFuel at h2
    rw [h1] at h2
    simp at h2

theorem block_mass (b t : ℝ) (f : ℝ → ℝ)
    (h : ∀ σ ∈ [(-1 : ℝ), 1], f (gaussNode b t σ) = 0) :
    pieceEffect gravityUSpherical ⟨0, 0, 1000⟩ (block b t) f = 0 := by
  unfold pieceEffect total
  apply List.sum_eq_zero
  intro x hx
  obtain ⟨s, hs, rfl⟩ := List.mem_map.1 hx
  unfold pointMasses at hs
  simp only [List.mem_flatMap, List.mem_map] at hs
  obtain ⟨σφ, -, σr, h2, σl, -, rfl⟩ := hs
  simp only [block, h σr h2]
  simp [PointKernel.eval]

theorem block_positive (b t : ℝ) (hb : 1 ≤ b) (hbt : b < t) (ht : t ≤ 3) (f : ℝ → ℝ)
    (h : ∀ σ ∈ [(-1 : ℝ), 1], 0 < f (gaussNode b t σ)) :
    0 < -10 ^ 5 * pieceEffect gravityUSpherical ⟨0, 0, 1000⟩ (block b t) f := by
  unfold pieceEffect total
  rw [← List.sum_map_mul_left]
  apply List.sum_pos
  · intro x hx
    obtain ⟨s, hs, rfl⟩ := List.mem_map.1 hx
    have hin := C17_masses_inside (block b t) (by norm_num [block]) (by norm_num [block]) (by norm_num [block])
      (by norm_num [block]) (by simp only [block]; linarith) hbt (fun _ => 1) (fun _ _ _ => one_pos)
    unfold pointMasses at hs hin
    simp only [List.mem_flatMap, List.mem_map] at hs hin
    obtain ⟨σφ, h1, σr, h2, σl, h3, rfl⟩ := hs
    obtain ⟨-, -, ⟨g1, g2⟩, g3⟩ := hin _ ⟨σφ, h1, σr, h2, σl, h3, rfl⟩
    simp only [block] at g1 g2 g3
    have hf := h σr h2
    refine eval_pos "g_z" (gravityUSpherical, -10 ^ 5) rfl ⟨0, 0, 1000⟩ _ _ ?_ ?_ ?_
    · have := mul_pos hf g3
      simp only [block]
      refine lt_of_lt_of_eq this ?_
      ring
    · simp only [block]; linarith
    · simp only [block]; linarith
  · simp [pointMasses]

/-- C02, negation for density functions: the attraction of a thin peak of density of 1e-9 kg/m³ is zero (the
function is taken for constant, and the quadrature misses the peak), while the one of the same peak of 1 kg/m³ is not: the
function is not homogeneous. -/
theorem C02_not_func_scale_full : ¬ C02_func_scale_full := by
  intro hfull
  have hu : ([block 1 3] : List Tess).map (usedTess false) = [block 1 3] := by
    rw [usedTess_false]
    simp only [List.map_cons, List.map_nil]
    rw [normLon_of_le (by norm_num [block])]
  have hc : ChecksPass false [⟨0, 0, 1000⟩] [block 1 3] := by
    refine Or.inr ⟨?_, ?_⟩
    · simp only [List.mem_singleton, forall_eq]
      exact ⟨⟨by norm_num [block], by norm_num [block], by norm_num [block], by norm_num [block],
        by norm_num [block], by norm_num [block], by norm_num [block]⟩,
        Or.inl ⟨by norm_num [block], by norm_num [block]⟩⟩
    · rintro ⟨q, hq, t, ht, hc⟩
      rw [hu] at ht
      rw [List.mem_singleton] at hq ht
      subst hq ht
      rw [conflict_iff _ _ (by norm_num [block]) (by norm_num [block])] at hc
      have := hc.2.2.2
      norm_num [block] at this
  have h3 : (0 : ℝ) < √3 := by positivity
  have h32 : √3 < 2 := by rw [Real.sqrt_lt' (by norm_num)]; norm_num
  have hinv : 1 / 2 < 1 / √3 := one_div_lt_one_div_of_lt h3 h32
  have hnode : ∀ σ ∈ [(-1 : ℝ), 1], peak (gaussNode 1 3 σ) = 0 := by
    intro σ hσ
    simp only [List.mem_cons, List.not_mem_nil, or_false] at hσ
    unfold gaussNode
    apply peak_out
    rcases hσ with rfl | rfl
    · left; norm_num at hinv ⊢; linarith
    · right; norm_num at hinv ⊢; linarith
  -- the small peak: one layer, and no attraction
  let f : ℝ → ℝ := fun r => 1e-9 * peak r
  have hd1 : densityDiscretization exactMin f 7 [block 1 3] = some [block 1 3] := by
    have : densityDiscretization1 exactMin f 7 (block 1 3) = some [block 1 3] := by
      show densityDiscretization1 exactMin f 7 ⟨-1, 1, -1, 1, 1, 3⟩ = _
      unfold densityDiscretization1
      simp only
      rw [peak_minmax 1e-9 (by norm_num), if_pos (by unfold isclose; norm_num)]
      rfl
    unfold densityDiscretization densityDiscretization
    rw [this]
    rfl
  have hpieces : ∀ (b t : ℝ), 1 ≤ b → b < t → t ≤ 3 → ∀ g : ℝ → ℝ,
      layerEffect "g_z" true gravityUSpherical g ⟨0, 0, 1000⟩ (block b t) =
        pieceEffect gravityUSpherical ⟨0, 0, 1000⟩ (block b t) g := by
    intro b t hb hbt ht g
    unfold layerEffect
    rw [usedPieces_ok (far_pieces b t hb hbt ht)]
    simp [pieceEffect]
  have r1 := tesseroidGravity_func_ok "g_z" (gravityUSpherical, -10 ^ 5) rfl (fun _ _ => 0) .serial exactMin 7
    (fun _ => block 1 3) (fun _ => block 1 3) [1] [⟨0, 0, 1000⟩] (by simp) [block 1 3] [block 1 3] f true
    false _ (le_refl _) trivial ⟨hc, by rw [hu]; exact hd1, by simp, by
      intro q hq t ht
      rw [List.mem_singleton] at hq ht
      subst hq ht
      exact ⟨_, far_pieces 1 3 (by norm_num) (by norm_num) (by norm_num)⟩⟩
  -- the large peak: four layers, two of them attract
  have hfun : (fun r => 1e9 * f r) = peak := by
    funext r; simp only [f]; norm_num
    ring
  have r2 := tesseroidGravity_func_ok "g_z" (gravityUSpherical, -10 ^ 5) rfl (fun _ _ => 0) .serial exactMin 7
    (fun _ => block 1 3) (fun _ => block 1 3) [1] [⟨0, 0, 1000⟩] (by simp) [block 1 3]
    [block (5 / 2) 3, block 2 (5 / 2), block (3 / 2) 2, block 1 (3 / 2)] peak true
    false _ (le_refl _) trivial ⟨hc, by
      rw [hu]
      unfold densityDiscretization densityDiscretization
      rw [peak_layers]
      rfl, by simp, by
      intro q hq t ht
      simp only [List.mem_cons, List.not_mem_nil, or_false] at hq ht
      subst hq
      rcases ht with rfl | rfl | rfl | rfl
      · exact ⟨_, far_pieces _ _ (by norm_num) (by norm_num) (by norm_num)⟩
      · exact ⟨_, far_pieces _ _ (by norm_num) (by norm_num) (by norm_num)⟩
      · exact ⟨_, far_pieces _ _ (by norm_num) (by norm_num) (by norm_num)⟩
      · exact ⟨_, far_pieces _ _ (by norm_num) (by norm_num) (by norm_num)⟩⟩
  have h := hfull (fun _ _ => 0) exactMin exactMin_homogeneous exactMin_inBounds 7 (fun _ => block 1 3)
    (fun _ => block 1 3) [⟨0, 0, 1000⟩] [block 1 3] f 1e9 (by norm_num) "g_z" true _ _ r1 (by rw [hfun]; exact r2)
  simp only [List.map_cons, List.map_nil, total, List.sum_cons, List.sum_nil, add_zero, List.cons.injEq,
    and_true] at h
  rw [hpieces 1 3 (by norm_num) (by norm_num) (by norm_num), hpieces _ _ (by norm_num) (by norm_num) (by norm_num),
    hpieces _ _ (by norm_num) (by norm_num) (by norm_num), hpieces _ _ (by norm_num) (by norm_num) (by norm_num),
    hpieces _ _ (by norm_num) (by norm_num) (by norm_num),
    block_mass 1 3 f (by intro σ hσ; simp only [f, hnode σ hσ, mul_zero]),
    block_mass (5 / 2) 3 peak (by
      intro σ hσ
      simp only [List.mem_cons, List.not_mem_nil, or_false] at hσ
      exact peak_out _ (Or.inr (gaussNode_inside (show (5 / 2 : ℝ) < 3 by norm_num) hσ).1.le)),
    block_mass 1 (3 / 2) peak (by
      intro σ hσ
      simp only [List.mem_cons, List.not_mem_nil, or_false] at hσ
      exact peak_out _ (Or.inl (gaussNode_inside (show (1 : ℝ) < 3 / 2 by norm_num) hσ).2.le))] at h
  have p2 := block_positive 2 (5 / 2) (by norm_num) (by norm_num) (by norm_num) peak (by
    intro σ hσ
    simp only [List.mem_cons, List.not_mem_nil, or_false] at hσ
    have hin := gaussNode_inside (show (2 : ℝ) < 5 / 2 by norm_num) hσ
    rw [peak_mid _ ⟨by linarith [hin.1], hin.2.le⟩, abs_of_nonneg (by linarith [hin.1])]
    linarith [hin.2])
  have p3 := block_positive (3 / 2) 2 (by norm_num) (by norm_num) (by norm_num) peak (by
    intro σ hσ
    simp only [List.mem_cons, List.not_mem_nil, or_false] at hσ
    have hin := gaussNode_inside (show (3 / 2 : ℝ) < 2 by norm_num) hσ
    rw [peak_mid _ ⟨hin.1.le, by linarith [hin.2]⟩, abs_of_nonpos (by linarith [hin.2])]
    linarith [hin.1])
  linarith

end Verif.Tesseroid
