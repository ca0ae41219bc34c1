import Verif.Tesseroid.PropsL

/-!
C145: models of tesseroids with the same density, up to motions of the space that keep the center.
-/

namespace Verif.Tesseroid
open Verif.Distance Verif.Forward Verif.Engine MeasureTheory Set
open scoped InnerProductSpace

/-! ### integrals over the space -/

theorem bodies_integral {srcs : List (Tess × ℝ)} (hv : ∀ s ∈ srcs, s.1.ValidRange ∧ s.1.ValidLon)
    {g : E3 → ℝ} (hg : Continuous g) :
    (srcs.map fun s => s.2 * s.1.integral g).sum = ∫ x, tessDensity srcs x * g x := by
  classical
  have i1 := (sum_integrals srcs Tess.region (fun s _ => isCompact_region s.1) hg (tessDensity srcs) (by
    funext x
    unfold tessDensity
    congr 1
    refine List.map_congr_left fun s _ => ?_
    by_cases hx : x ∈ s.1.region <;> simp [hx])).2
  rw [i1]
  congr 1
  exact List.map_congr_left fun s hs' => by rw [integral_region (hv s hs').1 (eastEnd_le_turn (hv s hs').2) hg]

theorem exactPotential_integral {srcs : List (Tess × ℝ)} (hv : ∀ s ∈ srcs, s.1.ValidRange ∧ s.1.ValidLon) {q : P3}
    {d : ℝ} (hd0 : 0 < d) (hd : ∀ s ∈ srcs, ∀ a, s.1.Body a → d ≤ dist (sphPos q) (sphPos a)) :
    exactPotential srcs q = gravitationalConst * ∫ x, tessDensity srcs x * (1 / max (dist (sphPos q) x) d) := by
  have hg : Continuous fun p : E3 => 1 / max (dist (sphPos q) p) d :=
    continuous_const.div ((continuous_const.dist continuous_id).max continuous_const)
      fun p => (lt_of_lt_of_le hd0 (le_max_right _ _)).ne'
  rw [← bodies_integral hv hg, ← List.sum_map_mul_left]
  unfold exactPotential
  congr 1
  refine List.map_congr_left fun s hs' => ?_
  rw [mul_assoc]
  congr 2
  refine integral_congr_body (good_of_range (hv s hs').1) fun a ha => ?_
  rw [max_eq_left (hd s hs' a ha)]

theorem exactAttraction_integral {srcs : List (Tess × ℝ)} (hv : ∀ s ∈ srcs, s.1.ValidRange ∧ s.1.ValidLon) {q : P3}
    {d : ℝ} (hd0 : 0 < d) (hd : ∀ s ∈ srcs, ∀ a, s.1.Body a → d ≤ dist (sphPos q) (sphPos a)) :
    exactAttraction srcs q = 10 ^ 5 * (gravitationalConst * ∫ x, tessDensity srcs x *
      (⟪sphPos q - x, unitPos q.x q.y⟫_ℝ / max (dist (sphPos q) x) d ^ 3)) := by
  have hg : Continuous fun p : E3 => ⟪sphPos q - p, unitPos q.x q.y⟫_ℝ / max (dist (sphPos q) p) d ^ 3 :=
    ((continuous_const.sub continuous_id).inner continuous_const).div
      (((continuous_const.dist continuous_id).max continuous_const).pow 3)
      fun p => (pow_pos (lt_of_lt_of_le hd0 (le_max_right _ _)) 3).ne'
  rw [← bodies_integral hv hg, ← List.sum_map_mul_left]
  unfold exactAttraction
  congr 2
  refine List.map_congr_left fun s hs' => ?_
  rw [mul_assoc]
  congr 2
  refine integral_congr_body (good_of_range (hv s hs').1) fun a ha => ?_
  rw [max_eq_left (hd s hs' a ha)]

theorem integral_isometry (U : E3 ≃ₗᵢ[ℝ] E3) (f : E3 → ℝ) : ∫ x, f (U x) = ∫ x, f x :=
  U.measurePreserving.integral_comp U.toHomeomorph.measurableEmbedding f

/-- A distance from the points to the bodies. -/
theorem two_distances {srcs srcs' : List (Tess × ℝ)} {q q' : P3} (lo lo' : Tess → ℝ)
    (hlo : ∀ s ∈ srcs, 0 < lo s.1) (hlo' : ∀ s ∈ srcs', 0 < lo' s.1)
    (hd : ∀ s ∈ srcs, ∀ a, s.1.Body a → lo s.1 ≤ dist (sphPos q) (sphPos a))
    (hd' : ∀ s ∈ srcs', ∀ a, s.1.Body a → lo' s.1 ≤ dist (sphPos q') (sphPos a)) :
    ∃ d, 0 < d ∧ (∀ s ∈ srcs, ∀ a, s.1.Body a → d ≤ dist (sphPos q) (sphPos a)) ∧
      ∀ s ∈ srcs', ∀ a, s.1.Body a → d ≤ dist (sphPos q') (sphPos a) := by
  obtain ⟨d1, p1, h1⟩ := exists_lower srcs (fun s => lo s.1) hlo
  obtain ⟨d2, p2, h2⟩ := exists_lower srcs' (fun s => lo' s.1) hlo'
  exact ⟨min d1 d2, lt_min p1 p2, fun s h a ha => (min_le_left _ _).trans ((h1 s h).trans (hd s h a ha)),
    fun s h a ha => (min_le_right _ _).trans ((h2 s h).trans (hd' s h a ha))⟩

theorem exactPotential_moved {srcs srcs' : List (Tess × ℝ)} (hv : ∀ s ∈ srcs, s.1.ValidRange ∧ s.1.ValidLon)
    (hv' : ∀ s ∈ srcs', s.1.ValidRange ∧ s.1.ValidLon) {q q' : P3} (lo lo' : Tess → ℝ)
    (hlo : ∀ s ∈ srcs, 0 < lo s.1) (hlo' : ∀ s ∈ srcs', 0 < lo' s.1)
    (hd : ∀ s ∈ srcs, ∀ a, s.1.Body a → lo s.1 ≤ dist (sphPos q) (sphPos a))
    (hd' : ∀ s ∈ srcs', ∀ a, s.1.Body a → lo' s.1 ≤ dist (sphPos q') (sphPos a)) (U : E3 ≃ₗᵢ[ℝ] E3)
    (hq : sphPos q' = U (sphPos q)) (h : ∀ᵐ x, tessDensity srcs' (U x) = tessDensity srcs x) :
    exactPotential srcs' q' = exactPotential srcs q := by
  obtain ⟨d, hd0, d1, d2⟩ := two_distances lo lo' hlo hlo' hd hd'
  rw [exactPotential_integral hv hd0 d1, exactPotential_integral hv' hd0 d2, ← integral_isometry U]
  congr 1
  refine integral_congr_ae ?_
  filter_upwards [h] with x hx
  rw [hx, hq, U.dist_map]

theorem exactAttraction_moved {srcs srcs' : List (Tess × ℝ)} (hv : ∀ s ∈ srcs, s.1.ValidRange ∧ s.1.ValidLon)
    (hv' : ∀ s ∈ srcs', s.1.ValidRange ∧ s.1.ValidLon) {q q' : P3} (hz : 0 < q.z) (hz' : 0 < q'.z) (lo lo' : Tess → ℝ)
    (hlo : ∀ s ∈ srcs, 0 < lo s.1) (hlo' : ∀ s ∈ srcs', 0 < lo' s.1)
    (hd : ∀ s ∈ srcs, ∀ a, s.1.Body a → lo s.1 ≤ dist (sphPos q) (sphPos a))
    (hd' : ∀ s ∈ srcs', ∀ a, s.1.Body a → lo' s.1 ≤ dist (sphPos q') (sphPos a)) (U : E3 ≃ₗᵢ[ℝ] E3)
    (hq : sphPos q' = U (sphPos q)) (h : ∀ᵐ x, tessDensity srcs' (U x) = tessDensity srcs x) :
    exactAttraction srcs' q' = exactAttraction srcs q := by
  obtain ⟨d, hd0, d1, d2⟩ := two_distances lo lo' hlo hlo' hd hd'
  have hzz : q'.z = q.z := by
    have := norm_sphPos q' hz'.le
    rw [hq, U.norm_map, norm_sphPos q hz.le] at this
    exact this.symm
  have hu : unitPos q'.x q'.y = U (unitPos q.x q.y) := by
    have e := hq
    rw [sphPos_smul q, sphPos_smul q', map_smul, hzz] at e
    exact smul_right_injective E3 hz.ne' e
  rw [exactAttraction_integral hv hd0 d1, exactAttraction_integral hv' hd0 d2, ← integral_isometry U]
  congr 2
  refine integral_congr_ae ?_
  filter_upwards [h] with x hx
  rw [hx, hq, U.dist_map, hu, ← map_sub, U.inner_map_map]

/-! ### the properties -/

/-- C145: two models of tesseroids with the same density at almost every point of space, or that differ by a rotation
or a reflection `U` of the space around the center, have the same potential at corresponding points, up to the errors
of both approximations by point masses (see `C142_potential`). -/
theorem C145_potential (junk junk' : Junk) (m m' : Mode) (Mz Mz' : Minimizer) (fuel fuel' : ℕ)
    (stack0 small0 stack0' small0' : ℕ → Tess) (shape shape' : List ℕ) (obs obs' : List P3)
    (hshape : shape.prod = obs.length) (hshape' : shape'.prod = obs'.length) (srcs srcs' : List (Tess × ℝ))
    (radial radial' : Bool) (hm : m.Full obs.length (2 * (100000 * srcs.length)))
    (hm' : m'.Full obs'.length (2 * (100000 * srcs'.length))) (r r' : NdArray)
    (h : tesseroidGravity junk m Mz fuel stack0 small0 (arrays shape obs) (srcs.map (·.1))
        (.values (srcs.map (·.2))) "potential" radial false = some (.ok r))
    (h' : tesseroidGravity junk' m' Mz' fuel' stack0' small0' (arrays shape' obs') (srcs'.map (·.1))
        (.values (srcs'.map (·.2))) "potential" radial' false = some (.ok r'))
    (i i' : ℕ) (q q' : P3) (hq : obs[i]? = some q) (hq' : obs'[i']? = some q') (lo δ lo' δ' : Tess → ℝ)
    (hlo : ∀ s ∈ srcs, 0 < lo s.1) (hlo' : ∀ s ∈ srcs', 0 < lo' s.1)
    (hd : ∀ s ∈ srcs, ∀ a, s.1.Body a → lo s.1 ≤ dist (sphPos q) (sphPos a))
    (hd' : ∀ s ∈ srcs', ∀ a, s.1.Body a → lo' s.1 ≤ dist (sphPos q') (sphPos a))
    (hδ : ∀ s ∈ srcs, ∀ a b, s.1.Body a → s.1.Body b → dist (sphPos a) (sphPos b) ≤ δ s.1)
    (hδ' : ∀ s ∈ srcs', ∀ a b, s.1.Body a → s.1.Body b → dist (sphPos a) (sphPos b) ≤ δ' s.1)
    (U : E3 ≃ₗᵢ[ℝ] E3) (hU : sphPos q' = U (sphPos q)) (hsame : ∀ᵐ x, tessDensity srcs' (U x) = tessDensity srcs x) :
    ∃ v v', r.data[i]? = some v ∧ r'.data[i']? = some v' ∧ |v' - v| ≤
      (srcs.map fun s => gravitationalConst * |s.2| * s.1.bodyVolume *
        (δ s.1 / lo s.1 ^ 2 + s.1.halfLat ^ 4 / (150 * lo s.1))).sum +
      (srcs'.map fun s => gravitationalConst * |s.2| * s.1.bodyVolume *
        (δ' s.1 / lo' s.1 ^ 2 + s.1.halfLat ^ 4 / (150 * lo' s.1))).sum := by
  have hret := (returns_of_ok (kc := (potentialSpherical, 1)) rfl hshape hm h).1
  have hret' := (returns_of_ok (kc := (potentialSpherical, 1)) rfl hshape' hm' h').1
  obtain ⟨v, h1, h2⟩ := C142_potential junk m Mz fuel stack0 small0 shape obs hshape srcs radial hm r h i q hq lo δ hlo
    hd hδ
  obtain ⟨v', h1', h2'⟩ := C142_potential junk' m' Mz' fuel' stack0' small0' shape' obs' hshape' srcs' radial' hm' r' h'
    i' q' hq' lo' δ' hlo' hd' hδ'
  refine ⟨v, v', h1, h1', ?_⟩
  rw [exactPotential_moved (checked hret) (checked hret') lo lo' hlo hlo' hd hd' U hU hsame] at h2'
  have := abs_sub_le v' (exactPotential srcs q) v
  rw [abs_sub_comm (exactPotential srcs q) v] at this
  linarith

/-- C145 for the attraction (see `C142_g_z`). -/
theorem C145_g_z (junk junk' : Junk) (m m' : Mode) (Mz Mz' : Minimizer) (fuel fuel' : ℕ)
    (stack0 small0 stack0' small0' : ℕ → Tess) (shape shape' : List ℕ) (obs obs' : List P3)
    (hshape : shape.prod = obs.length) (hshape' : shape'.prod = obs'.length) (srcs srcs' : List (Tess × ℝ))
    (radial radial' : Bool) (hm : m.Full obs.length (2 * (100000 * srcs.length)))
    (hm' : m'.Full obs'.length (2 * (100000 * srcs'.length))) (r r' : NdArray)
    (h : tesseroidGravity junk m Mz fuel stack0 small0 (arrays shape obs) (srcs.map (·.1))
        (.values (srcs.map (·.2))) "g_z" radial false = some (.ok r))
    (h' : tesseroidGravity junk' m' Mz' fuel' stack0' small0' (arrays shape' obs') (srcs'.map (·.1))
        (.values (srcs'.map (·.2))) "g_z" radial' false = some (.ok r'))
    (i i' : ℕ) (q q' : P3) (hq : obs[i]? = some q) (hq' : obs'[i']? = some q') (hz : 0 < q.z) (hz' : 0 < q'.z)
    (lo δ lo' δ' : Tess → ℝ)
    (hlo : ∀ s ∈ srcs, 0 < lo s.1) (hlo' : ∀ s ∈ srcs', 0 < lo' s.1)
    (hd : ∀ s ∈ srcs, ∀ a, s.1.Body a → lo s.1 ≤ dist (sphPos q) (sphPos a))
    (hd' : ∀ s ∈ srcs', ∀ a, s.1.Body a → lo' s.1 ≤ dist (sphPos q') (sphPos a))
    (hδ : ∀ s ∈ srcs, ∀ a b, s.1.Body a → s.1.Body b → dist (sphPos a) (sphPos b) ≤ δ s.1)
    (hδ' : ∀ s ∈ srcs', ∀ a b, s.1.Body a → s.1.Body b → dist (sphPos a) (sphPos b) ≤ δ' s.1)
    (U : E3 ≃ₗᵢ[ℝ] E3) (hU : sphPos q' = U (sphPos q)) (hsame : ∀ᵐ x, tessDensity srcs' (U x) = tessDensity srcs x) :
    ∃ v v', r.data[i]? = some v ∧ r'.data[i']? = some v' ∧ |v' - v| ≤
      10 ^ 5 * (srcs.map fun s => gravitationalConst * |s.2| * s.1.bodyVolume *
        (2 * δ s.1 / lo s.1 ^ 3 + s.1.halfLat ^ 4 / (150 * lo s.1 ^ 2))).sum +
      10 ^ 5 * (srcs'.map fun s => gravitationalConst * |s.2| * s.1.bodyVolume *
        (2 * δ' s.1 / lo' s.1 ^ 3 + s.1.halfLat ^ 4 / (150 * lo' s.1 ^ 2))).sum := by
  have hret := (returns_of_ok (kc := (gravityUSpherical, -10 ^ 5)) rfl hshape hm h).1
  have hret' := (returns_of_ok (kc := (gravityUSpherical, -10 ^ 5)) rfl hshape' hm' h').1
  obtain ⟨v, h1, h2⟩ := C142_g_z junk m Mz fuel stack0 small0 shape obs hshape srcs radial hm r h i q hq lo δ hlo
    hd hδ
  obtain ⟨v', h1', h2'⟩ := C142_g_z junk' m' Mz' fuel' stack0' small0' shape' obs' hshape' srcs' radial' hm' r' h'
    i' q' hq' lo' δ' hlo' hd' hδ'
  refine ⟨v, v', h1, h1', ?_⟩
  rw [exactAttraction_moved (checked hret) (checked hret') hz hz' lo lo' hlo hlo' hd hd' U hU hsame] at h2'
  have := abs_sub_le v' (exactAttraction srcs q) v
  rw [abs_sub_comm (exactAttraction srcs q) v] at this
  linarith

/-! ### an eighth of a shell: rotations around its diagonal -/

/-- An eighth of a shell. -/
def octant (a b : ℝ) : Tess := ⟨0, 90, 0, 90, a, b⟩

theorem octant_region {a b : ℝ} (ha : 0 < a) :
    (octant a b).region = {x | x ∈ shell a b ∧ 0 ≤ x 0 ∧ 0 ≤ x 1 ∧ 0 ≤ x 2} := by
  have hpi := Real.pi_pos
  have r0 : radians 0 = 0 := by unfold radians; ring
  ext x
  rw [region_eq, show eastEnd (octant a b).w (octant a b).e = 90 from eastEnd_of_le (by norm_num [octant])]
  simp only [octant, r0, rad90]
  constructor
  · rintro ⟨_, ⟨v, hv, rfl⟩, rfl⟩
    rw [mem_closedBox] at hv
    obtain ⟨⟨v1, v2⟩, ⟨v3, v4⟩, v5, v6⟩ := hv
    have c1 := Real.cos_nonneg_of_neg_pi_div_two_le_of_le (by linarith) v4
    have c2 := Real.cos_nonneg_of_neg_pi_div_two_le_of_le (by linarith) v6
    have c3 := Real.sin_nonneg_of_nonneg_of_le_pi v3 (by linarith)
    have c4 := Real.sin_nonneg_of_nonneg_of_le_pi v5 (by linarith)
    have hz : 0 ≤ v 0 := ha.le.trans v1
    rw [toLp_sphF]
    refine ⟨rpos_mem_shell ha.le ⟨v1, v2⟩, ?_, ?_, ?_⟩
    · show 0 ≤ v 0 * Real.cos (v 1) * Real.cos (v 2)
      positivity
    · show 0 ≤ v 0 * Real.cos (v 1) * Real.sin (v 2)
      positivity
    · show 0 ≤ v 0 * Real.sin (v 1)
      positivity
  · rintro ⟨⟨n1, n2⟩, x0, x1, x2⟩
    obtain ⟨l, hl, φ, hφ, e⟩ := exists_rpos x
    have hp : 0 < ‖x‖ := lt_of_lt_of_le ha n1
    have e0 : x 0 = ‖x‖ * Real.cos φ * Real.cos l := congrArg (fun y : E3 => y 0) e
    have e1 : x 1 = ‖x‖ * Real.cos φ * Real.sin l := congrArg (fun y : E3 => y 1) e
    have e2 : x 2 = ‖x‖ * Real.sin φ := congrArg (fun y : E3 => y 2) e
    have hs : 0 ≤ Real.sin φ := by
      rw [e2] at x2
      exact nonneg_of_mul_nonneg_right x2 hp
    have hφ0 : 0 ≤ φ := by
      by_contra hneg
      exact absurd hs (not_le.2 (Real.sin_neg_of_neg_of_neg_pi_lt (not_le.1 hneg) (by linarith [hφ.1])))
    have hc : 0 ≤ Real.cos φ := Real.cos_nonneg_of_neg_pi_div_two_le_of_le hφ.1 hφ.2
    rcases hc.lt_or_eq with hc | hc
    · have k : 0 < ‖x‖ * Real.cos φ := mul_pos hp hc
      have l1 : 0 ≤ Real.cos l := by rw [e0] at x0; exact nonneg_of_mul_nonneg_right x0 k
      have l2 : 0 ≤ Real.sin l := by rw [e1] at x1; exact nonneg_of_mul_nonneg_right x1 k
      refine ⟨_, ⟨![‖x‖, φ, l], mem_closedBox.2 ⟨⟨n1, n2⟩, ⟨hφ0, hφ.2⟩, ?_, ?_⟩, rfl⟩, ?_⟩
      · show 0 ≤ l
        by_contra hneg
        rcases hl.1.lt_or_eq with h | h
        · exact absurd l2 (not_le.2 (Real.sin_neg_of_neg_of_neg_pi_lt (not_le.1 hneg) h))
        · rw [← h, Real.cos_neg, Real.cos_pi] at l1
          linarith
      · show l ≤ Real.pi / 2
        by_contra hgt
        exact absurd l1 (not_le.2 (Real.cos_neg_of_pi_div_two_lt_of_lt (not_le.1 hgt) (by linarith [hl.2])))
      · rw [toLp_sphF]
        exact e.symm
    · refine ⟨_, ⟨![‖x‖, φ, 0], mem_closedBox.2 ⟨⟨n1, n2⟩, ⟨hφ0, hφ.2⟩, le_refl _, ?_⟩, rfl⟩, ?_⟩
      · show (0 : ℝ) ≤ Real.pi / 2
        linarith
      · rw [toLp_sphF]
        refine Eq.trans ?_ e.symm
        ext i
        fin_cases i <;> simp [rpos, ← hc]

/-- The rotation by a third of a turn around the diagonal of the axes: it takes each axis to the next one. -/
noncomputable def thirdTurn : E3 ≃ₗᵢ[ℝ] E3 := LinearIsometryEquiv.piLpCongrLeft 2 ℝ ℝ (finRotate 3)

theorem thirdTurn_apply (x : E3) : thirdTurn x 0 = x 2 ∧ thirdTurn x 1 = x 0 ∧ thirdTurn x 2 = x 1 := by
  refine ⟨?_, ?_, ?_⟩ <;> rfl

/-- The density of an eighth of a shell does not change with that rotation. -/
theorem octant_turn {a b : ℝ} (ha : 0 < a) (ρ : ℝ) (x : E3) :
    tessDensity [(octant a b, ρ)] (thirdTurn x) = tessDensity [(octant a b, ρ)] x := by
  obtain ⟨t0, t1, t2⟩ := thirdTurn_apply x
  have : thirdTurn x ∈ (octant a b).region ↔ x ∈ (octant a b).region := by
    rw [octant_region ha]
    simp only [mem_ofPred_eq, shell, thirdTurn.norm_map, t0, t1, t2]
    tauto
  by_cases hx : x ∈ (octant a b).region
  · simp [tessDensity, hx, this.2 hx]
  · simp [tessDensity, hx, mt this.1 hx]

/-- an eighth of a shell seen from far away over a point of the equator, and over the north pole: both calls return,
and the potentials agree up to two percent of `G M / R` -/
example (junk : Junk) (M : Minimizer) (stack0 small0 : ℕ → Tess) :
    let srcs : List (Tess × ℝ) := [(octant 1 2, 2670)]
    ∃ r, tesseroidGravity junk .serial M 0 stack0 small0 (arrays [2] [⟨90, 0, 10000⟩, ⟨0, 90, 10000⟩])
      (srcs.map (·.1)) (.values (srcs.map (·.2))) "potential" true false = some (.ok r) ∧
    ∃ v v', r.data[0]? = some v ∧ r.data[1]? = some v' ∧
      |v' - v| ≤ 0.02 * (gravitationalConst * massOf srcs / 10000) := by
  intro srcs
  have hpi := Real.pi_le_four
  have hpi0 := Real.pi_pos
  have hext : (octant 1 2).extent = 1 + 2 * Real.pi := by
    unfold Tess.extent
    rw [show eastEnd (octant 1 2).w (octant 1 2).e = 90 from eastEnd_of_le (by norm_num [octant])]
    simp only [octant, sub_zero, rad90]
    ring
  obtain ⟨r, hr⟩ := spaced_returns "potential" (potentialSpherical, 1) rfl true [⟨90, 0, 10000⟩, ⟨0, 90, 10000⟩] srcs
    (fun q => by simp [tessParams, distanceSizeRatio]; norm_num) (by
      simp only [srcs, List.mem_singleton, forall_eq]
      refine ⟨⟨?_, ?_, ?_, ?_, ?_, ?_, ?_⟩, ?_, ?_⟩ <;> norm_num [octant]) (by
      intro q hq
      have hz : q.z = 10000 := by
        simp only [List.mem_cons, List.not_mem_nil, or_false] at hq
        rcases hq with rfl | rfl <;> rfl
      rw [hz]
      refine ⟨by norm_num, ?_⟩
      simp only [srcs, List.mem_singleton, forall_eq, hext]
      refine ⟨?_, Or.inr (by norm_num [octant])⟩
      rw [abs_of_pos (by norm_num [octant])]
      norm_num [octant]
      linarith) junk stack0 small0 M [2] (by simp)
  refine ⟨r, hr, ?_⟩
  have far : ∀ q : P3, q.z = 10000 → ∀ s ∈ srcs, ∀ a, s.1.Body a → 9998 ≤ dist (sphPos q) (sphPos a) := by
    intro q hz
    simp only [srcs, List.mem_singleton, forall_eq]
    rintro a ⟨-, -, a5, a6⟩
    simp only [octant] at a5 a6
    have n1 := norm_sphPos a (by linarith)
    have n2 := norm_sphPos q (by rw [hz]; norm_num)
    have t1 := norm_sub_norm_le (sphPos q) (sphPos a)
    rw [dist_eq_norm]
    linarith
  have size : ∀ s ∈ srcs, ∀ a b, s.1.Body a → s.1.Body b → dist (sphPos a) (sphPos b) ≤ s.1.extent := by
    simp only [srcs, List.mem_singleton, forall_eq]
    exact C142_extent _ (by norm_num [octant])
  obtain ⟨v, v', h1, h2, h3⟩ := C145_potential junk junk .serial .serial M M 0 0 stack0 small0 stack0 small0 [2] [2]
    [⟨90, 0, 10000⟩, ⟨0, 90, 10000⟩] [⟨90, 0, 10000⟩, ⟨0, 90, 10000⟩] (by simp) (by simp) srcs srcs true true trivial
    trivial r r hr hr 0 1 ⟨90, 0, 10000⟩ ⟨0, 90, 10000⟩ rfl rfl (fun _ => 9998) Tess.extent (fun _ => 9998) Tess.extent
    (fun _ _ => by norm_num) (fun _ _ => by norm_num) (far _ rfl) (far _ rfl) size size thirdTurn (by
      obtain ⟨t0, t1, t2⟩ := thirdTurn_apply (sphPos ⟨90, 0, 10000⟩)
      have r0 : radians 0 = 0 := by unfold radians; ring
      ext i
      fin_cases i
      · refine Eq.trans ?_ t0.symm
        simp [sphPos, rad90, r0]
      · refine Eq.trans ?_ t1.symm
        simp [sphPos, rad90, r0]
      · refine Eq.trans ?_ t2.symm
        simp [sphPos, rad90, r0])
    (Filter.Eventually.of_forall fun x => octant_turn (by norm_num) 2670 x)
  refine ⟨v, v', h1, h2, h3.trans ?_⟩
  have hV : 0 ≤ (octant 1 2).bodyVolume :=
    bodyVolume_nonneg ⟨by norm_num [octant], by norm_num [octant], by norm_num [octant], by norm_num [octant]⟩
  have hG := gravitationalConst_pos
  simp only [srcs, massOf, List.map_cons, List.map_nil, List.sum_cons, List.sum_nil, add_zero, hext]
  rw [abs_of_pos (by norm_num : (0 : ℝ) < 2670)]
  have hhalf : (octant 1 2).halfLat = Real.pi / 4 := by
    unfold Tess.halfLat
    have r0 : radians 0 = 0 := by unfold radians; ring
    simp only [octant, rad90, r0]
    ring
  rw [hhalf]
  have k : (Real.pi / 4) ^ 4 ≤ 1 := pow_le_one₀ (by positivity) (by linarith)
  have k1 : (1 + 2 * Real.pi) / (9998 : ℝ) ^ 2 ≤ 9 / 9998 ^ 2 :=
    div_le_div_of_nonneg_right (by linarith) (by norm_num)
  have k2 : (Real.pi / 4) ^ 4 / (150 * (9998 : ℝ)) ≤ 1 / (150 * 9998) :=
    div_le_div_of_nonneg_right k (by norm_num)
  have hM : 0 ≤ gravitationalConst * 2670 * (octant 1 2).bodyVolume := by positivity
  have k3 := mul_le_mul_of_nonneg_left (add_le_add k1 k2) hM
  have k4 : gravitationalConst * 2670 * (octant 1 2).bodyVolume * (9 / 9998 ^ 2 + 1 / (150 * 9998)) * 2 ≤
      gravitationalConst * 2670 * (octant 1 2).bodyVolume * (0.02 / 10000) := by
    rw [mul_assoc _ _ (2 : ℝ)]
    exact mul_le_mul_of_nonneg_left (by norm_num) hM
  refine le_trans ?_ (k4.trans (le_of_eq (by ring)))
  linarith

end Verif.Tesseroid
