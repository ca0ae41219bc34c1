import Verif.Ellipsoids.Voxels
import Verif.Ellipsoids.SpecD

/-! C151: models of ellipsoids made of prisms. -/

namespace Verif.Ellipsoids
open MeasureTheory Set Verif.Distance Verif.Engine
open Verif.Forward (arrays gravitationalConst Prism PrismKernels prismGravity Junk pointAt coords gap newtonKernels
  prismGravity_density sum_integrals newton_e newton_n newton_u bodyKernels bodyKernels_newtonian)

/-! ### The attraction of prisms -/

/-- Vectors as triples of numbers. -/
noncomputable def triple : (Fin 3 → ℝ) ≃ᵐ ℝ × ℝ × ℝ :=
  (MeasurableEquiv.piFinSuccAbove (fun _ : Fin 3 => ℝ) 0).trans
    ((MeasurableEquiv.refl ℝ).prodCongr MeasurableEquiv.finTwoArrow)

theorem triple_apply (v : Fin 3 → ℝ) : triple v = (v 0, v 1, v 2) := rfl

theorem triple_preserving : MeasurePreserving triple volume volume :=
  (volume_preserving_piFinSuccAbove (fun _ : Fin 3 => ℝ) 0).trans
    ((MeasurePreserving.id (volume : Measure ℝ)).prod (volume_preserving_finTwoArrow ℝ))

/-- The kernel of point masses for the component `i`, upward positive. -/
noncomputable def massKernel : Fin 3 → P3 → P3 → ℝ → ℝ := ![newtonKernels.e, newtonKernels.n, newtonKernels.u]

theorem massKernel_field (i : Fin 3) : Verif.Forward.PointField (massKernel i) 2 := by
  fin_cases i
  · exact newton_e
  · exact newton_n
  · exact newton_u

theorem gap_vec (q : P3) (x : V3) : gap q (pointAt (triple x)) = magnitude (x - vec q) := by
  unfold gap magnitude
  congr 1
  rw [Fin.sum_univ_three, triple_apply]
  simp only [pointAt, vec, Pi.sub_apply, Matrix.cons_val_zero, Matrix.cons_val_one, Matrix.cons_val]
  ring

theorem massKernel_eq (i : Fin 3) (q : P3) (x : V3) : massKernel i q (pointAt (triple x)) 1 =
    6.6743e-11 * ((x i - vec q i) / magnitude (x - vec q) ^ 3) := by
  have e3 : (6.6743e-11 : ℝ) = gravitationalConst := by
    unfold gravitationalConst
    norm_num
  rw [e3]
  fin_cases i
  · show -(gravitationalConst * 1 * (q.x - x 0)) / gap q (pointAt (triple x)) ^ 3 =
      gravitationalConst * ((x 0 - q.x) / magnitude (x - vec q) ^ 3)
    rw [gap_vec]
    ring
  · show -(gravitationalConst * 1 * (q.y - x 1)) / gap q (pointAt (triple x)) ^ 3 =
      gravitationalConst * ((x 1 - q.y) / magnitude (x - vec q) ^ 3)
    rw [gap_vec]
    ring
  · show -(gravitationalConst * 1 * (q.z - x 2)) / gap q (pointAt (triple x)) ^ 3 =
      gravitationalConst * ((x 2 - q.z) / magnitude (x - vec q) ^ 3)
    rw [gap_vec]
    ring

theorem prism_element (srcs : List (Prism × ℝ)) (q : P3) (i : Fin 3) :
    newtonElement (prismDensity srcs) (vec q) i =
      (fun r => Verif.Forward.densityAt srcs r * massKernel i q (pointAt r) 1) ∘ triple := by
  funext x
  rw [Function.comp_apply, massKernel_eq]
  unfold newtonElement prismDensity
  rw [triple_apply]
  ring

theorem prism_newton (srcs : List (Prism × ℝ)) (q : P3) (i : Fin 3) :
    Integrable (newtonElement (prismDensity srcs) (vec q) i) ∧
      newtonField (prismDensity srcs) (vec q) i = ∫ r, Verif.Forward.densityAt srcs r * massKernel i q (pointAt r) 1 := by
  obtain ⟨-, h2⟩ := sum_integrals (massKernel_field i) srcs q (Or.inl le_rfl)
  rw [newtonField, prism_element]
  refine ⟨(triple_preserving.integrable_comp_emb triple.measurableEmbedding).2 h2, ?_⟩
  exact triple_preserving.integral_comp triple.measurableEmbedding fun r =>
    Verif.Forward.densityAt srcs r * massKernel i q (pointAt r) 1

theorem returnsPrisms_newton {K : PrismKernels} (hK : K.Newtonian) {srcs : List (Prism × ℝ)}
    (hord : ∀ s ∈ srcs, s.1.Ordered) : ReturnsPrisms K srcs (newtonField (prismDensity srcs)) := by
  intro junk mode shape pts dis hs hm
  have h := fun field (hf : field ∈ Verif.Forward.everywhere) => prismGravity_density junk mode hK shape pts hs.symm srcs
    dis hord hm field fun q _ => Or.inl hf
  have hint : ∀ q i, ∫ r, Verif.Forward.densityAt srcs r * massKernel i q (pointAt r) 1 =
      newtonField (prismDensity srcs) (vec q) i := fun q i => (prism_newton srcs q i).2.symm
  refine ⟨?_, ?_, ?_⟩
  · rw [h "g_e" (by simp [Verif.Forward.everywhere])]
    show Except.ok (Verif.Forward.NdArray.mk shape (pts.map fun q => 10 ^ 5 * ∫ r, Verif.Forward.densityAt srcs r *
      massKernel 0 q (pointAt r) 1)) = _
    simp only [hint, mul_comm (10 ^ 5 : ℝ)]
    rfl
  · rw [h "g_n" (by simp [Verif.Forward.everywhere])]
    show Except.ok (Verif.Forward.NdArray.mk shape (pts.map fun q => 10 ^ 5 * ∫ r, Verif.Forward.densityAt srcs r *
      massKernel 1 q (pointAt r) 1)) = _
    simp only [hint, mul_comm (10 ^ 5 : ℝ)]
    rfl
  · rw [h "g_z" (by simp [Verif.Forward.everywhere])]
    show Except.ok (Verif.Forward.NdArray.mk shape (pts.map fun q => -10 ^ 5 * ∫ r, Verif.Forward.densityAt srcs r *
      massKernel 2 q (pointAt r) 1)) = _
    have hc : ∀ t : ℝ, -10 ^ 5 * t = -t * 10 ^ 5 := fun t => by ring
    simp only [hint, hc]
    rfl

/-! ### The error of a model -/

theorem region_sum (L : List (ℝ × Set V3)) (hL : ∀ t ∈ L, 0 ≤ t.1 ∧ MeasurableSet t.2 ∧ volume t.2 < ⊤) (p : V3)
    {R : ℝ} (hR : 0 < R) :
    Integrable (fun x => (L.map fun t => t.2.indicator (fun _ => t.1) x).sum * (‖x - p‖ ^ 2)⁻¹) ∧
      ∫ x, (L.map fun t => t.2.indicator (fun _ => t.1) x).sum * (‖x - p‖ ^ 2)⁻¹ ≤
        (L.map fun t => t.1 * (24 * R + volume.real t.2 / R ^ 2)).sum := by
  induction L with
  | nil => simp
  | cons t L ih =>
    obtain ⟨i1, i2⟩ := ih fun t ht => hL t (by simp [ht])
    obtain ⟨t1, t2, t3⟩ := hL t (by simp)
    obtain ⟨j1, j2⟩ := inv_sq_region t3 p hR
    have e0 : (fun x => t.2.indicator (fun _ => t.1) x * (‖x - p‖ ^ 2)⁻¹) =
        t.2.indicator fun x => t.1 * (‖x - p‖ ^ 2)⁻¹ := by
      funext x
      by_cases hx : x ∈ t.2
      · rw [indicator_of_mem hx, indicator_of_mem hx]
      · rw [indicator_of_notMem hx, indicator_of_notMem hx, zero_mul]
    have k1 : Integrable fun x => t.2.indicator (fun _ => t.1) x * (‖x - p‖ ^ 2)⁻¹ := by
      rw [e0, integrable_indicator_iff t2]
      exact j1.const_mul _
    have k2 : ∫ x, t.2.indicator (fun _ => t.1) x * (‖x - p‖ ^ 2)⁻¹ ≤ t.1 * (24 * R + volume.real t.2 / R ^ 2) := by
      rw [e0, integral_indicator t2, integral_const_mul]
      exact mul_le_mul_of_nonneg_left j2 t1
    simp only [List.map_cons, List.sum_cons, add_mul]
    refine ⟨k1.add i1, ?_⟩
    rw [integral_add k1 i1]
    exact add_le_add k2 i2

theorem newton_close {ρ ρ' : V3 → ℝ} {p : V3} {i : Fin 3} (h : Integrable (newtonElement ρ p i))
    (h' : Integrable (newtonElement ρ' p i)) {L : List (ℝ × Set V3)}
    (hL : ∀ t ∈ L, 0 ≤ t.1 ∧ MeasurableSet t.2 ∧ volume t.2 < ⊤)
    (hρ : ∀ᵐ x, |ρ x - ρ' x| ≤ (L.map fun t => t.2.indicator (fun _ => t.1) x).sum) {R : ℝ} (hR : 0 < R) :
    |newtonField ρ p i - newtonField ρ' p i| ≤
      6.6743e-11 * (L.map fun t => t.1 * (24 * R + volume.real t.2 / R ^ 2)).sum := by
  obtain ⟨i1, i2⟩ := region_sum L hL p hR
  unfold newtonField
  rw [← integral_sub h h', ← Real.norm_eq_abs]
  refine (norm_integral_le_of_norm_le (i1.const_mul 6.6743e-11) ?_).trans ?_
  · filter_upwards [hρ] with x hx
    have e1 : newtonElement ρ p i x - newtonElement ρ' p i x = 6.6743e-11 * ((ρ x - ρ' x) * pull i (x - p)) := by
      unfold newtonElement pull
      rw [Pi.sub_apply]
      ring
    rw [e1, Real.norm_eq_abs, abs_mul, abs_of_pos (show (0 : ℝ) < 6.6743e-11 by norm_num), abs_mul]
    refine mul_le_mul_of_nonneg_left ?_ (by norm_num)
    exact mul_le_mul hx (abs_pull_le i _) (abs_nonneg _) ((abs_nonneg _).trans hx)
  · rw [integral_const_mul]
    exact mul_le_mul_of_nonneg_left i2 (by norm_num)

theorem thin_pos {e : Ellipsoid} (h : e.Valid) : 0 < e.thin := lt_min h.1 (lt_min h.2.1 h.2.2)

theorem thin_le (e : Ellipsoid) (k : Fin 3) : e.thin ≤ e.axes k := by
  unfold Ellipsoid.thin
  fin_cases k
  · exact min_le_left _ _
  · exact (min_le_right _ _).trans (min_le_left _ _)
  · exact (min_le_right _ _).trans (min_le_right _ _)

/-- The density of a body at two near points is the same unless they are near its surface. -/
theorem density_near {e : Ellipsoid} (h : e.Valid) {η : ℝ} {x y : V3} (hxy : magnitude (x - y) ≤ η) :
    |e.densityAt y - e.densityAt x| ≤ (e.shell (η / e.thin)).indicator (fun _ => |e.density.getD 0|) x := by
  have hm := thin_pos h
  have h1 := level_dist hm (thin_le e) x y
  have h2 := level_dist hm (thin_le e) y x
  rw [← neg_sub x y, magnitude_neg'] at h2
  have h3 : magnitude (x - y) / e.thin ≤ η / e.thin := by gcongr
  unfold Ellipsoid.densityAt
  by_cases hx : e.Inside x <;> by_cases hy : e.Inside y
  · rw [if_pos hx, if_pos hy, sub_self, abs_zero]
    exact indicator_nonneg (fun _ _ => abs_nonneg _) _
  · rw [if_pos hx, if_neg hy, sub_eq_add_neg, zero_add, abs_neg, indicator_of_mem]
    rw [inside_level] at hx hy
    exact ⟨by linarith [not_lt.1 hy], by linarith [(div_nonneg (magnitude_nonneg (x - y)) hm.le)]⟩
  · rw [if_neg hx, if_pos hy, sub_zero, indicator_of_mem]
    rw [inside_level] at hx hy
    exact ⟨by linarith [not_lt.1 hx, (div_nonneg (magnitude_nonneg (x - y)) hm.le)], by linarith⟩
  · rw [if_neg hx, if_neg hy, sub_self, abs_zero]
    exact indicator_nonneg (fun _ _ => abs_nonneg _) _

theorem densities_near {es : List Ellipsoid} (h : ∀ e ∈ es, e.Valid) {η : ℝ} {x y : V3}
    (hxy : magnitude (x - y) ≤ η) : |densityOf es y - densityOf es x| ≤
      ((es.map fun e => (|e.density.getD 0|, e.shell (η / e.thin))).map fun t => t.2.indicator (fun _ => t.1) x).sum := by
  induction es with
  | nil => simp [densityOf]
  | cons e es ih =>
    have h1 := ih fun e he => h e (by simp [he])
    have h2 := density_near (h e (by simp)) hxy
    simp only [densityOf, List.map_cons, List.sum_cons] at h1 ⊢
    rw [add_sub_add_comm]
    exact (abs_add_le _ _).trans (add_le_add h2 h1)

theorem sampled_error {es : List Ellipsoid} (h : ∀ e ∈ es, e.Valid) {η : ℝ} (hη : 0 ≤ η) {srcs : List (Prism × ℝ)}
    (hs : SampledBy η es srcs) {R : ℝ} (hR : 0 < R) (q : P3) (i : Fin 3) :
    |newtonField (prismDensity srcs) (vec q) i - newtonField (densityOf es) (vec q) i| ≤ samplingError es η R := by
  have hd : ∀ e ∈ es, 0 ≤ η / e.thin := fun e he => div_nonneg hη (thin_pos (h e he)).le
  have h1 := newton_close (prism_newton srcs q i).1 ((newton_list h (vec q)).1 i)
    (L := es.map fun e => (|e.density.getD 0|, e.shell (η / e.thin))) (by
      intro t ht
      obtain ⟨e, he, rfl⟩ := List.mem_map.1 ht
      obtain ⟨s1, s2, -⟩ := shell_volume (h e he) (hd e he)
      exact ⟨abs_nonneg _, s1, s2⟩) (by
      filter_upwards [hs] with x hx
      obtain ⟨y, hy1, hy2⟩ := hx
      rw [hy2]
      exact densities_near h hy1) hR
  refine h1.trans ?_
  unfold samplingError
  refine mul_le_mul_of_nonneg_left ?_ (by norm_num)
  rw [List.map_map]
  refine List.sum_le_sum fun e he => ?_
  obtain ⟨-, -, s3⟩ := shell_volume (h e he) (hd e he)
  simp only [Function.comp_apply]
  unfold Ellipsoid.volume at s3
  gcongr

/-- C151: the gravity of a model of ellipsoids made of prisms, `prism_gravity`, is that of the ellipsoids,
`ellipsoid_gravity`, with an error that is bounded at all points (also those in the bodies or on their surfaces) in
terms of the distance `η` of the samples of the model: about `24 R + 8 V η / (c R²)` for each body of volume `V` and
smallest semiaxis `c`, times its density and the gravitational constant, for every length `R`. -/
theorem C151_prisms {K : PrismKernels} (hK : K.Newtonian) (bodies : Bodies)
    (h : ∀ e ∈ bodies.toList, e.Valid ∧ e.Exact) (srcs : List (Prism × ℝ)) (hord : ∀ s ∈ srcs, s.1.Ordered) {η : ℝ}
    (hη : 0 ≤ η) (hs : SampledBy η bodies.toList srcs) : ∃ prisms ellipsoids : V3 → V3,
      ReturnsPrisms K srcs prisms ∧ ReturnsGravity bodies ellipsoids ∧
      ∀ R > 0, ∀ p i, |prisms p i - ellipsoids p i| ≤ samplingError bodies.toList η R := by
  refine ⟨_, newtonField (densityOf bodies.toList), returnsPrisms_newton hK hord,
    fun shape pts hp => ⟨_, C149_newton shape pts hp bodies h⟩, fun R hR p i => ?_⟩
  have hv : vec ⟨p 0, p 1, p 2⟩ = p := by
    funext k
    fin_cases k <;> rfl
  have := sampled_error (fun e he => (h e he).1) hη hs hR ⟨p 0, p 1, p 2⟩ i
  rwa [hv] at this

/-- C151: two sets of prisms whose densities differ at most by `D`, and only in a region of volume `v`, have gravities
that differ at most by `G D (24 R + v / R²)`, for every length `R`. -/
theorem C151_stable {K : PrismKernels} (hK : K.Newtonian) (srcs srcs' : List (Prism × ℝ))
    (hord : ∀ s ∈ srcs, s.1.Ordered) (hord' : ∀ s ∈ srcs', s.1.Ordered) {D : ℝ} (hD : 0 ≤ D) {S : Set V3}
    (hS : MeasurableSet S) (hv : volume S < ⊤)
    (hd : ∀ᵐ x, |prismDensity srcs x - prismDensity srcs' x| ≤ S.indicator (fun _ => D) x) :
    ∃ field field' : V3 → V3, ReturnsPrisms K srcs field ∧ ReturnsPrisms K srcs' field' ∧
      ∀ R > 0, ∀ p i, |field p i - field' p i| ≤ 6.6743e-11 * (D * (24 * R + volume.real S / R ^ 2)) := by
  refine ⟨_, _, returnsPrisms_newton hK hord, returnsPrisms_newton hK hord', fun R hR p i => ?_⟩
  have hv' : vec ⟨p 0, p 1, p 2⟩ = p := by
    funext k
    fin_cases k <;> rfl
  have := newton_close (prism_newton srcs ⟨p 0, p 1, p 2⟩ i).1 (prism_newton srcs' ⟨p 0, p 1, p 2⟩ i).1
    (L := [(D, S)]) (by simpa using ⟨hD, hS, hv⟩) (by simpa using hd) hR
  rw [hv'] at this
  simpa using this

/-! ### Voxels -/

theorem voxels_ordered (es : List Ellipsoid) {w : ℝ} (hw : 0 < w) (n : ℕ) : ∀ s ∈ voxels es w n, s.1.Ordered := by
  intro s hs
  obtain ⟨c, -, rfl⟩ := List.mem_map.1 hs
  refine ⟨?_, ?_, ?_⟩ <;> simp only [voxel] <;> nlinarith

theorem mem_cell {w t : ℝ} (hw : 0 < w) (ht : ∀ z : ℤ, t ≠ z * w) (z : ℤ) :
    t ∈ Icc (z * w) ((z + 1) * w) ↔ z = ⌊t / w⌋ := by
  rw [eq_comm, Int.floor_eq_iff, le_div_iff₀ hw, div_lt_iff₀ hw, mem_Icc]
  refine and_congr_right fun _ => ⟨fun h => lt_of_le_of_ne h ?_, le_of_lt⟩
  have := ht (z + 1)
  push_cast at this
  exact this

/-- The cell of a point. -/
noncomputable def cellOf (w : ℝ) (x : V3) : ℤ × ℤ × ℤ := (⌊x 0 / w⌋, ⌊x 1 / w⌋, ⌊x 2 / w⌋)

theorem voxels_density (es : List Ellipsoid) {w : ℝ} (hw : 0 < w) (n : ℕ) {x : V3}
    (hx : ∀ k, ∀ z : ℤ, x k ≠ z * w) : prismDensity (voxels es w n) x =
      if cellOf w x ∈ Finset.Ico (-n : ℤ) n ×ˢ Finset.Ico (-n : ℤ) n ×ˢ Finset.Ico (-n : ℤ) n then
        densityOf es (voxelCenter w (cellOf w x)) else 0 := by
  have hb : ∀ c, (x 0, x 1, x 2) ∈ (voxel w c).body ↔ c = cellOf w x := by
    intro c
    unfold Prism.body voxel cellOf
    rw [mem_prod, mem_prod, mem_cell hw (hx 0), mem_cell hw (hx 1), mem_cell hw (hx 2), Prod.ext_iff, Prod.ext_iff]
  unfold prismDensity Verif.Forward.densityAt voxels
  rw [List.map_map]
  have e : ((fun s : Prism × ℝ => s.1.body.indicator (fun _ => s.2) (x 0, x 1, x 2)) ∘ fun c =>
      (voxel w c, densityOf es (voxelCenter w c))) = fun c => if c = cellOf w x then
        densityOf es (voxelCenter w (cellOf w x)) else 0 := by
    funext c
    rw [Function.comp_apply]
    by_cases hc : c = cellOf w x
    · rw [if_pos hc, indicator_of_mem ((hb c).2 hc), hc]
    · rw [if_neg hc, indicator_of_notMem fun h => hc ((hb c).1 h)]
  rw [e, Finset.sum_map_toList, Finset.sum_ite_eq']

theorem center_near {w : ℝ} (hw : 0 < w) (x : V3) : magnitude (x - voxelCenter w (cellOf w x)) ≤ w := by
  have key : ∀ t : ℝ, (t - (⌊t / w⌋ + 1 / 2) * w) ^ 2 ≤ w ^ 2 / 4 := by
    intro t
    have h1 := Int.floor_le (t / w)
    have h2 := Int.lt_floor_add_one (t / w)
    rw [le_div_iff₀ hw] at h1
    rw [div_lt_iff₀ hw] at h2
    have : |t - (⌊t / w⌋ + 1 / 2) * w| ≤ w / 2 := abs_le.2 ⟨by linarith, by linarith⟩
    have := pow_le_pow_left₀ (abs_nonneg _) this 2
    rw [sq_abs] at this
    linarith [show (w / 2) ^ 2 = w ^ 2 / 4 by ring]
  refine magnitude_le hw.le ?_
  unfold sq3
  rw [Fin.sum_univ_three]
  have h0 := key (x 0)
  have h1 := key (x 1)
  have h2 := key (x 2)
  simp only [Pi.sub_apply]
  show (x 0 - (⌊x 0 / w⌋ + 1 / 2) * w) ^ 2 + (x 1 - (⌊x 1 / w⌋ + 1 / 2) * w) ^ 2 +
    (x 2 - (⌊x 2 / w⌋ + 1 / 2) * w) ^ 2 ≤ w ^ 2
  nlinarith [sq_nonneg w]

/-- The bodies are in some cube. -/
theorem bodies_bounded {es : List Ellipsoid} (h : ∀ e ∈ es, e.Valid) :
    ∃ r : ℝ, 0 < r ∧ ∀ x, r ≤ ‖x‖ → densityOf es x = 0 := by
  induction es with
  | nil => exact ⟨1, one_pos, fun x _ => by simp [densityOf]⟩
  | cons e es ih =>
    obtain ⟨r, r0, hr⟩ := ih fun e he => h e (by simp [he])
    obtain ⟨C, hC⟩ := isBounded_iff_forall_norm_le.1 (solid_bounded (valid_positive (h e (by simp))))
    have hcont : Continuous fun v : V3 => e.rotationMatrix.mulVec v + e.center := by
      unfold Matrix.mulVec dotProduct
      fun_prop
    obtain ⟨B, hB⟩ := isBounded_iff_forall_norm_le.1 ((isCompact_closedBall (0 : V3) C).image hcont).isBounded
    refine ⟨max r (B + 1), lt_max_of_lt_left r0, fun x hx => ?_⟩
    have h1 := hr x ((le_max_left _ _).trans hx)
    have h2 : ¬e.Inside x := by
      rintro ⟨v, rfl, hv⟩
      have hv' : v ∈ solid e.axes := (inside_toWorld e v).1 ⟨v, rfl, hv⟩
      have := hB _ ⟨v, mem_closedBall_zero_iff.2 (hC v hv'), rfl⟩
      linarith [(le_max_right r (B + 1)).trans hx]
    simp only [densityOf, List.map_cons, List.sum_cons] at h1 ⊢
    rw [h1, add_zero]
    exact if_neg h2

theorem voxels_sampled {es : List Ellipsoid} {w : ℝ} (hw : 0 < w) {n : ℕ}
    (hn : ∀ x, n * w ≤ ‖x‖ → densityOf es x = 0) : SampledBy w es (voxels es w n) := by
  have hne : ∀ᵐ x : V3, ∀ k, ∀ z : ℤ, x k ≠ z * w := by
    rw [ae_all_iff]
    intro k
    rw [ae_all_iff]
    intro z
    exact Measure.ae_eval_ne (fun _ : Fin 3 => (volume : Measure ℝ)) k _
  unfold SampledBy
  filter_upwards [hne] with x hx
  rw [voxels_density es hw n hx]
  split_ifs with hc
  · exact ⟨_, center_near hw x, rfl⟩
  · refine ⟨x, by rw [sub_self, magnitude_zero]; exact hw.le, (hn x ?_).symm⟩
    by_contra hlt
    rw [not_le] at hlt
    refine hc ?_
    have key : ∀ k, ⌊x k / w⌋ ∈ Finset.Ico (-n : ℤ) n := by
      intro k
      have h1 := abs_lt.1 ((norm_le_pi_norm x k).trans_lt hlt)
      rw [Finset.mem_Ico, Int.le_floor, Int.floor_lt, le_div_iff₀ hw, div_lt_iff₀ hw]
      push_cast
      constructor <;> linarith
    simp only [Finset.mem_product, cellOf]
    exact ⟨key 0, key 1, key 2⟩

theorem samplingError_continuous (es : List Ellipsoid) (R : ℝ) : Continuous fun η => samplingError es η R := by
  unfold samplingError
  refine continuous_const.mul ?_
  induction es with
  | nil => simpa using continuous_const
  | cons e es ih =>
    simp only [List.map_cons, List.sum_cons]
    refine Continuous.add ?_ ih
    fun_prop

theorem samplingError_zero (es : List Ellipsoid) (R : ℝ) :
    samplingError es 0 R = 6.6743e-11 * (24 * (es.map fun e => |e.density.getD 0|).sum) * R := by
  unfold samplingError
  rw [mul_assoc]
  congr 1
  induction es with
  | nil => simp
  | cons e es ih =>
    simp only [List.map_cons, List.sum_cons] at ih ⊢
    rw [ih]
    simp
    ring

/-- C151: models made of cubes converge. For every list of ellipsoids and every tolerance there is a side such that the
gravity of the cubes of this side or of a smaller one, with the density of the ellipsoids at their centers, is that of
the ellipsoids within the tolerance, at all points, when there are enough cubes to cover the bodies. -/
theorem C151_voxels {K : PrismKernels} (hK : K.Newtonian) (bodies : Bodies)
    (h : ∀ e ∈ bodies.toList, e.Valid ∧ e.Exact) {ε : ℝ} (hε : 0 < ε) : ∃ w₀ > 0, ∀ w, 0 < w → w ≤ w₀ →
      ∃ n₀ : ℕ, ∀ n ≥ n₀, ∃ prisms ellipsoids : V3 → V3,
        ReturnsPrisms K (voxels bodies.toList w n) prisms ∧ ReturnsGravity bodies ellipsoids ∧
        ∀ p i, |prisms p i - ellipsoids p i| ≤ ε := by
  set A : ℝ := 6.6743e-11 * (24 * (bodies.toList.map fun e => |e.density.getD 0|).sum) with hA
  have hA0 : 0 ≤ A := by
    have : 0 ≤ (bodies.toList.map fun e => |e.density.getD 0|).sum := List.sum_nonneg fun x hx => by
      obtain ⟨e, -, rfl⟩ := List.mem_map.1 hx
      exact abs_nonneg _
    positivity
  set R : ℝ := ε / (A + 1) with hR
  have hR0 : 0 < R := by positivity
  have h0 : samplingError bodies.toList 0 R < ε := by
    rw [samplingError_zero, ← hA, hR, mul_div_assoc', div_lt_iff₀ (by positivity)]
    nlinarith
  obtain ⟨d, d0, hd⟩ := Metric.eventually_nhds_iff.1
    (((samplingError_continuous bodies.toList R).tendsto 0).eventually (gt_mem_nhds h0))
  obtain ⟨r, r0, hr⟩ := bodies_bounded fun e he => (h e he).1
  refine ⟨d / 2, half_pos d0, fun w hw hwd => ?_⟩
  obtain ⟨n₀, hn₀⟩ := exists_nat_ge (r / w)
  refine ⟨n₀, fun n hn => ?_⟩
  have hs : SampledBy w bodies.toList (voxels bodies.toList w n) := voxels_sampled hw fun x hx => hr x (by
    rw [div_le_iff₀ hw] at hn₀
    have : (n₀ : ℝ) * w ≤ n * w := mul_le_mul_of_nonneg_right (by exact_mod_cast hn) hw.le
    linarith)
  obtain ⟨f, g, h1, h2, h3⟩ := C151_prisms hK bodies h _ (voxels_ordered _ hw n) hw.le hs
  refine ⟨f, g, h1, h2, fun p i => (h3 R hR0 p i).trans (hd ?_).le⟩
  rw [Real.dist_eq, sub_zero, abs_of_pos hw]
  linarith

/-! ### The hypotheses can be met -/

/-- Cubes of 1 m and the rock and the ball of the examples, for the kernels that are the integrals. -/
example : ∃ n, ∃ prisms ellipsoids : V3 → V3, ReturnsPrisms bodyKernels (voxels [rock, ball] 1 n) prisms ∧
    ReturnsGravity (.many [rock, ball]) ellipsoids ∧
    ∀ R > 0, ∀ p i, |prisms p i - ellipsoids p i| ≤ samplingError [rock, ball] 1 R := by
  have hv : ∀ e ∈ (Bodies.many [rock, ball]).toList, e.Valid ∧ e.Exact := by
    intro e he
    simp only [Bodies.toList, List.mem_cons, List.not_mem_nil, or_false] at he
    rcases he with rfl | rfl
    · exact ⟨rock_valid, rock_exact⟩
    · exact ⟨ball_valid, ball_exact⟩
  obtain ⟨r, r0, hr⟩ := bodies_bounded fun e he => (hv e he).1
  obtain ⟨n, hn⟩ := exists_nat_ge r
  exact ⟨n, C151_prisms bodyKernels_newtonian (.many [rock, ball]) hv _ (voxels_ordered _ one_pos n) zero_le_one
    (voxels_sampled one_pos fun x hx => hr x (by linarith))⟩

/-- A cube that is cut from another one. -/
example : ∃ field field' : V3 → V3, ReturnsPrisms bodyKernels [(⟨0, 10, 0, 10, -10, 0⟩, 2670)] field ∧
    ReturnsPrisms bodyKernels [(⟨0, 10, 0, 10, -10, 0⟩, 2670), (⟨0, 1, 0, 1, -1, 0⟩, -2670)] field' ∧
    ∀ R > 0, ∀ p i, |field p i - field' p i| ≤
      6.6743e-11 * (2670 * (24 * R + volume.real (Icc (![0, 0, -1] : V3) ![1, 1, 0]) / R ^ 2)) := by
  refine C151_stable bodyKernels_newtonian _ _ ?_ ?_ (by norm_num) measurableSet_Icc
    isCompact_Icc.measure_lt_top (Filter.Eventually.of_forall fun x => ?_)
  · intro s hs
    simp only [List.mem_singleton] at hs
    rw [hs]
    norm_num [Prism.Ordered]
  · intro s hs
    simp only [List.mem_cons, List.not_mem_nil, or_false] at hs
    rcases hs with rfl | rfl <;> norm_num [Prism.Ordered]
  · have hb : (x 0, x 1, x 2) ∈ (Prism.mk 0 1 0 1 (-1) 0).body ↔ x ∈ Icc (![0, 0, -1] : V3) ![1, 1, 0] := by
      simp [Prism.body, Pi.le_def, Fin.forall_fin_succ]
    simp only [prismDensity, Verif.Forward.densityAt, List.map_cons, List.map_nil, List.sum_cons, List.sum_nil]
    by_cases hx : x ∈ Icc (![0, 0, -1] : V3) ![1, 1, 0]
    · rw [indicator_of_mem (hb.2 hx), indicator_of_mem hx]
      simp
    · rw [indicator_of_notMem (s := (Prism.mk 0 1 0 1 (-1) 0).body) fun h => hx (hb.1 h), indicator_of_notMem hx]
      simp

end Verif.Ellipsoids
