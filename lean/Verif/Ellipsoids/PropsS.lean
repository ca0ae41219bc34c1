import Verif.Ellipsoids.PropsQ
import Verif.Ellipsoids.PropsR
import Verif.Ellipsoids.SpecE
import Verif.Forward.PropsO

/-! C153: models of magnetized ellipsoids made of prisms. -/

namespace Verif.Ellipsoids
open MeasureTheory Set Verif.Distance Verif.Engine
open Verif.Forward (arrays Prism MagKernels prismMagnetic Junk pointAt coords gap dipoleKernels PointField
  sum_integrals bodyMag prismMagnetic_body dipole_e dipole_n dipole_u bodyMagKernels bodyMagKernels_magnetized)

/-! ### The field of prisms -/

/-- The kernel of dipoles for the component `i`. -/
noncomputable def dipoleKernel (mu0 : ℝ) : Fin 3 → P3 → P3 → P3 → ℝ :=
  ![(dipoleKernels mu0).e, (dipoleKernels mu0).n, (dipoleKernels mu0).u]

theorem dipoleKernel_field (mu0 : ℝ) (m : P3) (i : Fin 3) :
    PointField (fun q p c => c * dipoleKernel mu0 i q p m) 3 := by
  fin_cases i
  · exact dipole_e mu0 m
  · exact dipole_n mu0 m
  · exact dipole_u mu0 m

theorem dipoleKernel_eq (mu0 : ℝ) (i : Fin 3) (q m : P3) (x : V3) : dipoleKernel mu0 i q (pointAt (triple x)) m =
    mu0 / (4 * Real.pi) * (3 * dotProduct (vec m) (vec q - x) * (vec q i - x i) / magnitude (vec q - x) ^ 5 -
      vec m i / magnitude (vec q - x) ^ 3) := by
  have hd : dotProduct (vec m) (vec q - x) = m.x * (q.x - x 0) + m.y * (q.y - x 1) + m.z * (q.z - x 2) := by
    unfold dotProduct
    rw [Fin.sum_univ_three]
    rfl
  rw [← neg_sub x (vec q), magnitude_neg', ← gap_vec, neg_sub, hd]
  fin_cases i <;> rfl

theorem prismMagnetization_cons (s : Prism × P3) (srcs : List (Prism × P3)) (x : V3) :
    prismMagnetization (s :: srcs) x = prismMagnetization [s] x + prismMagnetization srcs x := by
  unfold prismMagnetization
  simp

theorem dipoleElement_add (mu0 : ℝ) (M N : V3 → V3) (p : V3) (i : Fin 3) :
    dipoleElement mu0 (fun x => M x + N x) p i = fun x => dipoleElement mu0 M p i x + dipoleElement mu0 N p i x := by
  funext x
  unfold dipoleElement
  simp only [add_dotProduct, Pi.add_apply]
  ring

theorem prism_dipole (mu0 : ℝ) (s : Prism × P3) (q : P3) (i : Fin 3) :
    dipoleElement mu0 (prismMagnetization [s]) (vec q) i =
      (fun r => Verif.Forward.densityAt [(s.1, 1)] r * (1 * dipoleKernel mu0 i q (pointAt r) s.2)) ∘ triple := by
  funext x
  rw [Function.comp_apply, dipoleKernel_eq]
  unfold dipoleElement prismMagnetization Verif.Forward.densityAt
  simp only [List.map_cons, List.map_nil, List.sum_cons, List.sum_nil, add_zero, triple_apply]
  by_cases hx : (x 0, x 1, x 2) ∈ s.1.body
  · rw [if_pos hx, indicator_of_mem hx, one_mul, one_mul]
  · rw [if_neg hx, indicator_of_notMem hx, zero_mul]
    simp

theorem prisms_dipoles (mu0 : ℝ) (srcs : List (Prism × P3)) (q : P3) (ho : ∀ s ∈ srcs, coords q ∉ s.1.body)
    (i : Fin 3) : Integrable (dipoleElement mu0 (prismMagnetization srcs) (vec q) i) ∧
      dipolesField mu0 (prismMagnetization srcs) (vec q) i =
        (srcs.map fun s => ∫ r in s.1.body, dipoleKernel mu0 i q (pointAt r) s.2).sum := by
  unfold dipolesField
  induction srcs with
  | nil =>
    have e0 : dipoleElement mu0 (prismMagnetization []) (vec q) i = fun _ => 0 := by
      funext x
      simp [dipoleElement, prismMagnetization]
    rw [e0]
    simp
  | cons s srcs ih =>
    obtain ⟨i1, i2⟩ := ih fun s hs => ho s (by simp [hs])
    obtain ⟨j1, j2⟩ := sum_integrals (dipoleKernel_field mu0 s.2 i) [(s.1, 1)] q (Or.inr (by
      intro t ht
      simp only [List.mem_singleton] at ht
      rw [ht]
      exact ho s (by simp)))
    have k1 : Integrable (dipoleElement mu0 (prismMagnetization [s]) (vec q) i) := by
      rw [prism_dipole]
      exact (triple_preserving.integrable_comp_emb triple.measurableEmbedding).2 j2
    have k2 : ∫ x, dipoleElement mu0 (prismMagnetization [s]) (vec q) i x =
        ∫ r in s.1.body, dipoleKernel mu0 i q (pointAt r) s.2 := by
      have h0 : ∫ x, dipoleElement mu0 (prismMagnetization [s]) (vec q) i x =
          ∫ r, Verif.Forward.densityAt [(s.1, 1)] r * (1 * dipoleKernel mu0 i q (pointAt r) s.2) := by
        rw [prism_dipole]
        exact triple_preserving.integral_comp triple.measurableEmbedding fun r =>
          Verif.Forward.densityAt [(s.1, 1)] r * (1 * dipoleKernel mu0 i q (pointAt r) s.2)
      rw [h0, ← j1]
      simp
    have e1 : dipoleElement mu0 (prismMagnetization (s :: srcs)) (vec q) i = fun x =>
        dipoleElement mu0 (prismMagnetization [s]) (vec q) i x +
          dipoleElement mu0 (prismMagnetization srcs) (vec q) i x := by
      rw [← dipoleElement_add]
      congr 1
      funext x
      exact prismMagnetization_cons s srcs x
    rw [e1]
    refine ⟨k1.add i1, ?_⟩
    rw [integral_add k1 i1, i2, k2, List.map_cons, List.sum_cons]

theorem returnsPrismsMag_dipoles {mu0 : ℝ} {K : MagKernels Prism} (hK : K.Magnetized mu0) {srcs : List (Prism × P3)}
    (hord : ∀ s ∈ srcs, s.1.Ordered) : ReturnsPrismsMag K srcs (dipolesField mu0 (prismMagnetization srcs)) := by
  intro junk mode shape pts dis hs hm ho
  refine (prismMagnetic_body junk mode hK shape pts hs.symm srcs dis hord hm ho).1.trans ?_
  have key : ∀ i, pts.map (bodyMag (dipoleKernel mu0 i) srcs) =
      pts.map fun q => 10 ^ 9 * dipolesField mu0 (prismMagnetization srcs) (vec q) i := by
    intro i
    apply List.map_congr_left
    intro q hq
    rw [(prisms_dipoles mu0 srcs q (ho q hq) i).2, mul_comm]
    rfl
  have k0 := key 0
  have k1 := key 1
  have k2 := key 2
  unfold magneticResult
  rw [← k0, ← k1, ← k2]
  rfl

/-! ### The error of a model -/

theorem dipoleElement_eq (mu0 : ℝ) (M : V3 → V3) (p : V3) (i : Fin 3) (x : V3) :
    dipoleElement mu0 M p i x = ∑ j, mu0 / (4 * Real.pi) * M x j * pullJac i j (x - p) := by
  unfold dipoleElement
  unfold pullJac dotProduct
  rw [← neg_sub x p, magnitude_neg']
  simp only [mul_assoc]
  rw [← Finset.mul_sum]
  congr 1
  rw [Finset.sum_congr rfl fun j _ => mul_sub _ _ _, Finset.sum_sub_distrib]
  congr 1
  · rw [Finset.sum_mul, Finset.mul_sum, Finset.sum_div]
    refine Finset.sum_congr rfl fun j _ => ?_
    simp only [Pi.neg_apply, Pi.sub_apply]
    ring
  · rw [Finset.sum_eq_single i]
    · simp [div_eq_mul_inv]
    · intro j _ hj
      rw [if_neg (Ne.symm hj)]
      simp
    · simp

theorem abs_pullJac_magnitude {y : V3} (i j : Fin 3) {r : ℝ} (hr : 0 < r) (hm : r ≤ magnitude y) :
    |pullJac i j y| ≤ 4 / r ^ 3 := by
  have hm0 : 0 < magnitude y := hr.trans_le hm
  have h1 : |3 * y i * y j / magnitude y ^ 5| ≤ 3 / magnitude y ^ 3 := by
    rw [abs_div, abs_of_pos (pow_pos hm0 5), div_le_div_iff₀ (by positivity) (by positivity), abs_mul, abs_mul,
      abs_of_pos (show (0 : ℝ) < 3 by norm_num)]
    have := mul_le_mul (abs_le_magnitude y i) (abs_le_magnitude y j) (abs_nonneg _) hm0.le
    calc 3 * |y i| * |y j| * magnitude y ^ 3 = 3 * (|y i| * |y j|) * magnitude y ^ 3 := by ring
      _ ≤ 3 * (magnitude y * magnitude y) * magnitude y ^ 3 := by gcongr
      _ = _ := by ring
  have h2 : |(if i = j then (1 : ℝ) else 0) / magnitude y ^ 3| ≤ 1 / magnitude y ^ 3 := by
    rw [abs_div, abs_of_pos (pow_pos hm0 3)]
    gcongr
    split_ifs <;> simp
  have h3 : 4 / magnitude y ^ 3 ≤ 4 / r ^ 3 := by gcongr
  unfold pullJac
  refine (abs_sub _ _).trans ?_
  have : 3 / magnitude y ^ 3 + 1 / magnitude y ^ 3 = 4 / magnitude y ^ 3 := by ring
  linarith

theorem region_mass (L : List (ℝ × Set V3)) (hL : ∀ t ∈ L, MeasurableSet t.2 ∧ volume t.2 < ⊤) :
    Integrable (fun x => (L.map fun t => t.2.indicator (fun _ => t.1) x).sum) ∧
      ∫ x, (L.map fun t => t.2.indicator (fun _ => t.1) x).sum = (L.map fun t => t.1 * volume.real t.2).sum := by
  induction L with
  | nil => simp
  | cons t L ih =>
    obtain ⟨i1, i2⟩ := ih fun t ht => hL t (by simp [ht])
    obtain ⟨t2, t3⟩ := hL t (by simp)
    have k1 : Integrable fun x => t.2.indicator (fun _ => t.1) x := by
      rw [integrable_indicator_iff t2]
      exact integrableOn_const t3.ne
    simp only [List.map_cons, List.sum_cons]
    refine ⟨k1.add i1, ?_⟩
    rw [integral_add k1 i1, i2, integral_indicator t2, setIntegral_const, smul_eq_mul, mul_comm]

/-- The body with a component of its magnetization as density. -/
noncomputable def Ellipsoid.carry (M : Ellipsoid → V3) (j : Fin 3) (e : Ellipsoid) : Ellipsoid :=
  { e with density := some (M e j) }

theorem carry_inside (M : Ellipsoid → V3) (j : Fin 3) (e : Ellipsoid) (x : V3) : (e.carry M j).Inside x ↔ e.Inside x :=
  Iff.rfl

theorem carry_density (es : List Ellipsoid) (M : Ellipsoid → V3) (j : Fin 3) (x : V3) :
    densityOf (es.map (Ellipsoid.carry M j)) x = magnetizationOf es M x j := by
  induction es with
  | nil => simp [densityOf, magnetizationOf]
  | cons e es ih =>
    rw [magnetizationOf_cons, Pi.add_apply, ← ih]
    simp only [densityOf, List.map_cons, List.sum_cons]
    congr 1
    unfold Ellipsoid.densityAt
    by_cases hx : e.Inside x
    · rw [magnetizationOf_in hx, if_pos ((carry_inside M j e x).2 hx)]
      rfl
    · rw [magnetizationOf_out hx, if_neg fun h => hx ((carry_inside M j e x).1 h)]
      rfl

theorem carry_valid {es : List Ellipsoid} (h : ∀ e ∈ es, e.Valid) (M : Ellipsoid → V3) (j : Fin 3) :
    ∀ e ∈ es.map (Ellipsoid.carry M j), e.Valid := by
  intro e he
  obtain ⟨e, he', rfl⟩ := List.mem_map.1 he
  exact h e he'

theorem magnetization_away {es : List Ellipsoid} {r : ℝ} {p : V3} (hp : Away r es p) (M : Ellipsoid → V3) {x : V3}
    (hx : magnitude (x - p) < r) : magnetizationOf es M x = 0 := by
  unfold magnetizationOf
  refine List.sum_eq_zero fun v hv => ?_
  obtain ⟨e, he, rfl⟩ := List.mem_map.1 hv
  exact if_neg fun h => absurd (hp e he x (.inl h)) (not_le.2 hx)

theorem prismMagnetization_away {srcs : List (Prism × P3)} {r : ℝ} {p : V3} (hp : AwayPrisms r srcs p) {x : V3}
    (hx : magnitude (x - p) < r) : prismMagnetization srcs x = 0 := by
  unfold prismMagnetization
  refine List.sum_eq_zero fun v hv => ?_
  obtain ⟨s, hs, rfl⟩ := List.mem_map.1 hv
  exact if_neg fun h => absurd (hp s hs x h) (not_le.2 hx)

theorem mag_sampled_error {es : List Ellipsoid} (h : ∀ e ∈ es, e.Valid) (mu0 : ℝ) (M : Ellipsoid → V3) {η : ℝ}
    (hη : 0 ≤ η) {srcs : List (Prism × P3)} (hs : MagSampledBy η (magnetizationOf es M) srcs) {r : ℝ} (hr : 0 < r)
    {p : V3} (h1 : Away r es p) (h2 : AwayPrisms r srcs p) (i : Fin 3) :
    |dipolesField mu0 (prismMagnetization srcs) p i - dipolesField mu0 (magnetizationOf es M) p i| ≤
      magSamplingError mu0 es M η r := by
  have hpi := Real.pi_pos
  have hd : ∀ e ∈ es, 0 ≤ η / e.thin := fun e he => div_nonneg hη (thin_pos (h e he)).le
  have hout : ∀ e ∈ es, ¬e.Inside p ∧ ¬e.OnSurface p := by
    intro e he
    have h3 := h1 e he p
    rw [sub_self, magnitude_zero] at h3
    exact ⟨fun h => absurd (h3 (.inl h)) (not_le.2 hr), fun h => absurd (h3 (.inr h)) (not_le.2 hr)⟩
  have hv : vec ⟨p 0, p 1, p 2⟩ = p := by
    funext i
    fin_cases i <;> rfl
  have houtp : ∀ s ∈ srcs, coords ⟨p 0, p 1, p 2⟩ ∉ s.1.body := by
    intro s hs hin
    have := h2 s hs p hin
    rw [sub_self, magnitude_zero] at this
    linarith
  have int1 := (prisms_dipoles mu0 srcs ⟨p 0, p 1, p 2⟩ houtp i).1
  rw [hv] at int1
  have int2 := (dipole_list h mu0 M hout).1 i
  -- the sets where the magnetizations differ
  set L : Fin 3 → List (ℝ × Set V3) := fun j => (es.map (Ellipsoid.carry M j)).map fun e =>
    (|e.density.getD 0|, e.shell (η / e.thin)) with hL
  have hLm : ∀ j, ∀ t ∈ L j, MeasurableSet t.2 ∧ volume t.2 < ⊤ := by
    intro j t ht
    obtain ⟨e', he', rfl⟩ := List.mem_map.1 ht
    obtain ⟨e, he, rfl⟩ := List.mem_map.1 he'
    obtain ⟨s1, s2, -⟩ := shell_volume (e := e.carry M j) (h e he) (hd e he)
    exact ⟨s1, s2⟩
  have hdiff : ∀ j, ∀ᵐ x, |prismMagnetization srcs x j - magnetizationOf es M x j| ≤
      ((L j).map fun t => t.2.indicator (fun _ => t.1) x).sum := by
    intro j
    filter_upwards [hs j] with x hx
    obtain ⟨y, hy1, hy2⟩ := hx
    rw [hy2, ← carry_density, ← carry_density]
    exact densities_near (carry_valid h M j) hy1
  set c : ℝ := |mu0| / (4 * Real.pi) * (4 / r ^ 3) with hc
  have hc0 : 0 ≤ c := by positivity
  have hG : Integrable fun x => ∑ j, c * ((L j).map fun t => t.2.indicator (fun _ => t.1) x).sum :=
    integrable_finsetSum _ fun j _ => (region_mass (L j) (hLm j)).1.const_mul _
  unfold dipolesField
  rw [← integral_sub int1 int2, ← Real.norm_eq_abs]
  refine (norm_integral_le_of_norm_le hG ?_).trans ?_
  · filter_upwards [hdiff 0, hdiff 1, hdiff 2] with x x0 x1 x2
    have hx : ∀ j, |prismMagnetization srcs x j - magnetizationOf es M x j| ≤
        ((L j).map fun t => t.2.indicator (fun _ => t.1) x).sum := by
      intro j
      fin_cases j
      · exact x0
      · exact x1
      · exact x2
    rw [Real.norm_eq_abs, dipoleElement_eq, dipoleElement_eq, ← Finset.sum_sub_distrib]
    refine (Finset.abs_sum_le_sum_abs _ _).trans (Finset.sum_le_sum fun j _ => ?_)
    have e1 : mu0 / (4 * Real.pi) * prismMagnetization srcs x j * pullJac i j (x - p) -
        mu0 / (4 * Real.pi) * magnetizationOf es M x j * pullJac i j (x - p) =
        mu0 / (4 * Real.pi) * (pullJac i j (x - p) * (prismMagnetization srcs x j - magnetizationOf es M x j)) := by
      ring
    rw [e1, abs_mul, abs_mul, abs_div, abs_of_pos (show (0 : ℝ) < 4 * Real.pi by positivity), hc, mul_assoc]
    refine mul_le_mul_of_nonneg_left ?_ (by positivity)
    rcases lt_or_ge (magnitude (x - p)) r with hlt | hge
    · rw [prismMagnetization_away h2 hlt, magnetization_away h1 M hlt, sub_self, abs_zero, mul_zero]
      exact mul_nonneg (by positivity) ((abs_nonneg _).trans (hx j))
    · exact mul_le_mul (abs_pullJac_magnitude i j hr hge) (hx j) (abs_nonneg _) (by positivity)
  · rw [integral_finsetSum _ fun j _ => (region_mass (L j) (hLm j)).1.const_mul _]
    simp only [integral_const_mul]
    rw [← Finset.mul_sum]
    unfold magSamplingError
    have e2 : c = |mu0| / (Real.pi * r ^ 3) := by
      rw [hc]
      field_simp
    rw [e2]
    refine mul_le_mul_of_nonneg_left ?_ (by positivity)
    have e3 : ∀ j, ∫ x, ((L j).map fun t => t.2.indicator (fun _ => t.1) x).sum ≤
        (es.map fun e => |M e j| * (4 / 3 * Real.pi * (e.a * e.b * e.c) *
          (6 * (η / e.thin) + 2 * (η / e.thin) ^ 3))).sum := by
      intro j
      rw [(region_mass (L j) (hLm j)).2, hL]
      simp only [List.map_map]
      refine List.sum_le_sum fun e he => ?_
      obtain ⟨-, -, s3⟩ := shell_volume (e := e.carry M j) (h e he) (hd e he)
      simp only [Function.comp_apply]
      exact mul_le_mul_of_nonneg_left s3 (abs_nonneg _)
    refine (Finset.sum_le_sum fun j _ => e3 j).trans (le_of_eq ?_)
    rw [Fin.sum_univ_three]
    induction es with
    | nil => simp
    | cons e es _ =>
      rw [← List.sum_map_add, ← List.sum_map_add]
      congr 1
      apply List.map_congr_left
      intro e _
      ring

/-- C153: the magnetic field of a model of ellipsoids made of prisms, `prism_magnetic`, is that of the ellipsoids,
`ellipsoid_magnetic`, when the prisms have the magnetization `M` of the ellipsoids (with demagnetization), with an error
that is bounded at all points outside of the bodies and the prisms in terms of the distance `η` of the samples of the
model and of the distance `r` to the matter. -/
theorem C153_prisms {mu0 : ℝ} {K : MagKernels Prism} (hK : K.Magnetized mu0) (bodies : Bodies)
    (h : ∀ e ∈ bodies.toList, e.Valid ∧ e.Passive ∧ e.Exact) (B0 : V3) :
    ∃ (M : Ellipsoid → V3) (ellipsoids : V3 → V3), (∀ e ∈ bodies.toList,
        M e + (e.toSpace (demagInside e.axes)).mulVec ((e.toSpace e.chi).mulVec (M e)) =
          e.remanence + (e.toSpace e.chi).mulVec (inducingH mu0 B0)) ∧
      ReturnsMagnetic mu0 bodies B0 ellipsoids ∧
      ∀ srcs : List (Prism × P3), (∀ s ∈ srcs, s.1.Ordered) → ∀ η, 0 ≤ η →
        MagSampledBy η (magnetizationOf bodies.toList M) srcs →
        ∃ prisms : V3 → V3, ReturnsPrismsMag K srcs prisms ∧
          ∀ r > 0, ∀ p, Away r bodies.toList p → AwayPrisms r srcs p → ∀ i,
            |prisms p i - ellipsoids p i| ≤ magSamplingError mu0 bodies.toList M η r := by
  obtain ⟨M, field, h1, h2, h3⟩ := C150_dipoles mu0 bodies h B0
  refine ⟨M, field, h1, h2, fun srcs hord η hη hs => ⟨_, returnsPrismsMag_dipoles hK hord, ?_⟩⟩
  intro r hr p ha hap i
  have hout : ∀ e ∈ bodies.toList, ¬e.Inside p ∧ ¬e.OnSurface p := by
    intro e he
    have h3 := ha e he p
    rw [sub_self, magnitude_zero] at h3
    exact ⟨fun h => absurd (h3 (.inl h)) (not_le.2 hr), fun h => absurd (h3 (.inr h)) (not_le.2 hr)⟩
  rw [(h3 p hout).2]
  exact mag_sampled_error (fun e he => (h e he).1) mu0 M hη hs hr ha hap i

/-! ### Cubes -/

theorem magVoxels_component (es : List Ellipsoid) (M : Ellipsoid → V3) (w : ℝ) (n : ℕ) (j : Fin 3) (x : V3) :
    prismMagnetization (magVoxels es M w n) x j = prismDensity (voxels (es.map (Ellipsoid.carry M j)) w n) x := by
  classical
  unfold prismMagnetization prismDensity Verif.Forward.densityAt magVoxels voxels
  induction (Finset.Ico (-n : ℤ) n ×ˢ Finset.Ico (-n : ℤ) n ×ˢ Finset.Ico (-n : ℤ) n).toList with
  | nil => simp
  | cons c l ih =>
    rw [List.map_cons, List.map_cons, List.map_cons, List.sum_cons, ← ih, List.filter_cons]
    have hcomp : vec (⟨magnetizationOf es M (voxelCenter w c) 0, magnetizationOf es M (voxelCenter w c) 1,
        magnetizationOf es M (voxelCenter w c) 2⟩ : P3) j = densityOf (es.map (Ellipsoid.carry M j)) (voxelCenter w c) := by
      rw [carry_density]
      fin_cases j <;> rfl
    split_ifs with hz
    · rw [List.map_cons, List.sum_cons, Pi.add_apply]
      congr 1
      by_cases hx : (x 0, x 1, x 2) ∈ (voxel w c).body
      · rw [if_pos hx, indicator_of_mem hx, hcomp]
      · rw [if_neg hx, indicator_of_notMem hx]
        rfl
    · have h0 : (⟨magnetizationOf es M (voxelCenter w c) 0, magnetizationOf es M (voxelCenter w c) 1,
          magnetizationOf es M (voxelCenter w c) 2⟩ : P3) = ⟨0, 0, 0⟩ := by
        simpa using hz
      rw [h0] at hcomp
      rw [← hcomp]
      have : vec (⟨0, 0, 0⟩ : P3) j = 0 := by fin_cases j <;> rfl
      simp [this]

theorem magVoxels_sampled {es : List Ellipsoid} (M : Ellipsoid → V3) {w : ℝ} (hw : 0 < w) {n : ℕ}
    (hn : ∀ x, n * w ≤ ‖x‖ → magnetizationOf es M x = 0) :
    MagSampledBy w (magnetizationOf es M) (magVoxels es M w n) := by
  intro j
  have h := voxels_sampled (es := es.map (Ellipsoid.carry M j)) hw (n := n) fun x hx => by
    rw [carry_density, hn x hx]
    rfl
  unfold SampledBy at h
  filter_upwards [h] with x hx
  obtain ⟨y, hy1, hy2⟩ := hx
  exact ⟨y, hy1, by rw [magVoxels_component, hy2, carry_density]⟩

theorem magVoxels_ordered (es : List Ellipsoid) (M : Ellipsoid → V3) {w : ℝ} (hw : 0 < w) (n : ℕ) :
    ∀ s ∈ magVoxels es M w n, s.1.Ordered := by
  classical
  intro s hs
  obtain ⟨c, -, rfl⟩ := List.mem_map.1 (List.mem_of_mem_filter hs)
  refine ⟨?_, ?_, ?_⟩ <;> simp only [voxel] <;> nlinarith

/-- The points of the cubes of the model are near the bodies. -/
theorem magVoxels_away {es : List Ellipsoid} (M : Ellipsoid → V3) {w : ℝ} (hw : 0 < w) (n : ℕ) {r : ℝ} {p : V3}
    (hp : Away (r + w) es p) : AwayPrisms r (magVoxels es M w n) p := by
  classical
  intro s hs x hx
  obtain ⟨hs1, hs2⟩ := List.mem_filter.1 hs
  obtain ⟨c, -, rfl⟩ := List.mem_map.1 hs1
  by_contra hlt
  rw [not_le] at hlt
  have hc : magnitude (x - voxelCenter w c) ≤ w := by
    have key : ∀ t : ℝ, ∀ z : ℤ, t ∈ Icc (z * w) ((z + 1) * w) → (t - (z + 1 / 2) * w) ^ 2 ≤ w ^ 2 / 4 := by
      intro t z ht
      have : |t - (z + 1 / 2) * w| ≤ w / 2 := abs_le.2 ⟨by linarith [ht.1], by linarith [ht.2]⟩
      have := pow_le_pow_left₀ (abs_nonneg _) this 2
      rw [sq_abs] at this
      linarith [show (w / 2) ^ 2 = w ^ 2 / 4 by ring]
    refine magnitude_le hw.le ?_
    unfold sq3
    rw [Fin.sum_univ_three]
    have h0 := key (x 0) c.1 hx.1
    have h1 := key (x 1) c.2.1 hx.2.1
    have h2 := key (x 2) c.2.2 hx.2.2
    simp only [Pi.sub_apply]
    show (x 0 - (c.1 + 1 / 2) * w) ^ 2 + (x 1 - (c.2.1 + 1 / 2) * w) ^ 2 + (x 2 - (c.2.2 + 1 / 2) * w) ^ 2 ≤ w ^ 2
    nlinarith [sq_nonneg w]
  have hnear : magnitude (voxelCenter w c - p) < r + w := by
    have e1 : voxelCenter w c - p = (x - p) + -(x - voxelCenter w c) := by abel
    rw [e1]
    refine (magnitude_add _ _).trans_lt ?_
    rw [magnitude_neg']
    linarith
  have h0 := magnetization_away hp M hnear
  simp [h0] at hs2

theorem magSamplingError_continuous (mu0 : ℝ) (es : List Ellipsoid) (M : Ellipsoid → V3) (r : ℝ) :
    Continuous fun η => magSamplingError mu0 es M η r := by
  unfold magSamplingError
  refine continuous_const.mul ?_
  induction es with
  | nil => simpa using continuous_const
  | cons e es ih =>
    simp only [List.map_cons, List.sum_cons]
    exact Continuous.add (by fun_prop) ih

theorem magSamplingError_zero (mu0 : ℝ) (es : List Ellipsoid) (M : Ellipsoid → V3) (r : ℝ) :
    magSamplingError mu0 es M 0 r = 0 := by
  unfold magSamplingError
  simp

theorem bodies_away {es : List Ellipsoid} (h : ∀ e ∈ es, e.Valid) (M : Ellipsoid → V3) :
    ∃ B : ℝ, 0 < B ∧ ∀ x, B ≤ ‖x‖ → magnetizationOf es M x = 0 := by
  obtain ⟨B0, p0, h0⟩ := bodies_bounded (carry_valid h M 0)
  obtain ⟨B1, p1, h1⟩ := bodies_bounded (carry_valid h M 1)
  obtain ⟨B2, p2, h2⟩ := bodies_bounded (carry_valid h M 2)
  refine ⟨max B0 (max B1 B2), lt_max_of_lt_left p0, fun x hx => funext fun j => ?_⟩
  rw [← carry_density]
  rw [max_le_iff, max_le_iff] at hx
  fin_cases j
  · exact h0 x hx.1
  · exact h1 x hx.2.1
  · exact h2 x hx.2.2

/-- C153: models made of cubes converge. For every list of ellipsoids, tolerance and distance there is a side such that
the magnetic field of the cubes of this side or of a smaller one, with the magnetization of the ellipsoids at their
centers, is that of the ellipsoids within the tolerance, at all points that are not nearer than the distance to the
ellipsoids, when there are enough cubes to cover the bodies. -/
theorem C153_voxels {mu0 : ℝ} {K : MagKernels Prism} (hK : K.Magnetized mu0) (bodies : Bodies)
    (h : ∀ e ∈ bodies.toList, e.Valid ∧ e.Passive ∧ e.Exact) (B0 : V3) :
    ∃ (M : Ellipsoid → V3) (ellipsoids : V3 → V3), (∀ e ∈ bodies.toList,
        M e + (e.toSpace (demagInside e.axes)).mulVec ((e.toSpace e.chi).mulVec (M e)) =
          e.remanence + (e.toSpace e.chi).mulVec (inducingH mu0 B0)) ∧
      ReturnsMagnetic mu0 bodies B0 ellipsoids ∧
      ∀ r > 0, ∀ ε > 0, ∃ w₀ > 0, ∀ w, 0 < w → w ≤ w₀ → ∃ n₀ : ℕ, ∀ n ≥ n₀, ∃ prisms : V3 → V3,
        ReturnsPrismsMag K (magVoxels bodies.toList M w n) prisms ∧
        ∀ p, Away r bodies.toList p →
          (∀ s ∈ magVoxels bodies.toList M w n, coords ⟨p 0, p 1, p 2⟩ ∉ s.1.body) ∧
          ∀ i, |prisms p i - ellipsoids p i| ≤ ε := by
  obtain ⟨M, field, h1, h2, h3⟩ := C153_prisms hK bodies h B0
  refine ⟨M, field, h1, h2, fun r hr ε hε => ?_⟩
  have hev := ((magSamplingError_continuous mu0 bodies.toList M (r / 2)).tendsto 0).eventually
    (gt_mem_nhds (show magSamplingError mu0 bodies.toList M 0 (r / 2) < ε by rw [magSamplingError_zero]; exact hε))
  obtain ⟨d, d0, hd⟩ := Metric.eventually_nhds_iff.1 hev
  obtain ⟨B, b0, hB⟩ := bodies_away (fun e he => (h e he).1) M
  refine ⟨min (d / 2) (r / 2), lt_min (half_pos d0) (half_pos hr), fun w hw hwd => ?_⟩
  obtain ⟨n₀, hn₀⟩ := exists_nat_ge (B / w)
  refine ⟨n₀, fun n hn => ?_⟩
  have hs := magVoxels_sampled (es := bodies.toList) M hw (n := n) fun x hx => hB x (by
    rw [div_le_iff₀ hw] at hn₀
    have : (n₀ : ℝ) * w ≤ n * w := mul_le_mul_of_nonneg_right (by exact_mod_cast hn) hw.le
    linarith)
  obtain ⟨f, f1, f2⟩ := h3 _ (magVoxels_ordered _ M hw n) w hw.le hs
  refine ⟨f, f1, fun p hp => ?_⟩
  have hw2 : w ≤ r / 2 := hwd.trans (min_le_right _ _)
  have a1 : Away (r / 2) bodies.toList p := fun e he x hx => (by linarith : r / 2 ≤ r).trans (hp e he x hx)
  have a2 : AwayPrisms (r / 2) (magVoxels bodies.toList M w n) p :=
    magVoxels_away M hw n fun e he x hx => (by linarith : r / 2 + w ≤ r).trans (hp e he x hx)
  refine ⟨fun s hs hin => ?_, fun i => (f2 (r / 2) (half_pos hr) p a1 a2 i).trans (hd ?_).le⟩
  · have := a2 s hs p hin
    rw [sub_self, magnitude_zero] at this
    linarith
  · rw [Real.dist_eq, sub_zero, abs_of_pos hw]
    have := hwd.trans (min_le_left _ _)
    linarith

/-! ### The hypotheses can be met -/

/-- Cubes of the size that is needed for the four bodies of C150, with the kernels that are the integrals. -/
example (mu0 : ℝ) (B0 : V3) : ∃ M : Ellipsoid → V3, ∃ ellipsoids,
    ReturnsMagnetic mu0 (.many [rock, ball, rod, void]) B0 ellipsoids ∧ ∃ w > 0, ∃ n : ℕ, ∃ prisms : V3 → V3,
      ReturnsPrismsMag (bodyMagKernels mu0) (magVoxels [rock, ball, rod, void] M w n) prisms ∧
      ∀ p, Away 1 [rock, ball, rod, void] p → ∀ i, |prisms p i - ellipsoids p i| ≤ 1e-9 := by
  obtain ⟨M, field, -, h1, h2⟩ := C153_voxels (bodyMagKernels_magnetized mu0) (.many [rock, ball, rod, void])
    (fun e he => ⟨(all_bodies e he).1, (all_bodies e he).2.1, (all_bodies e he).2.2.1⟩) B0
  obtain ⟨w, hw, h3⟩ := h2 1 one_pos 1e-9 (by norm_num)
  obtain ⟨n, h4⟩ := h3 w hw le_rfl
  obtain ⟨prisms, h5, h6⟩ := h4 n le_rfl
  exact ⟨M, field, h1, w, hw, n, prisms, h5, fun p hp => (h6 p hp).2⟩

/-- There are points away from the bodies. -/
example : Away 1 [skewBody] ![100, 0, 0] := by
  intro e he x hx
  simp only [List.mem_singleton] at he
  subst he
  have hR : skewBody.rotationMatrix = 1 := C71_identity
  have hl : skewBody.local x = x := by
    unfold Ellipsoid.local
    rw [hR]
    simp [skewBody]
  rw [inside_iff, onSurface_iff, hl] at hx
  have hq : quadric 5 4 4 x ≤ 1 := hx.elim le_of_lt le_of_eq
  unfold quadric at hq
  have h0 : x 0 ^ 2 ≤ 5 ^ 2 := by nlinarith [sq_nonneg (x 1), sq_nonneg (x 2)]
  have h1 := (abs_le.1 (abs_le_of_sq_le_sq h0 (by norm_num))).2
  have h2 := abs_le_magnitude (x - (![100, 0, 0] : V3)) 0
  have h3 : (x - (![100, 0, 0] : V3)) 0 = x 0 - 100 := rfl
  rw [h3, abs_sub_comm] at h2
  linarith [le_abs_self (100 - x 0)]

end Verif.Ellipsoids
