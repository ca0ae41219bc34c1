import Verif.Tesseroid.PropsK
import Mathlib.MeasureTheory.Function.Jacobian
import Mathlib.MeasureTheory.Measure.Haar.InnerProductSpace
import Mathlib.MeasureTheory.Integral.Prod
import Mathlib.LinearAlgebra.Matrix.Determinant.Basic
import Mathlib.Analysis.Calculus.FDeriv.Pi
import Mathlib.Analysis.InnerProductSpace.Projection.Reflection

/-!
Integrals over tesseroids as integrals over sets of points of space (change to spherical coordinates), and
integrals over spherical shells.
-/

namespace Verif.Tesseroid
open Verif.Distance MeasureTheory Set
open scoped InnerProductSpace

/-! ### spherical coordinates -/

/-- Radius, latitude and longitude (radians) to Cartesian coordinates. -/
noncomputable def sphF (v : Fin 3 → ℝ) : Fin 3 → ℝ :=
  ![v 0 * Real.cos (v 1) * Real.cos (v 2), v 0 * Real.cos (v 1) * Real.sin (v 2), v 0 * Real.sin (v 1)]

theorem toLp_sphF (v : Fin 3 → ℝ) : WithLp.toLp 2 (sphF v) = rpos (v 2) (v 1) (v 0) := rfl

/-- Its Jacobian. -/
noncomputable def sphJ (v : Fin 3 → ℝ) : Matrix (Fin 3) (Fin 3) ℝ :=
  !![Real.cos (v 1) * Real.cos (v 2), -(v 0 * Real.sin (v 1) * Real.cos (v 2)), -(v 0 * Real.cos (v 1) * Real.sin (v 2));
     Real.cos (v 1) * Real.sin (v 2), -(v 0 * Real.sin (v 1) * Real.sin (v 2)), v 0 * Real.cos (v 1) * Real.cos (v 2);
     Real.sin (v 1), v 0 * Real.cos (v 1), 0]

theorem hasFDerivAt_sphF (v : Fin 3 → ℝ) :
    HasFDerivAt sphF (LinearMap.toContinuousLinearMap (Matrix.toLin' (sphJ v))) v := by
  have p : ∀ i : Fin 3, HasFDerivAt (fun w : Fin 3 → ℝ => w i) (ContinuousLinearMap.proj (R := ℝ) (φ := fun _ : Fin 3 => ℝ) i) v :=
    fun i => (ContinuousLinearMap.proj (R := ℝ) (φ := fun _ : Fin 3 => ℝ) i).hasFDerivAt
  rw [hasFDerivAt_pi']
  intro i
  fin_cases i
  · refine (((p 0).mul (p 1).cos).mul (p 2).cos).congr_fderiv ?_
    ext w
    simp [sphJ, Matrix.toLin'_apply, Matrix.mulVec, dotProduct, Fin.sum_univ_three]
    ring
  · refine (((p 0).mul (p 1).cos).mul (p 2).sin).congr_fderiv ?_
    ext w
    simp [sphJ, Matrix.toLin'_apply, Matrix.mulVec, dotProduct, Fin.sum_univ_three]
    ring
  · refine ((p 0).mul (p 1).sin).congr_fderiv ?_
    ext w
    simp [sphJ, Matrix.toLin'_apply, Matrix.mulVec, dotProduct, Fin.sum_univ_three]
    ring

theorem det_sphJ (v : Fin 3 → ℝ) :
    (LinearMap.toContinuousLinearMap (Matrix.toLin' (sphJ v))).det = -(v 0 ^ 2 * Real.cos (v 1)) := by
  rw [LinearMap.det_toContinuousLinearMap, LinearMap.det_toLin', Matrix.det_fin_three]
  simp only [sphJ, Matrix.cons_val', Matrix.cons_val_zero, Matrix.cons_val_one, Matrix.cons_val, Matrix.of_apply]
  have h1 := Real.sin_sq_add_cos_sq (v 1)
  have h2 := Real.sin_sq_add_cos_sq (v 2)
  have e1 := Real.sin_sq (v 1)
  have e2 := Real.sin_sq (v 2)
  linear_combination (-(v 0 ^ 2 * Real.cos (v 1)) * (Real.cos (v 1) ^ 2 + Real.sin (v 1) ^ 2)) * h2 -
    v 0 ^ 2 * Real.cos (v 1) * h1

/-- A box in the space of the spherical coordinates. -/
def openBox (r0 r1 s n w e : ℝ) : Set (Fin 3 → ℝ) := Set.pi univ ![Ioo r0 r1, Ioo s n, Ioo w e]

/-- The same, with its boundary. -/
def closedBox (r0 r1 s n w e : ℝ) : Set (Fin 3 → ℝ) := Set.pi univ ![Icc r0 r1, Icc s n, Icc w e]

theorem mem_openBox {r0 r1 s n w e : ℝ} {v : Fin 3 → ℝ} : v ∈ openBox r0 r1 s n w e ↔
    v 0 ∈ Ioo r0 r1 ∧ v 1 ∈ Ioo s n ∧ v 2 ∈ Ioo w e := by
  simp [openBox, Set.mem_pi, Fin.forall_fin_succ]

theorem mem_closedBox {r0 r1 s n w e : ℝ} {v : Fin 3 → ℝ} : v ∈ closedBox r0 r1 s n w e ↔
    v 0 ∈ Icc r0 r1 ∧ v 1 ∈ Icc s n ∧ v 2 ∈ Icc w e := by
  simp [closedBox, Set.mem_pi, Fin.forall_fin_succ]

theorem box_ae (r0 r1 s n w e : ℝ) : openBox r0 r1 s n w e =ᵐ[volume] closedBox r0 r1 s n w e := by
  have : ∀ i, (![Ioo r0 r1, Ioo s n, Ioo w e] : Fin 3 → Set ℝ) i =ᵐ[volume] (![Icc r0 r1, Icc s n, Icc w e] : Fin 3 → Set ℝ) i := by
    intro i
    fin_cases i <;> exact Ioo_ae_eq_Icc
  exact Measure.ae_eq_set_pi fun i _ => this i

theorem injOn_sphF {r0 r1 s n w e : ℝ} (hr : 0 ≤ r0) (hs : -(Real.pi / 2) ≤ s) (hn : n ≤ Real.pi / 2)
    (he : e ≤ w + 2 * Real.pi) : InjOn sphF (openBox r0 r1 s n w e) := by
  intro u hu v hv h
  rw [mem_openBox] at hu hv
  obtain ⟨⟨u1, -⟩, ⟨u3, u4⟩, u5, u6⟩ := hu
  obtain ⟨⟨v1, -⟩, ⟨v3, v4⟩, v5, v6⟩ := hv
  have h0 : u 0 * Real.cos (u 1) * Real.cos (u 2) = v 0 * Real.cos (v 1) * Real.cos (v 2) := congrFun h 0
  have h1 : u 0 * Real.cos (u 1) * Real.sin (u 2) = v 0 * Real.cos (v 1) * Real.sin (v 2) := congrFun h 1
  have h2 : u 0 * Real.sin (u 1) = v 0 * Real.sin (v 1) := congrFun h 2
  have cu : 0 < Real.cos (u 1) := Real.cos_pos_of_mem_Ioo ⟨by linarith, by linarith⟩
  have cv : 0 < Real.cos (v 1) := Real.cos_pos_of_mem_Ioo ⟨by linarith, by linarith⟩
  have a1 := Real.sin_sq_add_cos_sq (u 1)
  have a2 := Real.sin_sq_add_cos_sq (u 2)
  have b1 := Real.sin_sq_add_cos_sq (v 1)
  have b2 := Real.sin_sq_add_cos_sq (v 2)
  have n1 : ∀ x y z : ℝ, Real.sin y ^ 2 + Real.cos y ^ 2 = 1 → Real.sin z ^ 2 + Real.cos z ^ 2 = 1 →
      (x * Real.cos y * Real.cos z) ^ 2 + (x * Real.cos y * Real.sin z) ^ 2 + (x * Real.sin y) ^ 2 = x ^ 2 := by
    intro x y z hy hz
    linear_combination x ^ 2 * Real.cos y ^ 2 * hz + x ^ 2 * hy
  have er : u 0 = v 0 := by
    have := n1 (u 0) (u 1) (u 2) a1 a2
    rw [h0, h1, h2, n1 _ _ _ b1 b2] at this
    have hu0 : 0 < u 0 := by linarith
    have hv0 : 0 < v 0 := by linarith
    exact (pow_left_inj₀ hu0.le hv0.le two_ne_zero).1 this.symm
  have hpos : 0 < v 0 := by linarith
  have e1 : u 1 = v 1 := by
    rw [er] at h2
    have := mul_left_cancel₀ hpos.ne' h2
    exact Real.injOn_sin ⟨by linarith, by linarith⟩ ⟨by linarith, by linarith⟩ this
  have e2 : u 2 = v 2 := by
    rw [er, e1] at h0 h1
    have hne : v 0 * Real.cos (v 1) ≠ 0 := (mul_pos hpos cv).ne'
    have c := mul_left_cancel₀ hne h0
    have d := mul_left_cancel₀ hne h1
    have hc : Real.cos (u 2 - v 2) = 1 := by
      rw [Real.cos_sub, c, d]; linear_combination b2
    obtain ⟨k, hk⟩ := (Real.cos_eq_one_iff _).1 hc
    have hpi := Real.pi_pos
    have k1 : (k : ℝ) < 1 := by
      by_contra hcon
      push Not at hcon
      have := mul_le_mul_of_nonneg_right hcon (by linarith : (0 : ℝ) ≤ 2 * Real.pi)
      linarith
    have k2 : (-1 : ℝ) < k := by
      by_contra hcon
      push Not at hcon
      have := mul_le_mul_of_nonneg_right hcon (by linarith : (0 : ℝ) ≤ 2 * Real.pi)
      linarith
    have : k = 0 := by
      have k1' : k < 1 := by exact_mod_cast k1
      have k2' : -1 < k := by exact_mod_cast k2
      omega
    rw [this] at hk
    push_cast at hk
    linarith
  ext i
  fin_cases i
  · exact er
  · exact e1
  · exact e2

theorem measurableSet_openBox (r0 r1 s n w e : ℝ) : MeasurableSet (openBox r0 r1 s n w e) := by
  refine MeasurableSet.pi countable_univ fun i _ => ?_
  fin_cases i <;> exact measurableSet_Ioo

/-- Change to spherical coordinates. -/
theorem integral_sphF {r0 r1 s n w e : ℝ} (hr : 0 ≤ r0) (hs : -(Real.pi / 2) ≤ s) (hn : n ≤ Real.pi / 2)
    (he : e ≤ w + 2 * Real.pi) (g : E3 → ℝ) :
    ∫ x in (WithLp.toLp 2) '' (sphF '' closedBox r0 r1 s n w e), g x =
      ∫ v in openBox r0 r1 s n w e, g (rpos (v 2) (v 1) (v 0)) * (v 0 ^ 2 * Real.cos (v 1)) := by
  have hmp := PiLp.volume_preserving_toLp (Fin 3)
  have hemb : MeasurableEmbedding (WithLp.toLp 2 : (Fin 3 → ℝ) → E3) :=
    (MeasurableEquiv.toLp 2 (Fin 3 → ℝ)).measurableEmbedding
  have hinj : Function.Injective (WithLp.toLp 2 : (Fin 3 → ℝ) → E3) := hemb.injective
  rw [← hmp.setIntegral_preimage_emb hemb, preimage_image_eq _ hinj]
  have hnull : sphF '' closedBox r0 r1 s n w e =ᵐ[volume] sphF '' openBox r0 r1 s n w e := by
    have hsub : openBox r0 r1 s n w e ⊆ closedBox r0 r1 s n w e := fun v hv => by
      rw [mem_openBox] at hv
      rw [mem_closedBox]
      exact ⟨Ioo_subset_Icc_self hv.1, Ioo_subset_Icc_self hv.2.1, Ioo_subset_Icc_self hv.2.2⟩
    have hz : volume (closedBox r0 r1 s n w e \ openBox r0 r1 s n w e) = 0 :=
      (ae_eq_set.1 (box_ae r0 r1 s n w e)).2
    have him := addHaar_image_eq_zero_of_differentiableOn_of_addHaar_eq_zero volume
      (fun v _ => (hasFDerivAt_sphF v).differentiableAt.differentiableWithinAt :
        DifferentiableOn ℝ sphF (closedBox r0 r1 s n w e \ openBox r0 r1 s n w e)) hz
    rw [ae_eq_set]
    refine ⟨measure_mono_null ?_ him, ?_⟩
    · rintro y ⟨⟨v, hv, rfl⟩, hy⟩
      exact ⟨v, ⟨hv, fun h => hy ⟨v, h, rfl⟩⟩, rfl⟩
    · rw [sdiff_eq_empty.2 (image_mono hsub), measure_empty]
  rw [setIntegral_congr_set hnull, integral_image_eq_integral_abs_det_fderiv_smul volume
    (measurableSet_openBox r0 r1 s n w e) (fun v _ => (hasFDerivAt_sphF v).hasFDerivWithinAt)
    (injOn_sphF hr hs hn he)]
  refine setIntegral_congr_fun (measurableSet_openBox r0 r1 s n w e) fun v hv => ?_
  rw [mem_openBox] at hv
  have hc : 0 ≤ Real.cos (v 1) := Real.cos_nonneg_of_mem_Icc ⟨by linarith [hv.2.1.1], by linarith [hv.2.1.2]⟩
  rw [det_sphJ, abs_neg, abs_of_nonneg (by positivity), smul_eq_mul, toLp_sphF, mul_comm]

/-! ### integrals over boxes -/

/-- Triples of numbers as vectors. -/
noncomputable def triple : (Fin 3 → ℝ) ≃ᵐ ℝ × ℝ × ℝ :=
  (MeasurableEquiv.piFinSuccAbove (fun _ : Fin 3 => ℝ) 0).trans
    ((MeasurableEquiv.refl ℝ).prodCongr MeasurableEquiv.finTwoArrow)

theorem triple_apply (v : Fin 3 → ℝ) : triple v = (v 0, v 1, v 2) := rfl

theorem triple_preserving : MeasurePreserving triple volume volume :=
  (volume_preserving_piFinSuccAbove (fun _ : Fin 3 => ℝ) 0).trans
    ((MeasurePreserving.id (volume : Measure ℝ)).prod (volume_preserving_finTwoArrow ℝ))

/-- Fubini's theorem. -/
theorem integral_box {r0 r1 s n w e : ℝ} (hr : r0 ≤ r1) (hs : s ≤ n) (hw : w ≤ e) {H : ℝ × ℝ × ℝ → ℝ}
    (hH : Continuous H) :
    ∫ v in openBox r0 r1 s n w e, H (v 0, v 1, v 2) =
      ∫ r in r0..r1, ∫ φ in s..n, ∫ l in w..e, H (r, φ, l) := by
  have hpre : openBox r0 r1 s n w e = triple ⁻¹' (Ioo r0 r1 ×ˢ Ioo s n ×ˢ Ioo w e) := by
    ext v
    rw [mem_openBox, mem_preimage, triple_apply]
    simp [Set.mem_prod]
  have h1 := triple_preserving.setIntegral_preimage_emb triple.measurableEmbedding H
    (Ioo r0 r1 ×ˢ Ioo s n ×ˢ Ioo w e)
  rw [← hpre] at h1
  simp only [triple_apply] at h1
  rw [h1]
  have hcl : Ioo r0 r1 ×ˢ Ioo s n ×ˢ Ioo w e ⊆ Icc r0 r1 ×ˢ Icc s n ×ˢ Icc w e :=
    prod_mono Ioo_subset_Icc_self (prod_mono Ioo_subset_Icc_self Ioo_subset_Icc_self)
  have hi : IntegrableOn H (Ioo r0 r1 ×ˢ Ioo s n ×ˢ Ioo w e) (volume.prod volume) :=
    (hH.continuousOn.integrableOn_compact (isCompact_Icc.prod (isCompact_Icc.prod isCompact_Icc))).mono_set hcl
  rw [show (volume : Measure (ℝ × ℝ × ℝ)) = volume.prod volume from rfl, setIntegral_prod _ hi,
    intervalIntegral.integral_of_le hr, integral_Ioc_eq_integral_Ioo]
  refine setIntegral_congr_fun measurableSet_Ioo fun r _ => ?_
  have hr' : Continuous fun x : ℝ × ℝ => H (r, x) := hH.comp (continuous_const.prodMk continuous_id)
  have hi' : IntegrableOn (fun x : ℝ × ℝ => H (r, x)) (Ioo s n ×ˢ Ioo w e) (volume.prod volume) :=
    (hr'.continuousOn.integrableOn_compact (isCompact_Icc.prod isCompact_Icc)).mono_set
      (prod_mono Ioo_subset_Icc_self Ioo_subset_Icc_self)
  rw [show (volume : Measure (ℝ × ℝ)) = volume.prod volume from rfl, setIntegral_prod _ hi',
    intervalIntegral.integral_of_le hs, integral_Ioc_eq_integral_Ioo]
  refine setIntegral_congr_fun measurableSet_Ioo fun φ _ => ?_
  rw [intervalIntegral.integral_of_le hw, integral_Ioc_eq_integral_Ioo]

/-! ### bodies as sets of points -/

/-- The points of space of the body that the boundaries describe. -/
def Tess.region (t : Tess) : Set E3 := {x | ∃ a, t.Body a ∧ sphPos a = x}

theorem region_eq (t : Tess) : t.region = (WithLp.toLp 2) '' (sphF '' closedBox t.bottom t.top (radians t.s)
    (radians t.n) (radians t.w) (radians (eastEnd t.w t.e))) := by
  ext x
  constructor
  · rintro ⟨a, ha, rfl⟩
    obtain ⟨l, l1, l2, hl⟩ := body_rpos ha
    obtain ⟨-, ⟨y1, y2⟩, z1, z2⟩ := ha
    refine ⟨_, ⟨![a.z, radians a.y, l], mem_closedBox.2 ⟨⟨z1, z2⟩, ⟨radians_le.2 y1, radians_le.2 y2⟩, l1, l2⟩, rfl⟩, ?_⟩
    rw [toLp_sphF, hl]; rfl
  · rintro ⟨_, ⟨v, hv, rfl⟩, rfl⟩
    rw [mem_closedBox] at hv
    obtain ⟨a, ha, hpos⟩ := box_body hv.1 hv.2.1 hv.2.2
    exact ⟨a, ha, by rw [hpos, toLp_sphF]⟩

theorem continuous_sphF : Continuous sphF :=
  continuous_iff_continuousAt.2 fun v => (hasFDerivAt_sphF v).continuousAt

theorem isCompact_region (t : Tess) : IsCompact t.region := by
  rw [region_eq]
  refine (IsCompact.image ?_ continuous_sphF).image (PiLp.continuous_toLp 2 _)
  refine isCompact_univ_pi fun i => ?_
  fin_cases i <;> exact isCompact_Icc

/-- Integrals over a tesseroid in spherical coordinates are integrals over its points. -/
theorem integral_region {t : Tess} (hr : t.ValidRange) (he : eastEnd t.w t.e ≤ t.w + 360) {g : E3 → ℝ}
    (hg : Continuous g) : t.integral g = ∫ x in t.region, g x := by
  have h90 : radians 90 = Real.pi / 2 := by unfold radians; ring
  have h90' : radians (-90) = -(Real.pi / 2) := by unfold radians; ring
  have h360 : radians (t.w + 360) = radians t.w + 2 * Real.pi := by unfold radians; ring
  rw [region_eq, integral_sphF hr.radii.1 (h90' ▸ radians_le.2 hr.lat_s.1) (h90 ▸ radians_le.2 hr.lat_n.2)
    (h360 ▸ radians_le.2 he)]
  have hH : Continuous fun x : ℝ × ℝ × ℝ => g (rpos x.2.2 x.2.1 x.1) * (x.1 ^ 2 * Real.cos x.2.1) :=
    (hg.comp continuous_rpos).mul ((continuous_fst.pow 2).mul
      (Real.continuous_cos.comp (continuous_fst.comp continuous_snd)))
  exact (integral_box hr.bt (radians_le.2 hr.sn) (radians_le.2 (eastEnd_le t.w t.e)) hH).symm

theorem eastEnd_le_turn {t : Tess} (h : t.ValidLon) : eastEnd t.w t.e ≤ t.w + 360 := by
  unfold eastEnd
  split_ifs with hw
  · rcases h with h | h
    · linarith [h.2]
    · exact absurd hw (not_le.2 h.1)
  · have := Int.ceil_lt_add_one ((t.w - t.e) / 360)
    have e : (t.w - t.e) / 360 * 360 = t.w - t.e := by ring
    nlinarith

/-! ### densities -/

open Classical in
/-- Density of a model of tesseroids at a point of space: the sum of the densities of the bodies that contain it. -/
noncomputable def tessDensity (srcs : List (Tess × ℝ)) (x : E3) : ℝ :=
  (srcs.map fun s => if x ∈ s.1.region then s.2 else 0).sum

open Classical in
/-- Density of spherical shells around the origin, each of them with its inner radius, outer radius and density. -/
noncomputable def shellDensity (shells : List (ℝ × ℝ × ℝ)) (x : E3) : ℝ :=
  (shells.map fun s => if s.1 ≤ ‖x‖ ∧ ‖x‖ ≤ s.2.1 then s.2.2 else 0).sum

/-- Sums of integrals over compact sets. -/
theorem sum_integrals {ι : Type} (L : List (ι × ℝ)) (R : ι → Set E3) (hR : ∀ s ∈ L, IsCompact (R s.1)) {g : E3 → ℝ}
    (hg : Continuous g) (f : E3 → ℝ) (hf : f = fun x => (L.map fun s => s.2 * (R s.1).indicator 1 x).sum) :
    Integrable (fun x => f x * g x) ∧ ∫ x, f x * g x = (L.map fun s => s.2 * ∫ x in R s.1, g x).sum := by
  subst hf
  induction L with
  | nil => simp
  | cons s L ih =>
    obtain ⟨i1, i2⟩ := ih fun s hs => hR s (List.mem_cons_of_mem _ hs)
    have hc := hR s List.mem_cons_self
    have hi : IntegrableOn g (R s.1) := hg.continuousOn.integrableOn_compact hc
    have e : ∀ x, s.2 * (R s.1).indicator 1 x * g x = s.2 * (R s.1).indicator g x := by
      intro x
      by_cases hx : x ∈ R s.1 <;> simp [hx]
    have hi' : Integrable fun x => s.2 * (R s.1).indicator 1 x * g x := by
      simp only [e]
      exact (hi.integrable_indicator hc.measurableSet).const_mul _
    simp only [List.map_cons, List.sum_cons, add_mul]
    refine ⟨hi'.add i1, ?_⟩
    rw [integral_add hi' i1, i2]
    simp only [e]
    rw [integral_const_mul, integral_indicator hc.measurableSet]

/-! ### spherical shells -/

/-- The points between two radii. -/
def shell (a b : ℝ) : Set E3 := {x | a ≤ ‖x‖ ∧ ‖x‖ ≤ b}

/-- A tesseroid around the globe. -/
def full (a b : ℝ) : Tess := ⟨-180, 180, -90, 90, a, b⟩

theorem norm_rpos (l φ r : ℝ) : ‖rpos l φ r‖ = |r| := by
  rw [EuclideanSpace.norm_eq, ← Real.sqrt_sq_eq_abs]
  congr 1
  simp only [rpos, Fin.sum_univ_three, Real.norm_eq_abs, sq_abs, Matrix.cons_val_zero, Matrix.cons_val_one,
    Matrix.cons_val]
  linear_combination r ^ 2 * Real.cos φ ^ 2 * Real.sin_sq_add_cos_sq l + r ^ 2 * Real.sin_sq_add_cos_sq φ

/-- Every point has spherical coordinates. -/
theorem exists_rpos (x : E3) : ∃ l ∈ Icc (-Real.pi) Real.pi, ∃ φ ∈ Icc (-(Real.pi / 2)) (Real.pi / 2),
    x = rpos l φ ‖x‖ := by
  have hpi := Real.pi_pos
  by_cases h0 : ‖x‖ = 0
  · refine ⟨0, ⟨by linarith, by linarith⟩, 0, ⟨by linarith, by linarith⟩, ?_⟩
    rw [h0, norm_eq_zero.1 h0]
    ext i
    fin_cases i <;> simp [rpos]
  have hn : ‖x‖ ^ 2 = x 0 ^ 2 + x 1 ^ 2 + x 2 ^ 2 := by
    rw [EuclideanSpace.norm_eq, Real.sq_sqrt (by positivity)]
    simp [Fin.sum_univ_three]
  have hp : 0 < ‖x‖ := lt_of_le_of_ne (norm_nonneg _) (Ne.symm h0)
  have hz : |x 2| ≤ ‖x‖ := by
    refine abs_le_of_sq_le_sq ?_ hp.le
    nlinarith [sq_nonneg (x 0), sq_nonneg (x 1)]
  have z1 : -1 ≤ x 2 / ‖x‖ := by rw [le_div_iff₀ hp]; linarith [(abs_le.1 hz).1]
  have z2 : x 2 / ‖x‖ ≤ 1 := by rw [div_le_iff₀ hp]; linarith [(abs_le.1 hz).2]
  set z : ℂ := ⟨x 0, x 1⟩ with hzdef
  refine ⟨z.arg, ⟨(Complex.neg_pi_lt_arg z).le, Complex.arg_le_pi z⟩, Real.arcsin (x 2 / ‖x‖),
    Real.arcsin_mem_Icc _, ?_⟩
  have hc : ‖x‖ * Real.cos (Real.arcsin (x 2 / ‖x‖)) = ‖z‖ := by
    rw [Real.cos_arcsin]
    have : ‖z‖ = Real.sqrt (x 0 ^ 2 + x 1 ^ 2) := by
      rw [Complex.norm_def, Complex.normSq_apply]
      congr 1
      simp only [hzdef]; ring
    rw [this]
    have e : x 0 ^ 2 + x 1 ^ 2 = ‖x‖ ^ 2 * (1 - (x 2 / ‖x‖) ^ 2) := by
      field_simp
      linarith
    rw [e, Real.sqrt_mul (by positivity), Real.sqrt_sq hp.le]
  ext i
  fin_cases i
  · simp only [rpos, hc]
    exact (Complex.norm_mul_cos_arg z).symm
  · simp only [rpos, hc]
    exact (Complex.norm_mul_sin_arg z).symm
  · simp only [rpos, Real.sin_arcsin z1 z2]
    change x 2 = ‖x‖ * (x 2 / ‖x‖)
    field_simp

theorem rad180 : radians 180 = Real.pi := by unfold radians; ring
theorem rad180' : radians (-180) = -Real.pi := by unfold radians; ring
theorem rad90 : radians 90 = Real.pi / 2 := by unfold radians; ring
theorem rad90' : radians (-90) = -(Real.pi / 2) := by unfold radians; ring

theorem full_east (a b : ℝ) : eastEnd (full a b).w (full a b).e = 180 := eastEnd_of_le (by norm_num [full])

theorem full_region {a b : ℝ} (ha : 0 ≤ a) : (full a b).region = shell a b := by
  ext x
  constructor
  · rintro ⟨q, hq, rfl⟩
    obtain ⟨-, -, z1, z2⟩ := hq
    have hz : 0 ≤ q.z := ha.trans z1
    rw [shell, mem_ofPred_eq, norm_sphPos q hz]
    exact ⟨z1, z2⟩
  · rintro hx
    obtain ⟨l, hl, φ, hφ, e⟩ := exists_rpos x
    obtain ⟨q, hq, hpos⟩ := box_body (t := full a b) (r := ‖x‖) (φ := φ) (l := l) hx
      (by simpa only [full, rad90, rad90'] using hφ)
      (by rw [full_east]; simpa only [full, rad180, rad180'] using hl)
    exact ⟨q, hq, by rw [hpos, ← e]⟩

theorem full_valid {a b : ℝ} (ha : 0 ≤ a) (hab : a ≤ b) : (full a b).ValidRange ∧ (full a b).ValidLon :=
  ⟨⟨by norm_num [full], by norm_num [full], by norm_num [full], ⟨ha, ha.trans hab⟩, hab, by norm_num [full],
    by norm_num [full]⟩, Or.inl (by norm_num [full])⟩

/-- The shells do not change with isometries of the space. -/
theorem shell_isometry (U : E3 ≃ₗᵢ[ℝ] E3) (a b : ℝ) (g : E3 → ℝ) :
    ∫ x in shell a b, g (U x) = ∫ x in shell a b, g x := by
  have h := U.measurePreserving.setIntegral_preimage_emb U.toHomeomorph.measurableEmbedding g (shell a b)
  have e : U ⁻¹' shell a b = shell a b := by
    ext x
    simp [shell]
  rw [e] at h
  exact h

/-- Integral over the shell of a function that depends on the radius and the latitude only. -/
theorem full_integral (a b : ℝ) {K : E3 → ℝ} {k : ℝ → ℝ → ℝ} (hab : a ≤ b)
    (hK : ∀ r ∈ Icc a b, ∀ φ l, K (rpos l φ r) = k r φ) :
    (full a b).integral K = ∫ r in a..b, 2 * Real.pi * r ^ 2 *
      ∫ φ in -(Real.pi / 2)..Real.pi / 2, k r φ * Real.cos φ := by
  unfold Tess.integral
  rw [full_east]
  simp only [full, rad180, rad180', rad90, rad90']
  refine intervalIntegral.integral_congr fun r hr => ?_
  rw [uIcc_of_le hab] at hr
  simp only [hK r hr, intervalIntegral.integral_const, smul_eq_mul]
  rw [← intervalIntegral.integral_const_mul]
  refine intervalIntegral.integral_congr fun φ _ => ?_
  ring

/-! ### the shell theorem -/

theorem rpos_pole (R : ℝ) : rpos 0 (Real.pi / 2) R = !₂[0, 0, R] := by
  unfold rpos
  simp

theorem dist_pole (R l φ r : ℝ) :
    dist (rpos 0 (Real.pi / 2) R) (rpos l φ r) = Real.sqrt (R ^ 2 + r ^ 2 - 2 * R * r * Real.sin φ) := by
  rw [rpos_pole, EuclideanSpace.dist_eq]
  congr 1
  simp only [rpos, Fin.sum_univ_three, Real.dist_eq, sq_abs, Matrix.cons_val_zero, Matrix.cons_val_one,
    Matrix.cons_val]
  linear_combination r ^ 2 * Real.cos φ ^ 2 * Real.sin_sq_add_cos_sq l + r ^ 2 * Real.sin_sq_add_cos_sq φ

theorem inner_pole (R l φ r : ℝ) :
    ⟪rpos 0 (Real.pi / 2) R - rpos l φ r, rpos 0 (Real.pi / 2) 1⟫_ℝ = R - r * Real.sin φ := by
  rw [rpos_pole, rpos_pole]
  simp [rpos, PiLp.inner_apply, Fin.sum_univ_three]

theorem gap_pos {R r : ℝ} (hR : 0 < R) (hr : 0 ≤ r) (h : R ≠ r) (s : ℝ) (hs : s ≤ 1) :
    0 < R ^ 2 + r ^ 2 - 2 * R * r * s := by
  have h1 : 0 < (R - r) ^ 2 := by
    have : R - r ≠ 0 := sub_ne_zero.2 h
    positivity
  have h2 : R * r * s ≤ R * r := mul_le_of_le_one_right (by positivity) hs
  nlinarith

theorem hasDerivAt_gap {R r : ℝ} (hR : 0 < R) (hr : 0 ≤ r) (h : R ≠ r) (φ : ℝ) :
    HasDerivAt (fun φ => Real.sqrt (R ^ 2 + r ^ 2 - 2 * R * r * Real.sin φ))
      (-(R * r * Real.cos φ) / Real.sqrt (R ^ 2 + r ^ 2 - 2 * R * r * Real.sin φ)) φ := by
  have hD := gap_pos hR hr h (Real.sin φ) (Real.sin_le_one φ)
  have h1 : HasDerivAt (fun φ => R ^ 2 + r ^ 2 - 2 * R * r * Real.sin φ) (-(2 * R * r * Real.cos φ)) φ := by
    simpa using ((Real.hasDerivAt_sin φ).const_mul (2 * R * r)).const_sub (R ^ 2 + r ^ 2)
  refine (h1.sqrt hD.ne').congr_deriv ?_
  have := (Real.sqrt_pos.2 hD).ne'
  field_simp

theorem continuous_gap (R r : ℝ) : Continuous fun φ => Real.sqrt (R ^ 2 + r ^ 2 - 2 * R * r * Real.sin φ) :=
  (continuous_const.sub (continuous_const.mul Real.continuous_sin)).sqrt

theorem gap_ends {R r : ℝ} (hR : 0 < R) (hr : 0 ≤ r) :
    Real.sqrt (R ^ 2 + r ^ 2 - 2 * R * r * Real.sin (Real.pi / 2)) = |R - r| ∧
    Real.sqrt (R ^ 2 + r ^ 2 - 2 * R * r * Real.sin (-(Real.pi / 2))) = R + r := by
  rw [Real.sin_neg, Real.sin_pi_div_two]
  constructor
  · rw [← Real.sqrt_sq_eq_abs]; congr 1; ring
  · rw [← Real.sqrt_sq (by positivity : 0 ≤ R + r)]; congr 1; ring

/-- Mean of the inverse of the distance over a sphere. -/
theorem sphere_potential {R r : ℝ} (hR : 0 < R) (hr : 0 ≤ r) (h : R ≠ r) :
    ∫ φ in -(Real.pi / 2)..Real.pi / 2,
      1 / Real.sqrt (R ^ 2 + r ^ 2 - 2 * R * r * Real.sin φ) * Real.cos φ = 2 / max R r := by
  have hpos : ∀ φ, Real.sqrt (R ^ 2 + r ^ 2 - 2 * R * r * Real.sin φ) ≠ 0 := fun φ =>
    (Real.sqrt_pos.2 (gap_pos hR hr h _ (Real.sin_le_one φ))).ne'
  rcases hr.eq_or_lt with h0 | h0
  · subst h0
    have e : ∀ φ, 1 / Real.sqrt (R ^ 2 + 0 ^ 2 - 2 * R * 0 * Real.sin φ) * Real.cos φ = 1 / R * Real.cos φ := by
      intro φ
      rw [show R ^ 2 + 0 ^ 2 - 2 * R * 0 * Real.sin φ = R ^ 2 by ring, Real.sqrt_sq hR.le]
    simp only [e]
    rw [intervalIntegral.integral_const_mul, integral_cos, Real.sin_neg, Real.sin_pi_div_two, max_eq_left hR.le]
    ring
  · have hd : ∀ φ ∈ uIcc (-(Real.pi / 2)) (Real.pi / 2), HasDerivAt
        (fun φ => -Real.sqrt (R ^ 2 + r ^ 2 - 2 * R * r * Real.sin φ) / (R * r))
        (1 / Real.sqrt (R ^ 2 + r ^ 2 - 2 * R * r * Real.sin φ) * Real.cos φ) φ := by
      intro φ _
      refine ((hasDerivAt_gap hR hr h φ).neg.div_const (R * r)).congr_deriv ?_
      have := hpos φ
      field_simp
    rw [intervalIntegral.integral_eq_sub_of_hasDerivAt hd
      (((continuous_const.div (continuous_gap R r) hpos).mul Real.continuous_cos).intervalIntegrable _ _),
      (gap_ends hR hr).1, (gap_ends hR hr).2]
    rcases lt_or_gt_of_ne h with hlt | hlt
    · rw [abs_of_neg (by linarith), max_eq_right hlt.le]
      field_simp
      ring
    · rw [abs_of_pos (by linarith), max_eq_left hlt.le]
      field_simp
      ring

/-- Mean of the attraction over a sphere. -/
theorem sphere_attraction {R r : ℝ} (hR : 0 < R) (hr : 0 ≤ r) (h : R ≠ r) :
    ∫ φ in -(Real.pi / 2)..Real.pi / 2,
      (R - r * Real.sin φ) / Real.sqrt (R ^ 2 + r ^ 2 - 2 * R * r * Real.sin φ) ^ 3 * Real.cos φ =
      if r < R then 2 / R ^ 2 else 0 := by
  have hgap := fun φ => gap_pos hR hr h (Real.sin φ) (Real.sin_le_one φ)
  have hpos : ∀ φ, Real.sqrt (R ^ 2 + r ^ 2 - 2 * R * r * Real.sin φ) ≠ 0 := fun φ => (Real.sqrt_pos.2 (hgap φ)).ne'
  have hd : ∀ φ ∈ uIcc (-(Real.pi / 2)) (Real.pi / 2), HasDerivAt
      (fun φ => (R * Real.sin φ - r) / (R ^ 2 * Real.sqrt (R ^ 2 + r ^ 2 - 2 * R * r * Real.sin φ)))
      ((R - r * Real.sin φ) / Real.sqrt (R ^ 2 + r ^ 2 - 2 * R * r * Real.sin φ) ^ 3 * Real.cos φ) φ := by
    intro φ _
    have h1 := (((Real.hasDerivAt_sin φ).const_mul R).sub_const r).div ((hasDerivAt_gap hR hr h φ).const_mul (R ^ 2))
      (mul_ne_zero (pow_ne_zero 2 hR.ne') (hpos φ))
    refine h1.congr_deriv ?_
    have hs := Real.sq_sqrt (hgap φ).le
    have h0 := hpos φ
    set S := Real.sqrt (R ^ 2 + r ^ 2 - 2 * R * r * Real.sin φ)
    field_simp
    rw [hs]
    ring
  have hc : Continuous fun φ => (R - r * Real.sin φ) / Real.sqrt (R ^ 2 + r ^ 2 - 2 * R * r * Real.sin φ) ^ 3 *
      Real.cos φ :=
    ((continuous_const.sub (continuous_const.mul Real.continuous_sin)).div ((continuous_gap R r).pow 3)
      fun φ => pow_ne_zero 3 (hpos φ)).mul Real.continuous_cos
  rw [intervalIntegral.integral_eq_sub_of_hasDerivAt hd (hc.intervalIntegrable _ _), (gap_ends hR hr).1,
    (gap_ends hR hr).2, Real.sin_neg, Real.sin_pi_div_two]
  have hsum : R + r ≠ 0 := by positivity
  rcases lt_or_gt_of_ne h with hlt | hlt
  · have hne : r - R ≠ 0 := by linarith
    rw [abs_of_neg (by linarith), if_neg (not_lt.2 hlt.le)]
    have hne' : -(R - r) ≠ 0 := by intro hh; apply hne; linarith
    field_simp
    ring
  · have hne : R - r ≠ 0 := by linarith
    rw [abs_of_pos (by linarith), if_pos hlt]
    field_simp
    ring

theorem exists_isometry {p P : E3} (h : ‖p‖ = ‖P‖) : ∃ U : E3 ≃ₗᵢ[ℝ] E3, U p = P :=
  ⟨_, Submodule.reflection_sub h⟩

/-- Integral over a shell of a function of the position with respect to a point. -/
theorem shell_integral {a b : ℝ} (ha : 0 ≤ a) (hab : a ≤ b) {g : E3 → ℝ} (hg : Continuous g)
    (U : E3 ≃ₗᵢ[ℝ] E3) {k : ℝ → ℝ → ℝ} (hk : ∀ r ∈ Icc a b, ∀ φ l, g (U.symm (rpos l φ r)) = k r φ)
    {c : ℝ → ℝ} (hc : ∀ r ∈ Icc a b, ∫ φ in -(Real.pi / 2)..Real.pi / 2, k r φ * Real.cos φ = c r) :
    ∫ x in shell a b, g x = ∫ r in a..b, 2 * Real.pi * r ^ 2 * c r := by
  have hv := full_valid ha hab
  rw [← shell_isometry U.symm, ← full_region ha, ← integral_region (g := fun x => g (U.symm x)) hv.1
    (eastEnd_le_turn hv.2) (hg.comp U.symm.continuous), full_integral a b hab hk]
  refine intervalIntegral.integral_congr fun r hr => ?_
  rw [uIcc_of_le hab] at hr
  simp only [hc r hr]

/-- Volume between two radii. -/
noncomputable def shellVolume (a b : ℝ) : ℝ := 4 / 3 * Real.pi * (b ^ 3 - a ^ 3)

theorem rpos_mem_shell {a b l φ r : ℝ} (ha : 0 ≤ a) (hr : r ∈ Icc a b) : rpos l φ r ∈ shell a b := by
  rw [shell, mem_ofPred_eq, norm_rpos, abs_of_nonneg (ha.trans hr.1)]
  exact hr

/-- Newton's shell theorem for the potential: outside, that of the mass at the center; inside, a constant. -/
theorem shell_potential {a b R : ℝ} (ha : 0 ≤ a) (hab : a ≤ b) {p : E3} (hp : ‖p‖ = R) (hR : 0 < R)
    (h : b < R ∨ R < a) {g : E3 → ℝ} (hg : Continuous g) (hgp : ∀ x ∈ shell a b, g x = 1 / dist p x) :
    ∫ x in shell a b, g x = if b < R then shellVolume a b / R else 2 * Real.pi * (b ^ 2 - a ^ 2) := by
  obtain ⟨U, hU⟩ := exists_isometry (p := p) (P := rpos 0 (Real.pi / 2) R)
    (by rw [norm_rpos, abs_of_pos hR, hp])
  have hne : ∀ r ∈ Icc a b, R ≠ r := by
    rintro r ⟨h1, h2⟩ rfl
    rcases h with h | h <;> linarith
  rw [shell_integral ha hab hg U (k := fun r φ => 1 / Real.sqrt (R ^ 2 + r ^ 2 - 2 * R * r * Real.sin φ))
    (c := fun r => 2 / max R r) ?_ fun r hr => sphere_potential hR (ha.trans hr.1) (hne r hr)]
  · split_ifs with hb
    · have e : ∀ r ∈ uIcc a b, 2 * Real.pi * r ^ 2 * (2 / max R r) = 4 * Real.pi / R * r ^ 2 := by
        intro r hr
        rw [uIcc_of_le hab] at hr
        rw [max_eq_left (hr.2.trans hb.le)]
        ring
      rw [intervalIntegral.integral_congr e, intervalIntegral.integral_const_mul, integral_pow]
      unfold shellVolume
      push_cast
      ring
    · have hRa : R < a := h.resolve_left hb
      have e : ∀ r ∈ uIcc a b, 2 * Real.pi * r ^ 2 * (2 / max R r) = 4 * Real.pi * r ^ 1 := by
        intro r hr
        rw [uIcc_of_le hab] at hr
        have h1 : R < r := lt_of_lt_of_le hRa hr.1
        rw [max_eq_right h1.le]
        have : r ≠ 0 := by linarith
        field_simp
        ring
      rw [intervalIntegral.integral_congr e, intervalIntegral.integral_const_mul, integral_pow]
      push_cast
      ring
  · intro r hr φ l
    have hm : U.symm (rpos l φ r) ∈ shell a b := by
      have := rpos_mem_shell (l := l) (φ := φ) ha hr
      rw [shell, mem_ofPred_eq] at this ⊢
      rwa [LinearIsometryEquiv.norm_map]
    rw [hgp _ hm, ← dist_pole R l φ r, ← hU, ← U.dist_map p, U.apply_symm_apply]

/-- Newton's shell theorem for the attraction: outside, that of the mass at the center; inside, none. -/
theorem shell_attraction {a b R : ℝ} (ha : 0 ≤ a) (hab : a ≤ b) {p u : E3} (hpu : p = R • u) (hu : ‖u‖ = 1)
    (hR : 0 < R) (h : b < R ∨ R < a) {g : E3 → ℝ} (hg : Continuous g)
    (hgp : ∀ x ∈ shell a b, g x = ⟪p - x, u⟫_ℝ / dist p x ^ 3) :
    ∫ x in shell a b, g x = if b < R then shellVolume a b / R ^ 2 else 0 := by
  have hp : ‖p‖ = R := by rw [hpu, norm_smul, hu, mul_one, Real.norm_eq_abs, abs_of_pos hR]
  obtain ⟨U, hU⟩ := exists_isometry (p := p) (P := rpos 0 (Real.pi / 2) R)
    (by rw [norm_rpos, abs_of_pos hR, hp])
  have hUu : U u = rpos 0 (Real.pi / 2) 1 := by
    have e : R • U u = R • rpos 0 (Real.pi / 2) 1 := by
      rw [← map_smul, ← hpu, hU, rpos_pole, rpos_pole]
      ext i
      fin_cases i <;> simp
    exact smul_right_injective E3 hR.ne' e
  have hne : ∀ r ∈ Icc a b, R ≠ r := by
    rintro r ⟨h1, h2⟩ rfl
    rcases h with h | h <;> linarith
  rw [shell_integral ha hab hg U
    (k := fun r φ => (R - r * Real.sin φ) / Real.sqrt (R ^ 2 + r ^ 2 - 2 * R * r * Real.sin φ) ^ 3)
    (c := fun r => if r < R then 2 / R ^ 2 else 0) ?_ fun r hr => sphere_attraction hR (ha.trans hr.1) (hne r hr)]
  · split_ifs with hb
    · have e : ∀ r ∈ uIcc a b, 2 * Real.pi * r ^ 2 * (if r < R then 2 / R ^ 2 else 0) =
          4 * Real.pi / R ^ 2 * r ^ 2 := by
        intro r hr
        rw [uIcc_of_le hab] at hr
        rw [if_pos (lt_of_le_of_lt hr.2 hb)]
        ring
      rw [intervalIntegral.integral_congr e, intervalIntegral.integral_const_mul, integral_pow]
      unfold shellVolume
      push_cast
      ring
    · have hRa : R < a := h.resolve_left hb
      have e : ∀ r ∈ uIcc a b, 2 * Real.pi * r ^ 2 * (if r < R then 2 / R ^ 2 else 0) = 0 := by
        intro r hr
        rw [uIcc_of_le hab] at hr
        rw [if_neg (by linarith [hr.1]), mul_zero]
      rw [intervalIntegral.integral_congr e]
      simp
  · intro r hr φ l
    have hm : U.symm (rpos l φ r) ∈ shell a b := by
      have := rpos_mem_shell (l := l) (φ := φ) ha hr
      rw [shell, mem_ofPred_eq] at this ⊢
      rwa [LinearIsometryEquiv.norm_map]
    rw [hgp _ hm, ← dist_pole R l φ r, ← inner_pole R l φ r, ← hU, ← hUu, ← U.dist_map p, U.apply_symm_apply,
      ← U.inner_map_map, map_sub, U.apply_symm_apply]

end Verif.Tesseroid
