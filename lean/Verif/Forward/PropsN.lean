import Verif.Forward.PropsM
import Verif.Forward.PropsH

/-!
C126: there are no magnetic charges: the flux of the magnetic field of dipoles and prisms through ever larger
rectangles of a horizontal plane over them tends to zero.
-/

namespace Verif.Forward
open Verif.Distance Verif.Engine Filter Topology MeasureTheory

/-! ### Integrals over rectangles -/

theorem rect_integral (f : ℝ → ℝ → ℝ) (hf : Continuous fun s : ℝ × ℝ => f s.1 s.2) {w e s n : ℝ} (h1 : w ≤ e)
    (h2 : s ≤ n) :
    (∫ p in Set.Icc w e ×ˢ Set.Icc s n, f p.1 p.2 = ∫ x in w..e, ∫ y in s..n, f x y) ∧
    ∫ p in Set.Icc w e ×ˢ Set.Icc s n, f p.1 p.2 = ∫ y in s..n, ∫ x in w..e, f x y := by
  have hint : IntegrableOn (fun p : ℝ × ℝ => f p.1 p.2) (Set.Icc w e ×ˢ Set.Icc s n)
      ((volume : Measure ℝ).prod (volume : Measure ℝ)) :=
    hf.continuousOn.integrableOn_compact (isCompact_Icc.prod isCompact_Icc)
  simp only [intervalIntegral.integral_of_le h1, intervalIntegral.integral_of_le h2, ← integral_Icc_eq_integral_Ioc]
  constructor
  · rw [Measure.volume_eq_prod, setIntegral_prod _ hint]
  · rw [Measure.volume_eq_prod, ← Measure.prod_restrict, integral_prod_symm]
    rwa [Measure.prod_restrict]

/-! ### The field of a dipole at the origin over a plane at the height `d` -/

/-- one over the cube of the distance, from the edge of a rectangle -/
noncomputable def edge (d T s n : ℝ) : ℝ := ∫ y in s..n, 1 / √(T ^ 2 + y ^ 2 + d ^ 2) ^ 3

theorem edge_bound (d T s n : ℝ) (hd : 0 < d) : |edge d T s n| ≤ 2 / (T ^ 2 + d ^ 2) := by
  have h := inner_integral T d s n hd
  have e : ∫ y in s..n, d / √(T ^ 2 + y ^ 2 + d ^ 2) ^ 3 = d * edge d T s n := by
    unfold edge
    rw [← intervalIntegral.integral_const_mul]
    congr 1
    funext y
    ring
  rw [e] at h
  have hb : ∀ y, |y / √(T ^ 2 + y ^ 2 + d ^ 2)| ≤ 1 := by
    intro y
    have hp : 0 < √(T ^ 2 + y ^ 2 + d ^ 2) := by positivity
    rw [abs_div, abs_of_pos hp, div_le_one hp]
    refine Real.le_sqrt_of_sq_le ?_
    rw [sq_abs]
    nlinarith [sq_nonneg T, sq_nonneg d]
  have hT : 0 < T ^ 2 + d ^ 2 := by positivity
  have h2 : edge d T s n = (n / √(T ^ 2 + n ^ 2 + d ^ 2) - s / √(T ^ 2 + s ^ 2 + d ^ 2)) / (T ^ 2 + d ^ 2) := by
    have p1 : 0 < √(T ^ 2 + n ^ 2 + d ^ 2) := by positivity
    have p2 : 0 < √(T ^ 2 + s ^ 2 + d ^ 2) := by positivity
    apply mul_left_cancel₀ hd.ne'
    rw [h]
    field_simp
  rw [h2, abs_div, abs_of_pos hT]
  refine div_le_div_of_nonneg_right ?_ hT.le
  have a1 := abs_le.1 (hb n)
  have a2 := abs_le.1 (hb s)
  rw [abs_le]
  constructor <;> linarith [a1.1, a1.2, a2.1, a2.2]

theorem cube_deriv (d T t : ℝ) (hd : 0 < d) :
    HasDerivAt (fun t => 1 / √(t ^ 2 + T ^ 2 + d ^ 2) ^ 3) (-(3 * t) / √(t ^ 2 + T ^ 2 + d ^ 2) ^ 5) t := by
  have h := inverse_cube_deriv 1 0 (T ^ 2 + d ^ 2) t (by positivity)
  simp only [sub_zero, ← add_assoc, mul_one] at h
  exact h

theorem ratio_deriv (d T t : ℝ) (hd : 0 < d) :
    HasDerivAt (fun t => t / √(t ^ 2 + T ^ 2 + d ^ 2) ^ 3)
      (1 / √(t ^ 2 + T ^ 2 + d ^ 2) ^ 3 - 3 * t ^ 2 / √(t ^ 2 + T ^ 2 + d ^ 2) ^ 5) t := by
  have h := (hasDerivAt_id t).fun_mul (cube_deriv d T t hd)
  refine (h.congr_of_eventuallyEq (Eventually.of_forall fun x => ?_)).congr_deriv ?_
  · simp only [id_eq]
    ring
  · simp only [id_eq]
    ring

/-- Continuity of quotients by powers of the distance. -/
theorem over_continuous {d : ℝ} (hd : 0 < d) (k : ℕ) (f : ℝ × ℝ → ℝ) (hf : Continuous f) :
    Continuous fun s : ℝ × ℝ => f s / √(s.1 ^ 2 + s.2 ^ 2 + d ^ 2) ^ k :=
  hf.div (by fun_prop) fun s => by positivity

theorem flux_x (d w e s n : ℝ) (hd : 0 < d) (h1 : w ≤ e) (h2 : s ≤ n) :
    ∫ p in Set.Icc w e ×ˢ Set.Icc s n, 3 * p.1 * d / √(p.1 ^ 2 + p.2 ^ 2 + d ^ 2) ^ 5 =
      d * (edge d w s n - edge d e s n) := by
  rw [(rect_integral (fun x y => 3 * x * d / √(x ^ 2 + y ^ 2 + d ^ 2) ^ 5)
    (over_continuous hd 5 (fun p => 3 * p.1 * d) (by fun_prop)) h1 h2).2]
  have hin : ∀ y, ∫ x in w..e, 3 * x * d / √(x ^ 2 + y ^ 2 + d ^ 2) ^ 5 =
      d * (1 / √(w ^ 2 + y ^ 2 + d ^ 2) ^ 3) - d * (1 / √(e ^ 2 + y ^ 2 + d ^ 2) ^ 3) := by
    intro y
    have := intervalIntegral.integral_eq_sub_of_hasDerivAt (a := w) (b := e)
      (fun x _ => (cube_deriv d y x hd).const_mul (-d)) (Continuous.intervalIntegrable
        (continuous_const.mul (Continuous.div (by fun_prop) (by fun_prop) fun x => by positivity)) _ _)
    rw [← sub_eq_zero]
    rw [← sub_eq_zero] at this
    rw [← this]
    have e : ∀ x, 3 * x * d / √(x ^ 2 + y ^ 2 + d ^ 2) ^ 5 = -d * (-(3 * x) / √(x ^ 2 + y ^ 2 + d ^ 2) ^ 5) := by
      intro x; ring
    simp only [e]
    ring
  simp only [hin]
  have hc : ∀ T : ℝ, IntervalIntegrable (fun y => d * (1 / √(T ^ 2 + y ^ 2 + d ^ 2) ^ 3)) volume s n := fun T =>
    Continuous.intervalIntegrable
      (continuous_const.mul (Continuous.div (by fun_prop) (by fun_prop) fun x => by positivity)) _ _
  rw [intervalIntegral.integral_sub (hc w) (hc e), intervalIntegral.integral_const_mul,
    intervalIntegral.integral_const_mul]
  unfold edge
  ring

theorem flux_xx (d w e s n : ℝ) (hd : 0 < d) (h1 : w ≤ e) (h2 : s ≤ n) :
    ∫ p in Set.Icc w e ×ˢ Set.Icc s n,
        (1 / √(p.1 ^ 2 + p.2 ^ 2 + d ^ 2) ^ 3 - 3 * p.1 ^ 2 / √(p.1 ^ 2 + p.2 ^ 2 + d ^ 2) ^ 5) =
      e * edge d e s n - w * edge d w s n := by
  rw [(rect_integral (fun x y => 1 / √(x ^ 2 + y ^ 2 + d ^ 2) ^ 3 - 3 * x ^ 2 / √(x ^ 2 + y ^ 2 + d ^ 2) ^ 5)
    ((over_continuous hd 3 (fun _ => 1) (by fun_prop)).sub
      (over_continuous hd 5 (fun p => 3 * p.1 ^ 2) (by fun_prop))) h1 h2).2]
  have hin : ∀ y, ∫ x in w..e, (1 / √(x ^ 2 + y ^ 2 + d ^ 2) ^ 3 - 3 * x ^ 2 / √(x ^ 2 + y ^ 2 + d ^ 2) ^ 5) =
      e * (1 / √(e ^ 2 + y ^ 2 + d ^ 2) ^ 3) - w * (1 / √(w ^ 2 + y ^ 2 + d ^ 2) ^ 3) := by
    intro y
    rw [intervalIntegral.integral_eq_sub_of_hasDerivAt (a := w) (b := e) (fun x _ => ratio_deriv d y x hd)]
    · ring
    · exact Continuous.intervalIntegrable
        (Continuous.sub (Continuous.div (by fun_prop) (by fun_prop) fun x => by positivity)
          (Continuous.div (by fun_prop) (by fun_prop) fun x => by positivity)) _ _
  simp only [hin]
  have hc : ∀ T c : ℝ, IntervalIntegrable (fun y => c * (1 / √(T ^ 2 + y ^ 2 + d ^ 2) ^ 3)) volume s n := fun T c =>
    Continuous.intervalIntegrable
      (continuous_const.mul (Continuous.div (by fun_prop) (by fun_prop) fun x => by positivity)) _ _
  rw [intervalIntegral.integral_sub (hc e e) (hc w w), intervalIntegral.integral_const_mul,
    intervalIntegral.integral_const_mul]
  rfl

/-- Rectangles with the axes exchanged. -/
theorem rect_swap (f : ℝ → ℝ → ℝ) (hf : Continuous fun s : ℝ × ℝ => f s.1 s.2) {w e s n : ℝ} (h1 : w ≤ e)
    (h2 : s ≤ n) :
    ∫ p in Set.Icc w e ×ˢ Set.Icc s n, f p.1 p.2 = ∫ p in Set.Icc s n ×ˢ Set.Icc w e, f p.2 p.1 := by
  rw [(rect_integral f hf h1 h2).1, (rect_integral (fun x y => f y x) (hf.comp continuous_swap) h2 h1).2]

theorem flux_y (d w e s n : ℝ) (hd : 0 < d) (h1 : w ≤ e) (h2 : s ≤ n) :
    ∫ p in Set.Icc w e ×ˢ Set.Icc s n, 3 * p.2 * d / √(p.1 ^ 2 + p.2 ^ 2 + d ^ 2) ^ 5 =
      d * (edge d s w e - edge d n w e) := by
  rw [rect_swap (fun x y => 3 * y * d / √(x ^ 2 + y ^ 2 + d ^ 2) ^ 5)
    (over_continuous hd 5 (fun p => 3 * p.2 * d) (by fun_prop)) h1 h2, ← flux_x d s n w e hd h2 h1]
  congr 1
  funext p
  rw [add_comm (p.1 ^ 2) (p.2 ^ 2)]

theorem flux_yy (d w e s n : ℝ) (hd : 0 < d) (h1 : w ≤ e) (h2 : s ≤ n) :
    ∫ p in Set.Icc w e ×ˢ Set.Icc s n,
        (1 / √(p.1 ^ 2 + p.2 ^ 2 + d ^ 2) ^ 3 - 3 * p.2 ^ 2 / √(p.1 ^ 2 + p.2 ^ 2 + d ^ 2) ^ 5) =
      n * edge d n w e - s * edge d s w e := by
  rw [rect_swap (fun x y => 1 / √(x ^ 2 + y ^ 2 + d ^ 2) ^ 3 - 3 * y ^ 2 / √(x ^ 2 + y ^ 2 + d ^ 2) ^ 5)
    ((over_continuous hd 3 (fun _ => 1) (by fun_prop)).sub
      (over_continuous hd 5 (fun p => 3 * p.2 ^ 2) (by fun_prop))) h1 h2, ← flux_xx d s n w e hd h2 h1]
  congr 1
  funext p
  rw [add_comm (p.1 ^ 2) (p.2 ^ 2)]

/-! ### Flux of a dipole -/

/-- What bounds the flux of a dipole. -/
noncomputable def strength (m : P3) : ℝ := 2 * |m.x| + 2 * |m.y| + 8 * |m.z|

theorem strength_nonneg (m : P3) : 0 ≤ strength m := by unfold strength; positivity

theorem small_x {d T L : ℝ} (s n : ℝ) (hd : 0 < d) (hL : 0 < L) (hT : L ≤ |T|) : |d * edge d T s n| ≤ 1 / L := by
  have h := edge_bound d T s n hd
  have hT0 : 0 < |T| := by linarith
  rw [abs_mul, abs_of_pos hd]
  calc d * |edge d T s n| ≤ d * (2 / (T ^ 2 + d ^ 2)) := mul_le_mul_of_nonneg_left h hd.le
    _ ≤ 1 / |T| := by
      rw [mul_div_assoc', div_le_div_iff₀ (by positivity) hT0]
      nlinarith [sq_nonneg (|T| - d), sq_abs T]
    _ ≤ 1 / L := one_div_le_one_div_of_le hL hT

theorem small_z {d T L : ℝ} (s n : ℝ) (hd : 0 < d) (hL : 0 < L) (hT : L ≤ |T|) : |T * edge d T s n| ≤ 2 / L := by
  have h := edge_bound d T s n hd
  have hT0 : 0 < |T| := by linarith
  rw [abs_mul]
  calc |T| * |edge d T s n| ≤ |T| * (2 / (T ^ 2 + d ^ 2)) := mul_le_mul_of_nonneg_left h hT0.le
    _ ≤ 2 / |T| := by
      rw [mul_div_assoc', div_le_div_iff₀ (by positivity) hT0]
      nlinarith [sq_nonneg d, sq_abs T]
    _ ≤ 2 / L := div_le_div_of_nonneg_left (by norm_num) hL hT

theorem dipole_over (mu0 : ℝ) (m : P3) (h : ℝ) : ContinuousOn
    (fun p : (ℝ × ℝ) × (ℝ × ℝ × ℝ) => (dipoleKernels mu0).u ⟨p.1.1, p.1.2, h⟩ (pointAt p.2) m) {p | p.2.2.2 < h} := by
  simp only [dipoleKernels, gap, pointAt]
  refine ContinuousOn.mul continuousOn_const (ContinuousOn.sub (ContinuousOn.div (by fun_prop) (by fun_prop) fun p hp => ?_)
    (ContinuousOn.div (by fun_prop) (by fun_prop) fun p hp => ?_)) <;>
  · have : 0 < h - p.2.2.2 := sub_pos.2 hp
    positivity

/-- Flux of one dipole. -/
theorem dipole_flux (mu0 : ℝ) (m : P3) (R : Prism) (hR : R.Ordered) (h L : ℝ) (hL : 0 < L) (r : ℝ × ℝ × ℝ)
    (hr : r.2.2 < h) (hA : Around R L r.1 r.1 r.2.1 r.2.1) :
    |∫ s in Set.Icc R.west R.east ×ˢ Set.Icc R.south R.north, (dipoleKernels mu0).u ⟨s.1, s.2, h⟩ (pointAt r) m| ≤
      |mu0| / (4 * Real.pi) * (strength m / L) := by
  obtain ⟨a, b, z⟩ := r
  obtain ⟨A1, A2, A3, A4⟩ := hA
  simp only at A1 A2 A3 A4 hr
  have hd : 0 < h - z := sub_pos.2 hr
  set d := h - z with hdd
  -- the kernel around the dipole
  let k : ℝ → ℝ → ℝ := fun x y => 3 * (m.x * x + m.y * y + m.z * d) * d / √(x ^ 2 + y ^ 2 + d ^ 2) ^ 5 -
    m.z / √(x ^ 2 + y ^ 2 + d ^ 2) ^ 3
  have hk : Continuous fun s : ℝ × ℝ => k s.1 s.2 :=
    (over_continuous hd 5 (fun p => 3 * (m.x * p.1 + m.y * p.2 + m.z * d) * d) (by fun_prop)).sub
      (over_continuous hd 3 (fun _ => m.z) (by fun_prop))
  have hker : ∀ s : ℝ × ℝ, (dipoleKernels mu0).u ⟨s.1, s.2, h⟩ (pointAt (a, b, z)) m =
      mu0 / (4 * Real.pi) * k (s.1 - a) (s.2 - b) := fun s => rfl
  simp only [hker]
  rw [integral_const_mul, abs_mul, abs_div, abs_of_pos (by positivity : (0 : ℝ) < 4 * Real.pi)]
  refine mul_le_mul_of_nonneg_left ?_ (by positivity)
  -- origin at the dipole
  have hshift : ∫ s in Set.Icc R.west R.east ×ˢ Set.Icc R.south R.north, k (s.1 - a) (s.2 - b) =
      ∫ s in Set.Icc (R.west - a) (R.east - a) ×ˢ Set.Icc (R.south - b) (R.north - b), k s.1 s.2 := by
    rw [(rect_integral (fun x y => k (x - a) (y - b)) (hk.comp (by fun_prop : Continuous fun s : ℝ × ℝ =>
      ((s.1 - a, s.2 - b) : ℝ × ℝ))) hR.1 hR.2.1).1, (rect_integral k hk (by linarith [hR.1]) (by linarith [hR.2.1])).1]
    have : ∀ x, ∫ y in R.south..R.north, k (x - a) (y - b) = ∫ y in (R.south - b)..(R.north - b), k (x - a) y :=
      fun x => intervalIntegral.integral_comp_sub_right (fun y => k (x - a) y) b
    simp only [this]
    exact intervalIntegral.integral_comp_sub_right (fun x => ∫ y in (R.south - b)..(R.north - b), k x y) a
  rw [hshift]
  set w := R.west - a
  set e := R.east - a
  set s := R.south - b
  set n := R.north - b
  have hwe : w ≤ e := by simp only [w, e]; linarith
  have hsn : s ≤ n := by simp only [s, n]; linarith
  have hw : L ≤ |w| := by rw [abs_of_neg] <;> simp only [w] <;> linarith
  have he : L ≤ |e| := by rw [abs_of_pos] <;> simp only [e] <;> linarith
  have hs : L ≤ |s| := by rw [abs_of_neg] <;> simp only [s] <;> linarith
  have hn : L ≤ |n| := by rw [abs_of_pos] <;> simp only [n] <;> linarith
  have hsplit : ∀ p : ℝ × ℝ, k p.1 p.2 = m.x * (3 * p.1 * d / √(p.1 ^ 2 + p.2 ^ 2 + d ^ 2) ^ 5) +
      m.y * (3 * p.2 * d / √(p.1 ^ 2 + p.2 ^ 2 + d ^ 2) ^ 5) +
      (m.z * (1 / √(p.1 ^ 2 + p.2 ^ 2 + d ^ 2) ^ 3 - 3 * p.1 ^ 2 / √(p.1 ^ 2 + p.2 ^ 2 + d ^ 2) ^ 5) +
        m.z * (1 / √(p.1 ^ 2 + p.2 ^ 2 + d ^ 2) ^ 3 - 3 * p.2 ^ 2 / √(p.1 ^ 2 + p.2 ^ 2 + d ^ 2) ^ 5)) := by
    intro p
    have hp : 0 < √(p.1 ^ 2 + p.2 ^ 2 + d ^ 2) := by positivity
    have hq : √(p.1 ^ 2 + p.2 ^ 2 + d ^ 2) ^ 2 = p.1 ^ 2 + p.2 ^ 2 + d ^ 2 := Real.sq_sqrt (by positivity)
    simp only [k]
    generalize √(p.1 ^ 2 + p.2 ^ 2 + d ^ 2) = ρ at hp hq ⊢
    field_simp
    linear_combination -3 * m.z * hq
  have hI : ∀ f : ℝ × ℝ → ℝ, Continuous f → IntegrableOn f (Set.Icc w e ×ˢ Set.Icc s n) := fun f hf =>
    hf.continuousOn.integrableOn_compact (isCompact_Icc.prod isCompact_Icc)
  let f1 : ℝ × ℝ → ℝ := fun p => m.x * (3 * p.1 * d / √(p.1 ^ 2 + p.2 ^ 2 + d ^ 2) ^ 5)
  let f2 : ℝ × ℝ → ℝ := fun p => m.y * (3 * p.2 * d / √(p.1 ^ 2 + p.2 ^ 2 + d ^ 2) ^ 5)
  let f3 : ℝ × ℝ → ℝ := fun p =>
    m.z * (1 / √(p.1 ^ 2 + p.2 ^ 2 + d ^ 2) ^ 3 - 3 * p.1 ^ 2 / √(p.1 ^ 2 + p.2 ^ 2 + d ^ 2) ^ 5)
  let f4 : ℝ × ℝ → ℝ := fun p =>
    m.z * (1 / √(p.1 ^ 2 + p.2 ^ 2 + d ^ 2) ^ 3 - 3 * p.2 ^ 2 / √(p.1 ^ 2 + p.2 ^ 2 + d ^ 2) ^ 5)
  have c1 : IntegrableOn f1 (Set.Icc w e ×ˢ Set.Icc s n) :=
    hI _ ((over_continuous hd 5 (fun p => 3 * p.1 * d) (by fun_prop)).const_mul m.x)
  have c2 : IntegrableOn f2 (Set.Icc w e ×ˢ Set.Icc s n) :=
    hI _ ((over_continuous hd 5 (fun p => 3 * p.2 * d) (by fun_prop)).const_mul m.y)
  have c3 : IntegrableOn f3 (Set.Icc w e ×ˢ Set.Icc s n) :=
    hI _ (((over_continuous hd 3 (fun _ => 1) (by fun_prop)).sub
      (over_continuous hd 5 (fun p => 3 * p.1 ^ 2) (by fun_prop))).const_mul m.z)
  have c4 : IntegrableOn f4 (Set.Icc w e ×ˢ Set.Icc s n) :=
    hI _ (((over_continuous hd 3 (fun _ => 1) (by fun_prop)).sub
      (over_continuous hd 5 (fun p => 3 * p.2 ^ 2) (by fun_prop))).const_mul m.z)
  have hall : ∫ p in Set.Icc w e ×ˢ Set.Icc s n, k p.1 p.2 = (∫ p in Set.Icc w e ×ˢ Set.Icc s n, f1 p) +
      (∫ p in Set.Icc w e ×ˢ Set.Icc s n, f2 p) + ((∫ p in Set.Icc w e ×ˢ Set.Icc s n, f3 p) +
        ∫ p in Set.Icc w e ×ˢ Set.Icc s n, f4 p) := by
    rw [← integral_add c1 c2, ← integral_add c3 c4, ← integral_add (f := fun p => f1 p + f2 p)
      (g := fun p => f3 p + f4 p) (c1.add c2) (c3.add c4)]
    exact integral_congr_ae (Eventually.of_forall hsplit)
  rw [hall, integral_const_mul,
    integral_const_mul, integral_const_mul, integral_const_mul, flux_x d w e s n hd hwe hsn, flux_y d w e s n hd hwe hsn,
    flux_xx d w e s n hd hwe hsn, flux_yy d w e s n hd hwe hsn]
  have x1 := small_x s n hd hL hw
  have x2 := small_x s n hd hL he
  have x3 := small_x w e hd hL hs
  have x4 := small_x w e hd hL hn
  have z1 := small_z s n hd hL hw
  have z2 := small_z s n hd hL he
  have z3 := small_z w e hd hL hs
  have z4 := small_z w e hd hL hn
  have t1 : |m.x * (d * (edge d w s n - edge d e s n))| ≤ |m.x| * (2 / L) := by
    rw [abs_mul, mul_sub]
    refine mul_le_mul_of_nonneg_left ?_ (abs_nonneg _)
    refine (abs_sub _ _).trans ?_
    have : 2 / L = 1 / L + 1 / L := by ring
    linarith
  have t2 : |m.y * (d * (edge d s w e - edge d n w e))| ≤ |m.y| * (2 / L) := by
    rw [abs_mul, mul_sub]
    refine mul_le_mul_of_nonneg_left ?_ (abs_nonneg _)
    refine (abs_sub _ _).trans ?_
    have : 2 / L = 1 / L + 1 / L := by ring
    linarith
  have t3 : |m.z * (e * edge d e s n - w * edge d w s n)| ≤ |m.z| * (4 / L) := by
    rw [abs_mul]
    refine mul_le_mul_of_nonneg_left ?_ (abs_nonneg _)
    refine (abs_sub _ _).trans ?_
    have : 4 / L = 2 / L + 2 / L := by ring
    linarith
  have t4 : |m.z * (n * edge d n w e - s * edge d s w e)| ≤ |m.z| * (4 / L) := by
    rw [abs_mul]
    refine mul_le_mul_of_nonneg_left ?_ (abs_nonneg _)
    refine (abs_sub _ _).trans ?_
    have : 4 / L = 2 / L + 2 / L := by ring
    linarith
  have hst : strength m / L = |m.x| * (2 / L) + |m.y| * (2 / L) + (|m.z| * (4 / L) + |m.z| * (4 / L)) := by
    unfold strength; ring
  rw [hst]
  exact (abs_add_le _ _).trans (add_le_add ((abs_add_le _ _).trans (add_le_add t1 t2))
    ((abs_add_le _ _).trans (add_le_add t3 t4)))

/-- Flux of a prism. -/
theorem prism_flux (mu0 : ℝ) (m : P3) (R p : Prism) (hR : R.Ordered) (hp : p.Ordered) (h L : ℝ) (hL : 0 < L)
    (htop : p.top < h) (hA : Around R L p.west p.east p.south p.north) :
    IntegrableOn (fun s : ℝ × ℝ => ∫ r in p.body, (dipoleKernels mu0).u ⟨s.1, s.2, h⟩ (pointAt r) m)
      (Set.Icc R.west R.east ×ˢ Set.Icc R.south R.north) ∧
    |∫ s in Set.Icc R.west R.east ×ˢ Set.Icc R.south R.north,
        ∫ r in p.body, (dipoleKernels mu0).u ⟨s.1, s.2, h⟩ (pointAt r) m| ≤
      |mu0| / (4 * Real.pi) * (strength m * p.volume / L) := by
  have hbody : ∀ r ∈ p.body, r.2.2 < h := fun r hr => lt_of_le_of_lt hr.2.2.2 htop
  have hint : Integrable (Function.uncurry fun (s : ℝ × ℝ) (r : ℝ × ℝ × ℝ) =>
        (dipoleKernels mu0).u ⟨s.1, s.2, h⟩ (pointAt r) m)
      ((volume.restrict (Set.Icc R.west R.east ×ˢ Set.Icc R.south R.north)).prod (volume.restrict p.body)) := by
    rw [Measure.prod_restrict]
    refine ContinuousOn.integrableOn_compact (μ := (volume : Measure (ℝ × ℝ)).prod (volume : Measure (ℝ × ℝ × ℝ)))
      ((rect_compact R).prod p.body_compact) ?_
    exact (dipole_over mu0 m h).mono fun s hs => hbody s.2 hs.2
  refine ⟨hint.integral_prod_left, ?_⟩
  rw [integral_integral_swap hint]
  have hb := norm_setIntegral_le_of_norm_le_const (μ := (volume : Measure (ℝ × ℝ × ℝ))) (s := p.body)
    (f := fun r => ∫ s in Set.Icc R.west R.east ×ˢ Set.Icc R.south R.north,
      (dipoleKernels mu0).u ⟨s.1, s.2, h⟩ (pointAt r) m) (C := |mu0| / (4 * Real.pi) * (strength m / L))
    p.body_compact.measure_lt_top (by
      intro r hr
      have hr' := hr
      obtain ⟨⟨r1, r2⟩, ⟨r3, r4⟩, r5, r6⟩ := hr
      obtain ⟨l1, l2, l3, l4⟩ := hA
      have hA' : Around R L r.1 r.1 r.2.1 r.2.1 := ⟨by linarith, by linarith, by linarith, by linarith⟩
      exact dipole_flux mu0 m R hR h L hL r (hbody r hr') hA')
  rw [p.volume_body hp, Real.norm_eq_abs] at hb
  refine hb.trans (le_of_eq ?_)
  ring

theorem sum_small {S : Type} (srcs : List S) (f b : S → ℝ) (h : ∀ s ∈ srcs, |f s| ≤ b s) :
    |(srcs.map f).sum| ≤ (srcs.map b).sum := by
  have := sum_close srcs f (fun _ => 0) b (by simpa using h)
  simpa using this

/-- A quantity that is smaller than a bound over the distance goes to zero. -/
theorem widening_small {R : ℕ → Prism} (hw : Widening R) (f : ℕ → ℝ) (B w e s n : ℝ)
    (h : ∀ k L, 0 < L → Around (R k) L w e s n → |f k| ≤ B / L) : Tendsto f atTop (𝓝 0) := by
  rw [Metric.tendsto_atTop']
  intro ε hε
  let L := |B| / ε + 1
  have hL : 0 < L := by positivity
  have h1 := hw.west.eventually (eventually_le_atBot (w - L))
  have h2 := hw.east.eventually (eventually_ge_atTop (e + L))
  have h3 := hw.south.eventually (eventually_le_atBot (s - L))
  have h4 := hw.north.eventually (eventually_ge_atTop (n + L))
  obtain ⟨N, hN⟩ := eventually_atTop.1 (h1.and (h2.and (h3.and h4)))
  refine ⟨N, fun k hk => ?_⟩
  obtain ⟨a1, a2, a3, a4⟩ := hN k hk.le
  rw [Real.dist_eq, sub_zero]
  refine lt_of_le_of_lt (h k L hL ⟨by linarith, by linarith, by linarith, by linarith⟩) ?_
  rw [div_lt_iff₀ hL]
  have : ε * L = |B| + ε := by simp only [L]; field_simp
  linarith [le_abs_self B]

/-- A rectangle around points or prisms. -/
theorem exists_rectangle {S : Type} (srcs : List S) (a b c d : S → ℝ) : ∃ w e s n : ℝ,
    ∀ t ∈ srcs, w ≤ a t ∧ b t ≤ e ∧ s ≤ c t ∧ d t ≤ n := by
  induction srcs with
  | nil => exact ⟨0, 0, 0, 0, by simp⟩
  | cons t l ih =>
    obtain ⟨w, e, s, n, h⟩ := ih
    refine ⟨min w (a t), max e (b t), min s (c t), max n (d t), ?_⟩
    intro u hu
    rcases List.mem_cons.1 hu with rfl | hu
    · exact ⟨min_le_right _ _, le_max_right _ _, min_le_right _ _, le_max_right _ _⟩
    · obtain ⟨a1, a2, a3, a4⟩ := h u hu
      exact ⟨(min_le_left _ _).trans a1, a2.trans (le_max_left _ _), (min_le_left _ _).trans a3,
        a4.trans (le_max_left _ _)⟩

/-! ### C126 -/

/-- C126. For dipoles below the plane at the height `h`: the flux through a rectangle that extends a distance `L`
around the dipoles is at most the bound, and tends to zero for ever larger rectangles. -/
theorem C126_dipoles (junk : Junk) {mu0 : ℝ} {K : MagKernels P3} (hK : K.Dipole mu0) (ps : List ℕ)
    (srcs : List (P3 × V3)) (h : ℝ) (hbelow : ∀ s ∈ srcs, s.1.z < h) :
    ∃ B_u : P3 → ℝ,
      (∀ mode shape obs dis, shape.prod = obs.length → mode.Full obs.length (6 * srcs.length) →
        dipoleMagnetic junk mode K (arrays shape obs) (arrays ps (srcs.map (·.1)))
          [(srcs.map (·.2)).map (·.x), (srcs.map (·.2)).map (·.y), (srcs.map (·.2)).map (·.z)] "b_u" dis =
          .ok (.single ⟨shape, obs.map B_u⟩)) ∧
      (∀ R : ℕ → Prism, Widening R → (∀ k, (R k).Ordered) →
        Tendsto (fun k => planeIntegral (R k) h B_u) atTop (𝓝 0)) ∧
      ∀ R : Prism, ∀ L, R.Ordered → 0 < L → (∀ s ∈ srcs, Around R L s.1.x s.1.x s.1.y s.1.y) →
        |planeIntegral R h B_u| ≤ 10 ^ 9 * (|mu0| / (4 * Real.pi) *
          ((srcs.map fun s => 2 * |s.2.x| + 2 * |s.2.y| + 8 * |s.2.z|).sum / L)) := by
  have hbound : ∀ R : Prism, ∀ L, R.Ordered → 0 < L → (∀ s ∈ srcs, Around R L s.1.x s.1.x s.1.y s.1.y) →
      |planeIntegral R h fun q => total (fun q s => K.u q s.1 s.2) srcs q * 10 ^ 9| ≤
        10 ^ 9 * (|mu0| / (4 * Real.pi) *
          ((srcs.map fun s => 2 * |s.2.x| + 2 * |s.2.y| + 8 * |s.2.z|).sum / L)) := by
    intro R L hR hL hA
    unfold planeIntegral
    have e : ∀ s : ℝ × ℝ, total (fun q s => K.u q s.1 s.2) srcs ⟨s.1, s.2, h⟩ =
        (srcs.map fun t => (dipoleKernels mu0).u ⟨s.1, s.2, h⟩ (pointAt (coords t.1)) t.2).sum := by
      intro s
      unfold total
      congr 1
      refine List.map_congr_left fun t ht => ?_
      rw [pointAt_coords]
      exact hK.u _ _ _ fun heq => (hbelow t ht).ne (by rw [← heq])
    simp only [e]
    have hcont : ∀ t ∈ srcs, IntegrableOn (fun s : ℝ × ℝ => (dipoleKernels mu0).u ⟨s.1, s.2, h⟩ (pointAt (coords t.1)) t.2)
        (Set.Icc R.west R.east ×ˢ Set.Icc R.south R.north) := by
      intro t ht
      refine ContinuousOn.integrableOn_compact (rect_compact R) ?_
      exact (dipole_over mu0 t.2 h).comp (f := fun s : ℝ × ℝ => (s, coords t.1)) (by fun_prop) fun s _ => hbelow t ht
    rw [integral_mul_const, (sum_plane _ srcs (fun t s => (dipoleKernels mu0).u ⟨s.1, s.2, h⟩ (pointAt (coords t.1)) t.2)
      hcont).2, abs_mul, mul_comm, abs_of_pos (by norm_num : (0 : ℝ) < 10 ^ 9)]
    refine mul_le_mul_of_nonneg_left ?_ (by norm_num)
    refine (sum_small srcs _ (fun t => |mu0| / (4 * Real.pi) * (strength t.2 / L)) fun t ht =>
      dipole_flux mu0 t.2 R hR h L hL (coords t.1) (hbelow t ht) (hA t ht)).trans (le_of_eq ?_)
    rw [List.sum_map_mul_left]
    simp only [strength, div_eq_mul_inv]
    rw [List.sum_map_mul_right]
  refine ⟨fun q => total (fun q s => K.u q s.1 s.2) srcs q * 10 ^ 9, ?_, ?_, hbound⟩
  · intro mode shape obs dis hs hm
    rw [dipoleMagnetic_eq junk mode K shape ps obs hs srcs hm]
    simp [magSpec]
  · intro R hw hR
    obtain ⟨w, e, s, n, hbox⟩ := exists_rectangle srcs (fun t => t.1.x) (fun t => t.1.x) (fun t => t.1.y) fun t => t.1.y
    refine widening_small hw _ (10 ^ 9 * (|mu0| / (4 * Real.pi) *
      (srcs.map fun s => 2 * |s.2.x| + 2 * |s.2.y| + 8 * |s.2.z|).sum)) w e s n fun k L hL hA => ?_
    obtain ⟨A1, A2, A3, A4⟩ := hA
    refine (hbound (R k) L (hR k) hL fun t ht => ?_).trans (le_of_eq (by ring))
    obtain ⟨b1, b2, b3, b4⟩ := hbox t ht
    exact ⟨by linarith, by linarith, by linarith, by linarith⟩

/-- C126. For prisms below the plane. -/
theorem C126_prisms (junk : Junk) {mu0 : ℝ} {K : MagKernels Prism} (hK : K.Magnetized mu0)
    (srcs : List (Prism × V3)) (hord : ∀ s ∈ srcs, s.1.Ordered) (h : ℝ) (hbelow : ∀ s ∈ srcs, s.1.top < h) :
    ∃ B_u : P3 → ℝ,
      (∀ mode shape obs dis, shape.prod = obs.length → mode.Full obs.length (6 * srcs.length) →
          (∀ q ∈ obs, ∀ s ∈ srcs, s.1.top < q.z) →
        prismMagnetic junk mode K (arrays shape obs) (srcs.map (·.1))
          [(srcs.map (·.2)).map (·.x), (srcs.map (·.2)).map (·.y), (srcs.map (·.2)).map (·.z)] "b_u" dis =
          .ok (.single ⟨shape, obs.map B_u⟩)) ∧
      (∀ R : ℕ → Prism, Widening R → (∀ k, (R k).Ordered) →
        Tendsto (fun k => planeIntegral (R k) h B_u) atTop (𝓝 0)) ∧
      ∀ R : Prism, ∀ L, R.Ordered → 0 < L → (∀ s ∈ srcs, Around R L s.1.west s.1.east s.1.south s.1.north) →
        |planeIntegral R h B_u| ≤ 10 ^ 9 * (|mu0| / (4 * Real.pi) *
          ((srcs.map fun s => (2 * |s.2.x| + 2 * |s.2.y| + 8 * |s.2.z|) * s.1.volume).sum / L)) := by
  have hbound : ∀ R : Prism, ∀ L, R.Ordered → 0 < L →
      (∀ s ∈ srcs, Around R L s.1.west s.1.east s.1.south s.1.north) →
      |planeIntegral R h (bodyMag (dipoleKernels mu0).u srcs)| ≤ 10 ^ 9 * (|mu0| / (4 * Real.pi) *
          ((srcs.map fun s => (2 * |s.2.x| + 2 * |s.2.y| + 8 * |s.2.z|) * s.1.volume).sum / L)) := by
    intro R L hR hL hA
    unfold planeIntegral bodyMag
    have hf := fun t ht => prism_flux mu0 t.2 R t.1 hR (hord t ht) h L hL (hbelow t ht) (hA t ht)
    rw [integral_mul_const, (sum_plane _ srcs
      (fun t s => ∫ r in t.1.body, (dipoleKernels mu0).u ⟨s.1, s.2, h⟩ (pointAt r) t.2) fun t ht => (hf t ht).1).2,
      abs_mul, mul_comm, abs_of_pos (by norm_num : (0 : ℝ) < 10 ^ 9)]
    refine mul_le_mul_of_nonneg_left ?_ (by norm_num)
    refine (sum_small srcs _ (fun t => |mu0| / (4 * Real.pi) * (strength t.2 * t.1.volume / L)) fun t ht =>
      (hf t ht).2).trans (le_of_eq ?_)
    rw [List.sum_map_mul_left]
    simp only [strength, div_eq_mul_inv]
    rw [List.sum_map_mul_right]
  refine ⟨bodyMag (dipoleKernels mu0).u srcs, ?_, ?_, hbound⟩
  · intro mode shape obs dis hs hm ho
    exact (prismMagnetic_body junk mode hK shape obs hs srcs dis hord hm fun q hq s hs hin =>
      absurd hin.2.2.2 (not_le.2 (ho q hq s hs))).2.2.2
  · intro R hw hR
    obtain ⟨w, e, s, n, hbox⟩ := exists_rectangle srcs (fun t => t.1.west) (fun t => t.1.east) (fun t => t.1.south)
      fun t => t.1.north
    refine widening_small hw _ (10 ^ 9 * (|mu0| / (4 * Real.pi) *
      (srcs.map fun s => (2 * |s.2.x| + 2 * |s.2.y| + 8 * |s.2.z|) * s.1.volume).sum)) w e s n fun k L hL hA => ?_
    obtain ⟨A1, A2, A3, A4⟩ := hA
    refine (hbound (R k) L (hR k) hL fun t ht => ?_).trans (le_of_eq (by ring))
    obtain ⟨b1, b2, b3, b4⟩ := hbox t ht
    exact ⟨by linarith, by linarith, by linarith, by linarith⟩

/-! ### Examples -/

/-- Two dipoles under the plane at 10 m. -/
example : ∃ B_u : P3 → ℝ,
    dipoleMagnetic (fun _ _ => 0) .serial (dipoleKernels 1) (arrays [1] [⟨4, 5, 10⟩])
      (arrays [2] [⟨0, 0, -5⟩, ⟨100, 50, 2⟩]) [[3, 0], [0, 1], [1, -2]] "b_u" false = .ok (.single ⟨[1], [B_u ⟨4, 5, 10⟩]⟩) ∧
    Tendsto (fun k => planeIntegral (squares 0 k) 10 B_u) atTop (𝓝 0) := by
  have hz : ∀ s ∈ [((⟨0, 0, -5⟩ : P3), (⟨3, 0, 1⟩ : V3)), (⟨100, 50, 2⟩, ⟨0, 1, -2⟩)], s.1.z < (10 : ℝ) := by
    intro s hs
    simp only [List.mem_cons, List.not_mem_nil, or_false] at hs
    rcases hs with rfl | rfl <;> norm_num
  obtain ⟨B, h1, h2, -⟩ := C126_dipoles (fun _ _ => 0) (dipoleKernels_dipole 1) [2] _ 10 hz
  exact ⟨B, h1 .serial [1] [⟨4, 5, 10⟩] false (by simp) trivial, h2 _ (squares_widening 0) (squares_ordered 0)⟩

/-- A magnetized cube under the plane at 9 m. -/
example : ∃ B_u : P3 → ℝ,
    prismMagnetic (fun _ _ => 0) .serial (bodyMagKernels 1) (arrays [1] [⟨0, 0, 9⟩]) [⟨-1, 1, -1, 1, -1, 1⟩]
      [[1], [2], [3]] "b_u" false = .ok (.single ⟨[1], [B_u ⟨0, 0, 9⟩]⟩) ∧
    Tendsto (fun k => planeIntegral (squares 0 k) 9 B_u) atTop (𝓝 0) := by
  obtain ⟨B, h1, h2, -⟩ := C126_prisms (fun _ _ => 0) (bodyMagKernels_magnetized 1)
    [((⟨-1, 1, -1, 1, -1, 1⟩ : Prism), (⟨1, 2, 3⟩ : V3))] (by
      simp only [List.mem_singleton, forall_eq]
      refine ⟨?_, ?_, ?_⟩ <;> norm_num) 9 (by simp)
  exact ⟨B, h1 .serial [1] [⟨0, 0, 9⟩] false (by simp) trivial (by simp),
    h2 _ (squares_widening 0) (squares_ordered 0)⟩

end Verif.Forward
