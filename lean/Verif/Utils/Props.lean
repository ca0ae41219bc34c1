import Verif.Utils.Spec
import Mathlib.Tactic.Linarith
import Mathlib.Tactic.FieldSimp
import Mathlib.Tactic.NormNum
import Mathlib.Tactic.Positivity
import Mathlib.Topology.Instances.Real.Lemmas
import Mathlib.Topology.Order.OrderClosed

/-! # Property theorems C40-C43 and C72 -/

namespace Verif.Utils
open Real Verif.Forward

/-! ## C40: magnetic vectors and angles -/

private theorem rad_lt {x : ℝ} (h : |x| < 90) : |radians x| < π / 2 := by
  unfold radians
  rw [abs_mul, abs_of_pos (by positivity : 0 < π / 180)]
  have := mul_lt_mul_of_pos_right h (by positivity : 0 < π / 180)
  linarith

private theorem vec_norm (I a b : ℝ) (hI : 0 ≤ I) :
    sqrt ((I * cos a * sin b) ^ 2 + (I * cos a * cos b) ^ 2 + (-I * sin a) ^ 2) = I := by
  rw [show (I * cos a * sin b) ^ 2 + (I * cos a * cos b) ^ 2 + (-I * sin a) ^ 2 = I ^ 2 from by
    linear_combination I ^ 2 * cos a ^ 2 * sin_sq_add_cos_sq b + I ^ 2 * sin_sq_add_cos_sq a]
  exact sqrt_sq hI

private theorem horiz_norm (I a b : ℝ) (h : 0 ≤ I * cos a) :
    sqrt ((I * cos a * sin b) ^ 2 + (I * cos a * cos b) ^ 2) = I * cos a := by
  rw [show (I * cos a * sin b) ^ 2 + (I * cos a * cos b) ^ 2 = (I * cos a) ^ 2 from by
    linear_combination I ^ 2 * cos a ^ 2 * sin_sq_add_cos_sq b]
  exact sqrt_sq h

private theorem arctan2_polar {r t : ℝ} (hr : 0 < r) (ht : t ∈ Set.Ioc (-π) π) :
    arctan2 (r * sin t) (r * cos t) = t := by
  have h := Complex.arg_mul_cos_add_sin_mul_I hr ht
  unfold arctan2
  rw [← h]
  congr 1
  apply Complex.ext <;> simp [Complex.cos_ofReal_re, Complex.sin_ofReal_re, h]

/-- Angles to vector and back gives the angles, in every quadrant. -/
theorem C40_angles_roundtrip (I inc dec : ℝ) (hI : 0 < I) (hinc : |inc| < 90)
    (hdec : -180 < dec) (hdec' : dec ≤ 180) :
    let v := magneticAnglesToVec I inc dec
    magneticVecToAngles v.1 v.2.1 v.2.2 = (I, inc, dec) := by
  have ha := abs_lt.1 (rad_lt hinc)
  have hc : 0 < cos (radians inc) := cos_pos_of_mem_Ioo ha
  have hr : 0 < I * cos (radians inc) := mul_pos hI hc
  have hb : radians dec ∈ Set.Ioc (-π) π := by
    have : 0 < π / 180 := by positivity
    unfold radians
    constructor
    · have := mul_lt_mul_of_pos_right hdec this; linarith
    · have := mul_le_mul_of_nonneg_right hdec' this.le; linarith
  simp only [magneticAnglesToVec, magneticVecToAngles, if_true]
  rw [vec_norm _ _ _ hI.le, horiz_norm _ _ _ hr.le, arctan2_polar hr hb, degrees_radians]
  have : arctan2 (- (-I * sin (radians inc))) (I * cos (radians inc)) = radians inc := by
    rw [show -(-I * sin (radians inc)) = I * sin (radians inc) by ring]
    exact arctan2_polar hI ⟨by linarith [ha.1, pi_pos], by linarith [ha.2, pi_pos]⟩
  rw [this, degrees_radians]

example : (0 : ℝ) < 50000 ∧ |(-60 : ℝ)| < 90 ∧ (-180 : ℝ) < 135 ∧ (135 : ℝ) ≤ 180 := by
  norm_num [abs_lt]

/-- At the poles of the representation (vertical vectors) the declination is lost: it comes back
as zero; intensity and inclination are still recovered. -/
theorem C40_vertical_roundtrip (I dec : ℝ) (up : Bool) (hI : 0 < I) :
    let inc : ℝ := if up then -90 else 90
    let v := magneticAnglesToVec I inc dec
    magneticVecToAngles v.1 v.2.1 v.2.2 = (I, inc, 0) := by
  have key : ∀ s : ℝ, (s = 1 ∨ s = -1) →
      magneticVecToAngles (magneticAnglesToVec I (s * 90) dec).1
        (magneticAnglesToVec I (s * 90) dec).2.1 (magneticAnglesToVec I (s * 90) dec).2.2
        = (I, s * 90, 0) := by
    intro s hs
    have hrad : radians (s * 90) = s * (π / 2) := by unfold radians; ring
    have hc : cos (s * (π / 2)) = 0 := by
      rcases hs with rfl | rfl <;> simp
    have hsn : sin (s * (π / 2)) = s := by
      rcases hs with rfl | rfl <;> simp
    simp only [magneticAnglesToVec, magneticVecToAngles, if_true, hrad]
    rw [vec_norm _ _ _ hI.le, horiz_norm _ _ _ (by rw [hc]; simp)]
    have h1 : arctan2 (-(-I * sin (s * (π / 2)))) (I * cos (s * (π / 2))) = s * (π / 2) := by
      rw [show -(-I * sin (s * (π / 2))) = I * sin (s * (π / 2)) by ring]
      refine arctan2_polar hI ?_
      rcases hs with rfl | rfl <;> constructor <;> linarith [pi_pos]
    have h2 : arctan2 (I * cos (s * (π / 2)) * sin (radians dec))
        (I * cos (s * (π / 2)) * cos (radians dec)) = 0 := by
      rw [hc]; simp only [mul_zero, zero_mul]
      exact Complex.arg_zero
    rw [h1, h2]
    refine Prod.ext rfl (Prod.ext ?_ ?_)
    · show degrees (s * (π / 2)) = s * 90
      rw [← hrad, degrees_radians]
    · simp [degrees]
  cases up
  · have := key 1 (Or.inl rfl); simpa using this
  · have := key (-1) (Or.inr rfl); simpa using this

private theorem polar_arctan2 (y x : ℝ) :
    sqrt (x ^ 2 + y ^ 2) * cos (arctan2 y x) = x ∧ sqrt (x ^ 2 + y ^ 2) * sin (arctan2 y x) = y := by
  have hn : ‖(⟨x, y⟩ : ℂ)‖ = sqrt (x ^ 2 + y ^ 2) := by
    rw [Complex.norm_def, Complex.normSq_mk]; congr 1; ring
  have h1 := Complex.norm_mul_cos_arg ⟨x, y⟩
  have h2 := Complex.norm_mul_sin_arg ⟨x, y⟩
  rw [hn] at h1 h2
  exact ⟨h1, h2⟩

/-- Vector to angles and back gives the vector, for every vector. -/
theorem C40_vector_roundtrip (e n u : ℝ) :
    let a := magneticVecToAngles e n u
    magneticAnglesToVec a.1 a.2.1 a.2.2 = (e, n, u) := by
  simp only [magneticAnglesToVec, magneticVecToAngles, if_true, radians_degrees]
  obtain ⟨h1, h2⟩ := polar_arctan2 (-u) (sqrt (e ^ 2 + n ^ 2))
  obtain ⟨h3, h4⟩ := polar_arctan2 e n
  have hh : sqrt (e ^ 2 + n ^ 2) ^ 2 + (-u) ^ 2 = e ^ 2 + n ^ 2 + u ^ 2 := by
    rw [sq_sqrt (by positivity)]; ring
  rw [hh] at h1 h2
  rw [show n ^ 2 + e ^ 2 = e ^ 2 + n ^ 2 by ring] at h3 h4
  rw [h1, h3, h4, neg_mul, h2, neg_neg]

/-- The intensity is the Euclidean norm and the angles lie in their documented ranges; the
inclination is positive exactly for vectors that point down, and the declination is negative
exactly for vectors that point to the west. -/
theorem C40_meaning (e n u : ℝ) :
    let a := magneticVecToAngles e n u
    a.1 = norm3 (e, n, u) ∧ -90 ≤ a.2.1 ∧ a.2.1 ≤ 90 ∧ -180 < a.2.2 ∧ a.2.2 ≤ 180 ∧
      (0 < a.2.1 ↔ u < 0) ∧ (a.2.2 < 0 ↔ e < 0) := by
  have hpi := pi_pos
  have hk : 0 < 180 / π := by positivity
  have e1 : 180 / π * π = 180 := by field_simp
  simp only [magneticVecToAngles, if_true, norm3, degrees]
  have hi : |arctan2 (-u) (sqrt (e ^ 2 + n ^ 2))| ≤ π / 2 :=
    Complex.abs_arg_le_pi_div_two_iff.2 (sqrt_nonneg _)
  obtain ⟨hi1, hi2⟩ := abs_le.1 hi
  have hd := Complex.arg_mem_Ioc ⟨n, e⟩
  obtain ⟨hd1, hd2⟩ := hd
  refine ⟨trivial, ?_, ?_, ?_, ?_, ?_, ?_⟩
  · have := mul_le_mul_of_nonneg_right hi1 hk.le; nlinarith
  · have := mul_le_mul_of_nonneg_right hi2 hk.le; nlinarith
  · have := mul_lt_mul_of_pos_right hd1 hk
    unfold arctan2; nlinarith
  · have := mul_le_mul_of_nonneg_right hd2 hk.le
    unfold arctan2; nlinarith
  · rw [mul_pos_iff_of_pos_right hk]
    have hz : arctan2 (-u) (sqrt (e ^ 2 + n ^ 2)) = 0 ↔ -u = 0 := by
      unfold arctan2
      rw [Complex.arg_eq_zero_iff]
      exact ⟨fun h => h.2, fun h => ⟨sqrt_nonneg _, h⟩⟩
    have hge : 0 ≤ arctan2 (-u) (sqrt (e ^ 2 + n ^ 2)) ↔ 0 ≤ -u := Complex.arg_nonneg_iff
    rw [lt_iff_le_and_ne, hge, ne_comm, Ne, hz]
    constructor
    · rintro ⟨h1, h2⟩
      rcases lt_or_eq_of_le h1 with h | h
      · linarith
      · exact absurd h.symm h2
    · intro h
      exact ⟨by linarith, by linarith [h] |> fun (h' : 0 < -u) => h'.ne'⟩
  · rw [mul_neg_iff]
    simp only [hk, hk.not_gt, and_true, and_false, false_or]
    exact Complex.arg_neg_iff

/-- The output in radians is the output in degrees converted. -/
theorem C40_radians (e n u : ℝ) :
    let d := magneticVecToAngles e n u true
    let r := magneticVecToAngles e n u false
    r = (d.1, radians d.2.1, radians d.2.2) := by
  simp [magneticVecToAngles, radians_degrees]

/-! ## C41: total field anomaly -/

private theorem unit_norm (inc dec : ℝ) :
    let f := magneticAnglesToVec 1 inc dec
    f.1 ^ 2 + f.2.1 ^ 2 + f.2.2 ^ 2 = 1 := by
  simp only [magneticAnglesToVec]
  linear_combination cos (radians inc) ^ 2 * sin_sq_add_cos_sq (radians dec)
    + sin_sq_add_cos_sq (radians inc)

private theorem vec_scale (I inc dec : ℝ) :
    magneticAnglesToVec I inc dec = (I * (magneticAnglesToVec 1 inc dec).1,
      I * (magneticAnglesToVec 1 inc dec).2.1, I * (magneticAnglesToVec 1 inc dec).2.2) := by
  simp only [magneticAnglesToVec]
  refine Prod.ext ?_ (Prod.ext ?_ ?_) <;> simp <;> ring

/-- The anomaly is the projection of the anomalous field on the direction of the regional field
`F`, whose inclination and declination are those of `magnetic_vec_to_angles`. -/
theorem C41_projection (b F : ℝ × ℝ × ℝ) (hF : norm3 F ≠ 0) :
    let a := magneticVecToAngles F.1 F.2.1 F.2.2
    totalFieldAnomaly b a.2.1 a.2.2 = dot3 b F / norm3 F := by
  intro a
  have h := C40_vector_roundtrip F.1 F.2.1 F.2.2
  have ha : a.1 = norm3 F := (C40_meaning F.1 F.2.1 F.2.2).1
  change magneticAnglesToVec a.1 a.2.1 a.2.2 = _ at h
  rw [vec_scale, ha] at h
  simp only [Prod.mk.injEq] at h
  obtain ⟨h1, h2, h3⟩ := h
  simp only [totalFieldAnomaly, dot3]
  rw [eq_div_iff hF, ← h1, ← h2, ← h3]
  ring

example : norm3 (0, 3, -4) ≠ 0 := by
  simp only [norm3]
  exact (sqrt_pos.2 (by norm_num)).ne'

/-- Linear in the anomalous field. -/
theorem C41_linear (b b' : ℝ × ℝ × ℝ) (c inc dec : ℝ) :
    totalFieldAnomaly (c * b.1 + b'.1, c * b.2.1 + b'.2.1, c * b.2.2 + b'.2.2) inc dec
      = c * totalFieldAnomaly b inc dec + totalFieldAnomaly b' inc dec := by
  simp only [totalFieldAnomaly]; ring

/-- Bounded by the norm of the anomalous field. -/
theorem C41_bounded (b : ℝ × ℝ × ℝ) (inc dec : ℝ) :
    |totalFieldAnomaly b inc dec| ≤ norm3 b := by
  have hf := unit_norm inc dec
  simp only [totalFieldAnomaly, norm3]
  simp only at hf
  generalize magneticAnglesToVec 1 inc dec = f at hf ⊢
  apply abs_le_sqrt
  nlinarith [sq_nonneg (b.1 * f.2.1 - b.2.1 * f.1), sq_nonneg (b.1 * f.2.2 - b.2.2 * f.1),
    sq_nonneg (b.2.1 * f.2.2 - b.2.2 * f.2.1), sq_nonneg b.1, sq_nonneg b.2.1, sq_nonneg b.2.2]

/-- For a field parallel to the regional field it is the signed intensity. -/
theorem C41_parallel (I inc dec : ℝ) :
    totalFieldAnomaly (magneticAnglesToVec I inc dec) inc dec = I := by
  have hf := unit_norm inc dec
  rw [vec_scale]
  simp only [totalFieldAnomaly]
  simp only at hf
  linear_combination I * hf

/-- It approximates the change of the total field: with a regional field of intensity `F`, the
difference `|F + B| - |F|` is never below the anomaly and exceeds it by at most `|B|² / (2 |F|)`. -/
theorem C41_second_order (b : ℝ × ℝ × ℝ) (F inc dec : ℝ) (hF : 0 < F) :
    let f := magneticAnglesToVec F inc dec
    let change := norm3 (f.1 + b.1, f.2.1 + b.2.1, f.2.2 + b.2.2) - norm3 f
    totalFieldAnomaly b inc dec ≤ change ∧
      change ≤ totalFieldAnomaly b inc dec + norm3 b ^ 2 / (2 * F) := by
  intro f change
  have hf := unit_norm inc dec
  have hnf : norm3 f = F := by
    simp only [f, norm3, magneticAnglesToVec]
    exact vec_norm _ _ _ hF.le
  have hnb : norm3 b ^ 2 = b.1 ^ 2 + b.2.1 ^ 2 + b.2.2 ^ 2 := by
    simp only [norm3]; exact sq_sqrt (by positivity)
  simp only [change, hnf, hnb]
  have hs := vec_scale F inc dec
  simp only at hf
  change f = _ at hs
  rw [hs]
  simp only [totalFieldAnomaly, norm3]
  generalize magneticAnglesToVec 1 inc dec = g at hf
  set t := b.1 * g.1 + b.2.1 * g.2.1 + b.2.2 * g.2.2 with ht
  set B := b.1 ^ 2 + b.2.1 ^ 2 + b.2.2 ^ 2 with hB
  have harg : (F * g.1 + b.1) ^ 2 + (F * g.2.1 + b.2.1) ^ 2 + (F * g.2.2 + b.2.2) ^ 2
      = F ^ 2 + 2 * F * t + B := by
    rw [ht, hB]; linear_combination F ^ 2 * hf
  rw [harg]
  have hcs : t ^ 2 ≤ B := by
    rw [ht, hB]
    nlinarith [sq_nonneg (b.1 * g.2.1 - b.2.1 * g.1), sq_nonneg (b.1 * g.2.2 - b.2.2 * g.1),
      sq_nonneg (b.2.1 * g.2.2 - b.2.2 * g.2.1), sq_nonneg b.1, sq_nonneg b.2.1, sq_nonneg b.2.2]
  constructor
  · have : F + t ≤ sqrt (F ^ 2 + 2 * F * t + B) := le_sqrt_of_sq_le (by nlinarith)
    linarith
  · have h0 : 0 ≤ F + t + B / (2 * F) := by
      have h2 : F + t + B / (2 * F) = (2 * F ^ 2 + 2 * F * t + B) / (2 * F) := by
        field_simp
      rw [h2]
      apply div_nonneg _ (by positivity)
      nlinarith [sq_nonneg (F + t)]
    have h1 : sqrt (F ^ 2 + 2 * F * t + B) ≤ F + t + B / (2 * F) := by
      apply sqrt_le_iff.2 ⟨h0, ?_⟩
      have : (F + t + B / (2 * F)) ^ 2 = F ^ 2 + 2 * F * t + B + (t + B / (2 * F)) ^ 2 := by
        field_simp; ring
      rw [this]
      nlinarith [sq_nonneg (t + B / (2 * F))]
    linarith

example : (0 : ℝ) < 50000 := by norm_num

/-! ## C42: Bouguer correction -/

/-- Element by element the correction is the slab of the specification, NaN stays NaN. -/
theorem C42_value (topography : List (Option ℝ)) (rho_c rho_w : ℝ) :
    bouguerCorrection topography rho_c rho_w
      = topography.map (Option.map (bouguerSpec rho_c rho_w)) := by
  unfold bouguerCorrection maskAssign
  induction topography with
  | nil => rfl
  | cons h t ih =>
    simp only [List.map_cons, List.length_cons, List.replicate_succ, List.zipWith_cons_cons,
      List.cons.injEq]
    refine ⟨?_, ih⟩
    cases h with
    | none => simp
    | some x =>
      simp only [Option.mem_def, Option.some.injEq, exists_eq_left', Option.map_some,
        bouguerSpec, slab, gravitationalConst]
      by_cases hx : x < 0
      · simp [hx, not_le.2 hx, abs_of_neg hx]; ring
      · simp [hx, not_lt.1 hx]; ring

/-- The correction is the same function of every height of the grid; when the crust is at least as
dense as water (and water not lighter than nothing) this function is continuous, monotone and zero
at the ellipsoid. -/
theorem C42_function (rho_c rho_w : ℝ) (hw : 0 ≤ rho_w) (hc : rho_w ≤ rho_c) :
    ∃ f : ℝ → ℝ, Continuous f ∧ Monotone f ∧ f 0 = 0 ∧
      ∀ topography : List (Option ℝ),
        bouguerCorrection topography rho_c rho_w = topography.map (Option.map f) := by
  have hK : 0 < 2 * π * (66743 / 10 ^ 15) := by positivity
  have hform : ∀ h, bouguerSpec rho_c rho_w h
      = 2 * π * (66743 / 10 ^ 15) * (rho_c * max h 0 + (rho_c - rho_w) * min h 0) * 10 ^ 5 := by
    intro h
    unfold bouguerSpec slab
    split_ifs with h0
    · rw [max_eq_left h0, min_eq_right h0]; ring
    · have := not_le.1 h0
      rw [max_eq_right this.le, min_eq_left this.le, abs_of_neg this]; ring
  refine ⟨bouguerSpec rho_c rho_w, ?_, ?_, ?_, fun t => C42_value t rho_c rho_w⟩
  · rw [show bouguerSpec rho_c rho_w = _ from funext hform]
    fun_prop
  · intro a b hab
    rw [hform, hform]
    have h1 : max a 0 ≤ max b 0 := max_le_max_right _ hab
    have h2 : min a 0 ≤ min b 0 := min_le_min_right _ hab
    have h3 := mul_le_mul_of_nonneg_left h1 (hw.trans hc)
    have h4 := mul_le_mul_of_nonneg_left h2 (sub_nonneg.2 hc)
    have := mul_le_mul_of_nonneg_left (add_le_add h3 h4) hK.le
    nlinarith
  · rw [hform]; simp

example : (0 : ℝ) ≤ 1040 ∧ (1040 : ℝ) ≤ 2670 := by norm_num

/-! ## C43: Airy isostasy -/

private theorem bidx_comp : ∀ (a b s : List ℕ), broadcastRev a b = some s → ∀ idx,
    bidx a (bidx s idx) = bidx a idx ∧ bidx b (bidx s idx) = bidx b idx
  | [], b, s, h, idx => by
    simp only [broadcastRev, Option.some.injEq] at h
    subst h
    refine ⟨rfl, ?_⟩
    induction b generalizing idx with
    | nil => rfl
    | cons x b ih =>
      cases idx with
      | nil => rfl
      | cons i is =>
        simp only [bidx, ih is, List.cons.injEq, and_true]
        split_ifs <;> rfl
  | x :: a, [], s, h, idx => by
    simp only [broadcastRev, Option.some.injEq] at h
    subst h
    refine ⟨?_, rfl⟩
    have : ∀ (l : List ℕ) (idx), bidx l (bidx l idx) = bidx l idx := by
      intro l
      induction l with
      | nil => intro _; rfl
      | cons y l ih =>
        intro idx
        cases idx with
        | nil => rfl
        | cons i is =>
          simp only [bidx, ih is, List.cons.injEq, and_true]
          split_ifs <;> rfl
    exact this _ _
  | x :: a, y :: b, s, h, idx => by
    simp only [broadcastRev] at h
    cases hr : broadcastRev a b with
    | none => rw [hr] at h; simp at h
    | some r =>
      rw [hr] at h
      simp only [Option.bind_some] at h
      cases idx with
      | nil => split_ifs at h <;> (simp only [Option.some.injEq] at h; subst h; exact ⟨rfl, rfl⟩)
      | cons i is =>
        obtain ⟨h1, h2⟩ := bidx_comp a b r hr is
        split_ifs at h with c1 c2 c3
        all_goals
          simp only [Option.some.injEq] at h
          subst h
          simp only [bidx, h1, h2, List.cons.injEq, and_true]
          constructor <;> split_ifs <;> simp_all

private theorem op_at {f : ℝ → ℝ → ℝ} {k : Kind} {a b r : Val} (h : Val.op f k a b = .ok r)
    (idx : List ℕ) : r.at idx = f (a.at idx) (b.at idx) := by
  unfold Val.op at h
  cases hs : broadcastRev a.shape b.shape with
  | none => rw [hs] at h; cases h
  | some s =>
    rw [hs] at h
    obtain ⟨h1, h2⟩ := bidx_comp _ _ _ hs idx
    simp only [Except.ok.injEq] at h
    subst h
    simp only [Val.at, h1, h2]

private theorem inplace_at {op : Val → Val → Py Val} {f : ℝ → ℝ → ℝ}
    (hop : ∀ a b r, op a b = .ok r → ∀ idx, r.at idx = f (a.at idx) (b.at idx))
    {a b r : Val} (h : Val.inplace op a b = .ok r) (idx : List ℕ) :
    r.at idx = f (a.at idx) (b.at idx) := by
  unfold Val.inplace at h
  cases hr : op a b with
  | error e => rw [hr] at h; cases h
  | ok r' =>
    rw [hr] at h
    simp only [Py.bind_ok, Py.pure_eq, Py.throw_eq] at h
    split_ifs at h with h1 h2 h3
    · cases h; exact hop _ _ _ hr idx
    · cases h; rw [← hop _ _ _ hr idx]; rfl

private theorem loop_at : ∀ (layers : List (Val × Val)) (acc r : Val),
    airyLoop layers acc = .ok r → ∀ idx,
      r.at idx = acc.at idx + ((layers.map fun l => (l.1.at idx, l.2.at idx)).map
        fun l => l.1 * l.2).sum
  | [], acc, r, h, idx => by
    simp only [airyLoop, Except.ok.injEq] at h; subst h; simp
  | (t, d) :: rest, acc, r, h, idx => by
    simp only [airyLoop] at h
    cases hp : t.mul d with
    | error e => rw [hp] at h; cases h
    | ok p =>
      rw [hp] at h; simp only [Py.bind_ok] at h
      cases ha : Val.inplace Val.add acc p with
      | error e => rw [ha] at h; cases h
      | ok acc' =>
        rw [ha] at h; simp only [Py.bind_ok] at h
        rw [loop_at rest acc' r h idx,
          inplace_at (f := (· + ·)) (fun a b r h idx => op_at h idx) ha idx, op_at hp idx]
        simp only [List.map_cons, List.sum_cons]; ring

/-- Whenever the function returns (whatever the numbers of layers, shapes and dtypes), the value at
every element is the one and only Moho depth for which the column of the layers, the basement
and the root has the mass of the reference column (no layers, basement at sea level, Moho at the
reference depth). `D` is any common depth of compensation. -/
theorem C43_balance (basement : Val) (layers : Option (List (Val × Val)))
    (rho_c rho_m ref moho : Val)
    (h : isostaticMohoAiry basement layers rho_c rho_m ref = .ok moho) (idx : List ℕ)
    (hc : rho_c.at idx ≠ 0) (hm : rho_m.at idx ≠ rho_c.at idx) (D M : ℝ) :
    columnMass ((layers.getD []).map fun l => (l.1.at idx, l.2.at idx)) (rho_c.at idx)
        (rho_m.at idx) (basement.at idx) M D
      = columnMass [] (rho_c.at idx) (rho_m.at idx) 0 (ref.at idx) D
    ↔ M = moho.at idx := by
  unfold isostaticMohoAiry at h
  -- the equivalent topography of the layers
  have hlet : ∃ l : Val, layersEquivalentTopography layers rho_c = .ok l ∧
      l.at idx * rho_c.at idx = (((layers.getD []).map fun l => (l.1.at idx, l.2.at idx)).map
        fun l => l.1 * l.2).sum := by
    cases layers with
    | none => exact ⟨Val.zero, rfl, by simp [Val.zero, Val.at]⟩
    | some ls =>
      cases ha : airyLoop ls Val.zero with
      | error e => simp only [layersEquivalentTopography, ha, Py.bind_error] at h; cases h
      | ok acc =>
        cases hd : Val.inplace Val.div acc rho_c with
        | error e =>
          simp only [layersEquivalentTopography, ha, hd, Py.bind_ok, Py.bind_error] at h; cases h
        | ok l =>
          refine ⟨l, by simp only [layersEquivalentTopography, ha, Py.bind_ok, hd], ?_⟩
          rw [inplace_at (f := (· / ·)) (fun a b r h idx => op_at h idx) hd idx,
            div_mul_cancel₀ _ hc, loop_at _ _ _ ha idx]
          simp [Val.zero, Val.at]
  obtain ⟨l, hl, hlv⟩ := hlet
  rw [hl] at h
  simp only [Py.bind_ok] at h
  cases h1 : basement.add l with
  | error e => rw [h1] at h; cases h
  | ok rock =>
  rw [h1] at h; simp only [Py.bind_ok] at h
  cases h2 : rho_m.sub rho_c with
  | error e => rw [h2] at h; cases h
  | ok diff =>
  rw [h2] at h; simp only [Py.bind_ok] at h
  cases h3 : rho_c.div diff with
  | error e => rw [h3] at h; cases h
  | ok scale =>
  rw [h3] at h; simp only [Py.bind_ok] at h
  cases h4 : rock.mul scale with
  | error e => rw [h4] at h; cases h
  | ok scaled =>
  rw [h4] at h; simp only [Py.bind_ok] at h
  have e1 := op_at h1 idx
  have e2 := op_at h2 idx
  have e3 := op_at h3 idx
  have e4 := op_at h4 idx
  have e5 := op_at h idx
  rw [e5, e4, e3, e2, e1]
  simp only [columnMass, List.map_nil, List.sum_nil]
  rw [← hlv]
  have hne : rho_m.at idx - rho_c.at idx ≠ 0 := sub_ne_zero.2 hm
  constructor
  · intro hh
    field_simp
    linear_combination -hh
  · intro hh
    subst hh
    field_simp
    ring

/-- With no load and the basement at sea level the Moho is at the reference depth. -/
theorem C43_no_load (basement : Val) (rho_c rho_m ref moho : Val)
    (h : isostaticMohoAiry basement none rho_c rho_m ref = .ok moho) (idx : List ℕ)
    (hb : basement.at idx = 0) : moho.at idx = ref.at idx := by
  unfold isostaticMohoAiry at h
  simp only [layersEquivalentTopography, Py.bind_ok] at h
  cases h1 : basement.add Val.zero with
  | error e => rw [h1] at h; cases h
  | ok rock =>
  rw [h1] at h; simp only [Py.bind_ok] at h
  cases h2 : rho_m.sub rho_c with
  | error e => rw [h2] at h; cases h
  | ok diff =>
  rw [h2] at h; simp only [Py.bind_ok] at h
  cases h3 : rho_c.div diff with
  | error e => rw [h3] at h; cases h
  | ok scale =>
  rw [h3] at h; simp only [Py.bind_ok] at h
  cases h4 : rock.mul scale with
  | error e => rw [h4] at h; cases h
  | ok scaled =>
  rw [h4] at h; simp only [Py.bind_ok] at h
  rw [op_at h idx, op_at h4 idx, op_at h1 idx, hb]
  simp [Val.zero, Val.at]

/-- A scalar or an array of shape `s`. -/
def Val.Fits (s : List ℕ) (v : Val) : Prop := v.shape = [] ∨ v.shape = s

private theorem broadcast_self : ∀ s : List ℕ, broadcastRev s s = some s
  | [] => rfl
  | x :: s => by simp [broadcastRev, broadcast_self s]

private theorem broadcast_nil (s : List ℕ) : broadcastRev s [] = some s := by
  cases s <;> rfl

private theorem op_fits {s : List ℕ} {f : ℝ → ℝ → ℝ} {k : Kind} {a b : Val} (ha : a.Fits s)
    (hb : b.Fits s) : ∃ r, Val.op f k a b = .ok r ∧ r.Fits s ∧ r.kind = k ∧
      (a.shape = [] → r.shape = b.shape) ∧ (a.shape = s → r.shape = s) := by
  unfold Val.op
  rcases ha with ha | ha <;> rcases hb with hb | hb <;>
    simp [ha, hb, broadcast_self, broadcast_nil, broadcastRev, Val.Fits]

private theorem inplace_fits {s : List ℕ} {f : ℝ → ℝ → ℝ} {kk : Val → Val → Kind} {a b : Val}
    (ha : a.Fits s) (hb : b.Fits s) (hk : a.shape = [] ∨ a.kind = .float) :
    ∃ r, Val.inplace (fun a b => Val.op f (kk a b) a b) a b = .ok r ∧ r.Fits s ∧
      (a.shape = [] → r.shape = b.shape ∧ r.kind = kk a b) ∧
      (a.kind = .float → a.shape ≠ [] → r.kind = .float) := by
  obtain ⟨r, h1, h2, h3, h4, h5⟩ := op_fits (f := f) (k := kk a b) ha hb
  unfold Val.inplace
  simp only [h1, Py.bind_ok, Py.pure_eq, Py.throw_eq]
  by_cases hs : a.shape = []
  · rw [if_pos hs]
    exact ⟨r, rfl, h2, fun _ => ⟨h4 hs, h3⟩, fun _ h => absurd hs h⟩
  · have hs' : a.shape = s := ha.resolve_left hs
    have hf := hk.resolve_left hs
    rw [if_neg hs, if_neg (by rw [h5 hs', hs']; simp), if_neg (by rw [hf]; simp)]
    exact ⟨_, rfl, h2, fun h => absurd h hs, fun h _ => h⟩

private theorem loop_fits {s : List ℕ} : ∀ (layers : List (Val × Val)) (acc : Val), acc.Fits s →
    (acc.shape = [] ∨ acc.kind = .float) →
    (∀ l ∈ layers, l.1.Fits s ∧ l.2.Fits s ∧
      ((l.1.shape = [] ∧ l.2.shape = []) ∨ l.1.kind = .float ∨ l.2.kind = .float)) →
    ∃ r, airyLoop layers acc = .ok r ∧ r.Fits s ∧ (r.shape = [] ∨ r.kind = .float)
  | [], acc, h1, h2, _ => ⟨acc, rfl, h1, h2⟩
  | (t, d) :: rest, acc, h1, h2, h3 => by
    obtain ⟨ht, hd, hk⟩ := h3 (t, d) List.mem_cons_self
    obtain ⟨p, hp, hpf, hpk, hp1, -⟩ := op_fits (f := (· * ·)) (k := t.kind.join d.kind) ht hd
    have hpk' : p.shape = [] ∨ p.kind = .float := by
      rcases hk with hk | hk | hk
      · left; rw [hp1 hk.1, hk.2]
      · right; rw [hpk]; simp only at hk; rw [hk]; rfl
      · right; rw [hpk]; simp only at hk; rw [hk]; cases t.kind <;> rfl
    obtain ⟨acc', ha, haf, ha1, ha2⟩ := inplace_fits (f := (· + ·))
      (kk := fun a b => a.kind.join b.kind) h1 hpf h2
    have hacc' : acc'.shape = [] ∨ acc'.kind = .float := by
      by_cases hs : acc.shape = []
      · rw [(ha1 hs).1, (ha1 hs).2]
        rcases hpk' with h | h
        · exact Or.inl h
        · right; rw [h]; cases acc.kind <;> rfl
      · exact Or.inr (ha2 (h2.resolve_left hs) hs)
    obtain ⟨r, hr⟩ := loop_fits rest acc' haf hacc'
      (fun l hl => h3 l (List.mem_cons_of_mem _ hl))
    refine ⟨r, ?_, hr.2⟩
    have hp' : t.mul d = .ok p := hp
    have ha' : Val.inplace Val.add acc p = .ok acc' := ha
    simp only [airyLoop, hp', Py.bind_ok, ha', hr.1]

/-- The full claim: the function returns for every dtype when all inputs are scalars or arrays of
one shape. It is false, see the next theorem. -/
def C43_full : Prop :=
  ∀ (s : List ℕ) (basement : Val) (layers : List (Val × Val)) (rho_c rho_m ref : Val),
    basement.Fits s → (∀ l ∈ layers, l.1.Fits s ∧ l.2.Fits s) → rho_c.Fits s → rho_m.Fits s →
    ref.Fits s → ∃ moho, isostaticMohoAiry basement (some layers) rho_c rho_m ref = .ok moho

/-- What holds: it returns when every layer is given by scalars only or has a float array or
float scalar among its thickness and density. -/
theorem C43_returns_partial (s : List ℕ) (basement : Val) (layers : Option (List (Val × Val)))
    (rho_c rho_m ref : Val) (hb : basement.Fits s)
    (hl : ∀ ls ∈ layers, ∀ l ∈ ls, l.1.Fits s ∧ l.2.Fits s ∧
      ((l.1.shape = [] ∧ l.2.shape = []) ∨ l.1.kind = .float ∨ l.2.kind = .float))
    (hc : rho_c.Fits s) (hm : rho_m.Fits s) (hr : ref.Fits s) :
    ∃ moho, isostaticMohoAiry basement layers rho_c rho_m ref = .ok moho := by
  have hz : Val.zero.Fits s := Or.inl rfl
  have hlet : ∃ l : Val, layersEquivalentTopography layers rho_c = .ok l ∧ l.Fits s := by
    cases layers with
    | none => exact ⟨_, rfl, hz⟩
    | some ls =>
      obtain ⟨acc, h1, h2, h3⟩ := loop_fits ls Val.zero hz (Or.inl rfl) (hl ls rfl)
      obtain ⟨r, h4, h5, -⟩ := inplace_fits (f := (· / ·)) (kk := fun _ _ => .float) h2 hc h3
      have h4' : Val.inplace Val.div acc rho_c = .ok r := h4
      exact ⟨r, by simp only [layersEquivalentTopography, h1, Py.bind_ok, h4'], h5⟩
  obtain ⟨l, hl1, hl2⟩ := hlet
  obtain ⟨rock, g1, g1', -⟩ := op_fits (f := (· + ·)) (k := basement.kind.join l.kind) hb hl2
  obtain ⟨diff, g2, g2', -⟩ := op_fits (f := (· - ·)) (k := rho_m.kind.join rho_c.kind) hm hc
  obtain ⟨scale, g3, g3', -⟩ := op_fits (f := (· / ·)) (k := .float) hc g2'
  obtain ⟨scaled, g4, g4', -⟩ := op_fits (f := (· * ·)) (k := rock.kind.join scale.kind) g1' g3'
  obtain ⟨moho, g5, -⟩ := op_fits (f := (· + ·)) (k := scaled.kind.join ref.kind) g4' hr
  refine ⟨moho, ?_⟩
  unfold isostaticMohoAiry
  rw [hl1]
  have g1 : basement.add l = .ok rock := g1
  have g2 : rho_m.sub rho_c = .ok diff := g2
  have g3 : rho_c.div diff = .ok scale := g3
  have g4 : rock.mul scale = .ok scaled := g4
  have g5 : scaled.add ref = .ok moho := g5
  simp only [Py.bind_ok, g1, g2, g3, g4, g5]

/-- The division in place fails for every integer array thickness with an integer density. -/
theorem C43_integer_arrays_raise (s : List ℕ) (hs : s ≠ []) (basement : Val) (t d : Val)
    (rho_c rho_m ref : Val) (ht : t.kind = .int) (hd : d.kind = .int) (hts : t.shape = s)
    (hds : d.Fits s) (hc : rho_c.Fits s) :
    isostaticMohoAiry basement (some [(t, d)]) rho_c rho_m ref = .error .UFuncTypeError := by
  obtain ⟨p, hp, hpf, hpk, -, hp1⟩ := op_fits (f := (· * ·)) (k := t.kind.join d.kind)
    (Or.inr hts) hds
  have hps := hp1 hts
  obtain ⟨acc, ha, haf, ha1, -⟩ := inplace_fits (f := (· + ·))
    (kk := fun a b => a.kind.join b.kind) (a := Val.zero) (Or.inl rfl) hpf (Or.inl rfl)
  obtain ⟨hash, hak⟩ := ha1 rfl
  have hak' : acc.kind = .int := by
    rw [hak, hpk, ht, hd]; rfl
  have hash' : acc.shape = s := by rw [hash, hps]
  obtain ⟨q, hq, hqf, hqk, -, hq1⟩ := op_fits (f := (· / ·)) (k := .float) (Or.inr hash') hc
  have hq' : acc.div rho_c = .ok q := hq
  have hp' : t.mul d = .ok p := hp
  have ha' : Val.inplace Val.add Val.zero p = .ok acc := ha
  have hdiv : Val.inplace Val.div acc rho_c = .error .UFuncTypeError := by
    unfold Val.inplace
    simp only [hq', Py.bind_ok, Py.throw_eq, Py.pure_eq]
    rw [if_neg (by rw [hash']; exact hs), if_neg (by rw [hq1 hash', hash']; simp),
      if_pos ⟨hqk, hak'⟩]
  unfold isostaticMohoAiry
  simp only [layersEquivalentTopography, airyLoop, hp', ha', Py.bind_ok, hdiv, Py.bind_error]

/-- So the full claim is false (three integer thicknesses of 1000 m and density 2300). -/
theorem C43_not_all_dtypes : ¬ C43_full := by
  intro h
  have h1 := C43_integer_arrays_raise [3] (by simp) ⟨.float, [3], fun _ => 0⟩
    ⟨.int, [3], fun _ => 1000⟩ ⟨.int, [], fun _ => 2300⟩ ⟨.float, [], fun _ => 2800⟩
    ⟨.float, [], fun _ => 3300⟩ ⟨.float, [], fun _ => 30000⟩ rfl rfl rfl (Or.inl rfl) (Or.inl rfl)
  obtain ⟨m, h2⟩ := h [3] ⟨.float, [3], fun _ => 0⟩ [(⟨.int, [3], fun _ => 1000⟩,
    ⟨.int, [], fun _ => 2300⟩)] ⟨.float, [], fun _ => 2800⟩
    ⟨.float, [], fun _ => 3300⟩ ⟨.float, [], fun _ => 30000⟩ (Or.inr rfl)
    (by simp [Val.Fits]) (Or.inl rfl) (Or.inl rfl) (Or.inl rfl)
  rw [h1] at h2
  cases h2

/-- Two layers in an ocean basin: sediments with a float thickness grid and water with a scalar
thickness meet the hypotheses of the partial theorem. -/
example : ∃ moho, isostaticMohoAiry ⟨.float, [3], fun _ => -3400⟩
    (some [(⟨.float, [3], fun _ => 400⟩, ⟨.int, [], fun _ => 2200⟩),
      (⟨.int, [], fun _ => 3000⟩, ⟨.int, [], fun _ => 1040⟩)])
    ⟨.float, [], fun _ => 2800⟩ ⟨.float, [], fun _ => 3300⟩ ⟨.float, [], fun _ => 30000⟩
    = .ok moho :=
  C43_returns_partial [3] _ _ _ _ _ (Or.inr rfl)
    (by
      intro ls hls l hl
      cases hls
      simp only [List.mem_cons, List.not_mem_nil, or_false] at hl
      rcases hl with rfl | rfl <;> simp [Val.Fits])
    (Or.inl rfl) (Or.inl rfl) (Or.inl rfl)

/-- The element `idx` (last axis first) of an operand of a broadcast operation, by the rule of numpy: an axis of
length 1 is repeated and axes that the operand does not have are ignored. -/
def element (v : Val) (idx : List ℕ) : ℝ :=
  v.data (List.zipWith (fun n i => if n = 1 then 0 else i) v.shape idx)

private theorem bidx_zip : ∀ (s idx : List ℕ),
    bidx s idx = List.zipWith (fun n i => if n = 1 then 0 else i) s idx
  | [], _ => by simp [bidx]
  | _ :: _, [] => by simp [bidx]
  | n :: s, i :: is => by simp [bidx, bidx_zip s is]

private theorem at_inside (v : Val) (idx : List ℕ) (h : List.Forall₂ (· < ·) idx v.shape) :
    v.at idx = v.data idx := by
  have : ∀ (idx s : List ℕ), List.Forall₂ (· < ·) idx s → bidx s idx = idx := by
    intro idx s h
    induction h with
    | nil => rfl
    | cons hx _ ih =>
      simp only [bidx, ih, List.cons.injEq, and_true]
      split_ifs with h1 <;> omega
  simp only [Val.at, this idx v.shape h]

/-- The same for the elements of the arrays: for every index within the shape of the result, the element of
the result is the one depth that balances the column of the elements of the operands, under broadcasting. -/
theorem C43_elements (basement : Val) (layers : Option (List (Val × Val)))
    (rho_c rho_m ref moho : Val)
    (h : isostaticMohoAiry basement layers rho_c rho_m ref = .ok moho) (idx : List ℕ)
    (hidx : List.Forall₂ (· < ·) idx moho.shape)
    (hc : element rho_c idx ≠ 0) (hm : element rho_m idx ≠ element rho_c idx) (D M : ℝ) :
    columnMass ((layers.getD []).map fun l => (element l.1 idx, element l.2 idx)) (element rho_c idx)
        (element rho_m idx) (element basement idx) M D
      = columnMass [] (element rho_c idx) (element rho_m idx) 0 (element ref idx) D
    ↔ M = moho.data idx := by
  have he : ∀ v : Val, element v idx = v.at idx := fun v => by
    unfold element Val.at; rw [bidx_zip]
  simp only [he] at hc hm ⊢
  rw [← at_inside moho idx hidx]
  exact C43_balance basement layers rho_c rho_m ref moho h idx hc hm D M

private theorem op_error {f : ℝ → ℝ → ℝ} {k : Kind} {a b : Val} {e : PyErr}
    (h : Val.op f k a b = .error e) : e = .ValueError := by
  unfold Val.op at h
  split at h <;> cases h
  rfl

private theorem inplace_error {op : Val → Val → Py Val} {a b : Val} {e : PyErr}
    (hop : ∀ e, op a b = .error e → e = .ValueError) (h : Val.inplace op a b = .error e) :
    e = .ValueError ∨ e = .UFuncTypeError := by
  unfold Val.inplace at h
  cases hr : op a b with
  | error e' => rw [hr] at h; cases h; exact Or.inl (hop _ hr)
  | ok r =>
    rw [hr] at h
    simp only [Py.bind_ok, Py.pure_eq, Py.throw_eq] at h
    split_ifs at h
    · cases h; exact Or.inl rfl
    · cases h; exact Or.inr rfl

private theorem loop_error : ∀ (layers : List (Val × Val)) (acc : Val) (e : PyErr),
    airyLoop layers acc = .error e → e = .ValueError ∨ e = .UFuncTypeError
  | [], acc, e, h => by cases h
  | (t, d) :: rest, acc, e, h => by
    simp only [airyLoop] at h
    cases hp : t.mul d with
    | error e' => rw [hp] at h; cases h; exact Or.inl (op_error hp)
    | ok p =>
      rw [hp] at h; simp only [Py.bind_ok] at h
      cases ha : Val.inplace Val.add acc p with
      | error e' => rw [ha] at h; cases h; exact inplace_error (fun e he => op_error he) ha
      | ok acc' =>
        rw [ha] at h; simp only [Py.bind_ok] at h
        exact loop_error rest acc' e h

/-- The only exceptions, for whatever numbers, dtypes and shapes: `ValueError` (shapes) and the type error of
an operation in place. -/
theorem C43_exceptions (basement : Val) (layers : Option (List (Val × Val)))
    (rho_c rho_m ref : Val) (e : PyErr)
    (h : isostaticMohoAiry basement layers rho_c rho_m ref = .error e) :
    e = .ValueError ∨ (e = .UFuncTypeError ∧ layers ≠ none) := by
  unfold isostaticMohoAiry at h
  cases hl : layersEquivalentTopography layers rho_c with
  | error e' =>
    rw [hl] at h; cases h
    cases layers with
    | none => cases hl
    | some ls =>
      have : e = .ValueError ∨ e = .UFuncTypeError := by
        simp only [layersEquivalentTopography] at hl
        cases ha : airyLoop ls Val.zero with
        | error e' => rw [ha] at hl; cases hl; exact loop_error ls _ _ ha
        | ok acc =>
          rw [ha] at hl; simp only [Py.bind_ok] at hl
          exact inplace_error (fun e he => op_error he) hl
      rcases this with h | h
      · exact Or.inl h
      · exact Or.inr ⟨h, by simp⟩
  | ok l =>
  rw [hl] at h; simp only [Py.bind_ok] at h
  left
  cases h1 : basement.add l with
  | error e => rw [h1] at h; cases h; exact op_error h1
  | ok rock =>
  rw [h1] at h; simp only [Py.bind_ok] at h
  cases h2 : rho_m.sub rho_c with
  | error e => rw [h2] at h; cases h; exact op_error h2
  | ok diff =>
  rw [h2] at h; simp only [Py.bind_ok] at h
  cases h3 : rho_c.div diff with
  | error e => rw [h3] at h; cases h; exact op_error h3
  | ok scale =>
  rw [h3] at h; simp only [Py.bind_ok] at h
  cases h4 : rock.mul scale with
  | error e => rw [h4] at h; cases h; exact op_error h4
  | ok scaled =>
  rw [h4] at h; simp only [Py.bind_ok] at h
  exact op_error h

/-- `ValueError` when the thickness and the density of the first layer cannot be broadcast together. -/
theorem C43_layer_shapes (basement : Val) (t d : Val) (rest : List (Val × Val)) (rho_c rho_m ref : Val)
    (h : broadcastRev t.shape d.shape = none) :
    isostaticMohoAiry basement (some ((t, d) :: rest)) rho_c rho_m ref = .error .ValueError := by
  have : t.mul d = .error .ValueError := by unfold Val.mul Val.op; rw [h]
  unfold isostaticMohoAiry
  simp only [layersEquivalentTopography, airyLoop, this, Py.bind_error]

/-- The sum over the layers is done in place in the product of the first one: `ValueError` when a second
layer is an array of a larger shape than the first array, although the shapes can be broadcast. -/
theorem C43_second_layer_larger (basement : Val) (t d t' d' : Val) (rest : List (Val × Val))
    (rho_c rho_m ref : Val) (n : ℕ) (hn : n ≠ 1) (ht : t.shape = [1]) (hd : d.shape = [])
    (ht' : t'.shape = [n]) (hd' : d'.shape = []) :
    isostaticMohoAiry basement (some ((t, d) :: (t', d') :: rest)) rho_c rho_m ref =
      .error .ValueError := by
  have h1 : ∃ p, t.mul d = .ok p ∧ p.shape = [1] := by
    refine ⟨_, by unfold Val.mul Val.op; rw [ht, hd]; rfl, rfl⟩
  obtain ⟨p, hp, hps⟩ := h1
  have h2 : ∃ p, t'.mul d' = .ok p ∧ p.shape = [n] := by
    refine ⟨_, by unfold Val.mul Val.op; rw [ht', hd']; rfl, rfl⟩
  obtain ⟨p', hp', hps'⟩ := h2
  have h3 : ∃ a, Val.inplace Val.add Val.zero p = .ok a ∧ a.shape = [1] := by
    obtain ⟨r, hr, -, hr1, -⟩ := inplace_fits (s := [1]) (f := (· + ·))
      (kk := fun a b => a.kind.join b.kind) (a := Val.zero) (b := p) (Or.inl rfl) (Or.inr hps) (Or.inl rfl)
    exact ⟨r, hr, (hr1 rfl).1.trans hps⟩
  obtain ⟨a, ha, has⟩ := h3
  have h4 : Val.inplace Val.add a p' = .error .ValueError := by
    have hb : broadcastRev [1] [n] = some [n] := by simp [broadcastRev, Ne.symm hn]
    have : ∃ r, a.add p' = .ok r ∧ r.shape = [n] :=
      ⟨_, by unfold Val.add Val.op; rw [has, hps', hb], rfl⟩
    obtain ⟨r, hr, hrs⟩ := this
    unfold Val.inplace
    simp only [hr, Py.bind_ok, Py.pure_eq, Py.throw_eq]
    rw [if_neg (by rw [has]; simp), if_pos (by rw [has, hrs]; simpa using hn)]
  unfold isostaticMohoAiry
  simp only [layersEquivalentTopography, airyLoop, hp, hp', ha, h4, Py.bind_ok, Py.bind_error]

/-- Arrays of shapes (2,) and (3,): `ValueError`. -/
example : isostaticMohoAiry ⟨.float, [], fun _ => 0⟩
    (some [(⟨.float, [2], fun _ => 400⟩, ⟨.float, [3], fun _ => 2200⟩)])
    ⟨.float, [], fun _ => 2800⟩ ⟨.float, [], fun _ => 3300⟩ ⟨.float, [], fun _ => 30000⟩
    = .error .ValueError :=
  C43_layer_shapes _ _ _ _ _ _ _ (by decide)

/-- A row of thicknesses and a column of densities: the element (1, 2) of the result. -/
example : List.Forall₂ (· < ·) [2, 1] [3, 2] ∧
    element ⟨.float, [3, 1], fun i => (i.getD 0 0 : ℝ) * 100⟩ [2, 1] = 200 := by
  constructor
  · simp
  · norm_num [element]

/-! ## C72: vertices of the prisms -/

private theorem range_mul_map {α : Type} (f : ℕ → α) : ∀ n : ℕ,
    (List.range (n * 8)).map f = (List.range n).flatMap fun k =>
      [f (k * 8), f (k * 8 + 1), f (k * 8 + 2), f (k * 8 + 3), f (k * 8 + 4), f (k * 8 + 5),
        f (k * 8 + 6), f (k * 8 + 7)]
  | 0 => rfl
  | n + 1 => by
    rw [List.range_succ, List.flatMap_append, ← range_mul_map f n, Nat.add_mul, Nat.one_mul]
    rw [show n * 8 + 8 = n * 8 + 1 + 1 + 1 + 1 + 1 + 1 + 1 + 1 from rfl]
    simp only [List.range_succ, List.map_append, List.map_cons, List.map_nil, List.append_assoc,
      List.flatMap_cons, List.flatMap_nil, List.append_nil, List.cons_append, List.nil_append]

private theorem flatMap_range_get {α β : Type} : ∀ (l : List β) (g : β → List α)
    (F : ℕ → List α), (∀ k p, l[k]? = some p → F k = g p) →
    (List.range l.length).flatMap F = l.flatMap g
  | [], _, _, _ => rfl
  | p :: l, g, F, h => by
    rw [List.length_cons, List.range_succ_eq_map, List.flatMap_cons, List.flatMap_map,
      List.flatMap_cons, h 0 p rfl]
    congr 1
    exact flatMap_range_get l g _ (fun k q hk => h (k + 1) q (by simpa using hk))

private theorem foldl_apply {α β : Type} (k v c : ℕ) (step : (ℕ → ℕ → ℕ → α) → β → ℕ → ℕ → ℕ → α)
    (step' : α → β → α) (h : ∀ f b, step f b k v c = step' (f k v c) b) :
    ∀ (l : List β) (f : ℕ → ℕ → ℕ → α), l.foldl step f k v c = l.foldl step' (f k v c)
  | [], _ => rfl
  | b :: l, f => by
    rw [List.foldl_cons, List.foldl_cons, foldl_apply k v c step step' h l, h]

private theorem vertices_at {α : Type} (junk : ℕ → ℕ → ℕ → α) (prisms : List (Fin 6 → α)) (k v c : ℕ)
    (p : Fin 6 → α) (hk : prisms[k]? = some p) :
    vertexArray junk prisms k v c
    = vertexIndices.zipIdx.foldl (fun x bi => bi.1.foldl (fun x vertex =>
        if v = vertex ∧ c = bi.2 / 2 then p (Fin.ofNat 6 bi.2) else x) x) (junk k v c) := by
  apply foldl_apply
  intro f b
  apply foldl_apply k v c _ (fun x vertex =>
    if v = vertex ∧ c = b.2 / 2 then p (Fin.ofNat 6 b.2) else x)
  intro f vertex
  simp only [hk]

/-- The vertex array is the concatenation of the eight corners of each prism, in the order of the
VTK hexahedron, whatever was in the uninitialised memory. -/
theorem C72_vertices {α : Type} (junk : ℕ → ℕ → ℕ → α) (prisms : List (Fin 6 → α)) :
    prismsBoundariesToVertices junk prisms
      = prisms.flatMap fun p => corners (p 0) (p 1) (p 2) (p 3) (p 4) (p 5) := by
  unfold prismsBoundariesToVertices
  simp only [range_mul_map]
  apply flatMap_range_get
  intro k p hk
  have hd : ∀ j, j < 8 → (k * 8 + j) / 8 = k ∧ (k * 8 + j) % 8 = j := by
    intro j hj; omega
  have hd0 := hd 0 (by norm_num)
  rw [Nat.add_zero] at hd0
  simp only [(hd 1 (by norm_num)).1, (hd 1 (by norm_num)).2, (hd 2 (by norm_num)).1,
    (hd 2 (by norm_num)).2, (hd 3 (by norm_num)).1, (hd 3 (by norm_num)).2,
    (hd 4 (by norm_num)).1, (hd 4 (by norm_num)).2, (hd 5 (by norm_num)).1,
    (hd 5 (by norm_num)).2, (hd 6 (by norm_num)).1, (hd 6 (by norm_num)).2,
    (hd 7 (by norm_num)).1, (hd 7 (by norm_num)).2, hd0.1, hd0.2]
  simp only [vertices_at junk prisms k _ _ p hk]
  rfl

/-- The eight corners are those of the box, each once: every choice of a west/east, a south/north
and a bottom/top boundary appears exactly once. -/
theorem C72_corners (w e s n b t : ℝ) (h1 : w < e) (h2 : s < n) (h3 : b < t) :
    (corners w e s n b t).Nodup ∧ ∀ x y z, [x, y, z] ∈ corners w e s n b t ↔
      (x = w ∨ x = e) ∧ (y = s ∨ y = n) ∧ (z = b ∨ z = t) := by
  constructor
  · simp [corners, h1.ne, h2.ne, h3.ne, h1.ne', h2.ne']
  · intro x y z
    simp only [corners, List.mem_cons, List.cons.injEq, and_true, List.not_mem_nil, or_false]
    tauto

example : (-1 : ℝ) < 1 ∧ (-2 : ℝ) < 2 ∧ (-3 : ℝ) < 3 := by norm_num

/-- The cells of the grid: cell `k` joins the vertices that are the corners of prism `k`, and the
cell data are the given properties in the given order, when each of them has at most one
dimension; otherwise ValueError. -/
theorem C72_grid {α : Type} (junk : ℕ → ℕ → ℕ → α) (prisms : List (Fin 6 → α))
    (props : List (String × List ℕ × List α)) :
    (∀ p ∈ props, p.2.1.length ≤ 1) →
    ∃ g, prismToPyvista junk prisms (some props) = .ok g ∧
      g.cells.map (fun cell => cell.map fun m => g.points[m]?)
        = prisms.map (fun p => (corners (p 0) (p 1) (p 2) (p 3) (p 4) (p 5)).map some) ∧
      g.cellData = props.map fun p => (p.1, p.2.2) := by
  intro hp
  have hfold : ∀ (props : List (String × List ℕ × List α)) (g : PvGrid α),
      (∀ p ∈ props, p.2.1.length ≤ 1) →
      props.foldlM (fun grid p =>
        if p.2.1.length > 1 then throw .ValueError
        else pure { grid with cellData := grid.cellData ++ [(p.1, p.2.2)] } :
          PvGrid α → String × List ℕ × List α → Py (PvGrid α)) g
        = .ok { g with cellData := g.cellData ++ props.map fun p => (p.1, p.2.2) } := by
    intro props
    induction props with
    | nil => intro g _; simp [Py.pure_eq]
    | cons q props ih =>
      intro g h
      rw [List.foldlM_cons, if_neg (not_lt.2 (h q List.mem_cons_self))]
      rw [Py.pure_eq, Py.bind_ok, ih _ (fun p hp => h p (List.mem_cons_of_mem _ hp))]
      simp
  refine ⟨_, hfold props _ hp, ?_, by simp⟩
  simp only [List.map_map]
  rw [C72_vertices]
  have key : ∀ (l : List (Fin 6 → α)) (k : ℕ) (p : Fin 6 → α), l[k]? = some p → ∀ j, j < 8 →
      (l.flatMap fun p => corners (p 0) (p 1) (p 2) (p 3) (p 4) (p 5))[k * 8 + j]?
        = (corners (p 0) (p 1) (p 2) (p 3) (p 4) (p 5))[j]? := by
    intro l
    induction l with
    | nil => intro k p h; simp at h
    | cons q l ih =>
      intro k p h j hj
      rw [List.flatMap_cons]
      cases k with
      | zero =>
        simp only [List.getElem?_cons_zero, Option.some.injEq] at h
        subst h
        rw [List.getElem?_append_left (by simpa [corners] using hj)]
        simp
      | succ k =>
        rw [List.getElem?_append_right (by simp [corners]; omega)]
        simp only [List.getElem?_cons_succ] at h
        rw [← ih k p h j hj]
        congr 1
        simp [corners]; omega
  apply List.ext_getElem?
  intro k
  simp only [List.getElem?_map]
  by_cases hk : k < prisms.length
  · rw [List.getElem?_range hk, List.getElem?_eq_getElem hk]
    simp only [Option.map_some, Function.comp, Option.some.injEq]
    have h := key prisms k _ (List.getElem?_eq_getElem hk)
    simp only [List.map_map, Function.comp_def]
    have : (List.range 8) = [0, 1, 2, 3, 4, 5, 6, 7] := rfl
    rw [this]
    simp only [List.map_cons, List.map_nil]
    rw [h 0 (by norm_num), h 1 (by norm_num), h 2 (by norm_num), h 3 (by norm_num),
      h 4 (by norm_num), h 5 (by norm_num), h 6 (by norm_num), h 7 (by norm_num)]
    rfl
  · rw [List.getElem?_eq_none (by simpa using hk), List.getElem?_eq_none (by simpa using hk)]
    rfl

/-- A property with more than one dimension is refused. -/
theorem C72_multidimensional_property {α : Type} (junk : ℕ → ℕ → ℕ → α) (prisms : List (Fin 6 → α))
    (props : List (String × List ℕ × List α)) (h : ∃ p ∈ props, 1 < p.2.1.length) :
    prismToPyvista junk prisms (some props) = .error .ValueError := by
  obtain ⟨p, hp, hlen⟩ := h
  unfold prismToPyvista
  simp only
  generalize (⟨_, _, []⟩ : PvGrid α) = g
  induction props generalizing g with
  | nil => simp at hp
  | cons q props ih =>
    rw [List.foldlM_cons]
    by_cases hq : 1 < q.2.1.length
    · rw [if_pos hq]; rfl
    · rw [if_neg hq, Py.pure_eq, Py.bind_ok]
      apply ih
      rcases List.mem_cons.1 hp with rfl | h
      · exact absurd hlen hq
      · exact h

example : ∃ p ∈ [("density", ([2, 2], [(1 : ℝ), 2, 3, 4]))], 1 < p.2.1.length := by
  simp
example : ∀ p ∈ [("density", ([2], [(2670 : ℝ), 3300]))], p.2.1.length ≤ 1 := by simp

end Verif.Utils
