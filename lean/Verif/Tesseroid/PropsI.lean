import Verif.Tesseroid.PropsH
import Mathlib.Analysis.SpecialFunctions.Trigonometric.Bounds
import Mathlib.Analysis.Calculus.Deriv.MeanValue
import Mathlib.Analysis.Real.Pi.Bounds

/-!
The mass of the point masses that replace a tesseroid (C17) and bounds for the potential (C110).
-/

namespace Verif.Tesseroid
open Verif.Distance Verif.Forward Verif.Engine

/-! ### specification -/

/-- Volume of the body described by the boundaries: longitudes from `w` eastwards to `e`. -/
noncomputable def Tess.bodyVolume (t : Tess) : ℝ :=
  (∫ r in t.bottom..t.top, r ^ 2) * (∫ φ in radians t.s..radians t.n, Real.cos φ) *
    radians (eastEnd t.w t.e - t.w)

/-- Mass of tesseroids with densities. -/
noncomputable def massOf (srcs : List (Tess × ℝ)) : ℝ := (srcs.map fun s => s.2 * s.1.bodyVolume).sum

/-! ### bounds for the sine and the cosine -/

theorem nonneg_of_deriv {f f' : ℝ → ℝ} (hf : ∀ x, HasDerivAt f (f' x) x) (h0 : f 0 = 0)
    (h' : ∀ x, 0 ≤ x → 0 ≤ f' x) (x : ℝ) (hx : 0 ≤ x) : 0 ≤ f x := by
  have hm : MonotoneOn f (Set.Ici 0) := by
    apply monotoneOn_of_deriv_nonneg (convex_Ici 0)
    · exact fun y _ => (hf y).continuousAt.continuousWithinAt
    · exact fun y _ => (hf y).differentiableAt.differentiableWithinAt
    · intro y hy
      rw [interior_Ici] at hy
      rw [(hf y).deriv]
      exact h' y (le_of_lt hy)
  rw [← h0]
  exact hm (Set.mem_Ici.2 le_rfl) (Set.mem_Ici.2 hx) hx

theorem le_sin3 (x : ℝ) (hx : 0 ≤ x) : x - x ^ 3 / 6 ≤ Real.sin x := by
  rcases hx.eq_or_lt with rfl | h
  · simp
  · exact (Real.sin_gt_sub_cube h).le

theorem cos_le4 (x : ℝ) (hx : 0 ≤ x) : Real.cos x ≤ 1 - x ^ 2 / 2 + x ^ 4 / 24 := by
  have := nonneg_of_deriv (f := fun x => 1 - x ^ 2 / 2 + x ^ 4 / 24 - Real.cos x)
    (f' := fun x => Real.sin x - (x - x ^ 3 / 6)) (by
      intro x
      have h := ((((hasDerivAt_const x (1 : ℝ)).sub ((hasDerivAt_pow 2 x).div_const 2)).add
        ((hasDerivAt_pow 4 x).div_const 24)).sub (Real.hasDerivAt_cos x))
      refine h.congr_deriv ?_
      push_cast; ring) (by simp) (fun x hx => by linarith [le_sin3 x hx]) x hx
  linarith

theorem sin_le5 (x : ℝ) (hx : 0 ≤ x) : Real.sin x ≤ x - x ^ 3 / 6 + x ^ 5 / 120 := by
  have := nonneg_of_deriv (f := fun x => x - x ^ 3 / 6 + x ^ 5 / 120 - Real.sin x)
    (f' := fun x => 1 - x ^ 2 / 2 + x ^ 4 / 24 - Real.cos x) (by
      intro x
      have h := ((((hasDerivAt_id x)).sub ((hasDerivAt_pow 3 x).div_const 6)).add
        ((hasDerivAt_pow 5 x).div_const 120)).sub (Real.hasDerivAt_sin x)
      refine h.congr_deriv ?_
      push_cast; ring) (by simp) (fun x hx => by linarith [cos_le4 x hx]) x hx
  linarith

theorem le_cos6 (x : ℝ) (hx : 0 ≤ x) : 1 - x ^ 2 / 2 + x ^ 4 / 24 - x ^ 6 / 720 ≤ Real.cos x := by
  have := nonneg_of_deriv (f := fun x => Real.cos x - (1 - x ^ 2 / 2 + x ^ 4 / 24 - x ^ 6 / 720))
    (f' := fun x => x - x ^ 3 / 6 + x ^ 5 / 120 - Real.sin x) (by
      intro x
      have h := (Real.hasDerivAt_cos x).sub ((((hasDerivAt_const x (1 : ℝ)).sub
        ((hasDerivAt_pow 2 x).div_const 2)).add
        ((hasDerivAt_pow 4 x).div_const 24)).sub ((hasDerivAt_pow 6 x).div_const 720))
      refine h.congr_deriv ?_
      push_cast; ring) (by simp) (fun x hx => by linarith [sin_le5 x hx]) x hx
  linarith

theorem le_sin7 (x : ℝ) (hx : 0 ≤ x) : x - x ^ 3 / 6 + x ^ 5 / 120 - x ^ 7 / 5040 ≤ Real.sin x := by
  have := nonneg_of_deriv (f := fun x => Real.sin x - (x - x ^ 3 / 6 + x ^ 5 / 120 - x ^ 7 / 5040))
    (f' := fun x => Real.cos x - (1 - x ^ 2 / 2 + x ^ 4 / 24 - x ^ 6 / 720)) (by
      intro x
      have h := (Real.hasDerivAt_sin x).sub ((((hasDerivAt_id x)).sub ((hasDerivAt_pow 3 x).div_const 6)).add
        ((hasDerivAt_pow 5 x).div_const 120) |>.sub ((hasDerivAt_pow 7 x).div_const 5040))
      refine h.congr_deriv ?_
      push_cast; ring) (by simp) (fun x hx => by linarith [le_cos6 x hx]) x hx
  linarith

/-- The two point rule for the cosine on an interval of half length `x`. -/
theorem rule_bounds (x : ℝ) (hx : 0 ≤ x) (hpi : x ≤ Real.pi / 2) :
    x * Real.cos (x / Real.sqrt 3) ≤ Real.sin x ∧
    (1 - x ^ 4 / 150) * Real.sin x ≤ x * Real.cos (x / Real.sqrt 3) := by
  have hs3 : Real.sqrt 3 ^ 2 = 3 := Real.sq_sqrt (by norm_num)
  have hy : 0 ≤ x / Real.sqrt 3 := by positivity
  have e2 : (x / Real.sqrt 3) ^ 2 = x ^ 2 / 3 := by rw [div_pow, hs3]
  have e4 : (x / Real.sqrt 3) ^ 4 = x ^ 4 / 9 := by
    rw [show (4 : ℕ) = 2 * 2 from rfl, pow_mul, e2]; ring
  have e6 : (x / Real.sqrt 3) ^ 6 = x ^ 6 / 27 := by
    rw [show (6 : ℕ) = 2 * 3 from rfl, pow_mul, e2]; ring
  have hpi2 : x ^ 2 ≤ 2.5 := by
    have := Real.pi_lt_d2
    have h1 : x ≤ 1.575 := by linarith
    nlinarith
  constructor
  · have h1 := cos_le4 _ hy
    have h2 := le_sin7 x hx
    rw [e2, e4] at h1
    have h3 := mul_le_mul_of_nonneg_left h1 hx
    have h5 : 0 ≤ x ^ 5 := by positivity
    nlinarith [mul_nonneg h5 (by linarith : (0 : ℝ) ≤ 2.5 - x ^ 2)]
  · have h1 := le_cos6 _ hy
    have h2 := sin_le5 x hx
    have h4 := le_sin3 x hx
    rw [e2, e4, e6] at h1
    have h3 := mul_le_mul_of_nonneg_left h1 hx
    have h5 : 0 ≤ x ^ 5 := by positivity
    have h6 : 0 ≤ x ^ 4 := by positivity
    have h7 := mul_le_mul_of_nonneg_left h4 h6
    nlinarith [mul_nonneg h5 (by linarith : (0 : ℝ) ≤ 2.5 - x ^ 2)]

/-! ### C17 -/

/-- Half of the latitudinal extent, in radians. -/
noncomputable def Tess.halfLat (t : Tess) : ℝ := (radians t.n - radians t.s) / 2

theorem rule_tess (t : Tess) :
    (radians t.n - radians t.s) / 2 * (Real.cos (radians (gaussNode t.s t.n (-1))) +
      Real.cos (radians (gaussNode t.s t.n 1))) =
    2 * Real.cos (radians ((t.s + t.n) / 2)) * (t.halfLat * Real.cos (t.halfLat / Real.sqrt 3)) ∧
    (∫ φ in radians t.s..radians t.n, Real.cos φ) =
      2 * Real.cos (radians ((t.s + t.n) / 2)) * Real.sin t.halfLat := by
  constructor
  · have h1 : radians (gaussNode t.s t.n (-1)) = radians ((t.s + t.n) / 2) - t.halfLat / Real.sqrt 3 := by
      unfold gaussNode Tess.halfLat radians; ring
    have h2 : radians (gaussNode t.s t.n 1) = radians ((t.s + t.n) / 2) + t.halfLat / Real.sqrt 3 := by
      unfold gaussNode Tess.halfLat radians; ring
    rw [h1, h2, Real.cos_sub, Real.cos_add]
    unfold Tess.halfLat
    ring
  · rw [integral_cos]
    have h1 : radians t.n = radians ((t.s + t.n) / 2) + t.halfLat := by
      unfold Tess.halfLat radians; ring
    have h2 : radians t.s = radians ((t.s + t.n) / 2) - t.halfLat := by
      unfold Tess.halfLat radians; ring
    rw [h1, h2, Real.sin_sub, Real.sin_add]
    ring

/-- C17: the point masses that replace a tesseroid never have more mass than it, and they miss less than the
fourth power of half of its latitudinal extent (in radians) over 150, relative to its mass. -/
theorem C17_mass_error (t : Tess) (hw : t.w ≤ t.e) (hs : -90 ≤ t.s) (hsn : t.s ≤ t.n) (hn : t.n ≤ 90)
    (hbt : t.bottom ≤ t.top) (ρ : ℝ) (hρ : 0 ≤ ρ) :
    ((pointMasses t fun _ => ρ).map (·.2)).sum ≤ ρ * t.volume ∧
    (1 - ((radians t.n - radians t.s) / 2) ^ 4 / 150) * (ρ * t.volume) ≤
      ((pointMasses t fun _ => ρ).map (·.2)).sum := by
  have hpi90 : radians 90 = Real.pi / 2 := by unfold radians; ring
  have hpi90' : radians (-90) = -(Real.pi / 2) := by unfold radians; ring
  have r1 : radians t.s ≤ radians t.n := radians_le.2 hsn
  have r2 : radians (-90) ≤ radians t.s := radians_le.2 hs
  have r3 : radians t.n ≤ radians 90 := radians_le.2 hn
  rw [hpi90'] at r2
  rw [hpi90] at r3
  have hx0 : 0 ≤ t.halfLat := by unfold Tess.halfLat; linarith
  have hx1 : t.halfLat ≤ Real.pi / 2 := by unfold Tess.halfLat; linarith
  have hmid : radians ((t.s + t.n) / 2) = (radians t.s + radians t.n) / 2 := by unfold radians; ring
  have hc : 0 ≤ Real.cos (radians ((t.s + t.n) / 2)) := by
    apply Real.cos_nonneg_of_mem_Icc
    rw [hmid]; constructor <;> linarith
  have hr : 0 ≤ ∫ r in t.bottom..t.top, r ^ 2 :=
    intervalIntegral.integral_nonneg hbt fun r _ => by positivity
  have hl : 0 ≤ radians t.e - radians t.w := sub_nonneg.2 (radians_le.2 hw)
  obtain ⟨b1, b2⟩ := rule_bounds t.halfLat hx0 hx1
  obtain ⟨t1, t2⟩ := rule_tess t
  rw [C17_total_mass, t1, Tess.volume, t2]
  change _ ∧ (1 - t.halfLat ^ 4 / 150) * _ ≤ _
  have hk : 0 ≤ ρ * (∫ r in t.bottom..t.top, r ^ 2) * (radians t.e - radians t.w) *
      (2 * Real.cos (radians ((t.s + t.n) / 2))) := by positivity
  constructor
  · have := mul_le_mul_of_nonneg_left b1 hk
    linarith
  · have := mul_le_mul_of_nonneg_left b2 hk
    linarith

/-! ### C110 -/

/-- The potential of a point mass is `G m` over the distance. -/
theorem potential_eval (q p : P3) (m : ℝ) :
    (PointKernel.spherical potentialSpherical).eval q p m =
      gravitationalConst * m / dist (sphPos q) (sphPos p) := by
  rw [← C10_distance_spherical]
  simp only [PointKernel.eval, potentialSpherical, distanceSpherical]
  ring

theorem pieces_within (field : String) (radial : Bool) (q : P3) (t : Tess) (ht : t.Strict) (p : List Tess)
    (hp : tessPieces (tessParams field radial q) t = .ok p) :
    (p.map Tess.volume).sum = t.volume ∧
    ∀ x ∈ p, x.Strict ∧ t.w ≤ x.w ∧ x.e ≤ t.e ∧ t.s ≤ x.s ∧ x.n ≤ t.n ∧ t.bottom ≤ x.bottom ∧ x.top ≤ t.top := by
  have ho : t.Ordered := ⟨ht.1.le, ht.2.1.le, ht.2.2.le⟩
  have hst := (pieces_strict field radial q t ht p hp).2
  rcases adaptive_cases (tessParams field radial q) stackSize_pos (fun _ => t) (fun _ => t) t with
    ⟨n, small, h1, h2⟩ | ⟨e, -, h2⟩
  · rw [h2] at hp
    injection hp with hp
    obtain ⟨-, a2, -, a4⟩ := C16_partition _ stackSize_pos _ _ _ t ho n small h1
    have hp' : (List.range n).map small = p := hp
    rw [hp'] at a2
    refine ⟨a2, fun x hx => ?_⟩
    have hx' := hx
    rw [← hp'] at hx'
    obtain ⟨i, hi, rfl⟩ := List.mem_map.1 hx'
    obtain ⟨-, b2, b3, b4, b5, b6, b7⟩ := a4 i (List.mem_range.1 hi)
    exact ⟨(hst _ hx).1, b2, b3, b4, b5, b6, b7⟩
  · rw [h2] at hp; simp at hp

/-- Bounds for one tesseroid. -/
theorem tessEffect_bounds (radial : Bool) (q : P3) (t : Tess) (ht : t.Strict) (hs : -90 ≤ t.s)
    (hn : t.n ≤ 90) (hb : 0 ≤ t.bottom) (ρ : ℝ) (hρ : 0 < ρ) (p : List Tess)
    (hp : tessPieces (tessParams "potential" radial q) t = .ok p) (lo hi x : ℝ) (hlo : 0 < lo)
    (hx : (radians t.n - radians t.s) / 2 ≤ x)
    (hd : ∀ a : P3, t.w ≤ a.x → a.x ≤ t.e → t.s ≤ a.y → a.y ≤ t.n → t.bottom ≤ a.z → a.z ≤ t.top →
      lo ≤ dist (sphPos q) (sphPos a) ∧ dist (sphPos q) (sphPos a) ≤ hi) :
    tessEffect "potential" radial potentialSpherical q (t, ρ) ≤ gravitationalConst * (ρ * t.volume) / lo ∧
    gravitationalConst * ((1 - x ^ 4 / 150) * (ρ * t.volume)) / hi ≤
      tessEffect "potential" radial potentialSpherical q (t, ρ) := by
  obtain ⟨hvol, hin⟩ := pieces_within "potential" radial q t ht p hp
  have hG := gravitationalConst_pos
  have hhi : 0 < hi := by
    have := hd ⟨t.w, t.s, t.bottom⟩ le_rfl ht.1.le le_rfl ht.2.1.le le_rfl ht.2.2.le
    linarith
  rw [tessEffect_eq, usedPieces_ok hp]
  have key : ∀ y ∈ p, pieceEffect potentialSpherical q y (fun _ => ρ) ≤
        gravitationalConst * (ρ * y.volume) / lo ∧
      gravitationalConst * ((1 - x ^ 4 / 150) * (ρ * y.volume)) / hi ≤
        pieceEffect potentialSpherical q y (fun _ => ρ) := by
    intro y hy
    obtain ⟨c1, c2, c3, c4, c5, c6, c7⟩ := hin y hy
    obtain ⟨m1, m2⟩ := C17_mass_error y c1.1.le (by linarith) c1.2.1.le (by linarith) c1.2.2.le ρ hρ.le
    have hmass := C17_masses_inside y c1.1 (by linarith) c1.2.1 (by linarith) (by linarith) c1.2.2 (fun _ => ρ)
      (fun _ _ _ => hρ)
    have hdist : ∀ s ∈ pointMasses y fun _ => ρ, 0 < s.2 ∧ lo ≤ dist (sphPos q) (sphPos s.1) ∧
        dist (sphPos q) (sphPos s.1) ≤ hi := by
      intro s hs
      obtain ⟨d1, d2, d3, d4⟩ := hmass s hs
      exact ⟨d4, hd s.1 (by linarith [d1.1]) (by linarith [d1.2]) (by linarith [d2.1]) (by linarith [d2.2])
        (by linarith [d3.1]) (by linarith [d3.2])⟩
    have hv : 0 ≤ ρ * y.volume := by
      have : 0 ≤ ((pointMasses y fun _ => ρ).map (·.2)).sum := by
        apply List.sum_nonneg
        intro z hz
        obtain ⟨s, hs, rfl⟩ := List.mem_map.1 hz
        exact (hdist s hs).1.le
      linarith
    have hxy : (radians y.n - radians y.s) / 2 ≤ x := by
      have e1 := radians_le.2 c4
      have e2 := radians_le.2 c5
      linarith
    have hy0 : 0 ≤ (radians y.n - radians y.s) / 2 := by
      have := radians_lt.2 c1.2.1
      linarith
    unfold pieceEffect total
    simp only [potential_eval]
    constructor
    · calc _ ≤ ((pointMasses y fun _ => ρ).map fun s => gravitationalConst / lo * s.2).sum := by
            apply List.sum_le_sum
            intro s hs
            obtain ⟨e1, e2, e3⟩ := hdist s hs
            rw [div_mul_eq_mul_div]
            exact div_le_div_of_nonneg_left (by positivity) hlo e2
        _ = gravitationalConst / lo * ((pointMasses y fun _ => ρ).map (·.2)).sum := by
            rw [List.sum_map_mul_left]
        _ ≤ gravitationalConst / lo * (ρ * y.volume) := mul_le_mul_of_nonneg_left m1 (by positivity)
        _ = _ := by ring
    · calc gravitationalConst * ((1 - x ^ 4 / 150) * (ρ * y.volume)) / hi
          ≤ gravitationalConst / hi * ((1 - ((radians y.n - radians y.s) / 2) ^ 4 / 150) * (ρ * y.volume)) := by
            rw [div_mul_eq_mul_div]
            apply div_le_div_of_nonneg_right _ hhi.le
            apply mul_le_mul_of_nonneg_left _ hG.le
            apply mul_le_mul_of_nonneg_right _ hv
            have := pow_le_pow_left₀ hy0 hxy 4
            linarith
        _ ≤ gravitationalConst / hi * ((pointMasses y fun _ => ρ).map (·.2)).sum :=
            mul_le_mul_of_nonneg_left m2 (by positivity)
        _ = ((pointMasses y fun _ => ρ).map fun s => gravitationalConst / hi * s.2).sum := by
            rw [List.sum_map_mul_left]
        _ ≤ _ := by
            apply List.sum_le_sum
            intro s hs
            obtain ⟨e1, e2, e3⟩ := hdist s hs
            rw [div_mul_eq_mul_div]
            exact div_le_div_of_nonneg_left (by positivity) (by linarith) e3
  have hsum : ∀ c : ℝ, (p.map fun y => c * (ρ * y.volume)).sum = c * (ρ * t.volume) := by
    intro c
    rw [List.sum_map_mul_left, List.sum_map_mul_left]
    rw [show (p.map fun y => y.volume) = p.map Tess.volume from rfl, hvol]
  constructor
  · calc _ ≤ (p.map fun y => gravitationalConst / lo * (ρ * y.volume)).sum := by
          apply List.sum_le_sum
          intro y hy
          exact (key y hy).1.trans (by rw [div_mul_eq_mul_div])
      _ = _ := by rw [hsum]; ring
  · calc _ = (p.map fun y => gravitationalConst * (1 - x ^ 4 / 150) / hi * (ρ * y.volume)).sum := by
          rw [hsum]; ring
      _ ≤ _ := by
          apply List.sum_le_sum
          intro y hy
          refine le_trans (le_of_eq ?_) (key y hy).2
          ring

theorem bodyVolume_normLon (t : Tess) (h : t.ValidLon) : (normLon t).volume = t.bodyVolume := by
  obtain ⟨e1, e2, e3, e4⟩ := normLon_same t
  unfold Tess.volume Tess.bodyVolume
  rw [← normLon_width t h, e1, e2, e3, e4]
  congr 1
  unfold radians; ring

theorem sum_between {α : Type} (l : List α) (f g : α → ℝ) (h : ∀ a ∈ l, f a ≤ g a) :
    (l.map f).sum ≤ (l.map g).sum := List.sum_le_sum h

theorem sum_filter_zero {α : Type} (l : List α) (P : α → Bool) (f : α → ℝ)
    (h : ∀ a ∈ l, P a = false → f a = 0) : ((l.filter P).map f).sum = (l.map f).sum := by
  induction l with
  | nil => rfl
  | cons a l ih =>
    have ih := ih fun b hb => h b (List.mem_cons_of_mem _ hb)
    cases hP : P a with
    | true => rw [List.filter_cons_of_pos hP, List.map_cons, List.map_cons, List.sum_cons, List.sum_cons, ih]
    | false =>
      rw [List.filter_cons_of_neg (by simp [hP]), List.map_cons, List.sum_cons, ih,
        h a List.mem_cons_self hP, zero_add]

/-- C110: the potential of tesseroids with densities that are not negative is the one of their mass at a
distance between the closest and the farthest of their points: if all points of the bodies are at distances
between `lo` and `hi` from the observation point, the returned value is at most `G M / lo` and at least
`G M / hi`, besides the mass that the quadrature misses (relative to `M`, less than `x⁴ / 150` where `x` is half
of the largest latitudinal extent in radians). -/
theorem C110_potential_bounds (junk : Junk) (m : Mode) (Mz : Minimizer) (fuel : ℕ)
    (stack0 small0 : ℕ → Tess) (shape : List ℕ) (obs : List P3)
    (hshape : shape.prod = obs.length) (srcs : List (Tess × ℝ)) (radial : Bool)
    (hm : m.Full obs.length (2 * (100000 * srcs.length))) (r : NdArray)
    (hρ : ∀ s ∈ srcs, 0 ≤ s.2)
    (h : tesseroidGravity junk m Mz fuel stack0 small0 (arrays shape obs) (srcs.map (·.1))
        (.values (srcs.map (·.2))) "potential" radial false = some (.ok r))
    (x : ℝ) (hx : ∀ s ∈ srcs, (radians s.1.n - radians s.1.s) / 2 ≤ x)
    (i : ℕ) (q : P3) (hq : obs[i]? = some q) (lo hi : ℝ) (hlo : 0 < lo)
    (hd : ∀ s ∈ srcs, ∀ a, s.1.Body a →
      lo ≤ dist (sphPos q) (sphPos a) ∧ dist (sphPos q) (sphPos a) ≤ hi) :
    ∃ v, r.data[i]? = some v ∧ v ≤ gravitationalConst * massOf srcs / lo ∧
      gravitationalConst * ((1 - x ^ 4 / 150) * massOf srcs) / hi ≤ v := by
  obtain ⟨hret, rfl⟩ := returns_of_ok (kc := (potentialSpherical, 1)) rfl hshape hm h
  refine ⟨_, by rw [List.getElem?_map, hq]; rfl, ?_⟩
  simp only [one_mul]
  have hqm : q ∈ obs := List.mem_of_getElem? hq
  have key : ∀ s ∈ (srcs.map (usedSrc false)).filter keepTess,
      tessEffect "potential" radial potentialSpherical q s ≤ gravitationalConst / lo * (s.2 * s.1.volume) ∧
      gravitationalConst * (1 - x ^ 4 / 150) / hi * (s.2 * s.1.volume) ≤
        tessEffect "potential" radial potentialSpherical q s := by
    intro s hs
    obtain ⟨p, hp⟩ := hret.2 q hqm s hs
    obtain ⟨hs1, hs2⟩ := List.mem_filter.1 hs
    obtain ⟨s0, hs0, rfl⟩ := List.mem_map.1 hs1
    obtain ⟨g1, g2⟩ := checked hret s0 hs0
    obtain ⟨k1, k2⟩ := used_strict g1 g2 hs2
    have hn := normLon_range s0.1 g1
    obtain ⟨e1, e2, -, -⟩ := normLon_same s0.1
    have hu : usedSrc false s0 = (normLon s0.1, s0.2) := by unfold usedSrc; rw [usedTess_false]
    rw [hu] at hp ⊢
    have hb := tessEffect_bounds radial q _ k1 hn.lat_s.1 hn.lat_n.2 hn.radii.1 s0.2
      (lt_of_le_of_ne (hρ s0 hs0) (Ne.symm k2)) p hp lo hi x hlo (by rw [e1, e2]; exact hx s0 hs0) (by
        intro a a1 a2 a3 a4 a5 a6
        apply hd s0 hs0
        rw [← normLon_body s0.1 g2]
        exact ⟨⟨0, by simpa using a1, by simpa [eastEnd_of_le k1.1.le] using a2⟩, ⟨a3, a4⟩, a5, a6⟩)
    constructor
    · refine hb.1.trans (le_of_eq ?_); simp only; ring
    · refine le_trans (le_of_eq ?_) hb.2; simp only; ring
  have hmass : (((srcs.map (usedSrc false)).filter keepTess).map fun s => s.2 * s.1.volume).sum = massOf srcs := by
    rw [sum_filter_zero, List.map_map]
    · unfold massOf
      congr 1
      apply List.map_congr_left
      intro s hs
      have hu : usedSrc false s = (normLon s.1, s.2) := by unfold usedSrc; rw [usedTess_false]
      simp only [Function.comp, hu, bodyVolume_normLon s.1 (checked hret s hs).2]
    · intro s hs hk
      obtain ⟨s0, hs0, rfl⟩ := List.mem_map.1 hs
      unfold keepTess nullTess at hk
      simp only [Bool.not_eq_false', Bool.or_eq_true, decide_eq_true_eq] at hk
      rcases hk with (hk | hk | hk) | hk
      · simp [Tess.volume, hk]
      · simp [Tess.volume, hk]
      · simp [Tess.volume, hk]
      · simp [hk]
  unfold total
  constructor
  · calc _ ≤ (((srcs.map (usedSrc false)).filter keepTess).map fun s =>
            gravitationalConst / lo * (s.2 * s.1.volume)).sum := sum_between _ _ _ fun s hs => (key s hs).1
      _ = _ := by rw [List.sum_map_mul_left, hmass]; ring
  · calc _ = (((srcs.map (usedSrc false)).filter keepTess).map fun s =>
            gravitationalConst * (1 - x ^ 4 / 150) / hi * (s.2 * s.1.volume)).sum := by
          rw [List.sum_map_mul_left, hmass]; ring
      _ ≤ _ := sum_between _ _ _ fun s hs => (key s hs).2

theorem norm_sphPos (q : P3) (h : 0 ≤ q.z) : ‖sphPos q‖ = q.z := by
  rw [EuclideanSpace.norm_eq, Fin.sum_univ_three]
  simp only [sphPos, Real.norm_eq_abs, sq_abs]
  rw [show q.z = Real.sqrt (q.z ^ 2) from (Real.sqrt_sq h).symm]
  congr 1
  simp only [Real.sqrt_sq h, Matrix.cons_val_zero, Matrix.cons_val_one, Matrix.cons_val]
  linear_combination q.z ^ 2 * Real.cos (radians q.y) ^ 2 * Real.sin_sq_add_cos_sq (radians q.x) +
    q.z ^ 2 * Real.sin_sq_add_cos_sq (radians q.y)

/-- C110, far away: tesseroids up to the radius `b` seen from a larger radius `R`. -/
theorem C110_far (junk : Junk) (m : Mode) (Mz : Minimizer) (fuel : ℕ)
    (stack0 small0 : ℕ → Tess) (shape : List ℕ) (obs : List P3)
    (hshape : shape.prod = obs.length) (srcs : List (Tess × ℝ)) (radial : Bool)
    (hm : m.Full obs.length (2 * (100000 * srcs.length))) (r : NdArray)
    (hρ : ∀ s ∈ srcs, 0 ≤ s.2)
    (h : tesseroidGravity junk m Mz fuel stack0 small0 (arrays shape obs) (srcs.map (·.1))
        (.values (srcs.map (·.2))) "potential" radial false = some (.ok r))
    (x : ℝ) (hx : ∀ s ∈ srcs, (radians s.1.n - radians s.1.s) / 2 ≤ x)
    (i : ℕ) (q : P3) (hq : obs[i]? = some q) (b : ℝ) (hb0 : 0 ≤ b) (hb : b < q.z)
    (htop : ∀ s ∈ srcs, s.1.top ≤ b) :
    ∃ v, r.data[i]? = some v ∧ v ≤ gravitationalConst * massOf srcs / (q.z - b) ∧
      gravitationalConst * ((1 - x ^ 4 / 150) * massOf srcs) / (q.z + b) ≤ v := by
  have hret := (returns_of_ok (kc := (potentialSpherical, 1)) rfl hshape hm h).1
  refine C110_potential_bounds junk m Mz fuel stack0 small0 shape obs hshape srcs radial hm r hρ h x hx i q hq
    (q.z - b) (q.z + b) (by linarith) fun s hs a ha => ?_
  have hn := normLon_range s.1 (checked hret s hs).1
  obtain ⟨-, -, e3, e4⟩ := normLon_same s.1
  have hbot := hn.radii.1
  obtain ⟨-, -, a5, a6⟩ := ha
  have hz : 0 ≤ a.z := by rw [e3] at hbot; linarith
  have n1 := norm_sphPos a hz
  have n2 := norm_sphPos q (by linarith)
  have t1 := norm_sub_norm_le (sphPos q) (sphPos a)
  have t2 := norm_sub_le (sphPos q) (sphPos a)
  rw [dist_eq_norm]
  have := htop s hs
  constructor <;> linarith

/-- a call that returns: a tesseroid seen from far away is not split -/
theorem far_potential_returns (junk : Junk) (M : Minimizer) (stack0 small0 : ℕ → Tess) :
    let srcs : List (Tess × ℝ) := [(⟨-1, 1, -1, 1, 1, 2⟩, 1)]
    ∃ r, tesseroidGravity junk .serial M 0 stack0 small0 (arrays [1] [⟨0, 0, 1000⟩])
      (srcs.map (·.1)) (.values (srcs.map (·.2))) "potential" true false = some (.ok r) := by
  intro srcs
  refine ⟨_, (tesseroidGravity_form "potential" (potentialSpherical, 1) rfl junk .serial M 0 stack0
    small0 [1] [⟨0, 0, 1000⟩] (by simp) srcs true false trivial).1 ⟨Or.inr ⟨?_, ?_⟩, ?_⟩⟩
  · simp only [srcs, List.map_cons, List.map_nil, List.mem_singleton, forall_eq]
    exact ⟨⟨by norm_num, by norm_num, by norm_num, by norm_num, by norm_num,
        by norm_num, by norm_num⟩, Or.inl ⟨by norm_num, by norm_num⟩⟩
  · rintro ⟨q, hq, t, ht, hc⟩
    simp only [srcs, List.map_cons, List.map_nil, List.mem_singleton] at hq ht
    subst hq ht
    rw [usedTess_false, normLon_of_le (by norm_num), conflict_iff _ _ (by norm_num) (by norm_num)] at hc
    have := hc.2.2.2
    norm_num at this
  · intro q hq s hs
    obtain ⟨s', hs', rfl⟩ := List.mem_map.1 (List.mem_filter.1 hs).1
    simp only [srcs, List.mem_singleton] at hq hs'
    subst hq hs'
    have hu : (usedSrc false ((⟨-1, 1, -1, 1, 1, 2⟩ : Tess), (1 : ℝ))).1 = ⟨-1, 1, -1, 1, 1, 2⟩ := by
      unfold usedSrc
      rw [usedTess_false, normLon_of_le (by norm_num)]
    rw [hu]
    have hP : 1 ≤ (tessParams "potential" true ⟨0, 0, 1000⟩).stackSize := by
      show 1 ≤ STACK_SIZE; unfold STACK_SIZE; omega
    have hS : 1 ≤ (tessParams "potential" true ⟨0, 0, 1000⟩).smallSize := by
      show 1 ≤ MAX_DISCRETIZATIONS; unfold MAX_DISCRETIZATIONS; omega
    have hd : (⟨-1, 1, -1, 1, 1, 2⟩ : Tess).centreDistance ⟨0, 0, 1000⟩ = 998.5 := by
      unfold Tess.centreDistance
      rw [← C10_distance_spherical]
      norm_num [distanceSpherical, distanceSphericalCore, radians]
      rw [show (3988009 : ℝ) = 1997 ^ 2 by norm_num, show (4 : ℝ) = 2 ^ 2 by norm_num,
        Real.sqrt_sq (by norm_num), Real.sqrt_sq (by norm_num)]
    have hr : (tessParams "potential" true ⟨0, 0, 1000⟩).ratio = 1 := by
      simp [tessParams, distanceSizeRatio]
    have hpi := Real.pi_le_four
    obtain ⟨small, h1, -⟩ := C16_far_not_split (tessParams "potential" true ⟨0, 0, 1000⟩) hP hS stack0
      small0 ⟨-1, 1, -1, 1, 1, 2⟩ ⟨by norm_num, by norm_num, by norm_num, by norm_num, by norm_num,
        by norm_num, by norm_num⟩
      (by
        rw [hr]
        show _ ≤ (⟨-1, 1, -1, 1, 1, 2⟩ : Tess).centreDistance ⟨0, 0, 1000⟩
        rw [hd]
        unfold Tess.sizeLon
        have := InnerProductGeometry.angle_le_pi (unitPos (-1) ((-1 + 1) / 2)) (unitPos 1 ((-1 + 1) / 2))
        simp only
        linarith)
      (by
        rw [hr]
        show _ ≤ (⟨-1, 1, -1, 1, 1, 2⟩ : Tess).centreDistance ⟨0, 0, 1000⟩
        rw [hd]
        unfold Tess.sizeLat radians
        simp only
        linarith)
      (by
        intro _
        rw [hr]
        show _ ≤ (⟨-1, 1, -1, 1, 1, 2⟩ : Tess).centreDistance ⟨0, 0, 1000⟩
        rw [hd]
        unfold Tess.sizeRad
        norm_num)
    rcases adaptive_cases _ hP stack0 small0 ⟨-1, 1, -1, 1, 1, 2⟩ with ⟨n, sm, -, h2⟩ | ⟨e, h2, -⟩
    · exact ⟨_, h2⟩
    · unfold adaptiveFuel at h2
      rw [h1] at h2
      simp at h2

/-- C110 applies to that call: the potential is within one percent of the one of a point mass -/
example (junk : Junk) (M : Minimizer) (stack0 small0 : ℕ → Tess) :
    let srcs : List (Tess × ℝ) := [(⟨-1, 1, -1, 1, 1, 2⟩, 1)]
    ∃ r, tesseroidGravity junk .serial M 0 stack0 small0 (arrays [1] [⟨0, 0, 1000⟩])
      (srcs.map (·.1)) (.values (srcs.map (·.2))) "potential" true false = some (.ok r) ∧
    ∃ v, r.data[0]? = some v ∧ v ≤ gravitationalConst * massOf srcs / 998 ∧
      gravitationalConst * (0.99 * massOf srcs) / 1002 ≤ v := by
  intro srcs
  obtain ⟨r, hr⟩ := far_potential_returns junk M stack0 small0
  refine ⟨r, hr, ?_⟩
  obtain ⟨v, h1, h2, h3⟩ := C110_far junk .serial M 0 stack0 small0 [1] [⟨0, 0, 1000⟩] (by simp) srcs true trivial r
    (by simp [srcs]) hr 1 (by
      have := Real.pi_le_four
      simp only [srcs, List.mem_singleton, forall_eq, radians]
      linarith) 0 ⟨0, 0, 1000⟩ rfl 2 (by norm_num) (by norm_num) (by simp [srcs])
  have hM : 0 ≤ massOf srcs := by
    simp only [massOf, srcs, List.map_cons, List.map_nil, List.sum_cons, List.sum_nil, Tess.bodyVolume,
      eastEnd_of_le (show (-1 : ℝ) ≤ 1 by norm_num)]
    have h1 : Real.sin (radians (-1)) ≤ Real.sin (radians 1) := by
      have hp := Real.pi_pos
      apply Real.sin_le_sin_of_le_of_le_pi_div_two <;> unfold radians <;> linarith
    have h2 : 0 ≤ radians (1 - -1) := by unfold radians; have := Real.pi_pos; positivity
    have h3 : 0 ≤ Real.sin (radians 1) - Real.sin (radians (-1)) := by linarith
    rw [integral_cos, integral_pow, one_mul, add_zero]
    exact mul_nonneg (mul_nonneg (by norm_num) h3) h2
  refine ⟨v, h1, h2.trans (le_of_eq (by norm_num)), le_trans ?_ h3⟩
  have hG := gravitationalConst_pos
  norm_num
  apply mul_le_mul_of_nonneg_left _ hG.le |> fun h => div_le_div_of_nonneg_right h (by norm_num)
  apply mul_le_mul_of_nonneg_right _ hM
  norm_num

/-- C17 (mass): a tesseroid of half a degree is represented with its mass but for less than `10⁻¹¹` of it -/
example : let t : Tess := ⟨10, 10.5, 44.75, 45.25, 6360000, 6371000⟩
    ((pointMasses t fun _ => 2670).map (·.2)).sum ≤ 2670 * t.volume ∧
    (1 - 1e-11) * (2670 * t.volume) ≤ ((pointMasses t fun _ => 2670).map (·.2)).sum := by
  intro t
  obtain ⟨h1, h2⟩ := C17_mass_error t (by norm_num [t]) (by norm_num [t]) (by norm_num [t]) (by norm_num [t])
    (by norm_num [t]) 2670 (by norm_num)
  refine ⟨h1, le_trans ?_ h2⟩
  have hv : 0 ≤ 2670 * t.volume := by
    have hs : Real.sin (radians 44.75) ≤ Real.sin (radians 45.25) := by
      have hp := Real.pi_pos
      apply Real.sin_le_sin_of_le_of_le_pi_div_two <;> unfold radians <;> linarith
    have hl : 0 ≤ radians 10.5 - radians 10 := by unfold radians; have := Real.pi_pos; nlinarith
    have h3 : 0 ≤ Real.sin (radians 45.25) - Real.sin (radians 44.75) := by linarith
    unfold Tess.volume
    rw [integral_cos, integral_pow]
    exact mul_nonneg (by norm_num) (mul_nonneg (mul_nonneg (by norm_num [t]) h3) hl)
  apply mul_le_mul_of_nonneg_right _ hv
  have hd : (radians t.n - radians t.s) / 2 = Real.pi / 720 := by simp only [t, radians]; ring
  rw [hd]
  have : (Real.pi / 720) ^ 4 ≤ (3.15 / 720) ^ 4 :=
    pow_le_pow_left₀ (by have := Real.pi_pos; positivity) (by have := Real.pi_lt_d2; linarith) 4
  norm_num at this ⊢
  linarith

end Verif.Tesseroid
