import Verif.Tesseroid.PropsI
import Mathlib.MeasureTheory.Integral.DominatedConvergence

/-!
The error of the potential and of the attraction of tesseroids with respect to the integrals over the bodies
(C142).
-/

namespace Verif.Tesseroid
open Verif.Distance Verif.Forward Verif.Engine
open scoped InnerProductSpace

/-! ### specification -/

/-- Position of the point with the given longitude and latitude (radians) and radius. -/
noncomputable def rpos (lon lat r : ℝ) : E3 :=
  !₂[r * Real.cos lat * Real.cos lon, r * Real.cos lat * Real.sin lon, r * Real.sin lat]

/-- Integral of a function over the body described by the boundaries, in spherical coordinates
(`dV = r² cos φ dλ dφ dr`). -/
noncomputable def Tess.integral (t : Tess) (g : E3 → ℝ) : ℝ :=
  ∫ r in t.bottom..t.top, ∫ φ in radians t.s..radians t.n, ∫ l in radians t.w..radians (eastEnd t.w t.e),
    g (rpos l φ r) * (r ^ 2 * Real.cos φ)

/-- Newton's potential of bodies with uniform densities at a point. -/
noncomputable def exactPotential (srcs : List (Tess × ℝ)) (q : P3) : ℝ :=
  (srcs.map fun s => gravitationalConst * s.2 * s.1.integral fun p => 1 / dist (sphPos q) p).sum

/-- Newton's attraction of bodies with uniform densities at a point, its component towards the center of the
Earth, in mGal. -/
noncomputable def exactAttraction (srcs : List (Tess × ℝ)) (q : P3) : ℝ :=
  10 ^ 5 * (srcs.map fun s => gravitationalConst * s.2 *
    s.1.integral fun p => ⟪sphPos q - p, unitPos q.x q.y⟫_ℝ / dist (sphPos q) p ^ 3).sum

/-- Size of a tesseroid: its thickness, and the lengths of its sides on the top sphere and of the equator between
its meridians. -/
noncomputable def Tess.extent (t : Tess) : ℝ :=
  (t.top - t.bottom) + t.top * radians (t.n - t.s) + t.top * radians (eastEnd t.w t.e - t.w)

/-! ### integrals over the bodies -/

theorem rpos_radians (p : P3) : sphPos p = rpos (radians p.x) (radians p.y) p.z := rfl

theorem continuous_rpos : Continuous fun x : ℝ × ℝ × ℝ => rpos x.2.2 x.2.1 x.1 := by
  unfold rpos
  refine (PiLp.continuous_toLp 2 _).comp ?_
  refine continuous_pi fun i => ?_
  fin_cases i
  · exact (continuous_fst.mul (Real.continuous_cos.comp (continuous_fst.comp continuous_snd))).mul
      (Real.continuous_cos.comp (continuous_snd.comp continuous_snd))
  · exact (continuous_fst.mul (Real.continuous_cos.comp (continuous_fst.comp continuous_snd))).mul
      (Real.continuous_sin.comp (continuous_snd.comp continuous_snd))
  · exact continuous_fst.mul (Real.continuous_sin.comp (continuous_fst.comp continuous_snd))

theorem eastEnd_le (w e : ℝ) : w ≤ eastEnd w e := by
  unfold eastEnd
  split_ifs with h
  · exact h
  · have := Int.le_ceil ((w - e) / 360)
    rw [div_le_iff₀ (by norm_num)] at this
    linarith

/-- Bodies with boundaries in order and latitudes in range. -/
structure Tess.Good (t : Tess) : Prop where
  s : -90 ≤ t.s
  sn : t.s ≤ t.n
  n : t.n ≤ 90
  bt : t.bottom ≤ t.top

theorem box_body {t : Tess} {r φ l : ℝ} (hr : r ∈ Set.Icc t.bottom t.top)
    (hφ : φ ∈ Set.Icc (radians t.s) (radians t.n))
    (hl : l ∈ Set.Icc (radians t.w) (radians (eastEnd t.w t.e))) :
    ∃ a : P3, t.Body a ∧ sphPos a = rpos l φ r := by
  have hpi := Real.pi_pos
  have hrad : ∀ x : ℝ, radians (x * 180 / Real.pi) = x := by
    intro x; unfold radians; field_simp
  refine ⟨⟨l * 180 / Real.pi, φ * 180 / Real.pi, r⟩, ⟨⟨0, ?_, ?_⟩, ⟨?_, ?_⟩, hr.1, hr.2⟩, ?_⟩
  · rw [← radians_le]; simpa [hrad] using hl.1
  · rw [← radians_le]; simpa [hrad] using hl.2
  · rw [← radians_le]; simpa [hrad] using hφ.1
  · rw [← radians_le]; simpa [hrad] using hφ.2
  · rw [rpos_radians, hrad, hrad]

theorem integral_congr_body {t : Tess} (ht : t.Good) {g h : E3 → ℝ} (e : ∀ a, t.Body a → g (sphPos a) = h (sphPos a)) :
    t.integral g = t.integral h := by
  unfold Tess.integral
  have h1 := radians_le.2 ht.sn
  have h2 := radians_le.2 (eastEnd_le t.w t.e)
  refine intervalIntegral.integral_congr fun r hr => ?_
  rw [Set.uIcc_of_le ht.bt] at hr
  refine intervalIntegral.integral_congr fun φ hφ => ?_
  rw [Set.uIcc_of_le h1] at hφ
  refine intervalIntegral.integral_congr fun l hl => ?_
  rw [Set.uIcc_of_le h2] at hl
  obtain ⟨a, ha, hpos⟩ := box_body hr hφ hl
  rw [← hpos, e a ha]

theorem integral_neg_body (t : Tess) (g : E3 → ℝ) : t.integral (fun p => -g p) = -t.integral g := by
  unfold Tess.integral
  simp only [neg_mul, intervalIntegral.integral_neg]

theorem integral_const_body (t : Tess) (c : ℝ) : t.integral (fun _ => c) = c * t.bodyVolume := by
  unfold Tess.integral Tess.bodyVolume
  simp only [intervalIntegral.integral_const, smul_eq_mul]
  have h1 : radians (eastEnd t.w t.e) - radians t.w = radians (eastEnd t.w t.e - t.w) := by
    unfold radians; ring
  rw [h1]
  have h2 : ∀ r φ : ℝ, radians (eastEnd t.w t.e - t.w) * (c * (r ^ 2 * Real.cos φ)) =
      (radians (eastEnd t.w t.e - t.w) * c * r ^ 2) * Real.cos φ := fun r φ => by ring
  simp only [h2, intervalIntegral.integral_const_mul]
  rw [intervalIntegral.integral_mul_const, intervalIntegral.integral_const_mul]
  ring

theorem integral_le_body {t : Tess} (ht : t.Good) {g h : E3 → ℝ} (hg : Continuous g) (hh : Continuous h)
    (e : ∀ a, t.Body a → g (sphPos a) ≤ h (sphPos a)) : t.integral g ≤ t.integral h := by
  have h1 := radians_le.2 ht.sn
  have h2 := radians_le.2 (eastEnd_le t.w t.e)
  have hpi90 : radians 90 = Real.pi / 2 := by unfold radians; ring
  have hpi90' : radians (-90) = -(Real.pi / 2) := by unfold radians; ring
  have r2 : radians (-90) ≤ radians t.s := radians_le.2 ht.s
  have r3 : radians t.n ≤ radians 90 := radians_le.2 ht.n
  rw [hpi90'] at r2
  rw [hpi90] at r3
  have c3 : ∀ {g : E3 → ℝ}, Continuous g → Continuous fun x : ℝ × ℝ × ℝ =>
      g (rpos x.2.2 x.2.1 x.1) * (x.1 ^ 2 * Real.cos x.2.1) := fun hg =>
    (hg.comp continuous_rpos).mul ((continuous_fst.pow 2).mul
      (Real.continuous_cos.comp (continuous_fst.comp continuous_snd)))
  have c2 : ∀ {g : E3 → ℝ}, Continuous g → Continuous fun x : ℝ × ℝ =>
      ∫ l in radians t.w..radians (eastEnd t.w t.e), g (rpos l x.2 x.1) * (x.1 ^ 2 * Real.cos x.2) := fun {g} hg =>
    intervalIntegral.continuous_parametric_intervalIntegral_of_continuous'
      (f := fun (x : ℝ × ℝ) l => g (rpos l x.2 x.1) * (x.1 ^ 2 * Real.cos x.2))
      ((c3 hg).comp ((continuous_fst.comp continuous_fst).prodMk
        ((continuous_snd.comp continuous_fst).prodMk continuous_snd))) _ _
  have c1 : ∀ {g : E3 → ℝ}, Continuous g → Continuous fun r : ℝ => ∫ φ in radians t.s..radians t.n,
      ∫ l in radians t.w..radians (eastEnd t.w t.e), g (rpos l φ r) * (r ^ 2 * Real.cos φ) := fun {g} hg =>
    intervalIntegral.continuous_parametric_intervalIntegral_of_continuous'
      (f := fun (r : ℝ) φ => ∫ l in radians t.w..radians (eastEnd t.w t.e), g (rpos l φ r) * (r ^ 2 * Real.cos φ))
      (c2 hg) _ _
  unfold Tess.integral
  refine intervalIntegral.integral_mono_on ht.bt ((c1 hg).intervalIntegrable _ _) ((c1 hh).intervalIntegrable _ _)
    fun r hr => ?_
  refine intervalIntegral.integral_mono_on h1
    (((c2 hg).comp (continuous_const.prodMk continuous_id)).intervalIntegrable _ _)
    (((c2 hh).comp (continuous_const.prodMk continuous_id)).intervalIntegrable _ _) fun φ hφ => ?_
  refine intervalIntegral.integral_mono_on h2
    (((c3 hg).comp (continuous_const.prodMk (continuous_const.prodMk continuous_id))).intervalIntegrable _ _)
    (((c3 hh).comp (continuous_const.prodMk (continuous_const.prodMk continuous_id))).intervalIntegrable _ _)
    fun l hl => ?_
  obtain ⟨a, ha, hpos⟩ := box_body hr hφ hl
  rw [← hpos]
  refine mul_le_mul_of_nonneg_right (e a ha) (mul_nonneg (sq_nonneg _) ?_)
  apply Real.cos_nonneg_of_mem_Icc
  constructor <;> linarith [hφ.1, hφ.2]

/-- A function that differs from a number by at most `ε` in the body. -/
theorem integral_near {t : Tess} (ht : t.Good) {g : E3 → ℝ} (hg : Continuous g) {c ε : ℝ}
    (e : ∀ a, t.Body a → |g (sphPos a) - c| ≤ ε) : |t.integral g - c * t.bodyVolume| ≤ ε * t.bodyVolume := by
  have h1 := integral_le_body ht hg (continuous_const (y := c + ε)) fun a ha => by
    have := (abs_le.1 (e a ha)).2; linarith
  have h2 := integral_le_body ht (continuous_const (y := c - ε)) hg fun a ha => by
    have := (abs_le.1 (e a ha)).1; linarith
  rw [integral_const_body] at h1 h2
  rw [abs_le]
  constructor <;> linarith

/-! ### one tesseroid -/

theorem bodyVolume_nonneg {t : Tess} (ht : t.Good) : 0 ≤ t.bodyVolume := by
  have := integral_le_body ht (continuous_const (y := (0 : ℝ))) (continuous_const (y := (1 : ℝ)))
    fun _ _ => zero_le_one
  rw [integral_const_body, integral_const_body] at this
  linarith

/-- Point masses inside of a body that have (almost) its mass against the integral over the body. -/
theorem masses_near {t : Tess} (ht : t.Good) {g : E3 → ℝ} (hg : Continuous g) {B ε η : ℝ}
    (hB : ∀ a, t.Body a → |g (sphPos a)| ≤ B)
    (hε : ∀ a b, t.Body a → t.Body b → |g (sphPos a) - g (sphPos b)| ≤ ε) (hη : 0 ≤ η)
    (masses : List (P3 × ℝ)) (hin : ∀ m ∈ masses, t.Body m.1 ∧ 0 ≤ m.2)
    (hW : (masses.map (·.2)).sum ≤ t.bodyVolume) (hW' : (1 - η) * t.bodyVolume ≤ (masses.map (·.2)).sum)
    (hpos : 0 < t.bodyVolume) :
    |(masses.map fun m => m.2 * g (sphPos m.1)).sum - t.integral g| ≤ (ε + η * B) * t.bodyVolume := by
  have hbody : ∃ a, t.Body a := by
    obtain ⟨a, ha, -⟩ := box_body (t := t) (Set.left_mem_Icc.2 ht.bt) (Set.left_mem_Icc.2 (radians_le.2 ht.sn))
      (Set.left_mem_Icc.2 (radians_le.2 (eastEnd_le t.w t.e)))
    exact ⟨a, ha⟩
  have hε0 : 0 ≤ ε := by
    obtain ⟨a, ha⟩ := hbody
    exact (abs_nonneg _).trans (hε a a ha ha)
  have hB0 : 0 ≤ B := by
    obtain ⟨a, ha⟩ := hbody
    exact (abs_nonneg _).trans (hB a ha)
  set V := t.bodyVolume with hV
  set I := t.integral g with hI
  have hIB : |I| ≤ B * V := by
    have := integral_near ht hg (c := 0) (ε := B) fun a ha => by simpa using hB a ha
    simpa using this
  have key : ∀ ms : List (P3 × ℝ), (∀ m ∈ ms, t.Body m.1 ∧ 0 ≤ m.2) →
      |V * (ms.map fun m => m.2 * g (sphPos m.1)).sum - (ms.map (·.2)).sum * I| ≤
        (ms.map (·.2)).sum * (ε * V) := by
    intro ms
    induction ms with
    | nil => intro _; simp
    | cons m ms ih =>
      intro hms
      have ih := ih fun x hx => hms x (List.mem_cons_of_mem _ hx)
      obtain ⟨m1, m2⟩ := hms m List.mem_cons_self
      have h1 := integral_near ht hg (c := g (sphPos m.1)) (ε := ε) fun a ha => hε a m.1 ha m1
      simp only [List.map_cons, List.sum_cons]
      have h2 : |m.2 * (V * g (sphPos m.1) - I)| ≤ m.2 * (ε * V) := by
        rw [abs_mul, abs_of_nonneg m2]
        refine mul_le_mul_of_nonneg_left ?_ m2
        rw [abs_sub_comm, mul_comm V]
        exact h1
      calc _ = |m.2 * (V * g (sphPos m.1) - I) +
            (V * (ms.map fun m => m.2 * g (sphPos m.1)).sum - (ms.map (·.2)).sum * I)| := by
            congr 1; ring
        _ ≤ _ := (abs_add_le _ _).trans (by rw [add_mul]; exact add_le_add h2 ih)
  have h1 := key masses hin
  set S := (masses.map fun m => m.2 * g (sphPos m.1)).sum
  set W := (masses.map (·.2)).sum
  have h2 : |(V - W) * I| ≤ (η * V) * (B * V) := by
    rw [abs_mul, abs_of_nonneg (by linarith)]
    exact mul_le_mul (by linarith) hIB (abs_nonneg _) (by positivity)
  have h3 : V * |S - I| ≤ V * ((ε + η * B) * V) := by
    calc V * |S - I| = |(V * S - W * I) - (V - W) * I| := by
          have : V * |S - I| = |V * (S - I)| := by rw [abs_mul, abs_of_pos hpos]
          rw [this]
          congr 1; ring
      _ ≤ W * (ε * V) + (η * V) * (B * V) := (abs_sub _ _).trans (add_le_add h1 h2)
      _ ≤ V * (ε * V) + (η * V) * (B * V) := by
          have := mul_le_mul_of_nonneg_right hW (by positivity : 0 ≤ ε * V)
          linarith
      _ = _ := by ring
  exact le_of_mul_le_mul_left h3 hpos

theorem pointMasses_scale (t : Tess) (ρ : ℝ) :
    (pointMasses t fun _ => ρ) = (pointMasses t fun _ => 1).map fun m => (m.1, ρ * m.2) := by
  unfold pointMasses
  simp only [List.flatMap_cons, List.flatMap_nil, List.map_cons, List.map_nil, List.append_nil,
    List.cons_append, List.nil_append, List.cons.injEq, Prod.mk.injEq, true_and, and_true]
  refine ⟨?_, ?_, ?_, ?_, ?_, ?_, ?_, ?_⟩ <;> ring

theorem sum_flatMap_map {α β : Type} (l : List α) (f : α → List β) (g : β → ℝ) :
    ((l.flatMap f).map g).sum = (l.map fun a => ((f a).map g).sum).sum := by
  induction l with
  | nil => rfl
  | cons a l ih => simp [List.flatMap_cons, ih]

theorem good_of_range {t : Tess} (h : t.ValidRange) : t.Good := ⟨h.lat_s.1, h.sn, h.lat_n.2, h.bt⟩

theorem volume_pos {t : Tess} (ht : t.Strict) (hr : t.ValidRange) : 0 < t.volume := by
  have h1 := (C17_mass_error t ht.1.le hr.lat_s.1 ht.2.1.le hr.lat_n.2 ht.2.2.le 1 zero_le_one).1
  rw [one_mul] at h1
  refine lt_of_lt_of_le (List.sum_pos _ ?_ ?_) h1
  · intro z hz
    obtain ⟨m, hm, rfl⟩ := List.mem_map.1 hz
    exact (C17_masses_inside t ht.1 hr.lat_s.1 ht.2.1 hr.lat_n.2 hr.radii.1 ht.2.2 (fun _ => 1)
      (fun _ _ _ => one_pos) m hm).2.2.2
  · simp [pointMasses]

/-- Effect of one tesseroid, for a kernel that is a function of the position of the mass. -/
theorem tessEffect_near (field : String) (radial : Bool) (kernel : SphKernel) (q : P3) (t : Tess)
    (g1 : t.ValidRange) (g2 : t.ValidLon) (hst : (normLon t).Strict) (ρ : ℝ) (p : List Tess)
    (hp : tessPieces (tessParams field radial q) (normLon t) = .ok p) (c : ℝ) (g : E3 → ℝ) (hg : Continuous g)
    (hk : ∀ a : P3, t.Body a → ∀ m, (PointKernel.spherical kernel).eval q a m = c * (m * g (sphPos a)))
    {B ε : ℝ} (hB : ∀ a, t.Body a → |g (sphPos a)| ≤ B)
    (hε : ∀ a b, t.Body a → t.Body b → |g (sphPos a) - g (sphPos b)| ≤ ε) :
    |tessEffect field radial kernel q (normLon t, ρ) - c * ρ * t.integral g| ≤
      |c| * |ρ| * ((ε + t.halfLat ^ 4 / 150 * B) * t.bodyVolume) := by
  have hgood := good_of_range g1
  have hn := normLon_range t g1
  obtain ⟨e1, e2, e3, e4⟩ := normLon_same t
  have hvol := bodyVolume_normLon t g2
  obtain ⟨hv, hin⟩ := pieces_within field radial q _ hst p hp
  have hx0 : 0 ≤ t.halfLat := by
    have := radians_le.2 hgood.sn
    unfold Tess.halfLat; linarith
  set masses := p.flatMap fun y => pointMasses y fun _ => 1 with hmasses
  have hbody : ∀ m ∈ masses, t.Body m.1 ∧ 0 ≤ m.2 := by
    intro m hm
    obtain ⟨y, hy, hm⟩ := List.mem_flatMap.1 hm
    obtain ⟨c1, c2, c3, c4, c5, c6, c7⟩ := hin y hy
    obtain ⟨d1, d2, d3, d4⟩ := C17_masses_inside y c1.1 (by linarith [hn.lat_s.1]) c1.2.1 (by linarith [hn.lat_n.2])
      (by linarith [hn.radii.1]) c1.2.2 (fun _ => 1) (fun _ _ _ => one_pos) m hm
    refine ⟨?_, d4.le⟩
    rw [← normLon_body t g2]
    refine ⟨⟨0, ?_, ?_⟩, ⟨?_, ?_⟩, ?_, ?_⟩
    · simp; linarith [d1.1]
    · simp [eastEnd_of_le hst.1.le]; linarith [d1.2]
    all_goals linarith [d2.1, d2.2, d3.1, d3.2]
  have herr : ∀ y ∈ p, ((pointMasses y fun _ => 1).map (·.2)).sum ≤ y.volume ∧
      (1 - t.halfLat ^ 4 / 150) * y.volume ≤ ((pointMasses y fun _ => 1).map (·.2)).sum := by
    intro y hy
    obtain ⟨c1, c2, c3, c4, c5, c6, c7⟩ := hin y hy
    obtain ⟨m1, m2⟩ := C17_mass_error y c1.1.le (by linarith [hn.lat_s.1]) c1.2.1.le (by linarith [hn.lat_n.2])
      c1.2.2.le 1 zero_le_one
    rw [one_mul] at m1 m2
    refine ⟨m1, le_trans (mul_le_mul_of_nonneg_right ?_ ?_) m2⟩
    · have f1 := radians_le.2 c4
      have f2 := radians_le.2 c5
      have f3 := radians_lt.2 c1.2.1
      rw [e1] at f1; rw [e2] at f2
      have := pow_le_pow_left₀ (by linarith) (show (radians y.n - radians y.s) / 2 ≤ t.halfLat by
        unfold Tess.halfLat; linarith) 4
      linarith
    · refine le_trans (List.sum_nonneg ?_) m1
      intro z hz
      obtain ⟨m, hm, rfl⟩ := List.mem_map.1 hz
      exact (hbody m (List.mem_flatMap.2 ⟨y, hy, hm⟩)).2
  have hW : (masses.map (·.2)).sum ≤ t.bodyVolume := by
    rw [hmasses, sum_flatMap_map, ← hvol, ← hv]
    exact List.sum_le_sum fun y hy => (herr y hy).1
  have hW' : (1 - t.halfLat ^ 4 / 150) * t.bodyVolume ≤ (masses.map (·.2)).sum := by
    rw [hmasses, sum_flatMap_map, ← hvol, ← hv, ← List.sum_map_mul_left]
    exact List.sum_le_sum fun y hy => (herr y hy).2
  have hpos : 0 < t.bodyVolume := by
    rw [← hvol]
    exact volume_pos hst hn
  have hnear := masses_near hgood hg hB hε (η := t.halfLat ^ 4 / 150) (by positivity) masses hbody hW hW' hpos
  have hsum : tessEffect field radial kernel q (normLon t, ρ) =
      c * ρ * (masses.map fun m => m.2 * g (sphPos m.1)).sum := by
    rw [tessEffect_eq, usedPieces_ok hp, hmasses, sum_flatMap_map, ← List.sum_map_mul_left]
    congr 1
    apply List.map_congr_left
    intro y hy
    unfold pieceEffect total
    rw [pointMasses_scale, List.map_map, ← List.sum_map_mul_left]
    congr 1
    apply List.map_congr_left
    intro m hm
    have := (hbody m (List.mem_flatMap.2 ⟨y, hy, hm⟩)).1
    simp only [Function.comp, hk m.1 this]
    ring
  rw [hsum, ← mul_sub, abs_mul, abs_mul]
  exact mul_le_mul_of_nonneg_left hnear (by positivity)

/-! ### all tesseroids -/

/-- Tesseroids without volume or density contribute nothing to the integral. -/
theorem integral_null {s : Tess × ℝ} (hl : s.1.ValidLon) (hk : keepTess (usedSrc false s) = false) (g : E3 → ℝ) :
    s.2 = 0 ∨ (s.1.integral g = 0 ∧ s.1.bodyVolume = 0) := by
  have hu : usedSrc false s = (normLon s.1, s.2) := by unfold usedSrc; rw [usedTess_false]
  obtain ⟨e1, e2, e3, e4⟩ := normLon_same s.1
  have hw := normLon_width s.1 hl
  rw [hu] at hk
  unfold keepTess nullTess at hk
  simp only [Bool.not_eq_false', Bool.or_eq_true, decide_eq_true_eq] at hk
  rw [e1, e2, e3, e4] at hk
  unfold Tess.integral Tess.bodyVolume
  rcases hk with (hk | hk | hk) | hk
  · right
    have : eastEnd s.1.w s.1.e = s.1.w := by rw [hk] at hw; linarith
    rw [this]
    simp [radians]
  · right; simp [hk]
  · right; simp [hk]
  · left; exact hk

/-- The sum over the bodies for a kernel that is a function of the position of the mass. -/
theorem total_near (field : String) (kc : SphKernel × ℝ) (htab : tessFieldTable field = some kc)
    (junk : Junk) (m : Mode) (Mz : Minimizer) (fuel : ℕ)
    (stack0 small0 : ℕ → Tess) (shape : List ℕ) (obs : List P3)
    (hshape : shape.prod = obs.length) (srcs : List (Tess × ℝ)) (radial : Bool)
    (hm : m.Full obs.length (2 * (100000 * srcs.length))) (r : NdArray)
    (h : tesseroidGravity junk m Mz fuel stack0 small0 (arrays shape obs) (srcs.map (·.1))
        (.values (srcs.map (·.2))) field radial false = some (.ok r))
    (i : ℕ) (q : P3) (hq : obs[i]? = some q) (c : ℝ) (g : E3 → ℝ) (G : Tess → E3 → ℝ) (B ε : Tess → ℝ)
    (hG : ∀ s ∈ srcs, Continuous (G s.1))
    (hgG : ∀ s ∈ srcs, ∀ a, s.1.Body a → g (sphPos a) = G s.1 (sphPos a))
    (hk : ∀ (a : P3) (m : ℝ), (PointKernel.spherical kc.1).eval q a m = c * (m * g (sphPos a)))
    (hB : ∀ s ∈ srcs, ∀ a, s.1.Body a → |g (sphPos a)| ≤ B s.1)
    (hε : ∀ s ∈ srcs, ∀ a b, s.1.Body a → s.1.Body b → |g (sphPos a) - g (sphPos b)| ≤ ε s.1) :
    ∃ v, r.data[i]? = some v ∧
      |v - kc.2 * c * (srcs.map fun s => s.2 * s.1.integral g).sum| ≤
        |kc.2 * c| * (srcs.map fun s =>
          |s.2| * s.1.bodyVolume * (ε s.1 + s.1.halfLat ^ 4 / 150 * B s.1)).sum := by
  obtain ⟨hret, rfl⟩ := returns_of_ok htab hshape hm h
  refine ⟨_, by rw [List.getElem?_map, hq]; rfl, ?_⟩
  have hqm : q ∈ obs := List.mem_of_getElem? hq
  have key : ∀ l : List (Tess × ℝ), (∀ s ∈ l, s ∈ srcs) →
      |total (tessEffect field radial kc.1) ((l.map (usedSrc false)).filter keepTess) q -
        c * (l.map fun s => s.2 * s.1.integral g).sum| ≤
      |c| * (l.map fun s => |s.2| * s.1.bodyVolume * (ε s.1 + s.1.halfLat ^ 4 / 150 * B s.1)).sum := by
    intro l
    induction l with
    | nil => intro _; simp [total]
    | cons s l ih =>
      intro hl
      have ih := ih fun x hx => hl x (List.mem_cons_of_mem _ hx)
      have hs := hl s List.mem_cons_self
      obtain ⟨g1, g2⟩ := checked hret s hs
      have hu : usedSrc false s = (normLon s.1, s.2) := by unfold usedSrc; rw [usedTess_false]
      simp only [List.map_cons, List.sum_cons]
      have hcong := integral_congr_body (good_of_range g1) (hgG s hs)
      cases hkeep : keepTess (usedSrc false s) with
      | false =>
        rw [List.filter_cons_of_neg (by simp [hkeep])]
        rcases integral_null g2 hkeep g with h0 | ⟨h0, h1⟩
        · simpa [h0] using ih
        · simpa [h0, h1] using ih
      | true =>
        rw [List.filter_cons_of_pos hkeep]
        obtain ⟨k1, -⟩ := used_strict g1 g2 hkeep
        obtain ⟨p, hp⟩ := hret.2 q hqm (usedSrc false s)
          (List.mem_filter.2 ⟨List.mem_map.2 ⟨s, hs, rfl⟩, hkeep⟩)
        rw [hu] at hp ⊢
        have h1 := tessEffect_near field radial kc.1 q s.1 g1 g2 k1 s.2 p hp c (G s.1) (hG s hs)
          (fun a ha m => by rw [hk, hgG s hs a ha]) (B := B s.1) (ε := ε s.1)
          (fun a ha => by rw [← hgG s hs a ha]; exact hB s hs a ha)
          (fun a b ha hb => by rw [← hgG s hs a ha, ← hgG s hs b hb]; exact hε s hs a b ha hb)
        rw [← hcong] at h1
        unfold total at ih ⊢
        simp only [List.map_cons, List.sum_cons]
        calc _ = |(tessEffect field radial kc.1 q (normLon s.1, s.2) - c * s.2 * s.1.integral g) +
              ((((l.map (usedSrc false)).filter keepTess).map (tessEffect field radial kc.1 q)).sum -
                c * (l.map fun s => s.2 * s.1.integral g).sum)| := by
              congr 1; ring
          _ ≤ _ := (abs_add_le _ _).trans (add_le_add h1 ih)
          _ = _ := by ring
  have := key srcs fun s hs => hs
  simp only
  rw [mul_assoc, ← mul_sub, abs_mul, abs_mul, mul_assoc]
  exact mul_le_mul_of_nonneg_left this (abs_nonneg _)

/-! ### kernels -/

theorem attraction_eval (q p : P3) (m : ℝ) :
    (PointKernel.spherical gravityUSpherical).eval q p m =
      (-gravitationalConst) * (m * (⟪sphPos q - sphPos p, unitPos q.x q.y⟫_ℝ / dist (sphPos q) (sphPos p) ^ 3)) := by
  rw [← C10_distance_spherical]
  have h : ⟪sphPos q - sphPos p, unitPos q.x q.y⟫_ℝ = q.z - p.z * (distanceSphericalCore (radians q.x)
      (Real.cos (radians q.y)) (Real.sin (radians q.y)) q.z (radians p.x) (Real.cos (radians p.y))
      (Real.sin (radians p.y)) p.z).2.1 := by
    simp only [unitPos, sphPos, EuclideanSpace.inner_eq_star_dotProduct, distanceSphericalCore]
    simp [dotProduct, Fin.sum_univ_three, Real.cos_sub]
    linear_combination q.z * Real.cos (radians q.y) ^ 2 * Real.sin_sq_add_cos_sq (radians q.x) +
      q.z * Real.sin_sq_add_cos_sq (radians q.y)
  rw [h]
  simp only [PointKernel.eval, gravityUSpherical, distanceSpherical]
  ring

theorem inv_near {a b lo δ : ℝ} (hlo : 0 < lo) (ha : lo ≤ a) (hb : lo ≤ b) (h : |a - b| ≤ δ) :
    |1 / a - 1 / b| ≤ δ / lo ^ 2 := by
  have ha0 : 0 < a := by linarith
  have hb0 : 0 < b := by linarith
  have : 1 / a - 1 / b = (b - a) / (a * b) := by field_simp
  rw [this, abs_div, abs_of_pos (mul_pos ha0 hb0), abs_sub_comm, sq]
  have h0 : 0 ≤ δ := (abs_nonneg _).trans h
  exact div_le_div₀ h0 h (mul_pos hlo hlo) (mul_le_mul ha hb hlo.le ha0.le)

/-- The field of a unit mass changes by less than twice the distance over the cube of the distance to the mass. -/
theorem field_near {a b u : E3} {lo δ : ℝ} (hlo : 0 < lo) (ha : lo ≤ ‖a‖) (hb : lo ≤ ‖b‖) (h : ‖a - b‖ ≤ δ)
    (hu : ‖u‖ = 1) : |⟪a, u⟫_ℝ / ‖a‖ ^ 3 - ⟪b, u⟫_ℝ / ‖b‖ ^ 3| ≤ 2 * δ / lo ^ 3 := by
  have ha0 : 0 < ‖a‖ := by linarith
  have hb0 : 0 < ‖b‖ := by linarith
  have hδ : 0 ≤ δ := (norm_nonneg _).trans h
  have e : ⟪a, u⟫_ℝ / ‖a‖ ^ 3 - ⟪b, u⟫_ℝ / ‖b‖ ^ 3 = ⟪(1 / ‖a‖ ^ 3) • a - (1 / ‖b‖ ^ 3) • b, u⟫_ℝ := by
    rw [inner_sub_left, real_inner_smul_left, real_inner_smul_left]; ring
  rw [e]
  refine (abs_real_inner_le_norm _ _).trans ?_
  rw [hu, mul_one]
  refine abs_le_of_sq_le_sq' ?_ (by positivity) |>.2
  rw [norm_sub_sq_real, norm_smul, norm_smul, real_inner_smul_left, real_inner_smul_right]
  have hab : 2 * ⟪a, b⟫_ℝ = ‖a‖ ^ 2 + ‖b‖ ^ 2 - ‖a - b‖ ^ 2 := by rw [norm_sub_sq_real]; ring
  have htri : (‖a‖ - ‖b‖) ^ 2 ≤ ‖a - b‖ ^ 2 := by
    rw [← sq_abs (‖a‖ - ‖b‖)]
    exact pow_le_pow_left₀ (abs_nonneg _) (abs_norm_sub_norm_le a b) 2
  have hD : ‖a - b‖ ^ 2 ≤ δ ^ 2 := pow_le_pow_left₀ (norm_nonneg _) h 2
  set s := ‖a‖
  set t := ‖b‖
  have n1 : ‖1 / s ^ 3‖ = 1 / s ^ 3 := by rw [Real.norm_eq_abs, abs_of_pos (by positivity)]
  have n2 : ‖1 / t ^ 3‖ = 1 / t ^ 3 := by rw [Real.norm_eq_abs, abs_of_pos (by positivity)]
  rw [n1, n2]
  set α := 1 / s with hα
  set β := 1 / t with hβ
  set γ := 1 / lo with hγ
  have hα0 : 0 < α := by positivity
  have hβ0 : 0 < β := by positivity
  have hαγ : α ≤ γ := one_div_le_one_div_of_le hlo ha
  have hβγ : β ≤ γ := one_div_le_one_div_of_le hlo hb
  have i1 : (1 / s ^ 3 * s) ^ 2 - 2 * (1 / s ^ 3 * (1 / t ^ 3 * ⟪a, b⟫_ℝ)) + (1 / t ^ 3 * t) ^ 2 =
      (s - t) ^ 2 * (α ^ 4 * β ^ 2 + α ^ 3 * β ^ 3 + α ^ 2 * β ^ 4) + ‖a - b‖ ^ 2 * (α ^ 3 * β ^ 3) := by
    have : 2 * (1 / s ^ 3 * (1 / t ^ 3 * ⟪a, b⟫_ℝ)) = 1 / s ^ 3 * (1 / t ^ 3) * (2 * ⟪a, b⟫_ℝ) := by ring
    rw [this, hab, hα, hβ]
    field_simp
    ring
  rw [i1]
  have p42 : α ^ 4 * β ^ 2 ≤ γ ^ 6 := by
    calc _ ≤ γ ^ 4 * γ ^ 2 := mul_le_mul (pow_le_pow_left₀ hα0.le hαγ 4) (pow_le_pow_left₀ hβ0.le hβγ 2)
          (by positivity) (by positivity)
      _ = _ := by ring
  have p33 : α ^ 3 * β ^ 3 ≤ γ ^ 6 := by
    calc _ ≤ γ ^ 3 * γ ^ 3 := mul_le_mul (pow_le_pow_left₀ hα0.le hαγ 3) (pow_le_pow_left₀ hβ0.le hβγ 3)
          (by positivity) (by positivity)
      _ = _ := by ring
  have p24 : α ^ 2 * β ^ 4 ≤ γ ^ 6 := by
    calc _ ≤ γ ^ 2 * γ ^ 4 := mul_le_mul (pow_le_pow_left₀ hα0.le hαγ 2) (pow_le_pow_left₀ hβ0.le hβγ 4)
          (by positivity) (by positivity)
      _ = _ := by ring
  calc _ ≤ δ ^ 2 * (3 * γ ^ 6) + δ ^ 2 * γ ^ 6 :=
        add_le_add (mul_le_mul (htri.trans hD) (by linarith) (by positivity) (by positivity))
          (mul_le_mul hD p33 (by positivity) (by positivity))
    _ = _ := by rw [hγ]; field_simp; ring


/-! ### the properties -/

/-- C142: the returned potential is the one of the bodies (Newton's integral over each tesseroid), with an error
bounded by the sum of `G |ρ| V (δ / lo² + x⁴ / (150 lo))` where `V` is the volume of the tesseroid, `lo` bounds
its distance to the point from below, `δ` its diameter from above, and `x` is half of its latitudinal extent. -/
theorem C142_potential (junk : Junk) (m : Mode) (Mz : Minimizer) (fuel : ℕ)
    (stack0 small0 : ℕ → Tess) (shape : List ℕ) (obs : List P3)
    (hshape : shape.prod = obs.length) (srcs : List (Tess × ℝ)) (radial : Bool)
    (hm : m.Full obs.length (2 * (100000 * srcs.length))) (r : NdArray)
    (h : tesseroidGravity junk m Mz fuel stack0 small0 (arrays shape obs) (srcs.map (·.1))
        (.values (srcs.map (·.2))) "potential" radial false = some (.ok r))
    (i : ℕ) (q : P3) (hq : obs[i]? = some q) (lo δ : Tess → ℝ) (hlo : ∀ s ∈ srcs, 0 < lo s.1)
    (hd : ∀ s ∈ srcs, ∀ a, s.1.Body a → lo s.1 ≤ dist (sphPos q) (sphPos a))
    (hδ : ∀ s ∈ srcs, ∀ a b, s.1.Body a → s.1.Body b → dist (sphPos a) (sphPos b) ≤ δ s.1) :
    ∃ v, r.data[i]? = some v ∧ |v - exactPotential srcs q| ≤
      (srcs.map fun s => gravitationalConst * |s.2| * s.1.bodyVolume *
        (δ s.1 / lo s.1 ^ 2 + s.1.halfLat ^ 4 / (150 * lo s.1))).sum := by
  have hG := gravitationalConst_pos
  obtain ⟨v, h1, h2⟩ := total_near "potential" (potentialSpherical, 1) rfl junk m Mz fuel stack0 small0 shape obs
    hshape srcs radial hm r h i q hq gravitationalConst (fun p => 1 / dist (sphPos q) p)
    (fun t p => 1 / max (dist (sphPos q) p) (lo t)) (fun t => 1 / lo t) (fun t => δ t / lo t ^ 2)
    (fun s hs => continuous_const.div ((continuous_const.dist continuous_id).max continuous_const)
      fun p => (lt_of_lt_of_le (hlo s hs) (le_max_right _ _)).ne')
    (fun s hs a ha => by simp only [max_eq_left (hd s hs a ha)])
    (fun a m => by rw [potential_eval]; ring)
    (fun s hs a ha => by
      have := hd s hs a ha
      have h0 := hlo s hs
      rw [abs_of_pos (by have : 0 < dist (sphPos q) (sphPos a) := by linarith
                         positivity)]
      exact one_div_le_one_div_of_le h0 this)
    (fun s hs a b ha hb => inv_near (hlo s hs) (hd s hs a ha) (hd s hs b hb) (by
      refine le_trans ?_ (hδ s hs a b ha hb)
      rw [abs_le]
      have t1 := dist_triangle (sphPos q) (sphPos a) (sphPos b)
      have t2 := dist_triangle (sphPos q) (sphPos b) (sphPos a)
      rw [dist_comm (sphPos b)] at t2
      constructor <;> linarith))
  refine ⟨v, h1, ?_⟩
  have e1 : exactPotential srcs q = 1 * gravitationalConst *
      (srcs.map fun s => s.2 * s.1.integral fun p => 1 / dist (sphPos q) p).sum := by
    unfold exactPotential
    rw [← List.sum_map_mul_left]
    congr 1; apply List.map_congr_left; intro s _; ring
  rw [e1]
  refine h2.trans (le_of_eq ?_)
  rw [one_mul, abs_of_pos hG, ← List.sum_map_mul_left]
  congr 1
  apply List.map_congr_left
  intro s hs
  have := (hlo s hs).ne'
  field_simp

/-- C142: the same for the attraction (`g_z`, positive downwards, mGal), with `2 δ / lo³ + x⁴ / (150 lo²)`. -/
theorem C142_g_z (junk : Junk) (m : Mode) (Mz : Minimizer) (fuel : ℕ)
    (stack0 small0 : ℕ → Tess) (shape : List ℕ) (obs : List P3)
    (hshape : shape.prod = obs.length) (srcs : List (Tess × ℝ)) (radial : Bool)
    (hm : m.Full obs.length (2 * (100000 * srcs.length))) (r : NdArray)
    (h : tesseroidGravity junk m Mz fuel stack0 small0 (arrays shape obs) (srcs.map (·.1))
        (.values (srcs.map (·.2))) "g_z" radial false = some (.ok r))
    (i : ℕ) (q : P3) (hq : obs[i]? = some q) (lo δ : Tess → ℝ) (hlo : ∀ s ∈ srcs, 0 < lo s.1)
    (hd : ∀ s ∈ srcs, ∀ a, s.1.Body a → lo s.1 ≤ dist (sphPos q) (sphPos a))
    (hδ : ∀ s ∈ srcs, ∀ a b, s.1.Body a → s.1.Body b → dist (sphPos a) (sphPos b) ≤ δ s.1) :
    ∃ v, r.data[i]? = some v ∧ |v - exactAttraction srcs q| ≤
      10 ^ 5 * (srcs.map fun s => gravitationalConst * |s.2| * s.1.bodyVolume *
        (2 * δ s.1 / lo s.1 ^ 3 + s.1.halfLat ^ 4 / (150 * lo s.1 ^ 2))).sum := by
  have hG := gravitationalConst_pos
  have hu := norm_unitPos q.x q.y
  obtain ⟨v, h1, h2⟩ := total_near "g_z" (gravityUSpherical, -10 ^ 5) rfl junk m Mz fuel stack0 small0 shape obs
    hshape srcs radial hm r h i q hq (-gravitationalConst)
    (fun p => ⟪sphPos q - p, unitPos q.x q.y⟫_ℝ / dist (sphPos q) p ^ 3)
    (fun t p => ⟪sphPos q - p, unitPos q.x q.y⟫_ℝ / max (dist (sphPos q) p) (lo t) ^ 3)
    (fun t => 1 / lo t ^ 2) (fun t => 2 * δ t / lo t ^ 3)
    (fun s hs => ((continuous_const.sub continuous_id).inner continuous_const).div
      (((continuous_const.dist continuous_id).max continuous_const).pow 3)
      fun p => (pow_pos (lt_of_lt_of_le (hlo s hs) (le_max_right _ _)) 3).ne')
    (fun s hs a ha => by simp only [max_eq_left (hd s hs a ha)])
    (fun a m => attraction_eval q a m)
    (fun s hs a ha => by
      have h3 := hd s hs a ha
      have h0 := hlo s hs
      have hpos : 0 < dist (sphPos q) (sphPos a) := by linarith
      rw [abs_div, abs_of_pos (pow_pos hpos 3)]
      have h4 := abs_real_inner_le_norm (sphPos q - sphPos a) (unitPos q.x q.y)
      rw [hu, mul_one, ← dist_eq_norm] at h4
      calc _ ≤ dist (sphPos q) (sphPos a) / dist (sphPos q) (sphPos a) ^ 3 :=
            div_le_div_of_nonneg_right h4 (by positivity)
        _ = 1 / dist (sphPos q) (sphPos a) ^ 2 := by field_simp
        _ ≤ _ := one_div_le_one_div_of_le (by positivity) (pow_le_pow_left₀ h0.le h3 2))
    (fun s hs a b ha hb => by
      have h3 := hd s hs a ha
      have h4 := hd s hs b hb
      have h5 := hδ s hs a b ha hb
      simp only [dist_eq_norm] at h3 h4 h5 ⊢
      refine field_near (hlo s hs) h3 h4 ?_ hu
      rw [sub_sub_sub_cancel_left, norm_sub_rev]
      exact h5)
  refine ⟨v, h1, ?_⟩
  have e1 : exactAttraction srcs q = -10 ^ 5 * (-gravitationalConst) *
      (srcs.map fun s => s.2 * s.1.integral fun p =>
        ⟪sphPos q - p, unitPos q.x q.y⟫_ℝ / dist (sphPos q) p ^ 3).sum := by
    unfold exactAttraction
    rw [neg_mul_neg, mul_assoc]
    congr 1
    rw [← List.sum_map_mul_left]
    congr 1; apply List.map_congr_left; intro s _; ring
  rw [e1]
  refine h2.trans (le_of_eq ?_)
  simp only
  rw [neg_mul_neg, abs_of_pos (by positivity), mul_assoc, ← List.sum_map_mul_left]
  congr 2
  apply List.map_congr_left
  intro s hs
  have := (hlo s hs).ne'
  field_simp

/-- Chords are shorter than arcs. -/
theorem chord_le {a b : E3} {R x : ℝ} (hR : 0 ≤ R) (h : dist a b ^ 2 = R ^ 2 * (2 * (1 - Real.cos x))) :
    dist a b ≤ R * |x| := by
  refine abs_le_of_sq_le_sq' ?_ (by positivity) |>.2
  rw [h, mul_pow, sq_abs]
  have := Real.one_sub_sq_div_two_le_cos (x := x)
  exact mul_le_mul_of_nonneg_left (by linarith) (sq_nonneg _)

theorem dist_rpos_lat (l φ φ' : ℝ) {r : ℝ} (hr : 0 ≤ r) : dist (rpos l φ r) (rpos l φ' r) ≤ r * |φ - φ'| := by
  apply chord_le hr
  rw [EuclideanSpace.dist_eq, Real.sq_sqrt (Finset.sum_nonneg fun _ _ => sq_nonneg _), Fin.sum_univ_three]
  simp only [rpos, Real.dist_eq, sq_abs, Real.cos_sub, Matrix.cons_val_zero, Matrix.cons_val_one, Matrix.cons_val]
  linear_combination r ^ 2 * (Real.cos φ - Real.cos φ') ^ 2 * Real.sin_sq_add_cos_sq l +
    r ^ 2 * Real.sin_sq_add_cos_sq φ + r ^ 2 * Real.sin_sq_add_cos_sq φ'

theorem dist_rpos_lon (l l' φ : ℝ) {r : ℝ} (hr : 0 ≤ r) : dist (rpos l φ r) (rpos l' φ r) ≤ r * |l - l'| := by
  have h1 : dist (rpos l φ r) (rpos l' φ r) ≤ (r * |Real.cos φ|) * |l - l'| := by
    apply chord_le (by positivity)
    rw [EuclideanSpace.dist_eq, Real.sq_sqrt (Finset.sum_nonneg fun _ _ => sq_nonneg _), Fin.sum_univ_three]
    simp only [rpos, Real.dist_eq, sq_abs, Real.cos_sub, Matrix.cons_val_zero, Matrix.cons_val_one, Matrix.cons_val,
      mul_pow]
    linear_combination r ^ 2 * Real.cos φ ^ 2 * Real.sin_sq_add_cos_sq l +
      r ^ 2 * Real.cos φ ^ 2 * Real.sin_sq_add_cos_sq l'
  refine h1.trans (mul_le_mul_of_nonneg_right ?_ (abs_nonneg _))
  calc _ ≤ r * 1 := mul_le_mul_of_nonneg_left (Real.abs_cos_le_one φ) hr
    _ = r := mul_one r

theorem dist_rpos_rad (l φ r r' : ℝ) : dist (rpos l φ r) (rpos l φ r') = |r - r'| := by
  have h : dist (rpos l φ r) (rpos l φ r') ^ 2 = (r - r') ^ 2 := by
    rw [EuclideanSpace.dist_eq, Real.sq_sqrt (Finset.sum_nonneg fun _ _ => sq_nonneg _), Fin.sum_univ_three]
    simp only [rpos, Real.dist_eq, sq_abs, Matrix.cons_val_zero, Matrix.cons_val_one, Matrix.cons_val]
    linear_combination (r - r') ^ 2 * Real.cos φ ^ 2 * Real.sin_sq_add_cos_sq l +
      (r - r') ^ 2 * Real.sin_sq_add_cos_sq φ
  rw [← abs_of_nonneg (dist_nonneg (x := rpos l φ r) (y := rpos l φ r'))]
  exact (sq_eq_sq_iff_abs_eq_abs _ _).1 h

theorem body_rpos {t : Tess} {a : P3} (ha : t.Body a) : ∃ l, radians t.w ≤ l ∧ l ≤ radians (eastEnd t.w t.e) ∧
    sphPos a = rpos l (radians a.y) a.z := by
  obtain ⟨⟨k, k1, k2⟩, -⟩ := ha
  refine ⟨radians (a.x + 360 * k), radians_le.2 k1, radians_le.2 k2, ?_⟩
  have : radians (a.x + 360 * k) = radians a.x + k * (2 * Real.pi) := by unfold radians; ring
  rw [rpos_radians, this]
  unfold rpos
  rw [Real.cos_add_int_mul_two_pi, Real.sin_add_int_mul_two_pi]

/-- C142: the diameter of a tesseroid is at most its extent (thickness plus lengths of the sides at the top), so
the errors go to zero when a model is split in smaller tesseroids. -/
theorem C142_extent (t : Tess) (h : 0 ≤ t.bottom) (a b : P3) (ha : t.Body a) (hb : t.Body b) :
    dist (sphPos a) (sphPos b) ≤ t.extent := by
  obtain ⟨l, l1, l2, hl⟩ := body_rpos ha
  obtain ⟨l', l1', l2', hl'⟩ := body_rpos hb
  obtain ⟨-, ⟨y1, y2⟩, z1, z2⟩ := ha
  obtain ⟨-, ⟨y1', y2'⟩, z1', z2'⟩ := hb
  have hz : 0 ≤ b.z := by linarith
  have y1 := radians_le.2 y1
  have y2 := radians_le.2 y2
  have y1' := radians_le.2 y1'
  have y2' := radians_le.2 y2'
  rw [hl, hl']
  have t1 := dist_triangle (rpos l (radians a.y) a.z) (rpos l (radians a.y) b.z) (rpos l' (radians b.y) b.z)
  have t2 := dist_triangle (rpos l (radians a.y) b.z) (rpos l (radians b.y) b.z) (rpos l' (radians b.y) b.z)
  have d1 := dist_rpos_rad l (radians a.y) a.z b.z
  have d2 := dist_rpos_lat l (radians a.y) (radians b.y) hz
  have d3 := dist_rpos_lon l l' (radians b.y) hz
  have a1 : |a.z - b.z| ≤ t.top - t.bottom := by rw [abs_le]; constructor <;> linarith
  have rs : ∀ x y, radians (x - y) = radians x - radians y := fun x y => by unfold radians; ring
  have a2 : |radians a.y - radians b.y| ≤ radians (t.n - t.s) := by
    rw [rs, abs_le]; constructor <;> linarith
  have a3 : |l - l'| ≤ radians (eastEnd t.w t.e - t.w) := by
    rw [rs, abs_le]; constructor <;> linarith
  have m2 := mul_le_mul z2' a2 (abs_nonneg _) (by linarith)
  have m3 := mul_le_mul z2' a3 (abs_nonneg _) (by linarith)
  unfold Tess.extent
  linarith

/-- C142 for points above all bodies: a model of tesseroids up to the radius `b`, all of them smaller than `δ`,
seen from the radius `q.z > b`: the error of the potential is at most
`G Σ|ρ|V (δ / (q.z - b)² + x⁴ / (150 (q.z - b)))`. -/
theorem C142_above (junk : Junk) (m : Mode) (Mz : Minimizer) (fuel : ℕ)
    (stack0 small0 : ℕ → Tess) (shape : List ℕ) (obs : List P3)
    (hshape : shape.prod = obs.length) (srcs : List (Tess × ℝ)) (radial : Bool)
    (hm : m.Full obs.length (2 * (100000 * srcs.length))) (r : NdArray)
    (h : tesseroidGravity junk m Mz fuel stack0 small0 (arrays shape obs) (srcs.map (·.1))
        (.values (srcs.map (·.2))) "potential" radial false = some (.ok r))
    (i : ℕ) (q : P3) (hq : obs[i]? = some q) (b δ x : ℝ) (hb0 : 0 ≤ b) (hb : b < q.z)
    (htop : ∀ s ∈ srcs, s.1.top ≤ b) (hδ : ∀ s ∈ srcs, s.1.extent ≤ δ) (hx : ∀ s ∈ srcs, s.1.halfLat ≤ x) :
    ∃ v, r.data[i]? = some v ∧ |v - exactPotential srcs q| ≤
      gravitationalConst * massOf (srcs.map fun s => (s.1, |s.2|)) *
        (δ / (q.z - b) ^ 2 + x ^ 4 / (150 * (q.z - b))) := by
  have hG := gravitationalConst_pos
  have hret := (returns_of_ok (kc := (potentialSpherical, 1)) rfl hshape hm h).1
  have hlo : 0 < q.z - b := by linarith
  have hrange : ∀ s ∈ srcs, s.1.ValidRange := fun s hs => (checked hret s hs).1
  obtain ⟨v, h1, h2⟩ := C142_potential junk m Mz fuel stack0 small0 shape obs hshape srcs radial hm r h i q hq
    (fun _ => q.z - b) (fun _ => δ) (fun _ _ => hlo) (fun s hs a ha => by
      obtain ⟨-, -, a5, a6⟩ := ha
      have hz : 0 ≤ a.z := by linarith [(hrange s hs).radii.1]
      have n1 := norm_sphPos a hz
      have n2 := norm_sphPos q (by linarith)
      have t1 := norm_sub_norm_le (sphPos q) (sphPos a)
      rw [dist_eq_norm]
      have := htop s hs
      linarith)
    (fun s hs a c ha hc => (C142_extent s.1 (hrange s hs).radii.1 a c ha hc).trans (hδ s hs))
  refine ⟨v, h1, h2.trans ?_⟩
  unfold massOf
  rw [List.map_map, ← List.sum_map_mul_left, ← List.sum_map_mul_right]
  apply List.sum_le_sum
  intro s hs
  have hg := good_of_range (hrange s hs)
  have hV := bodyVolume_nonneg hg
  have hl0 : 0 ≤ s.1.halfLat := by
    have := radians_le.2 hg.sn
    unfold Tess.halfLat; linarith
  simp only [Function.comp]
  calc _ ≤ gravitationalConst * |s.2| * s.1.bodyVolume * (δ / (q.z - b) ^ 2 + x ^ 4 / (150 * (q.z - b))) := by
        refine mul_le_mul_of_nonneg_left ?_ (by positivity)
        gcongr
        exact hx s hs
    _ = _ := by ring

/-- The hypotheses are met by calls that return: a tesseroid of two degrees and thickness 1 at a distance of 998
or more; the error of the potential is less than two percent of the one of the mass at 1000. -/
example (junk : Junk) (M : Minimizer) (stack0 small0 : ℕ → Tess) :
    let srcs : List (Tess × ℝ) := [(⟨-1, 1, -1, 1, 1, 2⟩, 1)]
    ∃ r, tesseroidGravity junk .serial M 0 stack0 small0 (arrays [1] [⟨0, 0, 1000⟩])
      (srcs.map (·.1)) (.values (srcs.map (·.2))) "potential" true false = some (.ok r) ∧
    ∃ v, r.data[0]? = some v ∧ |v - exactPotential srcs ⟨0, 0, 1000⟩| ≤
      gravitationalConst * massOf srcs / 1000 * 0.02 := by
  intro srcs
  obtain ⟨r, hr⟩ := far_potential_returns junk M stack0 small0
  refine ⟨r, hr, ?_⟩
  have hpi := Real.pi_le_four
  have hpi0 := Real.pi_pos
  obtain ⟨v, h1, h2⟩ := C142_above junk .serial M 0 stack0 small0 [1] [⟨0, 0, 1000⟩] (by simp) srcs true trivial r hr 0
    ⟨0, 0, 1000⟩ rfl 2 2 0.1 (by norm_num) (by norm_num) (by simp [srcs]) (by
      simp only [srcs, List.mem_singleton, forall_eq, Tess.extent]
      rw [eastEnd_of_le (by norm_num)]
      unfold radians
      linarith) (by
      simp only [srcs, List.mem_singleton, forall_eq, Tess.halfLat, radians]
      linarith)
  refine ⟨v, h1, h2.trans ?_⟩
  have hM : 0 ≤ massOf srcs := by
    simp only [massOf, srcs, List.map_cons, List.map_nil, List.sum_cons, List.sum_nil, one_mul, add_zero]
    exact bodyVolume_nonneg ⟨by norm_num, by norm_num, by norm_num, by norm_num⟩
  have e : massOf (srcs.map fun s => (s.1, |s.2|)) = massOf srcs := by simp [srcs, massOf]
  rw [e]
  have hG := gravitationalConst_pos
  calc gravitationalConst * massOf srcs * (2 / (1000 - 2) ^ 2 + 0.1 ^ 4 / (150 * (1000 - 2)))
      ≤ gravitationalConst * massOf srcs * (0.02 / 1000) :=
        mul_le_mul_of_nonneg_left (by norm_num) (by positivity)
    _ = _ := by ring

/-- and so is the attraction of that tesseroid, by `C142_g_z` with the distance 998 and the extent 2 -/
example (junk : Junk) (M : Minimizer) (stack0 small0 : ℕ → Tess) :
    let srcs : List (Tess × ℝ) := [(⟨-1, 1, -1, 1, 1, 2⟩, 1)]
    ∃ r, tesseroidGravity junk .serial M 0 stack0 small0 (arrays [1] [⟨0, 0, 1000⟩])
      (srcs.map (·.1)) (.values (srcs.map (·.2))) "g_z" true false = some (.ok r) ∧
    ∃ v, r.data[0]? = some v ∧ |v - exactAttraction srcs ⟨0, 0, 1000⟩| ≤
      10 ^ 5 * (srcs.map fun s => gravitationalConst * |s.2| * s.1.bodyVolume *
        (2 * s.1.extent / 998 ^ 3 + s.1.halfLat ^ 4 / (150 * 998 ^ 2))).sum := by
  intro srcs
  obtain ⟨r, hr⟩ := far_call_returns junk M stack0 small0
  refine ⟨r, hr, ?_⟩
  refine C142_g_z junk .serial M 0 stack0 small0 [1] [⟨0, 0, 1000⟩] (by simp) srcs true trivial r hr 0
    ⟨0, 0, 1000⟩ rfl (fun _ => 998) Tess.extent (fun _ _ => by norm_num) ?_ ?_
  · simp only [srcs, List.mem_singleton, forall_eq]
    rintro a ⟨-, -, a5, a6⟩
    simp only at a5 a6
    have n1 := norm_sphPos a (by linarith)
    have n2 := norm_sphPos ⟨0, 0, 1000⟩ (by norm_num)
    have t1 := norm_sub_norm_le (sphPos ⟨0, 0, 1000⟩) (sphPos a)
    rw [dist_eq_norm]
    simp only at n2
    linarith
  · simp only [srcs, List.mem_singleton, forall_eq]
    exact C142_extent _ (by norm_num)

end Verif.Tesseroid
