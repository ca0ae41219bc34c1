import Verif.Forward.PropsP

/-! C162: dipoles instead of magnetized prisms. -/

namespace Verif.Forward

open MeasureTheory
open Verif.Distance (P3)
open Verif.Engine (Mode)

/-! ### Specification -/

/-- `prism_magnetic` returns this field (nT), at points that are not in the prisms. -/
def MagnetsReturn (junk : Junk) (K : MagKernels Prism) (srcs : List (Prism × V3)) (B : P3 → V3) : Prop :=
  ∀ (mode : Mode) (shape : List ℕ) (obs : List P3) (dis : Bool), shape.prod = obs.length →
    mode.Full obs.length (6 * srcs.length) → (∀ q ∈ obs, ∀ s ∈ srcs, coords q ∉ s.1.body) →
    prismMagnetic junk mode K (arrays shape obs) (srcs.map (·.1))
      [(srcs.map (·.2)).map (·.x), (srcs.map (·.2)).map (·.y), (srcs.map (·.2)).map (·.z)] "b" dis =
    .ok (.vector ⟨shape, obs.map fun q => (B q).x⟩ ⟨shape, obs.map fun q => (B q).y⟩ ⟨shape, obs.map fun q => (B q).z⟩)

/-- `dipole_magnetic` returns this field. -/
def DipolesReturn (junk : Junk) (K : MagKernels P3) (srcs : List (P3 × V3)) (B : P3 → V3) : Prop :=
  ∀ (mode : Mode) (shape ps : List ℕ) (obs : List P3) (dis : Bool), shape.prod = obs.length →
    mode.Full obs.length (6 * srcs.length) →
    dipoleMagnetic junk mode K (arrays shape obs) (arrays ps (srcs.map (·.1)))
      [(srcs.map (·.2)).map (·.x), (srcs.map (·.2)).map (·.y), (srcs.map (·.2)).map (·.z)] "b" dis =
    .ok (.vector ⟨shape, obs.map fun q => (B q).x⟩ ⟨shape, obs.map fun q => (B q).y⟩ ⟨shape, obs.map fun q => (B q).z⟩)

/-- The magnetic moment of a prism. -/
noncomputable def momentOf (p : Prism) (m : V3) : V3 := ⟨p.volume * m.x, p.volume * m.y, p.volume * m.z⟩

/-- The moment of each prism at the point that comes with it. -/
noncomputable def magnets (pieces : List ((Prism × V3) × P3)) : List (P3 × V3) :=
  pieces.map fun s => (s.2, momentOf s.1.1 s.1.2)

/-- Every prism divided into `n³` equal parts, with their centres. -/
noncomputable def centredMagnets (n : ℕ) (srcs : List (Prism × V3)) : List ((Prism × V3) × P3) :=
  srcs.flatMap fun s => (divided n [(s.1, 1)]).map fun t => ((t.1, s.2), t.1.centre)

/-- The sum of the components of the moments. -/
noncomputable def momentSum (srcs : List (Prism × V3)) : ℝ :=
  (srcs.map fun s => (|s.2.x| + |s.2.y| + |s.2.z|) * s.1.volume).sum

/-! ### The fields of moments at near points -/

theorem tensor_near {X Y X' Y' c a b r δ : ℝ} (hr : 0 < r) (ha : 0 < a) (hb : 0 < b) (hc : |c| ≤ 1)
    (hi : Near (1 / r) (δ * (1 / r) ^ 2) (1 / a) (1 / b))
    (hX : Near 1 (2 * δ * (1 / r)) (X * (1 / a)) (X' * (1 / b)))
    (hY : Near 1 (2 * δ * (1 / r)) (Y * (1 / a)) (Y' * (1 / b))) :
    |(3 * X * Y / a ^ 5 - c / a ^ 3) - (3 * X' * Y' / b ^ 5 - c / b ^ 3)| ≤ 24 * δ / r ^ 4 := by
  have h3 := (((hX.mul hi).mul (hY.mul hi)).mul hi).2.2
  have h4 := ((hi.mul hi).mul hi).2.2
  have e : (3 * X * Y / a ^ 5 - c / a ^ 3) - (3 * X' * Y' / b ^ 5 - c / b ^ 3) =
      3 * (X * (1 / a) * (1 / a) * (Y * (1 / a) * (1 / a)) * (1 / a) -
        X' * (1 / b) * (1 / b) * (Y' * (1 / b) * (1 / b)) * (1 / b)) +
        -c * (1 / a * (1 / a) * (1 / a) - 1 / b * (1 / b) * (1 / b)) := by
    field_simp
    ring
  rw [e]
  have h5 := abs_add_le (3 * (X * (1 / a) * (1 / a) * (Y * (1 / a) * (1 / a)) * (1 / a) -
        X' * (1 / b) * (1 / b) * (Y' * (1 / b) * (1 / b)) * (1 / b)))
        (-c * (1 / a * (1 / a) * (1 / a) - 1 / b * (1 / b) * (1 / b)))
  rw [abs_mul, abs_mul, abs_neg, abs_of_pos (show (0 : ℝ) < 3 by norm_num)] at h5
  refine (h5.trans (add_le_add (mul_le_mul_of_nonneg_left h3 (by norm_num))
    (mul_le_mul hc h4 (abs_nonneg _) zero_le_one))).trans (le_of_eq ?_)
  field_simp
  ring

/-- What is used of the components of the field of a dipole. -/
structure DipolePart (mu0 : ℝ) (k : P3 → P3 → V3 → ℝ) : Prop where
  point : ∀ m, PointField (fun q p t => t * k q p m) 3
  near : ∀ (q p p' : P3) (m : V3) (r δ : ℝ), 0 < r → r ≤ gap q p → r ≤ gap q p' → gap p p' ≤ δ →
    |k q p m - k q p' m| ≤ |mu0| / (4 * Real.pi) * (24 * δ / r ^ 4) * (|m.x| + |m.y| + |m.z|)
  lin : ∀ (q p : P3) (m : V3) (t : ℝ), k q p ⟨t * m.x, t * m.y, t * m.z⟩ = t * k q p m

set_option maxHeartbeats 1000000 in
theorem dipole_parts (mu0 : ℝ) : DipolePart mu0 (dipoleKernels mu0).e ∧ DipolePart mu0 (dipoleKernels mu0).n ∧
    DipolePart mu0 (dipoleKernels mu0).u := by
  have main : ∀ (q p p' : P3) (m : V3) (r δ : ℝ), 0 < r → r ≤ gap q p → r ≤ gap q p' → gap p p' ≤ δ →
      |(dipoleKernels mu0).e q p m - (dipoleKernels mu0).e q p' m| ≤
        |mu0| / (4 * Real.pi) * (24 * δ / r ^ 4) * (|m.x| + |m.y| + |m.z|) ∧
      |(dipoleKernels mu0).n q p m - (dipoleKernels mu0).n q p' m| ≤
        |mu0| / (4 * Real.pi) * (24 * δ / r ^ 4) * (|m.x| + |m.y| + |m.z|) ∧
      |(dipoleKernels mu0).u q p m - (dipoleKernels mu0).u q p' m| ≤
        |mu0| / (4 * Real.pi) * (24 * δ / r ^ 4) * (|m.x| + |m.y| + |m.z|) := by
    intro q p p' m r δ hr hp hp' hδ
    have hpi := Real.pi_pos
    have hd : |gap q p - gap q p'| ≤ δ := by
      have h1 := gap_triangle q p' p
      have h2 := gap_triangle q p p'
      rw [gap_swap p' p] at h1
      rw [abs_le]
      constructor <;> linarith
    obtain ⟨x1, y1, z1⟩ := abs_x_le_gap q p
    obtain ⟨x2, y2, z2⟩ := abs_x_le_gap q p'
    obtain ⟨x3, y3, z3⟩ := abs_x_le_gap p p'
    have hi := near_inv hr hp hp' hd
    have sub : ∀ {u v w : ℝ}, |v - w| ≤ gap p p' → |(u - v) - (u - w)| ≤ δ := fun {u v w} h => by
      rw [show (u - v) - (u - w) = -(v - w) by ring, abs_neg]
      exact h.trans hδ
    have hx := near_unit hr hp hp' hd (sub x3) x1 x2
    have hy := near_unit hr hp hp' hd (sub y3) y1 y2
    have hz := near_unit hr hp hp' hd (sub z3) z1 z2
    have a0 := hr.trans_le hp
    have b0 := hr.trans_le hp'
    simp only [dipoleKernels]
    generalize gap q p = a at *
    generalize gap q p' = b at *
    have n0 : |(0 : ℝ)| ≤ 1 := by norm_num
    have n1 : |(1 : ℝ)| ≤ 1 := by norm_num
    have fin : ∀ {t1 t2 t3 s1 s2 s3 E : ℝ}, |t1 - s1| ≤ 24 * δ / r ^ 4 → |t2 - s2| ≤ 24 * δ / r ^ 4 →
        |t3 - s3| ≤ 24 * δ / r ^ 4 →
        E = mu0 / (4 * Real.pi) * (m.x * (t1 - s1) + m.y * (t2 - s2) + m.z * (t3 - s3)) →
        |E| ≤ |mu0| / (4 * Real.pi) * (24 * δ / r ^ 4) * (|m.x| + |m.y| + |m.z|) := by
      intro t1 t2 t3 s1 s2 s3 E h1 h2 h3 hE
      rw [hE, abs_mul, abs_div, abs_of_pos (show 0 < 4 * Real.pi by positivity), mul_assoc]
      refine mul_le_mul_of_nonneg_left ?_ (by positivity)
      refine (abs_add_three _ _ _).trans ?_
      rw [abs_mul, abs_mul, abs_mul]
      have := mul_le_mul_of_nonneg_left h1 (abs_nonneg m.x)
      have := mul_le_mul_of_nonneg_left h2 (abs_nonneg m.y)
      have := mul_le_mul_of_nonneg_left h3 (abs_nonneg m.z)
      linarith
    refine ⟨fin (tensor_near hr a0 b0 n1 hi hx hx) (tensor_near hr a0 b0 n0 hi hy hx) (tensor_near hr a0 b0 n0 hi hz hx) ?_,
      fin (tensor_near hr a0 b0 n0 hi hx hy) (tensor_near hr a0 b0 n1 hi hy hy) (tensor_near hr a0 b0 n0 hi hz hy) ?_,
      fin (tensor_near hr a0 b0 n0 hi hx hz) (tensor_near hr a0 b0 n0 hi hy hz) (tensor_near hr a0 b0 n1 hi hz hz) ?_⟩ <;>
      ring
  refine ⟨⟨dipole_e mu0, fun q p p' m r δ h1 h2 h3 h4 => (main q p p' m r δ h1 h2 h3 h4).1, ?_⟩,
    ⟨dipole_n mu0, fun q p p' m r δ h1 h2 h3 h4 => (main q p p' m r δ h1 h2 h3 h4).2.1, ?_⟩,
    ⟨dipole_u mu0, fun q p p' m r δ h1 h2 h3 h4 => (main q p p' m r δ h1 h2 h3 h4).2.2, ?_⟩⟩ <;>
    · intro q p m t
      simp only [dipoleKernels]
      ring

/-! ### Lists of sources -/

theorem magnet_near {mu0 : ℝ} {k : P3 → P3 → V3 → ℝ} (hk : DipolePart mu0 k) {p : Prism} (hord : p.Ordered) (m : V3)
    {q c : P3} {r δ : ℝ} (hr : 0 < r) (hc : r ≤ gap q c)
    (hb : ∀ x ∈ p.body, r ≤ gap q (pointAt x) ∧ gap (pointAt x) c ≤ δ) :
    |(∫ x in p.body, k q (pointAt x) m) - k q c (momentOf p m)| ≤
      |mu0| / (4 * Real.pi) * (24 * δ / r ^ 4) * ((|m.x| + |m.y| + |m.z|) * p.volume) := by
  have ho : coords q ∉ p.body := by
    intro hin
    have := (hb _ hin).1
    rw [pointAt_coords, gap_self] at this
    linarith
  have hI : IntegrableOn (fun x => k q (pointAt x) m) p.body := by
    simpa only [one_mul] using (hk.point m).integrableOn_outside ho 1
  have hlt := p.body_compact.measure_lt_top (μ := volume)
  have hc0 : k q c (momentOf p m) = ∫ _ in p.body, k q c m := by
    rw [setIntegral_const, p.volume_body hord, smul_eq_mul, momentOf, hk.lin]
  rw [hc0, ← integral_sub hI (integrableOn_const hlt.ne), ← Real.norm_eq_abs]
  refine (norm_setIntegral_le_of_norm_le_const (C := |mu0| / (4 * Real.pi) * (24 * δ / r ^ 4) *
    (|m.x| + |m.y| + |m.z|)) hlt fun x hx => ?_).trans (le_of_eq ?_)
  · rw [Real.norm_eq_abs]
    exact hk.near q _ c m r δ hr (hb x hx).1 hc (hb x hx).2
  · rw [p.volume_body hord]
    ring

theorem magnets_near {mu0 : ℝ} {k k' : P3 → P3 → V3 → ℝ} (hk : DipolePart mu0 k)
    (hkk : ∀ q p m, q ≠ p → k' q p m = k q p m) (pieces : List ((Prism × V3) × P3))
    (hord : ∀ s ∈ pieces, s.1.1.Ordered) {q : P3} {r δ : ℝ} (hr : 0 < r)
    (h : ∀ s ∈ pieces, r ≤ gap q s.2 ∧ ∀ x ∈ s.1.1.body, r ≤ gap q (pointAt x) ∧ gap (pointAt x) s.2 ≤ δ) :
    |bodyMag k (pieces.map (·.1)) q - total (fun q s => k' q s.1 s.2) (magnets pieces) q * 10 ^ 9| ≤
      10 ^ 9 * (|mu0| / (4 * Real.pi) * (24 * δ / r ^ 4) * momentSum (pieces.map (·.1))) := by
  simp only [bodyMag, total, magnets, List.map_map, momentSum]
  rw [← sub_mul, sum_map_sub', abs_mul, abs_of_pos (show (0 : ℝ) < 10 ^ 9 by norm_num), mul_comm]
  refine mul_le_mul_of_nonneg_left ?_ (by norm_num)
  rw [← List.sum_map_mul_left]
  refine abs_sum_le pieces _ _ fun s hs => ?_
  obtain ⟨h1, h2⟩ := h s hs
  have hne : q ≠ s.2 := by
    intro e
    rw [e, gap_self] at h1
    linarith
  simp only [Function.comp_apply]
  rw [hkk _ _ _ hne]
  exact magnet_near hk (hord s hs) s.1.2 hr h1 h2

theorem dipoleMagnetic_total (junk : Junk) {mu0 : ℝ} {K : MagKernels P3} (hK : K.Dipole mu0) (srcs : List (P3 × V3)) :
    DipolesReturn junk K srcs fun q => ⟨total (fun q s => K.e q s.1 s.2) srcs q * 10 ^ 9,
      total (fun q s => K.n q s.1 s.2) srcs q * 10 ^ 9, total (fun q s => K.u q s.1 s.2) srcs q * 10 ^ 9⟩ := by
  intro mode shape ps obs dis hs hm
  rw [dipoleMagnetic_eq junk mode K shape ps obs hs srcs hm]
  simp [magSpec, hK.field]

/-! ### Parts of prisms -/

theorem centredMagnets_mem {n : ℕ} {srcs : List (Prism × V3)} {t : (Prism × V3) × P3} (h : t ∈ centredMagnets n srcs) :
    ∃ s ∈ srcs, ∃ i j k, i < n ∧ j < n ∧ k < n ∧ t = ((s.1.part n i j k, s.2), (s.1.part n i j k).centre) := by
  simp only [centredMagnets, List.mem_flatMap, List.mem_map] at h
  obtain ⟨s, hs, u, hu, rfl⟩ := h
  obtain ⟨s', hs', i, j, k, hi, hj, hk, rfl⟩ := divided_mem hu
  rw [List.mem_singleton] at hs'
  subst hs'
  exact ⟨s, hs, i, j, k, hi, hj, hk, rfl⟩

theorem parts_mag {mu0 : ℝ} {k : P3 → P3 → V3 → ℝ} (hk : DipolePart mu0 k) {n : ℕ} (hn : n ≠ 0) {p : Prism}
    (hp : p.Ordered) (m : V3) {q : P3} {r : ℝ} (hr : 0 < r) (hd : ∀ x ∈ p.body, r ≤ gap q (pointAt x)) :
    ((divided n [(p, 1)]).map fun t => ∫ x in t.1.body, k q (pointAt x) m).sum = ∫ x in p.body, k q (pointAt x) m := by
  have h1 : ∀ s ∈ [((p, 1) : Prism × ℝ)], coords q ∉ s.1.body := outside_of_far hr (by simpa using hd)
  have hord : ∀ s ∈ [((p, 1) : Prism × ℝ)], s.1.Ordered := by simpa using hp
  have h2 : ∀ s ∈ divided n [((p, 1) : Prism × ℝ)], coords q ∉ s.1.body := by
    refine outside_of_far hr fun t ht x hx => ?_
    obtain ⟨s, hs, i, j, k, hi, hj, hk, rfl⟩ := divided_mem ht
    rw [List.mem_singleton] at hs
    subst hs
    exact hd x ((part_facts hp hi hj hk).2.2.1 hx)
  have e1 := (sum_integrals (hk.point m) [(p, 1)] q (Or.inr h1)).1
  have e2 := (sum_integrals (hk.point m) (divided n [(p, 1)]) q (Or.inr h2)).1
  have e3 : ∀ t ∈ divided n [((p, 1) : Prism × ℝ)], ∫ x in t.1.body, t.2 * k q (pointAt x) m =
      ∫ x in t.1.body, k q (pointAt x) m := by
    intro t ht
    obtain ⟨s, hs, i, j, k, hi, hj, hk, rfl⟩ := divided_mem ht
    rw [List.mem_singleton] at hs
    subst hs
    simp only [one_mul]
  rw [List.map_congr_left e3] at e2
  simp only [List.map_cons, List.map_nil, List.sum_cons, List.sum_nil, add_zero, one_mul] at e1
  rw [e1, e2]
  refine integral_congr_ae ?_
  filter_upwards [divided_density hn hord] with x hx
  rw [hx, one_mul]

/-! ### C162 -/

/-- C162: at points at a distance of `r` or more, the field of magnetized prisms is that of dipoles with the moments
of the prisms, at points that are at most `δ` away from every point of their prism, but for an error of `δ` times the
moments over the fourth power of `r`. -/
theorem C162_pieces (junk : Junk) {mu0 : ℝ} {K : MagKernels Prism} (hK : K.Magnetized mu0) {K' : MagKernels P3}
    (hK' : K'.Dipole mu0) (pieces : List ((Prism × V3) × P3)) (hord : ∀ s ∈ pieces, s.1.1.Ordered) :
    ∃ B B' : P3 → V3, MagnetsReturn junk K (pieces.map (·.1)) B ∧ DipolesReturn junk K' (magnets pieces) B' ∧
      ∀ q r δ, 0 < r →
        (∀ s ∈ pieces, r ≤ gap q s.2 ∧ ∀ x ∈ s.1.1.body, r ≤ gap q (pointAt x) ∧ gap (pointAt x) s.2 ≤ δ) →
        let bound := 10 ^ 9 * (|mu0| / (4 * Real.pi) * (24 * δ / r ^ 4) * momentSum (pieces.map (·.1)))
        |(B q).x - (B' q).x| ≤ bound ∧ |(B q).y - (B' q).y| ≤ bound ∧ |(B q).z - (B' q).z| ≤ bound := by
  obtain ⟨d1, d2, d3⟩ := dipole_parts mu0
  refine ⟨fun q => ⟨bodyMag (dipoleKernels mu0).e _ q, bodyMag (dipoleKernels mu0).n _ q,
    bodyMag (dipoleKernels mu0).u _ q⟩, _, fun mode shape obs dis hs hm ho =>
    (prismMagnetic_body junk mode hK shape obs hs _ dis ?_ hm ho).1, dipoleMagnetic_total junk hK' _, ?_⟩
  · intro s hs
    obtain ⟨t, ht, rfl⟩ := List.mem_map.1 hs
    exact hord t ht
  · intro q r δ hr h
    exact ⟨magnets_near d1 hK'.e pieces hord hr h, magnets_near d2 hK'.n pieces hord hr h,
      magnets_near d3 hK'.u pieces hord hr h⟩

/-- C162: when every prism is divided into `n³` equal parts, the dipoles of the parts at their centres have the field
of the prisms, at distances of `r` or more, but for an error that decreases as `1 / n`. -/
theorem C162_converge (junk : Junk) {mu0 : ℝ} {K : MagKernels Prism} (hK : K.Magnetized mu0) {K' : MagKernels P3}
    (hK' : K'.Dipole mu0) (srcs : List (Prism × V3)) (hord : ∀ s ∈ srcs, s.1.Ordered) :
    ∃ (B : P3 → V3) (B' : ℕ → P3 → V3), MagnetsReturn junk K srcs B ∧
      (∀ n, DipolesReturn junk K' (magnets (centredMagnets n srcs)) (B' n)) ∧
      ∀ q r L, 0 < r → (∀ s ∈ srcs, ∀ x ∈ s.1.body, r ≤ gap q (pointAt x)) →
        (∀ s ∈ srcs, √((s.1.east - s.1.west) ^ 2 + (s.1.north - s.1.south) ^ 2 + (s.1.top - s.1.bottom) ^ 2) ≤ L) →
        ∀ n : ℕ, n ≠ 0 →
          let bound := 10 ^ 9 * (|mu0| / (4 * Real.pi) * (24 * (L / (2 * n)) / r ^ 4) * momentSum srcs)
          |(B q).x - (B' n q).x| ≤ bound ∧ |(B q).y - (B' n q).y| ≤ bound ∧ |(B q).z - (B' n q).z| ≤ bound := by
  obtain ⟨d1, d2, d3⟩ := dipole_parts mu0
  refine ⟨fun q => ⟨bodyMag (dipoleKernels mu0).e srcs q, bodyMag (dipoleKernels mu0).n srcs q,
    bodyMag (dipoleKernels mu0).u srcs q⟩, _, fun mode shape obs dis hs hm ho =>
    (prismMagnetic_body junk mode hK shape obs hs _ dis hord hm ho).1, fun n => dipoleMagnetic_total junk hK' _, ?_⟩
  intro q r L hr hd hL n hn
  have hn0 : (0 : ℝ) < n := by exact_mod_cast Nat.pos_of_ne_zero hn
  have ordd : ∀ t ∈ centredMagnets n srcs, t.1.1.Ordered := by
    intro t ht
    obtain ⟨s, hs, i, j, k, hi, hj, hk, rfl⟩ := centredMagnets_mem ht
    exact (part_facts (hord s hs) hi hj hk).1
  have hyp : ∀ t ∈ centredMagnets n srcs, r ≤ gap q t.2 ∧ ∀ x ∈ t.1.1.body,
      r ≤ gap q (pointAt x) ∧ gap (pointAt x) t.2 ≤ L / (2 * n) := by
    intro t ht
    obtain ⟨s, hs, i, j, k, hi, hj, hk, rfl⟩ := centredMagnets_mem ht
    obtain ⟨-, -, f3, f4, f5⟩ := part_facts (hord s hs) hi hj hk
    refine ⟨?_, fun x hx => ⟨hd s hs x (f3 hx), (f5 x hx).trans ?_⟩⟩
    · have := hd s hs _ (f3 f4)
      rwa [pointAt_coords] at this
    · exact div_le_div_of_nonneg_right (hL s hs) (by positivity)
  have e1 : ∀ {k : P3 → P3 → V3 → ℝ}, DipolePart mu0 k →
      bodyMag k ((centredMagnets n srcs).map (·.1)) q = bodyMag k srcs q := by
    intro k hk
    simp only [bodyMag, centredMagnets, List.map_map, sum_flatMap', Function.comp_def]
    congr 2
    exact List.map_congr_left fun s hs => parts_mag hk hn (hord s hs) s.2 hr (hd s hs)
  have e2 : momentSum ((centredMagnets n srcs).map (·.1)) = momentSum srcs := by
    simp only [momentSum, centredMagnets, List.map_map, sum_flatMap', Function.comp_def]
    congr 1
    refine List.map_congr_left fun s hs => ?_
    have hm := divided_mass hn (srcs := [(s.1, 1)]) (by simpa using hord s hs)
    rw [List.sum_map_mul_left]
    congr 1
    have e3 : ∀ t ∈ divided n [((s.1, 1) : Prism × ℝ)], |t.2| * t.1.volume = t.1.volume := by
      intro t ht
      obtain ⟨u, hu, i, j, k, hi, hj, hk, rfl⟩ := divided_mem ht
      rw [List.mem_singleton] at hu
      subst hu
      simp
    rw [List.map_congr_left e3] at hm
    simpa using hm
  rw [← e2]
  refine ⟨?_, ?_, ?_⟩
  · have := magnets_near d1 hK'.e _ ordd hr hyp
    rw [e1 d1] at this
    exact this
  · have := magnets_near d2 hK'.n _ ordd hr hyp
    rw [e1 d2] at this
    exact this
  · have := magnets_near d3 hK'.u _ ordd hr hyp
    rw [e1 d3] at this
    exact this

/-! ### Examples -/

/-- A cube of 100 m at 1 km with a magnetization of 1 A/m, and the dipole of its moment at its centre. -/
example : ∃ B B' : P3 → V3,
    MagnetsReturn (fun _ _ => 0) (bodyMagKernels (4 * Real.pi * 1e-7)) [(⟨-50, 50, -50, 50, -50, 50⟩, ⟨0, 0, 1⟩)] B ∧
    DipolesReturn (fun _ _ => 0) (dipoleKernels (4 * Real.pi * 1e-7)) [(⟨0, 0, 0⟩, ⟨0, 0, 10 ^ 6⟩)] B' ∧
    |(B ⟨0, 0, 1050⟩).z - (B' ⟨0, 0, 1050⟩).z| ≤ 0.24 := by
  obtain ⟨B, B', h1, h2, h3⟩ := C162_pieces (fun _ _ => 0) (bodyMagKernels_magnetized (4 * Real.pi * 1e-7))
    (dipoleKernels_dipole (4 * Real.pi * 1e-7)) [((⟨-50, 50, -50, 50, -50, 50⟩, ⟨0, 0, 1⟩), ⟨0, 0, 0⟩)]
    (by simp [Prism.Ordered])
  refine ⟨B, B', h1, ?_, ?_⟩
  · rw [show [((⟨0, 0, 0⟩, ⟨0, 0, 10 ^ 6⟩) : P3 × V3)] =
      magnets [((⟨-50, 50, -50, 50, -50, 50⟩, ⟨0, 0, 1⟩), ⟨0, 0, 0⟩)] by
        simp [magnets, momentOf, Prism.volume]; norm_num]
    exact h2
  · refine (h3 ⟨0, 0, 1050⟩ 1000 100 (by norm_num) ?_).2.2.trans (le_of_eq ?_)
    · intro s hs
      rw [List.mem_singleton] at hs
      subst hs
      refine ⟨?_, ?_⟩
      · refine le_trans ?_ (abs_x_le_gap _ _).2.2
        norm_num
      · rintro x ⟨⟨a1, a2⟩, ⟨a3, a4⟩, a5, a6⟩
        simp only at a1 a2 a3 a4 a5 a6
        constructor
        · refine le_trans ?_ ((le_abs_self _).trans (abs_x_le_gap _ _).2.2)
          simp only [pointAt]
          linarith
        · refine Real.sqrt_le_iff.2 ⟨by norm_num, ?_⟩
          simp only [pointAt, sub_zero]
          nlinarith
    · have hpi := Real.pi_pos
      rw [abs_of_pos (by positivity)]
      simp [momentSum, Prism.volume]
      field_simp
      norm_num

/-- The same cube divided into a thousand cubes. -/
example : ∃ (B : P3 → V3) (B' : ℕ → P3 → V3),
    MagnetsReturn (fun _ _ => 0) (bodyMagKernels 1) [(⟨-50, 50, -50, 50, -50, 50⟩, ⟨3, 0, -4⟩)] B ∧
    DipolesReturn (fun _ _ => 0) (dipoleKernels 1)
      (magnets (centredMagnets 10 [(⟨-50, 50, -50, 50, -50, 50⟩, ⟨3, 0, -4⟩)])) (B' 10) ∧
    |(B ⟨0, 0, 1050⟩).x - (B' 10 ⟨0, 0, 1050⟩).x| ≤
      10 ^ 9 * (|1| / (4 * Real.pi) * (24 * (200 / (2 * (10 : ℕ))) / 1000 ^ 4) *
        momentSum [(⟨-50, 50, -50, 50, -50, 50⟩, ⟨3, 0, -4⟩)]) := by
  obtain ⟨B, B', h1, h2, h3⟩ := C162_converge (fun _ _ => 0) (bodyMagKernels_magnetized 1)
    (dipoleKernels_dipole 1) [(⟨-50, 50, -50, 50, -50, 50⟩, ⟨3, 0, -4⟩)] (by simp [Prism.Ordered])
  refine ⟨B, B', h1, h2 10, (h3 ⟨0, 0, 1050⟩ 1000 200 (by norm_num) ?_ ?_ 10 (by norm_num)).1⟩
  · intro s hs
    rw [List.mem_singleton] at hs
    subst hs
    rintro x ⟨-, -, a5, a6⟩
    simp only at a5 a6
    refine le_trans ?_ ((le_abs_self _).trans (abs_x_le_gap _ _).2.2)
    simp only [pointAt]
    linarith
  · intro s hs
    rw [List.mem_singleton] at hs
    subst hs
    refine Real.sqrt_le_iff.2 ⟨by norm_num, ?_⟩
    norm_num

end Verif.Forward
