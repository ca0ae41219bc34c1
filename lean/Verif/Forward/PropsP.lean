import Verif.Forward.PropsO

/-! C161: point masses instead of prisms. -/

namespace Verif.Forward

open MeasureTheory
open Verif.Distance (P3)
open Verif.Engine (Mode)

/-! ### Specification -/

/-- `prism_gravity` returns these functions, one per field (the tensor, at points that are not in the prisms). -/
def PrismsReturn (junk : Junk) (K : PrismKernels) (srcs : List (Prism × ℝ)) (F : String → P3 → ℝ) : Prop :=
  ∀ field ∈ prismFieldNames, ∀ (mode : Mode) (shape : List ℕ) (obs : List P3) (dis : Bool), shape.prod = obs.length →
    mode.Full obs.length (2 * srcs.length) → (∀ q ∈ obs, Allowed field srcs q) →
    (prismGravity junk mode K (arrays shape obs) (srcs.map (·.1)) (srcs.map (·.2)) field dis).map (·.2) =
      .ok ⟨shape, obs.map (F field)⟩

/-- `point_gravity` in Cartesian coordinates returns these functions. -/
def PointsReturn (junk : Junk) (K : PointKernels) (srcs : List (P3 × ℝ)) (F : String → P3 → ℝ) : Prop :=
  ∀ field ∈ prismFieldNames, ∀ (mode : Mode) (shape ps ms : List ℕ) (obs : List P3), shape.prod = obs.length →
    mode.Full obs.length (2 * srcs.length) →
    pointGravity junk mode K (arrays shape obs) (arrays ps (srcs.map (·.1))) ⟨ms, srcs.map (·.2)⟩ field "cartesian" =
      .ok ⟨shape, obs.map (F field)⟩

/-- The mass of each prism at the point that comes with it. -/
def lumps (pieces : List ((Prism × ℝ) × P3)) : List (P3 × ℝ) := pieces.map fun s => (s.2, s.1.2 * s.1.1.volume)

/-- The factor and the power of the distance for each field: potential (m²/s²), acceleration (mGal), gradient tensor
(Eötvös). -/
noncomputable def blur (field : String) : ℝ × ℕ :=
  if field = "potential" then (1, 2) else if field ∈ ["g_e", "g_n", "g_z"] then (4 * 10 ^ 5, 3) else (24 * 10 ^ 9, 4)

/-- Boundary number `i` of `n` equal parts of an interval. -/
noncomputable def cutAt (a b : ℝ) (n i : ℕ) : ℝ := a + (b - a) * (i / n)

/-- One of the `n³` equal parts of a prism. -/
noncomputable def Prism.part (p : Prism) (n i j k : ℕ) : Prism where
  west := cutAt p.west p.east n i
  east := cutAt p.west p.east n (i + 1)
  south := cutAt p.south p.north n j
  north := cutAt p.south p.north n (j + 1)
  bottom := cutAt p.bottom p.top n k
  top := cutAt p.bottom p.top n (k + 1)

/-- The centre of a prism. -/
noncomputable def Prism.centre (p : Prism) : P3 := ⟨(p.west + p.east) / 2, (p.south + p.north) / 2, (p.bottom + p.top) / 2⟩

/-- Every prism divided into `n³` equal parts. -/
noncomputable def divided (n : ℕ) (srcs : List (Prism × ℝ)) : List (Prism × ℝ) :=
  srcs.flatMap fun s => (List.range n).flatMap fun i => (List.range n).flatMap fun j => (List.range n).map fun k =>
    (s.1.part n i j k, s.2)

/-- The parts with their centres. -/
noncomputable def centred (n : ℕ) (srcs : List (Prism × ℝ)) : List ((Prism × ℝ) × P3) :=
  (divided n srcs).map fun s => (s, s.1.centre)

/-! ### The fields of masses at near points -/

/-- Two numbers of at most `B` that differ at most by `L`. -/
def Near (B L f f' : ℝ) : Prop := |f| ≤ B ∧ |f'| ≤ B ∧ |f - f'| ≤ L

theorem Near.mul {B L f f' C M g g' : ℝ} (h : Near B L f f') (k : Near C M g g') :
    Near (B * C) (L * C + B * M) (f * g) (f' * g') := by
  obtain ⟨h1, h2, h3⟩ := h
  obtain ⟨k1, k2, k3⟩ := k
  have hB := (abs_nonneg _).trans h1
  have hL := (abs_nonneg _).trans h3
  refine ⟨?_, ?_, ?_⟩
  · rw [abs_mul]
    exact mul_le_mul h1 k1 (abs_nonneg _) hB
  · rw [abs_mul]
    exact mul_le_mul h2 k2 (abs_nonneg _) hB
  · have e : f * g - f' * g' = (f - f') * g + f' * (g - g') := by ring
    rw [e]
    refine (abs_add_le _ _).trans ?_
    rw [abs_mul, abs_mul]
    exact add_le_add (mul_le_mul h3 k1 (abs_nonneg _) hL) (mul_le_mul h2 k3 (abs_nonneg _) hB)

theorem gap_swap (q p : P3) : gap q p = gap p q := by
  unfold gap
  congr 1
  ring

theorem gap_triangle (a b c : P3) : gap a c ≤ gap a b + gap b c := by
  have hb := gap_nonneg a b
  have hc := gap_nonneg b c
  have e1 : gap a b ^ 2 = (a.x - b.x) ^ 2 + (a.y - b.y) ^ 2 + (a.z - b.z) ^ 2 := Real.sq_sqrt (by positivity)
  have e2 : gap b c ^ 2 = (b.x - c.x) ^ 2 + (b.y - c.y) ^ 2 + (b.z - c.z) ^ 2 := Real.sq_sqrt (by positivity)
  refine Real.sqrt_le_iff.2 ⟨by positivity, ?_⟩
  have key : (a.x - b.x) * (b.x - c.x) + (a.y - b.y) * (b.y - c.y) + (a.z - b.z) * (b.z - c.z) ≤ gap a b * gap b c := by
    refine le_trans (le_abs_self _) (abs_le_of_sq_le_sq ?_ (mul_nonneg hb hc))
    rw [mul_pow, e1, e2]
    nlinarith [sq_nonneg ((a.x - b.x) * (b.y - c.y) - (a.y - b.y) * (b.x - c.x)),
      sq_nonneg ((a.x - b.x) * (b.z - c.z) - (a.z - b.z) * (b.x - c.x)),
      sq_nonneg ((a.y - b.y) * (b.z - c.z) - (a.z - b.z) * (b.y - c.y))]
  nlinarith

theorem near_inv {a b r δ : ℝ} (hr : 0 < r) (ha : r ≤ a) (hb : r ≤ b) (h : |a - b| ≤ δ) :
    Near (1 / r) (δ * (1 / r) ^ 2) (1 / a) (1 / b) := by
  have ha0 := hr.trans_le ha
  have hb0 := hr.trans_le hb
  have hδ := (abs_nonneg _).trans h
  refine ⟨?_, ?_, ?_⟩
  · rw [abs_of_pos (by positivity)]
    exact one_div_le_one_div_of_le hr ha
  · rw [abs_of_pos (by positivity)]
    exact one_div_le_one_div_of_le hr hb
  · have e : 1 / a - 1 / b = -(a - b) * (1 / a * (1 / b)) := by
      field_simp
      ring
    rw [e, abs_mul, abs_neg, abs_of_pos (show 0 < 1 / a * (1 / b) by positivity), sq]
    have h1 := one_div_le_one_div_of_le hr ha
    have h2 := one_div_le_one_div_of_le hr hb
    gcongr

theorem near_unit {a b r δ x y : ℝ} (hr : 0 < r) (ha : r ≤ a) (hb : r ≤ b) (h : |a - b| ≤ δ) (hxy : |x - y| ≤ δ)
    (hx : |x| ≤ a) (hy : |y| ≤ b) : Near 1 (2 * δ * (1 / r)) (x * (1 / a)) (y * (1 / b)) := by
  have ha0 := hr.trans_le ha
  have hb0 := hr.trans_le hb
  have hδ := (abs_nonneg _).trans h
  have h1 := one_div_le_one_div_of_le hr ha
  refine ⟨?_, ?_, ?_⟩
  · rw [abs_mul, abs_of_pos (show 0 < 1 / a by positivity), mul_one_div, div_le_one ha0]
    exact hx
  · rw [abs_mul, abs_of_pos (show 0 < 1 / b by positivity), mul_one_div, div_le_one hb0]
    exact hy
  · have e : x * (1 / a) - y * (1 / b) = (x - y) * (1 / a) + -(a - b) * (y * (1 / b)) * (1 / a) := by
      field_simp
      ring
    have hy1 : |y * (1 / b)| ≤ 1 := by
      rw [abs_mul, abs_of_pos (show 0 < 1 / b by positivity), mul_one_div, div_le_one hb0]
      exact hy
    rw [e]
    refine (abs_add_le _ _).trans ?_
    rw [abs_mul, abs_mul, abs_mul, abs_neg, abs_of_pos (show 0 < 1 / a by positivity)]
    calc |x - y| * (1 / a) + |a - b| * |y * (1 / b)| * (1 / a) ≤ δ * (1 / r) + δ * 1 * (1 / r) := by gcongr
      _ = 2 * δ * (1 / r) := by ring

set_option maxHeartbeats 1000000 in
/-- The field of a mass at `p` and of the same mass at `p'`. -/
theorem newton_near {field : String} {k0 : P3 → P3 → ℝ → ℝ} {f : ℝ}
    (h : pointFieldTable newtonKernels field = some (k0, f)) {q p p' : P3} {r δ : ℝ} (hr : 0 < r) (hp : r ≤ gap q p)
    (hp' : r ≤ gap q p') (hδ : gap p p' ≤ δ) (m : ℝ) :
    |f * k0 q p m - f * k0 q p' m| ≤ (blur field).1 * (gravitationalConst * |m|) * δ / r ^ (blur field).2 := by
  have hG := gravConst_pos
  have hd : |gap q p - gap q p'| ≤ δ := by
    have h1 := gap_triangle q p' p
    have h2 := gap_triangle q p p'
    rw [gap_swap p' p] at h1
    rw [abs_le]
    constructor <;> linarith
  obtain ⟨x1, y1, z1⟩ := abs_x_le_gap q p
  obtain ⟨x2, y2, z2⟩ := abs_x_le_gap q p'
  obtain ⟨x3, y3, z3⟩ := abs_x_le_gap p p'
  have hi := near_inv hr hp hp' hd
  have sub : ∀ {u v w : ℝ}, |v - w| ≤ gap p p' → |(u - v) - (u - w)| ≤ δ := fun {u v w} h => by
    rw [show (u - v) - (u - w) = -(v - w) by ring, abs_neg]
    exact h.trans hδ
  have hx := near_unit hr hp hp' hd (sub x3) x1 x2
  have hy := near_unit hr hp hp' hd (sub y3) y1 y2
  have hz := near_unit hr hp hp' hd (sub z3) z1 z2
  have a0 := hr.trans_le hp
  have b0 := hr.trans_le hp'
  generalize ga : gap q p = a at *
  generalize gb : gap q p' = b at *
  have acc : ∀ (f : ℝ) {X Y : ℝ}, |f| = 10 ^ 5 → Near 1 (2 * δ * (1 / r)) (X * (1 / a)) (Y * (1 / b)) →
      |f * (-(gravitationalConst * m * X) / a ^ 3) - f * (-(gravitationalConst * m * Y) / b ^ 3)| ≤
        4 * 10 ^ 5 * (gravitationalConst * |m|) * δ / r ^ 3 := by
    intro f X Y hf hX
    have h3 := ((hX.mul hi).mul hi).2.2
    have e : f * (-(gravitationalConst * m * X) / a ^ 3) - f * (-(gravitationalConst * m * Y) / b ^ 3) =
        -f * (gravitationalConst * m) * (X * (1 / a) * (1 / a) * (1 / a) - Y * (1 / b) * (1 / b) * (1 / b)) := by
      field_simp
      ring
    rw [e, abs_mul, abs_mul, abs_neg, hf, abs_mul, abs_of_pos hG]
    refine (mul_le_mul_of_nonneg_left h3 (by positivity)).trans (le_of_eq ?_)
    field_simp
    ring
  have ten : ∀ (f : ℝ) {X Y X' Y' c : ℝ}, |f| = 10 ^ 9 → |c| ≤ 1 →
      Near 1 (2 * δ * (1 / r)) (X * (1 / a)) (X' * (1 / b)) → Near 1 (2 * δ * (1 / r)) (Y * (1 / a)) (Y' * (1 / b)) →
      |f * (gravitationalConst * m * (3 * X * Y / a ^ 5 - c / a ^ 3)) -
          f * (gravitationalConst * m * (3 * X' * Y' / b ^ 5 - c / b ^ 3))| ≤
        24 * 10 ^ 9 * (gravitationalConst * |m|) * δ / r ^ 4 := by
    intro f X Y X' Y' c hf hc hX hY
    have h3 := (((hX.mul hi).mul (hY.mul hi)).mul hi).2.2
    have h4 := ((hi.mul hi).mul hi).2.2
    have e : f * (gravitationalConst * m * (3 * X * Y / a ^ 5 - c / a ^ 3)) -
          f * (gravitationalConst * m * (3 * X' * Y' / b ^ 5 - c / b ^ 3)) =
        f * (gravitationalConst * m) * (3 * (X * (1 / a) * (1 / a) * (Y * (1 / a) * (1 / a)) * (1 / a) -
          X' * (1 / b) * (1 / b) * (Y' * (1 / b) * (1 / b)) * (1 / b)) +
          -c * (1 / a * (1 / a) * (1 / a) - 1 / b * (1 / b) * (1 / b))) := by
      field_simp
      ring
    rw [e, abs_mul, abs_mul, hf, abs_mul, abs_of_pos hG]
    have h5 := (abs_add_le (3 * (X * (1 / a) * (1 / a) * (Y * (1 / a) * (1 / a)) * (1 / a) -
          X' * (1 / b) * (1 / b) * (Y' * (1 / b) * (1 / b)) * (1 / b)))
          (-c * (1 / a * (1 / a) * (1 / a) - 1 / b * (1 / b) * (1 / b))))
    rw [abs_mul, abs_mul, abs_neg, abs_of_pos (show (0 : ℝ) < 3 by norm_num)] at h5
    have h6 := h5.trans (add_le_add (mul_le_mul_of_nonneg_left h3 (by norm_num))
      (mul_le_mul hc h4 (abs_nonneg _) zero_le_one))
    refine (mul_le_mul_of_nonneg_left h6 (by positivity)).trans (le_of_eq ?_)
    field_simp
    ring
  have h5 : |(10 : ℝ) ^ 5| = 10 ^ 5 := abs_of_pos (by norm_num)
  have h5' : |-(10 : ℝ) ^ 5| = 10 ^ 5 := by rw [abs_neg]; exact h5
  have h9 : |(10 : ℝ) ^ 9| = 10 ^ 9 := abs_of_pos (by norm_num)
  have h9' : |-(10 : ℝ) ^ 9| = 10 ^ 9 := by rw [abs_neg]; exact h9
  have sqs : ∀ x : ℝ, 3 * x ^ 2 = 3 * x * x := fun x => by ring
  have hz0 : ∀ (f : ℝ) {X Y X' Y' : ℝ}, |f| = 10 ^ 9 →
      Near 1 (2 * δ * (1 / r)) (X * (1 / a)) (X' * (1 / b)) → Near 1 (2 * δ * (1 / r)) (Y * (1 / a)) (Y' * (1 / b)) →
      |f * (gravitationalConst * m * (3 * X * Y / a ^ 5)) - f * (gravitationalConst * m * (3 * X' * Y' / b ^ 5))| ≤
        24 * 10 ^ 9 * (gravitationalConst * |m|) * δ / r ^ 4 := by
    intro f X Y X' Y' hf hX hY
    have := ten f (c := 0) hf (by norm_num) hX hY
    simpa only [zero_div, sub_zero] using this
  unfold pointFieldTable at h
  split_ifs at h with c1 c2 c3 c4 c5 c6 c7 c8 c9 c10
  all_goals
    simp only [Option.some.injEq, Prod.mk.injEq] at h
    obtain ⟨rfl, rfl⟩ := h
  · subst c1
    have e : 1 * newtonKernels.pot q p m - 1 * newtonKernels.pot q p' m =
        gravitationalConst * m * (1 / a - 1 / b) := by
      simp only [newtonKernels, ga, gb]
      ring
    rw [e, abs_mul, abs_mul, abs_of_pos hG]
    simp only [blur, reduceIte]
    refine (mul_le_mul_of_nonneg_left hi.2.2 (by positivity)).trans (le_of_eq ?_)
    field_simp
  · subst c2
    simpa [blur, newtonKernels, ga, gb] using acc _ h5 hx
  · subst c3
    simpa [blur, newtonKernels, ga, gb] using acc _ h5 hy
  · subst c4
    simpa [blur, newtonKernels, ga, gb] using acc _ h5' hz
  · subst c5
    simpa [blur, newtonKernels, ga, gb, sqs] using ten _ (c := 1) h9 (by norm_num) hx hx
  · subst c6
    simpa [blur, newtonKernels, ga, gb, sqs] using ten _ (c := 1) h9 (by norm_num) hy hy
  · subst c7
    simpa [blur, newtonKernels, ga, gb, sqs] using ten _ (c := 1) h9 (by norm_num) hz hz
  · rcases c8 with rfl | rfl <;> simpa [blur, newtonKernels, ga, gb] using hz0 _ h9 hx hy
  · rcases c9 with rfl | rfl <;> simpa [blur, newtonKernels, ga, gb] using hz0 _ h9' hx hz
  · rcases c10 with rfl | rfl <;> simpa [blur, newtonKernels, ga, gb] using hz0 _ h9' hy hz

/-! ### Lists of sources -/

theorem pointGravity_fields (junk : Junk) {K : PointKernels} (srcs : List (P3 × ℝ)) :
    PointsReturn junk K srcs fun field q => match pointFieldTable K field with
      | none => 0
      | some (k, factor) => factor * total (fun q s => k q s.1 s.2) srcs q := by
  intro field hf mode shape ps ms obs hs hm
  rw [C04_point_gravity_cartesian junk mode K shape ps ms obs hs srcs hm]
  simp only [prismFieldNames, List.mem_cons, List.not_mem_nil, or_false] at hf
  rcases hf with rfl | rfl | rfl | rfl | rfl | rfl | rfl | rfl | rfl | rfl <;> simp [pointFieldTable]

theorem sum_flatMap' {A B : Type*} (l : List A) (f : A → List B) (g : B → ℝ) :
    ((l.flatMap f).map g).sum = (l.map fun a => ((f a).map g).sum).sum := by
  induction l with
  | nil => rfl
  | cons a l ih => simp [ih]

theorem sum_map_sub' {A : Type*} (l : List A) (f g : A → ℝ) :
    (l.map f).sum - (l.map g).sum = (l.map fun a => f a - g a).sum := by
  induction l with
  | nil => simp
  | cons a l ih =>
    simp only [List.map_cons, List.sum_cons, ← ih]
    ring

/-- The field of a prism and that of its mass at a near point. -/
theorem prism_near {field : String} {k0 : P3 → P3 → ℝ → ℝ} {f : ℝ} {a : ℕ} (h0 : PointField k0 a)
    (h : pointFieldTable newtonKernels field = some (k0, f)) {p : Prism} (hord : p.Ordered) (ρ : ℝ) {q c : P3} {r δ : ℝ}
    (hr : 0 < r) (hc : r ≤ gap q c) (hb : ∀ x ∈ p.body, r ≤ gap q (pointAt x) ∧ gap (pointAt x) c ≤ δ) :
    |f * (∫ x in p.body, k0 q (pointAt x) ρ) - f * k0 q c (ρ * p.volume)| ≤
      (blur field).1 * gravitationalConst * δ / r ^ (blur field).2 * (|ρ| * p.volume) := by
  have ho : coords q ∉ p.body := by
    intro hin
    have := (hb _ hin).1
    rw [pointAt_coords, gap_self] at this
    linarith
  have hI : IntegrableOn (fun x => k0 q (pointAt x) ρ) p.body := h0.integrableOn_outside ho ρ
  have hlt := p.body_compact.measure_lt_top (μ := volume)
  have hc0 : f * k0 q c (ρ * p.volume) = ∫ _ in p.body, f * k0 q c ρ := by
    rw [setIntegral_const, p.volume_body hord, smul_eq_mul, h0.lin q c (ρ * p.volume), h0.lin q c ρ]
    ring
  rw [hc0, ← integral_const_mul, ← integral_sub (hI.const_mul f) (integrableOn_const hlt.ne), ← Real.norm_eq_abs]
  refine (norm_setIntegral_le_of_norm_le_const (C := (blur field).1 * (gravitationalConst * |ρ|) * δ /
    r ^ (blur field).2) hlt fun x hx => ?_).trans (le_of_eq ?_)
  · rw [Real.norm_eq_abs]
    exact newton_near h hr (hb x hx).1 hc (hb x hx).2 ρ
  · rw [p.volume_body hord]
    ring

theorem outside_of_far {srcs : List (Prism × ℝ)} {q : P3} {r : ℝ} (hr : 0 < r)
    (h : ∀ s ∈ srcs, ∀ x ∈ s.1.body, r ≤ gap q (pointAt x)) : ∀ s ∈ srcs, coords q ∉ s.1.body := by
  intro s hs hin
  have := h s hs _ hin
  rw [pointAt_coords, gap_self] at this
  linarith

theorem lumps_near {K : PointKernels} (hK : K.Newtonian) (pieces : List ((Prism × ℝ) × P3))
    (hord : ∀ s ∈ pieces, s.1.1.Ordered) {field : String} (hf : field ∈ prismFieldNames) {q : P3} {r δ : ℝ} (hr : 0 < r)
    (h : ∀ s ∈ pieces, r ≤ gap q s.2 ∧ ∀ x ∈ s.1.1.body, r ≤ gap q (pointAt x) ∧ gap (pointAt x) s.2 ≤ δ) :
    |bodyField (pieces.map (·.1)) field q - (match pointFieldTable K field with
      | none => 0
      | some (k, factor) => factor * total (fun q s => k q s.1 s.2) (lumps pieces) q)| ≤
      (blur field).1 * gravitationalConst * (pieces.map fun s => |s.1.2| * s.1.1.volume).sum * δ /
        r ^ (blur field).2 := by
  obtain ⟨k, f, hkf⟩ : ∃ k f, prismFieldTable bodyKernels field = some (k, f) := by
    simp only [prismFieldNames, List.mem_cons, List.not_mem_nil, or_false] at hf
    rcases hf with rfl | rfl | rfl | rfl | rfl | rfl | rfl | rfl | rfl | rfl <;> exact ⟨_, _, rfl⟩
  obtain ⟨k0, a, h0, -, ht, -⟩ := bodyKernels_newtonian.table hkf
  obtain ⟨k', hk', hkk⟩ : ∃ k', pointFieldTable K field = some (k', f) ∧ ∀ q p m, q ≠ p → k' q p m = k0 q p m := by
    simp only [prismFieldNames, List.mem_cons, List.not_mem_nil, or_false] at hf
    have out : ∀ {k1 k2 : P3 → P3 → ℝ → ℝ} {g : ℝ}, pointFieldTable K field = some (k1, g) →
        pointFieldTable newtonKernels field = some (k2, g) → (∀ q p m, q ≠ p → k1 q p m = k2 q p m) →
        ∃ k', pointFieldTable K field = some (k', f) ∧ ∀ q p m, q ≠ p → k' q p m = k0 q p m := by
      intro k1 k2 g g1 g2 g3
      rw [ht, Option.some.injEq, Prod.mk.injEq] at g2
      obtain ⟨rfl, rfl⟩ := g2
      exact ⟨k1, g1, g3⟩
    rcases hf with rfl | rfl | rfl | rfl | rfl | rfl | rfl | rfl | rfl | rfl
    · exact out rfl rfl hK.pot
    · exact out rfl rfl hK.e
    · exact out rfl rfl hK.n
    · exact out rfl rfl hK.u
    · exact out rfl rfl hK.ee
    · exact out rfl rfl hK.nn
    · exact out rfl rfl hK.uu
    · exact out rfl rfl hK.en
    · exact out rfl rfl hK.eu
    · exact out rfl rfl hK.nu
  simp only [bodyField, ht, hk', total, lumps, List.map_map]
  rw [← List.sum_map_mul_left, ← List.sum_map_mul_left, sum_map_sub']
  refine (abs_sum_le pieces _ (fun s => (blur field).1 * gravitationalConst * δ / r ^ (blur field).2 *
    (|s.1.2| * s.1.1.volume)) ?_).trans (le_of_eq ?_)
  · intro s hs
    obtain ⟨h1, h2⟩ := h s hs
    have hne : q ≠ s.2 := by
      intro e
      rw [e, gap_self] at h1
      linarith
    simp only [Function.comp_apply]
    rw [hkk _ _ _ hne]
    exact prism_near h0 ht (hord s hs) s.1.2 hr h1 h2
  · rw [List.sum_map_mul_left]
    ring

/-! ### Parts of prisms -/

/-- One between `a` and `b`. -/
noncomputable def band (a b x : ℝ) : ℝ := if a ≤ x ∧ x ≤ b then 1 else 0

theorem body_band (p : Prism) (ρ : ℝ) (x : ℝ × ℝ × ℝ) : p.body.indicator (fun _ => ρ) x =
    ρ * (band p.west p.east x.1 * (band p.south p.north x.2.1 * band p.bottom p.top x.2.2)) := by
  classical
  unfold band
  by_cases h : x ∈ p.body
  · obtain ⟨h1, h2, h3⟩ := h
    rw [Set.indicator_of_mem (show x ∈ p.body from ⟨h1, h2, h3⟩), if_pos (Set.mem_Icc.1 h1), if_pos (Set.mem_Icc.1 h2),
      if_pos (Set.mem_Icc.1 h3)]
    ring
  · rw [Set.indicator_of_notMem h]
    by_cases h1 : p.west ≤ x.1 ∧ x.1 ≤ p.east
    · by_cases h2 : p.south ≤ x.2.1 ∧ x.2.1 ≤ p.north
      · have h3 : ¬(p.bottom ≤ x.2.2 ∧ x.2.2 ≤ p.top) := fun h3 => h ⟨h1, h2, h3⟩
        simp [h3]
      · simp [h2]
    · simp [h1]

theorem band_sum {t : ℕ → ℝ} (ht : Monotone t) {x : ℝ} (hx : ∀ i, x ≠ t i) (n : ℕ) :
    ((List.range n).map fun i => band (t i) (t (i + 1)) x).sum = band (t 0) (t n) x := by
  induction n with
  | zero =>
    have : ¬(t 0 ≤ x ∧ x ≤ t 0) := fun h => hx 0 (le_antisymm h.2 h.1)
    simp [band, this]
  | succ n ih =>
    rw [List.range_succ, List.map_append, List.sum_append, ih]
    have h1 := ht (Nat.zero_le n)
    have h2 := ht (Nat.le_succ n)
    simp only [List.map_cons, List.map_nil, List.sum_cons, List.sum_nil, add_zero, band]
    rcases lt_or_gt_of_ne (hx n) with h | h
    · have a1 : ¬(t n ≤ x ∧ x ≤ t (n + 1)) := fun k => absurd k.1 (not_le.2 h)
      rw [if_neg a1, add_zero]
      refine if_congr ?_ rfl rfl
      exact ⟨fun k => ⟨k.1, k.2.trans h2⟩, fun k => ⟨k.1, h.le⟩⟩
    · have a1 : ¬(t 0 ≤ x ∧ x ≤ t n) := fun k => absurd k.2 (not_le.2 h)
      rw [if_neg a1, zero_add]
      refine if_congr ?_ rfl rfl
      exact ⟨fun k => ⟨h1.trans k.1, k.2⟩, fun k => ⟨h.le, k.2⟩⟩

theorem cutAt_mono {a b : ℝ} (h : a ≤ b) (n : ℕ) : Monotone (cutAt a b n) := by
  intro i j hij
  unfold cutAt
  have : (i : ℝ) ≤ j := by exact_mod_cast hij
  have hb : 0 ≤ b - a := sub_nonneg.2 h
  gcongr

theorem cutAt_ends (a b : ℝ) {n : ℕ} (hn : n ≠ 0) : cutAt a b n 0 = a ∧ cutAt a b n n = b := by
  have : (n : ℝ) ≠ 0 := by exact_mod_cast hn
  constructor
  · simp [cutAt]
  · simp [cutAt, this]

theorem cutAt_step (a b : ℝ) {n : ℕ} (hn : n ≠ 0) (i : ℕ) : cutAt a b n (i + 1) - cutAt a b n i = (b - a) / n := by
  have : (n : ℝ) ≠ 0 := by exact_mod_cast hn
  unfold cutAt
  push_cast
  field_simp
  ring

theorem divided_density {n : ℕ} (hn : n ≠ 0) {srcs : List (Prism × ℝ)} (hord : ∀ s ∈ srcs, s.1.Ordered) :
    ∀ᵐ x, densityAt (divided n srcs) x = densityAt srcs x := by
  induction srcs with
  | nil => exact Filter.Eventually.of_forall fun x => rfl
  | cons s srcs ih =>
    have ih := ih fun t ht => hord t (List.mem_cons_of_mem _ ht)
    obtain ⟨o1, o2, o3⟩ := hord s List.mem_cons_self
    have hx : ∀ᵐ x : ℝ × ℝ × ℝ, ∀ i, x.1 ≠ cutAt s.1.west s.1.east n i := ae_all_iff.2 fun i => plane_x _
    have hy : ∀ᵐ x : ℝ × ℝ × ℝ, ∀ i, x.2.1 ≠ cutAt s.1.south s.1.north n i := ae_all_iff.2 fun i => plane_y _
    have hz : ∀ᵐ x : ℝ × ℝ × ℝ, ∀ i, x.2.2 ≠ cutAt s.1.bottom s.1.top n i := ae_all_iff.2 fun i => plane_z _
    filter_upwards [ih, hx, hy, hz] with x h0 h1 h2 h3
    have e : divided n (s :: srcs) = divided n [s] ++ divided n srcs := by simp [divided]
    have e' : densityAt (s :: srcs) x = densityAt [s] x + densityAt srcs x := densityAt_append [s] srcs x
    rw [e, densityAt_append, h0, e']
    congr 1
    have b1 := band_sum (cutAt_mono o1 n) h1 n
    have b2 := band_sum (cutAt_mono o2 n) h2 n
    have b3 := band_sum (cutAt_mono o3 n) h3 n
    rw [(cutAt_ends _ _ hn).1, (cutAt_ends _ _ hn).2] at b1 b2 b3
    simp only [divided, densityAt, List.flatMap_cons, List.flatMap_nil, List.append_nil, List.map_cons, List.map_nil,
      List.sum_cons, List.sum_nil, add_zero, sum_flatMap', List.map_map, Function.comp_def, body_band, Prism.part]
    simp only [List.sum_map_mul_left, List.sum_map_mul_right, b1, b2, b3]

theorem part_facts {p : Prism} (hp : p.Ordered) {n i j k : ℕ} (hi : i < n) (hj : j < n) (hk : k < n) :
    (p.part n i j k).Ordered ∧ (p.part n i j k).volume = p.volume / n ^ 3 ∧ (p.part n i j k).body ⊆ p.body ∧
      coords (p.part n i j k).centre ∈ (p.part n i j k).body ∧
      ∀ x ∈ (p.part n i j k).body, gap (pointAt x) (p.part n i j k).centre ≤
        √((p.east - p.west) ^ 2 + (p.north - p.south) ^ 2 + (p.top - p.bottom) ^ 2) / (2 * n) := by
  have hn : n ≠ 0 := by omega
  have hn0 : (0 : ℝ) < n := by exact_mod_cast Nat.pos_of_ne_zero hn
  obtain ⟨o1, o2, o3⟩ := hp
  have s1 := cutAt_step p.west p.east hn i
  have s2 := cutAt_step p.south p.north hn j
  have s3 := cutAt_step p.bottom p.top hn k
  have m1 := cutAt_mono o1 n
  have m2 := cutAt_mono o2 n
  have m3 := cutAt_mono o3 n
  have l1 : p.west ≤ cutAt p.west p.east n i ∧ cutAt p.west p.east n (i + 1) ≤ p.east :=
    ⟨(cutAt_ends _ _ hn).1.symm.le.trans (m1 (Nat.zero_le i)), (m1 hi).trans (cutAt_ends _ _ hn).2.le⟩
  have l2 : p.south ≤ cutAt p.south p.north n j ∧ cutAt p.south p.north n (j + 1) ≤ p.north :=
    ⟨(cutAt_ends _ _ hn).1.symm.le.trans (m2 (Nat.zero_le j)), (m2 hj).trans (cutAt_ends _ _ hn).2.le⟩
  have l3 : p.bottom ≤ cutAt p.bottom p.top n k ∧ cutAt p.bottom p.top n (k + 1) ≤ p.top :=
    ⟨(cutAt_ends _ _ hn).1.symm.le.trans (m3 (Nat.zero_le k)), (m3 hk).trans (cutAt_ends _ _ hn).2.le⟩
  have d1 := m1 (Nat.le_succ i)
  have d2 := m2 (Nat.le_succ j)
  have d3 := m3 (Nat.le_succ k)
  simp only [Nat.succ_eq_add_one] at d1 d2 d3
  refine ⟨⟨d1, d2, d3⟩, ?_, ?_, ?_, ?_⟩
  · simp only [Prism.volume, Prism.part, s1, s2, s3]
    field_simp
  · rintro x ⟨⟨a1, a2⟩, ⟨a3, a4⟩, a5, a6⟩
    simp only [Prism.part] at a1 a2 a3 a4 a5 a6
    exact ⟨⟨l1.1.trans a1, a2.trans l1.2⟩, ⟨l2.1.trans a3, a4.trans l2.2⟩, l3.1.trans a5, a6.trans l3.2⟩
  · simp only [Prism.part, Prism.centre, Prism.body, coords, Set.mem_prod, Set.mem_Icc]
    refine ⟨⟨?_, ?_⟩, ⟨?_, ?_⟩, ?_, ?_⟩ <;> linarith
  · rintro x ⟨⟨a1, a2⟩, ⟨a3, a4⟩, a5, a6⟩
    simp only [Prism.part] at a1 a2 a3 a4 a5 a6
    have e : √((p.east - p.west) ^ 2 + (p.north - p.south) ^ 2 + (p.top - p.bottom) ^ 2) / (2 * n) =
        √(((p.east - p.west) / n / 2) ^ 2 + ((p.north - p.south) / n / 2) ^ 2 + ((p.top - p.bottom) / n / 2) ^ 2) := by
      rw [show ((p.east - p.west) / n / 2) ^ 2 + ((p.north - p.south) / n / 2) ^ 2 + ((p.top - p.bottom) / n / 2) ^ 2 =
        ((p.east - p.west) ^ 2 + (p.north - p.south) ^ 2 + (p.top - p.bottom) ^ 2) / (2 * n : ℝ) ^ 2 by
        field_simp, Real.sqrt_div' _ (by positivity), Real.sqrt_sq (by positivity)]
    rw [e, ← s1, ← s2, ← s3]
    unfold gap
    refine Real.sqrt_le_sqrt (add_le_add (add_le_add ?_ ?_) ?_) <;> refine sq_le_sq' ?_ ?_ <;>
      simp only [Prism.part, Prism.centre, pointAt] <;> linarith

theorem divided_mem {n : ℕ} {srcs : List (Prism × ℝ)} {t : Prism × ℝ} (h : t ∈ divided n srcs) :
    ∃ s ∈ srcs, ∃ i j k, i < n ∧ j < n ∧ k < n ∧ t = (s.1.part n i j k, s.2) := by
  simp only [divided, List.mem_flatMap, List.mem_map, List.mem_range] at h
  obtain ⟨s, hs, i, hi, j, hj, k, hk, rfl⟩ := h
  exact ⟨s, hs, i, j, k, hi, hj, hk, rfl⟩

theorem divided_mass {n : ℕ} (hn : n ≠ 0) {srcs : List (Prism × ℝ)} (hord : ∀ s ∈ srcs, s.1.Ordered) :
    ((divided n srcs).map fun s => |s.2| * s.1.volume).sum = (srcs.map fun s => |s.2| * s.1.volume).sum := by
  have hn0 : (n : ℝ) ≠ 0 := by exact_mod_cast hn
  simp only [divided, sum_flatMap', List.map_map, Function.comp_def]
  congr 1
  refine List.map_congr_left fun s hs => ?_
  have e : ∀ i ∈ List.range n, ((List.range n).map fun j => ((List.range n).map fun k =>
      |s.2| * (s.1.part n i j k).volume).sum).sum = |s.2| * s.1.volume / n := by
    intro i hi
    have e2 : ∀ j ∈ List.range n, ((List.range n).map fun k => |s.2| * (s.1.part n i j k).volume).sum =
        |s.2| * s.1.volume / n ^ 2 := by
      intro j hj
      have e3 : ∀ k ∈ List.range n, |s.2| * (s.1.part n i j k).volume = |s.2| * s.1.volume / n ^ 3 := by
        intro k hk
        rw [(part_facts (hord s hs) (List.mem_range.1 hi) (List.mem_range.1 hj) (List.mem_range.1 hk)).2.1]
        ring
      rw [List.map_congr_left e3]
      simp only [List.map_const', List.length_range, List.sum_replicate, nsmul_eq_mul]
      field_simp
    rw [List.map_congr_left e2]
    simp only [List.map_const', List.length_range, List.sum_replicate, nsmul_eq_mul]
    field_simp
  rw [List.map_congr_left e]
  simp only [List.map_const', List.length_range, List.sum_replicate, nsmul_eq_mul]
  field_simp

/-! ### C161 -/

/-- C161: at points at a distance of `r` or more, the field of prisms is that of point masses with the masses of the
prisms, at points that are at most `δ` away from every point of their prism, but for an error of `δ` times the masses
over a power of `r`. -/
theorem C161_pieces (junk : Junk) {K : PrismKernels} (hK : K.Newtonian) {K' : PointKernels} (hK' : K'.Newtonian)
    (pieces : List ((Prism × ℝ) × P3)) (hord : ∀ s ∈ pieces, s.1.1.Ordered) :
    ∃ F F' : String → P3 → ℝ, PrismsReturn junk K (pieces.map (·.1)) F ∧ PointsReturn junk K' (lumps pieces) F' ∧
      ∀ field ∈ prismFieldNames, ∀ q r δ, 0 < r →
        (∀ s ∈ pieces, r ≤ gap q s.2 ∧ ∀ x ∈ s.1.1.body, r ≤ gap q (pointAt x) ∧ gap (pointAt x) s.2 ≤ δ) →
        |F field q - F' field q| ≤
          (blur field).1 * gravitationalConst * (pieces.map fun s => |s.1.2| * s.1.1.volume).sum * δ /
            r ^ (blur field).2 := by
  refine ⟨_, _, fun field hf mode shape obs dis hs hm ho =>
    prismGravity_body junk mode hK shape obs hs _ dis ?_ hm field hf ho, pointGravity_fields junk _, ?_⟩
  · intro s hs
    obtain ⟨t, ht, rfl⟩ := List.mem_map.1 hs
    exact hord t ht
  · intro field hf q r δ hr h
    exact lumps_near hK' pieces hord hf hr h

/-- C161: when every prism is divided into `n³` equal parts, the point masses of the parts at their centres have the
field of the prisms, at distances of `r` or more, but for an error that decreases as `1 / n`. -/
theorem C161_converge (junk : Junk) {K : PrismKernels} (hK : K.Newtonian) {K' : PointKernels} (hK' : K'.Newtonian)
    (srcs : List (Prism × ℝ)) (hord : ∀ s ∈ srcs, s.1.Ordered) :
    ∃ (F : String → P3 → ℝ) (F' : ℕ → String → P3 → ℝ), PrismsReturn junk K srcs F ∧
      (∀ n, PointsReturn junk K' (lumps (centred n srcs)) (F' n)) ∧
      ∀ field ∈ prismFieldNames, ∀ q r L, 0 < r → (∀ s ∈ srcs, ∀ x ∈ s.1.body, r ≤ gap q (pointAt x)) →
        (∀ s ∈ srcs, √((s.1.east - s.1.west) ^ 2 + (s.1.north - s.1.south) ^ 2 + (s.1.top - s.1.bottom) ^ 2) ≤ L) →
        ∀ n ≠ 0, |F field q - F' n field q| ≤
          (blur field).1 * gravitationalConst * (srcs.map fun s => |s.2| * s.1.volume).sum * (L / (2 * n)) /
            r ^ (blur field).2 := by
  refine ⟨_, _, fun field hf mode shape obs dis hs hm ho =>
    prismGravity_body junk mode hK shape obs hs _ dis hord hm field hf ho, fun n => pointGravity_fields junk _, ?_⟩
  intro field hf q r L hr hd hL n hn
  have hn0 : (0 : ℝ) < n := by exact_mod_cast Nat.pos_of_ne_zero hn
  have e1 : (centred n srcs).map (·.1) = divided n srcs := by
    simp [centred, Function.comp_def]
  have hdd : ∀ t ∈ divided n srcs, ∀ x ∈ t.1.body, r ≤ gap q (pointAt x) := by
    intro t ht x hx
    obtain ⟨s, hs, i, j, k, hi, hj, hk, rfl⟩ := divided_mem ht
    exact hd s hs x ((part_facts (hord s hs) hi hj hk).2.2.1 hx)
  have e2 : bodyField (divided n srcs) field q = bodyField srcs field q := by
    obtain ⟨k, f, hkf⟩ : ∃ k f, prismFieldTable bodyKernels field = some (k, f) := by
      simp only [prismFieldNames, List.mem_cons, List.not_mem_nil, or_false] at hf
      rcases hf with rfl | rfl | rfl | rfl | rfl | rfl | rfl | rfl | rfl | rfl <;> exact ⟨_, _, rfl⟩
    obtain ⟨k0, a, h0, -, ht, -⟩ := bodyKernels_newtonian.table hkf
    simp only [bodyField, ht]
    rw [(sum_integrals h0 _ q (Or.inr (outside_of_far hr hdd))).1, (sum_integrals h0 _ q (Or.inr (outside_of_far hr hd))).1]
    congr 1
    refine integral_congr_ae ?_
    filter_upwards [divided_density hn hord] with x hx
    rw [hx]
  have e3 : ((centred n srcs).map fun s => |s.1.2| * s.1.1.volume).sum = (srcs.map fun s => |s.2| * s.1.volume).sum := by
    rw [← divided_mass hn hord, centred, List.map_map]
    rfl
  rw [← e2, ← e1, ← e3]
  refine lumps_near hK' (centred n srcs) ?_ hf hr ?_
  · intro t ht
    obtain ⟨u, hu, rfl⟩ := List.mem_map.1 ht
    obtain ⟨s, hs, i, j, k, hi, hj, hk, rfl⟩ := divided_mem hu
    exact (part_facts (hord s hs) hi hj hk).1
  · intro t ht
    obtain ⟨u, hu, rfl⟩ := List.mem_map.1 ht
    refine ⟨?_, fun x hx => ⟨hdd u hu x hx, ?_⟩⟩
    · obtain ⟨s, hs, i, j, k, hi, hj, hk, rfl⟩ := divided_mem hu
      have := hdd _ hu _ (part_facts (hord s hs) hi hj hk).2.2.2.1
      rwa [pointAt_coords] at this
    · obtain ⟨s, hs, i, j, k, hi, hj, hk, rfl⟩ := divided_mem hu
      refine ((part_facts (hord s hs) hi hj hk).2.2.2.2 x hx).trans ?_
      exact div_le_div_of_nonneg_right (hL s hs) (by positivity)

/-! ### Examples -/

/-- A cube of 100 m at 1 km, and its mass at its centre. -/
example : ∃ F F' : String → P3 → ℝ,
    PrismsReturn (fun _ _ => 0) bodyKernels [(⟨-50, 50, -50, 50, -50, 50⟩, 2670)] F ∧
    PointsReturn (fun _ _ => 0) newtonKernels [(⟨0, 0, 0⟩, 2670 * (100 * 100 * 100))] F' ∧
    |F "g_z" ⟨0, 0, 1050⟩ - F' "g_z" ⟨0, 0, 1050⟩| ≤ 4 * 10 ^ 5 * gravitationalConst * (2670 * 10 ^ 6) * 100 / 1000 ^ 3 := by
  obtain ⟨F, F', h1, h2, h3⟩ := C161_pieces (fun _ _ => 0) bodyKernels_newtonian newtonKernels_newtonian
    [((⟨-50, 50, -50, 50, -50, 50⟩, 2670), ⟨0, 0, 0⟩)] (by simp [Prism.Ordered])
  refine ⟨F, F', h1, ?_, ?_⟩
  · rw [show [((⟨0, 0, 0⟩, 2670 * (100 * 100 * 100)) : P3 × ℝ)] =
      lumps [((⟨-50, 50, -50, 50, -50, 50⟩, 2670), ⟨0, 0, 0⟩)] by simp [lumps, Prism.volume]; norm_num]
    exact h2
  · refine (h3 "g_z" (by simp [prismFieldNames]) ⟨0, 0, 1050⟩ 1000 100 (by norm_num) ?_).trans (le_of_eq ?_)
    · intro s hs
      rw [List.mem_singleton] at hs
      subst hs
      refine ⟨?_, ?_⟩
      · refine le_trans ?_ (abs_x_le_gap _ _).2.2
        norm_num
      · rintro x ⟨⟨a1, a2⟩, ⟨a3, a4⟩, a5, a6⟩
        simp only at a1 a2 a3 a4 a5 a6
        constructor
        · refine le_trans ?_ ((le_abs_self _).trans (abs_x_le_gap _ _).2.2)
          simp only [pointAt]
          linarith
        · refine Real.sqrt_le_iff.2 ⟨by norm_num, ?_⟩
          simp only [pointAt, sub_zero]
          nlinarith
    · simp [blur, Prism.volume]
      norm_num

/-- The same cube divided into a thousand cubes: the bound is ten times smaller. -/
example : ∃ F F' : String → P3 → ℝ,
    PrismsReturn (fun _ _ => 0) bodyKernels [(⟨-50, 50, -50, 50, -50, 50⟩, 2670)] F ∧
    PointsReturn (fun _ _ => 0) newtonKernels (lumps (centred 10 [(⟨-50, 50, -50, 50, -50, 50⟩, 2670)])) F' ∧
    |F "g_z" ⟨0, 0, 1050⟩ - F' "g_z" ⟨0, 0, 1050⟩| ≤ 4 * 10 ^ 5 * gravitationalConst * (2670 * 10 ^ 6) * 10 / 1000 ^ 3 := by
  obtain ⟨F, F', h1, h2, h3⟩ := C161_converge (fun _ _ => 0) bodyKernels_newtonian newtonKernels_newtonian
    [(⟨-50, 50, -50, 50, -50, 50⟩, 2670)] (by simp [Prism.Ordered])
  refine ⟨F, F' 10, h1, h2 10, ?_⟩
  refine (h3 "g_z" (by simp [prismFieldNames]) ⟨0, 0, 1050⟩ 1000 200 (by norm_num) ?_ ?_ 10 (by norm_num)).trans
    (le_of_eq ?_)
  · intro s hs
    rw [List.mem_singleton] at hs
    subst hs
    rintro x ⟨-, -, a5, a6⟩
    simp only at a5 a6
    refine le_trans ?_ ((le_abs_self _).trans (abs_x_le_gap _ _).2.2)
    simp only [pointAt]
    linarith
  · intro s hs
    rw [List.mem_singleton] at hs
    subst hs
    refine Real.sqrt_le_iff.2 ⟨by norm_num, ?_⟩
    norm_num
  · simp [blur, Prism.volume]
    norm_num

end Verif.Forward
