import Verif.Forward.PropsL
import Verif.Forward.PropsI

/-!
C125: the total mass of the sources is in the gravity over them: the integral of g_z over ever larger rectangles of
a horizontal plane above the sources tends to 2 π G times the total mass.
-/

namespace Verif.Forward
open Verif.Distance Verif.Engine Filter Topology MeasureTheory

/-! ### Specification -/

/-- Integral of a field over the rectangle of `R` (its west, east, south and north) at the height `h`. -/
noncomputable def planeIntegral (R : Prism) (h : ℝ) (F : P3 → ℝ) : ℝ :=
  ∫ s in Set.Icc R.west R.east ×ˢ Set.Icc R.south R.north, F ⟨s.1, s.2, h⟩

/-- The rectangle of `R` extends a distance `L` or more around the rectangle with these sides. -/
def Around (R : Prism) (L west east south north : ℝ) : Prop :=
  R.west + L ≤ west ∧ east + L ≤ R.east ∧ R.south + L ≤ south ∧ north + L ≤ R.north

/-! ### Lemmas -/

theorem pull_swap (x y h : ℝ) (r : ℝ × ℝ × ℝ) : pull ⟨x, y, h⟩ r = pull ⟨r.1, r.2.1, h⟩ (x, y, r.2.2) := by
  simp only [pull, gap, pointAt]
  congr 4
  ring

/-- Points of the plane against points below it. -/
theorem pull_continuous (h : ℝ) : ContinuousOn (fun p : (ℝ × ℝ) × (ℝ × ℝ × ℝ) => pull ⟨p.1.1, p.1.2, h⟩ p.2)
    {p | p.2.2.2 < h} := by
  unfold pull gap pointAt
  refine ContinuousOn.div (by fun_prop) (by fun_prop) fun p hp => ?_
  have : 0 < h - p.2.2.2 := sub_pos.2 hp
  positivity

theorem rect_compact (R : Prism) : IsCompact (Set.Icc R.west R.east ×ˢ Set.Icc R.south R.north) :=
  isCompact_Icc.prod isCompact_Icc

theorem pull_plane_integrable (R : Prism) (h : ℝ) (r : ℝ × ℝ × ℝ) (hr : r.2.2 < h) :
    IntegrableOn (fun s : ℝ × ℝ => pull ⟨s.1, s.2, h⟩ r) (Set.Icc R.west R.east ×ˢ Set.Icc R.south R.north) := by
  refine ContinuousOn.integrableOn_compact (rect_compact R) ?_
  exact (pull_continuous h).comp (f := fun s : ℝ × ℝ => (s, r)) (by fun_prop) fun s _ => hr

theorem pull_plane (R : Prism) (hR : R.Ordered) (h : ℝ) (r : ℝ × ℝ × ℝ) (hr : r.2.2 < h) :
    ∫ s in Set.Icc R.west R.east ×ˢ Set.Icc R.south R.north, pull ⟨s.1, s.2, h⟩ r =
      section_ R ⟨r.1, r.2.1, h⟩ (h - r.2.2) := by
  simp only [pull_swap _ _ h r]
  exact section_integral R hR ⟨r.1, r.2.1, h⟩ r.2.2 hr

theorem section_source_measurable (R : Prism) (h : ℝ) :
    Measurable fun r : ℝ × ℝ × ℝ => section_ R ⟨r.1, r.2.1, h⟩ (h - r.2.2) := by
  unfold section_ solid
  refine Measurable.sub (Measurable.sub ?_ ?_) (Measurable.sub ?_ ?_) <;>
    exact Real.continuous_arctan.measurable.comp (by fun_prop)

theorem body_plane (R p : Prism) (hR : R.Ordered) (h : ℝ) (hp : p.top < h) :
    IntegrableOn (fun s : ℝ × ℝ => ∫ r in p.body, pull ⟨s.1, s.2, h⟩ r)
      (Set.Icc R.west R.east ×ˢ Set.Icc R.south R.north) ∧
    ∫ s in Set.Icc R.west R.east ×ˢ Set.Icc R.south R.north, ∫ r in p.body, pull ⟨s.1, s.2, h⟩ r =
      ∫ r in p.body, section_ R ⟨r.1, r.2.1, h⟩ (h - r.2.2) := by
  have hbody : ∀ r ∈ p.body, r.2.2 < h := fun r hr => lt_of_le_of_lt hr.2.2.2 hp
  have hint : Integrable (Function.uncurry fun (s : ℝ × ℝ) (r : ℝ × ℝ × ℝ) => pull ⟨s.1, s.2, h⟩ r)
      ((volume.restrict (Set.Icc R.west R.east ×ˢ Set.Icc R.south R.north)).prod (volume.restrict p.body)) := by
    rw [Measure.prod_restrict]
    refine ContinuousOn.integrableOn_compact (μ := (volume : Measure (ℝ × ℝ)).prod (volume : Measure (ℝ × ℝ × ℝ)))
      ((rect_compact R).prod p.body_compact) ?_
    exact (pull_continuous h).mono fun s hs => hbody s.2 hs.2
  refine ⟨hint.integral_prod_left, ?_⟩
  rw [integral_integral_swap hint]
  refine setIntegral_congr_fun p.body_meas fun r hr => ?_
  exact pull_plane R hR h r (hbody r hr)

theorem body_plane_tendsto {R : ℕ → Prism} (hw : Widening R) (p : Prism) (hpo : p.Ordered)
    (h : ℝ) (hp : p.top < h) :
    Tendsto (fun k => ∫ r in p.body, section_ (R k) ⟨r.1, r.2.1, h⟩ (h - r.2.2)) atTop
      (𝓝 (2 * Real.pi * p.volume)) := by
  have hlim : ∫ _ in p.body, (2 * Real.pi) = 2 * Real.pi * p.volume := by
    rw [setIntegral_const, p.volume_body hpo, smul_eq_mul, mul_comm]
  rw [← hlim]
  have : IsFiniteMeasure ((volume : Measure (ℝ × ℝ × ℝ)).restrict p.body) :=
    isFiniteMeasure_restrict.2 p.body_compact.measure_lt_top.ne
  refine tendsto_integral_of_dominated_convergence (fun _ => 2 * Real.pi)
    (fun k => (section_source_measurable (R k) h).aestronglyMeasurable) (integrable_const _)
    (fun k => Eventually.of_forall fun r => section_bounds _ _ _) ?_
  refine (ae_restrict_iff' p.body_meas).2 (Eventually.of_forall fun r hr => ?_)
  exact section_tendsto hw _ (sub_pos.2 (lt_of_le_of_lt hr.2.2.2 hp))

/-- The integral of a sum over sources. -/
theorem sum_plane {S : Type} (A : Set (ℝ × ℝ)) (srcs : List S) (f : S → ℝ × ℝ → ℝ)
    (hf : ∀ s ∈ srcs, IntegrableOn (f s) A) :
    IntegrableOn (fun x => (srcs.map fun s => f s x).sum) A ∧
      ∫ x in A, (srcs.map fun s => f s x).sum = (srcs.map fun s => ∫ x in A, f s x).sum := by
  induction srcs with
  | nil => simp
  | cons a l ih =>
    obtain ⟨h1, h2⟩ := ih fun s hs => hf s (by simp [hs])
    have ha := hf a (by simp)
    simp only [List.map_cons, List.sum_cons]
    exact ⟨ha.add h1, by rw [integral_add ha h1, h2]⟩

theorem tendsto_sum {S : Type} (srcs : List S) (f : S → ℕ → ℝ) (c : S → ℝ)
    (h : ∀ s ∈ srcs, Tendsto (f s) atTop (𝓝 (c s))) :
    Tendsto (fun k => (srcs.map fun s => f s k).sum) atTop (𝓝 (srcs.map c).sum) := by
  induction srcs with
  | nil => simp
  | cons a l ih =>
    simp only [List.map_cons, List.sum_cons]
    exact (h a (by simp)).add (ih fun s hs => h s (by simp [hs]))

theorem sum_close {S : Type} (srcs : List S) (f c b : S → ℝ) (h : ∀ s ∈ srcs, |f s - c s| ≤ b s) :
    |(srcs.map f).sum - (srcs.map c).sum| ≤ (srcs.map b).sum := by
  induction srcs with
  | nil => simp
  | cons a l ih =>
    simp only [List.map_cons, List.sum_cons]
    have h1 := h a (by simp)
    have h2 := ih fun s hs => h s (by simp [hs])
    rw [abs_le] at h1 h2 ⊢
    constructor <;> linarith

theorem section_close (R : Prism) {L d : ℝ} (hd : 0 < d) (hL : d ≤ L) (q : P3)
    (hA : Around R L q.x q.x q.y q.y) :
    |section_ R q d - 2 * Real.pi| ≤ 8 * d / L := by
  obtain ⟨h1, h2, h3, h4⟩ := hA
  have hlo := section_error R q hd hL (by linarith) (by linarith) (by linarith) (by linarith)
  have hup := (abs_le.1 (section_bounds R q d)).2
  have : 0 ≤ 8 * d / L := by
    have : 0 < L := lt_of_lt_of_le hd hL
    positivity
  rw [abs_le]
  constructor <;> linarith

theorem point_gz (K : PointKernels) (hK : K.Newtonian) (srcs : List (P3 × ℝ)) (q : P3) (hq : ∀ s ∈ srcs, q ≠ s.1) :
    pointValue K srcs "g_z" q = 10 ^ 5 * gravitationalConst * (srcs.map fun s => s.2 * pull q (coords s.1)).sum := by
  have e : total (fun q s => K.u q s.1 s.2) srcs q =
      -gravitationalConst * (srcs.map fun s => s.2 * pull q (coords s.1)).sum := by
    unfold total
    induction srcs with
    | nil => simp
    | cons a l ih =>
      simp only [List.map_cons, List.sum_cons]
      rw [ih fun s hs => hq s (by simp [hs]), hK.u _ _ _ (hq a (by simp))]
      have : pull q (coords a.1) = (q.z - a.1.z) / gap q a.1 ^ 3 := rfl
      rw [this]
      ring
  simp only [pointValue, pointFieldTable, reduceIte, String.reduceEq]
  rw [e]
  ring

/-- The value of prisms as a sum over prisms. -/
theorem prism_gz (srcs : List (Prism × ℝ)) (q : P3) :
    ∫ r, densityAt srcs r * pull q r = (srcs.map fun s => s.2 * ∫ r in s.1.body, pull q r).sum := by
  induction srcs with
  | nil => simp [densityAt]
  | cons a l ih =>
    obtain ⟨p, ρ⟩ := a
    rw [pull_cons, ih]
    simp

/-! ### C125 -/

/-- C125. For point masses below the plane at the height `h`: the function `F` that `point_gravity` computes at
all points above the masses has the total mass as the limit of its integral over ever larger rectangles. -/
theorem C125_points (junk : Junk) {K : PointKernels} (hK : K.Newtonian) (ps ms : List ℕ) (srcs : List (P3 × ℝ))
    (h : ℝ) (hbelow : ∀ s ∈ srcs, s.1.z < h) :
    ∃ F : P3 → ℝ,
      (∀ mode shape obs, shape.prod = obs.length → mode.Full obs.length (2 * srcs.length) →
        pointGravity junk mode K (arrays shape obs) (arrays ps (srcs.map (·.1))) ⟨ms, srcs.map (·.2)⟩ "g_z"
          "cartesian" = .ok ⟨shape, obs.map F⟩) ∧
      (∀ R : ℕ → Prism, Widening R → (∀ k, (R k).Ordered) →
        Tendsto (fun k => planeIntegral (R k) h F) atTop
          (𝓝 (10 ^ 5 * (2 * Real.pi * gravitationalConst * (srcs.map (·.2)).sum)))) ∧
      ∀ R : Prism, ∀ L, R.Ordered → (∀ s ∈ srcs, h - s.1.z ≤ L ∧ Around R L s.1.x s.1.x s.1.y s.1.y) →
        |planeIntegral R h F - 10 ^ 5 * (2 * Real.pi * gravitationalConst * (srcs.map (·.2)).sum)| ≤
          10 ^ 5 * gravitationalConst * (srcs.map fun s => |s.2| * (8 * (h - s.1.z) / L)).sum := by
  have hval : ∀ R : Prism, R.Ordered → planeIntegral R h (pointValue K srcs "g_z") = 10 ^ 5 * gravitationalConst *
      (srcs.map fun s => s.2 * section_ R ⟨s.1.x, s.1.y, h⟩ (h - s.1.z)).sum := by
    intro R hR
    unfold planeIntegral
    have e : ∀ s : ℝ × ℝ, pointValue K srcs "g_z" ⟨s.1, s.2, h⟩ = 10 ^ 5 * gravitationalConst *
        (srcs.map fun t => t.2 * pull ⟨s.1, s.2, h⟩ (coords t.1)).sum := fun s =>
      point_gz K hK srcs _ fun t ht heq => (hbelow t ht).ne (by rw [← heq])
    simp only [e]
    rw [integral_const_mul, (sum_plane _ srcs (fun t s => t.2 * pull ⟨s.1, s.2, h⟩ (coords t.1)) fun t ht =>
      (pull_plane_integrable R h (coords t.1) (hbelow t ht)).const_mul _).2]
    congr 2
    refine List.map_congr_left fun t ht => ?_
    rw [integral_const_mul, pull_plane R hR h (coords t.1) (hbelow t ht)]
    rfl
  refine ⟨pointValue K srcs "g_z", ?_, ?_, ?_⟩
  · intro mode shape obs hs hm
    exact pointGravity_value junk mode K shape ps ms obs hs srcs hm "g_z" (by simp [pointFieldNames])
  · intro R hw hR
    simp only [fun k => hval (R k) (hR k)]
    have : 10 ^ 5 * (2 * Real.pi * gravitationalConst * (srcs.map (·.2)).sum) = 10 ^ 5 * gravitationalConst *
        (srcs.map fun s => s.2 * (2 * Real.pi)).sum := by
      rw [List.sum_map_mul_right]
      ring
    rw [this]
    refine (tendsto_sum srcs _ _ fun s hs => ?_).const_mul _
    exact (section_tendsto hw _ (sub_pos.2 (hbelow s hs))).const_mul _
  · intro R L hR hL
    rw [hval R hR]
    have : 10 ^ 5 * (2 * Real.pi * gravitationalConst * (srcs.map (·.2)).sum) = 10 ^ 5 * gravitationalConst *
        (srcs.map fun s => s.2 * (2 * Real.pi)).sum := by
      rw [List.sum_map_mul_right]
      ring
    have hG := gravConst_pos
    rw [this, ← mul_sub, abs_mul, abs_of_pos (by positivity : (0 : ℝ) < 10 ^ 5 * gravitationalConst)]
    refine mul_le_mul_of_nonneg_left (sum_close srcs _ _ _ fun s hs => ?_) (by positivity)
    rw [← mul_sub, abs_mul]
    refine mul_le_mul_of_nonneg_left ?_ (abs_nonneg _)
    exact section_close R (sub_pos.2 (hbelow s hs)) (hL s hs).1 _ (hL s hs).2

/-- C125. For prisms below the plane. -/
theorem C125_prisms (junk : Junk) {K : PrismKernels} (hK : K.Newtonian) (srcs : List (Prism × ℝ)) (dis : Bool)
    (hord : ∀ s ∈ srcs, s.1.Ordered) (h : ℝ) (hbelow : ∀ s ∈ srcs, s.1.top < h) :
    ∃ F : P3 → ℝ,
      (∀ mode shape obs, shape.prod = obs.length → mode.Full obs.length (2 * srcs.length) →
        (prismGravity junk mode K (arrays shape obs) (srcs.map (·.1)) (srcs.map (·.2)) "g_z" dis).map (·.2) =
          .ok ⟨shape, obs.map F⟩) ∧
      (∀ R : ℕ → Prism, Widening R → (∀ k, (R k).Ordered) →
        Tendsto (fun k => planeIntegral (R k) h F) atTop
          (𝓝 (10 ^ 5 * (2 * Real.pi * gravitationalConst * (srcs.map fun s => s.2 * s.1.volume).sum)))) ∧
      ∀ R : Prism, ∀ L, R.Ordered →
        (∀ s ∈ srcs, h - s.1.bottom ≤ L ∧ Around R L s.1.west s.1.east s.1.south s.1.north) →
        |planeIntegral R h F - 10 ^ 5 * (2 * Real.pi * gravitationalConst * (srcs.map fun s => s.2 * s.1.volume).sum)| ≤
          10 ^ 5 * gravitationalConst * (srcs.map fun s => |s.2| * s.1.volume * (8 * (h - s.1.bottom) / L)).sum := by
  have hval : ∀ R : Prism, R.Ordered →
      planeIntegral R h (fun q => 10 ^ 5 * gravitationalConst * ∫ r, densityAt srcs r * pull q r) =
        10 ^ 5 * gravitationalConst *
          (srcs.map fun s => s.2 * ∫ r in s.1.body, section_ R ⟨r.1, r.2.1, h⟩ (h - r.2.2)).sum := by
    intro R hR
    unfold planeIntegral
    simp only [prism_gz]
    rw [integral_const_mul, (sum_plane _ srcs (fun t s => t.2 * ∫ r in t.1.body, pull ⟨s.1, s.2, h⟩ r) fun t ht =>
      (body_plane R t.1 hR h (hbelow t ht)).1.const_mul _).2]
    congr 2
    refine List.map_congr_left fun t ht => ?_
    rw [integral_const_mul, (body_plane R t.1 hR h (hbelow t ht)).2]
  have hmass : 10 ^ 5 * (2 * Real.pi * gravitationalConst * (srcs.map fun s => s.2 * s.1.volume).sum) =
      10 ^ 5 * gravitationalConst * (srcs.map fun s => s.2 * (2 * Real.pi * s.1.volume)).sum := by
    have : ∀ s : Prism × ℝ, s.2 * (2 * Real.pi * s.1.volume) = s.2 * s.1.volume * (2 * Real.pi) := fun s => by ring
    simp only [this]
    rw [List.sum_map_mul_right]
    ring
  refine ⟨fun q => 10 ^ 5 * gravitationalConst * ∫ r, densityAt srcs r * pull q r, ?_, ?_, ?_⟩
  · intro mode shape obs hs hm
    exact gz_value junk mode hK shape obs hs srcs dis hord hm
  · intro R hw hR
    simp only [fun k => hval (R k) (hR k)]
    rw [hmass]
    refine (tendsto_sum srcs _ _ fun s hs => ?_).const_mul _
    exact (body_plane_tendsto hw s.1 (hord s hs) h (hbelow s hs)).const_mul _
  · intro R L hR hL
    rw [hval R hR, hmass]
    have hG := gravConst_pos
    rw [← mul_sub, abs_mul, abs_of_pos (by positivity : (0 : ℝ) < 10 ^ 5 * gravitationalConst)]
    refine mul_le_mul_of_nonneg_left (sum_close srcs _ _ _ fun s hs => ?_) (by positivity)
    rw [← mul_sub, abs_mul, mul_assoc |s.2|]
    refine mul_le_mul_of_nonneg_left ?_ (abs_nonneg _)
    have hfin : IsFiniteMeasure ((volume : Measure (ℝ × ℝ × ℝ)).restrict s.1.body) :=
      isFiniteMeasure_restrict.2 s.1.body_compact.measure_lt_top.ne
    have hI : Integrable (fun r : ℝ × ℝ × ℝ => section_ R ⟨r.1, r.2.1, h⟩ (h - r.2.2))
        (volume.restrict s.1.body) :=
      Integrable.of_bound (section_source_measurable R h).aestronglyMeasurable (2 * Real.pi)
        (Eventually.of_forall fun r => section_bounds _ _ _)
    have hconst : 2 * Real.pi * s.1.volume = ∫ _ in s.1.body, (2 * Real.pi) := by
      rw [setIntegral_const, s.1.volume_body (hord s hs), smul_eq_mul, mul_comm]
    rw [hconst, ← integral_sub hI (integrable_const _)]
    have hb := norm_setIntegral_le_of_norm_le_const (μ := (volume : Measure (ℝ × ℝ × ℝ))) (s := s.1.body)
      (f := fun r => section_ R ⟨r.1, r.2.1, h⟩ (h - r.2.2) - 2 * Real.pi) (C := 8 * (h - s.1.bottom) / L)
      s.1.body_compact.measure_lt_top (by
        intro r hr
        obtain ⟨⟨r1, r2⟩, ⟨r3, r4⟩, r5, r6⟩ := hr
        obtain ⟨l0, l1, l2, l3, l4⟩ := hL s hs
        have htop := hbelow s hs
        have hd : 0 < h - r.2.2 := by linarith
        have hL0 : 0 < L := by linarith
        have hA : Around R L r.1 r.1 r.2.1 r.2.1 := ⟨by linarith, by linarith, by linarith, by linarith⟩
        refine (section_close R (L := L) hd (by linarith) ⟨r.1, r.2.1, h⟩ hA).trans ?_
        exact div_le_div_of_nonneg_right (by linarith) hL0.le)
    rw [s.1.volume_body (hord s hs), Real.norm_eq_abs] at hb
    rw [mul_comm s.1.volume]
    exact hb

/-! ### Examples -/

/-- Two masses, of 3 and -1 kg, under the plane at 10 m: the limit is that of 2 kg, and a square of 4 km has it up to
the bound. -/
example : ∃ F : P3 → ℝ,
    pointGravity (fun _ _ => 0) .serial newtonKernels (arrays [1] [⟨4, 5, 10⟩])
      (arrays [2] [⟨0, 0, -5⟩, ⟨100, 50, 2⟩]) ⟨[2], [3, -1]⟩ "g_z" "cartesian" = .ok ⟨[1], [F ⟨4, 5, 10⟩]⟩ ∧
    Tendsto (fun k => planeIntegral (squares 0 k) 10 F) atTop (𝓝 (10 ^ 5 * (2 * Real.pi * gravitationalConst * 2))) ∧
    |planeIntegral ⟨-2000, 2000, -2000, 2000, 0, 0⟩ 10 F - 10 ^ 5 * (2 * Real.pi * gravitationalConst * 2)| ≤
      10 ^ 5 * gravitationalConst * (3 * (8 * 15 / 1000) + 8 * 8 / 1000) := by
  have hz : ∀ s ∈ [((⟨0, 0, -5⟩ : P3), (3 : ℝ)), (⟨100, 50, 2⟩, -1)], s.1.z < (10 : ℝ) := by
    intro s hs
    simp only [List.mem_cons, List.not_mem_nil, or_false] at hs
    rcases hs with rfl | rfl <;> norm_num
  obtain ⟨F, h1, h2, h3⟩ := C125_points (fun _ _ => 0) newtonKernels_newtonian [2] [2]
    [(⟨0, 0, -5⟩, 3), (⟨100, 50, 2⟩, -1)] 10 hz
  refine ⟨F, h1 .serial [1] [⟨4, 5, 10⟩] (by simp) trivial, ?_, ?_⟩
  · have := h2 (squares 0) (squares_widening 0) (squares_ordered 0)
    norm_num at this ⊢
    exact this
  · have := h3 ⟨-2000, 2000, -2000, 2000, 0, 0⟩ 1000 ⟨by norm_num, by norm_num, by norm_num⟩ (by
      intro s hs
      simp only [List.mem_cons, List.not_mem_nil, or_false] at hs
      rcases hs with rfl | rfl <;> refine ⟨?_, ?_, ?_, ?_, ?_⟩ <;> norm_num)
    norm_num at this ⊢
    exact this

/-- Two overlapping prisms under the plane at 10 m, of 1000 and 500 kg. -/
example : ∃ F : P3 → ℝ,
    (prismGravity (fun _ _ => 0) .serial bodyKernels (arrays [1] [⟨4, 5, 10⟩])
      [⟨0, 10, 0, 10, -10, 0⟩, ⟨5, 10, 0, 10, -10, 0⟩] [1, 1] "g_z" false).map (·.2) = .ok ⟨[1], [F ⟨4, 5, 10⟩]⟩ ∧
    Tendsto (fun k => planeIntegral (squares 0 k) 10 F) atTop
      (𝓝 (10 ^ 5 * (2 * Real.pi * gravitationalConst * 1500))) := by
  have hs : ∀ s ∈ [((⟨0, 10, 0, 10, -10, 0⟩ : Prism), (1 : ℝ)), (⟨5, 10, 0, 10, -10, 0⟩, 1)],
      s.1.Ordered ∧ s.1.top < 10 := by
    intro s hs
    simp only [List.mem_cons, List.not_mem_nil, or_false] at hs
    rcases hs with rfl | rfl <;> refine ⟨⟨?_, ?_, ?_⟩, ?_⟩ <;> norm_num
  obtain ⟨F, h1, h2, -⟩ := C125_prisms (fun _ _ => 0) bodyKernels_newtonian _ false (fun s h => (hs s h).1) 10
    fun s h => (hs s h).2
  refine ⟨F, h1 .serial [1] [⟨4, 5, 10⟩] (by simp) trivial, ?_⟩
  have := h2 (squares 0) (squares_widening 0) (squares_ordered 0)
  norm_num [Prism.volume] at this ⊢
  exact this

end Verif.Forward
