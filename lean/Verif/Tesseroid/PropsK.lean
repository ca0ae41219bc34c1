import Verif.Tesseroid.PropsJ

/-!
The error of the potential and of the attraction of tesseroids whose density is a function of the radius
(C142).
-/

namespace Verif.Tesseroid
open Verif.Distance Verif.Forward Verif.Engine
open scoped InnerProductSpace

/-! ### specification -/

/-- Newton's potential of bodies whose density is a function of the radius. -/
noncomputable def exactPotentialFunc (ts : List Tess) (f : ℝ → ℝ) (q : P3) : ℝ :=
  gravitationalConst * (ts.map fun t => t.integral fun p => f ‖p‖ * (1 / dist (sphPos q) p)).sum

/-- Newton's attraction of those bodies, its component towards the center of the Earth, in mGal. -/
noncomputable def exactAttractionFunc (ts : List Tess) (f : ℝ → ℝ) (q : P3) : ℝ :=
  10 ^ 5 * (gravitationalConst * (ts.map fun t => t.integral fun p =>
    f ‖p‖ * (⟪sphPos q - p, unitPos q.x q.y⟫_ℝ / dist (sphPos q) p ^ 3)).sum)

/-! ### bodies that may have no volume -/

theorem gaussNode_between {a b σ : ℝ} (hab : a ≤ b) (hσ : σ = -1 ∨ σ = 1) :
    a ≤ gaussNode a b σ ∧ gaussNode a b σ ≤ b := by
  rcases lt_or_eq_of_le hab with h | h
  · exact ⟨(gaussNode_inside h hσ).1.le, (gaussNode_inside h hσ).2.le⟩
  · subst h; simp [gaussNode]

theorem masses_between (t : Tess) (ht : t.Ordered) (hs : -90 ≤ t.s) (hn : t.n ≤ 90) :
    ∀ m ∈ pointMasses t fun _ => 1, (t.w ≤ m.1.x ∧ m.1.x ≤ t.e) ∧ (t.s ≤ m.1.y ∧ m.1.y ≤ t.n) ∧
      (t.bottom ≤ m.1.z ∧ m.1.z ≤ t.top) ∧ 0 ≤ m.2 := by
  intro m hm
  unfold pointMasses at hm
  simp only [List.mem_flatMap, List.mem_map, List.mem_cons, List.not_mem_nil, or_false] at hm
  obtain ⟨σφ, h1, σr, h2, σl, h3, rfl⟩ := hm
  have a1 := gaussNode_between ht.1 h3
  have a2 := gaussNode_between ht.2.1 h1
  have a3 := gaussNode_between ht.2.2 h2
  refine ⟨a1, a2, a3, ?_⟩
  simp only
  have c1 : 0 ≤ Real.cos (radians (gaussNode t.s t.n σφ)) := by
    apply Real.cos_nonneg_of_mem_Icc
    have hpi : radians 90 = Real.pi / 2 := by unfold radians; ring
    have h2 : radians (-90) = -(Real.pi / 2) := by unfold radians; ring
    constructor
    · rw [← h2]; exact radians_le.2 (by linarith [a2.1])
    · rw [← hpi]; exact radians_le.2 (by linarith [a2.2])
  have c4 := radians_le.2 ht.1
  have c5 := radians_le.2 ht.2.1
  have : 0 ≤ (t.top - t.bottom) * (radians t.n - radians t.s) * (radians t.e - radians t.w) :=
    mul_nonneg (mul_nonneg (by linarith [ht.2.2]) (by linarith)) (by linarith)
  positivity

/-- `masses_near` also for bodies without volume. -/
theorem masses_near' {t : Tess} (ht : t.Good) {g : E3 → ℝ} (hg : Continuous g) {B ε η : ℝ}
    (hB : ∀ a, t.Body a → |g (sphPos a)| ≤ B)
    (hε : ∀ a b, t.Body a → t.Body b → |g (sphPos a) - g (sphPos b)| ≤ ε) (hη : 0 ≤ η)
    (masses : List (P3 × ℝ)) (hin : ∀ m ∈ masses, t.Body m.1 ∧ 0 ≤ m.2)
    (hW : (masses.map (·.2)).sum ≤ t.bodyVolume) (hW' : (1 - η) * t.bodyVolume ≤ (masses.map (·.2)).sum) :
    |(masses.map fun m => m.2 * g (sphPos m.1)).sum - t.integral g| ≤ (ε + η * B) * t.bodyVolume := by
  rcases lt_or_eq_of_le (bodyVolume_nonneg ht) with h | h
  · exact masses_near ht hg hB hε hη masses hin hW hW' h
  · have hI : t.integral g = 0 := by
      have := integral_near ht hg (c := 0) (ε := B) fun a ha => by simpa using hB a ha
      rw [← h] at this
      simpa using this
    have h0 : ∀ m ∈ masses, m.2 = 0 := by
      rw [← h] at hW
      have hle : ∀ m ∈ masses, m.2 ≤ (masses.map (·.2)).sum := fun m hm =>
        List.single_le_sum (by
          intro x hx
          obtain ⟨y, hy, rfl⟩ := List.mem_map.1 hx
          exact (hin y hy).2) _ (List.mem_map.2 ⟨m, hm, rfl⟩)
      intro m hm
      exact le_antisymm ((hle m hm).trans hW) (hin m hm).2
    have hS : (masses.map fun m => m.2 * g (sphPos m.1)).sum = 0 := by
      apply List.sum_eq_zero
      intro x hx
      obtain ⟨m, hm, rfl⟩ := List.mem_map.1 hx
      rw [h0 m hm, zero_mul]
    rw [hI, hS, ← h]
    simp

theorem pieces_within' (field : String) (radial : Bool) (q : P3) (t : Tess) (ht : t.Ordered) (p : List Tess)
    (hp : tessPieces (tessParams field radial q) t = .ok p) :
    (p.map Tess.volume).sum = t.volume ∧
    ∀ x ∈ p, x.Ordered ∧ t.w ≤ x.w ∧ x.e ≤ t.e ∧ t.s ≤ x.s ∧ x.n ≤ t.n ∧ t.bottom ≤ x.bottom ∧ x.top ≤ t.top := by
  rcases adaptive_cases (tessParams field radial q) stackSize_pos (fun _ => t) (fun _ => t) t with
    ⟨n, small, h1, h2⟩ | ⟨e, -, h2⟩
  · rw [h2] at hp
    injection hp with hp
    obtain ⟨-, a2, -, a4⟩ := C16_partition _ stackSize_pos _ _ _ t ht n small h1
    have hp' : (List.range n).map small = p := hp
    rw [hp'] at a2
    refine ⟨a2, fun x hx => ?_⟩
    rw [← hp'] at hx
    obtain ⟨i, hi, rfl⟩ := List.mem_map.1 hx
    exact a4 i (List.mem_range.1 hi)
  · rw [h2] at hp; simp at hp

theorem pointMasses_func (t : Tess) (f : ℝ → ℝ) :
    pointMasses t f = (pointMasses t fun _ => 1).map fun m => (m.1, f m.1.z * m.2) := by
  unfold pointMasses
  simp only [List.flatMap_cons, List.flatMap_nil, List.map_cons, List.map_nil, List.append_nil,
    List.cons_append, List.nil_append, List.cons.injEq, Prod.mk.injEq, true_and, and_true]
  refine ⟨?_, ?_, ?_, ?_, ?_, ?_, ?_, ?_⟩ <;> ring

/-- Effect of the layers of one tesseroid, for a kernel that is a function of the position of the mass. -/
theorem layers_near (field : String) (radial : Bool) (kernel : SphKernel) (f : ℝ → ℝ) (q : P3) (t : Tess)
    (g1 : t.ValidRange) (g2 : t.ValidLon) (M : Minimizer) (hM : M.InBounds) (fuel : ℕ) (ls : List Tess)
    (hls : densityDiscretization1 M f fuel (normLon t) = some ls)
    (hp : ∀ l ∈ ls, ∃ p, tessPieces (tessParams field radial q) l = .ok p) (c : ℝ) (g : E3 → ℝ) (hg : Continuous g)
    (hk : ∀ a : P3, t.Body a → ∀ m, (PointKernel.spherical kernel).eval q a (f a.z * m) = c * (m * g (sphPos a)))
    {B ε : ℝ} (hB : ∀ a, t.Body a → |g (sphPos a)| ≤ B)
    (hε : ∀ a b, t.Body a → t.Body b → |g (sphPos a) - g (sphPos b)| ≤ ε) :
    |total (layerEffect field radial kernel f) ls q - c * t.integral g| ≤
      |c| * ((ε + t.halfLat ^ 4 / 150 * B) * t.bodyVolume) := by
  have hgood := good_of_range g1
  have hn := normLon_range t g1
  have hord : (normLon t).Ordered := ⟨((normLon_valid_iff t).1 g2).1, hn.sn, hn.bt⟩
  obtain ⟨e1, e2, e3, e4⟩ := normLon_same t
  have hvol := bodyVolume_normLon t g2
  obtain ⟨-, hv, hlay⟩ := C18_partition M hM f (normLon t) hord fuel ls hls
  have hx0 : 0 ≤ t.halfLat := by
    have := radians_le.2 hgood.sn
    unfold Tess.halfLat; linarith
  have hlo : ∀ l ∈ ls, l.Ordered := by
    intro l hl
    obtain ⟨f1, f2, f3, f4, -, f6, -⟩ := hlay l hl
    exact ⟨by rw [f1, f2]; exact hord.1, by rw [f3, f4]; exact hord.2.1, f6⟩
  have hpc : ∀ l ∈ ls, ((usedPieces field radial q l).map Tess.volume).sum = l.volume ∧
      ∀ y ∈ usedPieces field radial q l, y.Ordered ∧ (normLon t).w ≤ y.w ∧ y.e ≤ (normLon t).e ∧
        (normLon t).s ≤ y.s ∧ y.n ≤ (normLon t).n ∧ (normLon t).bottom ≤ y.bottom ∧ y.top ≤ (normLon t).top := by
    intro l hl
    obtain ⟨p, hp⟩ := hp l hl
    rw [usedPieces_ok hp]
    obtain ⟨h1, h2⟩ := pieces_within' field radial q l (hlo l hl) p hp
    refine ⟨h1, fun y hy => ?_⟩
    obtain ⟨c1, c2, c3, c4, c5, c6, c7⟩ := h2 y hy
    obtain ⟨f1, f2, f3, f4, f5, f6, f7⟩ := hlay l hl
    exact ⟨c1, by linarith, by linarith, by linarith, by linarith, by linarith, by linarith⟩
  set masses := ls.flatMap fun l => (usedPieces field radial q l).flatMap fun y => pointMasses y fun _ => 1
    with hmasses
  have hbody : ∀ m ∈ masses, t.Body m.1 ∧ 0 ≤ m.2 := by
    intro m hm
    obtain ⟨l, hl, hm⟩ := List.mem_flatMap.1 hm
    obtain ⟨y, hy, hm⟩ := List.mem_flatMap.1 hm
    obtain ⟨c1, c2, c3, c4, c5, c6, c7⟩ := (hpc l hl).2 y hy
    obtain ⟨d1, d2, d3, d4⟩ := masses_between y c1 (by linarith [hn.lat_s.1]) (by linarith [hn.lat_n.2]) m hm
    refine ⟨?_, d4⟩
    rw [← normLon_body t g2]
    refine ⟨⟨0, ?_, ?_⟩, ⟨?_, ?_⟩, ?_, ?_⟩
    · simp; linarith [d1.1]
    · simp [eastEnd_of_le hord.1]; linarith [d1.2]
    all_goals linarith [d2.1, d2.2, d3.1, d3.2]
  have herr : ∀ l ∈ ls, ∀ y ∈ usedPieces field radial q l,
      ((pointMasses y fun _ => 1).map (·.2)).sum ≤ y.volume ∧
      (1 - t.halfLat ^ 4 / 150) * y.volume ≤ ((pointMasses y fun _ => 1).map (·.2)).sum := by
    intro l hl y hy
    obtain ⟨c1, c2, c3, c4, c5, c6, c7⟩ := (hpc l hl).2 y hy
    obtain ⟨m1, m2⟩ := C17_mass_error y c1.1 (by linarith [hn.lat_s.1]) c1.2.1 (by linarith [hn.lat_n.2])
      c1.2.2 1 zero_le_one
    rw [one_mul] at m1 m2
    refine ⟨m1, le_trans (mul_le_mul_of_nonneg_right ?_ ?_) m2⟩
    · have f1 := radians_le.2 c4
      have f2 := radians_le.2 c5
      have f3 := radians_le.2 c1.2.1
      rw [e1] at f1; rw [e2] at f2
      have := pow_le_pow_left₀ (by linarith) (show (radians y.n - radians y.s) / 2 ≤ t.halfLat by
        unfold Tess.halfLat; linarith) 4
      linarith
    · refine le_trans (List.sum_nonneg ?_) m1
      intro z hz
      obtain ⟨m, hm, rfl⟩ := List.mem_map.1 hz
      exact (hbody m (List.mem_flatMap.2 ⟨l, hl, List.mem_flatMap.2 ⟨y, hy, hm⟩⟩)).2
  have hW : (masses.map (·.2)).sum ≤ t.bodyVolume := by
    rw [hmasses, sum_flatMap_map, ← hvol, ← hv]
    refine List.sum_le_sum fun l hl => ?_
    rw [sum_flatMap_map, ← (hpc l hl).1]
    exact List.sum_le_sum fun y hy => (herr l hl y hy).1
  have hW' : (1 - t.halfLat ^ 4 / 150) * t.bodyVolume ≤ (masses.map (·.2)).sum := by
    rw [hmasses, sum_flatMap_map, ← hvol, ← hv, ← List.sum_map_mul_left]
    refine List.sum_le_sum fun l hl => ?_
    rw [sum_flatMap_map, ← (hpc l hl).1, ← List.sum_map_mul_left]
    exact List.sum_le_sum fun y hy => (herr l hl y hy).2
  have hnear := masses_near' hgood hg hB hε (η := t.halfLat ^ 4 / 150) (by positivity) masses hbody hW hW'
  have hsum : total (layerEffect field radial kernel f) ls q =
      c * (masses.map fun m => m.2 * g (sphPos m.1)).sum := by
    unfold total layerEffect
    rw [hmasses, sum_flatMap_map, ← List.sum_map_mul_left]
    congr 1
    apply List.map_congr_left
    intro l hl
    rw [sum_flatMap_map, ← List.sum_map_mul_left]
    congr 1
    apply List.map_congr_left
    intro y hy
    unfold total
    rw [pointMasses_func, List.map_map, ← List.sum_map_mul_left]
    congr 1
    apply List.map_congr_left
    intro m hm
    have := (hbody m (List.mem_flatMap.2 ⟨l, hl, List.mem_flatMap.2 ⟨y, hy, hm⟩⟩)).1
    simp only [Function.comp, hk m.1 this]
  rw [hsum, ← mul_sub, abs_mul]
  exact mul_le_mul_of_nonneg_left hnear (by positivity)

/-- The sum over the bodies. -/
theorem total_near_func (field : String) (kc : SphKernel × ℝ) (htab : tessFieldTable field = some kc)
    (junk : Junk) (m : Mode) (M : Minimizer) (hM : M.InBounds) (fuel : ℕ)
    (stack0 small0 : ℕ → Tess) (shape : List ℕ) (obs : List P3)
    (hshape : shape.prod = obs.length) (ts : List Tess) (f : ℝ → ℝ) (radial : Bool) (k : ℕ)
    (hkk : ∀ ts', densityDiscretization M f fuel (ts.map (usedTess false)) = some ts' →
      2 * (100000 * ts'.length) ≤ k) (hm : m.Full obs.length k) (r : NdArray)
    (h : tesseroidGravity junk m M fuel stack0 small0 (arrays shape obs) ts (.func f) field radial false
        = some (.ok r))
    (i : ℕ) (q : P3) (hq : obs[i]? = some q) (c : ℝ) (g : E3 → ℝ) (G : Tess → E3 → ℝ) (B ε : Tess → ℝ)
    (hG : ∀ t ∈ ts, Continuous (G t))
    (hgG : ∀ t ∈ ts, ∀ a, t.Body a → g (sphPos a) = G t (sphPos a))
    (hk : ∀ t ∈ ts, ∀ a : P3, 0 ≤ a.z → ∀ m : ℝ,
      (PointKernel.spherical kc.1).eval q a (f a.z * m) = c * (m * g (sphPos a)))
    (hB : ∀ t ∈ ts, ∀ a, t.Body a → 0 ≤ a.z → |g (sphPos a)| ≤ B t)
    (hε : ∀ t ∈ ts, ∀ a b, t.Body a → t.Body b → 0 ≤ a.z → 0 ≤ b.z → |g (sphPos a) - g (sphPos b)| ≤ ε t) :
    ∃ v, r.data[i]? = some v ∧
      |v - kc.2 * (c * (ts.map fun t => t.integral g).sum)| ≤
        |kc.2| * (|c| * (ts.map fun t =>
          t.bodyVolume * (ε t + t.halfLat ^ 4 / 150 * B t)).sum) := by
  obtain ⟨ts', ⟨hc, hd, -, hp⟩, rfl⟩ := returnsFunc_of_ok htab hshape hkk hm h
  refine ⟨_, by rw [List.getElem?_map, hq]; rfl, ?_⟩
  have hqm : q ∈ obs := List.mem_of_getElem? hq
  have hchk : ∀ t ∈ ts, t.ValidRange ∧ t.ValidLon := by
    rcases hc with h0 | h0
    · simp at h0
    · exact h0.1
  have hp := hp q hqm
  clear h hkk hc
  have key : ∀ l l' : List Tess, densityDiscretization M f fuel (l.map (usedTess false)) = some l' →
      (∀ t ∈ l, t ∈ ts) → (∀ t ∈ l', t ∈ ts') →
      |total (layerEffect field radial kc.1 f) l' q - c * (l.map fun t => t.integral g).sum| ≤
      |c| * (l.map fun t => t.bodyVolume * (ε t + t.halfLat ^ 4 / 150 * B t)).sum := by
    intro l
    induction l with
    | nil =>
      intro l' hl' _ _
      simp only [List.map_nil, densityDiscretization, Option.some.injEq] at hl'
      subst hl'
      simp [total]
    | cons t l ih =>
      intro l' hl' hl hl2
      simp only [List.map_cons, densityDiscretization] at hl'
      cases h1 : densityDiscretization1 M f fuel (usedTess false t) with
      | none => rw [h1] at hl'; simp at hl'
      | some a =>
        cases h2 : densityDiscretization M f fuel (l.map (usedTess false)) with
        | none => rw [h1, h2] at hl'; simp at hl'
        | some b =>
          rw [h1, h2] at hl'
          have hl' : a ++ b = l' := by simpa using hl'
          subst hl'
          have ih := ih b h2 (fun x hx => hl x (List.mem_cons_of_mem _ hx))
            fun x hx => hl2 x (List.mem_append_right _ hx)
          have ht := hl t List.mem_cons_self
          obtain ⟨g1, g2⟩ := hchk t ht
          have hz : ∀ a, t.Body a → 0 ≤ a.z := fun a ha => le_trans g1.radii.1 ha.2.2.1
          rw [usedTess_false] at h1
          have hcong := integral_congr_body (good_of_range g1) (hgG t ht)
          have h3 := layers_near field radial kc.1 f q t g1 g2 M hM fuel a h1
            (fun x hx => hp x (hl2 x (List.mem_append_left _ hx))) c (G t) (hG t ht)
            (fun a ha m => by rw [hk t ht a (hz a ha), hgG t ht a ha]) (B := B t) (ε := ε t)
            (fun a ha => by rw [← hgG t ht a ha]; exact hB t ht a ha (hz a ha))
            (fun a b ha hb => by
              rw [← hgG t ht a ha, ← hgG t ht b hb]; exact hε t ht a b ha hb (hz a ha) (hz b hb))
          rw [← hcong] at h3
          rw [total_append]
          simp only [List.map_cons, List.sum_cons]
          calc _ = |(total (layerEffect field radial kc.1 f) a q - c * t.integral g) +
                (total (layerEffect field radial kc.1 f) b q - c * (l.map fun t => t.integral g).sum)| := by
                congr 1; ring
            _ ≤ _ := (abs_add_le _ _).trans (add_le_add h3 ih)
            _ = _ := by ring
  have := key ts ts' hd (fun _ h => h) fun _ h => h
  simp only
  rw [← mul_sub, abs_mul]
  exact mul_le_mul_of_nonneg_left this (abs_nonneg _)

theorem product_near {x y u v R ω B ε : ℝ} (h1 : |x| ≤ R) (h2 : |x - y| ≤ ω) (h3 : |v| ≤ B) (h4 : |u - v| ≤ ε) :
    |x * u - y * v| ≤ R * ε + ω * B := by
  have : x * u - y * v = x * (u - v) + (x - y) * v := by ring
  rw [this]
  refine (abs_add_le _ _).trans (add_le_add ?_ ?_) <;> rw [abs_mul]
  · exact mul_le_mul h1 h4 (abs_nonneg _) ((abs_nonneg _).trans h1)
  · exact mul_le_mul h2 h3 (abs_nonneg _) ((abs_nonneg _).trans h2)

theorem continuous_density {f : ℝ → ℝ} (hf : ContinuousOn f (Set.Ici 0)) : Continuous fun p : E3 => f ‖p‖ :=
  hf.comp_continuous continuous_norm fun p => norm_nonneg p

/-- C142 for densities that are functions of the radius: if the density is continuous, at most `R` in absolute
value in the tesseroid, and changes by at most `ω` in it, the error of the potential is at most the sum of
`G V (R δ / lo² + ω / lo + R x⁴ / (150 lo))`. -/
theorem C142_potential_func (junk : Junk) (m : Mode) (M : Minimizer) (hM : M.InBounds) (fuel : ℕ)
    (stack0 small0 : ℕ → Tess) (shape : List ℕ) (obs : List P3)
    (hshape : shape.prod = obs.length) (ts : List Tess) (f : ℝ → ℝ) (hf : ContinuousOn f (Set.Ici 0))
    (radial : Bool) (k : ℕ)
    (hk : ∀ ts', densityDiscretization M f fuel (ts.map (usedTess false)) = some ts' →
      2 * (100000 * ts'.length) ≤ k) (hm : m.Full obs.length k) (r : NdArray)
    (h : tesseroidGravity junk m M fuel stack0 small0 (arrays shape obs) ts (.func f) "potential" radial false
        = some (.ok r))
    (i : ℕ) (q : P3) (hq : obs[i]? = some q) (lo δ R ω : Tess → ℝ) (hlo : ∀ t ∈ ts, 0 < lo t)
    (hd : ∀ t ∈ ts, ∀ a, t.Body a → lo t ≤ dist (sphPos q) (sphPos a))
    (hδ : ∀ t ∈ ts, ∀ a b, t.Body a → t.Body b → dist (sphPos a) (sphPos b) ≤ δ t)
    (hR : ∀ t ∈ ts, ∀ a, t.bottom ≤ a → a ≤ t.top → |f a| ≤ R t)
    (hω : ∀ t ∈ ts, ∀ a b, t.bottom ≤ a → a ≤ t.top → t.bottom ≤ b → b ≤ t.top → |f a - f b| ≤ ω t) :
    ∃ v, r.data[i]? = some v ∧ |v - exactPotentialFunc ts f q| ≤
      gravitationalConst * (ts.map fun t => t.bodyVolume *
        (R t * δ t / lo t ^ 2 + ω t / lo t + R t * t.halfLat ^ 4 / (150 * lo t))).sum := by
  have hG := gravitationalConst_pos
  have hB : ∀ t ∈ ts, ∀ a, t.Body a → |1 / dist (sphPos q) (sphPos a)| ≤ 1 / lo t := fun t ht a ha => by
    have h1 := hd t ht a ha
    have h0 := hlo t ht
    rw [abs_of_pos (by have : 0 < dist (sphPos q) (sphPos a) := by linarith
                       positivity)]
    exact one_div_le_one_div_of_le h0 h1
  obtain ⟨v, h1, h2⟩ := total_near_func "potential" (potentialSpherical, 1) rfl junk m M hM fuel stack0 small0 shape
    obs hshape ts f radial k hk hm r h i q hq gravitationalConst (fun p => f ‖p‖ * (1 / dist (sphPos q) p))
    (fun t p => f ‖p‖ * (1 / max (dist (sphPos q) p) (lo t))) (fun t => R t * (1 / lo t))
    (fun t => R t * (δ t / lo t ^ 2) + ω t * (1 / lo t))
    (fun t ht => (continuous_density hf).mul
      (continuous_const.div ((continuous_const.dist continuous_id).max continuous_const)
        fun p => (lt_of_lt_of_le (hlo t ht) (le_max_right _ _)).ne'))
    (fun t ht a ha => by simp only [max_eq_left (hd t ht a ha)])
    (fun t ht a ha m => by rw [potential_eval, norm_sphPos a ha]; ring)
    (fun t ht a ha hz => by
      have h3 := hR t ht a.z ha.2.2.1 ha.2.2.2
      rw [norm_sphPos a hz, abs_mul]
      exact mul_le_mul h3 (hB t ht a ha) (abs_nonneg _) ((abs_nonneg _).trans h3))
    (fun t ht a b ha hb hz hz' => by
      rw [norm_sphPos a hz, norm_sphPos b hz']
      refine product_near (hR t ht a.z ha.2.2.1 ha.2.2.2)
        (hω t ht a.z b.z ha.2.2.1 ha.2.2.2 hb.2.2.1 hb.2.2.2) (hB t ht b hb)
        (inv_near (hlo t ht) (hd t ht a ha) (hd t ht b hb) (le_trans ?_ (hδ t ht a b ha hb)))
      rw [abs_le]
      have t1 := dist_triangle (sphPos q) (sphPos a) (sphPos b)
      have t2 := dist_triangle (sphPos q) (sphPos b) (sphPos a)
      rw [dist_comm (sphPos b)] at t2
      constructor <;> linarith)
  refine ⟨v, h1, ?_⟩
  unfold exactPotentialFunc
  simp only [one_mul, abs_one, abs_of_pos hG] at h2
  refine h2.trans (le_of_eq ?_)
  congr 2
  apply List.map_congr_left
  intro t ht
  have := (hlo t ht).ne'
  field_simp

/-- C142, the attraction for densities that are functions of the radius. -/
theorem C142_g_z_func (junk : Junk) (m : Mode) (M : Minimizer) (hM : M.InBounds) (fuel : ℕ)
    (stack0 small0 : ℕ → Tess) (shape : List ℕ) (obs : List P3)
    (hshape : shape.prod = obs.length) (ts : List Tess) (f : ℝ → ℝ) (hf : ContinuousOn f (Set.Ici 0))
    (radial : Bool) (k : ℕ)
    (hk : ∀ ts', densityDiscretization M f fuel (ts.map (usedTess false)) = some ts' →
      2 * (100000 * ts'.length) ≤ k) (hm : m.Full obs.length k) (r : NdArray)
    (h : tesseroidGravity junk m M fuel stack0 small0 (arrays shape obs) ts (.func f) "g_z" radial false
        = some (.ok r))
    (i : ℕ) (q : P3) (hq : obs[i]? = some q) (lo δ R ω : Tess → ℝ) (hlo : ∀ t ∈ ts, 0 < lo t)
    (hd : ∀ t ∈ ts, ∀ a, t.Body a → lo t ≤ dist (sphPos q) (sphPos a))
    (hδ : ∀ t ∈ ts, ∀ a b, t.Body a → t.Body b → dist (sphPos a) (sphPos b) ≤ δ t)
    (hR : ∀ t ∈ ts, ∀ a, t.bottom ≤ a → a ≤ t.top → |f a| ≤ R t)
    (hω : ∀ t ∈ ts, ∀ a b, t.bottom ≤ a → a ≤ t.top → t.bottom ≤ b → b ≤ t.top → |f a - f b| ≤ ω t) :
    ∃ v, r.data[i]? = some v ∧ |v - exactAttractionFunc ts f q| ≤
      10 ^ 5 * (gravitationalConst * (ts.map fun t => t.bodyVolume *
        (2 * R t * δ t / lo t ^ 3 + ω t / lo t ^ 2 + R t * t.halfLat ^ 4 / (150 * lo t ^ 2))).sum) := by
  have hG := gravitationalConst_pos
  have hu := norm_unitPos q.x q.y
  have hB : ∀ t ∈ ts, ∀ a, t.Body a →
      |⟪sphPos q - sphPos a, unitPos q.x q.y⟫_ℝ / dist (sphPos q) (sphPos a) ^ 3| ≤ 1 / lo t ^ 2 :=
    fun t ht a ha => by
      have h3 := hd t ht a ha
      have h0 := hlo t ht
      have hpos : 0 < dist (sphPos q) (sphPos a) := by linarith
      rw [abs_div, abs_of_pos (pow_pos hpos 3)]
      have h4 := abs_real_inner_le_norm (sphPos q - sphPos a) (unitPos q.x q.y)
      rw [hu, mul_one, ← dist_eq_norm] at h4
      calc _ ≤ dist (sphPos q) (sphPos a) / dist (sphPos q) (sphPos a) ^ 3 :=
            div_le_div_of_nonneg_right h4 (by positivity)
        _ = 1 / dist (sphPos q) (sphPos a) ^ 2 := by field_simp
        _ ≤ _ := one_div_le_one_div_of_le (by positivity) (pow_le_pow_left₀ h0.le h3 2)
  obtain ⟨v, h1, h2⟩ := total_near_func "g_z" (gravityUSpherical, -10 ^ 5) rfl junk m M hM fuel stack0 small0 shape
    obs hshape ts f radial k hk hm r h i q hq (-gravitationalConst)
    (fun p => f ‖p‖ * (⟪sphPos q - p, unitPos q.x q.y⟫_ℝ / dist (sphPos q) p ^ 3))
    (fun t p => f ‖p‖ * (⟪sphPos q - p, unitPos q.x q.y⟫_ℝ / max (dist (sphPos q) p) (lo t) ^ 3))
    (fun t => R t * (1 / lo t ^ 2)) (fun t => R t * (2 * δ t / lo t ^ 3) + ω t * (1 / lo t ^ 2))
    (fun t ht => (continuous_density hf).mul
      (((continuous_const.sub continuous_id).inner continuous_const).div
        (((continuous_const.dist continuous_id).max continuous_const).pow 3)
        fun p => (pow_pos (lt_of_lt_of_le (hlo t ht) (le_max_right _ _)) 3).ne'))
    (fun t ht a ha => by simp only [max_eq_left (hd t ht a ha)])
    (fun t ht a ha m => by rw [attraction_eval, norm_sphPos a ha]; ring)
    (fun t ht a ha hz => by
      have h3 := hR t ht a.z ha.2.2.1 ha.2.2.2
      rw [norm_sphPos a hz, abs_mul]
      exact mul_le_mul h3 (hB t ht a ha) (abs_nonneg _) ((abs_nonneg _).trans h3))
    (fun t ht a b ha hb hz hz' => by
      rw [norm_sphPos a hz, norm_sphPos b hz']
      refine product_near (hR t ht a.z ha.2.2.1 ha.2.2.2)
        (hω t ht a.z b.z ha.2.2.1 ha.2.2.2 hb.2.2.1 hb.2.2.2) (hB t ht b hb) ?_
      have h3 := hd t ht a ha
      have h4 := hd t ht b hb
      have h5 := hδ t ht a b ha hb
      simp only [dist_eq_norm] at h3 h4 h5 ⊢
      refine field_near (hlo t ht) h3 h4 ?_ hu
      rw [sub_sub_sub_cancel_left, norm_sub_rev]
      exact h5)
  refine ⟨v, h1, ?_⟩
  unfold exactAttractionFunc
  have e5 : |(-10 ^ 5 : ℝ)| = 10 ^ 5 := by norm_num
  simp only [abs_neg, abs_of_pos hG, e5] at h2
  have e6 : ∀ x : ℝ, (-10 ^ 5 : ℝ) * (-gravitationalConst * x) = 10 ^ 5 * (gravitationalConst * x) := fun x => by ring
  rw [e6] at h2
  have e7 : |(10 ^ 5 : ℝ)| = 10 ^ 5 := by norm_num
  try rw [e7] at h2
  refine h2.trans (le_of_eq ?_)
  congr 3
  apply List.map_congr_left
  intro t ht
  have := (hlo t ht).ne'
  field_simp

/-- The hypotheses are met by a call with a linear density: `C142_g_z_func` with the distance 998, the extent 2,
and the density between 1 and 2. -/
example (junk : Junk) (stack0 small0 : ℕ → Tess) :
    let ts : List Tess := [⟨-1, 1, -1, 1, 1, 2⟩]
    ∃ r, tesseroidGravity junk .serial midpoint 1 stack0 small0 (arrays [1] [⟨0, 0, 1000⟩])
      ts (.func fun r => r) "g_z" true false = some (.ok r) ∧
    ∃ v, r.data[0]? = some v ∧ |v - exactAttractionFunc ts (fun r => r) ⟨0, 0, 1000⟩| ≤
      10 ^ 5 * (gravitationalConst * (ts.map fun t => t.bodyVolume *
        (2 * 2 * t.extent / 998 ^ 3 + 1 / 998 ^ 2 + 2 * t.halfLat ^ 4 / (150 * 998 ^ 2))).sum) := by
  intro ts
  obtain ⟨r, hr⟩ := linear_call_returns junk stack0 small0
  refine ⟨r, hr, ?_⟩
  refine C142_g_z_func junk .serial midpoint midpoint_inBounds 1 stack0 small0 [1] [⟨0, 0, 1000⟩] (by simp) ts
    (fun r => r) continuousOn_id true
    (2 * (100000 * ((densityDiscretization midpoint (fun r => r) 1 (ts.map (usedTess false))).getD []).length))
    (fun ts' h => by rw [h]; simp) trivial r hr 0 ⟨0, 0, 1000⟩ rfl (fun _ => 998) Tess.extent (fun _ => 2) (fun _ => 1)
    (fun _ _ => by norm_num) ?_ ?_ ?_ ?_
  · simp only [ts, List.mem_singleton, forall_eq]
    rintro a ⟨-, -, a5, a6⟩
    simp only at a5 a6
    have n1 := norm_sphPos a (by linarith)
    have n2 := norm_sphPos ⟨0, 0, 1000⟩ (by norm_num)
    have t1 := norm_sub_norm_le (sphPos ⟨0, 0, 1000⟩) (sphPos a)
    rw [dist_eq_norm]
    simp only at n2
    linarith
  · simp only [ts, List.mem_singleton, forall_eq]
    exact C142_extent _ (by norm_num)
  · simp only [ts, List.mem_singleton, forall_eq]
    intro a h1 h2
    rw [abs_le]; constructor <;> linarith
  · simp only [ts, List.mem_singleton, forall_eq]
    intro a b h1 h2 h3 h4
    rw [abs_le]; constructor <;> linarith

end Verif.Tesseroid
