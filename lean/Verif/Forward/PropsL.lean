import Verif.Forward.PropsK

/-!
C124: a wide region in isostatic equilibrium has no gravity: with the Moho of `isostatic_moho_airy`, and with no
other, the `prism_gravity` of the masses of the column vanishes as the region grows.
-/

namespace Verif.Forward
open Verif.Distance Verif.Engine Filter Topology MeasureTheory

/-! ### Masses of the column -/

/-- The prism over the rectangle of `f` between two heights, in any order. -/
def between (f : Prism) (a b : ℝ) : Prism := ⟨f.west, f.east, f.south, f.north, min a b, max a b⟩

/-- The layers, (thickness, density), one over the other from the height `base` up. -/
def stack (f : Prism) : ℝ → List (ℝ × ℝ) → List (Prism × ℝ)
  | _, [] => []
  | base, (t, ρ) :: rest => (between f base (base + t), ρ) :: stack f (base + t) rest

/-- What distinguishes the column from the reference one (basement at height zero, no layers, Moho at the depth
`ref`): crust between zero and the basement (missing when the basement is below zero), crust instead of mantle
between the two Mohos (mantle instead of crust when the Moho is the shallower one), and the layers. -/
noncomputable def column (f : Prism) (basement : ℝ) (layers : List (ℝ × ℝ)) (rho_c rho_m ref moho : ℝ) :
    List (Prism × ℝ) :=
  (between f basement 0, if basement < 0 then -rho_c else rho_c) ::
    (between f (-moho) (-ref), if moho < ref then rho_m - rho_c else rho_c - rho_m) :: stack f basement layers

/-! ### Lemmas -/

theorem pull_cons (p : Prism) (ρ : ℝ) (srcs : List (Prism × ℝ)) (q : P3) :
    ∫ r, densityAt ((p, ρ) :: srcs) r * pull q r =
      ρ * (∫ r in p.body, pull q r) + ∫ r, densityAt srcs r * pull q r := by
  have h : ∀ r, densityAt ((p, ρ) :: srcs) r * pull q r =
      densityAt [(p, ρ)] r * pull q r + densityAt srcs r * pull q r := by
    intro r
    rw [← add_mul, ← densityAt_append]
    rfl
  simp only [h]
  rw [integral_add (density_pull_integrable _ q) (density_pull_integrable _ q), densityAt_one]

theorem between_ordered {f : Prism} (hf : f.Ordered) (a b : ℝ) : (between f a b).Ordered :=
  ⟨hf.1, hf.2.1, min_le_max⟩

theorem stack_ordered {f : Prism} (hf : f.Ordered) (layers : List (ℝ × ℝ)) (base : ℝ) :
    ∀ s ∈ stack f base layers, s.1.Ordered := by
  induction layers generalizing base with
  | nil => simp [stack]
  | cons l rest ih =>
    intro s hs
    rcases List.mem_cons.1 hs with rfl | hs
    · exact between_ordered hf _ _
    · exact ih _ s hs

theorem column_ordered {f : Prism} (hf : f.Ordered) (basement : ℝ) (layers : List (ℝ × ℝ))
    (rho_c rho_m ref moho : ℝ) : ∀ s ∈ column f basement layers rho_c rho_m ref moho, s.1.Ordered := by
  intro s hs
  rcases List.mem_cons.1 hs with rfl | hs
  · exact between_ordered hf _ _
  rcases List.mem_cons.1 hs with rfl | hs
  · exact between_ordered hf _ _
  · exact stack_ordered hf _ _ s hs

theorem stack_length (f : Prism) (layers : List (ℝ × ℝ)) (base : ℝ) :
    (stack f base layers).length = layers.length := by
  induction layers generalizing base with
  | nil => rfl
  | cons l rest ih => simp [stack, ih]

theorem between_tendsto {f : ℕ → Prism} (hf : Widening f) (hord : ∀ k, (f k).Ordered) (a b : ℝ) (q : P3)
    (ha : a ≤ q.z) (hb : b ≤ q.z) :
    Tendsto (fun k => ∫ r in (between (f k) a b).body, pull q r) atTop (𝓝 (2 * Real.pi * (max a b - min a b))) :=
  plate_tendsto (p := fun k => between (f k) a b) ⟨hf.west, hf.east, hf.south, hf.north⟩
    (fun k => between_ordered (hord k) a b) (fun _ => rfl) (fun _ => rfl) q (max_le ha hb)

theorem stack_tendsto {f : ℕ → Prism} (hf : Widening f) (hord : ∀ k, (f k).Ordered) (q : P3)
    (layers : List (ℝ × ℝ)) (hl : ∀ l ∈ layers, 0 ≤ l.1) (base : ℝ) (hz : base + (layers.map (·.1)).sum ≤ q.z) :
    Tendsto (fun k => ∫ r, densityAt (stack (f k) base layers) r * pull q r) atTop
      (𝓝 (2 * Real.pi * (layers.map fun l => l.1 * l.2).sum)) := by
  induction layers generalizing base with
  | nil => simp [stack, densityAt]
  | cons l rest ih =>
    obtain ⟨t, ρ⟩ := l
    have ht : 0 ≤ t := hl (t, ρ) (by simp)
    have hrest : ∀ l ∈ rest, 0 ≤ l.1 := fun l h => hl l (by simp [h])
    have hsum : 0 ≤ (rest.map (·.1)).sum := List.sum_nonneg (by
      intro x hx
      obtain ⟨l, hl1, rfl⟩ := List.mem_map.1 hx
      exact hrest l hl1)
    simp only [List.map_cons, List.sum_cons] at hz ⊢
    simp only [stack, pull_cons]
    have h1 := (between_tendsto hf hord base (base + t) q (by linarith) (by linarith)).const_mul ρ
    have h2 := ih hrest (base + t) (by linarith)
    refine (h1.add h2).trans_eq ?_
    rw [max_eq_right (by linarith), min_eq_left (by linarith)]
    congr 1
    ring

theorem column_tendsto {f : ℕ → Prism} (hf : Widening f) (hord : ∀ k, (f k).Ordered) (q : P3) (basement : ℝ)
    (layers : List (ℝ × ℝ)) (hl : ∀ l ∈ layers, 0 ≤ l.1) (rho_c rho_m ref moho : ℝ)
    (h0 : 0 ≤ q.z) (hb : basement ≤ q.z) (hr : -ref ≤ q.z) (hM : -moho ≤ q.z)
    (hz : basement + (layers.map (·.1)).sum ≤ q.z) (D : ℝ) :
    Tendsto (fun k => ∫ r, densityAt (column (f k) basement layers rho_c rho_m ref moho) r * pull q r) atTop
      (𝓝 (2 * Real.pi * (Utils.columnMass layers rho_c rho_m basement moho D -
        Utils.columnMass [] rho_c rho_m 0 ref D))) := by
  simp only [column, pull_cons]
  have h1 := (between_tendsto hf hord basement 0 q hb h0).const_mul (if basement < 0 then -rho_c else rho_c)
  have h2 := (between_tendsto hf hord (-moho) (-ref) q hM hr).const_mul
    (if moho < ref then rho_m - rho_c else rho_c - rho_m)
  refine (h1.add (h2.add (stack_tendsto hf hord q layers hl basement hz))).trans_eq ?_
  congr 1
  have e1 : (if basement < 0 then -rho_c else rho_c) * (2 * Real.pi * (max basement 0 - min basement 0)) =
      2 * Real.pi * (rho_c * basement) := by
    split_ifs with h
    · rw [max_eq_right h.le, min_eq_left h.le]; ring
    · rw [max_eq_left (not_lt.1 h), min_eq_right (not_lt.1 h)]; ring
  have e2 : (if moho < ref then rho_m - rho_c else rho_c - rho_m) * (2 * Real.pi * (max (-moho) (-ref) - min (-moho) (-ref))) =
      2 * Real.pi * ((rho_c - rho_m) * (moho - ref)) := by
    split_ifs with h
    · rw [max_eq_left (by linarith), min_eq_right (by linarith)]; ring
    · rw [max_eq_right (by linarith), min_eq_left (by linarith)]; ring
  rw [e1, e2]
  simp only [Utils.columnMass, List.map_nil, List.sum_nil]
  ring

/-! ### C124 -/

/-- C124. Over ever larger regions with the same column the gravity of the masses of the column tends to zero, at
any points above them, when their Moho is the one of `isostatic_moho_airy`, and only then. -/
theorem C124_compensated (junk : Junk) (mode : Mode) {K : PrismKernels} (hK : K.Newtonian) (shape : List ℕ)
    (obs : List P3) (hshape : shape.prod = obs.length) (dis : Bool)
    (basement : Utils.Val) (layers : Option (List (Utils.Val × Utils.Val))) (rho_c rho_m ref moho : Utils.Val)
    (hmoho : Utils.isostaticMohoAiry basement layers rho_c rho_m ref = .ok moho) (idx : List ℕ)
    (hidx : List.Forall₂ (· < ·) idx moho.shape)
    (hc : Utils.element rho_c idx ≠ 0) (hm : Utils.element rho_m idx ≠ Utils.element rho_c idx)
    (hl : ∀ l ∈ layers.getD [], 0 ≤ Utils.element l.1 idx)
    (hmode : mode.Full obs.length (2 * ((layers.getD []).length + 2)))
    (f : ℕ → Prism) (hf : Widening f) (hord : ∀ k, (f k).Ordered) (M : ℝ) (hne : obs ≠ [])
    (hobs : ∀ q ∈ obs, 0 ≤ q.z ∧ -Utils.element ref idx ≤ q.z ∧ -M ≤ q.z ∧ Utils.element basement idx ≤ q.z ∧
      Utils.element basement idx + ((layers.getD []).map fun l => Utils.element l.1 idx).sum ≤ q.z) :
    ∃ F : ℕ → P3 → ℝ,
      (∀ k, ∀ srcs, srcs = column (f k) (Utils.element basement idx)
          ((layers.getD []).map fun l => (Utils.element l.1 idx, Utils.element l.2 idx)) (Utils.element rho_c idx)
          (Utils.element rho_m idx) (Utils.element ref idx) M →
        (prismGravity junk mode K (arrays shape obs) (srcs.map (·.1)) (srcs.map (·.2)) "g_z" dis).map (·.2) =
          .ok ⟨shape, obs.map (F k)⟩) ∧
      ((∀ q ∈ obs, Tendsto (fun k => F k q) atTop (𝓝 0)) ↔ M = moho.data idx) := by
  set L := (layers.getD []).map fun l => (Utils.element l.1 idx, Utils.element l.2 idx) with hL
  have hlen : L.length = (layers.getD []).length := by simp [hL]
  refine ⟨fun k q => 10 ^ 5 * gravitationalConst * ∫ r, densityAt (column (f k) (Utils.element basement idx) L
    (Utils.element rho_c idx) (Utils.element rho_m idx) (Utils.element ref idx) M) r * pull q r, ?_, ?_⟩
  · rintro k _ rfl
    refine gz_value junk mode hK shape obs hshape _ dis (column_ordered (hord k) _ _ _ _ _ _) ?_
    simpa [column, stack_length, hlen, Nat.add_assoc] using hmode
  · have hlim : ∀ q ∈ obs, Tendsto (fun k => 10 ^ 5 * gravitationalConst * ∫ r, densityAt (column (f k)
        (Utils.element basement idx) L (Utils.element rho_c idx) (Utils.element rho_m idx) (Utils.element ref idx)
        M) r * pull q r) atTop (𝓝 (10 ^ 5 * gravitationalConst * (2 * Real.pi *
          (Utils.columnMass L (Utils.element rho_c idx) (Utils.element rho_m idx) (Utils.element basement idx) M 0 -
            Utils.columnMass [] (Utils.element rho_c idx) (Utils.element rho_m idx) 0 (Utils.element ref idx) 0)))) := by
      intro q hq
      obtain ⟨h1, h2, h3, h4, h5⟩ := hobs q hq
      refine (column_tendsto hf hord q _ L ?_ _ _ _ M h1 h4 h2 h3 ?_ 0).const_mul _
      · intro l hl'
        obtain ⟨v, hv, rfl⟩ := List.mem_map.1 hl'
        exact hl v hv
      · simpa [hL, List.map_map, Function.comp_def] using h5
    rw [← Utils.C43_elements basement layers rho_c rho_m ref moho hmoho idx hidx hc hm 0 M]
    have hG := gravConst_pos
    have hpi := Real.pi_pos
    constructor
    · intro h
      obtain ⟨q, hq⟩ := List.exists_mem_of_ne_nil obs hne
      have := tendsto_nhds_unique (h q hq) (hlim q hq)
      have h0 : (10 : ℝ) ^ 5 * gravitationalConst * (2 * Real.pi) ≠ 0 := by positivity
      rw [← mul_assoc] at this
      exact sub_eq_zero.1 ((mul_eq_zero.1 this.symm).resolve_left h0)
    · intro h q hq
      have := hlim q hq
      rwa [sub_eq_zero.2 h, mul_zero, mul_zero] at this

/-! ### Examples -/

/-- The ocean basin of the docstring of `isostatic_moho_airy`: 3 km of water over 400 m of sediments. -/
example : ∃ (moho : Utils.Val) (F : ℕ → P3 → ℝ), moho.data [] = 18960 ∧
    (∀ k, ∀ srcs, srcs = column (squares 0 k) (-3400) [(400, 2200), (3000, 1040)] 2800 3300 30000 (moho.data []) →
      (prismGravity (fun _ _ => 0) .serial bodyKernels (arrays [1] [⟨1, 2, 10⟩]) (srcs.map (·.1)) (srcs.map (·.2))
        "g_z" false).map (·.2) = .ok ⟨[1], [F k ⟨1, 2, 10⟩]⟩) ∧
    Tendsto (fun k => F k ⟨1, 2, 10⟩) atTop (𝓝 0) := by
  let v : ℝ → Utils.Val := fun x => ⟨.float, [], fun _ => x⟩
  obtain ⟨moho, hmoho, hs⟩ : ∃ moho, Utils.isostaticMohoAiry (v (-3400)) (some [(v 400, v 2200), (v 3000, v 1040)])
      (v 2800) (v 3300) (v 30000) = .ok moho ∧ moho.shape = [] := ⟨_, rfl, rfl⟩
  have hv : moho.data [] = 18960 := by
    symm
    refine (Utils.C43_elements _ _ _ _ _ moho hmoho [] (by rw [hs]; exact .nil) ?_ ?_ 0 _).1 ?_
    · simp [v, Utils.element]
    · simp [v, Utils.element]
    · simp [v, Utils.element, Utils.columnMass]; norm_num
  obtain ⟨F, h1, h2⟩ := C124_compensated (fun _ _ => 0) .serial bodyKernels_newtonian [1] [⟨1, 2, 10⟩] (by simp) false _ _ _ _ _
    moho hmoho [] (by rw [hs]; exact .nil) (by simp [v, Utils.element]) (by simp [v, Utils.element])
    (by simp [v, Utils.element]) trivial (squares 0) (squares_widening 0) (squares_ordered 0) (moho.data []) (by simp)
    (by simp [v, Utils.element, hv]; norm_num)
  exact ⟨moho, F, hv, h1, h2.2 rfl _ (by simp)⟩

end Verif.Forward
