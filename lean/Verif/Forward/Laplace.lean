import Verif.Forward.PropsC

/-!
C96: potentials that satisfy Laplace's equation. Here the specification and the point masses; the
equivalent sources are in EqSources/PropsF.lean.
-/

namespace Verif.Forward
open Verif.Distance Verif.Engine Filter Topology

/-! ### Specification -/

/-- `V` is twice differentiable along each axis at the point (x, y, z), and the sum of the three second
derivatives is zero there. -/
def LaplaceAt (V : ℝ → ℝ → ℝ → ℝ) (x y z : ℝ) : Prop :=
  ∃ (Vx Vy Vz : ℝ → ℝ) (Vxx Vyy Vzz : ℝ),
    (∀ᶠ t in 𝓝 x, HasDerivAt (fun t => V t y z) (Vx t) t) ∧ HasDerivAt Vx Vxx x ∧
    (∀ᶠ t in 𝓝 y, HasDerivAt (fun t => V x t z) (Vy t) t) ∧ HasDerivAt Vy Vyy y ∧
    (∀ᶠ t in 𝓝 z, HasDerivAt (fun t => V x y t) (Vz t) t) ∧ HasDerivAt Vz Vzz z ∧
    Vxx + Vyy + Vzz = 0

/-! ### Lemmas -/

theorem LaplaceAt.add {V W : ℝ → ℝ → ℝ → ℝ} {x y z : ℝ} (hV : LaplaceAt V x y z) (hW : LaplaceAt W x y z) :
    LaplaceAt (fun x y z => V x y z + W x y z) x y z := by
  obtain ⟨Vx, Vy, Vz, Vxx, Vyy, Vzz, h1, h2, h3, h4, h5, h6, h7⟩ := hV
  obtain ⟨Wx, Wy, Wz, Wxx, Wyy, Wzz, k1, k2, k3, k4, k5, k6, k7⟩ := hW
  refine ⟨fun t => Vx t + Wx t, fun t => Vy t + Wy t, fun t => Vz t + Wz t, Vxx + Wxx, Vyy + Wyy, Vzz + Wzz,
    ?_, h2.fun_add k2, ?_, h4.fun_add k4, ?_, h6.fun_add k6, by linarith⟩
  · filter_upwards [h1, k1] with t a b using a.fun_add b
  · filter_upwards [h3, k3] with t a b using a.fun_add b
  · filter_upwards [h5, k5] with t a b using a.fun_add b

theorem LaplaceAt.zero (x y z : ℝ) : LaplaceAt (fun _ _ _ => 0) x y z :=
  ⟨fun _ => 0, fun _ => 0, fun _ => 0, 0, 0, 0, .of_forall fun t => hasDerivAt_const t 0, hasDerivAt_const x 0,
    .of_forall fun t => hasDerivAt_const t 0, hasDerivAt_const y 0,
    .of_forall fun t => hasDerivAt_const t 0, hasDerivAt_const z 0, by ring⟩

/-- one over the distance, along one axis -/
theorem inverse_deriv (c a k t : ℝ) (h : 0 < (t - a) ^ 2 + k) :
    HasDerivAt (fun t => c / Real.sqrt ((t - a) ^ 2 + k))
      (-(c * (t - a)) / (Real.sqrt ((t - a) ^ 2 + k)) ^ 3) t := by
  have h1 : HasDerivAt (fun t : ℝ => (t - a) ^ 2 + k) (2 * (t - a)) t := by
    have := (((hasDerivAt_id t).sub_const a).fun_pow 2).add_const k
    simpa using this
  have h2 := h1.sqrt h.ne'
  have hs : Real.sqrt ((t - a) ^ 2 + k) ≠ 0 := (Real.sqrt_pos.2 h).ne'
  refine ((hasDerivAt_const t c).div h2 hs).congr_deriv ?_
  field_simp
  ring

theorem inverse_deriv2 (c a k t : ℝ) (h : 0 < (t - a) ^ 2 + k) :
    HasDerivAt (fun t => -(c * (t - a)) / (Real.sqrt ((t - a) ^ 2 + k)) ^ 3)
      (c * (3 * (t - a) ^ 2 - ((t - a) ^ 2 + k)) / (Real.sqrt ((t - a) ^ 2 + k)) ^ 5) t := by
  have h1 : HasDerivAt (fun t : ℝ => (t - a) ^ 2 + k) (2 * (t - a)) t := by
    have := (((hasDerivAt_id t).sub_const a).fun_pow 2).add_const k
    simpa using this
  have h2 := (h1.sqrt h.ne').fun_pow 3
  have h3 : HasDerivAt (fun t : ℝ => -(c * (t - a))) (-c) t := by
    have := (((hasDerivAt_id t).sub_const a).const_mul c).fun_neg
    simpa using this
  have hs : Real.sqrt ((t - a) ^ 2 + k) ≠ 0 := (Real.sqrt_pos.2 h).ne'
  refine (h3.div h2 (pow_ne_zero 3 hs)).congr_deriv ?_
  have hsq := Real.sq_sqrt h.le
  generalize Real.sqrt ((t - a) ^ 2 + k) = R at *
  rw [← hsq]
  field_simp
  ring

theorem eventually_pos (a k t : ℝ) (h : 0 < (t - a) ^ 2 + k) : ∀ᶠ t in 𝓝 t, 0 < (t - a) ^ 2 + k :=
  (by fun_prop : Continuous fun t : ℝ => (t - a) ^ 2 + k).continuousAt.eventually (lt_mem_nhds h)

theorem laplace_inverse (c a b d x y z : ℝ) (h : 0 < (x - a) ^ 2 + (y - b) ^ 2 + (z - d) ^ 2) :
    LaplaceAt (fun x y z => c / Real.sqrt ((x - a) ^ 2 + (y - b) ^ 2 + (z - d) ^ 2)) x y z := by
  have e1 : ∀ x y z : ℝ, (x - a) ^ 2 + (y - b) ^ 2 + (z - d) ^ 2 = (x - a) ^ 2 + ((y - b) ^ 2 + (z - d) ^ 2) := by
    intros; ring
  have e2 : ∀ x y z : ℝ, (x - a) ^ 2 + (y - b) ^ 2 + (z - d) ^ 2 = (y - b) ^ 2 + ((x - a) ^ 2 + (z - d) ^ 2) := by
    intros; ring
  have e3 : ∀ x y z : ℝ, (x - a) ^ 2 + (y - b) ^ 2 + (z - d) ^ 2 = (z - d) ^ 2 + ((x - a) ^ 2 + (y - b) ^ 2) := by
    intros; ring
  have h1 := h
  have h2 := h
  have h3 := h
  rw [e1] at h1
  rw [e2] at h2
  rw [e3] at h3
  refine ⟨_, _, _, _, _, _, ?_, inverse_deriv2 c a _ x h1, ?_, inverse_deriv2 c b _ y h2, ?_,
    inverse_deriv2 c d _ z h3, ?_⟩
  · filter_upwards [eventually_pos _ _ _ h1] with t ht
    simpa only [e1] using inverse_deriv c a _ t ht
  · filter_upwards [eventually_pos _ _ _ h2] with t ht
    simpa only [e2] using inverse_deriv c b _ t ht
  · filter_upwards [eventually_pos _ _ _ h3] with t ht
    simpa only [e3] using inverse_deriv c d _ t ht
  · rw [← e1, ← e2, ← e3]; ring

/-- The potential of point sources at positions of space. -/
noncomputable def inverseSum (srcs : List (E3 × ℝ)) (x y z : ℝ) : ℝ :=
  (srcs.map fun s => s.2 / dist (!₂[x, y, z] : E3) s.1).sum

theorem e3_eta (p : E3) : p = !₂[p 0, p 1, p 2] := by
  ext i; fin_cases i <;> rfl

theorem inverseSum_laplace (srcs : List (E3 × ℝ)) (x y z : ℝ) (h : ∀ s ∈ srcs, (!₂[x, y, z] : E3) ≠ s.1) :
    LaplaceAt (inverseSum srcs) x y z := by
  induction srcs with
  | nil => exact LaplaceAt.zero x y z
  | cons s srcs ih =>
    have hd : ∀ x y z, dist (!₂[x, y, z] : E3) s.1 =
        Real.sqrt ((x - s.1 0) ^ 2 + (y - s.1 1) ^ 2 + (z - s.1 2) ^ 2) := by
      intro x y z
      conv_lhs => rw [e3_eta s.1]
      exact dist3 _ _ _ _ _ _
    have hpos : 0 < (x - s.1 0) ^ 2 + (y - s.1 1) ^ 2 + (z - s.1 2) ^ 2 := by
      have : 0 < dist (!₂[x, y, z] : E3) s.1 := dist_pos.2 (h s (by simp))
      rw [hd] at this
      exact Real.sqrt_pos.1 this
    have := (laplace_inverse s.2 _ _ _ x y z hpos).add (ih fun s hs => h s (List.mem_cons_of_mem _ hs))
    have he : inverseSum (s :: srcs) = fun x y z =>
        s.2 / Real.sqrt ((x - s.1 0) ^ 2 + (y - s.1 1) ^ 2 + (z - s.1 2) ^ 2) + inverseSum srcs x y z := by
      funext x y z
      simp only [inverseSum, List.map_cons, List.sum_cons, hd]
    rw [he]
    exact this

theorem inverseSum_bound (srcs : List (E3 × ℝ)) (x y z ρ : ℝ) (hρ : 0 < ρ)
    (h : ∀ s ∈ srcs, ρ ≤ dist (!₂[x, y, z] : E3) s.1) :
    |inverseSum srcs x y z| ≤ (srcs.map fun s => |s.2|).sum / ρ := by
  induction srcs with
  | nil => simp [inverseSum]
  | cons s srcs ih =>
    have ih := ih fun s hs => h s (List.mem_cons_of_mem _ hs)
    have h0 := h s (by simp)
    simp only [inverseSum, List.map_cons, List.sum_cons, add_div] at ih ⊢
    refine (abs_add_le _ _).trans (add_le_add ?_ ih)
    rw [abs_div, abs_of_pos (hρ.trans_le h0)]
    exact div_le_div_of_nonneg_left (abs_nonneg _) hρ h0

/-! ### Point masses -/

/-- C96 for `point_gravity` in spherical coordinates: the potential it returns is a function of the position
in space that satisfies Laplace's equation away from the masses, and at a distance of at least ρ from all of
them it is at most G times the sum of the (absolute) masses over ρ. -/
theorem C96_point_potential (junk : Junk) (K : PointKernels) (ps ms : List ℕ) (srcs : List (P3 × ℝ)) :
    ∃ V : ℝ → ℝ → ℝ → ℝ,
      (∀ (mode : Mode) (shape : List ℕ) (obs : List P3), shape.prod = obs.length →
        mode.Full obs.length (2 * srcs.length) →
        pointGravity junk mode K (arrays shape obs) (arrays ps (srcs.map (·.1))) ⟨ms, srcs.map (·.2)⟩
          "potential" "spherical" =
          .ok ⟨shape, obs.map fun q => V (sphPos q 0) (sphPos q 1) (sphPos q 2)⟩) ∧
      (∀ x y z, (∀ s ∈ srcs, sphPos s.1 ≠ !₂[x, y, z]) → LaplaceAt V x y z) ∧
      ∀ x y z ρ, 0 < ρ → (∀ s ∈ srcs, ρ ≤ dist !₂[x, y, z] (sphPos s.1)) →
        |V x y z| ≤ gravitationalConst * (srcs.map fun s => |s.2|).sum / ρ := by
  refine ⟨inverseSum (srcs.map fun s => (sphPos s.1, gravitationalConst * s.2)), ?_, ?_, ?_⟩
  · intro mode shape obs hshape hm
    rw [C04_point_gravity_spherical junk mode K shape ps ms obs hshape srcs hm]
    simp only [if_true]
    congr 2
    apply List.map_congr_left
    intro q _
    simp only [inverseSum, ← e3_eta, List.map_map, total, newtonPotential_eq]
    rfl
  · intro x y z h
    apply inverseSum_laplace
    intro s hs
    obtain ⟨s', hs', rfl⟩ := List.mem_map.1 hs
    exact (h s' hs').symm
  · intro x y z ρ hρ h
    refine (inverseSum_bound _ x y z ρ hρ ?_).trans (le_of_eq ?_)
    · intro s hs
      obtain ⟨s', hs', rfl⟩ := List.mem_map.1 hs
      exact h s' hs'
    · rw [List.map_map, ← List.sum_map_mul_left]
      congr 2
      apply List.map_congr_left
      intro s _
      have : 0 < gravitationalConst := by unfold gravitationalConst; norm_num
      simp [abs_mul, abs_of_pos this]

/-- C96: a point one unit above a mass -/
example : ∀ s ∈ [((⟨0, 0, 1⟩ : P3), (5 : ℝ))], sphPos s.1 ≠ !₂[(2 : ℝ), 0, 0] := by
  intro s hs h
  simp at hs
  subst hs
  have := congrArg (fun v : E3 => v 0) h
  simp [sphPos, radians] at this

end Verif.Forward
