import Verif.Forward.Laplace
import Verif.Forward.PropsD

/-!
C105: the fields of point masses and of dipoles in Cartesian coordinates are derivatives of one another. The
kernels of choclo are external: here they are any kernels that have the documented values away from the
source.
-/

namespace Verif.Forward
open Verif.Distance Verif.Engine Filter Topology

/-! ### Specification -/

/-- Distance between two points given by their Cartesian coordinates. -/
noncomputable def gap (q p : P3) : ℝ := √((q.x - p.x) ^ 2 + (q.y - p.y) ^ 2 + (q.z - p.z) ^ 2)

/-- The documentation of `choclo.point`: potential, acceleration and gradient tensor (SI units, upward
positive) of a point mass at `p`, away from it. -/
structure PointKernels.Newtonian (K : PointKernels) : Prop where
  pot : ∀ q p m, q ≠ p → K.pot q p m = gravitationalConst * m / gap q p
  e : ∀ q p m, q ≠ p → K.e q p m = -(gravitationalConst * m * (q.x - p.x)) / gap q p ^ 3
  n : ∀ q p m, q ≠ p → K.n q p m = -(gravitationalConst * m * (q.y - p.y)) / gap q p ^ 3
  u : ∀ q p m, q ≠ p → K.u q p m = -(gravitationalConst * m * (q.z - p.z)) / gap q p ^ 3
  ee : ∀ q p m, q ≠ p →
    K.ee q p m = gravitationalConst * m * (3 * (q.x - p.x) ^ 2 / gap q p ^ 5 - 1 / gap q p ^ 3)
  nn : ∀ q p m, q ≠ p →
    K.nn q p m = gravitationalConst * m * (3 * (q.y - p.y) ^ 2 / gap q p ^ 5 - 1 / gap q p ^ 3)
  uu : ∀ q p m, q ≠ p →
    K.uu q p m = gravitationalConst * m * (3 * (q.z - p.z) ^ 2 / gap q p ^ 5 - 1 / gap q p ^ 3)
  en : ∀ q p m, q ≠ p →
    K.en q p m = gravitationalConst * m * (3 * (q.x - p.x) * (q.y - p.y) / gap q p ^ 5)
  eu : ∀ q p m, q ≠ p →
    K.eu q p m = gravitationalConst * m * (3 * (q.x - p.x) * (q.z - p.z) / gap q p ^ 5)
  nu : ∀ q p m, q ≠ p →
    K.nu q p m = gravitationalConst * m * (3 * (q.y - p.y) * (q.z - p.z) / gap q p ^ 5)

/-- The documentation of `choclo.dipole`: the field (T) of a magnetic moment `m` at `p`, away from it. -/
structure MagKernels.Dipole (mu0 : ℝ) (K : MagKernels P3) : Prop where
  field : ∀ q p m, K.field q p m = (K.e q p m, K.n q p m, K.u q p m)
  e : ∀ q p m, q ≠ p → K.e q p m = mu0 / (4 * Real.pi) *
    (3 * (m.x * (q.x - p.x) + m.y * (q.y - p.y) + m.z * (q.z - p.z)) * (q.x - p.x) / gap q p ^ 5 -
      m.x / gap q p ^ 3)
  n : ∀ q p m, q ≠ p → K.n q p m = mu0 / (4 * Real.pi) *
    (3 * (m.x * (q.x - p.x) + m.y * (q.y - p.y) + m.z * (q.z - p.z)) * (q.y - p.y) / gap q p ^ 5 -
      m.y / gap q p ^ 3)
  u : ∀ q p m, q ≠ p → K.u q p m = mu0 / (4 * Real.pi) *
    (3 * (m.x * (q.x - p.x) + m.y * (q.y - p.y) + m.z * (q.z - p.z)) * (q.z - p.z) / gap q p ^ 5 -
      m.z / gap q p ^ 3)

/-- Derivatives of a function of the position: towards the east, the north and up. -/
def EastDeriv (f : P3 → ℝ) (d : ℝ) (q : P3) : Prop := HasDerivAt (fun t => f ⟨t, q.y, q.z⟩) d q.x
@[inherit_doc EastDeriv]
def NorthDeriv (f : P3 → ℝ) (d : ℝ) (q : P3) : Prop := HasDerivAt (fun t => f ⟨q.x, t, q.z⟩) d q.y
@[inherit_doc EastDeriv]
def UpDeriv (f : P3 → ℝ) (d : ℝ) (q : P3) : Prop := HasDerivAt (fun t => f ⟨q.x, q.y, t⟩) d q.z

/-- The fields of `point_gravity`, in their units, agree at `q`: the acceleration (mGal, z downwards) is the
gradient of the potential (m²/s²), the tensor (Eötvös) is the gradient of the acceleration and its trace is
zero. -/
structure GravityConsistent (F : String → P3 → ℝ) (q : P3) : Prop where
  g_e : EastDeriv (F "potential") (F "g_e" q / 10 ^ 5) q
  g_n : NorthDeriv (F "potential") (F "g_n" q / 10 ^ 5) q
  g_z : UpDeriv (F "potential") (-F "g_z" q / 10 ^ 5) q
  g_ee : EastDeriv (F "g_e") (F "g_ee" q / 10 ^ 4) q
  g_en : NorthDeriv (F "g_e") (F "g_en" q / 10 ^ 4) q
  g_ez : UpDeriv (F "g_e") (-F "g_ez" q / 10 ^ 4) q
  g_ne : EastDeriv (F "g_n") (F "g_ne" q / 10 ^ 4) q
  g_nn : NorthDeriv (F "g_n") (F "g_nn" q / 10 ^ 4) q
  g_nz : UpDeriv (F "g_n") (-F "g_nz" q / 10 ^ 4) q
  g_ze : EastDeriv (F "g_z") (F "g_ze" q / 10 ^ 4) q
  g_zn : NorthDeriv (F "g_z") (F "g_zn" q / 10 ^ 4) q
  g_zz : UpDeriv (F "g_z") (-F "g_zz" q / 10 ^ 4) q
  trace : F "g_ee" q + F "g_nn" q + F "g_zz" q = 0

/-- The components of a magnetic field (nT) at `q` have no divergence and no curl: their derivatives form a
symmetric matrix of trace zero. -/
def MagneticConsistent (B_e B_n B_u : P3 → ℝ) (q : P3) : Prop :=
  ∃ ee en eu nn nu uu,
    (EastDeriv B_e ee q ∧ NorthDeriv B_e en q ∧ UpDeriv B_e eu q) ∧
    (EastDeriv B_n en q ∧ NorthDeriv B_n nn q ∧ UpDeriv B_n nu q) ∧
    (EastDeriv B_u eu q ∧ NorthDeriv B_u nu q ∧ UpDeriv B_u uu q) ∧ ee + nn + uu = 0

/-! ### Lemmas -/

theorem gap_sq_pos {q p : P3} (h : q ≠ p) : 0 < (q.x - p.x) ^ 2 + (q.y - p.y) ^ 2 + (q.z - p.z) ^ 2 := by
  have h1 : q.x - p.x ≠ 0 ∨ q.y - p.y ≠ 0 ∨ q.z - p.z ≠ 0 := by
    by_contra hc
    push Not at hc
    obtain ⟨a, b, c⟩ := hc
    apply h
    obtain ⟨x, y, z⟩ := q
    obtain ⟨x', y', z'⟩ := p
    simp only [sub_eq_zero] at a b c
    subst a b c
    rfl
  rcases h1 with h1 | h1 | h1 <;> positivity

theorem gap_pos {q p : P3} (h : q ≠ p) : 0 < gap q p := Real.sqrt_pos.2 (gap_sq_pos h)

theorem gap_sq {q p : P3} (h : q ≠ p) :
    gap q p ^ 2 = (q.x - p.x) ^ 2 + (q.y - p.y) ^ 2 + (q.z - p.z) ^ 2 := Real.sq_sqrt (gap_sq_pos h).le

/-- one over the cube of the distance, along one axis -/
theorem inverse_cube_deriv (c a k t : ℝ) (h : 0 < (t - a) ^ 2 + k) :
    HasDerivAt (fun t => c / (Real.sqrt ((t - a) ^ 2 + k)) ^ 3)
      (-(3 * c * (t - a)) / (Real.sqrt ((t - a) ^ 2 + k)) ^ 5) t := by
  have h1 : HasDerivAt (fun t : ℝ => (t - a) ^ 2 + k) (2 * (t - a)) t := by
    have := (((hasDerivAt_id t).sub_const a).fun_pow 2).add_const k
    simpa using this
  have h2 := (h1.sqrt h.ne').fun_pow 3
  have hs : Real.sqrt ((t - a) ^ 2 + k) ≠ 0 := (Real.sqrt_pos.2 h).ne'
  refine ((hasDerivAt_const t c).div h2 (pow_ne_zero 3 hs)).congr_deriv ?_
  generalize Real.sqrt ((t - a) ^ 2 + k) = R at *
  field_simp
  ring

/-- one over the fifth power of the distance, along one axis -/
theorem inverse_fifth_deriv (c a k t : ℝ) (h : 0 < (t - a) ^ 2 + k) :
    HasDerivAt (fun t => c / (Real.sqrt ((t - a) ^ 2 + k)) ^ 5)
      (-(5 * c * (t - a)) / (Real.sqrt ((t - a) ^ 2 + k)) ^ 7) t := by
  have h1 : HasDerivAt (fun t : ℝ => (t - a) ^ 2 + k) (2 * (t - a)) t := by
    have := (((hasDerivAt_id t).sub_const a).fun_pow 2).add_const k
    simpa using this
  have h2 := (h1.sqrt h.ne').fun_pow 5
  have hs : Real.sqrt ((t - a) ^ 2 + k) ≠ 0 := (Real.sqrt_pos.2 h).ne'
  refine ((hasDerivAt_const t c).div h2 (pow_ne_zero 5 hs)).congr_deriv ?_
  generalize Real.sqrt ((t - a) ^ 2 + k) = R at *
  field_simp
  ring

/-- Powers of the distance along the three axes. -/
theorem gap_deriv {q p : P3} (h : q ≠ p) (f f' : ℝ → ℝ)
    (hf : ∀ a k t, 0 < (t - a) ^ 2 + k → HasDerivAt (fun t => f (√((t - a) ^ 2 + k)))
      (f' (√((t - a) ^ 2 + k)) * (t - a)) t) :
    EastDeriv (fun q => f (gap q p)) (f' (gap q p) * (q.x - p.x)) q ∧
    NorthDeriv (fun q => f (gap q p)) (f' (gap q p) * (q.y - p.y)) q ∧
    UpDeriv (fun q => f (gap q p)) (f' (gap q p) * (q.z - p.z)) q := by
  have h0 := gap_sq_pos h
  have e2 : ∀ x y z : ℝ, x ^ 2 + y ^ 2 + z ^ 2 = y ^ 2 + (x ^ 2 + z ^ 2) := by intros; ring
  have e3 : ∀ x y z : ℝ, x ^ 2 + y ^ 2 + z ^ 2 = z ^ 2 + (x ^ 2 + y ^ 2) := by intros; ring
  refine ⟨?_, ?_, ?_⟩
  · have := hf p.x ((q.y - p.y) ^ 2 + (q.z - p.z) ^ 2) q.x (by linarith)
    simpa only [EastDeriv, gap, add_assoc] using this
  · have := hf p.y ((q.x - p.x) ^ 2 + (q.z - p.z) ^ 2) q.y (by linarith)
    simpa only [NorthDeriv, gap, e2] using this
  · have := hf p.z ((q.x - p.x) ^ 2 + (q.y - p.y) ^ 2) q.z (by linarith)
    simpa only [UpDeriv, gap, e3] using this

theorem gap_powers {q p : P3} (h : q ≠ p) :
    (EastDeriv (fun q => 1 / gap q p) (-(q.x - p.x) / gap q p ^ 3) q ∧
      NorthDeriv (fun q => 1 / gap q p) (-(q.y - p.y) / gap q p ^ 3) q ∧
      UpDeriv (fun q => 1 / gap q p) (-(q.z - p.z) / gap q p ^ 3) q) ∧
    (EastDeriv (fun q => 1 / gap q p ^ 3) (-3 * (q.x - p.x) / gap q p ^ 5) q ∧
      NorthDeriv (fun q => 1 / gap q p ^ 3) (-3 * (q.y - p.y) / gap q p ^ 5) q ∧
      UpDeriv (fun q => 1 / gap q p ^ 3) (-3 * (q.z - p.z) / gap q p ^ 5) q) ∧
    (EastDeriv (fun q => 1 / gap q p ^ 5) (-5 * (q.x - p.x) / gap q p ^ 7) q ∧
      NorthDeriv (fun q => 1 / gap q p ^ 5) (-5 * (q.y - p.y) / gap q p ^ 7) q ∧
      UpDeriv (fun q => 1 / gap q p ^ 5) (-5 * (q.z - p.z) / gap q p ^ 7) q) := by
  have h1 := gap_deriv h (fun r => 1 / r) (fun r => -1 / r ^ 3) (fun a k t ht =>
    (inverse_deriv 1 a k t ht).congr_deriv (by ring))
  have h3 := gap_deriv h (fun r => 1 / r ^ 3) (fun r => -3 / r ^ 5) (fun a k t ht =>
    (inverse_cube_deriv 1 a k t ht).congr_deriv (by ring))
  have h5 := gap_deriv h (fun r => 1 / r ^ 5) (fun r => -5 / r ^ 7) (fun a k t ht =>
    (inverse_fifth_deriv 1 a k t ht).congr_deriv (by ring))
  refine ⟨⟨?_, ?_, ?_⟩, ⟨?_, ?_, ?_⟩, ?_, ?_, ?_⟩
  · exact HasDerivAt.congr_deriv h1.1 (by ring)
  · exact HasDerivAt.congr_deriv h1.2.1 (by ring)
  · exact HasDerivAt.congr_deriv h1.2.2 (by ring)
  · exact HasDerivAt.congr_deriv h3.1 (by ring)
  · exact HasDerivAt.congr_deriv h3.2.1 (by ring)
  · exact HasDerivAt.congr_deriv h3.2.2 (by ring)
  · exact HasDerivAt.congr_deriv h5.1 (by ring)
  · exact HasDerivAt.congr_deriv h5.2.1 (by ring)
  · exact HasDerivAt.congr_deriv h5.2.2 (by ring)

/-- Lines through a point, along the axes. -/
structure Along (γ : ℝ → P3) (q : P3) (t : ℝ) : Prop where
  at_t : γ t = q
  x : ∃ d, HasDerivAt (fun t => (γ t).x) d t
  y : ∃ d, HasDerivAt (fun t => (γ t).y) d t
  z : ∃ d, HasDerivAt (fun t => (γ t).z) d t

theorem along_east (q : P3) : Along (fun t => ⟨t, q.y, q.z⟩) q q.x :=
  ⟨rfl, ⟨1, hasDerivAt_id _⟩, ⟨0, hasDerivAt_const _ _⟩, ⟨0, hasDerivAt_const _ _⟩⟩

theorem along_north (q : P3) : Along (fun t => ⟨q.x, t, q.z⟩) q q.y :=
  ⟨rfl, ⟨0, hasDerivAt_const _ _⟩, ⟨1, hasDerivAt_id _⟩, ⟨0, hasDerivAt_const _ _⟩⟩

theorem along_up (q : P3) : Along (fun t => ⟨q.x, q.y, t⟩) q q.z :=
  ⟨rfl, ⟨0, hasDerivAt_const _ _⟩, ⟨0, hasDerivAt_const _ _⟩, ⟨1, hasDerivAt_id _⟩⟩

theorem Along.eventually_ne {γ : ℝ → P3} {q p : P3} {t : ℝ} (h : Along γ q t) (hq : q ≠ p) :
    ∀ᶠ s in 𝓝 t, γ s ≠ p := by
  obtain ⟨h0, ⟨a, ha⟩, ⟨b, hb⟩, ⟨c, hc⟩⟩ := h
  have hcont : ContinuousAt
      (fun s => ((γ s).x - p.x) ^ 2 + ((γ s).y - p.y) ^ 2 + ((γ s).z - p.z) ^ 2) t :=
    (((ha.continuousAt.sub_const _).pow 2).add ((hb.continuousAt.sub_const _).pow 2)).add
      ((hc.continuousAt.sub_const _).pow 2)
  have hpos := gap_sq_pos hq
  rw [← h0] at hpos
  filter_upwards [hcont.eventually (lt_mem_nhds hpos)] with s hs e
  rw [e] at hs
  simp at hs

/-- The derivative of a sum over sources, from those of the documented contributions. -/
theorem total_deriv {S : Type} {k f k' : P3 → P3 → S → ℝ} (hk : ∀ q p m, q ≠ p → k q p m = f q p m)
    {γ : ℝ → P3} {q : P3} {t : ℝ} (hγ : Along γ q t) (srcs : List (P3 × S)) (hq : ∀ s ∈ srcs, q ≠ s.1)
    (hf : ∀ s ∈ srcs, HasDerivAt (fun t => f (γ t) s.1 s.2) (k' q s.1 s.2) t) :
    HasDerivAt (fun t => total (fun q s => k q s.1 s.2) srcs (γ t))
      (total (fun q s => k' q s.1 s.2) srcs q) t := by
  unfold total
  induction srcs with
  | nil => simpa using hasDerivAt_const t (0 : ℝ)
  | cons s srcs ih =>
    simp only [List.map_cons, List.sum_cons]
    refine HasDerivAt.fun_add ?_ (ih (fun s hs => hq s (by simp [hs])) fun s hs => hf s (by simp [hs]))
    refine (hf s (by simp)).congr_of_eventuallyEq ?_
    filter_upwards [hγ.eventually_ne (hq s (by simp))] with t ht using hk _ _ _ ht

/-- The documented kernels for point masses, as formulas. -/
noncomputable def newtonKernels : PointKernels where
  pot q p m := gravitationalConst * m / gap q p
  e q p m := -(gravitationalConst * m * (q.x - p.x)) / gap q p ^ 3
  n q p m := -(gravitationalConst * m * (q.y - p.y)) / gap q p ^ 3
  u q p m := -(gravitationalConst * m * (q.z - p.z)) / gap q p ^ 3
  ee q p m := gravitationalConst * m * (3 * (q.x - p.x) ^ 2 / gap q p ^ 5 - 1 / gap q p ^ 3)
  nn q p m := gravitationalConst * m * (3 * (q.y - p.y) ^ 2 / gap q p ^ 5 - 1 / gap q p ^ 3)
  uu q p m := gravitationalConst * m * (3 * (q.z - p.z) ^ 2 / gap q p ^ 5 - 1 / gap q p ^ 3)
  en q p m := gravitationalConst * m * (3 * (q.x - p.x) * (q.y - p.y) / gap q p ^ 5)
  eu q p m := gravitationalConst * m * (3 * (q.x - p.x) * (q.z - p.z) / gap q p ^ 5)
  nu q p m := gravitationalConst * m * (3 * (q.y - p.y) * (q.z - p.z) / gap q p ^ 5)

theorem newtonKernels_newtonian : newtonKernels.Newtonian := by
  constructor <;> intros <;> rfl

/-- Product rule: the derivative of `-(c * X) / R³`. -/
theorem accel_deriv {c : ℝ} {X I3 : ℝ → ℝ} {dX d3 t : ℝ} (hX : HasDerivAt X dX t)
    (h3 : HasDerivAt (fun t => 1 / I3 t) d3 t) :
    HasDerivAt (fun t => -(c * X t) / I3 t) (-(c * dX) * (1 / I3 t) - c * X t * d3) t := by
  have h := ((hX.const_mul c).fun_neg).fun_mul h3
  refine HasDerivAt.congr_deriv (h.congr_of_eventuallyEq (Eventually.of_forall fun t => ?_)) (by ring)
  ring

theorem newton_deriv {q p : P3} (h : q ≠ p) (m : ℝ) :
    (EastDeriv (fun q => newtonKernels.pot q p m) (newtonKernels.e q p m) q ∧
      NorthDeriv (fun q => newtonKernels.pot q p m) (newtonKernels.n q p m) q ∧
      UpDeriv (fun q => newtonKernels.pot q p m) (newtonKernels.u q p m) q) ∧
    (EastDeriv (fun q => newtonKernels.e q p m) (newtonKernels.ee q p m) q ∧
      NorthDeriv (fun q => newtonKernels.e q p m) (newtonKernels.en q p m) q ∧
      UpDeriv (fun q => newtonKernels.e q p m) (newtonKernels.eu q p m) q) ∧
    (EastDeriv (fun q => newtonKernels.n q p m) (newtonKernels.en q p m) q ∧
      NorthDeriv (fun q => newtonKernels.n q p m) (newtonKernels.nn q p m) q ∧
      UpDeriv (fun q => newtonKernels.n q p m) (newtonKernels.nu q p m) q) ∧
    (EastDeriv (fun q => newtonKernels.u q p m) (newtonKernels.eu q p m) q ∧
      NorthDeriv (fun q => newtonKernels.u q p m) (newtonKernels.nu q p m) q ∧
      UpDeriv (fun q => newtonKernels.u q p m) (newtonKernels.uu q p m) q) ∧
    newtonKernels.ee q p m + newtonKernels.nn q p m + newtonKernels.uu q p m = 0 := by
  obtain ⟨⟨x1, y1, z1⟩, ⟨x3, y3, z3⟩, -⟩ := gap_powers h
  have hR := (gap_pos h).ne'
  have h2 := gap_sq h
  have id' : ∀ a t : ℝ, HasDerivAt (fun t => t - a) 1 t := fun a t => (hasDerivAt_id t).sub_const a
  have cst : ∀ a t : ℝ, HasDerivAt (fun _ => a) 0 t := fun a t => hasDerivAt_const t a
  have pot : ∀ {I : ℝ → ℝ} {d t : ℝ} (c : ℝ), HasDerivAt (fun t => 1 / I t) d t →
      HasDerivAt (fun t => c / I t) (c * d) t := by
    intro I d t c hd
    exact (hd.const_mul c).congr_of_eventuallyEq (Eventually.of_forall fun t => by ring)
  refine ⟨⟨?_, ?_, ?_⟩, ⟨?_, ?_, ?_⟩, ⟨?_, ?_, ?_⟩, ⟨?_, ?_, ?_⟩, ?_⟩
  · exact HasDerivAt.congr_deriv (pot _ x1) (by simp only [newtonKernels]; ring)
  · exact HasDerivAt.congr_deriv (pot _ y1) (by simp only [newtonKernels]; ring)
  · exact HasDerivAt.congr_deriv (pot _ z1) (by simp only [newtonKernels]; ring)
  · exact HasDerivAt.congr_deriv (accel_deriv (dX := 1) (id' _ _) x3) (by simp only [newtonKernels]; ring)
  · exact HasDerivAt.congr_deriv (accel_deriv (dX := 0) (cst (q.x - p.x) _) y3) (by simp only [newtonKernels]; ring)
  · exact HasDerivAt.congr_deriv (accel_deriv (dX := 0) (cst (q.x - p.x) _) z3) (by simp only [newtonKernels]; ring)
  · exact HasDerivAt.congr_deriv (accel_deriv (dX := 0) (cst (q.y - p.y) _) x3) (by simp only [newtonKernels]; ring)
  · exact HasDerivAt.congr_deriv (accel_deriv (dX := 1) (id' _ _) y3) (by simp only [newtonKernels]; ring)
  · exact HasDerivAt.congr_deriv (accel_deriv (dX := 0) (cst (q.y - p.y) _) z3) (by simp only [newtonKernels]; ring)
  · exact HasDerivAt.congr_deriv (accel_deriv (dX := 0) (cst (q.z - p.z) _) x3) (by simp only [newtonKernels]; ring)
  · exact HasDerivAt.congr_deriv (accel_deriv (dX := 0) (cst (q.z - p.z) _) y3) (by simp only [newtonKernels]; ring)
  · exact HasDerivAt.congr_deriv (accel_deriv (dX := 1) (id' _ _) z3) (by simp only [newtonKernels]; ring)
  · have e : newtonKernels.ee q p m + newtonKernels.nn q p m + newtonKernels.uu q p m =
        gravitationalConst * m * (3 * ((q.x - p.x) ^ 2 + (q.y - p.y) ^ 2 + (q.z - p.z) ^ 2) / gap q p ^ 5 -
          3 / gap q p ^ 3) := by
      simp only [newtonKernels]; ring
    rw [e, ← h2]
    field_simp
    ring

theorem total_trace {S : Type} (k₁ k₂ k₃ : P3 → S → ℝ) (srcs : List S) (q : P3)
    (h : ∀ s ∈ srcs, k₁ q s + k₂ q s + k₃ q s = 0) :
    total k₁ srcs q + total k₂ srcs q + total k₃ srcs q = 0 := by
  unfold total
  induction srcs with
  | nil => simp
  | cons s srcs ih =>
    simp only [List.map_cons, List.sum_cons]
    linarith [ih fun s hs => h s (by simp [hs]), h s (by simp)]

/-! ### Point masses -/

/-- C105, point masses: whatever the sources, the results of `point_gravity` are the values at the observation
points of one function per field, and these functions are derivatives of one another, with the documented
units and the vertical component pointing down, at every point that is not a source. -/
theorem C105_point_gravity (junk : Junk) (K : PointKernels) (hK : K.Newtonian) (ps ms : List ℕ)
    (srcs : List (P3 × ℝ)) :
    ∃ F : String → P3 → ℝ,
      (∀ field ∈ ["potential", "g_e", "g_n", "g_z", "g_ee", "g_nn", "g_zz", "g_en", "g_ez", "g_nz", "g_ne",
          "g_ze", "g_zn"], ∀ mode shape obs, shape.prod = obs.length →
          mode.Full obs.length (2 * srcs.length) →
        pointGravity junk mode K (arrays shape obs) (arrays ps (srcs.map (·.1))) ⟨ms, srcs.map (·.2)⟩ field
          "cartesian" = .ok ⟨shape, obs.map (F field)⟩) ∧
      ∀ q, (∀ s ∈ srcs, q ≠ s.1) → GravityConsistent F q := by
  refine ⟨fun field q => match pointFieldTable K field with
    | none => 0
    | some (k, factor) => factor * total (fun q s => k q s.1 s.2) srcs q, ?_, ?_⟩
  · intro field hf mode shape obs hs hm
    rw [C04_point_gravity_cartesian junk mode K shape ps ms obs hs srcs hm]
    simp only [List.mem_cons, List.not_mem_nil, or_false] at hf
    rcases hf with rfl | rfl | rfl | rfl | rfl | rfl | rfl | rfl | rfl | rfl | rfl | rfl | rfl <;>
      simp [pointFieldTable]
  · intro q hq
    have E := along_east q
    have N := along_north q
    have U := along_up q
    have D := fun s hs => newton_deriv (hq s hs) s.2
    constructor
    all_goals simp only [pointFieldTable, reduceIte, String.reduceEq, or_false, or_true]
    · refine HasDerivAt.congr_deriv (HasDerivAt.const_mul _ (total_deriv (k' := K.e) hK.pot E srcs hq
        fun s hs => HasDerivAt.congr_deriv (D s hs).1.1 (hK.e _ _ _ (hq s hs)).symm)) (by ring)
    · refine HasDerivAt.congr_deriv (HasDerivAt.const_mul _ (total_deriv (k' := K.n) hK.pot N srcs hq
        fun s hs => HasDerivAt.congr_deriv (D s hs).1.2.1 (hK.n _ _ _ (hq s hs)).symm)) (by ring)
    · refine HasDerivAt.congr_deriv (HasDerivAt.const_mul _ (total_deriv (k' := K.u) hK.pot U srcs hq
        fun s hs => HasDerivAt.congr_deriv (D s hs).1.2.2 (hK.u _ _ _ (hq s hs)).symm)) (by ring)
    · refine HasDerivAt.congr_deriv (HasDerivAt.const_mul _ (total_deriv (k' := K.ee) hK.e E srcs hq
        fun s hs => HasDerivAt.congr_deriv (D s hs).2.1.1 (hK.ee _ _ _ (hq s hs)).symm)) (by ring)
    · refine HasDerivAt.congr_deriv (HasDerivAt.const_mul _ (total_deriv (k' := K.en) hK.e N srcs hq
        fun s hs => HasDerivAt.congr_deriv (D s hs).2.1.2.1 (hK.en _ _ _ (hq s hs)).symm)) (by ring)
    · refine HasDerivAt.congr_deriv (HasDerivAt.const_mul _ (total_deriv (k' := K.eu) hK.e U srcs hq
        fun s hs => HasDerivAt.congr_deriv (D s hs).2.1.2.2 (hK.eu _ _ _ (hq s hs)).symm)) (by ring)
    · refine HasDerivAt.congr_deriv (HasDerivAt.const_mul _ (total_deriv (k' := K.en) hK.n E srcs hq
        fun s hs => HasDerivAt.congr_deriv (D s hs).2.2.1.1 (hK.en _ _ _ (hq s hs)).symm)) (by ring)
    · refine HasDerivAt.congr_deriv (HasDerivAt.const_mul _ (total_deriv (k' := K.nn) hK.n N srcs hq
        fun s hs => HasDerivAt.congr_deriv (D s hs).2.2.1.2.1 (hK.nn _ _ _ (hq s hs)).symm)) (by ring)
    · refine HasDerivAt.congr_deriv (HasDerivAt.const_mul _ (total_deriv (k' := K.nu) hK.n U srcs hq
        fun s hs => HasDerivAt.congr_deriv (D s hs).2.2.1.2.2 (hK.nu _ _ _ (hq s hs)).symm)) (by ring)
    · refine HasDerivAt.congr_deriv (HasDerivAt.const_mul _ (total_deriv (k' := K.eu) hK.u E srcs hq
        fun s hs => HasDerivAt.congr_deriv (D s hs).2.2.2.1.1 (hK.eu _ _ _ (hq s hs)).symm)) (by ring)
    · refine HasDerivAt.congr_deriv (HasDerivAt.const_mul _ (total_deriv (k' := K.nu) hK.u N srcs hq
        fun s hs => HasDerivAt.congr_deriv (D s hs).2.2.2.1.2.1 (hK.nu _ _ _ (hq s hs)).symm)) (by ring)
    · refine HasDerivAt.congr_deriv (HasDerivAt.const_mul _ (total_deriv (k' := K.uu) hK.u U srcs hq
        fun s hs => HasDerivAt.congr_deriv (D s hs).2.2.2.1.2.2 (hK.uu _ _ _ (hq s hs)).symm)) (by ring)
    · have := total_trace (fun q s => K.ee q s.1 s.2) (fun q s => K.nn q s.1 s.2) (fun q s => K.uu q s.1 s.2)
        srcs q fun s hs => by
          have h := (D s hs).2.2.2.2
          rw [hK.ee _ _ _ (hq s hs), hK.nn _ _ _ (hq s hs), hK.uu _ _ _ (hq s hs)]
          exact h
      linear_combination 10 ^ 9 * this

/-! ### Dipoles -/

/-- The documented kernels for dipoles, as formulas. -/
noncomputable def dipoleKernels (mu0 : ℝ) : MagKernels P3 :=
  let along (q p : P3) (m : P3) : ℝ := m.x * (q.x - p.x) + m.y * (q.y - p.y) + m.z * (q.z - p.z)
  let e (q p : P3) (m : P3) : ℝ :=
    mu0 / (4 * Real.pi) * (3 * along q p m * (q.x - p.x) / gap q p ^ 5 - m.x / gap q p ^ 3)
  let n (q p : P3) (m : P3) : ℝ :=
    mu0 / (4 * Real.pi) * (3 * along q p m * (q.y - p.y) / gap q p ^ 5 - m.y / gap q p ^ 3)
  let u (q p : P3) (m : P3) : ℝ :=
    mu0 / (4 * Real.pi) * (3 * along q p m * (q.z - p.z) / gap q p ^ 5 - m.z / gap q p ^ 3)
  ⟨fun q p m => (e q p m, n q p m, u q p m), e, n, u⟩

theorem dipoleKernels_dipole (mu0 : ℝ) : (dipoleKernels mu0).Dipole mu0 := by
  constructor <;> intros <;> rfl

/-- The gradient of the field of a dipole: the derivative of the component along `a` in the direction of `b`,
with `same = 1` when they are the same axis and `0` otherwise. -/
noncomputable def dipoleGradient (mu0 : ℝ) (a b : P3 → ℝ) (same : ℝ) (q p : P3) (m : P3) : ℝ :=
  let along : ℝ := m.x * (q.x - p.x) + m.y * (q.y - p.y) + m.z * (q.z - p.z)
  mu0 / (4 * Real.pi) * (3 * (b m * (a q - a p) + a m * (b q - b p) + along * same) / gap q p ^ 5 -
    15 * along * (a q - a p) * (b q - b p) / gap q p ^ 7)

/-- Product rule for the field of a dipole along a line. -/
theorem dipole_rule {c mx my mz mi : ℝ} {X Y Z A R3 R5 : ℝ → ℝ} {dx dy dz da d3 d5 t : ℝ}
    (hX : HasDerivAt X dx t) (hY : HasDerivAt Y dy t) (hZ : HasDerivAt Z dz t) (hA : HasDerivAt A da t)
    (h3 : HasDerivAt (fun t => 1 / R3 t) d3 t) (h5 : HasDerivAt (fun t => 1 / R5 t) d5 t) :
    HasDerivAt (fun t => c * (3 * (mx * X t + my * Y t + mz * Z t) * A t / R5 t - mi / R3 t))
      (c * (3 * ((mx * dx + my * dy + mz * dz) * A t + (mx * X t + my * Y t + mz * Z t) * da) * (1 / R5 t) +
        3 * (mx * X t + my * Y t + mz * Z t) * A t * d5 - mi * d3)) t := by
  have hm := ((hX.const_mul mx).fun_add (hY.const_mul my)).fun_add (hZ.const_mul mz)
  have h := ((((hm.const_mul 3).fun_mul hA).fun_mul h5).fun_sub (h3.const_mul mi)).const_mul c
  refine HasDerivAt.congr_deriv (h.congr_of_eventuallyEq (Eventually.of_forall fun t => ?_)) (by ring)
  ring

theorem dipole_deriv (mu0 : ℝ) {q p : P3} (h : q ≠ p) (m : P3) :
    (EastDeriv (fun q => (dipoleKernels mu0).e q p m) (dipoleGradient mu0 P3.x P3.x 1 q p m) q ∧
      NorthDeriv (fun q => (dipoleKernels mu0).e q p m) (dipoleGradient mu0 P3.x P3.y 0 q p m) q ∧
      UpDeriv (fun q => (dipoleKernels mu0).e q p m) (dipoleGradient mu0 P3.x P3.z 0 q p m) q) ∧
    (EastDeriv (fun q => (dipoleKernels mu0).n q p m) (dipoleGradient mu0 P3.y P3.x 0 q p m) q ∧
      NorthDeriv (fun q => (dipoleKernels mu0).n q p m) (dipoleGradient mu0 P3.y P3.y 1 q p m) q ∧
      UpDeriv (fun q => (dipoleKernels mu0).n q p m) (dipoleGradient mu0 P3.y P3.z 0 q p m) q) ∧
    (EastDeriv (fun q => (dipoleKernels mu0).u q p m) (dipoleGradient mu0 P3.z P3.x 0 q p m) q ∧
      NorthDeriv (fun q => (dipoleKernels mu0).u q p m) (dipoleGradient mu0 P3.z P3.y 0 q p m) q ∧
      UpDeriv (fun q => (dipoleKernels mu0).u q p m) (dipoleGradient mu0 P3.z P3.z 1 q p m) q) ∧
    dipoleGradient mu0 P3.x P3.x 1 q p m + dipoleGradient mu0 P3.y P3.y 1 q p m +
      dipoleGradient mu0 P3.z P3.z 1 q p m = 0 := by
  obtain ⟨-, ⟨x3, y3, z3⟩, x5, y5, z5⟩ := gap_powers h
  have hR := (gap_pos h).ne'
  have h2 := gap_sq h
  have id' : ∀ a t : ℝ, HasDerivAt (fun t => t - a) 1 t := fun a t => (hasDerivAt_id t).sub_const a
  have cst : ∀ a t : ℝ, HasDerivAt (fun _ => a) 0 t := fun a t => hasDerivAt_const t a
  refine ⟨⟨?_, ?_, ?_⟩, ⟨?_, ?_, ?_⟩, ⟨?_, ?_, ?_⟩, ?_⟩
  · exact HasDerivAt.congr_deriv (dipole_rule (dx := 1) (dy := 0) (dz := 0)
      (da := 1) (id' p.x _) (cst (q.y - p.y) _) (cst (q.z - p.z) _) (id' p.x _) x3 x5)
      (by simp only [dipoleGradient]; ring)
  · exact HasDerivAt.congr_deriv (dipole_rule (dx := 0) (dy := 1) (dz := 0)
      (da := 0) (cst (q.x - p.x) _) (id' p.y _) (cst (q.z - p.z) _) (cst (q.x - p.x) _) y3 y5)
      (by simp only [dipoleGradient]; ring)
  · exact HasDerivAt.congr_deriv (dipole_rule (dx := 0) (dy := 0) (dz := 1)
      (da := 0) (cst (q.x - p.x) _) (cst (q.y - p.y) _) (id' p.z _) (cst (q.x - p.x) _) z3 z5)
      (by simp only [dipoleGradient]; ring)
  · exact HasDerivAt.congr_deriv (dipole_rule (dx := 1) (dy := 0) (dz := 0)
      (da := 0) (id' p.x _) (cst (q.y - p.y) _) (cst (q.z - p.z) _) (cst (q.y - p.y) _) x3 x5)
      (by simp only [dipoleGradient]; ring)
  · exact HasDerivAt.congr_deriv (dipole_rule (dx := 0) (dy := 1) (dz := 0)
      (da := 1) (cst (q.x - p.x) _) (id' p.y _) (cst (q.z - p.z) _) (id' p.y _) y3 y5)
      (by simp only [dipoleGradient]; ring)
  · exact HasDerivAt.congr_deriv (dipole_rule (dx := 0) (dy := 0) (dz := 1)
      (da := 0) (cst (q.x - p.x) _) (cst (q.y - p.y) _) (id' p.z _) (cst (q.y - p.y) _) z3 z5)
      (by simp only [dipoleGradient]; ring)
  · exact HasDerivAt.congr_deriv (dipole_rule (dx := 1) (dy := 0) (dz := 0)
      (da := 0) (id' p.x _) (cst (q.y - p.y) _) (cst (q.z - p.z) _) (cst (q.z - p.z) _) x3 x5)
      (by simp only [dipoleGradient]; ring)
  · exact HasDerivAt.congr_deriv (dipole_rule (dx := 0) (dy := 1) (dz := 0)
      (da := 0) (cst (q.x - p.x) _) (id' p.y _) (cst (q.z - p.z) _) (cst (q.z - p.z) _) y3 y5)
      (by simp only [dipoleGradient]; ring)
  · exact HasDerivAt.congr_deriv (dipole_rule (dx := 0) (dy := 0) (dz := 1)
      (da := 1) (cst (q.x - p.x) _) (cst (q.y - p.y) _) (id' p.z _) (id' p.z _) z3 z5)
      (by simp only [dipoleGradient]; ring)
  · have e : dipoleGradient mu0 P3.x P3.x 1 q p m + dipoleGradient mu0 P3.y P3.y 1 q p m +
        dipoleGradient mu0 P3.z P3.z 1 q p m = mu0 / (4 * Real.pi) *
          (m.x * (q.x - p.x) + m.y * (q.y - p.y) + m.z * (q.z - p.z)) * (15 / gap q p ^ 5 -
            15 * ((q.x - p.x) ^ 2 + (q.y - p.y) ^ 2 + (q.z - p.z) ^ 2) / gap q p ^ 7) := by
      simp only [dipoleGradient]; ring
    rw [e, ← h2]
    field_simp
    ring

theorem dipoleGradient_symm (mu0 : ℝ) (a b : P3 → ℝ) (s : ℝ) (q p m : P3) :
    dipoleGradient mu0 a b s q p m = dipoleGradient mu0 b a s q p m := by
  simp only [dipoleGradient]; ring

/-- C105, dipoles: the components that `dipole_magnetic` returns for `"b"`, `"b_e"`, `"b_n"` and `"b_u"` are
the values at the observation points of one vector field, without divergence nor curl at every point that is
not a dipole. -/
theorem C105_dipole_magnetic (junk : Junk) (mu0 : ℝ) (K : MagKernels P3) (hK : K.Dipole mu0) (ps : List ℕ)
    (srcs : List (P3 × V3)) :
    ∃ B_e B_n B_u : P3 → ℝ,
      (∀ mode shape obs dis, shape.prod = obs.length → mode.Full obs.length (6 * srcs.length) →
        let call := fun field => dipoleMagnetic junk mode K (arrays shape obs) (arrays ps (srcs.map (·.1)))
          [(srcs.map (·.2)).map (·.x), (srcs.map (·.2)).map (·.y), (srcs.map (·.2)).map (·.z)] field dis
        call "b" = .ok (.vector ⟨shape, obs.map B_e⟩ ⟨shape, obs.map B_n⟩ ⟨shape, obs.map B_u⟩) ∧
        call "b_e" = .ok (.single ⟨shape, obs.map B_e⟩) ∧
        call "b_n" = .ok (.single ⟨shape, obs.map B_n⟩) ∧
        call "b_u" = .ok (.single ⟨shape, obs.map B_u⟩)) ∧
      ∀ q, (∀ s ∈ srcs, q ≠ s.1) → MagneticConsistent B_e B_n B_u q := by
  refine ⟨fun q => total (fun q s => K.e q s.1 s.2) srcs q * 10 ^ 9,
    fun q => total (fun q s => K.n q s.1 s.2) srcs q * 10 ^ 9,
    fun q => total (fun q s => K.u q s.1 s.2) srcs q * 10 ^ 9, ?_, ?_⟩
  · intro mode shape obs dis hs hm
    simp only [dipoleMagnetic_eq junk mode K shape ps obs hs srcs hm]
    simp [magSpec, hK.field]
  · intro q hq
    have E := along_east q
    have N := along_north q
    have U := along_up q
    have D := fun s hs => dipole_deriv mu0 (hq s hs) s.2
    let G (a b : P3 → ℝ) (same : ℝ) : ℝ :=
      total (fun q s => dipoleGradient mu0 a b same q s.1 s.2) srcs q * 10 ^ 9
    have key : ∀ {k f : P3 → P3 → V3 → ℝ} (a b : P3 → ℝ) (same : ℝ),
        (∀ q p m, q ≠ p → k q p m = f q p m) → ∀ {γ : ℝ → P3} {t : ℝ}, Along γ q t →
        (∀ s ∈ srcs, HasDerivAt (fun t => f (γ t) s.1 s.2) (dipoleGradient mu0 a b same q s.1 s.2) t) →
        HasDerivAt (fun t => total (fun q s => k q s.1 s.2) srcs (γ t) * 10 ^ 9) (G a b same) t :=
      fun a b same hk _ _ hγ hf =>
        (total_deriv (k' := dipoleGradient mu0 a b same) hk hγ srcs hq hf).mul_const _
    have hG : ∀ a b s, G a b s = G b a s := fun a b s => by
      simp only [G, dipoleGradient_symm mu0 a b]
    refine ⟨G P3.x P3.x 1, G P3.x P3.y 0, G P3.x P3.z 0, G P3.y P3.y 1, G P3.y P3.z 0, G P3.z P3.z 1,
      ⟨?_, ?_, ?_⟩, ⟨?_, ?_, ?_⟩, ⟨?_, ?_, ?_⟩, ?_⟩
    · exact key (f := (dipoleKernels mu0).e) P3.x P3.x 1 hK.e E fun s hs => (D s hs).1.1
    · exact key (f := (dipoleKernels mu0).e) P3.x P3.y 0 hK.e N fun s hs => (D s hs).1.2.1
    · exact key (f := (dipoleKernels mu0).e) P3.x P3.z 0 hK.e U fun s hs => (D s hs).1.2.2
    · rw [hG P3.x P3.y 0]; exact key (f := (dipoleKernels mu0).n) P3.y P3.x 0 hK.n E fun s hs => (D s hs).2.1.1
    · exact key (f := (dipoleKernels mu0).n) P3.y P3.y 1 hK.n N fun s hs => (D s hs).2.1.2.1
    · exact key (f := (dipoleKernels mu0).n) P3.y P3.z 0 hK.n U fun s hs => (D s hs).2.1.2.2
    · rw [hG P3.x P3.z 0]; exact key (f := (dipoleKernels mu0).u) P3.z P3.x 0 hK.u E fun s hs => (D s hs).2.2.1.1
    · rw [hG P3.y P3.z 0]; exact key (f := (dipoleKernels mu0).u) P3.z P3.y 0 hK.u N fun s hs => (D s hs).2.2.1.2.1
    · exact key (f := (dipoleKernels mu0).u) P3.z P3.z 1 hK.u U fun s hs => (D s hs).2.2.1.2.2
    · have hs0 : ∀ s ∈ srcs, dipoleGradient mu0 P3.x P3.x 1 q s.1 s.2 +
          dipoleGradient mu0 P3.y P3.y 1 q s.1 s.2 + dipoleGradient mu0 P3.z P3.z 1 q s.1 s.2 = 0 :=
        fun s hs => (D s hs).2.2.2
      have := total_trace (S := P3 × V3) (fun q s => dipoleGradient mu0 P3.x P3.x 1 q s.1 s.2)
        (fun q s => dipoleGradient mu0 P3.y P3.y 1 q s.1 s.2)
        (fun q s => dipoleGradient mu0 P3.z P3.z 1 q s.1 s.2) srcs q hs0
      simp only [G]
      rw [← add_mul, ← add_mul, this, zero_mul]

/-! ### Concrete cases -/

/-- two masses: the fields of `point_gravity` agree at a point over them -/
example : ∃ F : String → P3 → ℝ,
    pointGravity (fun _ _ => 0) .serial newtonKernels (arrays [1] [⟨0, 0, 2⟩])
      (arrays [2] [⟨0, 0, 0⟩, ⟨1, 0, -1⟩]) ⟨[2], [3, -4]⟩ "g_zz" "cartesian" =
        .ok ⟨[1], [F "g_zz" ⟨0, 0, 2⟩]⟩ ∧
    GravityConsistent F ⟨0, 0, 2⟩ := by
  obtain ⟨F, h, hc⟩ := C105_point_gravity (fun _ _ => 0) newtonKernels newtonKernels_newtonian [2] [2]
    [(⟨0, 0, 0⟩, 3), (⟨1, 0, -1⟩, -4)]
  exact ⟨F, h "g_zz" (by simp) .serial [1] [⟨0, 0, 2⟩] (by simp) trivial, hc _ (by simp)⟩

/-- the vertical component of a single mass two metres below the observation point, in mGal -/
example : pointGravity (fun _ _ => 0) .serial newtonKernels (arrays [1] [⟨0, 0, 2⟩])
    (arrays [1] [⟨0, 0, 0⟩]) ⟨[1], [4]⟩ "g_z" "cartesian" =
      .ok ⟨[1], [10 ^ 5 * gravitationalConst]⟩ := by
  have h := C04_point_gravity_cartesian (fun _ _ => 0) .serial newtonKernels [1] [1] [1] [⟨0, 0, 2⟩] (by simp)
    [(⟨0, 0, 0⟩, 4)] trivial "g_z"
  have hg : gap ⟨0, 0, 2⟩ ⟨0, 0, 0⟩ = 2 := by
    unfold gap
    rw [show ((0 : ℝ) - 0) ^ 2 + (0 - 0) ^ 2 + (2 - 0) ^ 2 = 2 ^ 2 by norm_num]
    exact Real.sqrt_sq (by norm_num)
  have e : ("g_z" = "potential") = False ∧ ("g_z" = "g_e") = False ∧ ("g_z" = "g_n") = False := by decide
  simp only [List.map_cons, List.map_nil, pointFieldTable, e.1, e.2.1, e.2.2, if_false, if_true, total,
    newtonKernels, hg, List.sum_cons, List.sum_nil] at h
  refine h.trans ?_
  congr 3
  ring

/-- two dipoles: no divergence nor curl at a point over them -/
example : ∃ B_e B_n B_u : P3 → ℝ,
    dipoleMagnetic (fun _ _ => 0) .serial (dipoleKernels (4 * Real.pi * 1e-7)) (arrays [1] [⟨0, 0, 2⟩])
      (arrays [2] [⟨0, 0, 0⟩, ⟨1, 0, -1⟩]) [[1, 0], [0, 2], [5, 7]] "b" false =
        .ok (.vector ⟨[1], [B_e ⟨0, 0, 2⟩]⟩ ⟨[1], [B_n ⟨0, 0, 2⟩]⟩ ⟨[1], [B_u ⟨0, 0, 2⟩]⟩) ∧
    MagneticConsistent B_e B_n B_u ⟨0, 0, 2⟩ := by
  obtain ⟨B_e, B_n, B_u, h, hc⟩ := C105_dipole_magnetic (fun _ _ => 0) (4 * Real.pi * 1e-7) _
    (dipoleKernels_dipole _) [2] [(⟨0, 0, 0⟩, ⟨1, 0, 5⟩), (⟨1, 0, -1⟩, ⟨0, 2, 7⟩)]
  exact ⟨B_e, B_n, B_u, (h .serial [1] [⟨0, 0, 2⟩] false (by simp) trivial).1, hc _ (by simp)⟩

end Verif.Forward
