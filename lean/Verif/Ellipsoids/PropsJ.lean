import Verif.Ellipsoids.PropsH
import Verif.Forward.PropsE

/-!
C107: outside of spheres, `ellipsoid_gravity` returns what `point_gravity` returns for point masses, and
`ellipsoid_magnetic` what `dipole_magnetic` returns for dipoles.
-/

namespace Verif.Ellipsoids
open Verif.Forward Verif.Distance Verif.Engine

/-! ### Specification -/

/-- The three semiaxes are positive and equal. -/
def Ellipsoid.Sphere (e : Ellipsoid) : Prop := 0 < e.a ∧ e.b = e.a ∧ e.c = e.a

/-- The center as a point. -/
def Ellipsoid.centerPoint (e : Ellipsoid) : P3 := ⟨e.center 0, e.center 1, e.center 2⟩

/-- Mass of a sphere (zero without density). -/
noncomputable def Ellipsoid.sphereMass (e : Ellipsoid) : ℝ := 4 / 3 * Real.pi * e.a ^ 3 * e.density.getD 0

/-- Moment of a sphere with susceptibility `x` in the inducing field `B0` (nT): its volume times
`(x H0 + M_r) / (1 + x / 3)`. -/
noncomputable def Ellipsoid.sphereMoment (mu0 : ℝ) (B0 : V3) (x : ℝ) (e : Ellipsoid) : P3 :=
  let m : V3 := (4 / 3 * Real.pi * e.a ^ 3) •
    (1 / (1 + x / 3)) • (x • (1e-9 / mu0) • B0 + e.remanent_mag.getD 0)
  ⟨m 0, m 1, m 2⟩

/-- Susceptibility of the sphere as one number: zero when it was not given. -/
def Ellipsoid.HasSusceptibility (e : Ellipsoid) (x : ℝ) : Prop :=
  (e.susceptibility = none ∧ x = 0) ∨ e.susceptibility = some (.scalar x)

/-! ### Lemmas -/

theorem Ellipsoid.Sphere.valid {e : Ellipsoid} (h : e.Sphere) : e.Valid :=
  ⟨h.1, by rw [h.2.1]; exact h.1, by rw [h.2.2]; exact h.1⟩

theorem Ellipsoid.Sphere.axes_eq {e : Ellipsoid} (h : e.Sphere) : e.axes = ![e.a, e.a, e.a] := by
  unfold Ellipsoid.axes
  rw [h.2.1, h.2.2]

theorem Ellipsoid.Sphere.exact {e : Ellipsoid} (h : e.Sphere) : e.Exact := by
  intro i j _
  rw [h.axes_eq]
  fin_cases i <;> fin_cases j <;> rfl

theorem vec_sub_center (e : Ellipsoid) (q : P3) : vec q - e.center =
    ![q.x - e.centerPoint.x, q.y - e.centerPoint.y, q.z - e.centerPoint.z] := by
  ext i
  fin_cases i <;> rfl

theorem distance_eq_gap (e : Ellipsoid) (q : P3) : e.distance (vec q) = gap q e.centerPoint := rfl

/-- The points at a distance of the center of at least the radius are not inside. -/
theorem sphere_outside {e : Ellipsoid} (h : e.Sphere) {q : P3} (hq : e.a ≤ gap q e.centerPoint) :
    ¬e.Inside (vec q) := by
  rw [inside_iff, h.2.1, h.2.2]
  have hn := local_norm e (vec q)
  rw [Fin.sum_univ_three, distance_eq_gap] at hn
  have hq2 : quadric e.a e.a e.a (e.local (vec q)) = gap q e.centerPoint ^ 2 / e.a ^ 2 := by
    rw [← hn]; unfold quadric; ring
  rw [hq2, not_lt, one_le_div (pow_pos h.1 2)]
  exact pow_le_pow_left₀ h.1.le hq 2

theorem sphere_ne {e : Ellipsoid} (h : e.Sphere) {q : P3} (hq : e.a ≤ gap q e.centerPoint) :
    q ≠ e.centerPoint := by
  intro hc
  rw [hc] at hq
  have : gap e.centerPoint e.centerPoint = 0 := by simp [gap]
  rw [this] at hq
  exact absurd h.1 (not_lt.2 hq)

/-- The attraction of a sphere outside is that of a point mass. -/
theorem sphere_attraction {e : Ellipsoid} (h : e.Sphere) {K : PointKernels} (hK : K.Newtonian) {q : P3}
    (hq : e.a ≤ gap q e.centerPoint) : e.gravity (vec q) =
      ![K.e q e.centerPoint e.sphereMass, K.n q e.centerPoint e.sphereMass,
        K.u q e.centerPoint e.sphereMass] := by
  have hne := sphere_ne h hq
  rw [hK.e _ _ _ hne, hK.n _ _ _ hne, hK.u _ _ _ hne]
  cases hd : e.density with
  | none =>
    simp only [Ellipsoid.gravity, Ellipsoid.sphereMass, hd]
    ext i; fin_cases i <;> simp
  | some d =>
    rw [(C69_sphere e h.valid h.2.1.symm (h.2.1.trans h.2.2.symm) d hd (vec q)).1 (sphere_outside h hq)]
    simp only [Ellipsoid.sphereMass, hd, Option.getD_some, distance_eq_gap, vec_sub_center]
    ext i
    fin_cases i <;> simp <;> ring

theorem sum_apply_map {α : Type} (l : List α) (f : α → V3) (i : Fin 3) :
    (l.map f).sum i = (l.map fun x => f x i).sum := by
  induction l with
  | nil => simp
  | cons x l ih => simp [ih]

/-! ### C107 -/

/-- C107, gravity: for any spheres and points that are not inside of any of them, `ellipsoid_gravity` returns
the arrays that `point_gravity` returns for `"g_e"`, `"g_n"` and `"g_z"` with the masses of the spheres at
their centers. -/
theorem C107_gravity (junk : Junk) (m₁ m₂ m₃ : Mode) (K : PointKernels) (hK : K.Newtonian)
    (shape ps ms : List ℕ) (pts : List P3) (hs : shape.prod = pts.length) (bodies : Bodies)
    (h : ∀ e ∈ bodies.toList, e.Sphere) (hout : ∀ q ∈ pts, ∀ e ∈ bodies.toList, e.a ≤ gap q e.centerPoint)
    (h1 : m₁.Full pts.length (2 * bodies.toList.length)) (h2 : m₂.Full pts.length (2 * bodies.toList.length))
    (h3 : m₃.Full pts.length (2 * bodies.toList.length)) :
    let call := fun mode field => pointGravity junk mode K (arrays shape pts)
      (arrays ps (bodies.toList.map Ellipsoid.centerPoint)) ⟨ms, bodies.toList.map Ellipsoid.sphereMass⟩ field
      "cartesian"
    ∃ g_e g_n g_z w, ellipsoidGravity (arrays shape pts) bodies = .ok ((g_e, g_n, g_z), w) ∧
      call m₁ "g_e" = .ok g_e ∧ call m₂ "g_n" = .ok g_n ∧ call m₃ "g_z" = .ok g_z := by
  intro call
  obtain ⟨w, hw⟩ := returnsGravity_of_exact (bodies := bodies) (fun e he => ⟨(h e he).valid, (h e he).exact⟩)
    shape pts hs.symm
  refine ⟨_, _, _, w, hw, ?_⟩
  have hcall : ∀ mode field (t : (P3 → P3 → ℝ → ℝ) × ℝ) (f : P3 → ℝ),
      mode.Full pts.length (2 * bodies.toList.length) → pointFieldTable K field = some t →
      (∀ q ∈ pts, f q = (bodies.toList.map fun e => t.1 q e.centerPoint e.sphereMass).sum * t.2) →
      call mode field = .ok ⟨shape, pts.map f⟩ := by
    intro mode field t f hm ht hf
    have := C04_point_gravity_cartesian junk mode K shape ps ms pts hs
      (bodies.toList.map fun e => (e.centerPoint, e.sphereMass)) (by simpa using hm) field
    rw [ht] at this
    simp only [List.map_map, Function.comp_def] at this
    refine this.trans ?_
    congr 2
    refine List.map_congr_left fun q hq => ?_
    rw [hf q hq, mul_comm]
    simp only [total, List.map_map, Function.comp_def]
  have hsum : ∀ q ∈ pts, ∀ i : Fin 3, (bodies.toList.map fun e => e.gravity (vec q)).sum i =
      (bodies.toList.map fun e => (![K.e q e.centerPoint e.sphereMass, K.n q e.centerPoint e.sphereMass,
        K.u q e.centerPoint e.sphereMass] : V3) i).sum := by
    intro q hq i
    rw [sum_apply_map, List.map_congr_left fun e he => by rw [sphere_attraction (h e he) hK (hout q hq e he)]]
  refine ⟨hcall _ _ (K.e, 10 ^ 5) _ h1 (by simp [pointFieldTable]) fun q hq => ?_,
    hcall _ _ (K.n, 10 ^ 5) _ h2 (by simp [pointFieldTable]) fun q hq => ?_,
    hcall _ _ (K.u, -10 ^ 5) _ h3 (by simp [pointFieldTable]) fun q hq => ?_⟩
  · beta_reduce; rw [hsum q hq]; rfl
  · beta_reduce; rw [hsum q hq]; rfl
  · beta_reduce; rw [hsum q hq, neg_mul_comm]; rfl

theorem sphere_magnetization {e : Ellipsoid} (h : e.Sphere) {x : ℝ} (hx : -1 < x)
    (hs : e.HasSusceptibility x) {mu0 : ℝ} {B0 M : V3}
    (hM : M + (e.toSpace (demagInside e.axes)).mulVec ((e.toSpace e.chi).mulVec M) =
        e.remanence + (e.toSpace e.chi).mulVec (inducingH mu0 B0)) :
    M = (1 / (1 + x / 3)) • (x • inducingH mu0 B0 + e.remanence) := by
  have hR := body_proper e
  have hsp : ∀ k : ℝ, e.toSpace (k • (1 : M3)) = k • (1 : M3) := by
    intro k
    unfold Ellipsoid.toSpace
    rw [Matrix.mul_smul, Matrix.smul_mul, Matrix.mul_one, hR.1]
  have hchi : e.chi = x • (1 : M3) := by
    unfold Ellipsoid.chi
    rcases hs with ⟨hs, rfl⟩ | hs <;> rw [hs]
    simp
  have h3 : (1 : ℝ) + x / 3 ≠ 0 := by
    have : (0 : ℝ) < 1 + x / 3 := by linarith
    exact this.ne'
  rw [demagInside_sphere h.valid h.2.1.symm (h.2.1.trans h.2.2.symm), hchi, hsp, hsp] at hM
  simp only [Matrix.smul_mulVec, Matrix.one_mulVec, smul_smul] at hM
  ext i
  have := congrFun hM i
  simp only [Pi.add_apply, Pi.smul_apply, smul_eq_mul] at this ⊢
  rw [one_div, eq_inv_mul_iff_mul_eq₀ h3]
  linarith

theorem sphere_dipole {e : Ellipsoid} (h : e.Sphere) {mu0 : ℝ} {K : MagKernels P3} (hK : K.Dipole mu0)
    {q : P3} (hq : e.a ≤ gap q e.centerPoint) (M : V3) (m : P3)
    (hm : vec m = (4 / 3 * Real.pi * e.a ^ 3) • M) : e.magneticField mu0 M (vec q) =
      ![K.e q e.centerPoint m, K.n q e.centerPoint m, K.u q e.centerPoint m] := by
  have hne := sphere_ne h hq
  rw [hK.e _ _ _ hne, hK.n _ _ _ hne, hK.u _ _ _ hne,
    C81_dipole e h.valid h.2.1.symm (h.2.1.trans h.2.2.symm) mu0 M (vec q) (sphere_outside h hq), ← hm,
    distance_eq_gap, vec_sub_center]
  ext i
  fin_cases i <;> simp [vec, dotProduct, Fin.sum_univ_three] <;> left <;> ring

/-- C107, magnetics: for any spheres with susceptibilities over -1 and points that are not inside of any of
them, `ellipsoid_magnetic` returns the arrays that `dipole_magnetic` returns with dipoles at the centers. -/
theorem C107_magnetic (junk : Junk) (mode : Mode) (mu0 : ℝ) (K : MagKernels P3) (hK : K.Dipole mu0)
    (shape ps : List ℕ) (pts : List P3) (hs : shape.prod = pts.length) (bodies : Bodies) (B0 : V3)
    (x : Ellipsoid → ℝ) (h : ∀ e ∈ bodies.toList, e.Sphere)
    (hx : ∀ e ∈ bodies.toList, e.HasSusceptibility (x e) ∧ -1 < x e)
    (hout : ∀ q ∈ pts, ∀ e ∈ bodies.toList, e.a ≤ gap q e.centerPoint)
    (hm : mode.Full pts.length (6 * bodies.toList.length)) (dis : Bool) :
    let moments := bodies.toList.map fun e => e.sphereMoment mu0 B0 (x e)
    ∃ b_e b_n b_u w, ellipsoidMagnetic mu0 (arrays shape pts) bodies B0 = .ok ((b_e, b_n, b_u), w) ∧
      dipoleMagnetic junk mode K (arrays shape pts) (arrays ps (bodies.toList.map Ellipsoid.centerPoint))
        [moments.map (·.x), moments.map (·.y), moments.map (·.z)] "b" dis = .ok (.vector b_e b_n b_u) := by
  intro moments
  have hpas : ∀ e ∈ bodies.toList, e.Passive := by
    intro e he
    unfold Ellipsoid.Passive
    rcases (hx e he).1 with ⟨h1, -⟩ | h1 <;> rw [h1]
    · trivial
    · exact (hx e he).2
  obtain ⟨M, hM, hret⟩ := returnsMagnetic_sum mu0 bodies
    (fun e he => ⟨(h e he).valid, hpas e he, (h e he).exact⟩) B0
  obtain ⟨w, hw⟩ := hret shape pts hs.symm
  refine ⟨_, _, _, w, hw, ?_⟩
  have hd := dipoleMagnetic_eq junk mode K shape ps pts hs
    (bodies.toList.map fun e => (e.centerPoint, e.sphereMoment mu0 B0 (x e))) (by simpa using hm) "b" dis
  simp only [List.map_map, Function.comp_def] at hd
  simp only [moments, List.map_map, Function.comp_def]
  refine hd.trans ?_
  have hsum : ∀ q ∈ pts, ∀ i : Fin 3, (bodies.toList.map fun e => e.magneticField mu0 (M e) (vec q)).sum i =
      (bodies.toList.map fun e => (![K.e q e.centerPoint (e.sphereMoment mu0 B0 (x e)),
        K.n q e.centerPoint (e.sphereMoment mu0 B0 (x e)),
        K.u q e.centerPoint (e.sphereMoment mu0 B0 (x e))] : V3) i).sum := by
    intro q hq i
    rw [sum_apply_map, List.map_congr_left fun e he => by
      rw [sphere_dipole (h e he) hK (hout q hq e he) (M e) (e.sphereMoment mu0 B0 (x e)) (by
        rw [sphere_magnetization (h e he) (hx e he).2 (hx e he).1 (hM e he)]
        ext i
        fin_cases i <;> rfl)]]
  simp only [magSpec, if_true, hK.field, total, List.map_map, Function.comp_def]
  congr 2 <;> congr 1 <;> refine List.map_congr_left fun q hq => ?_
  · rw [hsum q hq, mul_comm]; rfl
  · rw [hsum q hq, mul_comm]; rfl
  · rw [hsum q hq, mul_comm]; rfl

/-! ### Concrete cases -/

/-- A sphere with density, susceptibility and no remanence, and one with remanence only. -/
def exSpheres : List Ellipsoid :=
  [⟨5, 5, 5, 0, 20, 0, ![0, 0, -10], some 500, some (.scalar 2), none⟩,
   ⟨1, 1, 1, 0, 0, 0, ![0, 0, 2], none, none, some ![1, 2, 3]⟩]

theorem exSpheres_sphere : ∀ e ∈ exSpheres, e.Sphere := by
  intro e he
  simp only [exSpheres, List.mem_cons, List.not_mem_nil, or_false] at he
  rcases he with rfl | rfl <;> norm_num [Ellipsoid.Sphere]

/-- a point over both, and one on the surface of the first -/
theorem exSpheres_outside : ∀ q ∈ [(⟨0, 0, 4⟩ : P3), ⟨3, 4, -10⟩], ∀ e ∈ exSpheres, e.a ≤ gap q e.centerPoint := by
  intro q hq e he
  simp only [exSpheres, List.mem_cons, List.not_mem_nil, or_false] at hq he
  rcases hq with rfl | rfl <;> rcases he with rfl | rfl <;> unfold gap Ellipsoid.centerPoint <;>
    refine Real.le_sqrt_of_sq_le ?_ <;> simp <;> norm_num

/-- C107_gravity -/
example : ∃ g_e g_n g_z w,
    ellipsoidGravity (arrays [2] [⟨0, 0, 4⟩, ⟨3, 4, -10⟩]) (.many exSpheres) = .ok ((g_e, g_n, g_z), w) ∧
    pointGravity (fun _ _ => 0) .serial newtonKernels (arrays [2] [⟨0, 0, 4⟩, ⟨3, 4, -10⟩])
      (arrays [2] [⟨0, 0, -10⟩, ⟨0, 0, 2⟩]) ⟨[2], [4 / 3 * Real.pi * 5 ^ 3 * 500, 4 / 3 * Real.pi * 1 ^ 3 * 0]⟩
      "g_z" "cartesian" = .ok g_z := by
  obtain ⟨g_e, g_n, g_z, w, h, -, -, h3⟩ := C107_gravity (fun _ _ => 0) .serial .serial .serial newtonKernels
    newtonKernels_newtonian [2] [2] [2] [⟨0, 0, 4⟩, ⟨3, 4, -10⟩] (by simp) (.many exSpheres) exSpheres_sphere
    exSpheres_outside trivial trivial trivial
  exact ⟨g_e, g_n, g_z, w, h, h3⟩

/-- C107_magnetic -/
example : ∃ b_e b_n b_u w moments,
    ellipsoidMagnetic 1 (arrays [2] [⟨0, 0, 4⟩, ⟨3, 4, -10⟩]) (.many exSpheres) ![10, 20, 30] =
      .ok ((b_e, b_n, b_u), w) ∧
    dipoleMagnetic (fun _ _ => 0) .serial (dipoleKernels 1) (arrays [2] [⟨0, 0, 4⟩, ⟨3, 4, -10⟩])
      (arrays [2] [⟨0, 0, -10⟩, ⟨0, 0, 2⟩]) moments "b" false = .ok (.vector b_e b_n b_u) := by
  obtain ⟨b_e, b_n, b_u, w, h, h'⟩ := C107_magnetic (fun _ _ => 0) .serial 1 (dipoleKernels 1)
    (dipoleKernels_dipole 1) [2] [2] [⟨0, 0, 4⟩, ⟨3, 4, -10⟩] (by simp) (.many exSpheres) ![10, 20, 30]
    (fun e => if e.susceptibility = none then 0 else 2) exSpheres_sphere (by
      intro e he
      simp only [exSpheres, Bodies.toList, List.mem_cons, List.not_mem_nil, or_false] at he
      rcases he with rfl | rfl <;> simp [Ellipsoid.HasSusceptibility] <;> norm_num)
    exSpheres_outside trivial false
  exact ⟨b_e, b_n, b_u, w, _, h, h'⟩

end Verif.Ellipsoids
