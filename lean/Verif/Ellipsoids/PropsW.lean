import Verif.Ellipsoids.PropsS
import Verif.Forward.PropsS

/-! C164 for ellipsoids: over a plane above the bodies, no component of the fields exceeds what it is on the plane. -/

namespace Verif.Ellipsoids
open MeasureTheory Set Verif.Distance Verif.Engine
open Verif.Forward (arrays Prism PrismKernels MagKernels prismMagnetic Junk coords prismFieldNames everywhere Allowed
  bodyKernels bodyKernels_newtonian bodyMagKernels bodyMagKernels_magnetized Good prisms_good magnets_good)

/-! ### Specification -/

/-- All the points of the bodies and of their surfaces are at least `r` under the height `z`. -/
def Below (r z : ℝ) (es : List Ellipsoid) : Prop :=
  ∀ e ∈ es, ∀ x, e.Inside x ∨ e.OnSurface x → x 2 + r ≤ z

/-- The component `i` of a field is, at the height `z` or over it, not larger in size than on the plane at that
height. -/
def BoundedByPlane (z : ℝ) (field : V3 → V3) (i : Fin 3) : Prop :=
  ∀ M, (∀ p : V3, p 2 = z → |field p i| ≤ M) → ∀ p : V3, z ≤ p 2 → |field p i| ≤ M

/-! ### Prisms -/

theorem vec_of (p : V3) : vec ⟨p 0, p 1, p 2⟩ = p := by
  funext k
  fin_cases k <;> rfl

theorem Good.bounded {z : ℝ} {f : V3 → V3} {i : Fin 3} (h : Good z fun q => f (vec q) i) : BoundedByPlane z f i := by
  intro M hM p hp
  have := h.apply (M := M) (fun q hq => hM (vec q) hq) ⟨p 0, p 1, p 2⟩ hp
  rwa [vec_of] at this

theorem returnsPrisms_good {K : PrismKernels} (hK : K.Newtonian) {srcs : List (Prism × ℝ)}
    (hord : ∀ s ∈ srcs, s.1.Ordered) {f : V3 → V3} (hf : ReturnsPrisms K srcs f) {z : ℝ}
    (hz : ∀ s ∈ srcs, s.1.top < z) (i : Fin 3) : Good z fun q => f (vec q) i := by
  obtain ⟨F, h1, h2⟩ := prisms_good (fun _ _ => 0) hK srcs hord
  have e : ∀ q : P3, F "g_e" q = f (vec q) 0 * 10 ^ 5 ∧ F "g_n" q = f (vec q) 1 * 10 ^ 5 ∧
      F "g_z" q = -f (vec q) 2 * 10 ^ 5 := by
    intro q
    have g := hf (fun _ _ => 0) .serial [] [q] false rfl (by simp [Mode.Full])
    have k : ∀ field ∈ everywhere, field ∈ prismFieldNames → _ := fun field h h' =>
      h1 field h' .serial [] [q] false rfl (by simp [Mode.Full]) fun _ _ => .inl h
    have k1 := k "g_e" (by simp [everywhere]) (by simp [prismFieldNames])
    have k2 := k "g_n" (by simp [everywhere]) (by simp [prismFieldNames])
    have k3 := k "g_z" (by simp [everywhere]) (by simp [prismFieldNames])
    have k1 := k1.symm.trans g.1
    have k2 := k2.symm.trans g.2.1
    have k3 := k3.symm.trans g.2.2
    simp only [gravityResult, List.map_cons, List.map_nil, Except.ok.injEq, Verif.Forward.NdArray.mk.injEq,
      List.cons.injEq, and_true, true_and] at k1 k2 k3
    exact ⟨k1, k2, k3⟩
  fin_cases i
  · refine ((h2 "g_e" (by simp [prismFieldNames]) z hz).smul (1 / 10 ^ 5)).congr fun q _ => ?_
    rw [(e q).1]
    ring_nf
    rfl
  · refine ((h2 "g_n" (by simp [prismFieldNames]) z hz).smul (1 / 10 ^ 5)).congr fun q _ => ?_
    rw [(e q).2.1]
    ring_nf
    rfl
  · refine ((h2 "g_z" (by simp [prismFieldNames]) z hz).smul (-1 / 10 ^ 5)).congr fun q _ => ?_
    rw [(e q).2.2]
    ring_nf
    rfl

theorem returnsPrismsMag_good {mu0 : ℝ} {K : MagKernels Prism} (hK : K.Magnetized mu0) {srcs : List (Prism × P3)}
    (hord : ∀ s ∈ srcs, s.1.Ordered) {f : V3 → V3} (hf : ReturnsPrismsMag K srcs f) {z : ℝ}
    (hz : ∀ s ∈ srcs, s.1.top < z) (i : Fin 3) : Good z fun q => f (vec q) i := by
  obtain ⟨B, h1, h2⟩ := magnets_good (fun _ _ => 0) hK srcs hord
  have e : ∀ q : P3, z ≤ q.z → (B q).x = 10 ^ 9 * f (vec q) 0 ∧ (B q).y = 10 ^ 9 * f (vec q) 1 ∧
      (B q).z = 10 ^ 9 * f (vec q) 2 := by
    intro q hq
    have out : ∀ q' ∈ [q], ∀ s ∈ srcs, coords q' ∉ s.1.body := by
      intro q' hq' s hs hin
      rw [List.mem_singleton] at hq'
      subst hq'
      have := hin.2.2.2
      have := hz s hs
      simp only [coords] at *
      linarith
    have g := hf (fun _ _ => 0) .serial [] [q] false rfl (by simp [Mode.Full]) out
    have k := (h1 .serial [] [q] false rfl (by simp [Mode.Full]) out).symm.trans g
    simp only [magneticResult, List.map_cons, List.map_nil, Except.ok.injEq, Verif.Forward.NdArray.mk.injEq,
      List.cons.injEq, and_true, true_and, Verif.Forward.MagResult.vector.injEq] at k
    exact k
  fin_cases i
  · refine ((h2 P3.x (by simp) z hz).smul (1 / 10 ^ 9)).congr fun q hq => ?_
    rw [(e q hq).1]
    ring_nf
    rfl
  · refine ((h2 P3.y (by simp) z hz).smul (1 / 10 ^ 9)).congr fun q hq => ?_
    rw [(e q hq).2.1]
    ring_nf
    rfl
  · refine ((h2 P3.z (by simp) z hz).smul (1 / 10 ^ 9)).congr fun q hq => ?_
    rw [(e q hq).2.2]
    ring_nf
    rfl

/-! ### Cubes -/

open Classical in
/-- The cubes of a model that have a density. -/
noncomputable def rocks (es : List Ellipsoid) (w : ℝ) (n : ℕ) : List (Prism × ℝ) :=
  (voxels es w n).filter fun s => s.2 ≠ 0

theorem rocks_density (es : List Ellipsoid) (w : ℝ) (n : ℕ) (x : V3) :
    prismDensity (rocks es w n) x = prismDensity (voxels es w n) x := by
  classical
  unfold prismDensity Verif.Forward.densityAt rocks
  induction voxels es w n with
  | nil => simp
  | cons s l ih =>
    rw [List.map_cons, List.sum_cons, ← ih, List.filter_cons]
    split_ifs with hz
    · rw [List.map_cons, List.sum_cons]
    · have h0 : s.2 = 0 := by simpa using hz
      rw [h0]
      simp

theorem rocks_top {es : List Ellipsoid} {r z w : ℝ} (hb : Below r z es) (hw : 0 < w) (hwr : w ≤ r) (n : ℕ) :
    ∀ s ∈ rocks es w n, s.1.top < z := by
  classical
  intro s hs
  obtain ⟨hs1, hs2⟩ := List.mem_filter.1 hs
  obtain ⟨c, -, rfl⟩ := List.mem_map.1 hs1
  have hd : densityOf es (voxelCenter w c) ≠ 0 := by simpa using hs2
  obtain ⟨e, he, hin⟩ : ∃ e ∈ es, e.Inside (voxelCenter w c) := by
    by_contra hn
    push Not at hn
    refine hd (List.sum_eq_zero fun v hv => ?_)
    obtain ⟨e, he, rfl⟩ := List.mem_map.1 hv
    exact if_neg (hn e he)
  have h2 := hb e he _ (.inl hin)
  have e2 : voxelCenter w c 2 = (c.2.2 + 1 / 2) * w := rfl
  rw [e2] at h2
  show (c.2.2 + 1) * w < z
  linarith

theorem ellipsoid_gravity_good {bodies : Bodies} (h : ∀ e ∈ bodies.toList, e.Valid ∧ e.Exact) {field : V3 → V3}
    (hret : ReturnsGravity bodies field) {r : ℝ} (hr : 0 < r) {z : ℝ} (hb : Below r z bodies.toList) (i : Fin 3) :
    Good z fun q => field (vec q) i := by
  refine .limit fun ε hε => ?_
  set A : ℝ := 6.6743e-11 * (24 * (bodies.toList.map fun e => |e.density.getD 0|).sum) with hA
  have hA0 : 0 ≤ A := by
    have : 0 ≤ (bodies.toList.map fun e => |e.density.getD 0|).sum := List.sum_nonneg fun x hx => by
      obtain ⟨e, -, rfl⟩ := List.mem_map.1 hx
      exact abs_nonneg _
    positivity
  set R : ℝ := ε / (A + 1) with hR
  have hR0 : 0 < R := by positivity
  have h0 : samplingError bodies.toList 0 R < ε := by
    rw [samplingError_zero, ← hA, hR, mul_div_assoc', div_lt_iff₀ (by positivity)]
    nlinarith
  obtain ⟨d, d0, hd⟩ := Metric.eventually_nhds_iff.1
    (((samplingError_continuous bodies.toList R).tendsto 0).eventually (gt_mem_nhds h0))
  obtain ⟨b, b0, hbd⟩ := bodies_bounded fun e he => (h e he).1
  set w := min (d / 2) r with hwd
  have hw : 0 < w := lt_min (half_pos d0) hr
  obtain ⟨n, hn⟩ := exists_nat_ge (b / w)
  have hs : SampledBy w bodies.toList (rocks bodies.toList w n) := by
    have := voxels_sampled (es := bodies.toList) hw (n := n) fun x hx => hbd x (by
      rw [div_le_iff₀ hw] at hn
      linarith)
    unfold SampledBy at this ⊢
    simpa only [rocks_density] using this
  have hord : ∀ s ∈ rocks bodies.toList w n, s.1.Ordered := fun s hs =>
    voxels_ordered _ hw n s (List.mem_of_mem_filter hs)
  obtain ⟨f, g, h1, h2, h3⟩ := C151_prisms bodyKernels_newtonian bodies h _ hord hw.le hs
  refine ⟨_, returnsPrisms_good bodyKernels_newtonian hord h1 (rocks_top hb hw (min_le_right _ _) n) i, fun q _ => ?_⟩
  rw [returnsGravity_unique hret h2, abs_sub_comm]
  refine (h3 R hR0 (vec q) i).trans (hd ?_).le
  rw [Real.dist_eq, sub_zero, abs_of_pos hw]
  have := min_le_left (d / 2) r
  linarith

theorem ellipsoid_magnetic_good {mu0 : ℝ} {bodies : Bodies} (h : ∀ e ∈ bodies.toList, e.Valid ∧ e.Passive ∧ e.Exact)
    {B0 : V3} {field : V3 → V3} (hret : ReturnsMagnetic mu0 bodies B0 field) {r : ℝ} (hr : 0 < r) {z : ℝ}
    (hb : Below r z bodies.toList) (i : Fin 3) : Good z fun q => field (vec q) i := by
  refine .limit fun ε hε => ?_
  obtain ⟨M, field', -, h1, h2⟩ := C153_voxels (bodyMagKernels_magnetized mu0) bodies h B0
  rw [returnsMagnetic_unique hret h1]
  obtain ⟨w, hw, h3⟩ := h2 r hr ε hε
  obtain ⟨n, h4⟩ := h3 w hw le_rfl
  obtain ⟨f, h5, h6⟩ := h4 n le_rfl
  have away : ∀ p : V3, z ≤ p 2 → Away r bodies.toList p := by
    intro p hp e he x hx
    have := hb e he x hx
    have h2 := abs_le_magnitude (x - p) 2
    rw [Pi.sub_apply, abs_sub_comm] at h2
    linarith [le_abs_self (p 2 - x 2)]
  have hord := magVoxels_ordered bodies.toList M hw n
  refine ⟨_, returnsPrismsMag_good (bodyMagKernels_magnetized mu0) hord h5 (fun s hs => ?_) i, fun q hq => by
    rw [abs_sub_comm]
    exact (h6 (vec q) (away (vec q) hq)).2 i⟩
  by_contra hc
  push Not at hc
  obtain ⟨o1, o2, o3⟩ := hord s hs
  refine (h6 ![s.1.west, s.1.south, s.1.top] (away _ hc)).1 s hs ?_
  exact ⟨⟨le_rfl, o1⟩, ⟨le_rfl, o2⟩, ⟨o3, le_rfl⟩⟩

/-! ### C164 -/

/-- C164, ellipsoids: over a plane above all the bodies, no component of the gravity that `ellipsoid_gravity` returns
is larger in size than the largest size that it has on the plane. -/
theorem C164_ellipsoid_gravity (bodies : Bodies) (h : ∀ e ∈ bodies.toList, e.Valid ∧ e.Exact) :
    ∃ field : V3 → V3, ReturnsGravity bodies field ∧
      ∀ r > 0, ∀ z, Below r z bodies.toList → ∀ i, BoundedByPlane z field i := by
  have hret : ReturnsGravity bodies (newtonField (densityOf bodies.toList)) := fun shape pts hs =>
    ⟨_, C149_newton shape pts hs bodies h⟩
  exact ⟨_, hret, fun r hr z hb i => Good.bounded (ellipsoid_gravity_good h hret hr hb i)⟩

/-- C164, magnetized ellipsoids: the same for the magnetic field that `ellipsoid_magnetic` returns. -/
theorem C164_ellipsoid_magnetic (mu0 : ℝ) (bodies : Bodies)
    (h : ∀ e ∈ bodies.toList, e.Valid ∧ e.Passive ∧ e.Exact) (B0 : V3) :
    ∃ field : V3 → V3, ReturnsMagnetic mu0 bodies B0 field ∧
      ∀ r > 0, ∀ z, Below r z bodies.toList → ∀ i, BoundedByPlane z field i := by
  obtain ⟨M, field, -, h1, h2⟩ := C153_voxels (bodyMagKernels_magnetized mu0) bodies h B0
  exact ⟨_, h1, fun r hr z hb i => Good.bounded (ellipsoid_magnetic_good h h1 hr hb i)⟩

/-! ### Examples -/

theorem skewBody_below : Below 1 10 [skewBody] := by
  intro e he x hx
  simp only [List.mem_singleton] at he
  subst he
  have hR : skewBody.rotationMatrix = 1 := C71_identity
  have hl : skewBody.local x = x := by
    unfold Ellipsoid.local
    rw [hR]
    simp [skewBody]
  rw [inside_iff, onSurface_iff, hl] at hx
  have hq : quadric 5 4 4 x ≤ 1 := hx.elim le_of_lt le_of_eq
  unfold quadric at hq
  have h0 : x 2 ^ 2 ≤ 4 ^ 2 := by nlinarith [sq_nonneg (x 0), sq_nonneg (x 1)]
  have h1 := (abs_le.1 (abs_le_of_sq_le_sq h0 (by norm_num))).2
  linarith

example (mu0 : ℝ) (B0 : V3) : ∃ field : V3 → V3, ReturnsMagnetic mu0 (.one skewBody) B0 field ∧
    ∀ M, (∀ p : V3, p 2 = 10 → |field p 0| ≤ M) → |field ![0, 0, 100] 0| ≤ M := by
  obtain ⟨field, h1, h2⟩ := C164_ellipsoid_magnetic mu0 (.one skewBody) (by
    intro e he
    simp only [Bodies.toList, List.mem_singleton] at he
    subst he
    exact ⟨(C68_not_full 1 one_ne_zero).1, skewBody_passive, skewBody_exact⟩) B0
  exact ⟨field, h1, fun M hM => h2 1 one_pos 10 skewBody_below 0 M hM _ (show (10 : ℝ) ≤ 100 by norm_num)⟩

/-- The same body with a density. -/
noncomputable def heavyBody : Ellipsoid := { skewBody with density := some 2670 }

example : ∃ field : V3 → V3, ReturnsGravity (.one heavyBody) field ∧
    ∀ M, (∀ p : V3, p 2 = 10 → |field p 2| ≤ M) → |field ![0, 0, 100] 2| ≤ M := by
  obtain ⟨field, h1, h2⟩ := C164_ellipsoid_gravity (.one heavyBody) (by
    intro e he
    simp only [Bodies.toList, List.mem_singleton] at he
    subst he
    exact ⟨(C68_not_full 1 one_ne_zero).1, skewBody_exact⟩)
  exact ⟨field, h1, fun M hM => h2 1 one_pos 10 (fun e he x hx => by
    simp only [Bodies.toList, List.mem_singleton] at he
    subst he
    exact skewBody_below skewBody (by simp) x hx) 2 M hM _ (show (10 : ℝ) ≤ 100 by norm_num)⟩

end Verif.Ellipsoids
