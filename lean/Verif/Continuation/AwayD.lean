import Verif.Continuation.AwayC
import Verif.Ellipsoids.PropsW

/-! The fields of ellipsoids away from them, for C167. -/

namespace Verif.Continuation
open Verif.Forward Verif.Distance Verif.EqSources
open Verif.Engine (Mode)
open Verif.Ellipsoids (Bodies Ellipsoid ReturnsGravity ReturnsMagnetic vec)

/-- All the points of the bodies and of their surfaces are at least `r` away from the points of the region `U`. -/
def Apart (r : ℝ) (U : Set E3) (es : List Ellipsoid) : Prop :=
  ∀ q : P3, cartPos q ∈ U → Ellipsoids.Away r es (vec q)

theorem Off.tame {T U : Set E3} (hT : IsCompact T) (hU : IsClosed U) (h : ∀ t ∈ T, t ∉ U) {f : P3 → ℝ} (hf : Off T f) :
    Tame {q | cartPos q ∈ U} f := by
  obtain ⟨r, hr, hsub⟩ := exists_away hT hU h
  exact (hf r hr).mono fun q hq => hsub q hq

theorem prismPoints_not {A : Type*} {U : Set E3} {srcs : List (Prism × A)}
    (hs : ∀ s ∈ srcs, ∀ x ∈ s.1.body, cartPos (pointAt x) ∉ U) : ∀ t ∈ prismPoints srcs, t ∉ U := by
  intro t ht
  obtain ⟨s, h, x, hx, rfl⟩ := mem_prismPoints.1 ht
  exact hs s h x hx

theorem Tame.limit {W : Set P3} {f : P3 → ℝ} (h : ∀ ε > 0, ∃ g, Tame W g ∧ ∀ q ∈ W, |f q - g q| ≤ ε) : Tame W f := by
  intro ε hε
  obtain ⟨g, h1, h2⟩ := h (ε / 2) (half_pos hε)
  obtain ⟨k, h3, h4⟩ := h1 (ε / 2) (half_pos hε)
  refine ⟨k, h3, fun q hq => ?_⟩
  have := abs_sub_le (f q) (g q) (k q)
  linarith [h2 q hq, h4 q hq]

theorem returnsPrisms_tame {K : PrismKernels} (hK : K.Newtonian) {srcs : List (Prism × ℝ)}
    (hord : ∀ s ∈ srcs, s.1.Ordered) {f : Ellipsoids.V3 → Ellipsoids.V3} (hf : Ellipsoids.ReturnsPrisms K srcs f)
    {U : Set E3} (hU : IsClosed U) (hs : ∀ s ∈ srcs, ∀ x ∈ s.1.body, cartPos (pointAt x) ∉ U) (i : Fin 3) :
    Tame {q | cartPos q ∈ U} fun q => f (vec q) i := by
  have h2 : ∀ field ∈ prismFieldNames, Tame {q | cartPos q ∈ U} (bodyField srcs field) := fun field hf =>
    (prisms_off srcs hord hf).tame (prismPoints_compact srcs) hU (prismPoints_not hs)
  have e : ∀ q : P3, bodyField srcs "g_e" q = f (vec q) 0 * 10 ^ 5 ∧ bodyField srcs "g_n" q = f (vec q) 1 * 10 ^ 5 ∧
      bodyField srcs "g_z" q = -f (vec q) 2 * 10 ^ 5 := by
    intro q
    have g := hf (fun _ _ => 0) .serial [] [q] false rfl (by simp [Mode.Full])
    have k : ∀ field ∈ everywhere, field ∈ prismFieldNames → _ := fun field h h' =>
      prismGravity_body (fun _ _ => 0) .serial hK [] [q] rfl srcs false hord (by simp [Mode.Full]) field h'
        fun _ _ => .inl h
    have k1 := k "g_e" (by simp [everywhere]) (by simp [prismFieldNames])
    have k2 := k "g_n" (by simp [everywhere]) (by simp [prismFieldNames])
    have k3 := k "g_z" (by simp [everywhere]) (by simp [prismFieldNames])
    have k1 := k1.symm.trans g.1
    have k2 := k2.symm.trans g.2.1
    have k3 := k3.symm.trans g.2.2
    simp only [Ellipsoids.gravityResult, List.map_cons, List.map_nil, Except.ok.injEq, NdArray.mk.injEq,
      List.cons.injEq, and_true, true_and] at k1 k2 k3
    exact ⟨k1, k2, k3⟩
  fin_cases i
  · refine ((h2 "g_e" (by simp [prismFieldNames])).smul (1 / 10 ^ 5)).congr fun q _ => ?_
    rw [(e q).1]
    ring_nf
    rfl
  · refine ((h2 "g_n" (by simp [prismFieldNames])).smul (1 / 10 ^ 5)).congr fun q _ => ?_
    rw [(e q).2.1]
    ring_nf
    rfl
  · refine ((h2 "g_z" (by simp [prismFieldNames])).smul (-1 / 10 ^ 5)).congr fun q _ => ?_
    rw [(e q).2.2]
    ring_nf
    rfl

theorem returnsPrismsMag_tame {mu0 : ℝ} {K : MagKernels Prism} (hK : K.Magnetized mu0) {srcs : List (Prism × P3)}
    (hord : ∀ s ∈ srcs, s.1.Ordered) {f : Ellipsoids.V3 → Ellipsoids.V3} (hf : Ellipsoids.ReturnsPrismsMag K srcs f)
    {U : Set E3} (hU : IsClosed U) (hs : ∀ s ∈ srcs, ∀ x ∈ s.1.body, cartPos (pointAt x) ∉ U) (i : Fin 3) :
    Tame {q | cartPos q ∈ U} fun q => f (vec q) i := by
  obtain ⟨B, h1, h2⟩ := magnets_off (fun _ _ => 0) hK srcs hord
  have h2 : ∀ part ∈ [P3.x, P3.y, P3.z], Tame {q | cartPos q ∈ U} fun q => part (B q) := fun part hp =>
    (h2 part hp).tame (prismPoints_compact srcs) hU (prismPoints_not hs)
  have e : ∀ q : P3, cartPos q ∈ U → (B q).x = 10 ^ 9 * f (vec q) 0 ∧ (B q).y = 10 ^ 9 * f (vec q) 1 ∧
      (B q).z = 10 ^ 9 * f (vec q) 2 := by
    intro q hq
    have out : ∀ q' ∈ [q], ∀ s ∈ srcs, coords q' ∉ s.1.body := by
      intro q' hq' s h hin
      rw [List.mem_singleton] at hq'
      subst hq'
      exact hs s h _ hin hq
    have g := hf (fun _ _ => 0) .serial [] [q] false rfl (by simp [Mode.Full]) out
    have k := (h1 .serial [] [q] false rfl (by simp [Mode.Full]) out).symm.trans g
    simp only [Ellipsoids.magneticResult, List.map_cons, List.map_nil, Except.ok.injEq, NdArray.mk.injEq,
      List.cons.injEq, and_true, true_and, MagResult.vector.injEq] at k
    exact k
  fin_cases i
  · refine ((h2 P3.x (by simp)).smul (1 / 10 ^ 9)).congr fun q hq => ?_
    rw [(e q hq).1]
    ring_nf
    rfl
  · refine ((h2 P3.y (by simp)).smul (1 / 10 ^ 9)).congr fun q hq => ?_
    rw [(e q hq).2.1]
    ring_nf
    rfl
  · refine ((h2 P3.z (by simp)).smul (1 / 10 ^ 9)).congr fun q hq => ?_
    rw [(e q hq).2.2]
    ring_nf
    rfl

open Verif.Ellipsoids in
theorem rocks_clear {es : List Ellipsoid} {r w : ℝ} {U : Set E3} (hb : Apart r U es) (hw : 0 < w) (hwr : w ≤ r) (n : ℕ) :
    ∀ s ∈ rocks es w n, ∀ x ∈ s.1.body, cartPos (pointAt x) ∉ U := by
  classical
  intro s hs x hx hU
  obtain ⟨hs1, hs2⟩ := List.mem_filter.1 hs
  obtain ⟨c, -, rfl⟩ := List.mem_map.1 hs1
  have hd : densityOf es (voxelCenter w c) ≠ 0 := by simpa using hs2
  obtain ⟨e, he, hin⟩ : ∃ e ∈ es, e.Inside (voxelCenter w c) := by
    by_contra hn
    push Not at hn
    refine hd (List.sum_eq_zero fun v hv => ?_)
    obtain ⟨e, he, rfl⟩ := List.mem_map.1 hv
    exact if_neg (hn e he)
  have h2 := hb _ hU e he _ (.inl hin)
  obtain ⟨⟨x1, x2⟩, ⟨x3, x4⟩, x5, x6⟩ := hx
  have x1 : c.1 * w ≤ x.1 := x1
  have x2 : x.1 ≤ (c.1 + 1) * w := x2
  have x3 : c.2.1 * w ≤ x.2.1 := x3
  have x4 : x.2.1 ≤ (c.2.1 + 1) * w := x4
  have x5 : c.2.2 * w ≤ x.2.2 := x5
  have x6 : x.2.2 ≤ (c.2.2 + 1) * w := x6
  have e0 : (voxelCenter w c - vec (pointAt x)) 0 = (c.1 + 1 / 2) * w - x.1 := rfl
  have e1 : (voxelCenter w c - vec (pointAt x)) 1 = (c.2.1 + 1 / 2) * w - x.2.1 := rfl
  have e2 : (voxelCenter w c - vec (pointAt x)) 2 = (c.2.2 + 1 / 2) * w - x.2.2 := rfl
  have sq : ∀ a : ℝ, ∀ k : ℝ, k * w ≤ a → a ≤ (k + 1) * w → ((k + 1 / 2) * w - a) ^ 2 ≤ w ^ 2 / 4 := by
    intro a k h1 h2
    have : |(k + 1 / 2) * w - a| ≤ w / 2 := abs_le.2 ⟨by linarith, by linarith⟩
    have := sq_le_sq' (by linarith [(abs_le.1 this).1]) (abs_le.1 this).2
    nlinarith
  have hm : magnitude (voxelCenter w c - vec (pointAt x)) < w := by
    unfold magnitude
    rw [Real.sqrt_lt' hw, Fin.sum_univ_three, e0, e1, e2]
    nlinarith [sq _ _ x1 x2, sq _ _ x3 x4, sq _ _ x5 x6]
  linarith

open Verif.Ellipsoids in
theorem ellipsoid_gravity_tame {bodies : Bodies} (h : ∀ e ∈ bodies.toList, e.Valid ∧ e.Exact)
    {field : Ellipsoids.V3 → Ellipsoids.V3} (hret : ReturnsGravity bodies field) {r : ℝ} (hr : 0 < r) {U : Set E3}
    (hU : IsClosed U) (hb : Apart r U bodies.toList) (i : Fin 3) :
    Tame {q | cartPos q ∈ U} fun q => field (vec q) i := by
  refine .limit fun ε hε => ?_
  set A : ℝ := 6.6743e-11 * (24 * (bodies.toList.map fun e => |e.density.getD 0|).sum) with hA
  have hA0 : 0 ≤ A := by
    have : 0 ≤ (bodies.toList.map fun e => |e.density.getD 0|).sum := List.sum_nonneg fun x hx => by
      obtain ⟨e, -, rfl⟩ := List.mem_map.1 hx
      exact abs_nonneg _
    positivity
  set R : ℝ := ε / (A + 1) with hR
  have hR0 : 0 < R := by positivity
  have h0 : samplingError bodies.toList 0 R < ε := by
    rw [samplingError_zero, ← hA, hR, mul_div_assoc', div_lt_iff₀ (by positivity)]
    nlinarith
  obtain ⟨d, d0, hd⟩ := Metric.eventually_nhds_iff.1
    (((samplingError_continuous bodies.toList R).tendsto 0).eventually (gt_mem_nhds h0))
  obtain ⟨b, b0, hbd⟩ := bodies_bounded fun e he => (h e he).1
  set w := min (d / 2) r with hwd
  have hw : 0 < w := lt_min (half_pos d0) hr
  obtain ⟨n, hn⟩ := exists_nat_ge (b / w)
  have hs : SampledBy w bodies.toList (rocks bodies.toList w n) := by
    have := voxels_sampled (es := bodies.toList) hw (n := n) fun x hx => hbd x (by
      rw [div_le_iff₀ hw] at hn
      linarith)
    unfold SampledBy at this ⊢
    simpa only [rocks_density] using this
  have hord : ∀ s ∈ rocks bodies.toList w n, s.1.Ordered := fun s hs =>
    voxels_ordered _ hw n s (List.mem_of_mem_filter hs)
  obtain ⟨f, g, h1, h2, h3⟩ := C151_prisms bodyKernels_newtonian bodies h _ hord hw.le hs
  refine ⟨_, returnsPrisms_tame bodyKernels_newtonian hord h1 hU (rocks_clear hb hw (min_le_right _ _) n) i,
    fun q _ => ?_⟩
  rw [returnsGravity_unique hret h2, abs_sub_comm]
  refine (h3 R hR0 (vec q) i).trans (hd ?_).le
  rw [Real.dist_eq, sub_zero, abs_of_pos hw]
  have := min_le_left (d / 2) r
  linarith

open Verif.Ellipsoids in
theorem ellipsoid_magnetic_tame {mu0 : ℝ} {bodies : Bodies} (h : ∀ e ∈ bodies.toList, e.Valid ∧ e.Passive ∧ e.Exact)
    {B0 : Ellipsoids.V3} {field : Ellipsoids.V3 → Ellipsoids.V3} (hret : ReturnsMagnetic mu0 bodies B0 field) {r : ℝ}
    (hr : 0 < r) {U : Set E3} (hU : IsClosed U) (hb : Apart r U bodies.toList) (i : Fin 3) :
    Tame {q | cartPos q ∈ U} fun q => field (vec q) i := by
  refine .limit fun ε hε => ?_
  obtain ⟨M, field', -, h1, h2⟩ := C153_voxels (bodyMagKernels_magnetized mu0) bodies h B0
  rw [returnsMagnetic_unique hret h1]
  obtain ⟨w, hw, h3⟩ := h2 r hr ε hε
  obtain ⟨n, h4⟩ := h3 w hw le_rfl
  obtain ⟨f, h5, h6⟩ := h4 n le_rfl
  refine ⟨_, returnsPrismsMag_tame (bodyMagKernels_magnetized mu0) (magVoxels_ordered bodies.toList M hw n) h5 hU
    (fun s hs x hx hin => (h6 (vec (pointAt x)) (hb _ hin)).1 s hs hx) i, fun q hq => ?_⟩
  rw [abs_sub_comm]
  exact (h6 (vec q) (hb q hq)).2 i

/-- The position in space of a vector of the model of ellipsoids. -/
noncomputable def place (v : Ellipsoids.V3) : E3 := cartPos ⟨v 0, v 1, v 2⟩

open Verif.Ellipsoids in
theorem solid_compact {e : Ellipsoid} (h : e.Valid) : IsCompact {v : Ellipsoids.V3 | quadric e.a e.b e.c v ≤ 1} := by
  obtain ⟨ha, hb, hc⟩ := h
  refine (isCompact_Icc (a := (![-e.a, -e.b, -e.c] : Fin 3 → ℝ)) (b := ![e.a, e.b, e.c])).of_isClosed_subset
    (isClosed_le (by unfold quadric; fun_prop) continuous_const) fun v hv => ?_
  have hv : v 0 ^ 2 / e.a ^ 2 + v 1 ^ 2 / e.b ^ 2 + v 2 ^ 2 / e.c ^ 2 ≤ 1 := hv
  have h0 : 0 ≤ v 0 ^ 2 / e.a ^ 2 := by positivity
  have h1 : 0 ≤ v 1 ^ 2 / e.b ^ 2 := by positivity
  have h2 : 0 ≤ v 2 ^ 2 / e.c ^ 2 := by positivity
  have key : ∀ x a : ℝ, 0 < a → x ^ 2 / a ^ 2 ≤ 1 → -a ≤ x ∧ x ≤ a := fun x a ha hx => by
    rw [div_le_one (by positivity)] at hx
    exact abs_le.1 (abs_le_of_sq_le_sq hx ha.le)
  have k0 := key (v 0) e.a ha (by linarith)
  have k1 := key (v 1) e.b hb (by linarith)
  have k2 := key (v 2) e.c hc (by linarith)
  constructor
  · intro i
    fin_cases i
    exacts [k0.1, k1.1, k2.1]
  · intro i
    fin_cases i
    exacts [k0.2, k1.2, k2.2]

open Verif.Ellipsoids in
theorem apart_of {es : List Ellipsoid} (h : ∀ e ∈ es, e.Valid) {U : Set E3} (hU : IsClosed U)
    (hout : ∀ e ∈ es, ∀ q : P3, e.Inside (vec q) ∨ e.OnSurface (vec q) → cartPos q ∉ U) : ∃ r > 0, Apart r U es := by
  set T : Set E3 := ⋃ e ∈ {e | e ∈ es}, (fun v => place (e.rotationMatrix.mulVec v + e.center)) ''
    {v : Ellipsoids.V3 | quadric e.a e.b e.c v ≤ 1} with hT
  have hc : IsCompact T := (List.finite_toSet es).isCompact_biUnion fun e he => (solid_compact (h e he)).image (by
    unfold place cartPos Matrix.mulVec dotProduct
    fun_prop)
  have in_or : ∀ e : Ellipsoid, ∀ p, e.Inside p ∨ e.OnSurface p ↔
      ∃ v, p = e.rotationMatrix.mulVec v + e.center ∧ quadric e.a e.b e.c v ≤ 1 := by
    intro e p
    constructor
    · rintro (⟨v, h1, h2⟩ | ⟨v, h1, h2⟩)
      exacts [⟨v, h1, h2.le⟩, ⟨v, h1, h2.le⟩]
    · rintro ⟨v, h1, h2⟩
      rcases h2.lt_or_eq with h2 | h2
      exacts [.inl ⟨v, h1, h2⟩, .inr ⟨v, h1, h2⟩]
  obtain ⟨r, hr, hsub⟩ := exists_away hc hU (by
    intro t ht
    simp only [hT, Set.mem_iUnion] at ht
    obtain ⟨e, he, v, hv, rfl⟩ := ht
    refine hout e he _ ((in_or _ _).2 ⟨v, ?_, hv⟩)
    rw [vec_of])
  refine ⟨r, hr, fun q hq e he x hx => ?_⟩
  obtain ⟨v, rfl, hv⟩ := (in_or _ _).1 hx
  have := hsub q hq (place (e.rotationMatrix.mulVec v + e.center)) (by
    simp only [hT, Set.mem_iUnion]
    exact ⟨e, he, v, hv, rfl⟩)
  refine this.trans (le_of_eq ?_)
  unfold place magnitude
  rw [dist_comm, dist_cartPos, Fin.sum_univ_three]
  rfl

end Verif.Continuation
