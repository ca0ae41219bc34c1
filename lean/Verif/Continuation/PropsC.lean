import Verif.Continuation.AwayD
import Verif.Continuation.PropsB
import Verif.Continuation.Props
import Verif.Utils.Model

/-! C167: all the fields of prisms, point masses, magnetized prisms, dipoles, ellipsoids and equivalent sources in a closed
region without sources, or over an uneven surface, are bounded by those on the frontier of the region. -/

namespace Verif.Continuation
open Verif.Forward Verif.Engine Verif.Distance Verif.EqSources
open Verif.Ellipsoids (Bodies ReturnsGravity ReturnsMagnetic vec)

/-! ### Specification -/

/-- The fields that the functions of harmonica return for sources without a point in the region `U`, and the sums and
multiples of them. The components of the gravity of ellipsoids are in m/s² (the last one upward) and those of their
magnetic field in T; the other fields are as they are returned. -/
inductive Clear (U : Set E3) : (P3 → ℝ) → Prop
  /-- `prism_gravity` -/
  | prisms {junk : Junk} {K : PrismKernels} {srcs : List (Prism × ℝ)} {F : String → P3 → ℝ} {field : String} :
      K.Newtonian → (∀ s ∈ srcs, s.1.Ordered ∧ ∀ x ∈ s.1.body, cartPos (pointAt x) ∉ U) → PrismsReturn junk K srcs F →
      field ∈ prismFieldNames → Clear U (F field)
  /-- `point_gravity` in Cartesian coordinates -/
  | points {junk : Junk} {K : PointKernels} {srcs : List (P3 × ℝ)} {F : String → P3 → ℝ} {field : String} :
      K.Newtonian → (∀ s ∈ srcs, cartPos s.1 ∉ U) → PointsReturn junk K srcs F → field ∈ prismFieldNames →
      Clear U (F field)
  /-- `prism_magnetic` -/
  | magnets {junk : Junk} {mu0 : ℝ} {K : MagKernels Prism} {srcs : List (Prism × V3)} {B : P3 → V3} {part : P3 → ℝ} :
      K.Magnetized mu0 → (∀ s ∈ srcs, s.1.Ordered ∧ ∀ x ∈ s.1.body, cartPos (pointAt x) ∉ U) →
      MagnetsReturn junk K srcs B → part ∈ [P3.x, P3.y, P3.z] → Clear U fun q => part (B q)
  /-- `dipole_magnetic` -/
  | dipoles {junk : Junk} {mu0 : ℝ} {K : MagKernels P3} {srcs : List (P3 × V3)} {B : P3 → V3} {part : P3 → ℝ} :
      K.Dipole mu0 → (∀ s ∈ srcs, cartPos s.1 ∉ U) → DipolesReturn junk K srcs B →
      part ∈ [P3.x, P3.y, P3.z] → Clear U fun q => part (B q)
  /-- `ellipsoid_gravity` -/
  | ellipsoids {bodies : Bodies} {field : Ellipsoids.V3 → Ellipsoids.V3} {i : Fin 3} :
      (∀ e ∈ bodies.toList, e.Valid ∧ e.Exact) →
      (∀ e ∈ bodies.toList, ∀ q : P3, e.Inside (vec q) ∨ e.OnSurface (vec q) → cartPos q ∉ U) →
      ReturnsGravity bodies field → Clear U fun q => field (vec q) i
  /-- `ellipsoid_magnetic` -/
  | magnetic_ellipsoids {mu0 : ℝ} {bodies : Bodies} {B0 : Ellipsoids.V3} {field : Ellipsoids.V3 → Ellipsoids.V3}
      {i : Fin 3} :
      (∀ e ∈ bodies.toList, e.Valid ∧ e.Passive ∧ e.Exact) →
      (∀ e ∈ bodies.toList, ∀ q : P3, e.Inside (vec q) ∨ e.OnSurface (vec q) → cartPos q ∉ U) →
      ReturnsMagnetic mu0 bodies B0 field → Clear U fun q => field (vec q) i
  /-- `EquivalentSources.predict` -/
  | sources {junk : Junk} {P : Params} {srcs : List (P3 × ℝ)} {V : P3 → ℝ} :
      P.dtype.IsFloat → (∀ s ∈ srcs, cartPos s.1 ∉ U) → Predicts junk P srcs V → Clear U V
  | sum {f g : P3 → ℝ} : Clear U f → Clear U g → Clear U fun q => f q + g q
  | times {f : P3 → ℝ} (c : ℝ) : Clear U f → Clear U fun q => c * f q

/-! ### Lemmas -/

theorem listPoints_not {A : Type*} {U : Set E3} {srcs : List (P3 × A)}
    (hs : ∀ s ∈ srcs, cartPos s.1 ∉ U) : ∀ t ∈ listPoints srcs, t ∉ U := by
  intro t ht
  obtain ⟨s, h, rfl⟩ := mem_listPoints.1 ht
  exact hs s h

theorem clear_outside {A : Type*} {U : Set E3} {srcs : List (Prism × A)}
    (hs : ∀ s ∈ srcs, ∀ x ∈ s.1.body, cartPos (pointAt x) ∉ U) {q : P3} (hq : cartPos q ∈ U) :
    ∀ q' ∈ [q], ∀ s ∈ srcs, coords q' ∉ s.1.body := by
  intro q' hq' s h hin
  rw [List.mem_singleton] at hq'
  subst hq'
  exact hs s h _ hin hq

theorem sources_off (srcs : List (P3 × ℝ)) : Off (listPoints srcs) (field cartPos srcs) := by
  intro r hr
  have h := (points_off newtonKernels_newtonian srcs (field := "potential") (by simp [prismFieldNames]) r hr).smul
    gravitationalConst⁻¹
  refine h.congr fun q _ => ?_
  have hG := gravConst_pos.ne'
  have e : pointField newtonKernels srcs "potential" q = gravitationalConst * field cartPos srcs q := by
    have t : pointFieldTable newtonKernels "potential" = some (newtonKernels.pot, 1) := rfl
    simp only [pointField, t, total, field, one_mul]
    rw [← List.sum_map_mul_left]
    congr 1
    apply List.map_congr_left
    intro s _
    simp only [newtonKernels, dist_gap]
    ring
  rw [e, ← mul_assoc, inv_mul_cancel₀ hG, one_mul]

theorem Clear.tame {U : Set E3} (hU : IsClosed U) {f : P3 → ℝ} (h : Clear U f) : Tame {q | cartPos q ∈ U} f := by
  induction h with
  | @prisms junk K srcs F field hK hs hF hf =>
    refine ((prisms_off srcs (fun s h => (hs s h).1) hf).tame (prismPoints_compact srcs) hU
      (prismPoints_not fun s h => (hs s h).2)).congr fun q hq => ?_
    have out : ∀ q' ∈ [q], Allowed field srcs q' := fun q' hq' =>
      .inr (clear_outside (fun s h => (hs s h).2) hq q' hq')
    have g := (hF field hf .serial [] [q] false rfl (by simp [Mode.Full]) out).symm.trans
      (prismGravity_body junk .serial hK [] [q] rfl _ false (fun s h => (hs s h).1) (by simp [Mode.Full]) field hf out)
    simpa using g
  | @points junk K srcs F field hK hs hF hf =>
    rw [pointsReturn_unique hF (pointGravity_fields junk srcs) hf]
    exact (points_off hK srcs hf).tame (listPoints_compact srcs) hU (listPoints_not hs)
  | @magnets junk mu0 K srcs B part hK hs hB hp =>
    obtain ⟨B', h1, h2⟩ := magnets_off junk hK srcs fun s h => (hs s h).1
    refine ((h2 part hp).tame (prismPoints_compact srcs) hU (prismPoints_not fun s h => (hs s h).2)).congr
      fun q hq => ?_
    have out := clear_outside (fun s h => (hs s h).2) hq
    have g := (hB .serial [] [q] false rfl (by simp [Mode.Full]) out).symm.trans
      (h1 .serial [] [q] false rfl (by simp [Mode.Full]) out)
    simp only [List.map_cons, List.map_nil, Except.ok.injEq, MagResult.vector.injEq, NdArray.mk.injEq, List.cons.injEq,
      and_true, true_and] at g
    simp only [List.mem_cons, List.not_mem_nil, or_false] at hp
    rcases hp with rfl | rfl | rfl
    exacts [g.1, g.2.1, g.2.2]
  | @dipoles junk mu0 K srcs B part hK hs hB hp =>
    rw [dipoles_unique hB (dipoleMagnetic_total junk hK srcs)]
    obtain ⟨g1, g2, g3⟩ := dipoles_off hK srcs (T := listPoints srcs) fun s h => mem_listPoints.2 ⟨s, h, rfl⟩
    simp only [List.mem_cons, List.not_mem_nil, or_false] at hp
    rcases hp with rfl | rfl | rfl
    exacts [g1.tame (listPoints_compact srcs) hU (listPoints_not hs),
      g2.tame (listPoints_compact srcs) hU (listPoints_not hs), g3.tame (listPoints_compact srcs) hU (listPoints_not hs)]
  | @sources junk P srcs V hd hs hV =>
    refine ((sources_off srcs).tame (listPoints_compact srcs) hU (listPoints_not hs)).congr fun q _ => ?_
    have g := (hV .serial .float64 .float64 .float64 [] [q]
      { points_ := some (pointArrs (srcs.map (·.1))), coefs_ := some (srcs.map (·.2)) }
      rfl (by simp [Mode.Full]) rfl rfl).symm.trans
      (C24_predict junk .serial P hd .float64 .float64 .float64 [] [q] rfl srcs (by simp [Mode.Full])
        { points_ := some (pointArrs (srcs.map (·.1))), coefs_ := some (srcs.map (·.2)) } rfl rfl)
    simpa using g
  | ellipsoids h hout hf =>
    obtain ⟨r, hr, hb⟩ := apart_of (fun e he => (h e he).1) hU hout
    exact ellipsoid_gravity_tame h hf hr hU hb _
  | magnetic_ellipsoids h hout hf =>
    obtain ⟨r, hr, hb⟩ := apart_of (fun e he => (h e he).1) hU hout
    exact ellipsoid_magnetic_tame h hf hr hU hb _
  | sum _ _ h1 h2 => exact h1.add h2
  | times c _ h => exact h.smul c

/-! ### C167 -/

/-- C167: two fields of sources outside a closed region that differ at most by `M` on the frontier of the region differ
at most by `M` everywhere in it. -/
theorem C167_error {U : Set E3} (hU : IsClosed U) {f g : P3 → ℝ} (hf : Clear U f) (hg : Clear U g) {M : ℝ}
    (h0 : 0 ≤ M) (h : ∀ q : P3, cartPos q ∈ frontier U → |f q - g q| ≤ M) (q : P3) (hq : cartPos q ∈ U) :
    |f q - g q| ≤ M := by
  have e : ∀ q, f q - g q = f q + -1 * g q := fun q => by ring
  simp only [e] at h ⊢
  exact ((hf.sum (hg.times (-1))).tame hU).bound hU (fun _ h => h) h0 h q hq

/-- C167: two fields of sources outside a closed region that are the same on the frontier of the region are the same
everywhere in it. -/
theorem C167_unique {U : Set E3} (hU : IsClosed U) {f g : P3 → ℝ} (hf : Clear U f) (hg : Clear U g)
    (h : ∀ q : P3, cartPos q ∈ frontier U → f q = g q) (q : P3) (hq : cartPos q ∈ U) : f q = g q := by
  have := C167_error hU hf hg le_rfl (fun q hq => by rw [h q hq, sub_self, abs_zero]) q hq
  exact sub_eq_zero.1 (abs_eq_zero.1 (this.antisymm (abs_nonneg _)))

/-- C167, an uneven surface (a continuous height for each easting and northing): two fields of sources under the surface
that differ at most by `M` on the surface differ at most by `M` everywhere over it. -/
theorem C167_draped {height : ℝ → ℝ → ℝ} (hc : Continuous fun p : ℝ × ℝ => height p.1 p.2) {f g : P3 → ℝ}
    (hf : Clear {x | height (x 0) (x 1) ≤ x 2} f) (hg : Clear {x | height (x 0) (x 1) ≤ x 2} g) {M : ℝ}
    (h : ∀ x y, |f ⟨x, y, height x y⟩ - g ⟨x, y, height x y⟩| ≤ M) (q : P3) (hq : height q.x q.y ≤ q.z) :
    |f q - g q| ≤ M := by
  refine C167_error (drape_closed hc) hf hg ((abs_nonneg _).trans (h 0 0)) (fun p hp => ?_) q hq
  have h1 := h p.x p.y
  have h2 : height p.x p.y = p.z := drape_frontier hc hp
  rw [h2] at h1
  exact h1

/-- C167, equivalent sources and any field of the gravity of prisms: if the predictions fit what `prism_gravity` returns
on an uneven surface over the prisms and the equivalent sources, with an error of at most `M`, they fit it everywhere
over the surface with an error of at most `M`. -/
theorem C167_prisms (junk : Junk) (P : Params) (hd : P.dtype.IsFloat) {K : PrismKernels} (hK : K.Newtonian)
    (srcs : List (P3 × ℝ)) (bodies : List (Prism × ℝ)) (hord : ∀ s ∈ bodies, s.1.Ordered) :
    ∃ (V : P3 → ℝ) (F : String → P3 → ℝ), Predicts junk P srcs V ∧ PrismsReturn junk K bodies F ∧
      ∀ height : ℝ → ℝ → ℝ, (Continuous fun p : ℝ × ℝ => height p.1 p.2) →
        (∀ s ∈ srcs, s.1.z < height s.1.x s.1.y) →
        (∀ s ∈ bodies, ∀ x y, s.1.west ≤ x → x ≤ s.1.east → s.1.south ≤ y → y ≤ s.1.north → s.1.top < height x y) →
        ∀ field ∈ prismFieldNames, ∀ M, (∀ x y, |V ⟨x, y, height x y⟩ - F field ⟨x, y, height x y⟩| ≤ M) →
          ∀ q : P3, height q.x q.y ≤ q.z → |V q - F field q| ≤ M := by
  refine ⟨_, bodyField bodies, predicts_field junk hd srcs, fun field hf mode shape obs dis hs hm ho =>
    prismGravity_body junk mode hK shape obs hs _ dis hord hm field hf ho, ?_⟩
  intro height hc hs hb field hf M hM
  refine C167_draped hc (.sources (junk := junk) hd (fun s h hin => absurd (hs s h) (not_lt.2 hin))
    (predicts_field junk hd srcs)) (.prisms (junk := junk) hK (fun s h => ⟨hord s h, fun x hx hin => ?_⟩)
    (fun field hf mode shape obs dis hs hm ho =>
      prismGravity_body junk mode hK shape obs hs _ dis hord hm field hf ho) hf) hM
  obtain ⟨⟨h1, h2⟩, ⟨h3, h4⟩, h5, h6⟩ := hx
  have h7 : height x.1 x.2.1 ≤ x.2.2 := hin
  have h8 := hb s h x.1 x.2.1 h1 h2 h3 h4
  linarith

/-- C167, total field anomalies: the result of `total_field_anomaly` for fields with components of this kind is such a
field. -/
theorem C167_anomaly {U : Set E3} {be bn bu : P3 → ℝ} (he : Clear U be) (hn : Clear U bn) (hu : Clear U bu)
    (inclination declination : ℝ) :
    Clear U fun q => Utils.totalFieldAnomaly (be q, bn q, bu q) inclination declination := by
  have h := ((he.times (Utils.magneticAnglesToVec 1 inclination declination).1).sum
    (hn.times (Utils.magneticAnglesToVec 1 inclination declination).2.1)).sum
    (hu.times (Utils.magneticAnglesToVec 1 inclination declination).2.2)
  have e : (fun q => Utils.totalFieldAnomaly (be q, bn q, bu q) inclination declination) = fun q =>
      (Utils.magneticAnglesToVec 1 inclination declination).1 * be q +
        (Utils.magneticAnglesToVec 1 inclination declination).2.1 * bn q +
        (Utils.magneticAnglesToVec 1 inclination declination).2.2 * bu q := by
    funext q
    simp only [Utils.totalFieldAnomaly]
    ring
  rw [e]
  exact h

/-! ### Examples -/

/-- Outside a ball of 100 m with a magnetized prism in it: the anomaly is bounded by its values on the sphere. -/
example (junk : Junk) : ∃ B : P3 → V3,
    MagnetsReturn junk (bodyMagKernels 1) [(⟨-50, 50, -50, 50, -50, 50⟩, ⟨3, 0, -4⟩)] B ∧
    let anomaly := fun q : P3 => Utils.totalFieldAnomaly ((B q).x, (B q).y, (B q).z) 60 10
    ∀ M, 0 ≤ M → (∀ q : P3, ‖cartPos q‖ = 100 → |anomaly q| ≤ M) → ∀ q : P3, 100 ≤ ‖cartPos q‖ → |anomaly q| ≤ M := by
  obtain ⟨B, h1, -⟩ := C164_magnetized junk (bodyMagKernels_magnetized 1)
    [(⟨-50, 50, -50, 50, -50, 50⟩, ⟨3, 0, -4⟩)] (by simp [Prism.Ordered])
  refine ⟨B, h1, fun M h0 hM q hq => ?_⟩
  have m : ∀ part ∈ [P3.x, P3.y, P3.z], Clear {x : E3 | 100 ≤ ‖x‖} fun q => part (B q) := fun part hp =>
    .magnets (bodyMagKernels_magnetized 1) (by
      intro s hs
      rw [List.mem_singleton] at hs
      subst hs
      refine ⟨by simp [Prism.Ordered], fun x hx hin => ?_⟩
      obtain ⟨⟨h1, h2⟩, ⟨h3, h4⟩, h5, h6⟩ := hx
      simp only at h1 h2 h3 h4 h5 h6
      have h7 : (100 : ℝ) ≤ ‖cartPos (pointAt x)‖ := hin
      have h8 : ‖cartPos (pointAt x)‖ ^ 2 = x.1 ^ 2 + x.2.1 ^ 2 + x.2.2 ^ 2 := norm_sq_e3 _ _ _
      nlinarith) h1 hp
  have z : Clear {x : E3 | 100 ≤ ‖x‖} fun q => 0 * (B q).x := (m P3.x (by simp)).times 0
  have := C167_error (outside_closed 100) (C167_anomaly (m P3.x (by simp)) (m P3.y (by simp)) (m P3.z (by simp)) 60 10)
    z h0 (fun q hq => by
      have := hM q (outside_frontier hq)
      simpa using this) q hq
  simpa using this

/-- The vertical gravity of a prism over a surface with hills. -/
example (P : Params) (hd : P.dtype.IsFloat) : ∃ (V : P3 → ℝ) (F : String → P3 → ℝ),
    Predicts (fun _ _ => 0) P [(⟨0, 0, -100⟩, 2)] V ∧
    PrismsReturn (fun _ _ => 0) bodyKernels [(⟨-50, 50, -50, 50, -500, -40⟩, 2670)] F ∧
      ∀ M, (∀ x y, |V ⟨x, y, 30 * Real.sin x⟩ - F "g_z" ⟨x, y, 30 * Real.sin x⟩| ≤ M) →
        |V ⟨0, 1, 1000⟩ - F "g_z" ⟨0, 1, 1000⟩| ≤ M := by
  obtain ⟨V, F, h1, h2, h3⟩ := C167_prisms (fun _ _ => 0) P hd bodyKernels_newtonian [(⟨0, 0, -100⟩, 2)]
    [(⟨-50, 50, -50, 50, -500, -40⟩, 2670)] (by simp [Prism.Ordered]; norm_num)
  refine ⟨V, F, h1, h2, fun M hM => h3 (fun x _ => 30 * Real.sin x) (by fun_prop) (by simp) ?_ "g_z"
    (by simp [prismFieldNames]) M hM ⟨0, 1, 1000⟩ (by simp)⟩
  intro s hs x y _ _ _ _
  rw [List.mem_singleton] at hs
  subst hs
  have := Real.neg_one_le_sin x
  simp only
  linarith

/-- One source and the same source in two halves, outside a ball around it. -/
example (junk : Junk) (P : Params) (hd : P.dtype.IsFloat) : ∃ V V' : P3 → ℝ,
    Predicts junk P [(⟨0, 0, 0⟩, 2)] V ∧ Predicts junk P [(⟨0, 0, 0⟩, 1), (⟨0, 0, 0⟩, 1)] V' ∧
      ∀ q : P3, 1 ≤ ‖cartPos q‖ → V q = V' q := by
  have hz : cartPos (⟨0, 0, 0⟩ : P3) ∉ {x : E3 | 1 ≤ ‖x‖} := by
    intro hin
    have h7 : (1 : ℝ) ≤ ‖cartPos (⟨0, 0, 0⟩ : P3)‖ := hin
    have h8 : ‖cartPos (⟨0, 0, 0⟩ : P3)‖ ^ 2 = 0 ^ 2 + 0 ^ 2 + 0 ^ 2 := norm_sq_e3 _ _ _
    nlinarith
  refine ⟨_, _, predicts_field junk hd _, predicts_field junk hd _, C167_unique (outside_closed 1)
    (.sources hd ?_ (predicts_field junk hd _)) (.sources hd ?_ (predicts_field junk hd _)) fun q _ => ?_⟩
  · simpa using hz
  · simpa using hz
  · simp only [field, List.map_cons, List.map_nil, List.sum_cons, List.sum_nil]
    ring

/-- The gravity of an ellipsoid in a ball and of a mass in it, outside the ball. -/
example (junk : Junk) (F : String → P3 → ℝ) (g : Ellipsoids.V3 → Ellipsoids.V3)
    (h1 : PointsReturn junk newtonKernels [(⟨1, 2, 3⟩, 100)] F) (h2 : ReturnsGravity (.one Ellipsoids.heavyBody) g) :
    Clear {x : E3 | 10 ≤ ‖x‖} fun q => F "g_z" q + -10 ^ 5 * g (vec q) 2 := by
  refine .sum (.points newtonKernels_newtonian ?_ h1 (by simp [prismFieldNames]))
    (.times _ (.ellipsoids ?_ ?_ h2))
  · intro s hs hin
    rw [List.mem_singleton] at hs
    subst hs
    have h7 : (10 : ℝ) ≤ ‖cartPos (⟨1, 2, 3⟩ : P3)‖ := hin
    have h8 : ‖cartPos (⟨1, 2, 3⟩ : P3)‖ ^ 2 = 1 ^ 2 + 2 ^ 2 + 3 ^ 2 := norm_sq_e3 _ _ _
    nlinarith
  · intro e he
    simp only [Bodies.toList, List.mem_singleton] at he
    subst he
    exact ⟨(Ellipsoids.C68_not_full 1 one_ne_zero).1, Ellipsoids.skewBody_exact⟩
  · intro e he q hx hq
    simp only [Bodies.toList, List.mem_singleton] at he
    subst he
    have hR : Ellipsoids.skewBody.rotationMatrix = 1 := Ellipsoids.C71_identity
    have hl : Ellipsoids.skewBody.local (vec q) = vec q := by
      unfold Ellipsoids.Ellipsoid.local
      rw [hR]
      simp [Ellipsoids.skewBody]
    change Ellipsoids.skewBody.Inside (vec q) ∨ Ellipsoids.skewBody.OnSurface (vec q) at hx
    rw [Ellipsoids.inside_iff, Ellipsoids.onSurface_iff, hl] at hx
    have h6 : q.x ^ 2 / 5 ^ 2 + q.y ^ 2 / 4 ^ 2 + q.z ^ 2 / 4 ^ 2 ≤ 1 := hx.elim le_of_lt le_of_eq
    have h7 : (10 : ℝ) ≤ ‖cartPos q‖ := hq
    have h8 : ‖cartPos q‖ ^ 2 = q.x ^ 2 + q.y ^ 2 + q.z ^ 2 := norm_sq_e3 _ _ _
    nlinarith [sq_nonneg q.y, sq_nonneg q.z]

end Verif.Continuation
