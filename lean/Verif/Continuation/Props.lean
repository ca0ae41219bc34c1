import Verif.EqSources.PropsN
import Verif.Ellipsoids.PropsW
import Verif.Utils.Model

/-! C165: fields over a plane are determined, with their errors, by what they are on the plane. -/

namespace Verif.Continuation
open Verif.Forward Verif.Engine Verif.Distance Verif.EqSources
open Verif.Ellipsoids (Bodies Ellipsoid ReturnsGravity ReturnsMagnetic Below vec)

/-! ### Specification -/

/-- The fields that the functions of harmonica return for sources under the height `z`, and the sums and multiples of
them. The components of the gravity of ellipsoids are in m/s² (the last one upward) and those of their magnetic field in
T; the other fields are as they are returned. -/
inductive Modelled (z : ℝ) : (P3 → ℝ) → Prop
  /-- `prism_gravity` -/
  | prisms {junk : Junk} {K : PrismKernels} {srcs : List (Prism × ℝ)} {F : String → P3 → ℝ} {field : String} :
      K.Newtonian → (∀ s ∈ srcs, s.1.Ordered ∧ s.1.top < z) → PrismsReturn junk K srcs F → field ∈ prismFieldNames →
      Modelled z (F field)
  /-- `point_gravity` in Cartesian coordinates -/
  | points {junk : Junk} {K : PointKernels} {srcs : List (P3 × ℝ)} {F : String → P3 → ℝ} {field : String} :
      K.Newtonian → (∀ s ∈ srcs, s.1.z < z) → PointsReturn junk K srcs F → field ∈ prismFieldNames →
      Modelled z (F field)
  /-- `prism_magnetic` -/
  | magnets {junk : Junk} {mu0 : ℝ} {K : MagKernels Prism} {srcs : List (Prism × V3)} {B : P3 → V3} {part : P3 → ℝ} :
      K.Magnetized mu0 → (∀ s ∈ srcs, s.1.Ordered ∧ s.1.top < z) → MagnetsReturn junk K srcs B →
      part ∈ [P3.x, P3.y, P3.z] → Modelled z fun q => part (B q)
  /-- `dipole_magnetic` -/
  | dipoles {junk : Junk} {mu0 : ℝ} {K : MagKernels P3} {srcs : List (P3 × V3)} {B : P3 → V3} {part : P3 → ℝ} :
      K.Dipole mu0 → (∀ s ∈ srcs, s.1.z < z) → DipolesReturn junk K srcs B →
      part ∈ [P3.x, P3.y, P3.z] → Modelled z fun q => part (B q)
  /-- `ellipsoid_gravity` -/
  | ellipsoids {bodies : Bodies} {field : Ellipsoids.V3 → Ellipsoids.V3} {r : ℝ} {i : Fin 3} :
      (∀ e ∈ bodies.toList, e.Valid ∧ e.Exact) → 0 < r → Below r z bodies.toList → ReturnsGravity bodies field →
      Modelled z fun q => field (vec q) i
  /-- `ellipsoid_magnetic` -/
  | magnetic_ellipsoids {mu0 : ℝ} {bodies : Bodies} {B0 : Ellipsoids.V3} {field : Ellipsoids.V3 → Ellipsoids.V3} {r : ℝ}
      {i : Fin 3} :
      (∀ e ∈ bodies.toList, e.Valid ∧ e.Passive ∧ e.Exact) → 0 < r → Below r z bodies.toList →
      ReturnsMagnetic mu0 bodies B0 field → Modelled z fun q => field (vec q) i
  /-- `EquivalentSources.predict` -/
  | sources {junk : Junk} {P : Params} {srcs : List (P3 × ℝ)} {V : P3 → ℝ} :
      P.dtype.IsFloat → (∀ s ∈ srcs, s.1.z < z) → Predicts junk P srcs V → Modelled z V
  | sum {f g : P3 → ℝ} : Modelled z f → Modelled z g → Modelled z fun q => f q + g q
  | times {f : P3 → ℝ} (c : ℝ) : Modelled z f → Modelled z fun q => c * f q

/-! ### Lemmas -/

theorem pointsReturn_unique {junk : Junk} {K : PointKernels} {srcs : List (P3 × ℝ)} {F F' : String → P3 → ℝ}
    (h : PointsReturn junk K srcs F) (h' : PointsReturn junk K srcs F') {field : String} (hf : field ∈ prismFieldNames) :
    F field = F' field := by
  funext q
  have g := (h field hf .serial [] [] [] [q] rfl (by simp [Mode.Full])).symm.trans
    (h' field hf .serial [] [] [] [q] rfl (by simp [Mode.Full]))
  simpa using g

theorem above_outside {A : Type*} {srcs : List (Prism × A)} {z : ℝ} (hz : ∀ s ∈ srcs, s.1.top < z) {q : P3}
    (hq : z ≤ q.z) : ∀ q' ∈ [q], ∀ s ∈ srcs, coords q' ∉ s.1.body := by
  intro q' hq' s hs hin
  rw [List.mem_singleton] at hq'
  subst hq'
  have h1 : (coords q').2.2 ≤ s.1.top := hin.2.2.2
  have h2 := hz s hs
  simp only [coords] at h1
  linarith

theorem Modelled.good {z : ℝ} {f : P3 → ℝ} (h : Modelled z f) : Good z f := by
  induction h with
  | @prisms junk K srcs F field hK hs hF hf =>
    obtain ⟨F', h1, h2⟩ := prisms_good junk hK srcs fun s h => (hs s h).1
    refine (h2 field hf z fun s h => (hs s h).2).congr fun q hq => ?_
    have out : ∀ q' ∈ [q], Allowed field srcs q' := fun q' hq' =>
      .inr (above_outside (fun s h => (hs s h).2) hq q' hq')
    have g := (hF field hf .serial [] [q] false rfl (by simp [Mode.Full]) out).symm.trans
      (h1 field hf .serial [] [q] false rfl (by simp [Mode.Full]) out)
    simpa using g
  | @points junk K srcs F field hK hs hF hf =>
    obtain ⟨F', h1, h2⟩ := points_good junk hK srcs
    rw [pointsReturn_unique hF h1 hf]
    exact h2 field hf z hs
  | @magnets junk mu0 K srcs B part hK hs hB hp =>
    obtain ⟨B', h1, h2⟩ := magnets_good junk hK srcs fun s h => (hs s h).1
    refine (h2 part hp z fun s h => (hs s h).2).congr fun q hq => ?_
    have out := above_outside (fun s h => (hs s h).2) hq
    have g := (hB .serial [] [q] false rfl (by simp [Mode.Full]) out).symm.trans
      (h1 .serial [] [q] false rfl (by simp [Mode.Full]) out)
    simp only [List.map_cons, List.map_nil, Except.ok.injEq, MagResult.vector.injEq, NdArray.mk.injEq, List.cons.injEq,
      and_true, true_and] at g
    simp only [List.mem_cons, List.not_mem_nil, or_false] at hp
    rcases hp with rfl | rfl | rfl
    exacts [g.1, g.2.1, g.2.2]
  | @dipoles junk mu0 K srcs B part hK hs hB hp =>
    rw [dipoles_unique hB (dipoleMagnetic_total junk hK srcs)]
    obtain ⟨g1, g2, g3⟩ := dipoles_good hK srcs hs
    simp only [List.mem_cons, List.not_mem_nil, or_false] at hp
    rcases hp with rfl | rfl | rfl
    exacts [g1, g2, g3]
  | ellipsoids h hr hb hf => exact Ellipsoids.ellipsoid_gravity_good h hf hr hb _
  | magnetic_ellipsoids h hr hb hf => exact Ellipsoids.ellipsoid_magnetic_good h hf hr hb _
  | @sources junk P srcs V hd hs hV =>
    refine (field_nice srcs hs).good.congr fun q _ => ?_
    have g := (hV .serial .float64 .float64 .float64 [] [q]
      { points_ := some (pointArrs (srcs.map (·.1))), coefs_ := some (srcs.map (·.2)) }
      rfl (by simp [Mode.Full]) rfl rfl).symm.trans
      (C24_predict junk .serial P hd .float64 .float64 .float64 [] [q] rfl srcs (by simp [Mode.Full])
        { points_ := some (pointArrs (srcs.map (·.1))), coefs_ := some (srcs.map (·.2)) } rfl rfl)
    simpa using g
  | sum _ _ h1 h2 => exact h1.add h2
  | times c _ h => exact h.smul c

/-! ### C165 -/

/-- C165: whatever the two fields are made of (sums and multiples of fields of sources under the plane), if they differ
at most by `M` on the plane, they differ at most by `M` at all the points over it. -/
theorem C165_error {z : ℝ} {f g : P3 → ℝ} (hf : Modelled z f) (hg : Modelled z g) {M : ℝ}
    (h : ∀ q : P3, q.z = z → |f q - g q| ≤ M) (q : P3) (hq : z ≤ q.z) : |f q - g q| ≤ M := by
  have e : ∀ q, f q - g q = f q + -1 * g q := fun q => by ring
  simp only [e] at h ⊢
  exact (hf.sum (hg.times (-1))).good.apply h q hq

/-- C165: two fields that are the same on the plane are the same over it, although the sources may be different. -/
theorem C165_unique {z : ℝ} {f g : P3 → ℝ} (hf : Modelled z f) (hg : Modelled z g)
    (h : ∀ q : P3, q.z = z → f q = g q) (q : P3) (hq : z ≤ q.z) : f q = g q := by
  have := C165_error hf hg (M := 0) (fun q hq => by rw [h q hq, sub_self, abs_zero]) q hq
  exact sub_eq_zero.1 (abs_eq_zero.1 (this.antisymm (abs_nonneg _)))

/-- C165, upward continuation with equivalent sources: predictions that fit a field on a plane over its sources and the
equivalent sources with an error of at most `M` have the field at all the points over the plane with an error of at most
`M`. -/
theorem C165_continuation (junk : Junk) (P : Params) (hd : P.dtype.IsFloat) (srcs : List (P3 × ℝ)) :
    ∃ V : P3 → ℝ, Predicts junk P srcs V ∧ ∀ z, (∀ s ∈ srcs, s.1.z < z) → ∀ f, Modelled z f → ∀ M,
      (∀ q : P3, q.z = z → |V q - f q| ≤ M) → ∀ q : P3, z ≤ q.z → |V q - f q| ≤ M := by
  obtain ⟨V, h1, -⟩ := C164_equivalent_sources junk P hd srcs
  exact ⟨V, h1, fun z hz f hf M hM q hq => C165_error (.sources hd hz h1) hf hM q hq⟩

/-- C165, total field anomalies: the result of `total_field_anomaly` for fields with components of this kind is such a
field. -/
theorem C165_anomaly {z : ℝ} {be bn bu : P3 → ℝ} (he : Modelled z be) (hn : Modelled z bn) (hu : Modelled z bu)
    (inclination declination : ℝ) :
    Modelled z fun q => Utils.totalFieldAnomaly (be q, bn q, bu q) inclination declination := by
  have h := ((he.times (Utils.magneticAnglesToVec 1 inclination declination).1).sum
    (hn.times (Utils.magneticAnglesToVec 1 inclination declination).2.1)).sum
    (hu.times (Utils.magneticAnglesToVec 1 inclination declination).2.2)
  have e : (fun q => Utils.totalFieldAnomaly (be q, bn q, bu q) inclination declination) = fun q =>
      (Utils.magneticAnglesToVec 1 inclination declination).1 * be q +
        (Utils.magneticAnglesToVec 1 inclination declination).2.1 * bn q +
        (Utils.magneticAnglesToVec 1 inclination declination).2.2 * bu q := by
    funext q
    simp only [Utils.totalFieldAnomaly]
    ring
  rw [e]
  exact h

/-! ### Examples -/

/-- The total field anomaly of a magnetized prism and a dipole, fitted by two equivalent sources on the plane at 60 m. -/
example (junk : Junk) (P : Params) (hd : P.dtype.IsFloat) : ∃ (B B' : P3 → V3) (V : P3 → ℝ),
    MagnetsReturn junk (bodyMagKernels 1) [(⟨-50, 50, -50, 50, -50, 50⟩, ⟨3, 0, -4⟩)] B ∧
    DipolesReturn junk (dipoleKernels 1) [(⟨200, 0, 10⟩, ⟨0, 1, 0⟩)] B' ∧
    Predicts junk P [(⟨0, 0, -1⟩, 2), (⟨3, 0, -1⟩, -1)] V ∧
    let anomaly := fun q : P3 =>
      Utils.totalFieldAnomaly ((B q).x + (B' q).x, (B q).y + (B' q).y, (B q).z + (B' q).z) 60 10
    ∀ M, (∀ q : P3, q.z = 60 → |V q - anomaly q| ≤ M) → |V ⟨0, 0, 1000⟩ - anomaly ⟨0, 0, 1000⟩| ≤ M := by
  obtain ⟨B, h1, -⟩ := C164_magnetized junk (bodyMagKernels_magnetized 1)
    [(⟨-50, 50, -50, 50, -50, 50⟩, ⟨3, 0, -4⟩)] (by simp [Prism.Ordered])
  obtain ⟨B', h2, -⟩ := C164_dipoles junk (dipoleKernels_dipole 1) [(⟨200, 0, 10⟩, ⟨0, 1, 0⟩)]
  obtain ⟨V, h3, h4⟩ := C165_continuation junk P hd [(⟨0, 0, -1⟩, 2), (⟨3, 0, -1⟩, -1)]
  refine ⟨B, B', V, h1, h2, h3, fun M hM => h4 60 (by norm_num) _ ?_ M hM _ (by norm_num)⟩
  have m : ∀ part ∈ [P3.x, P3.y, P3.z], Modelled 60 fun q => part (B q) + part (B' q) := fun part hp =>
    .sum (.magnets (bodyMagKernels_magnetized 1) (by simp [Prism.Ordered]; norm_num) h1 hp)
      (.dipoles (dipoleKernels_dipole 1) (by norm_num) h2 hp)
  exact C165_anomaly (m P3.x (by simp)) (m P3.y (by simp)) (m P3.z (by simp)) 60 10

/-- One source and the same source in two halves. -/
example (junk : Junk) (P : Params) (hd : P.dtype.IsFloat) : ∃ V V' : P3 → ℝ,
    Predicts junk P [(⟨0, 0, -1⟩, 2)] V ∧ Predicts junk P [(⟨0, 0, -1⟩, 1), (⟨0, 0, -1⟩, 1)] V' ∧
      ∀ q : P3, 0 ≤ q.z → V q = V' q := by
  have h : ∀ srcs, Predicts junk P srcs (field cartPos srcs) := fun srcs mode d1 d2 d3 shape obs s hs hm hp hc =>
    C24_predict junk mode P hd d1 d2 d3 shape obs hs srcs hm s hp hc
  refine ⟨_, _, h _, h _, C165_unique (.sources hd (by norm_num) (h _)) (.sources hd (by norm_num) (h _)) ?_⟩
  intro q _
  simp only [field, List.map_cons, List.map_nil, List.sum_cons, List.sum_nil]
  ring

/-- The gravity of a prism and of an ellipsoid together. -/
example (junk : Junk) (F : String → P3 → ℝ) (g : Ellipsoids.V3 → Ellipsoids.V3)
    (h1 : PrismsReturn junk bodyKernels [(⟨-50, 50, -50, 50, -50, 5⟩, 2670)] F)
    (h2 : ReturnsGravity (.one Ellipsoids.heavyBody) g) :
    Modelled 10 fun q => F "g_z" q + -10 ^ 5 * g (vec q) 2 := by
  refine .sum (.prisms bodyKernels_newtonian (by simp [Prism.Ordered]; norm_num) h1 (by simp [prismFieldNames]))
    (.times _ (.ellipsoids ?_ one_pos ?_ h2))
  · intro e he
    simp only [Bodies.toList, List.mem_singleton] at he
    subst he
    exact ⟨(Ellipsoids.C68_not_full 1 one_ne_zero).1, Ellipsoids.skewBody_exact⟩
  · intro e he x hx
    simp only [Bodies.toList, List.mem_singleton] at he
    subst he
    exact Ellipsoids.skewBody_below Ellipsoids.skewBody (by simp) x hx

end Verif.Continuation
