import Verif.Continuation.Region
import Verif.EqSources.PropsM
import Verif.EqSources.PropsF
import Verif.Survey.PropsD

/-! C166: predictions and potentials outside a sphere, over an uneven surface or in any closed region without sources are
bounded by those on the frontier. -/

namespace Verif.Continuation
open Verif.Forward Verif.Engine Verif.Distance Verif.EqSources

/-! ### Specification -/

/-- `point_gravity` in spherical coordinates returns the potential `V`. -/
def PotentialReturn (junk : Junk) (K : PointKernels) (srcs : List (P3 × ℝ)) (V : P3 → ℝ) : Prop :=
  ∀ (mode : Mode) (shape ps ms : List ℕ) (obs : List P3), shape.prod = obs.length →
    mode.Full obs.length (2 * srcs.length) →
    pointGravity junk mode K (arrays shape obs) (arrays ps (srcs.map (·.1))) ⟨ms, srcs.map (·.2)⟩ "potential"
      "spherical" = .ok ⟨shape, obs.map V⟩

/-- Functions of the position in space that are predictions of equivalent sources or potentials of point masses (in
Cartesian or in spherical coordinates) none of which is in the region `U`, or sums and multiples of such functions. -/
inductive Without (U : Set E3) : (E3 → ℝ) → Prop
  /-- `EquivalentSources.predict` -/
  | sources {junk : Junk} {P : Params} {srcs : List (P3 × ℝ)} {f : E3 → ℝ} :
      P.dtype.IsFloat → (∀ s ∈ srcs, cartPos s.1 ∉ U) → Predicts junk P srcs (fun q => f (cartPos q)) → Without U f
  /-- `EquivalentSourcesSph.predict` -/
  | sources_spherical {junk : Junk} {srcs : List (P3 × ℝ)} {f : E3 → ℝ} :
      (∀ s ∈ srcs, sphPos s.1 ∉ U) → PredictsSph junk srcs (fun q => f (sphPos q)) → Without U f
  /-- `point_gravity` in Cartesian coordinates, field "potential" -/
  | points {junk : Junk} {K : PointKernels} {srcs : List (P3 × ℝ)} {F : String → P3 → ℝ} {f : E3 → ℝ} :
      K.Newtonian → (∀ s ∈ srcs, cartPos s.1 ∉ U) → PointsReturn junk K srcs F →
      (∀ q, F "potential" q = f (cartPos q)) → Without U f
  /-- `point_gravity` in spherical coordinates, field "potential" -/
  | points_spherical {junk : Junk} {K : PointKernels} {srcs : List (P3 × ℝ)} {f : E3 → ℝ} :
      (∀ s ∈ srcs, sphPos s.1 ∉ U) → PotentialReturn junk K srcs (fun q => f (sphPos q)) → Without U f
  | sum {f g : E3 → ℝ} : Without U f → Without U g → Without U fun x => f x + g x
  | times {f : E3 → ℝ} (c : ℝ) : Without U f → Without U fun x => c * f x

/-! ### Lemmas -/

theorem inverseSum_smul (c : ℝ) (srcs : List (E3 × ℝ)) (x y z : ℝ) :
    inverseSum (srcs.map fun s => (s.1, c * s.2)) x y z = c * inverseSum srcs x y z := by
  induction srcs with
  | nil => simp [inverseSum]
  | cons s srcs ih =>
    simp only [inverseSum, List.map_cons, List.sum_cons] at ih ⊢
    rw [ih]
    ring

theorem cartPos_eta (x : E3) : cartPos ⟨x 0, x 1, x 2⟩ = x := (e3_eta x).symm

theorem predicts_field (junk : Junk) {P : Params} (hd : P.dtype.IsFloat) (srcs : List (P3 × ℝ)) :
    Predicts junk P srcs (field cartPos srcs) :=
  fun mode d1 d2 d3 shape obs s hs hm hp hc => C24_predict junk mode P hd d1 d2 d3 shape obs hs srcs hm s hp hc

theorem predictsSph_field (junk : Junk) (srcs : List (P3 × ℝ)) : PredictsSph junk srcs (field sphPos srcs) :=
  fun mode d1 d2 d3 shape obs s hd hs hm hp hc =>
    C24_predict_spherical_partial junk mode d1 d2 d3 hd shape obs hs srcs hm s hp hc

theorem potentialReturn_total (junk : Junk) (K : PointKernels) (srcs : List (P3 × ℝ)) :
    PotentialReturn junk K srcs fun q =>
      inverseSum (srcs.map fun s => (sphPos s.1, gravitationalConst * s.2)) (sphPos q 0) (sphPos q 1) (sphPos q 2) := by
  intro mode shape ps ms obs hshape hm
  rw [C04_point_gravity_spherical junk mode K shape ps ms obs hshape srcs hm]
  simp only [if_true]
  congr 2
  apply List.map_congr_left
  intro q _
  simp only [inverseSum, ← e3_eta, List.map_map, total, newtonPotential_eq]
  rfl

theorem Without.inverseSum {U : Set E3} {f : E3 → ℝ} (h : Without U f) :
    ∃ srcs : List (E3 × ℝ), (∀ s ∈ srcs, s.1 ∉ U) ∧ ∀ x ∈ U, f x = inverseSum srcs (x 0) (x 1) (x 2) := by
  induction h with
  | @sources junk P srcs f hd hs hV =>
    refine ⟨srcs.map fun s => (cartPos s.1, s.2), fun s h => ?_, fun x _ => ?_⟩
    · obtain ⟨s', hs', rfl⟩ := List.mem_map.1 h
      exact hs s' hs'
    · have g := (hV .serial .float64 .float64 .float64 [] [⟨x 0, x 1, x 2⟩]
        { points_ := some (pointArrs (srcs.map (·.1))), coefs_ := some (srcs.map (·.2)) }
        rfl (by simp [Mode.Full]) rfl rfl).symm.trans
        (predicts_field junk hd srcs .serial .float64 .float64 .float64 [] [⟨x 0, x 1, x 2⟩]
          { points_ := some (pointArrs (srcs.map (·.1))), coefs_ := some (srcs.map (·.2)) }
          rfl (by simp [Mode.Full]) rfl rfl)
      have g : f (cartPos ⟨x 0, x 1, x 2⟩) = field cartPos srcs ⟨x 0, x 1, x 2⟩ := by simpa using g
      rw [field_inverseSum, cartPos_eta] at g
      exact g
  | @sources_spherical junk srcs f hs hV =>
    refine ⟨srcs.map fun s => (sphPos s.1, s.2), fun s h => ?_, fun x _ => ?_⟩
    · obtain ⟨s', hs', rfl⟩ := List.mem_map.1 h
      exact hs s' hs'
    · obtain ⟨q, rfl, -⟩ := Survey.exists_coords x
      have g := (hV .serial .float64 .float64 .float64 [] [q]
        { points_ := some (pointArrs (srcs.map (·.1))), coefs_ := some (srcs.map (·.2)) }
        (by simp [DType.IsFloat]) rfl (by simp [Mode.Full]) rfl rfl).symm.trans
        (predictsSph_field junk srcs .serial .float64 .float64 .float64 [] [q]
          { points_ := some (pointArrs (srcs.map (·.1))), coefs_ := some (srcs.map (·.2)) }
          (by simp [DType.IsFloat]) rfl (by simp [Mode.Full]) rfl rfl)
      have g : f (sphPos q) = field sphPos srcs q := by simpa using g
      rw [field_inverseSum] at g
      exact g
  | @points junk K srcs F f hK hs hF hf =>
    refine ⟨srcs.map fun s => (cartPos s.1, gravitationalConst * s.2), fun s h => ?_, fun x hx => ?_⟩
    · obtain ⟨s', hs', rfl⟩ := List.mem_map.1 h
      exact hs s' hs'
    · set q : P3 := ⟨x 0, x 1, x 2⟩ with hq
      have hxq : cartPos q = x := cartPos_eta x
      have g := (hF "potential" (by simp [prismFieldNames]) .serial [] [] [] [q] rfl (by simp [Mode.Full])).symm.trans
        (C04_point_gravity_cartesian junk .serial K [] [] [] [q] rfl srcs (by simp [Mode.Full]) "potential")
      have g : F "potential" q = total (fun q s => K.pot q s.1 s.2) srcs q := by simpa [pointFieldTable] using g
      rw [← hxq, ← hf, g]
      simp only [Verif.Forward.inverseSum, ← e3_eta, List.map_map, total]
      congr 1
      apply List.map_congr_left
      intro s hs'
      simp only [Function.comp_apply]
      rw [hK.pot q s.1 s.2 (fun e => hs s hs' (by rw [← e, hxq]; exact hx)), dist_cartPos, gap]
  | @points_spherical junk K srcs f hs hV =>
    refine ⟨srcs.map fun s => (sphPos s.1, gravitationalConst * s.2), fun s h => ?_, fun x _ => ?_⟩
    · obtain ⟨s', hs', rfl⟩ := List.mem_map.1 h
      exact hs s' hs'
    · obtain ⟨q, rfl, -⟩ := Survey.exists_coords x
      have g := (hV .serial [] [] [] [q] rfl (by simp [Mode.Full])).symm.trans
        (potentialReturn_total junk K srcs .serial [] [] [] [q] rfl (by simp [Mode.Full]))
      simpa using g
  | sum _ _ h1 h2 =>
    obtain ⟨s1, a1, b1⟩ := h1
    obtain ⟨s2, a2, b2⟩ := h2
    refine ⟨s1 ++ s2, fun s hs => ?_, fun x hx => by
      rw [inverseSum_append, ← b1 x hx, ← b2 x hx]⟩
    rcases List.mem_append.1 hs with h | h
    exacts [a1 s h, a2 s h]
  | times c _ h =>
    obtain ⟨s1, a1, b1⟩ := h
    refine ⟨s1.map fun s => (s.1, c * s.2), fun s hs => ?_, fun x hx => by
      rw [inverseSum_smul, ← b1 x hx]⟩
    obtain ⟨s', hs', rfl⟩ := List.mem_map.1 hs
    exact a1 s' hs'

theorem Without.bound {U : Set E3} (hU : IsClosed U) {f : E3 → ℝ} (hf : Without U f) {M : ℝ} (h0 : 0 ≤ M)
    (h : ∀ x ∈ frontier U, |f x| ≤ M) (x : E3) (hx : x ∈ U) : |f x| ≤ M := by
  obtain ⟨srcs, h1, h2⟩ := hf.inverseSum
  rw [h2 x hx]
  exact inverseSum_region srcs hU h1 h0 (fun p hp => by
    rw [← h2 p (hU.frontier_subset hp)]
    exact h p hp) x hx

/-- The points that are not nearer to the origin than `R`. -/
theorem outside_closed (R : ℝ) : IsClosed {x : E3 | R ≤ ‖x‖} := isClosed_le continuous_const continuous_norm

theorem outside_frontier {R : ℝ} {x : E3} (h : x ∈ frontier {x : E3 | R ≤ ‖x‖}) : ‖x‖ = R :=
  (frontier_le_subset_eq continuous_const continuous_norm h).symm

theorem drape_closed {h : ℝ → ℝ → ℝ} (hc : Continuous fun p : ℝ × ℝ => h p.1 p.2) :
    IsClosed {x : E3 | h (x 0) (x 1) ≤ x 2} :=
  isClosed_le (hc.comp (by fun_prop : Continuous fun x : E3 => (x 0, x 1))) (by fun_prop)

theorem drape_frontier {h : ℝ → ℝ → ℝ} (hc : Continuous fun p : ℝ × ℝ => h p.1 p.2) {x : E3}
    (hx : x ∈ frontier {x : E3 | h (x 0) (x 1) ≤ x 2}) : h (x 0) (x 1) = x 2 :=
  frontier_le_subset_eq (hc.comp (by fun_prop : Continuous fun x : E3 => (x 0, x 1))) (by fun_prop) hx

/-! ### C166 -/

/-- C166: two such fields that differ at most by `M` on the frontier of a closed region without any of their sources
differ at most by `M` everywhere in the region. -/
theorem C166_error {U : Set E3} (hU : IsClosed U) {f g : E3 → ℝ} (hf : Without U f) (hg : Without U g) {M : ℝ}
    (h0 : 0 ≤ M) (h : ∀ x ∈ frontier U, |f x - g x| ≤ M) (x : E3) (hx : x ∈ U) : |f x - g x| ≤ M := by
  have e : ∀ x, f x - g x = f x + -1 * g x := fun x => by ring
  simp only [e] at h ⊢
  exact (hf.sum (hg.times (-1))).bound hU h0 h x hx

/-- C166: two such fields that are equal on the frontier of a closed region without any of their sources are equal in
the region. -/
theorem C166_unique {U : Set E3} (hU : IsClosed U) {f g : E3 → ℝ} (hf : Without U f) (hg : Without U g)
    (h : ∀ x ∈ frontier U, f x = g x) (x : E3) (hx : x ∈ U) : f x = g x := by
  have := C166_error hU hf hg le_rfl (fun x hx => by rw [h x hx, sub_self, abs_zero]) x hx
  exact sub_eq_zero.1 (abs_eq_zero.1 (this.antisymm (abs_nonneg _)))

/-- C166, spherical coordinates: if the predictions of `EquivalentSourcesSph` fit the potential that `point_gravity`
returns for masses on a sphere around the origin with all the equivalent sources and masses inside, with an error of at
most `M`, they fit it with an error of at most `M` everywhere outside. -/
theorem C166_spherical (junk : Junk) (K : PointKernels) (srcs masses : List (P3 × ℝ)) :
    ∃ V W : P3 → ℝ, PredictsSph junk srcs V ∧ PotentialReturn junk K masses W ∧
      ∀ R, 0 < R → (∀ s ∈ srcs, 0 ≤ s.1.z ∧ s.1.z < R) → (∀ s ∈ masses, 0 ≤ s.1.z ∧ s.1.z < R) →
        ∀ M, (∀ q : P3, q.z = R → |V q - W q| ≤ M) → ∀ q : P3, R ≤ q.z → |V q - W q| ≤ M := by
  set F : E3 → ℝ := fun x => inverseSum (srcs.map fun s => (sphPos s.1, s.2)) (x 0) (x 1) (x 2) with hF
  set G : E3 → ℝ := fun x =>
    inverseSum (masses.map fun s => (sphPos s.1, gravitationalConst * s.2)) (x 0) (x 1) (x 2) with hG
  have hV : PredictsSph junk srcs fun q => F (sphPos q) := by
    have := predictsSph_field junk srcs
    simp only [hF, ← field_inverseSum]
    exact this
  have hW : PotentialReturn junk K masses fun q => G (sphPos q) := potentialReturn_total junk K masses
  refine ⟨_, _, hV, hW, fun R hR hs hm M hM q hq => ?_⟩
  have h0 : 0 ≤ M := (abs_nonneg _).trans (hM ⟨0, 0, R⟩ rfl)
  have out : ∀ p : P3, 0 ≤ p.z ∧ p.z < R → sphPos p ∉ {x : E3 | R ≤ ‖x‖} := by
    intro p hp h
    have h : R ≤ ‖sphPos p‖ := h
    rw [Tesseroid.norm_sphPos p hp.1] at h
    linarith [hp.2]
  refine C166_error (outside_closed R) (.sources_spherical (fun s h => out _ (hs s h)) hV)
    (.points_spherical (fun s h => out _ (hm s h)) hW) h0 (fun x hx => ?_) _ ?_
  · obtain ⟨p, rfl, hp, -⟩ := Survey.exists_coords x
    exact hM p (hp.trans (outside_frontier hx))
  · show R ≤ ‖sphPos q‖
    rw [Tesseroid.norm_sphPos q (hR.le.trans hq)]
    exact hq

/-- C166, `EquivalentSourcesSph`: outside a sphere around the origin with all the sources inside, no prediction is
larger in size than the largest one on the sphere. -/
theorem C166_sphere (junk : Junk) (srcs : List (P3 × ℝ)) :
    ∃ V : P3 → ℝ, PredictsSph junk srcs V ∧ ∀ R, 0 < R → (∀ s ∈ srcs, 0 ≤ s.1.z ∧ s.1.z < R) →
      ∀ M, (∀ q : P3, q.z = R → |V q| ≤ M) → ∀ q : P3, R ≤ q.z → |V q| ≤ M := by
  obtain ⟨V, W, hV, hW, h⟩ := C166_spherical junk newtonKernels srcs []
  have hW0 : ∀ q, W q = 0 := fun q => by
    have g := (hW .serial [] [] [] [q] rfl (by simp [Mode.Full])).symm.trans
      (potentialReturn_total junk newtonKernels [] .serial [] [] [] [q] rfl (by simp [Mode.Full]))
    simpa [inverseSum] using g
  simp only [hW0, sub_zero] at h
  exact ⟨V, hV, fun R hR hs M hM => h R hR hs (by simp) M hM⟩

/-- C166, Cartesian coordinates: if the predictions of `EquivalentSources` fit the potential that `point_gravity` returns
for masses on an uneven surface (a continuous height for each easting and northing) over all the equivalent sources and
masses, with an error of at most `M`, they fit it with an error of at most `M` everywhere over the surface. -/
theorem C166_draped (junk : Junk) (P : Params) (hd : P.dtype.IsFloat) {K : PointKernels} (hK : K.Newtonian)
    (srcs masses : List (P3 × ℝ)) :
    ∃ (V : P3 → ℝ) (F : String → P3 → ℝ), Predicts junk P srcs V ∧ PointsReturn junk K masses F ∧
      ∀ height : ℝ → ℝ → ℝ, (Continuous fun p : ℝ × ℝ => height p.1 p.2) →
        (∀ s ∈ srcs ++ masses, s.1.z < height s.1.x s.1.y) →
        ∀ M, (∀ x y, |V ⟨x, y, height x y⟩ - F "potential" ⟨x, y, height x y⟩| ≤ M) →
          ∀ q : P3, height q.x q.y ≤ q.z → |V q - F "potential" q| ≤ M := by
  obtain ⟨F, hF⟩ : ∃ F, PointsReturn junk K masses F := ⟨_, pointGravity_fields junk masses⟩
  refine ⟨_, F, predicts_field junk hd srcs, hF, fun height hc hs M hM q hq => ?_⟩
  have h0 : 0 ≤ M := (abs_nonneg _).trans (hM 0 0)
  have out : ∀ s ∈ srcs ++ masses, cartPos s.1 ∉ {x : E3 | height (x 0) (x 1) ≤ x 2} := by
    intro s h hin
    exact absurd (hs s h) (not_lt.2 hin)
  have e : ∀ f : P3 → ℝ, f = fun q => (fun x : E3 => f ⟨x 0, x 1, x 2⟩) (cartPos q) := fun f => rfl
  have := C166_error (drape_closed hc) (f := fun x => field cartPos srcs ⟨x 0, x 1, x 2⟩)
    (g := fun x => F "potential" ⟨x 0, x 1, x 2⟩)
    (.sources (junk := junk) hd (fun s h => out s (List.mem_append_left _ h)) (by
      have := predicts_field junk hd srcs
      rw [e (field cartPos srcs)] at this
      exact this))
    (.points hK (fun s h => out s (List.mem_append_right _ h)) hF fun q => rfl) h0 (fun x hx => by
      have h1 := hM (x 0) (x 1)
      rw [drape_frontier hc hx] at h1
      exact h1) (cartPos q) hq
  exact this

/-! ### Examples -/

/-- Two equivalent sources in the Earth and a mass. -/
example : ∃ V W : P3 → ℝ,
    PredictsSph (fun _ _ => 0) [(⟨10, 20, 6300000⟩, 2), (⟨11, 20, 6300000⟩, -1)] V ∧
      PotentialReturn (fun _ _ => 0) newtonKernels [(⟨10, 20, 6350000⟩, 10 ^ 12)] W ∧
      ∀ M, (∀ q : P3, q.z = 6371000 → |V q - W q| ≤ M) → |V ⟨10, 20, 6600000⟩ - W ⟨10, 20, 6600000⟩| ≤ M := by
  obtain ⟨V, W, h1, h2, h3⟩ := C166_spherical (fun _ _ => 0) newtonKernels
    [(⟨10, 20, 6300000⟩, 2), (⟨11, 20, 6300000⟩, -1)] [(⟨10, 20, 6350000⟩, 10 ^ 12)]
  exact ⟨V, W, h1, h2, fun M hM => h3 6371000 (by norm_num) (by norm_num) (by norm_num) M hM _ (by norm_num)⟩

example : ∃ V : P3 → ℝ, PredictsSph (fun _ _ => 0) [(⟨10, 20, 6300000⟩, 2), (⟨11, 20, 6300000⟩, -1)] V ∧
      ∀ M, (∀ q : P3, q.z = 6371000 → |V q| ≤ M) → |V ⟨10, 20, 6600000⟩| ≤ M := by
  obtain ⟨V, h1, h2⟩ := C166_sphere (fun _ _ => 0) [(⟨10, 20, 6300000⟩, 2), (⟨11, 20, 6300000⟩, -1)]
  exact ⟨V, h1, fun M hM => h2 6371000 (by norm_num) (by norm_num) M hM _ (by norm_num)⟩

/-- A surface with hills. -/
example (P : Params) (hd : P.dtype.IsFloat) : ∃ (V : P3 → ℝ) (F : String → P3 → ℝ),
    Predicts (fun _ _ => 0) P [(⟨0, 0, -100⟩, 2)] V ∧ PointsReturn (fun _ _ => 0) newtonKernels [(⟨3, 5, -50⟩, 700)] F ∧
      ∀ M, (∀ x y, |V ⟨x, y, 30 * Real.sin x⟩ - F "potential" ⟨x, y, 30 * Real.sin x⟩| ≤ M) →
        |V ⟨0, 1, 1000⟩ - F "potential" ⟨0, 1, 1000⟩| ≤ M := by
  obtain ⟨V, F, h1, h2, h3⟩ := C166_draped (fun _ _ => 0) P hd newtonKernels_newtonian [(⟨0, 0, -100⟩, 2)]
    [(⟨3, 5, -50⟩, 700)]
  refine ⟨V, F, h1, h2, fun M hM => h3 (fun x _ => 30 * Real.sin x) (by fun_prop) ?_ M hM ⟨0, 1, 1000⟩ (by norm_num)⟩
  intro s hs
  simp only [List.cons_append, List.nil_append, List.mem_cons, List.not_mem_nil, or_false] at hs
  rcases hs with rfl | rfl
  · norm_num
  · have := Real.neg_one_le_sin 3
    simp only
    linarith

end Verif.Continuation
