import Verif.Survey.PropsB
import Verif.Filters.PropsC

/-!
More of C01 (layers of prisms and fits of equivalent sources in parallel), C02 (no bodies),
C10 (turns of the longitude), C24 (spherical sources) and C39 (grids that the filters refuse).
-/

namespace Verif.Survey
open Verif.Engine Verif.Distance Verif.Forward Verif.Layers

/-- C01, `prism_layer.gravity`: the parallel call gives the same result as the serial one. -/
theorem C01_prism_layer_gravity (junk : Junk) (sched : List ℕ) (K : PrismKernels) (shape : List ℕ)
    (obs : List P3) (hshape : shape.prod = obs.length) {nn ne : ℕ} (hn : 2 ≤ nn) (he : 2 ≤ ne)
    (E N : ℕ → ℝ) (B T D : ℕ → ℕ → Option ℝ) (vars : List (String × List (Option ℝ)))
    (density_name : String) (hD : vars.lookup density_name = some (grid nn ne D))
    (threshold : Option ℝ) (hs : (Mode.parallel sched).Full obs.length (2 * (nn * ne)))
    (field : String) :
    layerGravity junk (.parallel sched) K ⟨coords ne E, coords nn N, grid nn ne T, grid nn ne B, vars⟩
        (arrays shape obs) field density_name threshold =
      layerGravity junk .serial K ⟨coords ne E, coords nn N, grid nn ne T, grid nn ne B, vars⟩
        (arrays shape obs) field density_name threshold := by
  unfold layerGravity
  cases (prismFields K).lookup field with
  | none => rfl
  | some kernel =>
    obtain ⟨re, hre⟩ := coords_two he E
    obtain ⟨rn, hrn⟩ := coords_two hn N
    have h1 := layerLoop_result junk kernel (.parallel sched) obs E N B T D (threshold.getD 0) nn ne hs
    have h2 := layerLoop_result junk kernel .serial obs E N B T D (threshold.getD 0) nn ne trivial
    simp only [npBroadcast_arrays, Py.bind_ok, hD]
    rw [hre, hrn] at h1 h2 ⊢
    simp only [arrays, List.length_map, hshape, h1, h2]

end Verif.Survey

namespace Verif.EqSources
open Verif.Engine Verif.Distance Verif.Forward

theorem solve_parallel (env : Env) (junk : Junk) (g : P3 → P3 → ℝ) (d : DType)
    (damping : Option ℝ) (c p : Arrs) (data : List ℝ) (weights : Option (List ℝ)) (s : State)
    (mode : Mode) (hm : mode.Full c.1.length p.1.length) :
    solve env junk mode g d damping c p data weights s =
      solve env junk .serial g d damping c p data weights s := by
  cases mode with
  | serial => rfl
  | parallel sched => unfold solve; rw [C01_jacobian junk g d c p sched hm]

/-- C01, `EquivalentSources.fit`: the Jacobian in parallel gives the same state and outcome. -/
theorem C01_fit (env : Env) (junk : Junk) (sched : List ℕ) (P : Params) (c : Coords) (data : CArr)
    (weights : Option CArr) (s : State)
    (hs : ∀ s0 s1 p, choosePoints env P (castArrs P.dtype (n1dArrays c)) s0 = (s1, .ok p) →
      (Mode.parallel sched).Full c.1.data.length p.1.length) :
    fit env junk (.parallel sched) P c data weights s = fit env junk .serial P c data weights s := by
  unfold fit
  cases checkFitInput c data weights with
  | error e => rfl
  | ok u =>
    simp only
    cases getRegion (castArrs P.dtype (n1dArrays c)).1 (castArrs P.dtype (n1dArrays c)).2.1 with
    | error e => rfl
    | ok region =>
      simp only
      rcases hc : choosePoints env P (castArrs P.dtype (n1dArrays c))
        { s with region_ := some region } with ⟨s1, e | p⟩
      · rfl
      · simp only
        rw [solve_parallel env junk _ _ _ _ _ _ _ _ (.parallel sched)]
        simpa [castArrs, n1dArrays] using hs _ _ _ hc

/-- C01, `EquivalentSourcesSph.fit`. -/
theorem C01_fit_spherical (env : Env) (junk : Junk) (sched : List ℕ) (P : SphParams) (c : Coords)
    (data : CArr) (weights : Option CArr) (s : State)
    (hs : (Mode.parallel sched).Full c.1.data.length (sphPoints P (n1dArrays c)).1.length) :
    fitSph env junk (.parallel sched) P c data weights s =
      fitSph env junk .serial P c data weights s := by
  unfold fitSph
  dsimp only
  simp only [show ∀ s', solve env junk (.parallel sched) greensFuncSpherical .float64 P.damping (n1dArrays c)
    (sphPoints P (n1dArrays c)) data.data (weights.map (·.data)) s' = _ from fun s' =>
      solve_parallel env junk _ _ _ _ _ _ _ s' (.parallel sched) hs]

theorem fancyArrs_length {a r : Arrs} {l : List ℕ} (h : fancyArrs a l = .ok r) :
    r.1.length = l.length := by
  unfold fancyArrs at h
  cases h1 : fancyIndex a.1 l with
  | error e => rw [h1] at h; cases h
  | ok x =>
    rw [h1, Py.bind_ok] at h
    cases h2 : fancyIndex a.2.1 l with
    | error e => rw [h2] at h; cases h
    | ok y =>
      rw [h2, Py.bind_ok] at h
      cases h3 : fancyIndex a.2.2 l with
      | error e => rw [h3] at h; cases h
      | ok z =>
        rw [h3, Py.bind_ok] at h
        cases h
        exact (fancyIndex_ok _ _ _ h1).length_eq.symm

theorem boostUpdate_parallel (junk : Junk) (d : DType) (c p : Arrs) (pw : List ℕ) (coeffs : List ℝ)
    (b : Boost) (mode : Mode) (hm : mode.Full c.1.length (2 * p.1.length)) :
    boostUpdate junk mode d c p pw coeffs b = boostUpdate junk .serial d c p pw coeffs b := by
  cases mode with
  | serial => rfl
  | parallel sched =>
    unfold boostUpdate predictKernel predictLoop
    rw [C01_accumulation_loop _ p.1.length (fun i j => (_ : Acc d)) _ _ sched hm]

/-- The schedules of the windows are complete: the Jacobian of window `k` has one row per data point
and one column per source of the window, its prediction runs over all data points. -/
def WindowSchedules (n : ℕ) (modes : ℕ → Mode × Mode) (k : ℕ) (w : List (List ℕ × List ℕ)) : Prop :=
  ∀ i, ∀ h : i < w.length, (modes (k + i)).1.Full (w[i].2).length (w[i].1).length ∧
    (modes (k + i)).2.Full n (2 * (w[i].1).length)

theorem boostLoop_parallel (env : Env) (junk : Junk) (modes : ℕ → Mode × Mode) (P : Params)
    (c points : Arrs) (weights : Option (List ℝ)) (w : List (List ℕ × List ℕ)) (k : ℕ) (b : Boost)
    (s : State) (hw : WindowSchedules c.1.length modes k w) :
    boostLoop env junk modes P c points weights w k b s =
      boostLoop env junk (fun _ => (.serial, .serial)) P c points weights w k b s := by
  induction w generalizing k b s with
  | nil => rfl
  | cons x w ih =>
    obtain ⟨pw, dw⟩ := x
    unfold boostLoop
    cases hch : chunks c points weights b.residue pw dw with
    | error e => rfl
    | ok r =>
      obtain ⟨pc, cc, wc, rc⟩ := r
      have hl : pc.1.length = pw.length ∧ cc.1.length = dw.length := by
        unfold chunks at hch
        cases h1 : fancyArrs points pw with
        | error e => rw [h1] at hch; cases hch
        | ok p1 =>
          rw [h1, Py.bind_ok] at hch
          cases h2 : fancyArrs c dw with
          | error e => rw [h2] at hch; cases hch
          | ok c1 =>
            rw [h2, Py.bind_ok] at hch
            have key : pc = p1 ∧ cc = c1 := by
              revert hch
              cases weights with
              | none =>
                cases fancyIndex b.residue dw <;> simp [Py.pure_eq, Py.bind_ok, Py.bind_error]
                rintro rfl rfl _ _
                exact ⟨rfl, rfl⟩
              | some ww =>
                simp only
                cases fancyIndex ww dw <;> cases fancyIndex b.residue dw <;>
                  simp [Except.map, Py.pure_eq, Py.bind_ok, Py.bind_error]
                rintro rfl rfl _ _
                exact ⟨rfl, rfl⟩
            rw [key.1, key.2]
            exact ⟨fancyArrs_length h1, fancyArrs_length h2⟩
      have h0 := hw 0 (by simp)
      simp only [List.getElem_cons_zero, Nat.add_zero] at h0
      simp only
      rw [solve_parallel env junk _ _ _ _ _ _ _ _ (modes k).1 (by rw [hl.1, hl.2]; exact h0.1)]
      cases hsol : solve env junk .serial greensFuncCartesian P.dtype P.damping cc pc rc wc s with
      | mk s' out =>
        cases out with
        | error e => rfl
        | ok coeffs =>
          simp only
          rw [boostUpdate_parallel junk _ _ _ _ _ _ (modes k).2 (by rw [hl.1]; exact h0.2)]
          cases boostUpdate junk .serial P.dtype c pc pw coeffs b with
          | error e => rfl
          | ok b' =>
            simp only
            refine ih (k + 1) b' _ fun i hi => ?_
            have := hw (i + 1) (by simpa using hi)
            simpa [Nat.add_assoc, Nat.add_comm 1 i] using this

/-- C01, `EquivalentSourcesGB.fit`: whatever the schedules of the loops of each window, the state and
the outcome are those of the serial fit. -/
theorem C01_fit_gradient_boosted (env : Env) (junk : Junk) (perm : ℕ → List ℕ)
    (modes : ℕ → Mode × Mode) (P : Params) (c : Coords) (data : CArr) (weights : Option CArr)
    (s : State)
    (hs : ∀ points s0 s1 windows,
      createWindows env perm P (castArrs P.dtype (n1dArrays c)) points s0 = (s1, .ok windows) →
      WindowSchedules c.1.data.length modes 0 (windows.1.zip windows.2)) :
    fitGB env junk perm modes P c data weights s =
      fitGB env junk perm (fun _ => (.serial, .serial)) P c data weights s := by
  have hlen : (castArrs P.dtype (n1dArrays c)).1.length = c.1.data.length := by
    simp [castArrs, n1dArrays]
  unfold fitGB
  cases checkFitInput c data weights with
  | error e => rfl
  | ok u =>
    simp only
    cases getRegion (castArrs P.dtype (n1dArrays c)).1 (castArrs P.dtype (n1dArrays c)).2.1 with
    | error e => rfl
    | ok region =>
      simp only
      rcases choosePoints env P (castArrs P.dtype (n1dArrays c))
        { s with region_ := some region } with ⟨s1, e | p⟩
      · rfl
      · simp only
        unfold gradientBoosting
        rcases hw : createWindows env perm P (castArrs P.dtype (n1dArrays c)) p
          { s1 with points_ := some p, coefs_ := some (List.replicate p.1.length 0) } with ⟨s2, e | w⟩
        · rfl
        · simp only
          rw [boostLoop_parallel env junk modes P _ p _ _ 0 _ _ (by rw [hlen]; exact hs _ _ _ _ hw)]

/-- C24 for spherical sources and float longitudes: predictions are the Jacobian times the
coefficients. -/
theorem C24_matrix_spherical_partial (junk : Junk) (mode mode' : Mode) (d1 d2 d3 : DType)
    (hd : d1.IsFloat) (shape : List ℕ) (obs : List P3) (hshape : shape.prod = obs.length)
    (srcs : List (P3 × ℝ)) (hm : mode.Full obs.length (2 * srcs.length))
    (hm' : mode'.Full obs.length srcs.length) (s : State)
    (hp : s.points_ = some (pointArrs (srcs.map (·.1)))) (hc : s.coefs_ = some (srcs.map (·.2))) :
    predictSph junk mode (coordArrs d1 d2 d3 shape obs) s =
      .ok ⟨shape, matVec (jacobian junk mode' greensFuncSpherical .float64 (pointArrs obs)
        (pointArrs (srcs.map (·.1)))) (srcs.map (·.2))⟩ := by
  rw [(C24_jacobian junk mode' .float64 trivial obs (srcs.map (·.1)) (by simpa using hm')).2,
    matVec_field]
  exact predictSph_eq junk mode d1 d2 d3 hd shape obs hshape srcs hm s hp hc

/-- C24 for spherical sources and float longitudes: predictions are linear in the coefficients. -/
theorem C24_linear_spherical_partial (junk : Junk) (mode : Mode) (d1 d2 d3 : DType)
    (hd : d1.IsFloat) (shape : List ℕ) (obs : List P3) (hshape : shape.prod = obs.length)
    (srcs : List (P3 × ℝ × ℝ)) (hm : mode.Full obs.length (2 * srcs.length)) (a b : ℝ)
    (s s1 s2 : State)
    (hp : s.points_ = some (pointArrs (srcs.map (·.1))))
    (hp1 : s1.points_ = some (pointArrs (srcs.map (·.1))))
    (hp2 : s2.points_ = some (pointArrs (srcs.map (·.1))))
    (hc : s.coefs_ = some (srcs.map fun x => a * x.2.1 + b * x.2.2))
    (hc1 : s1.coefs_ = some (srcs.map (·.2.1))) (hc2 : s2.coefs_ = some (srcs.map (·.2.2))) :
    ∃ r1 r2, predictSph junk mode (coordArrs d1 d2 d3 shape obs) s1 = .ok ⟨shape, r1⟩ ∧
      predictSph junk mode (coordArrs d1 d2 d3 shape obs) s2 = .ok ⟨shape, r2⟩ ∧
      predictSph junk mode (coordArrs d1 d2 d3 shape obs) s =
        .ok ⟨shape, List.zipWith (fun x y => a * x + b * y) r1 r2⟩ := by
  have key : ∀ (f : P3 × ℝ × ℝ → ℝ) (s : State),
      s.points_ = some (pointArrs (srcs.map (·.1))) → s.coefs_ = some (srcs.map f) →
      predictSph junk mode (coordArrs d1 d2 d3 shape obs) s =
        .ok ⟨shape, obs.map (field sphPos (srcs.map fun x => (x.1, f x)))⟩ := by
    intro f s hp hc
    refine predictSph_eq junk mode d1 d2 d3 hd shape obs hshape (srcs.map fun x => (x.1, f x))
      (by simpa using hm) s ?_ ?_
    · simpa [List.map_map, Function.comp_def] using hp
    · simpa [List.map_map, Function.comp_def] using hc
  refine ⟨_, _, key _ s1 hp1 hc1, key _ s2 hp2 hc2, ?_⟩
  rw [key _ s hp hc]
  congr 2
  rw [List.zipWith_map, List.zipWith_self]
  apply List.map_congr_left
  intro q _
  unfold field
  simp only [List.map_map, Function.comp_def]
  rw [← List.sum_map_mul_left, ← List.sum_map_mul_left, ← List.sum_map_add]
  congr 1
  apply List.map_congr_left
  intro x _
  ring

/-- A window with two data points and one source, and schedules for it. -/
example : WindowSchedules 2 (fun _ => (.parallel [1, 0], .parallel [1, 0, 1, 0])) 0
    [([0], [0, 1])] := by
  intro i hi
  simp only [List.length_cons, List.length_nil, Nat.zero_add, Nat.lt_one_iff] at hi
  subst hi
  simp only [List.getElem_cons_zero]
  refine ⟨⟨by decide, ?_⟩, by decide, ?_⟩ <;> decide

end Verif.EqSources

namespace Verif.Distance

/-- C10: whole turns added to the longitudes of both points do not change the distance, for
spherical and geodetic coordinates (nor the outcome for unknown systems). -/
theorem C10_distance_turns (system : String) (hs : system ≠ "cartesian") (ell : BouleEllipsoid)
    (p q : P3) (k l : ℤ) :
    distance { p with x := p.x + 360 * k } { q with x := q.x + 360 * l } system (some ell) =
      distance p q system (some ell) := by
  have h : ∀ (p : P3) (k : ℤ),
      pos system ell { p with x := p.x + 360 * k } = pos system ell p := by
    intro p k
    have hr : radians (p.x + 360 * k) = radians p.x + k * (2 * Real.pi) := by unfold radians; ring
    unfold pos sphPos geoPos
    simp [hs, hr, Real.cos_add_int_mul_two_pi, Real.sin_add_int_mul_two_pi]
  rw [C10_distance, C10_distance, h, h]

end Verif.Distance

namespace Verif.Filters

/-- C39: the check that all FFT based transformations begin with: ValueError for grids that do not
have two dimensions or that have a NaN somewhere, and no other grid is refused. -/
theorem C39_sanity (A : Grid) :
    (gridSanityChecks A = .ok () ↔
      A.dims.length = 2 ∧ ∀ idx, InRange idx A.sizes → A.data idx ≠ none) ∧
    (gridSanityChecks A ≠ .ok () → gridSanityChecks A = .error .ValueError) := by
  unfold gridSanityChecks
  split_ifs with h1 h2
  · simp [h1]
  · push Not at h1
    obtain ⟨i, hi, hn⟩ := h2
    simp only [reduceCtorEq, false_iff, not_and, ne_eq, not_false_eq_true, implies_true, and_true]
    intro _ h
    exact h i hi hn
  · push Not at h1 h2
    simpa [h1] using h2

end Verif.Filters

namespace Verif.Ellipsoids
open Verif.Forward Verif.Distance

/-- C02: no bodies give zero gravity and a zero magnetic field, without a warning. -/
theorem C02_ellipsoid_none (mu0 : ℝ) (shape : List ℕ) (pts : List P3)
    (hshape : pts.length = shape.prod) (B0 : V3) :
    ellipsoidGravity (arrays shape pts) (.many []) =
      .ok ((⟨shape, pts.map fun _ => 0⟩, ⟨shape, pts.map fun _ => 0⟩, ⟨shape, pts.map fun _ => 0⟩), 0) ∧
    ellipsoidMagnetic mu0 (arrays shape pts) (.many []) B0 =
      .ok ((⟨shape, pts.map fun _ => 0⟩, ⟨shape, pts.map fun _ => 0⟩, ⟨shape, pts.map fun _ => 0⟩), 0) := by
  have h1 := ellipsoidGravity_eq shape pts hshape (.many []) (fun _ _ => 0)
    (fun e he => by simp [Bodies.toList] at he) (fun e he => by simp [Bodies.toList] at he)
  have h2 := ellipsoidMagnetic_eq mu0 shape pts hshape (.many []) B0 (fun _ _ => 0)
    (fun e he => by simp [Bodies.toList] at he) (fun e he => by simp [Bodies.toList] at he)
  rw [h1, h2]
  constructor <;> simp [gravityResult, magneticResult, Bodies.toList]

end Verif.Ellipsoids
