import Verif.EqSources.PropsE
import Verif.Forward.Laplace

/-! C96: the predictions of equivalent sources satisfy Laplace's equation. -/

namespace Verif.EqSources
open Verif.Forward Verif.Engine Verif.Distance

theorem field_inverseSum (pos : P3 → E3) (srcs : List (P3 × ℝ)) (q : P3) :
    field pos srcs q = inverseSum (srcs.map fun s => (pos s.1, s.2)) (pos q 0) (pos q 1) (pos q 2) := by
  simp only [inverseSum, ← e3_eta, List.map_map, field]
  rfl

/-- C96 for `EquivalentSources` (and `EquivalentSourcesGB`, which inherits `predict`): the predictions of
fitted sources are a function of the position that satisfies Laplace's equation away from the sources and
decays: at a distance of at least ρ from all the sources it is at most the sum of the absolute values of the
coefficients over ρ. -/
theorem C96_cartesian (junk : Junk) (P : Params) (hd : P.dtype.IsFloat) (srcs : List (P3 × ℝ)) (s : State)
    (hp : s.points_ = some (pointArrs (srcs.map (·.1)))) (hc : s.coefs_ = some (srcs.map (·.2))) :
    ∃ V : ℝ → ℝ → ℝ → ℝ,
      (∀ (mode : Mode) (d1 d2 d3 : DType) (shape : List ℕ) (obs : List P3), shape.prod = obs.length →
        mode.Full obs.length (2 * srcs.length) →
        predict junk mode P (coordArrs d1 d2 d3 shape obs) s =
          .ok ⟨shape, obs.map fun q => V q.x q.y q.z⟩) ∧
      (∀ e n u, (∀ src ∈ srcs, src.1 ≠ ⟨e, n, u⟩) → LaplaceAt V e n u) ∧
      ∀ e n u ρ, 0 < ρ → (∀ src ∈ srcs, ρ ≤ dist (cartPos ⟨e, n, u⟩) (cartPos src.1)) →
        |V e n u| ≤ (srcs.map fun src => |src.2|).sum / ρ := by
  refine ⟨inverseSum (srcs.map fun s => (cartPos s.1, s.2)), ?_, ?_, ?_⟩
  · intro mode d1 d2 d3 shape obs hshape hm
    rw [C24_predict junk mode P hd d1 d2 d3 shape obs hshape srcs hm s hp hc]
    congr 2
    apply List.map_congr_left
    intro q _
    rw [field_inverseSum]
    rfl
  · intro e n u h
    apply inverseSum_laplace
    intro src hs
    obtain ⟨⟨⟨a, b, c⟩, m⟩, hs', rfl⟩ := List.mem_map.1 hs
    intro heq
    apply h _ hs'
    have h0 := congrArg (fun v : E3 => v 0) heq
    have h1 := congrArg (fun v : E3 => v 1) heq
    have h2 := congrArg (fun v : E3 => v 2) heq
    simp [cartPos] at h0 h1 h2
    simp [h0, h1, h2]
  · intro e n u ρ hρ h
    refine (inverseSum_bound _ e n u ρ hρ ?_).trans (le_of_eq ?_)
    · intro s hs
      obtain ⟨s', hs', rfl⟩ := List.mem_map.1 hs
      exact h s' hs'
    · rw [List.map_map]; rfl

/-- C96 for `EquivalentSourcesSph` with longitudes of floating point types: the same as a function of the
position in space of the point with that longitude, latitude and radius. -/
theorem C96_spherical (junk : Junk) (srcs : List (P3 × ℝ)) (s : State)
    (hp : s.points_ = some (pointArrs (srcs.map (·.1)))) (hc : s.coefs_ = some (srcs.map (·.2))) :
    ∃ V : ℝ → ℝ → ℝ → ℝ,
      (∀ (mode : Mode) (d1 d2 d3 : DType) (shape : List ℕ) (obs : List P3), d1.IsFloat →
        shape.prod = obs.length → mode.Full obs.length (2 * srcs.length) →
        predictSph junk mode (coordArrs d1 d2 d3 shape obs) s =
          .ok ⟨shape, obs.map fun q => V (sphPos q 0) (sphPos q 1) (sphPos q 2)⟩) ∧
      (∀ x y z, (∀ src ∈ srcs, sphPos src.1 ≠ !₂[x, y, z]) → LaplaceAt V x y z) ∧
      ∀ x y z ρ, 0 < ρ → (∀ src ∈ srcs, ρ ≤ dist !₂[x, y, z] (sphPos src.1)) →
        |V x y z| ≤ (srcs.map fun src => |src.2|).sum / ρ := by
  refine ⟨inverseSum (srcs.map fun s => (sphPos s.1, s.2)), ?_, ?_, ?_⟩
  · intro mode d1 d2 d3 shape obs hd hshape hm
    rw [C24_predict_spherical_partial junk mode d1 d2 d3 hd shape obs hshape srcs hm s hp hc]
    congr 2
    apply List.map_congr_left
    intro q _
    exact field_inverseSum _ _ _
  · intro x y z h
    apply inverseSum_laplace
    intro src hs
    obtain ⟨s', hs', rfl⟩ := List.mem_map.1 hs
    exact (h s' hs').symm
  · intro x y z ρ hρ h
    refine (inverseSum_bound _ x y z ρ hρ ?_).trans (le_of_eq ?_)
    · intro s hs
      obtain ⟨s', hs', rfl⟩ := List.mem_map.1 hs
      exact h s' hs'
    · rw [List.map_map]; rfl

/-- C96: a state with two sources, and a point that is none of them -/
example : ∃ s : State, s.points_ = some (pointArrs ([((⟨0, 0, -1⟩ : P3), (2 : ℝ)), (⟨3, 0, -1⟩, -1)].map (·.1))) ∧
    s.coefs_ = some ([((⟨0, 0, -1⟩ : P3), (2 : ℝ)), (⟨3, 0, -1⟩, -1)].map (·.2)) ∧
    ∀ src ∈ [((⟨0, 0, -1⟩ : P3), (2 : ℝ)), (⟨3, 0, -1⟩, -1)], src.1 ≠ ⟨0, 0, 0⟩ :=
  ⟨{ points_ := some (pointArrs [⟨0, 0, -1⟩, ⟨3, 0, -1⟩]), coefs_ := some [2, -1] }, rfl, rfl, by
    intro src hs
    simp at hs
    rcases hs with rfl | rfl <;> simp⟩

end Verif.EqSources
