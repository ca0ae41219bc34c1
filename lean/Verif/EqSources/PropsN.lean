import Verif.EqSources.PropsM
import Verif.Forward.PropsR

/-! C164 for equivalent sources: over a plane above the sources, no prediction exceeds what is predicted on the
plane. -/

namespace Verif.EqSources
open Verif.Forward Verif.Engine Verif.Distance

theorem field_nice (srcs : List (P3 × ℝ)) {z1 : ℝ} (hz : ∀ s ∈ srcs, s.1.z < z1) : Nice z1 (field cartPos srcs) := by
  obtain ⟨r, hr, hab⟩ := above_all srcs (fun s => s.1.z) hz
  have hgap : ∀ q p : P3, dist (cartPos q) (cartPos p) = gap q p := fun q p => by rw [dist_cartPos, gap]
  have far : ∀ q : P3, z1 ≤ q.z → ∀ s ∈ srcs, r ≤ gap q s.1 := by
    intro q hq s hs
    have h1 := hab s hs
    have h3 := (le_abs_self _).trans (abs_x_le_gap q s.1).2.2
    linarith
  set S := (srcs.map fun s => |s.2|).sum with hS
  have e : ∀ x y z, field cartPos srcs ⟨x, y, z⟩ = inverseSum (srcs.map fun s => (cartPos s.1, s.2)) x y z := by
    intro x y z
    rw [field_inverseSum]
    rfl
  refine ⟨continuous_of_move (C := S / r ^ 2) fun q q' hq hq' => ?_, fun q hq => ?_, fun ε hε => ?_⟩
  · have h : Close cartPos q q' r 0 0 srcs srcs := List.forall₂_same.2 fun s hs => by
      simp only [dist_self, sub_self, abs_zero, le_refl, and_true]
      rw [hgap, hgap]
      exact ⟨far q hq s hs, far q' hq' s hs⟩
    refine (field_close cartPos hr h).trans (le_of_eq ?_)
    rw [hgap]
    ring
  · simp only [e]
    apply inverseSum_laplace
    intro src hs
    obtain ⟨⟨⟨a, b, c⟩, m⟩, hs', rfl⟩ := List.mem_map.1 hs
    intro heq
    have h2 := congrArg (fun v : E3 => v 2) heq
    have h3 := hz _ hs'
    simp [cartPos] at h2 h3
    linarith
  · obtain ⟨B, hB, hin⟩ := within_all srcs fun s => max |s.1.x| |s.1.y|
    have hS0 : 0 ≤ S := List.sum_nonneg fun x hx => by
      obtain ⟨s, -, rfl⟩ := List.mem_map.1 hx
      exact abs_nonneg _
    have hR : 0 < S / ε + 1 := by positivity
    refine ⟨(S / ε + 1) + B, fun q hq h => ?_⟩
    have := inverseSum_bound (srcs.map fun s => (cartPos s.1, s.2)) q.x q.y q.z (S / ε + 1) hR (by
      intro s hs
      obtain ⟨s', hs', rfl⟩ := List.mem_map.1 hs
      have h1 := hin s' hs'
      simp only [max_le_iff] at h1
      have := far_gap (B := B) (z1 := z1) h1.1 h1.2 (hz s' hs').le h
      rw [← hgap] at this
      exact this)
    rw [← e] at this
    refine this.trans ?_
    rw [List.map_map, div_le_iff₀ hR]
    have e2 : ε * (S / ε + 1) = S + ε := by field_simp
    rw [e2]
    simp only [Function.comp_def, ← hS]
    linarith

/-- C164, equivalent sources: over a plane above all the sources, no prediction of `EquivalentSources` (or
`EquivalentSourcesGB`) is larger in size than the largest one on the plane. -/
theorem C164_equivalent_sources (junk : Junk) (P : Params) (hd : P.dtype.IsFloat) (srcs : List (P3 × ℝ)) :
    ∃ V : P3 → ℝ, Predicts junk P srcs V ∧
      ∀ z1, (∀ s ∈ srcs, s.1.z < z1) → ∀ M, (∀ q : P3, q.z = z1 → |V q| ≤ M) → ∀ q : P3, z1 ≤ q.z → |V q| ≤ M :=
  ⟨field cartPos srcs,
    fun mode d1 d2 d3 shape obs s hs hm hp hc => C24_predict junk mode P hd d1 d2 d3 shape obs hs srcs hm s hp hc,
    fun _ hz _ hM q hq => (field_nice srcs hz).good.apply hM q hq⟩

/-! ### Examples -/

example (junk : Junk) (P : Params) (hd : P.dtype.IsFloat) : ∃ V : P3 → ℝ,
    Predicts junk P [(⟨0, 0, -1⟩, 2), (⟨3, 0, -1⟩, -1)] V ∧
      ∀ M, (∀ q : P3, q.z = 0 → |V q| ≤ M) → |V ⟨5, 5, 100⟩| ≤ M := by
  obtain ⟨V, h1, h2⟩ := C164_equivalent_sources junk P hd [(⟨0, 0, -1⟩, 2), (⟨3, 0, -1⟩, -1)]
  exact ⟨V, h1, fun M hM => h2 0 (by norm_num) M hM ⟨5, 5, 100⟩ (by norm_num)⟩

end Verif.EqSources
