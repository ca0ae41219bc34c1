import Verif.Forward.PropsR
import Verif.Forward.PropsQ

/-! C164 for magnetic fields. -/

namespace Verif.Forward

open MeasureTheory Filter Topology
open Verif.Distance (P3)
open Verif.Engine (Mode)

/-! ### Fields with a potential -/

theorem magnetic_good {W Be Bn Bu : P3 → ℝ} {z1 : ℝ}
    (he : ∀ q : P3, z1 ≤ q.z → EastDeriv W (Be q) q) (hn : ∀ q : P3, z1 ≤ q.z → NorthDeriv W (Bn q) q)
    (hu : ∀ q : P3, z1 ≤ q.z → UpDeriv W (Bu q) q) (hcons : ∀ q : P3, z1 ≤ q.z → MagneticConsistent Be Bn Bu q)
    {C D : ℝ} (hW : ∀ q q' : P3, z1 ≤ q.z → z1 ≤ q'.z → |W q - W q'| ≤ C * gap q q')
    (hBe : ∀ q q' : P3, z1 ≤ q.z → z1 ≤ q'.z → |Be q - Be q'| ≤ D * gap q q')
    (hBn : ∀ q q' : P3, z1 ≤ q.z → z1 ≤ q'.z → |Bn q - Bn q'| ≤ D * gap q q')
    (hBu : ∀ q q' : P3, z1 ≤ q.z → z1 ≤ q'.z → |Bu q - Bu q'| ≤ D * gap q q')
    (hdec : ∀ ε > 0, ∃ R, ∀ q : P3, z1 ≤ q.z → R ≤ |q.x| ∨ R ≤ |q.y| ∨ R ≤ q.z - z1 → |W q| ≤ ε) :
    Good z1 Be ∧ Good z1 Bn ∧ Good z1 Bu := by
  have hpot : Nice z1 W := by
    refine ⟨continuous_of_move hW, fun q hq => ?_, hdec⟩
    obtain ⟨ee, en, eu, nn, nu, uu, ⟨c1, -, -⟩, ⟨-, c2, -⟩, ⟨-, -, c3⟩, c4⟩ := hcons q hq.le
    refine ⟨fun t => Be ⟨t, q.y, q.z⟩, fun t => Bn ⟨q.x, t, q.z⟩, fun t => Bu ⟨q.x, q.y, t⟩, _, _, _,
      .of_forall fun t => he ⟨t, q.y, q.z⟩ hq.le, c1, .of_forall fun t => hn ⟨q.x, t, q.z⟩ hq.le, c2, ?_, c3, c4⟩
    filter_upwards [lt_mem_nhds hq] with t ht
    exact hu ⟨q.x, q.y, t⟩ (le_of_lt ht)
  refine ⟨hpot.good.part (d := ⟨1, 0, 0⟩) (by norm_num) (by norm_num) one_ne_zero (fun q hq => ?_) hBe,
    hpot.good.part (d := ⟨0, 1, 0⟩) (by norm_num) (by norm_num) one_ne_zero (fun q hq => ?_) hBn,
    hpot.good.part (d := ⟨0, 0, 1⟩) (by norm_num) (by norm_num) one_ne_zero (fun q hq => ?_) hBu⟩
  · rw [one_mul]; exact (he q hq).along
  · rw [one_mul]; exact (hn q hq).along
  · rw [one_mul]; exact (hu q hq).along

/-! ### Dipoles -/

/-- The scalar potential of a dipole, with the sign for which the field is its gradient. -/
noncomputable def dipolePotential (mu0 : ℝ) (q p : P3) (m : V3) : ℝ :=
  mu0 / (4 * Real.pi * gravitationalConst) *
    (m.x * newtonKernels.e q p 1 + m.y * newtonKernels.n q p 1 + m.z * newtonKernels.u q p 1)

theorem dipolePotential_deriv (mu0 : ℝ) {q p : P3} (h : q ≠ p) (m : V3) :
    EastDeriv (fun q => dipolePotential mu0 q p m) ((dipoleKernels mu0).e q p m) q ∧
    NorthDeriv (fun q => dipolePotential mu0 q p m) ((dipoleKernels mu0).n q p m) q ∧
    UpDeriv (fun q => dipolePotential mu0 q p m) ((dipoleKernels mu0).u q p m) q := by
  obtain ⟨-, ⟨e1, e2, e3⟩, ⟨n1, n2, n3⟩, ⟨u1, u2, u3⟩, -⟩ := newton_deriv h 1
  have hG := gravConst_pos.ne'
  have hpi := Real.pi_ne_zero
  refine ⟨?_, ?_, ?_⟩
  · refine HasDerivAt.congr_deriv ((((HasDerivAt.const_mul m.x e1).fun_add (HasDerivAt.const_mul m.y n1)).fun_add
      (HasDerivAt.const_mul m.z u1)).const_mul (mu0 / (4 * Real.pi * gravitationalConst))) ?_
    simp only [newtonKernels, dipoleKernels]
    field_simp
    ring
  · refine HasDerivAt.congr_deriv ((((HasDerivAt.const_mul m.x e2).fun_add (HasDerivAt.const_mul m.y n2)).fun_add
      (HasDerivAt.const_mul m.z u2)).const_mul (mu0 / (4 * Real.pi * gravitationalConst))) ?_
    simp only [newtonKernels, dipoleKernels]
    field_simp
    ring
  · refine HasDerivAt.congr_deriv ((((HasDerivAt.const_mul m.x e3).fun_add (HasDerivAt.const_mul m.y n3)).fun_add
      (HasDerivAt.const_mul m.z u3)).const_mul (mu0 / (4 * Real.pi * gravitationalConst))) ?_
    simp only [newtonKernels, dipoleKernels]
    field_simp
    ring

theorem accel_move {q q' p : P3} {r : ℝ} (hr : 0 < r) (hp : r ≤ gap q p) (hp' : r ≤ gap q' p) :
    |newtonKernels.e q p 1 - newtonKernels.e q' p 1| ≤ 4 * gravitationalConst * gap q q' / r ^ 3 ∧
    |newtonKernels.n q p 1 - newtonKernels.n q' p 1| ≤ 4 * gravitationalConst * gap q q' / r ^ 3 ∧
    |newtonKernels.u q p 1 - newtonKernels.u q' p 1| ≤ 4 * gravitationalConst * gap q q' / r ^ 3 := by
  have key : ∀ {f : ℝ} {x y : ℝ}, |f| = 10 ^ 5 → |f * x - f * y| ≤ 4 * 10 ^ 5 * (gravitationalConst * |1|) * gap q q' / r ^ 3 →
      |x - y| ≤ 4 * gravitationalConst * gap q q' / r ^ 3 := by
    intro f x y hf h
    rw [← mul_sub, abs_mul, hf, abs_one] at h
    have e : 4 * 10 ^ 5 * (gravitationalConst * 1) * gap q q' / r ^ 3 =
      10 ^ 5 * (4 * gravitationalConst * gap q q' / r ^ 3) := by ring
    rw [e] at h
    exact le_of_mul_le_mul_left h (by norm_num)
  refine ⟨key (f := 10 ^ 5) (by norm_num) ?_, key (f := 10 ^ 5) (by norm_num) ?_,
    key (f := -10 ^ 5) (by norm_num) ?_⟩
  · have h : pointFieldTable newtonKernels "g_e" = some (newtonKernels.e, 10 ^ 5) := by simp [pointFieldTable]
    have := newton_move h hr hp hp' 1
    rwa [show blur "g_e" = (4 * 10 ^ 5, 3) by simp [blur]] at this
  · have h : pointFieldTable newtonKernels "g_n" = some (newtonKernels.n, 10 ^ 5) := by simp [pointFieldTable]
    have := newton_move h hr hp hp' 1
    rwa [show blur "g_n" = (4 * 10 ^ 5, 3) by simp [blur]] at this
  · have h : pointFieldTable newtonKernels "g_z" = some (newtonKernels.u, -10 ^ 5) := by simp [pointFieldTable]
    have := newton_move h hr hp hp' 1
    rwa [show blur "g_z" = (4 * 10 ^ 5, 3) by simp [blur]] at this

/-- The sum of the components of a vector, times a factor. -/
theorem dot_bound {c m1 m2 m3 a b d t : ℝ} (ha : |a| ≤ t) (hb : |b| ≤ t) (hd : |d| ≤ t) :
    |c * (m1 * a + m2 * b + m3 * d)| ≤ |c| * t * (|m1| + |m2| + |m3|) := by
  rw [abs_mul, mul_assoc]
  refine mul_le_mul_of_nonneg_left ((abs_add_three _ _ _).trans ?_) (abs_nonneg _)
  rw [abs_mul, abs_mul, abs_mul]
  have := mul_le_mul_of_nonneg_left ha (abs_nonneg m1)
  have := mul_le_mul_of_nonneg_left hb (abs_nonneg m2)
  have := mul_le_mul_of_nonneg_left hd (abs_nonneg m3)
  linarith

theorem dipole_shift (mu0 : ℝ) (q q' p : P3) (m : V3) :
    let p' : P3 := ⟨p.x + q.x - q'.x, p.y + q.y - q'.y, p.z + q.z - q'.z⟩
    (dipoleKernels mu0).e q' p m = (dipoleKernels mu0).e q p' m ∧
    (dipoleKernels mu0).n q' p m = (dipoleKernels mu0).n q p' m ∧
    (dipoleKernels mu0).u q' p m = (dipoleKernels mu0).u q p' m ∧ gap q' p = gap q p' ∧ gap p p' = gap q q' := by
  have e : ∀ a b c : ℝ, b - (a + b - c) = c - a := fun a b c => by ring
  simp only [dipoleKernels, gap, e, true_and]
  congr 1
  ring

theorem dipole_move (mu0 : ℝ) {q q' p : P3} {r : ℝ} (hr : 0 < r) (hp : r ≤ gap q p) (hp' : r ≤ gap q' p) (m : V3) :
    |(dipoleKernels mu0).e q p m - (dipoleKernels mu0).e q' p m| ≤
      |mu0| / (4 * Real.pi) * (24 * gap q q' / r ^ 4) * (|m.x| + |m.y| + |m.z|) ∧
    |(dipoleKernels mu0).n q p m - (dipoleKernels mu0).n q' p m| ≤
      |mu0| / (4 * Real.pi) * (24 * gap q q' / r ^ 4) * (|m.x| + |m.y| + |m.z|) ∧
    |(dipoleKernels mu0).u q p m - (dipoleKernels mu0).u q' p m| ≤
      |mu0| / (4 * Real.pi) * (24 * gap q q' / r ^ 4) * (|m.x| + |m.y| + |m.z|) := by
  obtain ⟨d1, d2, d3⟩ := dipole_parts mu0
  obtain ⟨s1, s2, s3, s4, s5⟩ := dipole_shift mu0 q q' p m
  rw [s1, s2, s3]
  rw [s4] at hp'
  exact ⟨d1.near _ _ _ m r _ hr hp hp' s5.le, d2.near _ _ _ m r _ hr hp hp' s5.le, d3.near _ _ _ m r _ hr hp hp' s5.le⟩

theorem dipoles_consistent {mu0 : ℝ} {K : MagKernels P3} (hK : K.Dipole mu0) (srcs : List (P3 × V3)) {q : P3}
    (hq : ∀ s ∈ srcs, q ≠ s.1) :
    MagneticConsistent (fun q => total (fun q s => K.e q s.1 s.2) srcs q * 10 ^ 9)
      (fun q => total (fun q s => K.n q s.1 s.2) srcs q * 10 ^ 9)
      (fun q => total (fun q s => K.u q s.1 s.2) srcs q * 10 ^ 9) q := by
  obtain ⟨Be, Bn, Bu, h1, h2⟩ := C105_dipole_magnetic (fun _ _ => 0) mu0 K hK [] srcs
  have e : ∀ q, Be q = total (fun q s => K.e q s.1 s.2) srcs q * 10 ^ 9 ∧
      Bn q = total (fun q s => K.n q s.1 s.2) srcs q * 10 ^ 9 ∧
      Bu q = total (fun q s => K.u q s.1 s.2) srcs q * 10 ^ 9 := by
    intro q
    have g1 := (h1 .serial [] [q] false rfl (by simp [Mode.Full])).1
    have g2 := dipoleMagnetic_total (fun _ _ => 0) hK srcs .serial [] [] [q] false rfl (by simp [Mode.Full])
    have g3 := g1.symm.trans g2
    simpa using g3
  have := h2 q hq
  rwa [show Be = _ from funext fun q => (e q).1, show Bn = _ from funext fun q => (e q).2.1,
    show Bu = _ from funext fun q => (e q).2.2] at this

theorem dipoles_good {mu0 : ℝ} {K : MagKernels P3} (hK : K.Dipole mu0) (srcs : List (P3 × V3)) {z1 : ℝ}
    (hz : ∀ s ∈ srcs, s.1.z < z1) :
    Good z1 (fun q => total (fun q s => K.e q s.1 s.2) srcs q * 10 ^ 9) ∧
    Good z1 (fun q => total (fun q s => K.n q s.1 s.2) srcs q * 10 ^ 9) ∧
    Good z1 (fun q => total (fun q s => K.u q s.1 s.2) srcs q * 10 ^ 9) := by
  obtain ⟨r, hr, hab⟩ := above_all srcs (fun s => s.1.z) hz
  have far : ∀ q : P3, z1 ≤ q.z → ∀ s ∈ srcs, r ≤ gap q s.1 := by
    intro q hq s hs
    have h1 := hab s hs
    have h3 := (le_abs_self _).trans (abs_x_le_gap q s.1).2.2
    linarith
  have hne : ∀ q : P3, z1 ≤ q.z → ∀ s ∈ srcs, q ≠ s.1 := by
    intro q hq s hs e
    have := far q hq s hs
    rw [e, gap_self] at this
    linarith
  have lip : ∀ {k k0 : P3 → P3 → V3 → ℝ} {A : ℝ}, (∀ q p m, q ≠ p → k q p m = k0 q p m) →
      (∀ q q' p m, r ≤ gap q p → r ≤ gap q' p → |k0 q p m - k0 q' p m| ≤ A * gap q q' * (|m.x| + |m.y| + |m.z|)) →
      ∀ q q' : P3, z1 ≤ q.z → z1 ≤ q'.z →
        |total (fun q s => k q s.1 s.2) srcs q * 10 ^ 9 - total (fun q s => k q s.1 s.2) srcs q' * 10 ^ 9| ≤
          10 ^ 9 * A * (srcs.map fun s => |s.2.x| + |s.2.y| + |s.2.z|).sum * gap q q' := by
    intro k k0 A hk h q q' hq hq'
    rw [← sub_mul, abs_mul, abs_of_pos (show (0 : ℝ) < 10 ^ 9 by norm_num)]
    unfold total
    rw [sum_map_sub']
    have := abs_sum_le srcs (fun s => k q s.1 s.2 - k q' s.1 s.2)
      (fun s => A * gap q q' * (|s.2.x| + |s.2.y| + |s.2.z|)) fun s hs => by
        rw [hk _ _ _ (hne q hq s hs), hk _ _ _ (hne q' hq' s hs)]
        exact h q q' s.1 s.2 (far q hq s hs) (far q' hq' s hs)
    rw [List.sum_map_mul_left] at this
    refine (mul_le_mul_of_nonneg_right this (by norm_num)).trans (le_of_eq ?_)
    ring
  have der : ∀ {γ : P3 → ℝ → P3} {c : P3 → ℝ} {k k0 : P3 → P3 → V3 → ℝ}, (∀ q, Along (γ q) q (c q)) →
      (∀ q p m, q ≠ p → k q p m = k0 q p m) →
      (∀ q p m, q ≠ p → HasDerivAt (fun t => dipolePotential mu0 (γ q t) p m) (k0 q p m) (c q)) →
      ∀ q : P3, z1 ≤ q.z → HasDerivAt (fun t => total (fun q s => dipolePotential mu0 q s.1 s.2) srcs (γ q t) * 10 ^ 9)
        (total (fun q s => k q s.1 s.2) srcs q * 10 ^ 9) (c q) := by
    intro γ c k k0 hγ hk h q hq
    refine (total_deriv (k := dipolePotential mu0) (f := dipolePotential mu0) (k' := k) (fun _ _ _ _ => rfl) (hγ q) srcs
      (hne q hq) fun s hs => ?_).mul_const _
    rw [hk _ _ _ (hne q hq s hs)]
    exact h q s.1 s.2 (hne q hq s hs)
  set c := mu0 / (4 * Real.pi * gravitationalConst) with hc
  refine magnetic_good (W := fun q => total (fun q s => dipolePotential mu0 q s.1 s.2) srcs q * 10 ^ 9)
    (C := 10 ^ 9 * (|c| * (4 * gravitationalConst / r ^ 3)) * (srcs.map fun s => |s.2.x| + |s.2.y| + |s.2.z|).sum)
    (D := 10 ^ 9 * (|mu0| / (4 * Real.pi) * (24 / r ^ 4)) * (srcs.map fun s => |s.2.x| + |s.2.y| + |s.2.z|).sum)
    (der along_east hK.e fun q p m h => (dipolePotential_deriv mu0 h m).1)
    (der along_north hK.n fun q p m h => (dipolePotential_deriv mu0 h m).2.1)
    (der along_up hK.u fun q p m h => (dipolePotential_deriv mu0 h m).2.2) ?_
    (lip (fun _ _ _ _ => rfl) ?_) (lip hK.e ?_) (lip hK.n ?_) (lip hK.u ?_) ?_
  · intro q hq
    exact dipoles_consistent hK srcs (hne q hq)
  · intro q q' p m hp hp'
    obtain ⟨a1, a2, a3⟩ := accel_move hr hp hp'
    have := dot_bound (c := c) (m1 := m.x) (m2 := m.y) (m3 := m.z) a1 a2 a3
    have e : dipolePotential mu0 q p m - dipolePotential mu0 q' p m =
        c * (m.x * (newtonKernels.e q p 1 - newtonKernels.e q' p 1) + m.y * (newtonKernels.n q p 1 - newtonKernels.n q' p 1) +
          m.z * (newtonKernels.u q p 1 - newtonKernels.u q' p 1)) := by
      simp only [dipolePotential, hc]
      ring
    rw [e]
    refine this.trans (le_of_eq ?_)
    ring
  · intro q q' p m hp hp'
    exact (dipole_move mu0 hr hp hp' m).1.trans (le_of_eq (by ring))
  · intro q q' p m hp hp'
    exact (dipole_move mu0 hr hp hp' m).2.1.trans (le_of_eq (by ring))
  · intro q q' p m hp hp'
    exact (dipole_move mu0 hr hp hp' m).2.2.trans (le_of_eq (by ring))
  · intro ε hε
    obtain ⟨B, hB, hin⟩ := within_all srcs fun s => max |s.1.x| |s.1.y|
    set S := 10 ^ 9 * (|c| * gravitationalConst) * (srcs.map fun s => |s.2.x| + |s.2.y| + |s.2.z|).sum with hS
    refine ⟨(|S| / ε + 1) + B, fun q hq h => ?_⟩
    set R := |S| / ε + 1 with hRd
    have hR1 : 1 ≤ R := by
      have : 0 ≤ |S| / ε := by positivity
      linarith
    have hR : 0 < R := by linarith
    have hd : ∀ s ∈ srcs, R ≤ gap q s.1 := by
      intro s hs
      have h1 := hin s hs
      simp only [max_le_iff] at h1
      exact far_gap (B := B) (z1 := z1) h1.1 h1.2 (hz s hs).le h
    have hG := gravConst_pos
    have b : |total (fun q s => dipolePotential mu0 q s.1 s.2) srcs q| ≤
        |c| * (gravitationalConst / R) * (srcs.map fun s => |s.2.x| + |s.2.y| + |s.2.z|).sum := by
      unfold total
      rw [← List.sum_map_mul_left]
      refine abs_sum_le srcs _ _ fun s hs => ?_
      have hg := hd s hs
      have hg0 := hR.trans_le hg
      obtain ⟨x1, y1, z1⟩ := abs_x_le_gap q s.1
      have key : ∀ {X : ℝ}, |X| ≤ gap q s.1 → |-(gravitationalConst * 1 * X) / gap q s.1 ^ 3| ≤ gravitationalConst / R := by
        intro X hX
        refine (accel_bound hG.le hg0 hX).trans (div_le_div_of_nonneg_left hG.le hR ?_)
        nlinarith
      exact dot_bound (key x1) (key y1) (key z1)
    rw [abs_mul, abs_of_pos (show (0 : ℝ) < 10 ^ 9 by norm_num)]
    refine (mul_le_mul_of_nonneg_right b (by norm_num)).trans ?_
    have e1 : |c| * (gravitationalConst / R) * (srcs.map fun s => |s.2.x| + |s.2.y| + |s.2.z|).sum * 10 ^ 9 = S / R := by
      rw [hS]
      ring
    rw [e1, div_le_iff₀ hR]
    have : ε * R = |S| + ε := by
      rw [hRd]
      field_simp
    rw [this]
    have := le_abs_self S
    linarith

theorem dipoles_unique {junk : Junk} {K : MagKernels P3} {srcs : List (P3 × V3)} {B B' : P3 → V3}
    (h : DipolesReturn junk K srcs B) (h' : DipolesReturn junk K srcs B') : B = B' := by
  funext q
  have g := (h .serial [] [] [q] false rfl (by simp [Mode.Full])).symm.trans
    (h' .serial [] [] [q] false rfl (by simp [Mode.Full]))
  simp only [List.map_cons, List.map_nil, Except.ok.injEq, MagResult.vector.injEq, NdArray.mk.injEq, List.cons.injEq,
    and_true, true_and] at g
  obtain ⟨g1, g2, g3⟩ := g
  calc B q = ⟨(B q).x, (B q).y, (B q).z⟩ := rfl
    _ = ⟨(B' q).x, (B' q).y, (B' q).z⟩ := by rw [g1, g2, g3]
    _ = B' q := rfl

theorem magnets_good (junk : Junk) {mu0 : ℝ} {K : MagKernels Prism} (hK : K.Magnetized mu0)
    (srcs : List (Prism × V3)) (hord : ∀ s ∈ srcs, s.1.Ordered) :
    ∃ B : P3 → V3, MagnetsReturn junk K srcs B ∧
      ∀ part ∈ [P3.x, P3.y, P3.z], ∀ z1, (∀ s ∈ srcs, s.1.top < z1) → Good z1 fun q => part (B q) := by
  obtain ⟨B, B', h1, h2, h3⟩ := C162_converge junk hK (dipoleKernels_dipole mu0) srcs hord
  refine ⟨B, h1, ?_⟩
  intro part hp z1 hz
  obtain ⟨r, hr, hab⟩ := above_all srcs (fun s => s.1.top) hz
  obtain ⟨L, hL, hin⟩ := within_all srcs fun s =>
    √((s.1.east - s.1.west) ^ 2 + (s.1.north - s.1.south) ^ 2 + (s.1.top - s.1.bottom) ^ 2)
  have far : ∀ q : P3, z1 ≤ q.z → ∀ s ∈ srcs, ∀ x ∈ s.1.body, r ≤ gap q (pointAt x) := by
    rintro q hq s hs x ⟨-, -, -, x6⟩
    have h1 := hab s hs
    have h3 := (le_abs_self _).trans (abs_x_le_gap q (pointAt x)).2.2
    simp only [pointAt] at h3
    simp only [pointAt]
    linarith
  set S := 10 ^ 9 * (|mu0| / (4 * Real.pi) * (12 * L / r ^ 4) * momentSum srcs) with hS
  have err : ∀ q : P3, z1 ≤ q.z → ∀ n : ℕ, n ≠ 0 → |part (B q) - part (B' n q)| ≤ S / n := by
    intro q hq n hn
    have hn0 : (n : ℝ) ≠ 0 := by exact_mod_cast hn
    have := h3 q r L hr (far q hq) hin n hn
    simp only at this
    rw [show 10 ^ 9 * (|mu0| / (4 * Real.pi) * (24 * (L / (2 * n)) / r ^ 4) * momentSum srcs) = S / n by
      rw [hS]
      field_simp
      ring] at this
    simp only [List.mem_cons, List.not_mem_nil, or_false] at hp
    rcases hp with rfl | rfl | rfl
    exacts [this.1, this.2.1, this.2.2]
  have dip : ∀ n, Good z1 fun q => part (B' n q) := by
    intro n
    obtain ⟨g1, g2, g3⟩ := dipoles_good (dipoleKernels_dipole mu0) (magnets (centredMagnets n srcs)) (z1 := z1) (by
      intro s hs
      simp only [magnets, List.mem_map] at hs
      obtain ⟨t, ht, rfl⟩ := hs
      obtain ⟨s, hs, i, j, k, hi, hj, hk, rfl⟩ := centredMagnets_mem ht
      obtain ⟨-, -, f3, f4, -⟩ := part_facts (hord s hs) hi hj hk
      obtain ⟨-, -, -, f6⟩ := f3 f4
      exact f6.trans_lt (hz s hs))
    have e := dipoles_unique (h2 n) (dipoleMagnetic_total junk (dipoleKernels_dipole mu0) _)
    rw [e]
    simp only [List.mem_cons, List.not_mem_nil, or_false] at hp
    rcases hp with rfl | rfl | rfl
    exacts [g1, g2, g3]
  refine .limit fun ε hε => ?_
  obtain ⟨n, hn⟩ := exists_nat_gt (|S| / ε)
  have hn0 : (0 : ℝ) < n := lt_of_le_of_lt (by positivity) hn
  have hn1 : n ≠ 0 := by
    rintro rfl
    simp at hn0
  refine ⟨_, dip n, fun q hq => (err q hq n hn1).trans ?_⟩
  rw [div_lt_iff₀ hε] at hn
  rw [div_le_iff₀ hn0]
  have := le_abs_self S
  linarith

/-! ### C164 -/

/-- C164, dipoles: over a plane above all the dipoles, no component of the field that `dipole_magnetic` returns is
larger in size than the largest size that it has on the plane. -/
theorem C164_dipoles (junk : Junk) {mu0 : ℝ} {K : MagKernels P3} (hK : K.Dipole mu0) (srcs : List (P3 × V3)) :
    ∃ B : P3 → V3, DipolesReturn junk K srcs B ∧
      ∀ part ∈ [P3.x, P3.y, P3.z], ∀ z1, (∀ s ∈ srcs, s.1.z < z1) → ∀ M, (∀ q : P3, q.z = z1 → |part (B q)| ≤ M) →
        ∀ q : P3, z1 ≤ q.z → |part (B q)| ≤ M := by
  refine ⟨_, dipoleMagnetic_total junk hK srcs, ?_⟩
  intro part hp z1 hz M hM q hq
  obtain ⟨g1, g2, g3⟩ := dipoles_good hK srcs hz
  simp only [List.mem_cons, List.not_mem_nil, or_false] at hp
  rcases hp with rfl | rfl | rfl
  · exact g1.apply hM q hq
  · exact g2.apply hM q hq
  · exact g3.apply hM q hq

/-- C164, magnetized prisms: the same for `prism_magnetic`, over a plane above all the prisms. -/
theorem C164_magnetized (junk : Junk) {mu0 : ℝ} {K : MagKernels Prism} (hK : K.Magnetized mu0)
    (srcs : List (Prism × V3)) (hord : ∀ s ∈ srcs, s.1.Ordered) :
    ∃ B : P3 → V3, MagnetsReturn junk K srcs B ∧
      ∀ part ∈ [P3.x, P3.y, P3.z], ∀ z1, (∀ s ∈ srcs, s.1.top < z1) → ∀ M, (∀ q : P3, q.z = z1 → |part (B q)| ≤ M) →
        ∀ q : P3, z1 ≤ q.z → |part (B q)| ≤ M := by
  obtain ⟨B, h1, h2⟩ := magnets_good junk hK srcs hord
  exact ⟨B, h1, fun part hp z1 hz M hM q hq => (h2 part hp z1 hz).apply hM q hq⟩

/-! ### Examples -/

example : ∃ B : P3 → V3, DipolesReturn (fun _ _ => 0) (dipoleKernels 1) [(⟨0, 0, 0⟩, ⟨3, 0, -4⟩), (⟨5, 1, -3⟩, ⟨0, 2, 0⟩)] B ∧
    ∀ M, (∀ q : P3, q.z = 10 → |(B q).z| ≤ M) → |(B ⟨0, 0, 1000⟩).z| ≤ M := by
  obtain ⟨B, h1, h2⟩ := C164_dipoles (fun _ _ => 0) (dipoleKernels_dipole 1)
    [(⟨0, 0, 0⟩, ⟨3, 0, -4⟩), (⟨5, 1, -3⟩, ⟨0, 2, 0⟩)]
  exact ⟨B, h1, fun M hM => h2 P3.z (by simp) 10 (by norm_num) M hM ⟨0, 0, 1000⟩ (by norm_num)⟩

example : ∃ B : P3 → V3, MagnetsReturn (fun _ _ => 0) (bodyMagKernels 1) [(⟨-50, 50, -50, 50, -50, 50⟩, ⟨3, 0, -4⟩)] B ∧
    ∀ M, (∀ q : P3, q.z = 60 → |(B q).x| ≤ M) → |(B ⟨0, 0, 1000⟩).x| ≤ M := by
  obtain ⟨B, h1, h2⟩ := C164_magnetized (fun _ _ => 0) (bodyMagKernels_magnetized 1)
    [(⟨-50, 50, -50, 50, -50, 50⟩, ⟨3, 0, -4⟩)] (by simp [Prism.Ordered])
  exact ⟨B, h1, fun M hM => h2 P3.x (by simp) 60 (by norm_num) M hM ⟨0, 0, 1000⟩ (by norm_num)⟩

end Verif.Forward
