import Verif.Continuation.AwayB

/-! Magnetic fields away from the sources, for C167. -/

namespace Verif.Continuation
open Filter Topology
open Verif.Forward Verif.Distance Verif.EqSources
open Verif.Engine (Mode)

theorem newton_off {field : String} (hf : field ∈ prismFieldNames) {k : P3 → P3 → ℝ → ℝ} {f : ℝ}
    (h : pointFieldTable newtonKernels field = some (k, f)) (h0 : f ≠ 0) (p : P3) {T : Set E3} (hp : cartPos p ∈ T) :
    Off T fun q => k q p 1 := by
  intro r hr
  have h1 := (points_off newtonKernels_newtonian [(p, 1)] hf r hr).smul f⁻¹
  have h2 : Tame (Away T r) _ := h1.mono (away_sub fun t ht => by
    obtain ⟨s, hs, rfl⟩ := mem_listPoints.1 ht
    rw [List.mem_singleton] at hs
    rw [hs]
    exact hp)
  refine h2.congr fun q _ => ?_
  simp only [pointField, h, total, List.map_cons, List.map_nil, List.sum_cons, List.sum_nil, add_zero]
  rw [← mul_assoc, inv_mul_cancel₀ h0, one_mul]

theorem dipole_parts_eq (mu0 : ℝ) (q p : P3) (m : V3) :
    (dipoleKernels mu0).e q p m = mu0 / (4 * Real.pi * gravitationalConst) *
      (m.x * newtonKernels.ee q p 1 + m.y * newtonKernels.en q p 1 + m.z * newtonKernels.eu q p 1) ∧
    (dipoleKernels mu0).n q p m = mu0 / (4 * Real.pi * gravitationalConst) *
      (m.x * newtonKernels.en q p 1 + m.y * newtonKernels.nn q p 1 + m.z * newtonKernels.nu q p 1) ∧
    (dipoleKernels mu0).u q p m = mu0 / (4 * Real.pi * gravitationalConst) *
      (m.x * newtonKernels.eu q p 1 + m.y * newtonKernels.nu q p 1 + m.z * newtonKernels.uu q p 1) := by
  have hG := gravConst_pos.ne'
  have hpi := Real.pi_ne_zero
  simp only [newtonKernels, dipoleKernels]
  refine ⟨?_, ?_, ?_⟩ <;> field_simp <;> ring

theorem calm_zero (W : Set P3) : Tame W fun _ => 0 := fun ε hε =>
  ⟨fun _ => 0, ⟨continuousOn_const, fun _ _ => LaplaceAt.zero _ _ _, fun _ h => ⟨0, fun _ _ _ => by simpa using h.le⟩⟩,
    fun _ _ => by simpa using hε.le⟩

theorem total_off {A : Type} {T : Set E3} (k : P3 → P3 → A → ℝ) (srcs : List (P3 × A))
    (h : ∀ s ∈ srcs, Off T fun q => k q s.1 s.2) : Off T fun q => total (fun q (s : P3 × A) => k q s.1 s.2) srcs q := by
  intro r hr
  induction srcs with
  | nil => exact calm_zero _
  | cons s srcs ih =>
    have := (h s List.mem_cons_self r hr).add (ih fun s hs => h s (List.mem_cons_of_mem _ hs))
    simpa [total] using this

theorem dipoles_off {mu0 : ℝ} {K : MagKernels P3} (hK : K.Dipole mu0) (srcs : List (P3 × V3)) {T : Set E3}
    (hT : ∀ s ∈ srcs, cartPos s.1 ∈ T) :
    Off T (fun q => total (fun q s => K.e q s.1 s.2) srcs q * 10 ^ 9) ∧
    Off T (fun q => total (fun q s => K.n q s.1 s.2) srcs q * 10 ^ 9) ∧
    Off T (fun q => total (fun q s => K.u q s.1 s.2) srcs q * 10 ^ 9) := by
  have lin : ∀ {k k0 : P3 → P3 → V3 → ℝ} {a b d : P3 → P3 → ℝ → ℝ}, (∀ q p m, q ≠ p → k q p m = k0 q p m) →
      (∀ p, cartPos p ∈ T → Off T fun q => a q p 1) → (∀ p, cartPos p ∈ T → Off T fun q => b q p 1) →
      (∀ p, cartPos p ∈ T → Off T fun q => d q p 1) →
      (∀ q p m, k0 q p m = mu0 / (4 * Real.pi * gravitationalConst) * (m.x * a q p 1 + m.y * b q p 1 + m.z * d q p 1)) →
      Off T (fun q => total (fun q s => k q s.1 s.2) srcs q * 10 ^ 9) := by
    intro k k0 a b d hk ha hb hd h r hr
    have := (total_off (T := T) k srcs (fun s hs r hr => by
      refine ((((ha s.1 (hT s hs) r hr).smul s.2.x).add ((hb s.1 (hT s hs) r hr).smul s.2.y)).add
        ((hd s.1 (hT s hs) r hr).smul s.2.z)).smul (mu0 / (4 * Real.pi * gravitationalConst)) |>.congr fun q hq => ?_
      rw [hk q s.1 s.2 ?_, h]
      intro e
      have := hq _ (hT s hs)
      rw [e, dist_self] at this
      linarith) r hr).smul (10 ^ 9)
    simpa only [mul_comm (total _ _ _)] using this
  have ee : ∀ p, cartPos p ∈ T → Off T fun q => newtonKernels.ee q p 1 := fun p hp =>
    newton_off (field := "g_ee") (by simp [prismFieldNames]) rfl (by norm_num) p hp
  have nn : ∀ p, cartPos p ∈ T → Off T fun q => newtonKernels.nn q p 1 := fun p hp =>
    newton_off (field := "g_nn") (by simp [prismFieldNames]) rfl (by norm_num) p hp
  have uu : ∀ p, cartPos p ∈ T → Off T fun q => newtonKernels.uu q p 1 := fun p hp =>
    newton_off (field := "g_zz") (by simp [prismFieldNames]) rfl (by norm_num) p hp
  have en : ∀ p, cartPos p ∈ T → Off T fun q => newtonKernels.en q p 1 := fun p hp =>
    newton_off (field := "g_en") (by simp [prismFieldNames]) rfl (by norm_num) p hp
  have eu : ∀ p, cartPos p ∈ T → Off T fun q => newtonKernels.eu q p 1 := fun p hp =>
    newton_off (field := "g_ez") (by simp [prismFieldNames]) rfl (by norm_num) p hp
  have nu : ∀ p, cartPos p ∈ T → Off T fun q => newtonKernels.nu q p 1 := fun p hp =>
    newton_off (field := "g_nz") (by simp [prismFieldNames]) rfl (by norm_num) p hp
  exact ⟨lin hK.e ee en eu fun q p m => (dipole_parts_eq mu0 q p m).1,
    lin hK.n en nn nu fun q p m => (dipole_parts_eq mu0 q p m).2.1,
    lin hK.u eu nu uu fun q p m => (dipole_parts_eq mu0 q p m).2.2⟩

theorem magnets_off (junk : Junk) {mu0 : ℝ} {K : MagKernels Prism} (hK : K.Magnetized mu0)
    (srcs : List (Prism × V3)) (hord : ∀ s ∈ srcs, s.1.Ordered) :
    ∃ B : P3 → V3, MagnetsReturn junk K srcs B ∧
      ∀ part ∈ [P3.x, P3.y, P3.z], Off (prismPoints srcs) fun q => part (B q) := by
  obtain ⟨B, B', h1, h2, h3⟩ := C162_converge junk hK (dipoleKernels_dipole mu0) srcs hord
  refine ⟨B, h1, ?_⟩
  intro part hp r hr
  obtain ⟨L, hL, hin⟩ := within_all srcs fun s =>
    √((s.1.east - s.1.west) ^ 2 + (s.1.north - s.1.south) ^ 2 + (s.1.top - s.1.bottom) ^ 2)
  set S := 10 ^ 9 * (|mu0| / (4 * Real.pi) * (12 * L / r ^ 4) * momentSum srcs) with hS
  have err : ∀ q ∈ Away (prismPoints srcs) r, ∀ n : ℕ, n ≠ 0 → |part (B q) - part (B' n q)| ≤ S / n := by
    intro q hq n hn
    have hn0 : (n : ℝ) ≠ 0 := by exact_mod_cast hn
    have := h3 q r L hr (away_prisms hq) hin n hn
    simp only at this
    rw [show 10 ^ 9 * (|mu0| / (4 * Real.pi) * (24 * (L / (2 * n)) / r ^ 4) * momentSum srcs) = S / n by
      rw [hS]
      field_simp
      ring] at this
    simp only [List.mem_cons, List.not_mem_nil, or_false] at hp
    rcases hp with rfl | rfl | rfl
    exacts [this.1, this.2.1, this.2.2]
  have dip : ∀ n, Tame (Away (prismPoints srcs) r) fun q => part (B' n q) := by
    intro n
    obtain ⟨g1, g2, g3⟩ := dipoles_off (dipoleKernels_dipole mu0) (magnets (centredMagnets n srcs))
      (T := prismPoints srcs) (by
      intro s hs
      simp only [magnets, List.mem_map] at hs
      obtain ⟨t, ht, rfl⟩ := hs
      obtain ⟨s, hs, i, j, k, hi, hj, hk, rfl⟩ := centredMagnets_mem ht
      obtain ⟨-, -, f3, f4, -⟩ := part_facts (hord s hs) hi hj hk
      exact mem_prismPoints.2 ⟨s, hs, _, f3 f4, rfl⟩)
    have e := dipoles_unique (h2 n) (dipoleMagnetic_total junk (dipoleKernels_dipole mu0) _)
    rw [e]
    simp only [List.mem_cons, List.not_mem_nil, or_false] at hp
    rcases hp with rfl | rfl | rfl
    exacts [g1 r hr, g2 r hr, g3 r hr]
  intro ε hε
  obtain ⟨n, hn⟩ := exists_nat_gt (|S| / (ε / 2))
  have hn0 : (0 : ℝ) < n := lt_of_le_of_lt (by positivity) hn
  have hn1 : n ≠ 0 := by
    rintro rfl
    simp at hn0
  obtain ⟨g, g1, g2⟩ := dip n (ε / 2) (half_pos hε)
  refine ⟨g, g1, fun q hq => ?_⟩
  have a1 : |part (B q) - part (B' n q)| ≤ ε / 2 := by
    refine (err q hq n hn1).trans ?_
    rw [div_lt_iff₀ (half_pos hε)] at hn
    rw [div_le_iff₀ hn0]
    have := le_abs_self S
    linarith
  have a2 := g2 q hq
  have := abs_sub_le (part (B q)) (part (B' n q)) (g q)
  linarith

end Verif.Continuation
