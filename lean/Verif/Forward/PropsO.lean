import Verif.Forward.PropsG
import Verif.Forward.PropsF

/-! C133: the fields of point masses, dipoles and prisms are bounded by their masses or moments over powers of the distance. -/

namespace Verif.Forward

open MeasureTheory
open Verif.Distance (P3)

/-- The length of a vector. -/
noncomputable def V3.size (v : V3) : ℝ := √(v.x ^ 2 + v.y ^ 2 + v.z ^ 2)

theorem V3.size_nonneg (v : V3) : 0 ≤ v.size := Real.sqrt_nonneg _

theorem V3.size_sq (v : V3) : v.size ^ 2 = v.x ^ 2 + v.y ^ 2 + v.z ^ 2 := Real.sq_sqrt (by positivity)

theorem along_algebra {x y z r mx my mz ax ay az A M : ℝ} (hr : r ^ 2 = x ^ 2 + y ^ 2 + z ^ 2) (hA : 0 ≤ A) (hM : 0 ≤ M)
    (hA2 : A ^ 2 = ax ^ 2 + ay ^ 2 + az ^ 2) (hM2 : M ^ 2 = mx ^ 2 + my ^ 2 + mz ^ 2) :
    |ax * (3 * (mx * x + my * y + mz * z) * x - mx * r ^ 2) + ay * (3 * (mx * x + my * y + mz * z) * y - my * r ^ 2) +
      az * (3 * (mx * x + my * y + mz * z) * z - mz * r ^ 2)| ≤ 2 * (A * M) * r ^ 2 := by
  generalize hs : mx * x + my * y + mz * z = s
  have hcs : s ^ 2 ≤ M ^ 2 * r ^ 2 := by
    rw [hM2, hr, ← hs]
    nlinarith [sq_nonneg (mx * y - my * x), sq_nonneg (mx * z - mz * x), sq_nonneg (my * z - mz * y)]
  have e1 : (3 * s * x - mx * r ^ 2) ^ 2 + (3 * s * y - my * r ^ 2) ^ 2 + (3 * s * z - mz * r ^ 2) ^ 2 =
      3 * s ^ 2 * r ^ 2 + M ^ 2 * r ^ 4 := by
    have : (3 * s * x - mx * r ^ 2) ^ 2 + (3 * s * y - my * r ^ 2) ^ 2 + (3 * s * z - mz * r ^ 2) ^ 2 =
        9 * s ^ 2 * (x ^ 2 + y ^ 2 + z ^ 2) - 6 * s * r ^ 2 * (mx * x + my * y + mz * z) +
          (mx ^ 2 + my ^ 2 + mz ^ 2) * r ^ 4 := by ring
    rw [this, ← hr, ← hM2, hs]
    ring
  have hX : (3 * s * x - mx * r ^ 2) ^ 2 + (3 * s * y - my * r ^ 2) ^ 2 + (3 * s * z - mz * r ^ 2) ^ 2 ≤
      4 * M ^ 2 * r ^ 4 := by
    rw [e1]
    have := mul_le_mul_of_nonneg_right hcs (sq_nonneg r)
    linarith [show M ^ 2 * r ^ 2 * r ^ 2 = M ^ 2 * r ^ 4 by ring]
  generalize 3 * s * x - mx * r ^ 2 = X at hX ⊢
  generalize 3 * s * y - my * r ^ 2 = Y at hX ⊢
  generalize 3 * s * z - mz * r ^ 2 = Z at hX ⊢
  have h1 : (ax * X + ay * Y + az * Z) ^ 2 ≤ A ^ 2 * (X ^ 2 + Y ^ 2 + Z ^ 2) := by
    rw [hA2]
    nlinarith [sq_nonneg (ax * Y - ay * X), sq_nonneg (ax * Z - az * X), sq_nonneg (ay * Z - az * Y)]
  have h2 := mul_le_mul_of_nonneg_left hX (sq_nonneg A)
  refine abs_le_of_sq_le_sq ?_ (by positivity)
  calc _ ≤ _ := h1.trans h2
    _ = _ := by ring

/-- The part of the field of a dipole along any vector. -/
theorem dipole_along (mu0 : ℝ) {q p : P3} (h : q ≠ p) (m a : V3) :
    |a.x * (dipoleKernels mu0).e q p m + a.y * (dipoleKernels mu0).n q p m + a.z * (dipoleKernels mu0).u q p m| ≤
      |mu0| / (2 * Real.pi) * (a.size * m.size) / gap q p ^ 3 := by
  have hg := gap_pos h
  have hg2 : gap q p ^ 2 = (q.x - p.x) ^ 2 + (q.y - p.y) ^ 2 + (q.z - p.z) ^ 2 := Real.sq_sqrt (by positivity)
  have hpi := Real.pi_pos
  have key := along_algebra hg2 a.size_nonneg m.size_nonneg a.size_sq m.size_sq
  simp only [dipoleKernels]
  generalize gap q p = r at *
  generalize q.x - p.x = x at *
  generalize q.y - p.y = y at *
  generalize q.z - p.z = z at *
  generalize m.x * x + m.y * y + m.z * z = s at *
  have e : a.x * (mu0 / (4 * Real.pi) * (3 * s * x / r ^ 5 - m.x / r ^ 3)) +
      a.y * (mu0 / (4 * Real.pi) * (3 * s * y / r ^ 5 - m.y / r ^ 3)) +
      a.z * (mu0 / (4 * Real.pi) * (3 * s * z / r ^ 5 - m.z / r ^ 3)) =
      mu0 / (4 * Real.pi) * ((a.x * (3 * s * x - m.x * r ^ 2) + a.y * (3 * s * y - m.y * r ^ 2) +
        a.z * (3 * s * z - m.z * r ^ 2)) / r ^ 5) := by
    field_simp
  rw [e, abs_mul, abs_div, abs_div, abs_of_pos (by positivity : (0 : ℝ) < 4 * Real.pi),
    abs_of_pos (pow_pos hg 5)]
  calc |mu0| / (4 * Real.pi) * (|a.x * (3 * s * x - m.x * r ^ 2) + a.y * (3 * s * y - m.y * r ^ 2) +
        a.z * (3 * s * z - m.z * r ^ 2)| / r ^ 5)
      ≤ |mu0| / (4 * Real.pi) * (2 * (a.size * m.size) * r ^ 2 / r ^ 5) := by gcongr
    _ = |mu0| / (2 * Real.pi) * (a.size * m.size) / r ^ 3 := by
        field_simp
        ring

/-- A vector is not longer than its parts allow. -/
theorem size_le_of_along {v : V3} {c : ℝ} (hc : 0 ≤ c) (h : |v.x * v.x + v.y * v.y + v.z * v.z| ≤ v.size * c) :
    v.size ≤ c := by
  have h1 : v.x * v.x + v.y * v.y + v.z * v.z = v.size * v.size := by
    rw [← sq v.size, v.size_sq]
    ring
  rw [h1, abs_of_nonneg (mul_self_nonneg _)] at h
  rcases v.size_nonneg.eq_or_lt with h0 | h0
  · rw [← h0]
    exact hc
  · exact le_of_mul_le_mul_left h h0

/-- The moments of dipoles. -/
noncomputable def moments (srcs : List (P3 × V3)) : ℝ := (srcs.map fun s => s.2.size).sum

/-- The moments of prisms: intensity of the magnetization times volume. -/
noncomputable def prismMoments (srcs : List (Prism × V3)) : ℝ := (srcs.map fun s => s.2.size * s.1.volume).sum

theorem sum_along {S : Type*} (l : List S) (e n u : S → ℝ) (a : V3) :
    a.x * (l.map e).sum + a.y * (l.map n).sum + a.z * (l.map u).sum =
      (l.map fun s => a.x * e s + a.y * n s + a.z * u s).sum := by
  induction l with
  | nil => simp
  | cons s l ih =>
    simp only [List.map_cons, List.sum_cons]
    rw [← ih]
    ring

theorem abs_sum_le {S : Type*} (l : List S) (f g : S → ℝ) (h : ∀ s ∈ l, |f s| ≤ g s) :
    |(l.map f).sum| ≤ (l.map g).sum := by
  induction l with
  | nil => simp
  | cons s l ih =>
    simp only [List.map_cons, List.sum_cons]
    exact (abs_add_le _ _).trans (add_le_add (h s (by simp)) (ih fun s hs => h s (by simp [hs])))

/-- C133: at points at a distance of `lo` or more of every dipole, the intensity of the field that `dipole_magnetic`
returns (nT) is at most `10⁹ μ₀ / (2 π)` times the sum of the moments over `lo³`. -/
theorem C133_dipoles (junk : Junk) {mu0 : ℝ} {K : MagKernels P3} (hK : K.Dipole mu0) (ps : List ℕ)
    (srcs : List (P3 × V3)) :
    ∃ B : P3 → V3,
      (∀ mode shape obs dis, shape.prod = obs.length → mode.Full obs.length (6 * srcs.length) →
        dipoleMagnetic junk mode K (arrays shape obs) (arrays ps (srcs.map (·.1)))
          [(srcs.map (·.2)).map (·.x), (srcs.map (·.2)).map (·.y), (srcs.map (·.2)).map (·.z)] "b" dis =
        .ok (.vector ⟨shape, obs.map fun q => (B q).x⟩ ⟨shape, obs.map fun q => (B q).y⟩
          ⟨shape, obs.map fun q => (B q).z⟩)) ∧
      ∀ q lo, 0 < lo → (∀ s ∈ srcs, lo ≤ gap q s.1) →
        (B q).size ≤ 10 ^ 9 * (|mu0| / (2 * Real.pi) * moments srcs / lo ^ 3) := by
  refine ⟨fun q => ⟨total (fun q s => K.e q s.1 s.2) srcs q * 10 ^ 9, total (fun q s => K.n q s.1 s.2) srcs q * 10 ^ 9,
    total (fun q s => K.u q s.1 s.2) srcs q * 10 ^ 9⟩, ?_, ?_⟩
  · intro mode shape obs dis hs hm
    rw [dipoleMagnetic_eq junk mode K shape ps obs hs srcs hm]
    simp [magSpec, hK.field]
  · intro q lo hlo hd
    have hpi := Real.pi_pos
    have hne : ∀ s ∈ srcs, q ≠ s.1 := by
      intro s hs h
      have := hd s hs
      rw [h, gap_self] at this
      linarith
    have hM : 0 ≤ moments srcs := List.sum_nonneg (by
      intro x hx
      obtain ⟨s, -, rfl⟩ := List.mem_map.1 hx
      exact s.2.size_nonneg)
    refine size_le_of_along (by positivity) ?_
    set a : V3 := ⟨total (fun q s => K.e q s.1 s.2) srcs q * 10 ^ 9, total (fun q s => K.n q s.1 s.2) srcs q * 10 ^ 9,
      total (fun q s => K.u q s.1 s.2) srcs q * 10 ^ 9⟩ with ha
    have e : a.x * a.x + a.y * a.y + a.z * a.z = 10 ^ 9 *
        (srcs.map fun s => a.x * K.e q s.1 s.2 + a.y * K.n q s.1 s.2 + a.z * K.u q s.1 s.2).sum := by
      rw [← sum_along]
      simp only [ha, total]
      ring
    rw [e, abs_mul, abs_of_pos (by norm_num : (0 : ℝ) < 10 ^ 9), mul_left_comm a.size]
    refine mul_le_mul_of_nonneg_left ?_ (by norm_num)
    refine (abs_sum_le srcs _ (fun s => |mu0| / (2 * Real.pi) * a.size / lo ^ 3 * s.2.size) ?_).trans (le_of_eq ?_)
    · intro s hs
      rw [hK.e _ _ _ (hne s hs), hK.n _ _ _ (hne s hs), hK.u _ _ _ (hne s hs)]
      refine (dipole_along mu0 (hne s hs) s.2 a).trans ?_
      have h3 := pow_le_pow_left₀ hlo.le (hd s hs) 3
      have := a.size_nonneg
      have := s.2.size_nonneg
      calc |mu0| / (2 * Real.pi) * (a.size * s.2.size) / gap q s.1 ^ 3
          ≤ |mu0| / (2 * Real.pi) * (a.size * s.2.size) / lo ^ 3 := by gcongr
        _ = _ := by ring
    · rw [List.sum_map_mul_left]
      simp only [moments]
      ring

/-- C133, prisms: the same for `prism_magnetic`, with the distance to every point of the prisms and the intensity of
the magnetizations times the volumes. -/
theorem C133_prisms (junk : Junk) {mu0 : ℝ} {K : MagKernels Prism} (hK : K.Magnetized mu0)
    (srcs : List (Prism × V3)) (hord : ∀ s ∈ srcs, s.1.Ordered) :
    ∃ B : P3 → V3,
      (∀ mode shape obs dis, shape.prod = obs.length → mode.Full obs.length (6 * srcs.length) →
          (∀ q ∈ obs, ∀ s ∈ srcs, coords q ∉ s.1.body) →
        prismMagnetic junk mode K (arrays shape obs) (srcs.map (·.1))
          [(srcs.map (·.2)).map (·.x), (srcs.map (·.2)).map (·.y), (srcs.map (·.2)).map (·.z)] "b" dis =
        .ok (.vector ⟨shape, obs.map fun q => (B q).x⟩ ⟨shape, obs.map fun q => (B q).y⟩
          ⟨shape, obs.map fun q => (B q).z⟩)) ∧
      ∀ q lo, 0 < lo → (∀ s ∈ srcs, ∀ r ∈ s.1.body, lo ≤ gap q (pointAt r)) →
        (B q).size ≤ 10 ^ 9 * (|mu0| / (2 * Real.pi) * prismMoments srcs / lo ^ 3) := by
  refine ⟨fun q => ⟨bodyMag (dipoleKernels mu0).e srcs q, bodyMag (dipoleKernels mu0).n srcs q,
    bodyMag (dipoleKernels mu0).u srcs q⟩, ?_, ?_⟩
  · intro mode shape obs dis hs hm ho
    exact (prismMagnetic_body junk mode hK shape obs hs srcs dis hord hm ho).1
  · intro q lo hlo hd
    have hpi := Real.pi_pos
    have ho : ∀ s ∈ srcs, coords q ∉ s.1.body := by
      intro s hs hin
      have := hd s hs _ hin
      rw [pointAt_coords, gap_self] at this
      linarith
    have hvol : ∀ s ∈ srcs, 0 ≤ s.1.volume := by
      intro s hs
      rw [← s.1.volume_body (hord s hs)]
      exact measureReal_nonneg
    have hM : 0 ≤ prismMoments srcs := List.sum_nonneg (by
      intro x hx
      obtain ⟨s, hs, rfl⟩ := List.mem_map.1 hx
      exact mul_nonneg s.2.size_nonneg (hvol s hs))
    refine size_le_of_along (by positivity) ?_
    set a : V3 := ⟨bodyMag (dipoleKernels mu0).e srcs q, bodyMag (dipoleKernels mu0).n srcs q,
      bodyMag (dipoleKernels mu0).u srcs q⟩ with ha
    have e : a.x * a.x + a.y * a.y + a.z * a.z = 10 ^ 9 *
        (srcs.map fun s => a.x * (∫ r in s.1.body, (dipoleKernels mu0).e q (pointAt r) s.2) +
          a.y * (∫ r in s.1.body, (dipoleKernels mu0).n q (pointAt r) s.2) +
          a.z * ∫ r in s.1.body, (dipoleKernels mu0).u q (pointAt r) s.2).sum := by
      rw [← sum_along]
      simp only [ha, bodyMag]
      ring
    rw [e, abs_mul, abs_of_pos (by norm_num : (0 : ℝ) < 10 ^ 9), mul_left_comm a.size]
    refine mul_le_mul_of_nonneg_left ?_ (by norm_num)
    refine (abs_sum_le srcs _ (fun s => |mu0| / (2 * Real.pi) * a.size / lo ^ 3 * (s.2.size * s.1.volume)) ?_).trans
      (le_of_eq ?_)
    · intro s hs
      have i1 := (((dipole_e mu0 s.2).integrableOn_outside (ho s hs) 1)).const_mul a.x
      have i2 := (((dipole_n mu0 s.2).integrableOn_outside (ho s hs) 1)).const_mul a.y
      have i3 := (((dipole_u mu0 s.2).integrableOn_outside (ho s hs) 1)).const_mul a.z
      simp only [one_mul] at i1 i2 i3
      rw [← integral_const_mul, ← integral_const_mul, ← integral_const_mul, ← integral_add i1 i2]
      have hadd := integral_add (i1.add i2) i3
      simp only [Pi.add_apply] at hadd
      rw [← hadd, ← Real.norm_eq_abs]
      have hfin : volume s.1.body < ⊤ := s.1.body_compact.measure_lt_top
      refine (norm_setIntegral_le_of_norm_le_const (C := |mu0| / (2 * Real.pi) * a.size / lo ^ 3 * s.2.size) hfin
        ?_).trans (le_of_eq ?_)
      · intro r hr
        rw [Real.norm_eq_abs]
        refine (dipole_along mu0 (ne_of_outside (ho s hs) hr) s.2 a).trans ?_
        have h3 := pow_le_pow_left₀ hlo.le (hd s hs r hr) 3
        have := a.size_nonneg
        have := s.2.size_nonneg
        calc |mu0| / (2 * Real.pi) * (a.size * s.2.size) / gap q (pointAt r) ^ 3
            ≤ |mu0| / (2 * Real.pi) * (a.size * s.2.size) / lo ^ 3 := by gcongr
          _ = _ := by ring
      · rw [s.1.volume_body (hord s hs)]
        ring
    · rw [List.sum_map_mul_left]
      simp only [prismMoments]
      ring

/-! ### Gravity -/

/-- The factor and the power of the distance in the bound of each field: potential (m²/s²), acceleration (mGal),
gradient tensor (Eötvös). -/
noncomputable def reach (field : String) : ℝ × ℕ :=
  if field = "potential" then (1, 1) else if field ∈ ["g_e", "g_n", "g_z"] then (10 ^ 5, 2) else (2 * 10 ^ 9, 3)

theorem tensor_reach {x y z r a b c d : ℝ} (hr0 : 0 < r) (hr : r ^ 2 = x ^ 2 + y ^ 2 + z ^ 2) {ax ay az mx my mz : ℝ}
    (ha : ax ^ 2 + ay ^ 2 + az ^ 2 = 1) (hm : mx ^ 2 + my ^ 2 + mz ^ 2 = 1)
    (hab : a = mx * x + my * y + mz * z) (hb : b = ax * x + ay * y + az * z) (hc : c = ax * mx + ay * my + az * mz)
    (hd : 0 ≤ d) (m : ℝ) : |d * m * (3 * a * b / r ^ 5 - c / r ^ 3)| ≤ 2 * (d * |m|) / r ^ 3 := by
  have key := along_algebra hr zero_le_one zero_le_one (by rw [ha]; norm_num : (1 : ℝ) ^ 2 = ax ^ 2 + ay ^ 2 + az ^ 2)
    (by rw [hm]; norm_num : (1 : ℝ) ^ 2 = mx ^ 2 + my ^ 2 + mz ^ 2)
  have e : ax * (3 * (mx * x + my * y + mz * z) * x - mx * r ^ 2) + ay * (3 * (mx * x + my * y + mz * z) * y - my * r ^ 2) +
      az * (3 * (mx * x + my * y + mz * z) * z - mz * r ^ 2) = 3 * a * b - c * r ^ 2 := by
    rw [hab, hb, hc]
    ring
  rw [e, mul_one, mul_one] at key
  have e2 : 3 * a * b / r ^ 5 - c / r ^ 3 = (3 * a * b - c * r ^ 2) / r ^ 5 := by
    field_simp
  rw [e2, abs_mul, abs_mul, abs_div, abs_of_nonneg hd, abs_of_pos (pow_pos hr0 5)]
  have := abs_nonneg m
  calc d * |m| * (|3 * a * b - c * r ^ 2| / r ^ 5) ≤ d * |m| * (2 * r ^ 2 / r ^ 5) := by gcongr
    _ = 2 * (d * |m|) / r ^ 3 := by field_simp

set_option maxHeartbeats 1000000 in
theorem newton_reach {field : String} {k0 : P3 → P3 → ℝ → ℝ} {f : ℝ}
    (h : pointFieldTable newtonKernels field = some (k0, f)) {q p : P3} (hne : q ≠ p) (m : ℝ) :
    |f * k0 q p m| ≤ (reach field).1 * (gravitationalConst * |m|) / gap q p ^ (reach field).2 := by
  have hG := gravConst_pos
  have hg := gap_pos hne
  have hg2 : gap q p ^ 2 = (q.x - p.x) ^ 2 + (q.y - p.y) ^ 2 + (q.z - p.z) ^ 2 := Real.sq_sqrt (by positivity)
  have hgap := abs_x_le_gap q p
  have acc : ∀ (f X : ℝ), |f| = 10 ^ 5 → |X| ≤ gap q p →
      |f * (-(gravitationalConst * m * X) / gap q p ^ 3)| ≤
        10 ^ 5 * (gravitationalConst * |m|) / gap q p ^ 2 := by
    intro f X hf hX
    rw [abs_mul, hf, abs_div, abs_neg, abs_mul, abs_mul, abs_of_pos hG, abs_of_pos (pow_pos hg 3)]
    have := abs_nonneg m
    calc (10 : ℝ) ^ 5 * (gravitationalConst * |m| * |X| / gap q p ^ 3)
        ≤ 10 ^ 5 * (gravitationalConst * |m| * gap q p / gap q p ^ 3) := by gcongr
      _ = _ := by field_simp
  have ten : ∀ (f a b c : ℝ), |f| = 10 ^ 9 → ∀ {ax ay az mx my mz : ℝ},
      ax ^ 2 + ay ^ 2 + az ^ 2 = 1 → mx ^ 2 + my ^ 2 + mz ^ 2 = 1 →
      a = mx * (q.x - p.x) + my * (q.y - p.y) + mz * (q.z - p.z) →
      b = ax * (q.x - p.x) + ay * (q.y - p.y) + az * (q.z - p.z) → c = ax * mx + ay * my + az * mz →
      |f * (gravitationalConst * m * (3 * a * b / gap q p ^ 5 - c / gap q p ^ 3))| ≤
        2 * 10 ^ 9 * (gravitationalConst * |m|) / gap q p ^ 3 := by
    intro f a b c hf ax ay az mx my mz h1 h2 h3 h4 h5
    rw [abs_mul, hf]
    have := tensor_reach hg hg2 h1 h2 h3 h4 h5 hG.le m
    calc _ ≤ _ := mul_le_mul_of_nonneg_left this (by norm_num)
      _ = _ := by ring
  have h5 : |(10 : ℝ) ^ 5| = 10 ^ 5 := abs_of_pos (by norm_num)
  have h5' : |-(10 : ℝ) ^ 5| = 10 ^ 5 := by rw [abs_neg]; exact h5
  have h9 : |(10 : ℝ) ^ 9| = 10 ^ 9 := abs_of_pos (by norm_num)
  have h9' : |-(10 : ℝ) ^ 9| = 10 ^ 9 := by rw [abs_neg]; exact h9
  unfold pointFieldTable at h
  split_ifs at h with c1 c2 c3 c4 c5 c6 c7 c8 c9 c10
  all_goals
    simp only [Option.some.injEq, Prod.mk.injEq] at h
    obtain ⟨rfl, rfl⟩ := h
  · subst c1
    simp only [newtonKernels, reach, reduceIte, one_mul, pow_one, abs_div, abs_mul, abs_of_pos hG, abs_of_pos hg]
    exact le_rfl
  · subst c2
    simpa [reach, newtonKernels] using acc _ _ h5 hgap.1
  · subst c3
    simpa [reach, newtonKernels] using acc _ _ h5 hgap.2.1
  · subst c4
    simpa [reach, newtonKernels] using acc _ _ h5' hgap.2.2
  · subst c5
    have := ten (10 ^ 9) (q.x - p.x) (q.x - p.x) 1 h9 (ax := 1) (ay := 0) (az := 0) (mx := 1) (my := 0) (mz := 0)
      (by norm_num) (by norm_num) (by ring) (by ring) (by ring)
    rw [show 3 * (q.x - p.x) * (q.x - p.x) = 3 * (q.x - p.x) ^ 2 by ring] at this
    simpa [reach, newtonKernels] using this
  · subst c6
    have := ten (10 ^ 9) (q.y - p.y) (q.y - p.y) 1 h9 (ax := 0) (ay := 1) (az := 0) (mx := 0) (my := 1) (mz := 0)
      (by norm_num) (by norm_num) (by ring) (by ring) (by ring)
    rw [show 3 * (q.y - p.y) * (q.y - p.y) = 3 * (q.y - p.y) ^ 2 by ring] at this
    simpa [reach, newtonKernels] using this
  · subst c7
    have := ten (10 ^ 9) (q.z - p.z) (q.z - p.z) 1 h9 (ax := 0) (ay := 0) (az := 1) (mx := 0) (my := 0) (mz := 1)
      (by norm_num) (by norm_num) (by ring) (by ring) (by ring)
    rw [show 3 * (q.z - p.z) * (q.z - p.z) = 3 * (q.z - p.z) ^ 2 by ring] at this
    simpa [reach, newtonKernels] using this
  · have := ten (10 ^ 9) (q.x - p.x) (q.y - p.y) 0 h9 (ax := 0) (ay := 1) (az := 0) (mx := 1) (my := 0) (mz := 0)
      (by norm_num) (by norm_num) (by ring) (by ring) (by ring)
    rcases c8 with rfl | rfl <;> simpa [reach, newtonKernels] using this
  · have := ten (-10 ^ 9) (q.x - p.x) (q.z - p.z) 0 h9' (ax := 0) (ay := 0) (az := 1) (mx := 1) (my := 0) (mz := 0)
      (by norm_num) (by norm_num) (by ring) (by ring) (by ring)
    rcases c9 with rfl | rfl <;> simpa [reach, newtonKernels] using this
  · have := ten (-10 ^ 9) (q.y - p.y) (q.z - p.z) 0 h9' (ax := 0) (ay := 0) (az := 1) (mx := 0) (my := 1) (mz := 0)
      (by norm_num) (by norm_num) (by ring) (by ring) (by ring)
    rcases c10 with rfl | rfl <;> simpa [reach, newtonKernels] using this

/-- The names of the fields of `point_gravity` in Cartesian coordinates. -/
def allFieldNames : List String :=
  ["potential", "g_e", "g_n", "g_z", "g_ee", "g_nn", "g_zz", "g_en", "g_ez", "g_nz", "g_ne", "g_ze", "g_zn"]

/-- C133, point masses of any sign: at points at a distance of `lo` or more of all of them every field is at most a
constant times the sum of the sizes of the masses over a power of `lo`. -/
theorem C133_point_masses (junk : Junk) {K : PointKernels} (hK : K.Newtonian) (ps ms : List ℕ)
    (srcs : List (P3 × ℝ)) :
    ∃ F : String → P3 → ℝ,
      (∀ field ∈ allFieldNames, ∀ mode shape obs, shape.prod = obs.length →
          mode.Full obs.length (2 * srcs.length) →
        pointGravity junk mode K (arrays shape obs) (arrays ps (srcs.map (·.1))) ⟨ms, srcs.map (·.2)⟩ field
          "cartesian" = .ok ⟨shape, obs.map (F field)⟩) ∧
      ∀ field ∈ allFieldNames, ∀ q lo, 0 < lo → (∀ s ∈ srcs, lo ≤ gap q s.1) →
        |F field q| ≤ (reach field).1 * (gravitationalConst * (srcs.map fun s => |s.2|).sum) / lo ^ (reach field).2 := by
  refine ⟨fun field q => match pointFieldTable K field with
    | none => 0
    | some (k, factor) => factor * total (fun q s => k q s.1 s.2) srcs q, ?_, ?_⟩
  · intro field hf mode shape obs hs hm
    rw [C04_point_gravity_cartesian junk mode K shape ps ms obs hs srcs hm]
    simp only [allFieldNames, List.mem_cons, List.not_mem_nil, or_false] at hf
    rcases hf with rfl | rfl | rfl | rfl | rfl | rfl | rfl | rfl | rfl | rfl | rfl | rfl | rfl <;>
      simp [pointFieldTable]
  · intro field hf q lo hlo hd
    have hne : ∀ s ∈ srcs, q ≠ s.1 := by
      intro s hs h
      have := hd s hs
      rw [h, gap_self] at this
      linarith
    have hreach : 0 ≤ (reach field).1 := by
      unfold reach
      split_ifs <;> norm_num
    have htab : ∃ k k0 f, pointFieldTable K field = some (k, f) ∧ pointFieldTable newtonKernels field = some (k0, f) ∧
        ∀ q p m, q ≠ p → k q p m = k0 q p m := by
      simp only [allFieldNames, List.mem_cons, List.not_mem_nil, or_false] at hf
      rcases hf with rfl | rfl | rfl | rfl | rfl | rfl | rfl | rfl | rfl | rfl | rfl | rfl | rfl
      · exact ⟨_, _, _, rfl, rfl, hK.pot⟩
      · exact ⟨_, _, _, rfl, rfl, hK.e⟩
      · exact ⟨_, _, _, rfl, rfl, hK.n⟩
      · exact ⟨_, _, _, rfl, rfl, hK.u⟩
      · exact ⟨_, _, _, rfl, rfl, hK.ee⟩
      · exact ⟨_, _, _, rfl, rfl, hK.nn⟩
      · exact ⟨_, _, _, rfl, rfl, hK.uu⟩
      · exact ⟨_, _, _, rfl, rfl, hK.en⟩
      · exact ⟨_, _, _, rfl, rfl, hK.eu⟩
      · exact ⟨_, _, _, rfl, rfl, hK.nu⟩
      · exact ⟨_, _, _, rfl, rfl, hK.en⟩
      · exact ⟨_, _, _, rfl, rfl, hK.eu⟩
      · exact ⟨_, _, _, rfl, rfl, hK.nu⟩
    obtain ⟨k, k0, f, h1, h2, hk⟩ := htab
    simp only [h1, total]
    rw [← List.sum_map_mul_left]
    refine (abs_sum_le srcs _ (fun s => (reach field).1 * gravitationalConst / lo ^ (reach field).2 * |s.2|) ?_).trans
      (le_of_eq ?_)
    · intro s hs
      rw [hk _ _ _ (hne s hs)]
      refine (newton_reach h2 (hne s hs) s.2).trans ?_
      have h3 := pow_le_pow_left₀ hlo.le (hd s hs) (reach field).2
      have := gravConst_pos
      calc (reach field).1 * (gravitationalConst * |s.2|) / gap q s.1 ^ (reach field).2
          ≤ (reach field).1 * (gravitationalConst * |s.2|) / lo ^ (reach field).2 := by gcongr
        _ = _ := by ring
    · rw [List.sum_map_mul_left]
      ring

/-- C133, prisms with densities of any sign: the same for `prism_gravity`, with the distance to every point of the
prisms and the sizes of the densities times the volumes. -/
theorem C133_prism_gravity (junk : Junk) {K : PrismKernels} (hK : K.Newtonian) (srcs : List (Prism × ℝ))
    (hord : ∀ s ∈ srcs, s.1.Ordered) :
    ∃ F : String → P3 → ℝ,
      (∀ field ∈ prismFieldNames, ∀ mode shape obs dis, shape.prod = obs.length →
          mode.Full obs.length (2 * srcs.length) → (∀ q ∈ obs, Allowed field srcs q) →
        (prismGravity junk mode K (arrays shape obs) (srcs.map (·.1)) (srcs.map (·.2)) field dis).map (·.2) =
          .ok ⟨shape, obs.map (F field)⟩) ∧
      ∀ field ∈ prismFieldNames, ∀ q lo, 0 < lo → (∀ s ∈ srcs, ∀ r ∈ s.1.body, lo ≤ gap q (pointAt r)) →
        |F field q| ≤ (reach field).1 * (gravitationalConst * (srcs.map fun s => |s.2| * s.1.volume).sum) /
          lo ^ (reach field).2 := by
  refine ⟨fun field q => match pointFieldTable newtonKernels field with
    | some (k0, factor) => factor * ∫ r, densityAt srcs r * k0 q (pointAt r) 1
    | none => 0, ?_, ?_⟩
  · intro field hf mode shape obs dis hs hm ho
    rw [prismGravity_density junk mode hK shape obs hs srcs dis hord hm field ho]
    simp only [prismFieldNames, List.mem_cons, List.not_mem_nil, or_false] at hf
    rcases hf with rfl | rfl | rfl | rfl | rfl | rfl | rfl | rfl | rfl | rfl <;>
      simp [pointFieldTable, prismFieldTable]
  · intro field hf q lo hlo hd
    have ho : ∀ s ∈ srcs, coords q ∉ s.1.body := by
      intro s hs hin
      have := hd s hs _ hin
      rw [pointAt_coords, gap_self] at this
      linarith
    have hreach : 0 ≤ (reach field).1 := by
      unfold reach
      split_ifs <;> norm_num
    have htab : ∃ k f, prismFieldTable K field = some (k, f) := by
      simp only [prismFieldNames, List.mem_cons, List.not_mem_nil, or_false] at hf
      rcases hf with rfl | rfl | rfl | rfl | rfl | rfl | rfl | rfl | rfl | rfl <;> exact ⟨_, _, rfl⟩
    obtain ⟨k, f, hkf⟩ := htab
    obtain ⟨k0, a, h0, -, ht, -⟩ := hK.table hkf
    simp only [ht]
    rw [← (sum_integrals h0 srcs q (Or.inr ho)).1, ← List.sum_map_mul_left]
    refine (abs_sum_le srcs _ (fun s => (reach field).1 * gravitationalConst / lo ^ (reach field).2 *
      (|s.2| * s.1.volume)) ?_).trans (le_of_eq ?_)
    · intro s hs
      rw [← integral_const_mul, ← Real.norm_eq_abs]
      refine (norm_setIntegral_le_of_norm_le_const
        (C := (reach field).1 * gravitationalConst / lo ^ (reach field).2 * |s.2|) s.1.body_compact.measure_lt_top
        ?_).trans (le_of_eq ?_)
      · intro r hr
        rw [Real.norm_eq_abs]
        refine (newton_reach ht (ne_of_outside (ho s hs) hr) s.2).trans ?_
        have h3 := pow_le_pow_left₀ hlo.le (hd s hs r hr) (reach field).2
        have := gravConst_pos
        calc (reach field).1 * (gravitationalConst * |s.2|) / gap q (pointAt r) ^ (reach field).2
            ≤ (reach field).1 * (gravitationalConst * |s.2|) / lo ^ (reach field).2 := by gcongr
          _ = _ := by ring
      · rw [s.1.volume_body (hord s hs)]
        ring
    · rw [List.sum_map_mul_left]
      ring

/-! ### Concrete cases -/

/-- C133_dipoles: a dipole of moment 5 at a distance of 10, or more. -/
example : ∃ B : P3 → V3, (B ⟨0, 0, 10⟩).size ≤ 10 ^ 9 * (|4 * Real.pi * 1e-7| / (2 * Real.pi) * 5 / 10 ^ 3) ∧
    dipoleMagnetic (fun _ _ => 0) .serial (dipoleKernels (4 * Real.pi * 1e-7)) (arrays [1] [⟨0, 0, 10⟩])
      (arrays [1] [⟨0, 0, 0⟩]) [[3], [0], [4]] "b" false =
      .ok (.vector ⟨[1], [(B ⟨0, 0, 10⟩).x]⟩ ⟨[1], [(B ⟨0, 0, 10⟩).y]⟩ ⟨[1], [(B ⟨0, 0, 10⟩).z]⟩) := by
  obtain ⟨B, h, hb⟩ := C133_dipoles (fun _ _ => 0) (dipoleKernels_dipole (4 * Real.pi * 1e-7)) [1]
    [(⟨0, 0, 0⟩, ⟨3, 0, 4⟩)]
  refine ⟨B, ?_, h .serial [1] [⟨0, 0, 10⟩] false (by simp) trivial⟩
  have := hb ⟨0, 0, 10⟩ 10 (by norm_num) (by
    intro s hs
    simp only [List.mem_singleton] at hs
    subst hs
    simp [gap])
  have e : moments [((⟨0, 0, 0⟩ : P3), (⟨3, 0, 4⟩ : V3))] = 5 := by
    simp only [moments, V3.size, List.map_cons, List.map_nil, List.sum_cons, List.sum_nil, add_zero]
    rw [show (3 : ℝ) ^ 2 + 0 ^ 2 + 4 ^ 2 = 5 ^ 2 by norm_num, Real.sqrt_sq (by norm_num)]
  rw [e] at this
  exact this

/-- C133_prisms: a cube over which the field is computed. -/
example : ∀ r ∈ Prism.body ⟨-1, 1, -1, 1, -1, 1⟩, 8 ≤ gap ⟨0, 0, 9⟩ (pointAt r) := by
  intro r hr
  have h := (abs_x_le_gap ⟨0, 0, 9⟩ (pointAt r)).2.2
  have h2 := hr.2.2.2
  simp only [pointAt] at h
  exact le_trans (by linarith) ((le_abs_self _).trans h)

end Verif.Forward
