import Verif.EqSources.PropsF

/-! C163: small changes of the points, the sources and the coefficients change the predictions little. -/

namespace Verif.EqSources
open Verif.Forward Verif.Engine Verif.Distance

/-! ### Specification -/

/-- `EquivalentSources.predict` with these sources and coefficients returns `V`. -/
def Predicts (junk : Junk) (P : Params) (srcs : List (P3 × ℝ)) (V : P3 → ℝ) : Prop :=
  ∀ (mode : Mode) (d1 d2 d3 : DType) (shape : List ℕ) (obs : List P3) (s : State), shape.prod = obs.length →
    mode.Full obs.length (2 * srcs.length) →
    s.points_ = some (pointArrs (srcs.map (·.1))) → s.coefs_ = some (srcs.map (·.2)) →
    predict junk mode P (coordArrs d1 d2 d3 shape obs) s = .ok ⟨shape, obs.map V⟩

/-- `EquivalentSourcesSph.predict` with these sources and coefficients returns `V`, for longitudes of a
floating point type. -/
def PredictsSph (junk : Junk) (srcs : List (P3 × ℝ)) (V : P3 → ℝ) : Prop :=
  ∀ (mode : Mode) (d1 d2 d3 : DType) (shape : List ℕ) (obs : List P3) (s : State), d1.IsFloat →
    shape.prod = obs.length → mode.Full obs.length (2 * srcs.length) →
    s.points_ = some (pointArrs (srcs.map (·.1))) → s.coefs_ = some (srcs.map (·.2)) →
    predictSph junk mode (coordArrs d1 d2 d3 shape obs) s = .ok ⟨shape, obs.map V⟩

/-- Lists of sources whose distances to `q` and `q'` are at least `r`, whose positions differ at most by `δ` and whose
coefficients differ at most by `ε`. -/
def Close (pos : P3 → E3) (q q' : P3) (r δ ε : ℝ) : (srcs srcs' : List (P3 × ℝ)) → Prop :=
  List.Forall₂ fun s s' => r ≤ dist (pos q) (pos s.1) ∧ r ≤ dist (pos q') (pos s'.1) ∧
    dist (pos s.1) (pos s'.1) ≤ δ ∧ |s.2 - s'.2| ≤ ε

/-! ### Lemmas -/

theorem inverse_close {a b r t : ℝ} (hr : 0 < r) (ha : r ≤ a) (hb : r ≤ b) (h : |a - b| ≤ t) :
    |1 / a - 1 / b| ≤ t / r ^ 2 := by
  have ha0 := hr.trans_le ha
  have hb0 := hr.trans_le hb
  have e : 1 / a - 1 / b = (b - a) / (a * b) := by field_simp
  rw [e, abs_div, abs_of_pos (mul_pos ha0 hb0), abs_sub_comm, sq]
  exact div_le_div₀ ((abs_nonneg _).trans h) h (by positivity) (mul_le_mul ha hb hr.le ha0.le)

theorem field_close (pos : P3 → E3) {q q' : P3} {r δ ε : ℝ} (hr : 0 < r) {srcs srcs' : List (P3 × ℝ)}
    (h : Close pos q q' r δ ε srcs srcs') :
    |field pos srcs q - field pos srcs' q'| ≤
      (srcs.map fun s => |s.2|).sum * ((dist (pos q) (pos q') + δ) / r ^ 2) + srcs.length * (ε / r) := by
  unfold Close at h
  induction h with
  | nil => simp [field]
  | @cons s s' l l' hs _ ih =>
    obtain ⟨h1, h2, h3, h4⟩ := hs
    have hi := inverse_close hr h1 h2 (t := dist (pos q) (pos q') + δ) (by
      have t1 := dist_triangle4 (pos q) (pos q') (pos s'.1) (pos s.1)
      have t2 := dist_triangle4 (pos q') (pos q) (pos s.1) (pos s'.1)
      rw [dist_comm (pos s'.1)] at t1
      rw [dist_comm (pos q') (pos q)] at t2
      rw [abs_sub_le_iff]
      constructor <;> linarith)
    have hb : |1 / dist (pos q') (pos s'.1)| ≤ 1 / r := by
      rw [abs_of_pos (one_div_pos.2 (hr.trans_le h2))]
      exact one_div_le_one_div_of_le hr h2
    have e1 : field pos (s :: l) q - field pos (s' :: l') q' =
        s.2 * (1 / dist (pos q) (pos s.1) - 1 / dist (pos q') (pos s'.1)) +
          (s.2 - s'.2) * (1 / dist (pos q') (pos s'.1)) + (field pos l q - field pos l' q') := by
      simp only [field, List.map_cons, List.sum_cons]
      ring
    have k1 : |s.2 * (1 / dist (pos q) (pos s.1) - 1 / dist (pos q') (pos s'.1))| ≤
        |s.2| * ((dist (pos q) (pos q') + δ) / r ^ 2) := by
      rw [abs_mul]
      exact mul_le_mul_of_nonneg_left hi (abs_nonneg _)
    have k2 : |(s.2 - s'.2) * (1 / dist (pos q') (pos s'.1))| ≤ ε * (1 / r) := by
      rw [abs_mul]
      exact mul_le_mul h4 hb (abs_nonneg _) ((abs_nonneg _).trans h4)
    rw [e1, List.map_cons, List.sum_cons, List.length_cons, Nat.cast_add, Nat.cast_one]
    have t := abs_add_three (s.2 * (1 / dist (pos q) (pos s.1) - 1 / dist (pos q') (pos s'.1)))
      ((s.2 - s'.2) * (1 / dist (pos q') (pos s'.1))) (field pos l q - field pos l' q')
    refine t.trans ((add_le_add (add_le_add k1 k2) ih).trans (le_of_eq ?_))
    ring

theorem field_far (pos : P3 → E3) (srcs : List (P3 × ℝ)) (q c : P3) (D : ℝ)
    (hD : ∀ s ∈ srcs, dist (pos c) (pos s.1) ≤ D) (hq : D < dist (pos q) (pos c)) (h0 : 0 ≤ D) :
    |field pos srcs q - (srcs.map (·.2)).sum / dist (pos q) (pos c)| ≤
      (srcs.map fun s => |s.2|).sum * D / (dist (pos q) (pos c) * (dist (pos q) (pos c) - D)) := by
  set R := dist (pos q) (pos c) with hR
  have hRD : 0 < R - D := by linarith
  have hR0 : 0 < R := by linarith
  induction srcs with
  | nil => simp [field]
  | cons s l ih =>
    have ih' := ih fun t ht => hD t (List.mem_cons_of_mem _ ht)
    have hs := hD s List.mem_cons_self
    have t1 := dist_triangle (pos q) (pos s.1) (pos c)
    have t2 := dist_triangle (pos q) (pos c) (pos s.1)
    rw [dist_comm (pos s.1)] at t1
    have ha : R - D ≤ dist (pos q) (pos s.1) := by linarith
    have ha0 : 0 < dist (pos q) (pos s.1) := hRD.trans_le ha
    have k : |s.2 * (1 / dist (pos q) (pos s.1) - 1 / R)| ≤ |s.2| * (D / (R * (R - D))) := by
      rw [abs_mul]
      refine mul_le_mul_of_nonneg_left ?_ (abs_nonneg _)
      have e : 1 / dist (pos q) (pos s.1) - 1 / R = (R - dist (pos q) (pos s.1)) / (R * dist (pos q) (pos s.1)) := by
        field_simp
      rw [e, abs_div, abs_of_pos (mul_pos hR0 ha0)]
      refine div_le_div₀ h0 ?_ (by positivity) (mul_le_mul_of_nonneg_left ha hR0.le)
      rw [abs_sub_le_iff]
      constructor <;> linarith
    have e1 : field pos (s :: l) q - ((s :: l).map (·.2)).sum / R =
        s.2 * (1 / dist (pos q) (pos s.1) - 1 / R) + (field pos l q - (l.map (·.2)).sum / R) := by
      simp only [field, List.map_cons, List.sum_cons]
      ring
    rw [e1, List.map_cons, List.sum_cons]
    refine (abs_add_le _ _).trans ((add_le_add k ih').trans (le_of_eq ?_))
    ring

theorem dist_cartPos (q p : P3) :
    dist (cartPos q) (cartPos p) = √((q.x - p.x) ^ 2 + (q.y - p.y) ^ 2 + (q.z - p.z) ^ 2) := by
  rw [EuclideanSpace.dist_eq]
  simp [Fin.sum_univ_three, cartPos, Real.dist_eq]

/-! ### C163 -/

/-- C163 for `EquivalentSources` and `EquivalentSourcesGB`: at distances of at least `r` from the sources, moving a
point, moving every source by at most `δ` and changing every coefficient by at most `ε` changes the prediction at most
by the sum of the absolute values of the coefficients times the displacements over `r²`, plus `ε / r` per source. -/
theorem C163_cartesian (junk : Junk) (P : Params) (hd : P.dtype.IsFloat) (srcs srcs' : List (P3 × ℝ)) :
    ∃ V V' : P3 → ℝ, Predicts junk P srcs V ∧ Predicts junk P srcs' V' ∧
      ∀ q q' r δ ε, 0 < r → Close cartPos q q' r δ ε srcs srcs' →
        |V q - V' q'| ≤ (srcs.map fun s => |s.2|).sum * ((dist (cartPos q) (cartPos q') + δ) / r ^ 2) +
          srcs.length * (ε / r) :=
  ⟨field cartPos srcs, field cartPos srcs',
    fun mode d1 d2 d3 shape obs s hs hm hp hc => C24_predict junk mode P hd d1 d2 d3 shape obs hs srcs hm s hp hc,
    fun mode d1 d2 d3 shape obs s hs hm hp hc => C24_predict junk mode P hd d1 d2 d3 shape obs hs srcs' hm s hp hc,
    fun _ _ _ _ _ hr h => field_close cartPos hr h⟩

/-- C163 for `EquivalentSourcesSph`, with the positions in space of the points and the sources. -/
theorem C163_spherical (junk : Junk) (srcs srcs' : List (P3 × ℝ)) :
    ∃ V V' : P3 → ℝ, PredictsSph junk srcs V ∧ PredictsSph junk srcs' V' ∧
      ∀ q q' r δ ε, 0 < r → Close sphPos q q' r δ ε srcs srcs' →
        |V q - V' q'| ≤ (srcs.map fun s => |s.2|).sum * ((dist (sphPos q) (sphPos q') + δ) / r ^ 2) +
          srcs.length * (ε / r) :=
  ⟨field sphPos srcs, field sphPos srcs',
    fun mode d1 d2 d3 shape obs s hd hs hm hp hc =>
      C24_predict_spherical_partial junk mode d1 d2 d3 hd shape obs hs srcs hm s hp hc,
    fun mode d1 d2 d3 shape obs s hd hs hm hp hc =>
      C24_predict_spherical_partial junk mode d1 d2 d3 hd shape obs hs srcs' hm s hp hc,
    fun _ _ _ _ _ hr h => field_close sphPos hr h⟩

/-- C163, far away: when all the sources are within `D` of a point, the predictions at a distance `R > D` from it are
those of one source there with the sum of the coefficients, but for the sum of their absolute values times
`D / (R (R - D))`. -/
theorem C163_far (junk : Junk) (P : Params) (hd : P.dtype.IsFloat) (srcs : List (P3 × ℝ)) :
    ∃ V W : P3 → ℝ, Predicts junk P srcs V ∧ PredictsSph junk srcs W ∧
      ∀ q c D, 0 ≤ D →
        ((∀ s ∈ srcs, dist (cartPos c) (cartPos s.1) ≤ D) → D < dist (cartPos q) (cartPos c) →
          |V q - (srcs.map (·.2)).sum / dist (cartPos q) (cartPos c)| ≤ (srcs.map fun s => |s.2|).sum * D /
            (dist (cartPos q) (cartPos c) * (dist (cartPos q) (cartPos c) - D))) ∧
        ((∀ s ∈ srcs, dist (sphPos c) (sphPos s.1) ≤ D) → D < dist (sphPos q) (sphPos c) →
          |W q - (srcs.map (·.2)).sum / dist (sphPos q) (sphPos c)| ≤ (srcs.map fun s => |s.2|).sum * D /
            (dist (sphPos q) (sphPos c) * (dist (sphPos q) (sphPos c) - D))) :=
  ⟨field cartPos srcs, field sphPos srcs,
    fun mode d1 d2 d3 shape obs s hs hm hp hc => C24_predict junk mode P hd d1 d2 d3 shape obs hs srcs hm s hp hc,
    fun mode d1 d2 d3 shape obs s hd hs hm hp hc =>
      C24_predict_spherical_partial junk mode d1 d2 d3 hd shape obs hs srcs hm s hp hc,
    fun q c D h0 => ⟨fun h1 h2 => field_far cartPos srcs q c D h1 h2 h0,
      fun h1 h2 => field_far sphPos srcs q c D h1 h2 h0⟩⟩

/-! ### Examples -/

/-- A point 2 above one of two sources moves by 1, the sources by nothing and one coefficient changes by 0.1. -/
example (junk : Junk) (P : Params) (hd : P.dtype.IsFloat) : ∃ V V' : P3 → ℝ,
    Predicts junk P [(⟨0, 0, -1⟩, 2), (⟨3, 0, -1⟩, -1)] V ∧ Predicts junk P [(⟨0, 0, -1⟩, 2.1), (⟨3, 0, -1⟩, -1)] V' ∧
      |V ⟨0, 0, 1⟩ - V' ⟨0, 0, 2⟩| ≤ 3 * ((1 + 0) / 2 ^ 2) + 2 * (0.1 / 2) := by
  obtain ⟨V, V', h1, h2, h3⟩ := C163_cartesian junk P hd [(⟨0, 0, -1⟩, 2), (⟨3, 0, -1⟩, -1)]
    [(⟨0, 0, -1⟩, 2.1), (⟨3, 0, -1⟩, -1)]
  refine ⟨V, V', h1, h2, (h3 ⟨0, 0, 1⟩ ⟨0, 0, 2⟩ 2 0 0.1 (by norm_num) ?_).trans (le_of_eq ?_)⟩
  · refine .cons ⟨?_, ?_, ?_, ?_⟩ (.cons ⟨?_, ?_, ?_, ?_⟩ .nil)
    all_goals first
      | (rw [dist_cartPos]; exact Real.le_sqrt_of_sq_le (by norm_num))
      | (simp; done)
      | norm_num
  · rw [dist_cartPos]
    norm_num

/-- Two sources within 3 of the origin, seen from a distance of 103. -/
example (junk : Junk) (P : Params) (hd : P.dtype.IsFloat) : ∃ V : P3 → ℝ,
    Predicts junk P [(⟨0, 0, -1⟩, 2), (⟨2, 0, -1⟩, -1)] V ∧
      |V ⟨0, 0, 103⟩ - 1 / 103| ≤ 3 * 3 / (103 * 100) := by
  obtain ⟨V, W, h1, -, h3⟩ := C163_far junk P hd [(⟨0, 0, -1⟩, 2), (⟨2, 0, -1⟩, -1)]
  have e : dist (cartPos ⟨0, 0, 103⟩) (cartPos ⟨0, 0, 0⟩) = 103 := by
    rw [dist_cartPos]
    exact (Real.sqrt_eq_iff_mul_self_eq (by norm_num) (by norm_num)).2 (by norm_num)
  have h := (h3 ⟨0, 0, 103⟩ ⟨0, 0, 0⟩ 3 (by norm_num)).1 (by
    intro s hs
    simp only [List.mem_cons, List.not_mem_nil, or_false] at hs
    rcases hs with rfl | rfl <;> (rw [dist_cartPos]; exact Real.sqrt_le_iff.2 (by norm_num))) (by rw [e]; norm_num)
  rw [e] at h
  refine ⟨V, h1, ?_⟩
  norm_num at h ⊢
  exact h

end Verif.EqSources
