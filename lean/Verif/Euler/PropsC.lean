import Verif.Euler.PropsB
import Verif.Forward.PropsE

/-!
C106: Euler deconvolution and Euler inversion find a point mass from the fields that `point_gravity` computes
for it.
-/

namespace Verif.Euler
open Verif.Distance Verif.Engine Verif.Forward

/-! ### Specification -/

/-- A field of `point_gravity` that is homogeneous around the mass: its name, the structural index, and the
fields and factors that give its east, north and upward derivatives per metre (mGal is 1e-5 m/s², Eötvös is
1e-4 mGal/m and z points down). -/
structure Homogeneous where
  field : String
  index : ℝ
  east : String × ℝ
  north : String × ℝ
  up : String × ℝ

/-- The potential (index 1) and the components of the acceleration (index 2). -/
noncomputable def homogeneousFields : List Homogeneous :=
  [⟨"potential", 1, ("g_e", 1 / 10 ^ 5), ("g_n", 1 / 10 ^ 5), ("g_z", -1 / 10 ^ 5)⟩,
   ⟨"g_e", 2, ("g_ee", 1 / 10 ^ 4), ("g_en", 1 / 10 ^ 4), ("g_ez", -1 / 10 ^ 4)⟩,
   ⟨"g_n", 2, ("g_ne", 1 / 10 ^ 4), ("g_nn", 1 / 10 ^ 4), ("g_nz", -1 / 10 ^ 4)⟩,
   ⟨"g_z", 2, ("g_ze", 1 / 10 ^ 4), ("g_zn", 1 / 10 ^ 4), ("g_zz", -1 / 10 ^ 4)⟩]

/-- `factor * array + level` -/
def rescale (factor level : ℝ) (a : NdArray) : Arr := ⟨a.shape, a.data.map fun x => factor * x + level⟩

/-- The same array in both models. -/
def ofNd (a : NdArray) : Arr := ⟨a.shape, a.data⟩

/-! ### Lemmas -/

theorem getD_map {α : Type} (l : List α) (f : α → ℝ) (i : ℕ) (h : i < l.length) :
    (l.map f).getD i 0 = f l[i] := by
  rw [List.getD_eq_getElem?_getD, List.getElem?_eq_getElem (by simpa using h)]
  simp

/-- The field and its derivatives satisfy Euler's equation around the mass. -/
theorem homogeneous_residual {K : PointKernels} (hK : K.Newtonian) {q p : P3} (h : q ≠ p) (m b : ℝ) :
    ∀ H ∈ homogeneousFields, ∃ f e n u : (P3 → P3 → ℝ → ℝ) × ℝ,
      pointFieldTable K H.field = some f ∧ pointFieldTable K H.east.1 = some e ∧
      pointFieldTable K H.north.1 = some n ∧ pointFieldTable K H.up.1 = some u ∧
      (q.x - p.x) * (H.east.2 * (e.2 * e.1 q p m)) + (q.y - p.y) * (H.north.2 * (n.2 * n.1 q p m)) +
        (q.z - p.z) * (H.up.2 * (u.2 * u.1 q p m)) - H.index * (b - (f.2 * f.1 q p m + b)) = 0 := by
  have hR := (gap_pos h).ne'
  have h2 := gap_sq h
  have hz : (q.z - p.z) ^ 2 = gap q p ^ 2 - (q.x - p.x) ^ 2 - (q.y - p.y) ^ 2 := by rw [h2]; ring
  intro H hH
  simp only [homogeneousFields, List.mem_cons, List.not_mem_nil, or_false] at hH
  rcases hH with rfl | rfl | rfl | rfl
  all_goals
    simp only [pointFieldTable, reduceIte, String.reduceEq, or_false, or_true, Option.some.injEq]
    refine ⟨_, _, _, _, rfl, rfl, rfl, rfl, ?_⟩
    simp only [hK.pot q p m h, hK.e q p m h, hK.n q p m h, hK.u q p m h, hK.ee q p m h, hK.nn q p m h,
      hK.uu q p m h, hK.en q p m h, hK.eu q p m h, hK.nu q p m h]
    generalize gap q p = R at *
    generalize q.x - p.x = x at *
    generalize q.y - p.y = y at *
    generalize q.z - p.z = z at *
    field_simp
  · linear_combination (-gravitationalConst * m) * hz
  · linear_combination (3 * x * 10 ^ 5 * gravitationalConst * m) * hz
  · linear_combination (3 * y * 10 ^ 5 * gravitationalConst * m) * hz
  · linear_combination (-3 * z * 10 ^ 5 * gravitationalConst * m) * hz

/-! ### C106 -/

/-- C106: compute a homogeneous field of one point mass and the fields that hold its derivatives with
`point_gravity`, at points away from the mass; bring the derivatives to units per metre and add any base level
to the field. With the structural index of the field, `EulerDeconvolution.fit` returns the position of the mass
and the base level (with zero covariance unless there are exactly four data), and so does `EulerInversion.fit`
with at least one iteration and positive weights. If the derivatives and a constant are not linearly
independent over the points, `EulerDeconvolution.fit` raises LinAlgError. -/
theorem C106_point_mass (junk : Junk) (K : PointKernels) (hK : K.Newtonian) (m₁ m₂ m₃ m₄ : Mode)
    (shape ps ms : List ℕ) (obs : List P3) (hshape : shape.prod = obs.length) (p : P3) (m b : ℝ)
    (hp : ∀ q ∈ obs, q ≠ p) (h1 : m₁.Full obs.length 2) (h2 : m₂.Full obs.length 2)
    (h3 : m₃.Full obs.length 2) (h4 : m₄.Full obs.length 2) (H : Homogeneous)
    (hH : H ∈ homogeneousFields) (self : Attributes) (P : Settings) (w : Fin 4 → ℝ) :
    let call := fun mode field =>
      pointGravity junk mode K (arrays shape obs) (arrays ps [p]) ⟨ms, [m]⟩ field "cartesian"
    ∃ f f_e f_n f_u, call m₁ H.field = .ok f ∧ call m₂ H.east.1 = .ok f_e ∧ call m₃ H.north.1 = .ok f_n ∧
      call m₄ H.up.1 = .ok f_u ∧
      let coordinates := ![ofNd (arrays shape obs).1, ofNd (arrays shape obs).2.1, ofNd (arrays shape obs).2.2]
      let data := ![rescale 1 b f, rescale H.east.2 0 f_e, rescale H.north.2 0 f_n, rescale H.up.2 0 f_u]
      (Independent obs.length data →
        fitDeconvolution H.index coordinates data self = .ok { self with
          location_ := some ![p.x, p.y, p.z]
          base_level_ := some b
          covariance_ := some (if obs.length = 4 then none else some 0) } ∧
        (1 ≤ P.max_iterations → (∀ k, 0 < w k) →
          fit P (.scalar H.index) coordinates data w self = .ok { self with
            location_ := some ![p.x, p.y, p.z]
            base_level_ := some b
            covariance_ := some (some 0)
            data_misfit_ := some 0
            structural_index_ := some H.index })) ∧
      (¬ Independent obs.length data →
        fitDeconvolution H.index coordinates data self = .error .LinAlgError) := by
  intro call
  have hη : H.index ≠ 0 := by
    simp only [homogeneousFields, List.mem_cons, List.not_mem_nil, or_false] at hH
    rcases hH with rfl | rfl | rfl | rfl <;> norm_num
  -- the kernels behind the four fields
  have hex : ∃ f e n u : (P3 → P3 → ℝ → ℝ) × ℝ,
      pointFieldTable K H.field = some f ∧ pointFieldTable K H.east.1 = some e ∧
      pointFieldTable K H.north.1 = some n ∧ pointFieldTable K H.up.1 = some u := by
    have hne : (⟨p.x + 1, 0, 0⟩ : P3) ≠ p := fun h => by
      have := congrArg P3.x h
      simp at this
    obtain ⟨f, e, n, u, h⟩ := homogeneous_residual hK hne m b H hH
    exact ⟨f, e, n, u, h.1, h.2.1, h.2.2.1, h.2.2.2.1⟩
  obtain ⟨f, e, n, u, hf, he, hn, hu⟩ := hex
  have hcall : ∀ mode field (t : (P3 → P3 → ℝ → ℝ) × ℝ), mode.Full obs.length 2 →
      pointFieldTable K field = some t →
      call mode field = .ok ⟨shape, obs.map fun q => t.2 * t.1 q p m⟩ := by
    intro mode field t hm ht
    have := C04_point_gravity_cartesian junk mode K shape ps ms obs hshape [(p, m)] (by simpa using hm) field
    rw [ht] at this
    simpa [total] using this
  refine ⟨_, _, _, _, hcall _ _ f h1 hf, hcall _ _ e h2 he, hcall _ _ n h3 hn, hcall _ _ u h4 hu, ?_⟩
  intro coordinates data
  have hs : Agree shape coordinates data := by
    constructor <;> intro k <;> fin_cases k <;>
      simp [coordinates, data, ofNd, rescale, arrays, hshape]
  have hres : ∀ i < shape.prod,
      eulerResidual H.index coordinates data (joined ![p.x, p.y, p.z] b) i = 0 := by
    intro i hi
    rw [hshape] at hi
    obtain ⟨f', e', n', u', hf', he', hn', hu', h⟩ :=
      homogeneous_residual hK (hp _ (List.getElem_mem hi)) m b H hH
    rw [hf] at hf'; rw [he] at he'; rw [hn] at hn'; rw [hu] at hu'
    cases hf'; cases he'; cases hn'; cases hu'
    simp only [eulerResidual, coordinates, data, joined, ofNd, rescale, arrays, List.map_map,
      Matrix.cons_val_zero, Matrix.cons_val_one, Matrix.cons_val]
    simp only [getD_map _ _ i hi, Function.comp_apply, one_mul, add_zero]
    exact h
  rw [← hshape]
  refine ⟨fun hind => ⟨?_, fun hP hw => ?_⟩, fun hind => C44_singular hη hs hind self⟩
  · exact C44_exact_partial hη hs hind ![p.x, p.y, p.z] b hres self
  · obtain ⟨wd, h, -⟩ := C45_exact (P := P) hP hη ((independent_arr _ _).1 hind) hw ![p.x, p.y, p.z] b
      (c := fun k i => (coordinates k).data.getD i 0) (fun i => hres i i.2) self
    unfold fit
    rw [ravel_ok hs]
    simp only [Py.bind_ok, fitInversion, h, Py.pure_eq]

/-! ### A concrete case: a mass of 2 kg at the origin seen from five points, base level 7 mGal -/

/-- Five points at distances 1, 2, 5, 5 and 5 of the origin. -/
def aroundOrigin : List P3 := [⟨0, 0, 1⟩, ⟨0, 0, 2⟩, ⟨3, 0, 4⟩, ⟨0, 3, 4⟩, ⟨0, 4, 3⟩]

theorem gap_origin {q : P3} {r : ℝ} (h : 0 ≤ r) (e : q.x ^ 2 + q.y ^ 2 + q.z ^ 2 = r ^ 2) :
    gap q ⟨0, 0, 0⟩ = r := by
  unfold gap
  rw [show (q.x - 0) ^ 2 + (q.y - 0) ^ 2 + (q.z - 0) ^ 2 = r ^ 2 by rw [← e]; ring]
  exact Real.sqrt_sq h

/-- What `point_gravity` computes for one of its fields. -/
theorem origin_field (field : String) (t : (P3 → P3 → ℝ → ℝ) × ℝ)
    (ht : pointFieldTable newtonKernels field = some t) :
    pointGravity (fun _ _ => 0) .serial newtonKernels (arrays [5] aroundOrigin) (arrays [1] [⟨0, 0, 0⟩])
      ⟨[1], [2]⟩ field "cartesian" = .ok ⟨[5], aroundOrigin.map fun q => t.2 * t.1 q ⟨0, 0, 0⟩ 2⟩ := by
  have := C04_point_gravity_cartesian (fun _ _ => 0) .serial newtonKernels [5] [1] [1] aroundOrigin
    (by simp [aroundOrigin]) [(⟨0, 0, 0⟩, 2)] trivial field
  rw [ht] at this
  simpa [total] using this

/-- C106_point_mass: the vertical component, structural index 2. -/
example : ∃ data, fitDeconvolution 2 ![⟨[5], [0, 0, 3, 0, 0]⟩, ⟨[5], [0, 0, 0, 3, 4]⟩, ⟨[5], [1, 2, 4, 4, 3]⟩]
    data {} = .ok { location_ := some ![0, 0, 0], base_level_ := some 7, covariance_ := some (some 0) } := by
  obtain ⟨f, f_e, f_n, f_u, hf, he, hn, hu, h, -⟩ := C106_point_mass (fun _ _ => 0) newtonKernels
    newtonKernels_newtonian .serial .serial .serial .serial [5] [1] [1] aroundOrigin (by simp [aroundOrigin])
    ⟨0, 0, 0⟩ 2 7 (by simp [aroundOrigin]) trivial trivial trivial trivial
    ⟨"g_z", 2, ("g_ze", 1 / 10 ^ 4), ("g_zn", 1 / 10 ^ 4), ("g_zz", -1 / 10 ^ 4)⟩
    (by unfold homogeneousFields; exact .tail _ (.tail _ (.tail _ (.head _)))) {} {} (fun _ => 1)
  have te : pointFieldTable newtonKernels "g_ze" = some (newtonKernels.eu, -10 ^ 9) := by
    simp [pointFieldTable]
  have tn : pointFieldTable newtonKernels "g_zn" = some (newtonKernels.nu, -10 ^ 9) := by
    simp [pointFieldTable]
  have tu : pointFieldTable newtonKernels "g_zz" = some (newtonKernels.uu, 10 ^ 9) := by
    simp [pointFieldTable]
  have he := (origin_field _ _ te).symm.trans he
  have hn := (origin_field _ _ tn).symm.trans hn
  have hu := (origin_field _ _ tu).symm.trans hu
  cases he
  cases hn
  cases hu
  have g1 : gap ⟨0, 0, 1⟩ ⟨0, 0, 0⟩ = 1 := gap_origin (by norm_num) (by norm_num)
  have g2 : gap ⟨0, 0, 2⟩ ⟨0, 0, 0⟩ = 2 := gap_origin (by norm_num) (by norm_num)
  have g3 : gap ⟨3, 0, 4⟩ ⟨0, 0, 0⟩ = 5 := gap_origin (by norm_num) (by norm_num)
  have g4 : gap ⟨0, 3, 4⟩ ⟨0, 0, 0⟩ = 5 := gap_origin (by norm_num) (by norm_num)
  have hG : gravitationalConst ≠ 0 := by unfold gravitationalConst; norm_num
  refine ⟨_, (h ?_).1⟩
  intro q hq
  have q0 := hq 0 (by simp [aroundOrigin])
  have q1 := hq 1 (by simp [aroundOrigin])
  have q2 := hq 2 (by simp [aroundOrigin])
  have q3 := hq 3 (by simp [aroundOrigin])
  simp [rescale, aroundOrigin, newtonKernels, g1, g2, g3, g4] at q0 q1 q2 q3
  have a3 : q 2 * gravitationalConst = 0 := by linarith
  have a4 : q 3 = 0 := by linarith
  have a1 : q 0 * gravitationalConst = 0 := by linarith
  have a2 : q 1 * gravitationalConst = 0 := by linarith
  funext k
  fin_cases k
  · exact (mul_eq_zero.1 a1).resolve_right hG
  · exact (mul_eq_zero.1 a2).resolve_right hG
  · exact (mul_eq_zero.1 a3).resolve_right hG
  · exact a4

end Verif.Euler
