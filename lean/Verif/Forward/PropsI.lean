import Verif.Forward.PropsH
import Mathlib.LinearAlgebra.UnitaryGroup

/-! C117: the fields of point masses and dipoles do not depend on the orientation of the axes. -/

namespace Verif.Forward
open Verif.Distance Verif.Engine Matrix

/-! ### Specification -/

/-- Coordinates of a point as a vector. -/
def vec (p : P3) : Fin 3 → ℝ := ![p.x, p.y, p.z]

/-- A point seen from turned (or mirrored) axes: `Q` is an orthogonal matrix. -/
def turn (Q : Matrix (Fin 3) (Fin 3) ℝ) (p : P3) : P3 := ⟨(Q *ᵥ vec p) 0, (Q *ᵥ vec p) 1, (Q *ᵥ vec p) 2⟩

/-- The acceleration (mGal), upward positive as the third axis. -/
def accelerationOf (F : String → P3 → ℝ) (q : P3) : Fin 3 → ℝ := ![F "g_e" q, F "g_n" q, -F "g_z" q]

/-- The gradient tensor (Eötvös), upward positive as the third axis. -/
def tensorOf (F : String → P3 → ℝ) (q : P3) : Matrix (Fin 3) (Fin 3) ℝ :=
  !![F "g_ee" q, F "g_en" q, -F "g_ez" q;
     F "g_ne" q, F "g_nn" q, -F "g_nz" q;
     -F "g_ze" q, -F "g_zn" q, F "g_zz" q]

/-- The fields of `point_gravity` in Cartesian coordinates. -/
def pointFieldNames : List String :=
  ["potential", "g_e", "g_n", "g_z", "g_ee", "g_nn", "g_zz", "g_en", "g_ez", "g_nz", "g_ne", "g_ze", "g_zn"]

/-! ### Lemmas -/

theorem vec_turn (Q : Matrix (Fin 3) (Fin 3) ℝ) (p : P3) : vec (turn Q p) = Q *ᵥ vec p := by
  ext i; fin_cases i <;> rfl

theorem turn_dot {Q : Matrix (Fin 3) (Fin 3) ℝ} (hQ : Q ∈ Matrix.orthogonalGroup (Fin 3) ℝ) (v w : Fin 3 → ℝ) :
    (Q *ᵥ v) ⬝ᵥ (Q *ᵥ w) = v ⬝ᵥ w := by
  have h : Qᵀ * Q = 1 := (Matrix.mem_orthogonalGroup_iff' _ _).1 hQ
  rw [Matrix.dotProduct_mulVec, Matrix.vecMul_mulVec, h, Matrix.vecMul_one]

theorem gap_eq_dot (q p : P3) : gap q p = Real.sqrt ((vec q - vec p) ⬝ᵥ (vec q - vec p)) := by
  simp only [gap, dotProduct, Fin.sum_univ_three, vec, Pi.sub_apply, Matrix.cons_val]
  congr 1
  ring

theorem gap_turn {Q : Matrix (Fin 3) (Fin 3) ℝ} (hQ : Q ∈ Matrix.orthogonalGroup (Fin 3) ℝ) (q p : P3) :
    gap (turn Q q) (turn Q p) = gap q p := by
  rw [gap_eq_dot, gap_eq_dot, vec_turn, vec_turn, ← Matrix.mulVec_sub, turn_dot hQ]

theorem turn_ne {Q : Matrix (Fin 3) (Fin 3) ℝ} (hQ : Q ∈ Matrix.orthogonalGroup (Fin 3) ℝ) {q p : P3} (h : q ≠ p) :
    turn Q q ≠ turn Q p := by
  intro he
  have h1 := gap_turn hQ q p
  have h2 := gap_pos h
  rw [he] at h1
  have h3 : gap (turn Q p) (turn Q p) = 0 := by simp [gap]
  linarith

/-- acceleration and tensor of one source -/
noncomputable def accel (K : PointKernels) (q p : P3) (m : ℝ) : Fin 3 → ℝ := ![K.e q p m, K.n q p m, K.u q p m]
@[inherit_doc accel]
noncomputable def tens (K : PointKernels) (q p : P3) (m : ℝ) : Matrix (Fin 3) (Fin 3) ℝ :=
  !![K.ee q p m, K.en q p m, K.eu q p m; K.en q p m, K.nn q p m, K.nu q p m; K.eu q p m, K.nu q p m, K.uu q p m]

theorem accel_eq {K : PointKernels} (hK : K.Newtonian) {q p : P3} (h : q ≠ p) (m : ℝ) :
    accel K q p m = (-(gravitationalConst * m) / gap q p ^ 3) • (vec q - vec p) := by
  unfold accel
  rw [hK.e q p m h, hK.n q p m h, hK.u q p m h]
  ext i
  fin_cases i <;> simp [vec] <;> ring

theorem tens_eq {K : PointKernels} (hK : K.Newtonian) {q p : P3} (h : q ≠ p) (m : ℝ) :
    tens K q p m = (gravitationalConst * m * 3 / gap q p ^ 5) • vecMulVec (vec q - vec p) (vec q - vec p) -
      (gravitationalConst * m / gap q p ^ 3) • (1 : Matrix (Fin 3) (Fin 3) ℝ) := by
  unfold tens
  rw [hK.ee q p m h, hK.nn q p m h, hK.uu q p m h, hK.en q p m h, hK.eu q p m h, hK.nu q p m h]
  ext i j
  fin_cases i <;> fin_cases j <;> simp [vec, vecMulVec] <;> ring

theorem accel_turn {K : PointKernels} (hK : K.Newtonian) {Q : Matrix (Fin 3) (Fin 3) ℝ}
    (hQ : Q ∈ Matrix.orthogonalGroup (Fin 3) ℝ) {q p : P3} (h : q ≠ p) (m : ℝ) :
    accel K (turn Q q) (turn Q p) m = Q *ᵥ accel K q p m := by
  rw [accel_eq hK h, accel_eq hK (turn_ne hQ h), gap_turn hQ, vec_turn, vec_turn, ← Matrix.mulVec_sub,
    Matrix.mulVec_smul]

theorem tens_turn {K : PointKernels} (hK : K.Newtonian) {Q : Matrix (Fin 3) (Fin 3) ℝ}
    (hQ : Q ∈ Matrix.orthogonalGroup (Fin 3) ℝ) {q p : P3} (h : q ≠ p) (m : ℝ) :
    tens K (turn Q q) (turn Q p) m = Q * tens K q p m * Qᵀ := by
  have h1 : Q * Qᵀ = 1 := (Matrix.mem_orthogonalGroup_iff _ _).1 hQ
  rw [tens_eq hK h, tens_eq hK (turn_ne hQ h), gap_turn hQ, vec_turn, vec_turn, ← Matrix.mulVec_sub,
    Matrix.mul_sub, Matrix.sub_mul, Matrix.mul_smul, Matrix.mul_smul, Matrix.smul_mul, Matrix.smul_mul, Matrix.mul_one,
    h1, Matrix.mul_vecMulVec, Matrix.vecMulVec_mul, Matrix.vecMul_transpose]

/-- value of a field of `point_gravity` -/
noncomputable def pointValue (K : PointKernels) (srcs : List (P3 × ℝ)) (field : String) (q : P3) : ℝ :=
  match pointFieldTable K field with
  | none => 0
  | some (k, factor) => factor * total (fun q s => k q s.1 s.2) srcs q

theorem pointGravity_value (junk : Junk) (mode : Mode) (K : PointKernels) (shape ps ms : List ℕ) (obs : List P3)
    (hshape : shape.prod = obs.length) (srcs : List (P3 × ℝ)) (hm : mode.Full obs.length (2 * srcs.length))
    (field : String) (hf : field ∈ pointFieldNames) :
    pointGravity junk mode K (arrays shape obs) (arrays ps (srcs.map (·.1))) ⟨ms, srcs.map (·.2)⟩ field "cartesian" =
      .ok ⟨shape, obs.map (pointValue K srcs field)⟩ := by
  rw [C04_point_gravity_cartesian junk mode K shape ps ms obs hshape srcs hm]
  simp only [pointFieldNames, List.mem_cons, List.not_mem_nil, or_false] at hf
  rcases hf with rfl | rfl | rfl | rfl | rfl | rfl | rfl | rfl | rfl | rfl | rfl | rfl | rfl <;>
    simp [pointFieldTable, pointValue]

theorem acceleration_sum (K : PointKernels) (srcs : List (P3 × ℝ)) (q : P3) :
    accelerationOf (pointValue K srcs) q = (10 ^ 5 : ℝ) • (srcs.map fun s => accel K q s.1 s.2).sum := by
  have h : (srcs.map fun s => accel K q s.1 s.2).sum = ![total (fun q s => K.e q s.1 s.2) srcs q,
      total (fun q s => K.n q s.1 s.2) srcs q, total (fun q s => K.u q s.1 s.2) srcs q] := by
    unfold total accel
    induction srcs with
    | nil => ext i; fin_cases i <;> simp
    | cons s l ih => simp [ih]
  rw [h]
  ext i
  fin_cases i <;> simp [accelerationOf, pointValue, pointFieldTable]

theorem tensor_sum (K : PointKernels) (srcs : List (P3 × ℝ)) (q : P3) :
    tensorOf (pointValue K srcs) q = (10 ^ 9 : ℝ) • (srcs.map fun s => tens K q s.1 s.2).sum := by
  have h : (srcs.map fun s => tens K q s.1 s.2).sum =
      !![total (fun q s => K.ee q s.1 s.2) srcs q, total (fun q s => K.en q s.1 s.2) srcs q,
          total (fun q s => K.eu q s.1 s.2) srcs q;
        total (fun q s => K.en q s.1 s.2) srcs q, total (fun q s => K.nn q s.1 s.2) srcs q,
          total (fun q s => K.nu q s.1 s.2) srcs q;
        total (fun q s => K.eu q s.1 s.2) srcs q, total (fun q s => K.nu q s.1 s.2) srcs q,
          total (fun q s => K.uu q s.1 s.2) srcs q] := by
    unfold total tens
    induction srcs with
    | nil => ext i j; fin_cases i <;> fin_cases j <;> simp
    | cons s l ih =>
      rw [List.map_cons, List.sum_cons, ih]
      ext i j
      fin_cases i <;> fin_cases j <;> simp
  rw [h]
  ext i j
  fin_cases i <;> fin_cases j <;> simp [tensorOf, pointValue, pointFieldTable]

/-! ### C117 -/

/-- C117, point masses: with the observation points and the masses given in turned (or mirrored) axes, `point_gravity`
returns the same potential and the acceleration and the tensor of the original axes, turned; at points that are not
sources. -/
theorem C117_point_gravity (junk junk' : Junk) (K : PointKernels) (hK : K.Newtonian) (ps ms : List ℕ)
    (srcs : List (P3 × ℝ)) (Q : Matrix (Fin 3) (Fin 3) ℝ) (hQ : Q ∈ Matrix.orthogonalGroup (Fin 3) ℝ) :
    let srcs' := srcs.map fun s => (turn Q s.1, s.2)
    ∃ F F' : String → P3 → ℝ,
      (∀ field ∈ pointFieldNames, ∀ mode shape obs, shape.prod = obs.length → mode.Full obs.length (2 * srcs.length) →
        pointGravity junk mode K (arrays shape obs) (arrays ps (srcs.map (·.1))) ⟨ms, srcs.map (·.2)⟩ field
          "cartesian" = .ok ⟨shape, obs.map (F field)⟩ ∧
        pointGravity junk' mode K (arrays shape (obs.map (turn Q))) (arrays ps (srcs'.map (·.1)))
          ⟨ms, srcs'.map (·.2)⟩ field "cartesian" = .ok ⟨shape, obs.map fun q => F' field (turn Q q)⟩) ∧
      ∀ q, (∀ s ∈ srcs, q ≠ s.1) →
        F' "potential" (turn Q q) = F "potential" q ∧
        accelerationOf F' (turn Q q) = Q *ᵥ accelerationOf F q ∧
        tensorOf F' (turn Q q) = Q * tensorOf F q * Qᵀ := by
  intro srcs'
  refine ⟨pointValue K srcs, pointValue K srcs', ?_, ?_⟩
  · intro field hf mode shape obs hs hm
    refine ⟨pointGravity_value junk mode K shape ps ms obs hs srcs hm field hf, ?_⟩
    rw [pointGravity_value junk' mode K shape ps ms (obs.map (turn Q)) (by simpa using hs) srcs'
      (by simpa [srcs'] using hm) field hf, List.map_map]
    rfl
  · intro q hq
    refine ⟨?_, ?_, ?_⟩
    · simp only [pointValue, pointFieldTable, if_true, one_mul, total, srcs', List.map_map]
      congr 1
      apply List.map_congr_left
      intro s hs
      simp only [Function.comp]
      rw [hK.pot _ _ _ (hq s hs), hK.pot _ _ _ (turn_ne hQ (hq s hs)), gap_turn hQ]
    · rw [acceleration_sum, acceleration_sum, Matrix.mulVec_smul]
      congr 1
      simp only [srcs']
      induction srcs with
      | nil => simp
      | cons s l ih =>
        have ih := ih fun s hs => hq s (by simp [hs])
        simp only [List.map_cons, List.sum_cons]
        rw [Matrix.mulVec_add, ← ih, accel_turn hK hQ (hq s (by simp))]
    · rw [tensor_sum, tensor_sum, Matrix.mul_smul, Matrix.smul_mul]
      congr 1
      simp only [srcs']
      induction srcs with
      | nil => simp
      | cons s l ih =>
        have ih := ih fun s hs => hq s (by simp [hs])
        simp only [List.map_cons, List.sum_cons]
        rw [Matrix.mul_add, Matrix.add_mul, ← ih, tens_turn hK hQ (hq s (by simp))]

/-- field of one dipole -/
noncomputable def dipoleAt (K : MagKernels P3) (q p : P3) (m : V3) : Fin 3 → ℝ := ![K.e q p m, K.n q p m, K.u q p m]

theorem dipoleAt_eq {mu0 : ℝ} {K : MagKernels P3} (hK : K.Dipole mu0) {q p : P3} (h : q ≠ p) (m : V3) :
    dipoleAt K q p m = (mu0 / (4 * Real.pi)) • ((3 * (vec m ⬝ᵥ (vec q - vec p)) / gap q p ^ 5) • (vec q - vec p) -
      (1 / gap q p ^ 3) • vec m) := by
  unfold dipoleAt
  rw [hK.e q p m h, hK.n q p m h, hK.u q p m h]
  ext i
  fin_cases i <;> simp only [vec, dotProduct, Fin.sum_univ_three, Pi.sub_apply, Pi.smul_apply, smul_eq_mul,
    Matrix.cons_val, Fin.zero_eta, Fin.mk_one, Fin.reduceFinMk] <;> ring

theorem dipoleAt_turn {mu0 : ℝ} {K : MagKernels P3} (hK : K.Dipole mu0) {Q : Matrix (Fin 3) (Fin 3) ℝ}
    (hQ : Q ∈ Matrix.orthogonalGroup (Fin 3) ℝ) {q p : P3} (h : q ≠ p) (m : V3) :
    dipoleAt K (turn Q q) (turn Q p) (turn Q m) = Q *ᵥ dipoleAt K q p m := by
  rw [dipoleAt_eq hK h, dipoleAt_eq hK (turn_ne hQ h), gap_turn hQ, vec_turn, vec_turn, vec_turn,
    ← Matrix.mulVec_sub, turn_dot hQ, Matrix.mulVec_smul, Matrix.mulVec_sub Q (_ • _), Matrix.mulVec_smul,
    Matrix.mulVec_smul]

/-- C117, dipoles: with the observation points, the dipoles and their moments given in turned (or mirrored) axes,
`dipole_magnetic` returns the magnetic field of the original axes, turned. -/
theorem C117_dipole_magnetic (junk junk' : Junk) {mu0 : ℝ} (K : MagKernels P3) (hK : K.Dipole mu0) (ps : List ℕ)
    (srcs : List (P3 × V3)) (Q : Matrix (Fin 3) (Fin 3) ℝ) (hQ : Q ∈ Matrix.orthogonalGroup (Fin 3) ℝ) :
    let srcs' := srcs.map fun s => (turn Q s.1, turn Q s.2)
    let moments := fun l : List (P3 × V3) => [(l.map (·.2)).map (·.x), (l.map (·.2)).map (·.y), (l.map (·.2)).map (·.z)]
    ∃ B B' : P3 → Fin 3 → ℝ,
      (∀ mode shape obs dis, shape.prod = obs.length → mode.Full obs.length (6 * srcs.length) →
        dipoleMagnetic junk mode K (arrays shape obs) (arrays ps (srcs.map (·.1))) (moments srcs) "b" dis =
          .ok (.vector ⟨shape, obs.map (B · 0)⟩ ⟨shape, obs.map (B · 1)⟩ ⟨shape, obs.map (B · 2)⟩) ∧
        dipoleMagnetic junk' mode K (arrays shape (obs.map (turn Q))) (arrays ps (srcs'.map (·.1))) (moments srcs') "b"
            dis =
          .ok (.vector ⟨shape, obs.map fun q => B' (turn Q q) 0⟩ ⟨shape, obs.map fun q => B' (turn Q q) 1⟩
            ⟨shape, obs.map fun q => B' (turn Q q) 2⟩)) ∧
      ∀ q, (∀ s ∈ srcs, q ≠ s.1) → B' (turn Q q) = Q *ᵥ B q := by
  intro srcs' moments
  let B (l : List (P3 × V3)) (q : P3) : Fin 3 → ℝ :=
    ![total (fun q s => K.e q s.1 s.2) l q * 10 ^ 9, total (fun q s => K.n q s.1 s.2) l q * 10 ^ 9,
      total (fun q s => K.u q s.1 s.2) l q * 10 ^ 9]
  have hB : ∀ l q, B l q = (10 ^ 9 : ℝ) • (l.map fun s => dipoleAt K q s.1 s.2).sum := by
    intro l q
    have h : (l.map fun s => dipoleAt K q s.1 s.2).sum = ![total (fun q s => K.e q s.1 s.2) l q,
        total (fun q s => K.n q s.1 s.2) l q, total (fun q s => K.u q s.1 s.2) l q] := by
      unfold total dipoleAt
      induction l with
      | nil => ext i; fin_cases i <;> simp
      | cons s l ih => simp [ih]
    rw [h]
    ext i
    fin_cases i <;> simp [B, mul_comm]
  refine ⟨B srcs, B srcs', ?_, ?_⟩
  · intro mode shape obs dis hs hm
    constructor
    · rw [C05_dipole_magnetic junk mode K shape ps obs hs srcs hm "b" dis]
      simp [magSpec, hK.field, B]
    · rw [C05_dipole_magnetic junk' mode K shape ps (obs.map (turn Q)) (by simpa using hs) srcs'
        (by simpa [srcs'] using hm) "b" dis]
      simp [magSpec, hK.field, B, List.map_map, Function.comp_def]
  · intro q hq
    rw [hB, hB, Matrix.mulVec_smul]
    congr 1
    simp only [srcs']
    induction srcs with
    | nil => simp
    | cons s l ih =>
      have ih := ih fun s hs => hq s (by simp [hs])
      simp only [List.map_cons, List.sum_cons]
      rw [Matrix.mulVec_add, ← ih, dipoleAt_turn hK hQ (hq s (by simp))]

/-! ### Examples -/

/-- A quarter turn around the vertical axis. -/
def quarter : Matrix (Fin 3) (Fin 3) ℝ := !![0, -1, 0; 1, 0, 0; 0, 0, 1]

theorem quarter_orthogonal : quarter ∈ Matrix.orthogonalGroup (Fin 3) ℝ := by
  rw [Matrix.mem_orthogonalGroup_iff]
  ext i j
  fin_cases i <;> fin_cases j <;> simp [quarter, Matrix.mul_apply, Fin.sum_univ_three]

/-- a quarter turn: the easting component becomes the northing component -/
example : ∃ F F' : String → P3 → ℝ,
    pointGravity (fun _ _ => 0) .serial newtonKernels (arrays [1] [⟨0, 0, 0⟩]) (arrays [1] [⟨2, 0, -1⟩]) ⟨[1], [3]⟩ "g_e"
      "cartesian" = .ok ⟨[1], [F "g_e" ⟨0, 0, 0⟩]⟩ ∧
    F' "g_n" (turn quarter ⟨0, 0, 0⟩) = F "g_e" ⟨0, 0, 0⟩ := by
  obtain ⟨F, F', h, hq⟩ := C117_point_gravity (fun _ _ => 0) (fun _ _ => 0) newtonKernels newtonKernels_newtonian [1] [1]
    [(⟨2, 0, -1⟩, 3)] quarter quarter_orthogonal
  refine ⟨F, F', (h "g_e" (by simp [pointFieldNames]) .serial [1] [⟨0, 0, 0⟩] (by simp) trivial).1, ?_⟩
  have := congrFun (hq ⟨0, 0, 0⟩ (by simp)).2.1 1
  simpa [accelerationOf, quarter, Matrix.mulVec, dotProduct, Fin.sum_univ_three] using this

end Verif.Forward
