import Verif.Forward.PropsI

/-! C118: the fields of bodies made of prisms do not depend on the orientation of the axes. -/

namespace Verif.Forward
open Verif.Distance Verif.Engine Matrix MeasureTheory Filter

/-! ### Specification -/

/-- The turned position of a point of space. -/
def turnSpace (Q : Matrix (Fin 3) (Fin 3) ℝ) (r : ℝ × ℝ × ℝ) : ℝ × ℝ × ℝ := coords (turn Q (pointAt r))

/-- The gradient tensor (Eötvös) of `prism_gravity`, upward positive as the third axis. -/
def prismTensorOf (F : String → P3 → ℝ) (q : P3) : Matrix (Fin 3) (Fin 3) ℝ :=
  !![F "g_ee" q, F "g_en" q, -F "g_ez" q;
     F "g_en" q, F "g_nn" q, -F "g_nz" q;
     -F "g_ez" q, -F "g_nz" q, F "g_zz" q]

/-! ### Turning preserves volumes -/

/-- Space and vectors. -/
def spaceEquiv : (Fin 3 → ℝ) ≃ₗ[ℝ] ℝ × ℝ × ℝ where
  toFun v := (v 0, v 1, v 2)
  invFun r := ![r.1, r.2.1, r.2.2]
  map_add' _ _ := rfl
  map_smul' _ _ := rfl
  left_inv v := by ext i; fin_cases i <;> rfl
  right_inv _ := rfl

theorem turnSpace_eq (Q : Matrix (Fin 3) (Fin 3) ℝ) (r : ℝ × ℝ × ℝ) :
    turnSpace Q r = (spaceEquiv.toLinearMap ∘ₗ Q.toLin' ∘ₗ spaceEquiv.symm.toLinearMap) r := rfl

theorem det_cases {Q : Matrix (Fin 3) (Fin 3) ℝ} (hQ : Q ∈ Matrix.orthogonalGroup (Fin 3) ℝ) :
    Q.det = 1 ∨ Q.det = -1 := by
  have h : Q * Qᵀ = 1 := (Matrix.mem_orthogonalGroup_iff _ _).1 hQ
  have := congrArg Matrix.det h
  rw [Matrix.det_mul, Matrix.det_transpose, Matrix.det_one] at this
  exact mul_self_eq_one_iff.1 this

theorem turnSpace_preserving {Q : Matrix (Fin 3) (Fin 3) ℝ} (hQ : Q ∈ Matrix.orthogonalGroup (Fin 3) ℝ) :
    MeasurePreserving (turnSpace Q) volume volume := by
  let L := spaceEquiv.toLinearMap ∘ₗ Q.toLin' ∘ₗ spaceEquiv.symm.toLinearMap
  have hf : turnSpace Q = L := by funext r; exact turnSpace_eq Q r
  have hd : LinearMap.det L = Q.det := by
    rw [← LinearMap.det_toLin' Q]
    exact LinearMap.det_conj Q.toLin' spaceEquiv
  have h1 : |Q.det⁻¹| = 1 := by rcases det_cases hQ with h | h <;> simp [h]
  have h0 : Q.det ≠ 0 := by rcases det_cases hQ with h | h <;> simp [h]
  refine ⟨?_, ?_⟩
  · rw [hf]; exact L.continuous_of_finiteDimensional.measurable
  · rw [hf, Measure.map_linearMap_addHaar_eq_smul_addHaar volume (by rw [hd]; exact h0), hd, h1]
    simp

theorem turnSpace_embedding {Q : Matrix (Fin 3) (Fin 3) ℝ} (hQ : Q ∈ Matrix.orthogonalGroup (Fin 3) ℝ) :
    MeasurableEmbedding (turnSpace Q) := by
  have hm := (turnSpace_preserving hQ).measurable
  refine hm.measurableEmbedding fun r r' h => ?_
  by_contra hne
  refine turn_ne hQ (q := pointAt r) (p := pointAt r') (fun he => hne ?_) ?_
  · have := congrArg coords he
    simpa only [coords_pointAt] using this
  · have := congrArg pointAt h
    simpa only [turnSpace, pointAt_coords] using this

/-- The integral over the turned body. -/
theorem integral_turn {Q : Matrix (Fin 3) (Fin 3) ℝ} (hQ : Q ∈ Matrix.orthogonalGroup (Fin 3) ℝ)
    (f : ℝ × ℝ × ℝ → ℝ) : ∫ r, f r = ∫ r, f (turnSpace Q r) :=
  ((turnSpace_preserving hQ).integral_comp (turnSpace_embedding hQ) f).symm

theorem pointAt_turnSpace (Q : Matrix (Fin 3) (Fin 3) ℝ) (r : ℝ × ℝ × ℝ) :
    pointAt (turnSpace Q r) = turn Q (pointAt r) := rfl

/-! ### The kernels, also at the source -/

theorem newton_accel (q p : P3) (m : ℝ) :
    accel newtonKernels q p m = (-(gravitationalConst * m) / gap q p ^ 3) • (vec q - vec p) := by
  unfold accel
  simp only [newtonKernels]
  ext i
  fin_cases i <;> simp [vec] <;> ring

theorem newton_accel_turn {Q : Matrix (Fin 3) (Fin 3) ℝ} (hQ : Q ∈ Matrix.orthogonalGroup (Fin 3) ℝ) (q p : P3)
    (m : ℝ) : accel newtonKernels (turn Q q) (turn Q p) m = Q *ᵥ accel newtonKernels q p m := by
  rw [newton_accel, newton_accel, gap_turn hQ, vec_turn, vec_turn, ← Matrix.mulVec_sub, Matrix.mulVec_smul]

theorem newton_tens (q p : P3) (m : ℝ) :
    tens newtonKernels q p m =
      (gravitationalConst * m * 3 / gap q p ^ 5) • vecMulVec (vec q - vec p) (vec q - vec p) -
      (gravitationalConst * m / gap q p ^ 3) • (1 : Matrix (Fin 3) (Fin 3) ℝ) := by
  unfold tens
  simp only [newtonKernels]
  ext i j
  fin_cases i <;> fin_cases j <;> simp [vec, vecMulVec] <;> ring

theorem newton_tens_turn {Q : Matrix (Fin 3) (Fin 3) ℝ} (hQ : Q ∈ Matrix.orthogonalGroup (Fin 3) ℝ) (q p : P3)
    (m : ℝ) : tens newtonKernels (turn Q q) (turn Q p) m = Q * tens newtonKernels q p m * Qᵀ := by
  have h1 : Q * Qᵀ = 1 := (Matrix.mem_orthogonalGroup_iff _ _).1 hQ
  rw [newton_tens, newton_tens, gap_turn hQ, vec_turn, vec_turn, ← Matrix.mulVec_sub,
    Matrix.mul_sub, Matrix.sub_mul, Matrix.mul_smul, Matrix.mul_smul, Matrix.smul_mul, Matrix.smul_mul, Matrix.mul_one,
    h1, Matrix.mul_vecMulVec, Matrix.vecMulVec_mul, Matrix.vecMul_transpose]

theorem accel_field (i : Fin 3) : PointField (fun q p m => accel newtonKernels q p m i) 2 := by
  fin_cases i
  · exact newton_e
  · exact newton_n
  · exact newton_u

theorem tens_field (i j : Fin 3) : PointField (fun q p m => tens newtonKernels q p m i j) 3 := by
  fin_cases i <;> fin_cases j
  · exact newton_ee
  · exact newton_en
  · exact newton_eu
  · exact newton_en
  · exact newton_nn
  · exact newton_nu
  · exact newton_eu
  · exact newton_nu
  · exact newton_uu

/-- Field of a density with the kernel `k`. -/
noncomputable def densityField (k : P3 → P3 → ℝ → ℝ) (srcs : List (Prism × ℝ)) (q : P3) : ℝ :=
  ∫ r, densityAt srcs r * k q (pointAt r) 1

theorem acceleration_body (srcs : List (Prism × ℝ)) (q : P3) :
    accelerationOf (bodyField srcs) q =
      (10 ^ 5 : ℝ) • fun i => densityField (fun q p m => accel newtonKernels q p m i) srcs q := by
  ext i
  have h := fun i => (sum_integrals (accel_field i) srcs q (Or.inl (le_refl 2))).1
  have h0 := h 0
  have h1 := h 1
  have h2 := h 2
  fin_cases i <;>
    simp only [accelerationOf, bodyField, pointFieldTable, densityField, accel, Pi.smul_apply, smul_eq_mul, Matrix.cons_val,
      reduceIte, String.reduceEq, Fin.zero_eta, Fin.mk_one, Fin.reduceFinMk, Fin.isValue] at h0 h1 h2 ⊢
  · rw [h0]
  · rw [h1]
  · rw [h2]; ring

theorem tensor_body (srcs : List (Prism × ℝ)) (q : P3) (ho : ∀ s ∈ srcs, coords q ∉ s.1.body) :
    prismTensorOf (bodyField srcs) q =
      (10 ^ 9 : ℝ) • Matrix.of fun i j => densityField (fun q p m => tens newtonKernels q p m i j) srcs q := by
  ext i j
  have h := fun i j => (sum_integrals (tens_field i j) srcs q (Or.inr ho)).1
  have h00 := h 0 0
  have h01 := h 0 1
  have h02 := h 0 2
  have h11 := h 1 1
  have h12 := h 1 2
  have h22 := h 2 2
  fin_cases i <;> fin_cases j <;>
    simp [prismTensorOf, bodyField, pointFieldTable, densityField, tens] at h00 h01 h02 h11 h12 h22 ⊢ <;> assumption

theorem turned_acceleration {Q : Matrix (Fin 3) (Fin 3) ℝ} (hQ : Q ∈ Matrix.orthogonalGroup (Fin 3) ℝ)
    {srcs srcs' : List (Prism × ℝ)} (hd : ∀ᵐ r, densityAt srcs' (turnSpace Q r) = densityAt srcs r) (q : P3) :
    (fun i => densityField (fun q p m => accel newtonKernels q p m i) srcs' (turn Q q)) =
      Q *ᵥ fun i => densityField (fun q p m => accel newtonKernels q p m i) srcs q := by
  ext i
  have hI := fun j => (sum_integrals (accel_field j) srcs q (Or.inl (le_refl 2))).2
  simp only [densityField, Matrix.mulVec, dotProduct]
  rw [integral_turn hQ]
  simp only [← integral_const_mul]
  rw [← integral_finsetSum _ fun j _ => (hI j).const_mul _]
  apply integral_congr_ae
  filter_upwards [hd] with r hr
  rw [hr, pointAt_turnSpace, newton_accel_turn hQ]
  simp only [Matrix.mulVec, dotProduct, Finset.mul_sum]
  exact Finset.sum_congr rfl fun j _ => by ring

theorem turned_tensor {Q : Matrix (Fin 3) (Fin 3) ℝ} (hQ : Q ∈ Matrix.orthogonalGroup (Fin 3) ℝ)
    {srcs srcs' : List (Prism × ℝ)} (hd : ∀ᵐ r, densityAt srcs' (turnSpace Q r) = densityAt srcs r) (q : P3)
    (ho : ∀ s ∈ srcs, coords q ∉ s.1.body) :
    (Matrix.of fun i j => densityField (fun q p m => tens newtonKernels q p m i j) srcs' (turn Q q)) =
      Q * (Matrix.of fun i j => densityField (fun q p m => tens newtonKernels q p m i j) srcs q) * Qᵀ := by
  ext i j
  have hI := fun k l => (sum_integrals (tens_field k l) srcs q (Or.inr ho)).2
  simp only [densityField, Matrix.mul_apply, Matrix.of_apply, Finset.sum_mul, Matrix.transpose_apply]
  rw [integral_turn hQ]
  simp only [← integral_const_mul, ← integral_mul_const]
  rw [Finset.sum_congr rfl fun l _ =>
      (integral_finsetSum Finset.univ fun k _ => ((hI k l).const_mul (Q i k)).mul_const (Q j l)).symm,
    ← integral_finsetSum _ fun l _ => integrable_finsetSum _ fun k _ => ((hI k l).const_mul (Q i k)).mul_const (Q j l)]
  apply integral_congr_ae
  filter_upwards [hd] with r hr
  rw [hr, pointAt_turnSpace, newton_tens_turn hQ]
  simp only [Matrix.mul_apply, Finset.mul_sum, Finset.sum_mul, Matrix.transpose_apply]
  exact Finset.sum_congr rfl fun l _ => Finset.sum_congr rfl fun k _ => by ring

theorem turned_potential {Q : Matrix (Fin 3) (Fin 3) ℝ} (hQ : Q ∈ Matrix.orthogonalGroup (Fin 3) ℝ)
    {srcs srcs' : List (Prism × ℝ)} (hd : ∀ᵐ r, densityAt srcs' (turnSpace Q r) = densityAt srcs r) (q : P3) :
    bodyField srcs' "potential" (turn Q q) = bodyField srcs "potential" q := by
  simp only [bodyField, pointFieldTable, if_true, one_mul]
  rw [(sum_integrals newton_pot srcs q (Or.inl (by norm_num))).1,
    (sum_integrals newton_pot srcs' (turn Q q) (Or.inl (by norm_num))).1, integral_turn hQ]
  apply integral_congr_ae
  filter_upwards [hd] with r hr
  rw [hr, pointAt_turnSpace]
  simp only [newtonKernels, gap_turn hQ]

/-! ### C118 -/

/-- C118: when the body of the prisms `srcs'` is that of the prisms `srcs` in turned (or mirrored) axes, the potential
of `prism_gravity` is the same and the acceleration and the tensor are those of the original axes, turned; the
tensor at points outside the prisms. -/
theorem C118_prism_gravity (junk junk' : Junk) {K : PrismKernels} (hK : K.Newtonian) (srcs srcs' : List (Prism × ℝ))
    (hord : ∀ s ∈ srcs, s.1.Ordered) (hord' : ∀ s ∈ srcs', s.1.Ordered)
    (Q : Matrix (Fin 3) (Fin 3) ℝ) (hQ : Q ∈ Matrix.orthogonalGroup (Fin 3) ℝ)
    (hd : ∀ᵐ r, densityAt srcs' (turnSpace Q r) = densityAt srcs r) :
    ∃ F F' : String → P3 → ℝ,
      (∀ field ∈ prismFieldNames, ∀ mode mode' shape obs dis dis', shape.prod = obs.length →
        mode.Full obs.length (2 * srcs.length) → mode'.Full obs.length (2 * srcs'.length) →
        (∀ q ∈ obs, Allowed field srcs q ∧ Allowed field srcs' (turn Q q)) →
        (prismGravity junk mode K (arrays shape obs) (srcs.map (·.1)) (srcs.map (·.2)) field dis).map (·.2) =
          .ok ⟨shape, obs.map (F field)⟩ ∧
        (prismGravity junk' mode' K (arrays shape (obs.map (turn Q))) (srcs'.map (·.1)) (srcs'.map (·.2)) field
          dis').map (·.2) = .ok ⟨shape, obs.map fun q => F' field (turn Q q)⟩) ∧
      ∀ q, F' "potential" (turn Q q) = F "potential" q ∧
        accelerationOf F' (turn Q q) = Q *ᵥ accelerationOf F q ∧
        ((∀ s ∈ srcs, coords q ∉ s.1.body) → (∀ s ∈ srcs', coords (turn Q q) ∉ s.1.body) →
          prismTensorOf F' (turn Q q) = Q * prismTensorOf F q * Qᵀ) := by
  refine ⟨bodyField srcs, bodyField srcs', ?_, fun q => ⟨turned_potential hQ hd q, ?_, fun ho ho' => ?_⟩⟩
  · intro field hf mode mode' shape obs dis dis' hs hm hm' ho
    refine ⟨prismGravity_body junk mode hK shape obs hs srcs dis hord hm field hf fun q hq => (ho q hq).1, ?_⟩
    rw [prismGravity_body junk' mode' hK shape (obs.map (turn Q)) (by simpa using hs) srcs' dis' hord'
      (by simpa using hm') field hf (by
        intro q hq
        obtain ⟨q0, hq0, rfl⟩ := List.mem_map.1 hq
        exact (ho q0 hq0).2), List.map_map]
    rfl
  · rw [acceleration_body, acceleration_body, Matrix.mulVec_smul, turned_acceleration hQ hd]
  · rw [tensor_body srcs q ho, tensor_body srcs' _ ho', Matrix.mul_smul, Matrix.smul_mul, turned_tensor hQ hd q ho]

/-! ### Magnetic field -/

theorem mag_integrable {k : P3 → P3 → V3 → ℝ} (hk : DipoleField k) (srcs : List (Prism × V3)) (q : P3)
    (ho : ∀ s ∈ srcs, coords q ∉ s.1.body) : Integrable fun r => k q (pointAt r) (magnetizationAt srcs r) := by
  have i1 := (sum_integrals (hk.point ⟨1, 0, 0⟩) (component P3.x srcs) q (Or.inr (component_outside ho))).2
  have i2 := (sum_integrals (hk.point ⟨0, 1, 0⟩) (component P3.y srcs) q (Or.inr (component_outside ho))).2
  have i3 := (sum_integrals (hk.point ⟨0, 0, 1⟩) (component P3.z srcs) q (Or.inr (component_outside ho))).2
  refine ((i1.add i2).add i3).congr (Eventually.of_forall fun r => ?_)
  beta_reduce
  rw [hk.lin q (pointAt r) (magnetizationAt srcs r)]
  simp only [one_mul, magnetizationAt, Pi.add_apply]

theorem dipoleKernels_at (mu0 : ℝ) (q p : P3) (m : V3) :
    dipoleAt (dipoleKernels mu0) q p m = (mu0 / (4 * Real.pi)) •
      ((3 * (vec m ⬝ᵥ (vec q - vec p)) / gap q p ^ 5) • (vec q - vec p) - (1 / gap q p ^ 3) • vec m) := by
  unfold dipoleAt
  simp only [dipoleKernels]
  ext i
  fin_cases i <;> simp only [vec, dotProduct, Fin.sum_univ_three, Pi.sub_apply, Pi.smul_apply, smul_eq_mul,
    Matrix.cons_val, Fin.zero_eta, Fin.mk_one, Fin.reduceFinMk] <;> ring

theorem dipoleKernels_turn (mu0 : ℝ) {Q : Matrix (Fin 3) (Fin 3) ℝ} (hQ : Q ∈ Matrix.orthogonalGroup (Fin 3) ℝ)
    (q p : P3) (m : V3) :
    dipoleAt (dipoleKernels mu0) (turn Q q) (turn Q p) (turn Q m) = Q *ᵥ dipoleAt (dipoleKernels mu0) q p m := by
  rw [dipoleKernels_at, dipoleKernels_at, gap_turn hQ, vec_turn, vec_turn, vec_turn,
    ← Matrix.mulVec_sub, turn_dot hQ, Matrix.mulVec_smul, Matrix.mulVec_sub Q (_ • _), Matrix.mulVec_smul,
    Matrix.mulVec_smul]

theorem dipoleAt_field (mu0 : ℝ) (i : Fin 3) : DipoleField fun q p m => dipoleAt (dipoleKernels mu0) q p m i := by
  fin_cases i
  · exact dipoleField_e mu0
  · exact dipoleField_n mu0
  · exact dipoleField_u mu0

/-- C118, magnetic field: when the magnetization of the prisms `srcs'` is that of the prisms `srcs` in turned (or
mirrored) axes, the field of `prism_magnetic` at points outside the prisms is that of the original axes, turned. -/
theorem C118_prism_magnetic (junk junk' : Junk) {mu0 : ℝ} {K : MagKernels Prism} (hK : K.Magnetized mu0)
    (srcs srcs' : List (Prism × V3)) (hord : ∀ s ∈ srcs, s.1.Ordered) (hord' : ∀ s ∈ srcs', s.1.Ordered)
    (Q : Matrix (Fin 3) (Fin 3) ℝ) (hQ : Q ∈ Matrix.orthogonalGroup (Fin 3) ℝ)
    (hd : ∀ᵐ r, magnetizationAt srcs' (turnSpace Q r) = turn Q (magnetizationAt srcs r)) :
    let magnetization := fun l : List (Prism × V3) =>
      [(l.map (·.2)).map (·.x), (l.map (·.2)).map (·.y), (l.map (·.2)).map (·.z)]
    ∃ B B' : P3 → Fin 3 → ℝ,
      (∀ mode mode' shape obs dis dis', shape.prod = obs.length →
        mode.Full obs.length (6 * srcs.length) → mode'.Full obs.length (6 * srcs'.length) →
        (∀ q ∈ obs, (∀ s ∈ srcs, coords q ∉ s.1.body) ∧ ∀ s ∈ srcs', coords (turn Q q) ∉ s.1.body) →
        prismMagnetic junk mode K (arrays shape obs) (srcs.map (·.1)) (magnetization srcs) "b" dis =
          .ok (.vector ⟨shape, obs.map (B · 0)⟩ ⟨shape, obs.map (B · 1)⟩ ⟨shape, obs.map (B · 2)⟩) ∧
        prismMagnetic junk' mode' K (arrays shape (obs.map (turn Q))) (srcs'.map (·.1)) (magnetization srcs') "b" dis' =
          .ok (.vector ⟨shape, obs.map fun q => B' (turn Q q) 0⟩ ⟨shape, obs.map fun q => B' (turn Q q) 1⟩
            ⟨shape, obs.map fun q => B' (turn Q q) 2⟩)) ∧
      ∀ q, (∀ s ∈ srcs, coords q ∉ s.1.body) → (∀ s ∈ srcs', coords (turn Q q) ∉ s.1.body) →
        B' (turn Q q) = Q *ᵥ B q := by
  intro magnetization
  let B (l : List (Prism × V3)) (q : P3) : Fin 3 → ℝ := fun i =>
    bodyMag (fun q p m => dipoleAt (dipoleKernels mu0) q p m i) l q
  refine ⟨B srcs, B srcs', ?_, ?_⟩
  · intro mode mode' shape obs dis dis' hs hm hm' ho
    refine ⟨(prismMagnetic_body junk mode hK shape obs hs srcs dis hord hm fun q hq => (ho q hq).1).1, ?_⟩
    have := (prismMagnetic_body junk' mode' hK shape (obs.map (turn Q)) (by simpa using hs) srcs' dis' hord'
      (by simpa using hm') (by
        intro q hq
        obtain ⟨q0, hq0, rfl⟩ := List.mem_map.1 hq
        exact (ho q0 hq0).2)).1
    simp only [List.map_map] at this
    refine Eq.trans ?_ (this.trans rfl)
    simp only [magnetization, List.map_map]
  · intro q ho ho'
    ext i
    have hI := fun j => mag_integrable (dipoleAt_field mu0 j) srcs q ho
    simp only [B, Matrix.mulVec, dotProduct]
    rw [bodyMag_density (dipoleAt_field mu0 i) srcs' _ ho']
    simp only [bodyMag_density (dipoleAt_field mu0 _) srcs q ho]
    simp only [← mul_assoc, ← Finset.sum_mul, ← integral_const_mul]
    congr 1
    rw [integral_turn hQ, ← integral_finsetSum _ fun j _ => (hI j).const_mul _]
    apply integral_congr_ae
    filter_upwards [hd] with r hr
    rw [hr, pointAt_turnSpace, dipoleKernels_turn mu0 hQ]
    rfl

/-! ### Examples -/

theorem quarter_body (p : Prism) (r : ℝ × ℝ × ℝ) :
    turnSpace quarter r ∈ Prism.body ⟨-p.north, -p.south, p.west, p.east, p.bottom, p.top⟩ ↔ r ∈ p.body := by
  simp only [turnSpace, turn, coords, pointAt, vec, quarter, Matrix.mulVec, dotProduct, Fin.sum_univ_three, Prism.body,
    Set.mem_prod, Set.mem_Icc, Matrix.cons_val, Matrix.of_apply, zero_mul, one_mul, add_zero, zero_add, neg_mul,
    neg_le_neg_iff]
  tauto

/-- a prism and the same prism after a quarter turn around the vertical axis: at a point inside of it, the northing
component after the turn is the easting component before -/
example : ∃ F F' : String → P3 → ℝ,
    (prismGravity (fun _ _ => 0) .serial bodyKernels (arrays [1] [⟨1, 1 / 2, 0⟩]) [⟨-1, 2, 0, 1, -3, 1⟩] [7] "g_e"
      false).map (·.2) = .ok ⟨[1], [F "g_e" ⟨1, 1 / 2, 0⟩]⟩ ∧
    (prismGravity (fun _ _ => 0) .serial bodyKernels (arrays [1] [turn quarter ⟨1, 1 / 2, 0⟩])
      [⟨-1, -0, -1, 2, -3, 1⟩] [7] "g_n" false).map (·.2) = .ok ⟨[1], [F' "g_n" (turn quarter ⟨1, 1 / 2, 0⟩)]⟩ ∧
    F' "g_n" (turn quarter ⟨1, 1 / 2, 0⟩) = F "g_e" ⟨1, 1 / 2, 0⟩ := by
  obtain ⟨F, F', h, hq⟩ := C118_prism_gravity (fun _ _ => 0) (fun _ _ => 0) bodyKernels_newtonian
    [(⟨-1, 2, 0, 1, -3, 1⟩, 7)] [(⟨-1, -0, -1, 2, -3, 1⟩, 7)] (by simp [Prism.Ordered]; norm_num)
    (by simp [Prism.Ordered]; norm_num) quarter quarter_orthogonal (Eventually.of_forall fun r => by
      have := quarter_body ⟨-1, 2, 0, 1, -3, 1⟩ r
      simp only [densityAt, List.map_cons, List.map_nil, List.sum_cons, List.sum_nil, add_zero]
      by_cases hr : r ∈ Prism.body ⟨-1, 2, 0, 1, -3, 1⟩
      · rw [Set.indicator_of_mem hr, Set.indicator_of_mem (this.2 hr)]
      · rw [Set.indicator_of_notMem hr, Set.indicator_of_notMem fun h => hr (this.1 h)])
  refine ⟨F, F', (h "g_e" (by simp [prismFieldNames]) .serial .serial [1] [⟨1, 1 / 2, 0⟩] false false (by simp) trivial
    trivial fun q _ => ⟨Or.inl (by simp [everywhere]), Or.inl (by simp [everywhere])⟩).1,
    (h "g_n" (by simp [prismFieldNames]) .serial .serial [1] [⟨1, 1 / 2, 0⟩] false false (by simp) trivial
    trivial fun q _ => ⟨Or.inl (by simp [everywhere]), Or.inl (by simp [everywhere])⟩).2, ?_⟩
  have := congrFun (hq ⟨1, 1 / 2, 0⟩).2.1 1
  simpa [accelerationOf, quarter, Matrix.mulVec, dotProduct, Fin.sum_univ_three] using this

/-- the magnetic field above a magnetized cube, and above the cube turned with its magnetization -/
example : ∃ B B' : P3 → Fin 3 → ℝ,
    prismMagnetic (fun _ _ => 0) .serial (bodyMagKernels 1) (arrays [1] [⟨0, 0, 9⟩]) [⟨-1, 1, -1, 1, -1, 1⟩]
      [[2], [0], [5]] "b" false =
        .ok (.vector ⟨[1], [B ⟨0, 0, 9⟩ 0]⟩ ⟨[1], [B ⟨0, 0, 9⟩ 1]⟩ ⟨[1], [B ⟨0, 0, 9⟩ 2]⟩) ∧
    B' (turn quarter ⟨0, 0, 9⟩) = quarter *ᵥ B ⟨0, 0, 9⟩ := by
  have h9 : turn quarter ⟨0, 0, 9⟩ = ⟨0, 0, 9⟩ := by
    simp [turn, quarter, vec, Matrix.mulVec, dotProduct, Fin.sum_univ_three]
  have hbody := quarter_body ⟨-1, 1, -1, 1, -1, 1⟩
  simp only [neg_neg] at hbody
  obtain ⟨B, B', h, hq⟩ := C118_prism_magnetic (fun _ _ => 0) (fun _ _ => 0) (bodyMagKernels_magnetized 1)
    [(⟨-1, 1, -1, 1, -1, 1⟩, ⟨2, 0, 5⟩)] [(⟨-1, 1, -1, 1, -1, 1⟩, ⟨0, 2, 5⟩)] (by simp [Prism.Ordered])
    (by simp [Prism.Ordered]) quarter quarter_orthogonal (Eventually.of_forall fun r => by
      simp only [magnetizationAt, component, densityAt, List.map_cons, List.map_nil, List.sum_cons, List.sum_nil, add_zero]
      by_cases hr : r ∈ Prism.body ⟨-1, 1, -1, 1, -1, 1⟩
      · simp only [Set.indicator_of_mem hr, Set.indicator_of_mem ((hbody r).2 hr)]
        simp [turn, quarter, vec, Matrix.mulVec, dotProduct, Fin.sum_univ_three]
      · simp only [Set.indicator_of_notMem hr, Set.indicator_of_notMem fun h => hr ((hbody r).1 h)]
        simp [turn, quarter, vec, Matrix.mulVec, dotProduct, Fin.sum_univ_three])
  have ho : ∀ s ∈ [((⟨-1, 1, -1, 1, -1, 1⟩ : Prism), (⟨2, 0, 5⟩ : V3))], coords ⟨0, 0, 9⟩ ∉ s.1.body := by
    simpa using above_cube
  have ho' : ∀ s ∈ [((⟨-1, 1, -1, 1, -1, 1⟩ : Prism), (⟨0, 2, 5⟩ : V3))], coords (turn quarter ⟨0, 0, 9⟩) ∉ s.1.body := by
    rw [h9]; simpa using above_cube
  refine ⟨B, B', (h .serial .serial [1] [⟨0, 0, 9⟩] false false (by simp) trivial trivial ?_).1, hq _ ho ho'⟩
  intro q hq
  simp only [List.mem_singleton] at hq
  subst hq
  exact ⟨ho, ho'⟩

end Verif.Forward
