import Verif.Ellipsoids.NewtonOutside
import Verif.Ellipsoids.SpecC
import Verif.Ellipsoids.PropsO
import Verif.Ellipsoids.Examples

/-! C149: the gravity of ellipsoids is Newton's law. -/

namespace Verif.Ellipsoids
open MeasureTheory Set Verif.Distance
open Verif.Forward (arrays)

/-! ### Lemmas -/

theorem rotation_preserves {R : M3} (hR : ProperRotation R) :
    MeasurePreserving (fun v : V3 => R.mulVec v) volume volume := by
  refine ⟨by unfold Matrix.mulVec dotProduct; fun_prop, ?_⟩
  have h := Real.map_matrix_volume_pi_eq_smul_volume_pi (M := R) (by rw [hR.2.2]; exact one_ne_zero)
  rw [hR.2.2, show ⇑(Matrix.toLin' R) = fun v => R.mulVec v from funext fun v => Matrix.toLin'_apply R v] at h
  simpa using h

theorem rotation_embedding {R : M3} (hR : ProperRotation R) : MeasurableEmbedding (fun v : V3 => R.mulVec v) := by
  refine Continuous.measurableEmbedding (by unfold Matrix.mulVec dotProduct; fun_prop) fun v w h => ?_
  have := congrArg (fun u => R.transpose.mulVec u) h
  simpa [Matrix.mulVec_mulVec, hR.2.1] using this

/-- From the frame of the body to space. -/
theorem toWorld_preserves (e : Ellipsoid) :
    MeasurePreserving (fun v : V3 => e.rotationMatrix.mulVec v + e.center) volume volume :=
  (measurePreserving_add_right volume e.center).comp (rotation_preserves (body_proper e))

theorem toWorld_embedding (e : Ellipsoid) :
    MeasurableEmbedding (fun v : V3 => e.rotationMatrix.mulVec v + e.center) :=
  (measurableEmbedding_addRight e.center).comp (rotation_embedding (body_proper e))

theorem local_toWorld (e : Ellipsoid) (v : V3) : e.local (e.rotationMatrix.mulVec v + e.center) = v := by
  unfold Ellipsoid.local
  rw [add_sub_cancel_right, Matrix.mulVec_mulVec, (body_proper e).2.1, Matrix.one_mulVec]

theorem inside_toWorld (e : Ellipsoid) (v : V3) :
    e.Inside (e.rotationMatrix.mulVec v + e.center) ↔ v ∈ solid e.axes := by
  rw [inside_iff, local_toWorld]
  unfold quadric solid Ellipsoid.axes
  rw [Set.mem_ofPred_eq, Fin.sum_univ_three]
  simp

theorem toWorld_local (e : Ellipsoid) (p : V3) : e.rotationMatrix.mulVec (e.local p) + e.center = p := by
  unfold Ellipsoid.local
  rw [Matrix.mulVec_mulVec, (body_proper e).1, Matrix.one_mulVec]
  simp

theorem pull_world (e : Ellipsoid) (p v : V3) (i : Fin 3) :
    pull i (e.rotationMatrix.mulVec v + e.center - p) =
      ∑ j, e.rotationMatrix i j * pull j (v - e.local p) := by
  have h : e.rotationMatrix.mulVec v + e.center - p = e.rotationMatrix.mulVec (v - e.local p) := by
    conv_lhs => rw [← toWorld_local e p]
    rw [Matrix.mulVec_sub]
    abel
  unfold pull
  rw [h, magnitude_rotate (body_proper e).2.1]
  unfold Matrix.mulVec dotProduct
  rw [Finset.sum_div]
  exact Finset.sum_congr rfl fun j _ => by ring

theorem inside_set (e : Ellipsoid) :
    (fun v : V3 => e.rotationMatrix.mulVec v + e.center) ⁻¹' {x | e.Inside x} = solid e.axes := by
  ext v
  exact inside_toWorld e v

theorem inside_measurable (e : Ellipsoid) : MeasurableSet {x | e.Inside x} := by
  have : {x | e.Inside x} = e.local ⁻¹' solid e.axes := by
    ext x
    conv_lhs => rw [← toWorld_local e x]
    exact inside_toWorld e _
  rw [this]
  refine (solid_open _).measurableSet.preimage ?_
  unfold Ellipsoid.local Matrix.mulVec dotProduct
  fun_prop

theorem pull_integrable_solid {s : V3} (hs : Positive s) (p : V3) (i : Fin 3) :
    IntegrableOn (fun x => pull i (x - p)) (solid s) := by
  have hb : Bornology.IsBounded ((fun x : V3 => x - p) '' solid s) := by
    obtain ⟨R, hR⟩ := isBounded_iff_forall_norm_le.1 (solid_bounded hs)
    refine isBounded_iff_forall_norm_le.2 ⟨R + ‖p‖, ?_⟩
    rintro _ ⟨x, hx, rfl⟩
    exact (norm_sub_le _ _).trans (by linarith [hR _ hx])
  have := ((measurePreserving_sub_right (volume : Measure V3) p).integrableOn_comp_preimage
    (MeasurableEquiv.subRight p).measurableEmbedding).2 (pull_integrableOn i hb)
  exact this.mono_set (subset_preimage_image _ _)

theorem pull_integrable_body {e : Ellipsoid} (h : e.Valid) (p : V3) (i : Fin 3) :
    IntegrableOn (fun x => pull i (x - p)) {x | e.Inside x} := by
  rw [← (toWorld_preserves e).integrableOn_comp_preimage (toWorld_embedding e), inside_set]
  have : ((fun x => pull i (x - p)) ∘ fun v : V3 => e.rotationMatrix.mulVec v + e.center) = fun v =>
      ∑ j, e.rotationMatrix i j * pull j (v - e.local p) := funext fun v => pull_world e p v i
  rw [this]
  exact integrable_finsetSum _ fun j _ => (pull_integrable_solid (valid_positive h) _ j).const_mul _

theorem newton_body {e : Ellipsoid} (h : e.Valid) (p : V3) (i : Fin 3) :
    6.6743e-11 * ∫ x in {x | e.Inside x}, pull i (x - p) = e.attraction 1 p i := by
  have h1 := (toWorld_preserves e).setIntegral_preimage_emb (toWorld_embedding e) (fun x => pull i (x - p))
    {x | e.Inside x}
  rw [← h1, inside_set]
  simp only [pull_world]
  rw [integral_finsetSum _ fun j _ => (pull_integrable_solid (valid_positive h) _ j).const_mul _]
  simp only [integral_const_mul, newton_dirichlet (valid_positive h)]
  unfold Ellipsoid.attraction Matrix.mulVec dotProduct dirichletAttraction
  rw [Finset.mul_sum]
  refine Finset.sum_congr rfl fun j _ => ?_
  have : e.local p = e.rotationMatrix.transpose.mulVec (p - e.center) := rfl
  rw [this]
  unfold Matrix.mulVec dotProduct
  ring

theorem element_eq (e : Ellipsoid) (p : V3) (i : Fin 3) : newtonElement e.densityAt p i =
    {x | e.Inside x}.indicator fun x => 6.6743e-11 * e.density.getD 0 * pull i (x - p) := by
  funext x
  unfold newtonElement Ellipsoid.densityAt
  by_cases hx : e.Inside x
  · rw [if_pos hx, indicator_of_mem (show x ∈ {x | e.Inside x} from hx)]
    rfl
  · rw [if_neg hx, indicator_of_notMem (show x ∉ {x | e.Inside x} from hx)]
    ring

theorem element_integrable {e : Ellipsoid} (h : e.Valid) (p : V3) (i : Fin 3) :
    Integrable (newtonElement e.densityAt p i) := by
  rw [element_eq, integrable_indicator_iff (inside_measurable e)]
  exact (pull_integrable_body h p i).const_mul _

theorem newtonField_body {e : Ellipsoid} (h : e.Valid) (p : V3) : newtonField e.densityAt p = e.gravity p := by
  funext i
  unfold newtonField
  rw [element_eq, integral_indicator (inside_measurable e), integral_const_mul, mul_right_comm, newton_body h]
  unfold Ellipsoid.gravity
  rcases hd : e.density with _ | d
  · simp
  · show e.attraction 1 p i * d = e.attraction d p i
    unfold Ellipsoid.attraction Matrix.mulVec dotProduct dirichletAttraction
    rw [Finset.sum_mul]
    exact Finset.sum_congr rfl fun j _ => by ring

theorem element_list (es : List Ellipsoid) (p : V3) (i : Fin 3) (x : V3) :
    newtonElement (densityOf es) p i x = (es.map fun e => newtonElement e.densityAt p i x).sum := by
  induction es with
  | nil => simp [newtonElement, densityOf]
  | cons e es ih =>
    rw [List.map_cons, List.sum_cons, ← ih]
    simp only [newtonElement, densityOf, List.map_cons, List.sum_cons]
    ring

theorem newton_list {es : List Ellipsoid} (h : ∀ e ∈ es, e.Valid) (p : V3) :
    (∀ i, Integrable (newtonElement (densityOf es) p i)) ∧
    newtonField (densityOf es) p = (es.map fun e => e.gravity p).sum := by
  induction es with
  | nil =>
    have e0 : ∀ i, newtonElement (densityOf []) p i = fun _ => 0 := fun i => by
      funext x; simp [newtonElement, densityOf]
    refine ⟨fun i => by rw [e0]; exact integrable_zero _ _ _, ?_⟩
    funext i
    unfold newtonField
    rw [e0]
    simp
  | cons e es ih =>
    obtain ⟨i1, v1⟩ := ih fun e he => h e (by simp [he])
    have he := h e (by simp)
    have e1 : ∀ i, newtonElement (densityOf (e :: es)) p i =
        fun x => newtonElement e.densityAt p i x + newtonElement (densityOf es) p i x := fun i => by
      funext x
      simp only [newtonElement, densityOf, List.map_cons, List.sum_cons]
      ring
    refine ⟨fun i => by rw [e1]; exact (element_integrable he p i).add (i1 i), ?_⟩
    rw [List.map_cons, List.sum_cons, ← v1, ← newtonField_body he]
    funext i
    unfold newtonField
    rw [e1, integral_add (element_integrable he p i) (i1 i)]
    rfl

/-! ### C149 -/

/-- C149: `ellipsoid_gravity` returns, at every point (inside, on the surface and outside of the bodies), the
attraction of the matter of the bodies by Newton's law, in mGal and with the last component downward. The bodies are
valid, may overlap, and their semiaxes are not almost equal without being equal. -/
theorem C149_newton (shape : List ℕ) (pts : List P3) (hshape : pts.length = shape.prod) (bodies : Bodies)
    (h : ∀ e ∈ bodies.toList, e.Valid ∧ e.Exact) : ellipsoidGravity (arrays shape pts) bodies =
      .ok (gravityResult shape pts (newtonField (densityOf bodies.toList)),
        bodies.toList.countP fun e => e.density.isNone) := by
  rw [C69_value shape pts hshape bodies h]
  congr 3
  funext p
  exact (newton_list (fun e he => (h e he).1) p).2.symm

/-- C149: the attraction of the elements of the bodies is integrable, whatever the point: Newton's integral
converges also at the points inside of the bodies. -/
theorem C149_converges (es : List Ellipsoid) (h : ∀ e ∈ es, e.Valid) (p : V3) (i : Fin 3) :
    Integrable (newtonElement (densityOf es) p i) := (newton_list h p).1 i

/-- C149: whatever the semiaxes, the field is that of Newton's law within one part in ten thousand of the sum of the
lengths of the attractions of the bodies. -/
theorem C149_error (shape : List ℕ) (pts : List P3) (hshape : pts.length = shape.prod)
    (bodies : Bodies) (h : ∀ e ∈ bodies.toList, e.Valid) : ∃ field : V3 → V3,
      ellipsoidGravity (arrays shape pts) bodies = .ok (gravityResult shape pts field,
        bodies.toList.countP fun e => e.density.isNone) ∧
      ∀ p, magnitude (field p - newtonField (densityOf bodies.toList) p) ≤
        1e-4 * (bodies.toList.map fun e => magnitude (newtonField e.densityAt p)).sum := by
  obtain ⟨field, h1, h2⟩ := C147_gravity shape pts hshape bodies h
  refine ⟨field, h1, fun p => ?_⟩
  rw [(newton_list h p).2]
  refine (h2 p).trans (le_of_eq ?_)
  congr 2
  exact List.map_congr_left fun e he => by rw [newtonField_body (h e he)]

/-- C149: two lists of bodies with the same density at (almost) every point have the same gravity. -/
theorem C149_same_density (shape : List ℕ) (pts : List P3) (hshape : pts.length = shape.prod)
    (bodies bodies' : Bodies) (h : ∀ e ∈ bodies.toList, e.Valid ∧ e.Exact)
    (h' : ∀ e ∈ bodies'.toList, e.Valid ∧ e.Exact)
    (hd : ∀ᵐ x, densityOf bodies.toList x = densityOf bodies'.toList x) :
    (ellipsoidGravity (arrays shape pts) bodies).map (·.1) =
      (ellipsoidGravity (arrays shape pts) bodies').map (·.1) := by
  have e : newtonField (densityOf bodies.toList) = newtonField (densityOf bodies'.toList) := by
    funext p i
    refine integral_congr_ae ?_
    filter_upwards [hd] with x hx
    unfold newtonElement
    rw [hx]
  rw [C149_newton shape pts hshape bodies h, C149_newton shape pts hshape bodies' h', e]
  rfl

/-! ### Cases -/

/-- The same body with another density. -/
noncomputable def rockOf (density : ℝ) : Ellipsoid := { rock with density := some density }

theorem rockOf_exact (density : ℝ) : (rockOf density).Valid ∧ (rockOf density).Exact := ⟨rock_valid, rock_exact⟩

/-- A rotated triaxial body, at its center, at a point inside and at a point outside. -/
example : ellipsoidGravity (arrays [3] [⟨100, -50, -20⟩, ⟨100, -50, -20.5⟩, ⟨0, 0, 10⟩]) (.many [rock, ball, void]) =
    .ok (gravityResult [3] [⟨100, -50, -20⟩, ⟨100, -50, -20.5⟩, ⟨0, 0, 10⟩]
      (newtonField (densityOf [rock, ball, void])), 1) := by
  have := C149_newton [3] [⟨100, -50, -20⟩, ⟨100, -50, -20.5⟩, ⟨0, 0, 10⟩] rfl (.many [rock, ball, void]) (by
    intro e he
    simp only [Bodies.toList, List.mem_cons, List.not_mem_nil, or_false] at he
    rcases he with rfl | rfl | rfl
    · exact ⟨rock_valid, rock_exact⟩
    · exact ⟨ball_valid, ball_exact⟩
    · exact ⟨void_valid, void_exact⟩)
  rw [this]
  rfl

/-- The density of the body is not zero: it is that of the rock at its center. -/
example : densityOf [rock] rock.center = 2670 := by
  simp only [densityOf, List.map_cons, List.map_nil, List.sum_cons, List.sum_nil, add_zero, Ellipsoid.densityAt]
  rw [if_pos inside_center]
  rfl

/-- Two bodies at the same place are one with the sum of the densities. -/
example : (ellipsoidGravity (arrays [1] [⟨0, 0, 10⟩]) (.many [rockOf 2670, rockOf (-400)])).map (·.1) =
    (ellipsoidGravity (arrays [1] [⟨0, 0, 10⟩]) (.one (rockOf 2270))).map (·.1) := by
  refine C149_same_density _ _ rfl _ _ ?_ ?_ (Filter.Eventually.of_forall fun x => ?_)
  · intro e he
    simp only [Bodies.toList, List.mem_cons, List.not_mem_nil, or_false] at he
    rcases he with rfl | rfl <;> exact rockOf_exact _
  · intro e he
    simp only [Bodies.toList, List.mem_cons, List.not_mem_nil, or_false] at he
    rw [he]
    exact rockOf_exact _
  · have hin : ∀ d, (rockOf d).Inside x ↔ rock.Inside x := fun d => Iff.rfl
    simp only [Bodies.toList, densityOf, List.map_cons, List.map_nil, List.sum_cons, List.sum_nil, add_zero]
    by_cases hx : rock.Inside x
    · have e : ∀ d, (rockOf d).densityAt x = d := fun d => if_pos ((hin d).2 hx)
      rw [e, e, e]
      norm_num
    · have e : ∀ d, (rockOf d).densityAt x = 0 := fun d => if_neg fun h => hx ((hin d).1 h)
      rw [e, e, e, add_zero]

end Verif.Ellipsoids
