import Verif.Shapes.Broadcast

/-!
C08 for coordinates with as many elements as the result, whatever their shapes: the call gives what it gives for the
three arrays broadcast to a common shape, the case of the other theorems on values.
-/

namespace Verif.Shapes

open Verif.Forward Verif.Engine

/-- `np.broadcast_arrays`: the coordinates broadcast to the shape. -/
noncomputable def broadcastArrays (s : List ℕ) (c : NdArray × NdArray × NdArray) : NdArray × NdArray × NdArray :=
  (⟨s, c.1.broadcastTo s⟩, ⟨s, c.2.1.broadcastTo s⟩, ⟨s, c.2.2.broadcastTo s⟩)

/-- Arrays that broadcast to the shape, with as many elements. -/
structure FullSize (c : NdArray × NdArray × NdArray) (s : List ℕ) : Prop where
  shape : IsBroadcast (shapesOf c) s
  wf : c.1.Wf ∧ c.2.1.Wf ∧ c.2.2.Wf
  size : c.1.data.length = s.prod ∧ c.2.1.data.length = s.prod ∧ c.2.2.data.length = s.prod

theorem isBroadcast_self (s : List ℕ) : IsBroadcast [s, s, s] s := by
  refine ⟨⟨?_, s, by simp, rfl⟩, ?_, ?_⟩ <;> simp

theorem FullSize.arrays {c : NdArray × NdArray × NdArray} {s : List ℕ} (h : FullSize c s) :
    broadcastArrays s c = (⟨s, c.1.data⟩, ⟨s, c.2.1.data⟩, ⟨s, c.2.2.data⟩) := by
  unfold broadcastArrays
  rw [nd_broadcastTo_full h.shape _ h.wf.1 (by simp [shapesOf]) h.size.1,
    nd_broadcastTo_full h.shape _ h.wf.2.1 (by simp [shapesOf]) h.size.2.1,
    nd_broadcastTo_full h.shape _ h.wf.2.2 (by simp [shapesOf]) h.size.2.2]

theorem FullSize.np {c : NdArray × NdArray × NdArray} {s : List ℕ} (h : FullSize c s) :
    npBroadcast c.1 c.2.1 c.2.2 = npBroadcast ⟨s, c.1.data⟩ ⟨s, c.2.1.data⟩ ⟨s, c.2.2.data⟩ := by
  rw [npBroadcast_ok _ _ _ h.shape, npBroadcast_ok _ _ _ (isBroadcast_self s)]

/-- C08 for `point_gravity`. -/
theorem C08_size_point_gravity (junk : Junk) (mode : Mode) (K : PointKernels)
    (c points : NdArray × NdArray × NdArray) (masses : NdArray) (field system : String)
    (s : List ℕ) (h : FullSize c s) :
    pointGravity junk mode K c points masses field system =
    pointGravity junk mode K (broadcastArrays s c) points masses field system := by
  rw [h.arrays]
  unfold pointGravity
  rw [h.np]

/-- C08 for `prism_gravity`. -/
theorem C08_size_prism_gravity (junk : Junk) (mode : Mode) (K : PrismKernels)
    (c : NdArray × NdArray × NdArray) (prisms : List Prism) (density : List ℝ) (field : String)
    (disableChecks : Bool)
    (s : List ℕ) (h : FullSize c s) :
    prismGravity junk mode K c prisms density field disableChecks =
    prismGravity junk mode K (broadcastArrays s c) prisms density field disableChecks := by
  rw [h.arrays]
  unfold prismGravity
  rw [h.np]

/-- C08 for `dipole_magnetic`. -/
theorem C08_size_dipole_magnetic (junk : Junk) (mode : Mode) (K : MagKernels Distance.P3)
    (c dipoles : NdArray × NdArray × NdArray) (moments : List (List ℝ)) (field : String) (disableChecks : Bool)
    (s : List ℕ) (h : FullSize c s) :
    dipoleMagnetic junk mode K c dipoles moments field disableChecks =
    dipoleMagnetic junk mode K (broadcastArrays s c) dipoles moments field disableChecks := by
  rw [h.arrays]
  unfold dipoleMagnetic
  rw [h.np]

/-- C08 for `prism_magnetic`. -/
theorem C08_size_prism_magnetic (junk : Junk) (mode : Mode) (K : MagKernels Prism)
    (c : NdArray × NdArray × NdArray) (prisms : List Prism) (magnetization : List (List ℝ)) (field : String)
    (disableChecks : Bool)
    (s : List ℕ) (h : FullSize c s) :
    prismMagnetic junk mode K c prisms magnetization field disableChecks =
    prismMagnetic junk mode K (broadcastArrays s c) prisms magnetization field disableChecks := by
  rw [h.arrays]
  unfold prismMagnetic
  rw [h.np]

/-- C08 for `tesseroid_gravity`. -/
theorem C08_size_tesseroid_gravity (junk : Junk) (mode : Mode) (M : Tesseroid.Minimizer) (fuel : ℕ)
    (stack0 small0 : ℕ → Tesseroid.Tess) (c : NdArray × NdArray × NdArray) (ts : List Tesseroid.Tess)
    (density : Tesseroid.Density) (field : String) (radial disableChecks : Bool)
    (s : List ℕ) (h : FullSize c s) :
    Tesseroid.tesseroidGravity junk mode M fuel stack0 small0 c ts density field radial
      disableChecks =
    Tesseroid.tesseroidGravity junk mode M fuel stack0 small0 (broadcastArrays s c) ts density field radial
      disableChecks := by
  rw [h.arrays]
  unfold Tesseroid.tesseroidGravity
  rw [h.np]

/-- C08 for `ellipsoid_gravity`. -/
theorem C08_size_ellipsoid_gravity (c : NdArray × NdArray × NdArray) (ellipsoids : Ellipsoids.Bodies)
    (s : List ℕ) (h : FullSize c s) :
    Ellipsoids.ellipsoidGravity c ellipsoids =
    Ellipsoids.ellipsoidGravity (broadcastArrays s c) ellipsoids := by
  rw [h.arrays]
  unfold Ellipsoids.ellipsoidGravity
  rw [h.np]

/-- C08 for `ellipsoid_magnetic`. -/
theorem C08_size_ellipsoid_magnetic (mu0 : ℝ) (c : NdArray × NdArray × NdArray) (ellipsoids : Ellipsoids.Bodies)
    (inducing_field : Ellipsoids.V3)
    (s : List ℕ) (h : FullSize c s) :
    Ellipsoids.ellipsoidMagnetic mu0 c ellipsoids inducing_field =
    Ellipsoids.ellipsoidMagnetic mu0 (broadcastArrays s c) ellipsoids inducing_field := by
  rw [h.arrays]
  unfold Ellipsoids.ellipsoidMagnetic
  rw [h.np]

/-- C08 for the gravity of a layer of prisms. -/
theorem C08_size_prism_layer (junk : Junk) (mode : Mode) (K : PrismKernels) (layer : Layers.Layer)
    (c : NdArray × NdArray × NdArray) (field density_name : String) (thickness_threshold : Option ℝ)
    (s : List ℕ) (h : FullSize c s) :
    Layers.layerGravity junk mode K layer c field density_name thickness_threshold =
    Layers.layerGravity junk mode K layer (broadcastArrays s c) field density_name thickness_threshold := by
  rw [h.arrays]
  unfold Layers.layerGravity
  rw [h.np]

/-- The arrays with their types. -/
def typed (d : EqSources.DType × EqSources.DType × EqSources.DType) (c : NdArray × NdArray × NdArray) :
    EqSources.Coords :=
  (⟨d.1, c.1.shape, c.1.data⟩, ⟨d.2.1, c.2.1.shape, c.2.1.data⟩, ⟨d.2.2, c.2.2.shape, c.2.2.data⟩)

/-- C08 for `predict` of equivalent sources. -/
theorem C08_size_predict (junk : Junk) (mode : Mode) (P : EqSources.Params) (c : NdArray × NdArray × NdArray)
    (state : EqSources.State)
    (d : EqSources.DType × EqSources.DType × EqSources.DType) (s : List ℕ) (h : FullSize c s) :
    EqSources.predict junk mode P (typed d c) state =
    EqSources.predict junk mode P (typed d (broadcastArrays s c)) state := by
  rw [h.arrays]
  unfold EqSources.predict typed
  dsimp only
  rw [h.np]
  rfl

/-- C08 for `predict` of equivalent sources in spherical coordinates. -/
theorem C08_size_predict_spherical (junk : Junk) (mode : Mode) (c : NdArray × NdArray × NdArray) (state : EqSources.State)
    (d : EqSources.DType × EqSources.DType × EqSources.DType) (s : List ℕ) (h : FullSize c s) :
    EqSources.predictSph junk mode (typed d c) state =
    EqSources.predictSph junk mode (typed d (broadcastArrays s c)) state := by
  rw [h.arrays]
  unfold EqSources.predictSph typed
  dsimp only
  rw [h.np]
  rfl

/-- A column, a row and a cube of three points: all have as many elements as the result. -/
example : FullSize (⟨[3], [1, 2, 3]⟩, ⟨[1, 3], [4, 5, 6]⟩, ⟨[1, 1, 3], [7, 8, 9]⟩) [1, 1, 3] where
  shape := (C08_shape_rule ⟨[3], [1, 2, 3]⟩ ⟨[1, 3], [4, 5, 6]⟩ ⟨[1, 1, 3], [7, 8, 9]⟩ [1, 1, 3]).1
    (by simp [npBroadcast, broadcastRev])
  wf := by simp [NdArray.Wf]
  size := by simp

end Verif.Shapes
