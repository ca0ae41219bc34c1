import Verif.Survey.Props
import Verif.Shapes.Props
import Verif.Layers.PropsB
import Verif.Layers.ModelB
import Verif.EqSources.PropsE

/-!
`tesseroid_layer.gravity` with the actual forward model (C23, C01, C08, C103), `prism_layer.gravity`
and the fits of equivalent sources in parallel (C01), sizes of the densities of tesseroids (C07).
-/

namespace Verif.Survey
open Verif.Engine Verif.Distance Verif.Forward Verif.Layers Verif.Tesseroid
open Verif.Shapes

/-- The tesseroids of a layer that count for its gravity, with their densities: bottom, top and
density are not NaN and the thickness is not below the threshold, if there is one. -/
noncomputable def tessElements (E N : ℕ → ℝ) (B T D : ℕ → ℕ → Option ℝ) (threshold : Option ℝ)
    (nn ne : ℕ) : List (Tess × ℝ) :=
  open Classical in
  (cells nn ne).filterMap fun p =>
    match D p.1 p.2, B p.1 p.2, T p.1 p.2 with
    | some d, some b, some t =>
      if ∀ h ∈ threshold, h ≤ t - b then
        some (⟨E p.2 - (E 1 - E 0) / 2, E p.2 + (E 1 - E 0) / 2,
          N p.1 - (N 1 - N 0) / 2, N p.1 + (N 1 - N 0) / 2, b, t⟩, d)
      else none
    | _, _, _ => none

theorem tessElements_eq (E N : ℕ → ℝ) (B T D : ℕ → ℕ → Option ℝ) (threshold : Option ℝ)
    (nn ne : ℕ) :
    tessElements E N B T D threshold nn ne = (tessCells B T D threshold nn ne).map fun p =>
      ((elementRow E N B T p.1 p.2).tess, (D p.1 p.2).getD 0) := by
  classical
  unfold tessElements tessCells
  induction cells nn ne with
  | nil => rfl
  | cons p l ih =>
    rw [List.filterMap_cons, List.filter_cons, ih]
    cases hD : D p.1 p.2 <;> cases hB : B p.1 p.2 <;> cases hT : T p.1 p.2 <;> simp
    split_ifs <;> simp_all [Row.tess, elementRow]

theorem tessElements_length (E N : ℕ → ℝ) (B T D : ℕ → ℕ → Option ℝ) (threshold : Option ℝ)
    (nn ne : ℕ) : (tessElements E N B T D threshold nn ne).length ≤ nn * ne := by
  unfold tessElements
  refine (List.length_filterMap_le _ _).trans ?_
  rw [cells_length]

theorem tesseroidGravity_values_ends (junk : Junk) (mode : Mode) (M : Minimizer) (fuel : ℕ)
    (stack0 small0 : ℕ → Tess) (coordinates : NdArray × NdArray × NdArray) (ts : List Tess)
    (d : List ℝ) (field : String) (radial dis : Bool) :
    ∃ x, tesseroidGravity junk mode M fuel stack0 small0 coordinates ts (.values d) field radial dis =
      some x := by
  unfold tesseroidGravity
  split
  · exact ⟨_, rfl⟩
  · dsimp only
    split
    · exact ⟨_, rfl⟩
    · exact ⟨_, rfl⟩

/-- C23: the gravity of a layer of tesseroids is what `tesseroid_gravity` gives for the tesseroids
half a spacing around the nodes whose bottom, top and density are numbers and whose thickness is not
below the threshold, each with its own density (the same array, or the same exception). -/
theorem C23_gravity (junk : Junk) (mode : Mode) (M : Minimizer) (fuel : ℕ)
    (stack0 small0 : ℕ → Tess) (coordinates : NdArray × NdArray × NdArray) {nn ne : ℕ}
    (hn : 2 ≤ nn) (he : 2 ≤ ne) (E N : ℕ → ℝ)
    (hreg : checkRegularGrid (coords ne E) (coords nn N) = .ok ()) (B T D : ℕ → ℕ → Option ℝ)
    (vars : List (String × List (Option ℝ))) (density_name : String)
    (hD : vars.lookup density_name = some (grid nn ne D)) (threshold : Option ℝ)
    (field : String) (radial dis : Bool) :
    some (tesseroidLayerGravity junk mode M fuel stack0 small0
        ⟨coords ne E, coords nn N, grid nn ne T, grid nn ne B, vars⟩ coordinates field radial dis
        density_name threshold) =
      tesseroidGravity junk mode M fuel stack0 small0 coordinates
        ((tessElements E N B T D threshold nn ne).map (·.1))
        (.values ((tessElements E N B T D threshold nn ne).map (·.2))) field radial dis := by
  unfold tesseroidLayerGravity
  rw [C23_elements _ hn he E N hreg B T D vars density_name hD threshold]
  simp only [tessElements_eq, List.map_map]
  obtain ⟨x, hx⟩ := tesseroidGravity_values_ends junk mode M fuel stack0 small0 coordinates
    ((tessCells B T D threshold nn ne).map (Row.tess ∘ fun p => elementRow E N B T p.1 p.2))
    ((tessCells B T D threshold nn ne).map ((·.getD 0) ∘ fun p => D p.1 p.2)) field radial dis
  rw [hx, Option.getD_some]
  exact hx.symm

/-- C01, `tesseroid_layer.gravity`: the parallel call returns an array iff the serial one does, and
it is the same. -/
theorem C01_tesseroid_layer_gravity (junk : Junk) (sched : List ℕ) (M : Minimizer) (fuel : ℕ)
    (stack0 small0 stack1 small1 : ℕ → Tess) (shape : List ℕ) (obs : List P3)
    (hshape : shape.prod = obs.length) {nn ne : ℕ} (hn : 2 ≤ nn) (he : 2 ≤ ne) (E N : ℕ → ℝ)
    (hreg : checkRegularGrid (coords ne E) (coords nn N) = .ok ()) (B T D : ℕ → ℕ → Option ℝ)
    (vars : List (String × List (Option ℝ))) (density_name : String)
    (hD : vars.lookup density_name = some (grid nn ne D)) (threshold : Option ℝ)
    (field : String) (radial dis : Bool)
    (hs : (Mode.parallel sched).Full obs.length (2 * (100000 * (nn * ne)))) (r : NdArray) :
    tesseroidLayerGravity junk (.parallel sched) M fuel stack0 small0
        ⟨coords ne E, coords nn N, grid nn ne T, grid nn ne B, vars⟩ (arrays shape obs) field radial
        dis density_name threshold = .ok r ↔
      tesseroidLayerGravity junk .serial M fuel stack1 small1
        ⟨coords ne E, coords nn N, grid nn ne T, grid nn ne B, vars⟩ (arrays shape obs) field radial
        dis density_name threshold = .ok r := by
  have h1 := C23_gravity junk (.parallel sched) M fuel stack0 small0 (arrays shape obs) hn he E N hreg B
    T D vars density_name hD threshold field radial dis
  have h2 := C23_gravity junk .serial M fuel stack1 small1 (arrays shape obs) hn he E N hreg B
    T D vars density_name hD threshold field radial dis
  rw [← Option.some_inj, h1, ← Option.some_inj (a := tesseroidLayerGravity _ .serial _ _ _ _ _ _ _ _ _ _ _),
    h2]
  refine C01_tesseroid_gravity junk sched M fuel stack0 small0 stack1 small1 shape obs hshape _ field
    radial dis ⟨hs.1, fun i hi => le_trans ?_ (hs.2 i hi)⟩ r
  have := tessElements_length E N B T D threshold nn ne
  omega

/-- C08 for `tesseroid_layer.gravity`. -/
theorem C08_shape_tesseroid_layer (junk : Junk) (mode : Mode) (M : Minimizer) (fuel : ℕ)
    (stack0 small0 : ℕ → Tess) (coordinates : NdArray × NdArray × NdArray) {nn ne : ℕ}
    (hn : 2 ≤ nn) (he : 2 ≤ ne) (E N : ℕ → ℝ)
    (hreg : checkRegularGrid (coords ne E) (coords nn N) = .ok ()) (B T D : ℕ → ℕ → Option ℝ)
    (vars : List (String × List (Option ℝ))) (density_name : String)
    (hD : vars.lookup density_name = some (grid nn ne D)) (threshold : Option ℝ)
    (field : String) (radial dis : Bool) :
    (∀ g, tesseroidLayerGravity junk mode M fuel stack0 small0
        ⟨coords ne E, coords nn N, grid nn ne T, grid nn ne B, vars⟩ coordinates field radial dis
        density_name threshold = .ok g →
      IsBroadcast (shapesOf coordinates) g.shape ∧ g.data.length = g.shape.prod) ∧
    ((∀ s, ¬ IsBroadcast (shapesOf coordinates) s) →
      tesseroidLayerGravity junk mode M fuel stack0 small0
        ⟨coords ne E, coords nn N, grid nn ne T, grid nn ne B, vars⟩ coordinates field radial dis
        density_name threshold = .error .ValueError) := by
  have h := C23_gravity junk mode M fuel stack0 small0 coordinates hn he E N hreg B T D vars
    density_name hD threshold field radial dis
  have h8 := Verif.Shapes.C08_shape_tesseroid_gravity junk mode M fuel stack0 small0 coordinates
    ((tessElements E N B T D threshold nn ne).map (·.1))
    (.values ((tessElements E N B T D threshold nn ne).map (·.2))) field radial dis
  rw [← h] at h8
  simpa using h8

/-- C103, `tesseroid_layer.gravity`. -/
theorem C103_tesseroid_layer (junk : Junk) (mode mode1 : Mode) (M : Minimizer) (fuel : ℕ)
    (stack0 small0 stack1 small1 : ℕ → Tess) (shape : List ℕ) (obs : List P3)
    (hshape : shape.prod = obs.length) (hne : obs ≠ []) {nn ne : ℕ} (hn : 2 ≤ nn) (he : 2 ≤ ne)
    (E N : ℕ → ℝ) (hreg : checkRegularGrid (coords ne E) (coords nn N) = .ok ())
    (B T D : ℕ → ℕ → Option ℝ)
    (vars : List (String × List (Option ℝ))) (density_name : String)
    (hD : vars.lookup density_name = some (grid nn ne D)) (threshold : Option ℝ)
    (field : String) (radial dis : Bool)
    (hm : mode.Full obs.length (2 * (100000 * (nn * ne))))
    (hm1 : mode1.Full 1 (2 * (100000 * (nn * ne)))) :
    OneByOne shape obs
      (tesseroidLayerGravity junk mode M fuel stack0 small0
        ⟨coords ne E, coords nn N, grid nn ne T, grid nn ne B, vars⟩ (arrays shape obs) field radial
        dis density_name threshold)
      (fun q => tesseroidLayerGravity junk mode1 M fuel stack1 small1
        ⟨coords ne E, coords nn N, grid nn ne T, grid nn ne B, vars⟩ (arrays1 [q]) field radial
        dis density_name threshold) := by
  have hlen := tessElements_length E N B T D threshold nn ne
  have mono : ∀ (m : Mode) (n : ℕ), m.Full n (2 * (100000 * (nn * ne))) →
      m.Full n (2 * (100000 * (tessElements E N B T D threshold nn ne).length)) := by
    intro m n h
    cases m with
    | serial => trivial
    | parallel s => exact ⟨h.1, fun i hi => le_trans (by omega) (h.2 i hi)⟩
  have h := C103_tesseroid_gravity junk mode mode1 M fuel stack0 small0 stack1 small1 shape obs hshape
    hne (tessElements E N B T D threshold nn ne) field radial dis (mono _ _ hm) (mono _ _ hm1)
  simp only [← C23_gravity junk _ M fuel _ _ _ hn he E N hreg B T D vars density_name hD] at h
  exact h

/-- C07: `tesseroid_gravity` with a number of densities different from the number of tesseroids:
ValueError with the checks on; an exception with the checks off. -/
theorem C07_tesseroid_gravity_density (junk : Junk) (mode : Mode) (M : Minimizer) (fuel : ℕ)
    (stack0 small0 : ℕ → Tess) (coordinates : NdArray × NdArray × NdArray) (ts : List Tess)
    (d : List ℝ) (field : String) (radial : Bool) (h : d.length ≠ ts.length) :
    tesseroidGravity junk mode M fuel stack0 small0 coordinates ts (.values d) field radial false =
      some (.error .ValueError) ∧
    ∃ e, tesseroidGravity junk mode M fuel stack0 small0 coordinates ts (.values d) field radial true =
      some (.error e) := by
  unfold tesseroidGravity
  cases tessKernels.lookup field with
  | none => exact ⟨rfl, _, rfl⟩
  | some kernel =>
    simp only
    rcases npBroadcast_cases coordinates.1 coordinates.2.1 coordinates.2.2 with h1 | ⟨r, h1⟩
    · rw [h1]; exact ⟨rfl, _, rfl⟩
    · rw [h1]
      constructor
      · simp only [Py.bind_ok, Bool.false_eq_true, if_false, checkTesseroids_eq]
        split_ifs
        · simp only [Py.bind_ok, checkPointsOutside]
          split_ifs
          · rfl
          · simp only [Py.bind_ok, Py.pure_eq, List.length_map, Bool.not_false, Bool.true_and,
              decide_eq_true_eq, h, ne_eq, not_false_eq_true, if_true, Py.throw_eq, Py.bind_error]
        · rfl
      · refine ⟨.IndexError, ?_⟩
        simp only [Py.bind_ok, if_true, Bool.not_true, Bool.false_and, Py.pure_eq]
        unfold discardNullTess maskSetTrue
        simp [Ne.symm h, Py.bind_error, Py.bind_ok]

/-- A layer with two rows and two columns, one cell without a density and one thinner than the
threshold: two tesseroids remain, each with its density. -/
example : tessElements (fun j => 10 * j) (fun k => 20 * k) (fun _ _ => some 0)
    (fun k j => if k = 1 ∧ j = 1 then some 1 else some 5)
    (fun k j => if k = 0 ∧ j = 1 then none else some (100 * k + j)) (some 2) 2 2 =
    [(⟨-5, 5, -10, 10, 0, 5⟩, 0), (⟨-5, 5, 10, 30, 0, 5⟩, 100)] := by
  rw [tessElements, show cells 2 2 = [(0, 0), (0, 1), (1, 0), (1, 1)] from rfl]
  norm_num [List.filterMap_cons]

end Verif.Survey
