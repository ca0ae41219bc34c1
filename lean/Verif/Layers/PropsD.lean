import Verif.Layers.ModelC
import Verif.Layers.Props

/-! C130: the order of the dimensions of the properties of a layer; C20: the size of a layer. -/

namespace Verif.Layers
open Verif.Forward Verif.Engine Verif.Tesseroid Verif.Distance Verif.Utils

/-! ### Specification -/

/-- The variable with value `D k j` at northing number `k` and easting number `j`, with its dimensions in one
order or the other. -/
def stored (transposed : Bool) (nn ne : ℕ) (D : ℕ → ℕ → Option ℝ) : DimVar :=
  ⟨transposed, if transposed then grid ne nn fun j k => D k j else grid nn ne D⟩

/-- A layer with nodes `E j`, `N k` and one property with its dimensions in one order or the other. -/
noncomputable def layerWith (transposed : Bool) (nn ne : ℕ) (E N : ℕ → ℝ) (B T D : ℕ → ℕ → Option ℝ)
    (name : String) : DimLayer :=
  ⟨coords ne E, coords nn N, grid nn ne T, grid nn ne B, [(name, stored transposed nn ne D)]⟩

/-- The same layer with its property stored as (northing, easting). -/
noncomputable def plainLayer (nn ne : ℕ) (E N : ℕ → ℝ) (B T D : ℕ → ℕ → Option ℝ) (name : String) : Layer :=
  ⟨coords ne E, coords nn N, grid nn ne T, grid nn ne B, [(name, grid nn ne D)]⟩

/-- C130: for `xarray` the two orders are the same variable, so that the gravity of the layer should be the
same. -/
def C130_full : Prop := ∀ (oob : ℕ → Option ℝ) (junk : Junk) (mode : Mode) (K : PrismKernels)
    (coordinates : NdArray × NdArray × NdArray) (nn ne : ℕ) (E N : ℕ → ℝ) (B T D : ℕ → ℕ → Option ℝ)
    (name field : String) (threshold : Option ℝ), 2 ≤ nn → 2 ≤ ne →
    layerGravityDims oob junk mode K (layerWith true nn ne E N B T D name) coordinates field name threshold =
      layerGravityDims oob junk mode K (layerWith false nn ne E N B T D name) coordinates field name threshold

/-! ### Lemmas -/

theorem read_plain (oob : ℕ → Option ℝ) (nn ne : ℕ) (D : ℕ → ℕ → Option ℝ) :
    (stored false nn ne D).read oob nn ne = grid nn ne D := by
  unfold DimVar.read stored
  simp only [Bool.false_eq_true, if_false]
  conv_rhs => unfold grid cells
  rw [List.map_flatMap]
  refine List.flatMap_congr fun k hk => ?_
  rw [List.map_map]
  refine List.map_congr_left fun j hj => ?_
  rw [grid_get nn ne k j _ (List.mem_range.1 hk) (List.mem_range.1 hj), Option.getD_some]
  rfl

theorem read_square (oob : ℕ → Option ℝ) (n : ℕ) (D : ℕ → ℕ → Option ℝ) :
    (stored true n n D).read oob n n = grid n n fun k j => D j k := by
  unfold DimVar.read stored
  simp only [if_true]
  conv_rhs => unfold grid cells
  rw [List.map_flatMap]
  refine List.flatMap_congr fun k hk => ?_
  rw [List.map_map]
  refine List.map_congr_left fun j hj => ?_
  rw [grid_get n n k j _ (List.mem_range.1 hk) (List.mem_range.1 hj), Option.getD_some]
  rfl

theorem layerGravityDims_plain (oob : ℕ → Option ℝ) (junk : Junk) (mode : Mode) (K : PrismKernels)
    (coordinates : NdArray × NdArray × NdArray) (nn ne : ℕ) (E N : ℕ → ℝ) (B T D : ℕ → ℕ → Option ℝ)
    (name field : String) (threshold : Option ℝ) :
    layerGravityDims oob junk mode K (layerWith false nn ne E N B T D name) coordinates field name threshold =
      layerGravity junk mode K (plainLayer nn ne E N B T D name) coordinates field name threshold := by
  unfold layerGravityDims layerWith plainLayer
  simp only [List.map_cons, List.map_nil, List.length_map, List.length_range, read_plain]

/-! ### Properties -/

/-- C130: with dimensions (northing, easting), those of the layer, the gravity of a layer of prisms is that of
`C21_layer_gravity`, that reads every density at its own prism. Missing: the other order, see
`C130_prisms_transposed` and `C130_not_full`. -/
theorem C130_prisms_partial (oob : ℕ → Option ℝ) (junk : Junk) (mode mode' : Mode) (K : PrismKernels) (shape : List ℕ)
    (obs : List P3) (hshape : shape.prod = obs.length) {nn ne : ℕ} (hn : 2 ≤ nn) (he : 2 ≤ ne)
    (E N : ℕ → ℝ) (hreg : checkRegularGrid (coords ne E) (coords nn N) = .ok ())
    (B T D : ℕ → ℕ → Option ℝ) (name field : String) (hE : E 0 ≠ E 1) (hN : N 0 ≠ N 1) {t : ℝ} (ht : 0 < t)
    (hm : mode.Full obs.length (2 * (nn * ne))) (hm' : mode'.Full obs.length
      (2 * (gravityElements E N B T D t nn ne).length)) :
    layerGravityDims oob junk mode K (layerWith false nn ne E N B T D name) (arrays shape obs) field name (some t) =
      prismField junk mode' K shape obs (gravityElements E N B T D t nn ne) field true := by
  rw [layerGravityDims_plain]
  exact C21_layer_gravity junk mode mode' K shape obs hshape hn he E N hreg B T D _ name
    (by simp) (some t) true field hE hN (.inl rfl) (.inl ⟨t, rfl, ht⟩) hm hm'

/-- C130: with dimensions (easting, northing), the gravity of a layer with as many eastings as northings is that of
the layer in which every density was moved to the prism on the other side of the diagonal. -/
theorem C130_prisms_transposed (oob : ℕ → Option ℝ) (junk : Junk) (mode : Mode) (K : PrismKernels)
    (coordinates : NdArray × NdArray × NdArray) (n : ℕ) (E N : ℕ → ℝ) (B T D : ℕ → ℕ → Option ℝ)
    (name field : String) (threshold : Option ℝ) :
    layerGravityDims oob junk mode K (layerWith true n n E N B T D name) coordinates field name threshold =
      layerGravityDims oob junk mode K (layerWith false n n E N B T (fun k j => D j k) name) coordinates field name
        threshold := by
  rw [layerGravityDims_plain]
  unfold layerGravityDims layerWith plainLayer
  simp only [List.map_cons, List.map_nil, List.length_map, List.length_range, read_square]

/-- C130: with more northings than eastings, the density that the loop takes for the last prism is what is found past
the end of the transposed variable, whatever its values. -/
theorem C130_prisms_out_of_bounds (oob : ℕ → Option ℝ) {nn ne : ℕ} (he : 0 < ne) (h : ne < nn)
    (D : ℕ → ℕ → Option ℝ) :
    ((stored true nn ne D).read oob nn ne)[(nn - 1) * ne + (ne - 1)]? = some (oob ((nn - 1) * nn + (ne - 1))) ∧
      (stored true nn ne D).values.length ≤ (nn - 1) * nn + (ne - 1) := by
  have hlen : (stored true nn ne D).values.length ≤ (nn - 1) * nn + (ne - 1) := by
    simp only [stored, if_true, grid, List.length_map, cells_length]
    obtain ⟨m, rfl⟩ : ∃ m, nn = m + 1 := ⟨nn - 1, by omega⟩
    obtain ⟨l, rfl⟩ : ∃ l, ne = l + 1 := ⟨ne - 1, by omega⟩
    simp only [Nat.add_sub_cancel]
    nlinarith
  refine ⟨?_, hlen⟩
  have hr : ∀ v : DimVar, v.read oob nn ne = grid nn ne fun k j =>
      (v.values[k * (if v.transposed then nn else ne) + j]?).getD (oob (k * (if v.transposed then nn else ne) + j)) := by
    intro v
    unfold DimVar.read grid cells
    rw [List.map_flatMap]
    simp only [List.map_map, Function.comp_def]
  rw [hr, grid_get nn ne (nn - 1) (ne - 1) _ (by omega) (by omega)]
  have ht : (stored true nn ne D).transposed = true := rfl
  simp only [ht, if_true]
  rw [List.getElem?_eq_none hlen, Option.getD_none]

/-- The kernels of the witness: the eastern boundary times the density. -/
noncomputable def eastKernels : PrismKernels :=
  { pot := fun _ p d => p.east * d, e := fun _ _ _ => 0, n := fun _ _ _ => 0, u := fun _ _ _ => 0,
    ee := fun _ _ _ => 0, nn := fun _ _ _ => 0, uu := fun _ _ _ => 0, en := fun _ _ _ => 0,
    eu := fun _ _ _ => 0, nu := fun _ _ _ => 0 }

/-- A layer of two by two prisms with density only in the south-east one. -/
noncomputable def corner : ℕ → ℕ → Option ℝ := fun k j => if k = 0 ∧ j = 1 then some 1 else some 0

/-- C130 fails: the gravity of a layer of two by two prisms depends on the order of the dimensions of its density. -/
theorem C130_not_full : ¬ C130_full := by
  intro h
  have h := h (fun _ => none) (fun _ _ => 0) .serial eastKernels (arrays [1] [⟨0, 0, 0⟩]) 2 2 (fun j => j) (fun k => k)
    (fun _ _ => some 0) (fun _ _ => some 1) corner "density" "potential" (some 1) le_rfl le_rfl
  have hreg : checkRegularGrid (coords 2 fun j => (j : ℝ)) (coords 2 fun k => (k : ℝ)) = .ok () := by
    have := checkRegular_axis 0 1 0 1 (n := 2) (m := 2) le_rfl le_rfl
    simpa [axis, coords] using this
  have part : ∀ D, layerGravityDims (fun _ => none) (fun _ _ => 0) .serial eastKernels
      (layerWith false 2 2 (fun j => (j : ℝ)) (fun k => (k : ℝ)) (fun _ _ => some 0) (fun _ _ => some 1) D "density")
      (arrays [1] [⟨0, 0, 0⟩]) "potential" "density" (some 1) = _ := fun D =>
    C130_prisms_partial (fun _ => none) (fun _ _ => 0) .serial .serial eastKernels [1] [⟨0, 0, 0⟩] rfl le_rfl le_rfl
      _ _ hreg _ _ D "density" "potential" (by norm_num) (by norm_num) one_pos trivial trivial
  rw [C130_prisms_transposed, part, part] at h
  have e1 : gravityElements (fun j => (j : ℝ)) (fun k => (k : ℝ)) (fun _ _ => some 0) (fun _ _ => some 1) corner 1 2 2 =
      [(⟨1 / 2, 3 / 2, -1 / 2, 1 / 2, 0, 1⟩, 1)] := by
    simp [gravityElements, cells, corner, List.range_succ]
    norm_num
  have e2 : gravityElements (fun j => (j : ℝ)) (fun k => (k : ℝ)) (fun _ _ => some 0) (fun _ _ => some 1)
      (fun k j => corner j k) 1 2 2 = [(⟨-1 / 2, 1 / 2, 1 / 2, 3 / 2, 0, 1⟩, 1)] := by
    simp [gravityElements, cells, corner, List.range_succ]
    norm_num
  rw [e1, e2] at h
  unfold prismField at h
  have ev : ∀ srcs : List (Prism × ℝ), prismGravity (fun _ _ => 0) .serial eastKernels (arrays [1] [⟨0, 0, 0⟩]) (srcs.map (·.1))
      (srcs.map (·.2)) "potential" true = _ := fun srcs =>
    prismGravity_eq (fun _ _ => 0) .serial eastKernels [1] [⟨0, 0, 0⟩] rfl srcs trivial "potential" true
  rw [ev, ev] at h
  have s1 : ("potential" ∈ ["g_z", "g_ez", "g_nz"]) = False := by decide
  have s2 : ("potential" ∈ ["g_e", "g_n", "g_z"]) = False := by decide
  have s3 : ("potential" ∈ ["g_ee", "g_nn", "g_zz", "g_en", "g_ez", "g_nz"]) = False := by decide
  simp only [scaleIf, s1, s2, s3, if_false] at h
  norm_num [prismFields, List.lookup, eastKernels, total, keepPrism, zeroVolume, Except.map] at h

/-- C130, tesseroids: with dimensions (latitude, longitude) the forward model gets every tesseroid with its own
density. Missing: the other order, see `C130_tesseroids_transposed`. -/
theorem C130_tesseroids_partial {α : Type} (forward : List Row → List (Option ℝ) → Py α) {nn ne : ℕ} (hn : 2 ≤ nn)
    (he : 2 ≤ ne) (E N : ℕ → ℝ) (hreg : checkRegularGrid (coords ne E) (coords nn N) = .ok ())
    (B T D : ℕ → ℕ → Option ℝ) (name : String) (threshold : Option ℝ) :
    tessLayerGravityDims forward (layerWith false nn ne E N B T D name) name threshold =
      forward ((tessCells B T D threshold nn ne).map fun p => elementRow E N B T p.1 p.2)
        ((tessCells B T D threshold nn ne).map fun p => D p.1 p.2) := by
  have h := C23_elements forward hn he E N hreg B T D [(name, grid nn ne D)] name (by simp) threshold
  unfold tessLayerGravityDims layerWith
  simp only [List.map_cons, List.map_nil, stored, Bool.false_eq_true, if_false, List.lookup, beq_self_eq_true,
    false_and, toRows_grid hn he E N B T _ hreg, Py.bind_ok]
  exact h

/-- C130, tesseroids: with dimensions (longitude, latitude) a layer with different numbers of nodes is refused, and one
with as many longitudes as latitudes has every density on the other side of the diagonal. -/
theorem C130_tesseroids_transposed {α : Type} (forward : List Row → List (Option ℝ) → Py α) {nn ne : ℕ} (hn : 2 ≤ nn)
    (he : 2 ≤ ne) (E N : ℕ → ℝ) (hreg : checkRegularGrid (coords ne E) (coords nn N) = .ok ())
    (B T D : ℕ → ℕ → Option ℝ) (name : String) (threshold : Option ℝ) :
    tessLayerGravityDims forward (layerWith true nn ne E N B T D name) name threshold =
      if nn = ne then
        forward ((tessCells B T (fun k j => D j k) threshold nn ne).map fun p => elementRow E N B T p.1 p.2)
          ((tessCells B T (fun k j => D j k) threshold nn ne).map fun p => D p.2 p.1)
      else .error .IndexError := by
  by_cases h : nn = ne
  · subst h
    have h := C23_elements forward hn he E N hreg B T (fun k j => D j k) [(name, grid nn nn fun k j => D j k)] name
      (by simp) threshold
    rw [if_pos rfl, ← h]
    unfold tessLayerGravityDims layerWith
    simp only [List.map_cons, List.map_nil, stored, if_true, List.lookup, beq_self_eq_true, List.length_map,
      List.length_range, ne_eq, not_true_eq_false, and_false, if_false, toRows_grid hn he E N B T _ hreg, Py.bind_ok]
  · rw [if_neg h]
    unfold tessLayerGravityDims layerWith
    simp only [List.map_cons, List.map_nil, stored, if_true, List.lookup, beq_self_eq_true, List.length_map,
      List.length_range, ne_eq, h, not_false_eq_true, and_self, toRows_grid hn he E N B T _ hreg, Py.bind_ok]
    rfl

/-- C130, tesseroids: a layer with no variable of the given name is refused with KeyError, whatever the order of the
dimensions of the other variable. -/
theorem C130_tesseroids_missing {α : Type} (forward : List Row → List (Option ℝ) → Py α) (transposed : Bool)
    {nn ne : ℕ} (hn : 2 ≤ nn) (he : 2 ≤ ne) (E N : ℕ → ℝ)
    (hreg : checkRegularGrid (coords ne E) (coords nn N) = .ok ()) (B T D : ℕ → ℕ → Option ℝ) (name other : String)
    (hne : name ≠ other) (threshold : Option ℝ) :
    tessLayerGravityDims forward (layerWith transposed nn ne E N B T D other) name threshold = .error .KeyError := by
  have hb : (name == other) = false := by simpa using hne
  unfold tessLayerGravityDims layerWith
  simp only [List.map_cons, List.map_nil, List.lookup, hb, toRows_grid hn he E N B T _ hreg, Py.bind_ok]
  rfl

open Classical in
/-- C130, `to_pyvista`: with dimensions (northing, easting) every cell has its own value (`C72_layer`). With the other
order the cells, in the order of the layer, get the values in the order of the variable: for as many eastings
as northings, the value of the prism on the other side of the diagonal. -/
theorem C130_pyvista (junk : ℕ → ℕ → ℕ → Option ℝ) (drop transposed : Bool) {n : ℕ} (hn : 2 ≤ n) (E N : ℕ → ℝ)
    (hreg : checkRegularGrid (coords n E) (coords n N) = .ok ()) (B T D : ℕ → ℕ → Option ℝ) (name : String) :
    let kept := (cells n n).filter fun p => ¬ (drop = true ∧
      (T p.1 p.2 = B p.1 p.2 ∨ T p.1 p.2 = none ∨ B p.1 p.2 = none))
    layerToPyvistaDims junk (layerWith transposed n n E N B T D name) drop =
      prismToPyvista junk (kept.map fun p => ![some (E p.2 - (E 1 - E 0) / 2), some (E p.2 + (E 1 - E 0) / 2),
          some (N p.1 - (N 1 - N 0) / 2), some (N p.1 + (N 1 - N 0) / 2), B p.1 p.2, T p.1 p.2])
        (some [(name, [kept.length], kept.map fun p => if transposed then D p.2 p.1 else D p.1 p.2)]) := by
  intro kept
  have h := C72_layer junk drop hn hn E N hreg B T [(name, fun k j => if transposed then D j k else D k j)]
  simp only [List.map_cons, List.map_nil, List.cons_ne_nil, if_false] at h
  rw [← h]
  unfold layerToPyvistaDims layerWith stored
  cases transposed <;> rfl

/-- C20: the shape of a layer is (number of northings, number of eastings), in the order of `dims`, and its size is the
number of its elements. -/
theorem C20_size {nn ne : ℕ} (hn : 2 ≤ nn) (he : 2 ≤ ne) (E N : ℕ → ℝ) (B T : ℕ → ℕ → Option ℝ)
    (vars : List (String × List (Option ℝ)))
    (hreg : checkRegularGrid (coords ne E) (coords nn N) = .ok ()) :
    layerShape (coords ne E) (coords nn N) = [nn, ne] ∧
    dims false = ["northing", "easting"] ∧ dims true = ["latitude", "longitude"] ∧
    ∃ rows, toRows ⟨coords ne E, coords nn N, grid nn ne T, grid nn ne B, vars⟩ = .ok rows ∧
      rows.length = layerSize (coords ne E) (coords nn N) ∧
      layerSize (coords ne E) (coords nn N) = (layerShape (coords ne E) (coords nn N)).prod := by
  refine ⟨by simp [layerShape], rfl, rfl, _, toRows_grid hn he E N B T vars hreg, ?_, ?_⟩
  · simp [grid, cells_length, layerSize]
  · simp [layerShape, layerSize]

/-- The hypotheses hold for a layer of three by two elements. -/
example : checkRegularGrid (coords 2 fun j => 0 + (j : ℝ) * 1) (coords 3 fun k => 0 + (k : ℝ) * 1) = .ok () :=
  checkRegular_axis 0 1 0 1 le_rfl (by norm_num)

end Verif.Layers
