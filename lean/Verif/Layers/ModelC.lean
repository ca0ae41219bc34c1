import Verif.Layers.ModelB

/-!
Layers whose data variables were assigned with their dimensions in any order. `xarray` keeps the order of the
dimensions of each variable, and the accessors read `.values`, in that order.
-/

namespace Verif.Layers
open Verif.Forward Verif.Engine Verif.Tesseroid

/-- A data variable of a layer: whether its dimensions are (easting, northing) instead of (northing, easting),
and its `.values` in C order. `layer["density"]` at _forward/prisms/layer.py 400, tesseroid_layer.py 382. -/
structure DimVar where
  transposed : Bool
  values : List (Option ℝ)

/-- A layer with such variables. `top` and `bottom` always have the order (northing, easting):
`update_top_bottom` assigns them with `self.dims`, _forward/prisms/layer.py 309-312. -/
structure DimLayer where
  easting : List ℝ
  northing : List ℝ
  top : List (Option ℝ)
  bottom : List (Option ℝ)
  vars : List (String × DimVar)

/-- The accessor property `dims`, _forward/prisms/layer.py 176-183 (tesseroid_layer.py 202-209 has latitude
and longitude). -/
def dims (tesseroids : Bool) : List String :=
  if tesseroids then ["latitude", "longitude"] else ["northing", "easting"]

/-- The accessor property `size`, _forward/prisms/layer.py 220-230 and tesseroid_layer.py 229-239. -/
def layerSize (easting northing : List ℝ) : ℕ := northing.length * easting.length

/-- What `densities[k, j]` reads in the loops of _forward/prisms/layer.py 596: the rows of a transposed variable
have as many elements as there are northings, and compiled code does not check the indices (`oob` is what is
found past the end of the array; addresses inside the array but outside a row are those of the next rows). -/
def DimVar.read (oob : ℕ → Option ℝ) (nn ne : ℕ) (v : DimVar) : List (Option ℝ) :=
  (List.range nn).flatMap fun k => (List.range ne).map fun j =>
    let address := k * (if v.transposed then nn else ne) + j
    (v.values[address]?).getD (oob address)

/-- `prism_layer.gravity` of _forward/prisms/layer.py 314-433 for variables in any order. -/
noncomputable def layerGravityDims (oob : ℕ → Option ℝ) (junk : Junk) (mode : Mode) (K : PrismKernels)
    (layer : DimLayer) (coordinates : NdArray × NdArray × NdArray) (field : String)
    (density_name : String := "density") (thickness_threshold : Option ℝ := none) : Py NdArray :=
  layerGravity junk mode K ⟨layer.easting, layer.northing, layer.top, layer.bottom,
    layer.vars.map fun v => (v.1, v.2.read oob layer.northing.length layer.easting.length)⟩
    coordinates field density_name thickness_threshold

/-- `tesseroid_layer.gravity` of _forward/tesseroid_layer.py 322-404 for variables in any order: the mask of a
transposed variable is indexed with the one of the boundaries (line 433), IndexError if their shapes differ. -/
noncomputable def tessLayerGravityDims {α : Type} (forward : List Row → List (Option ℝ) → Py α)
    (layer : DimLayer) (density_name : String := "density") (thickness_threshold : Option ℝ := none) : Py α := do
  let plain : Layer := ⟨layer.easting, layer.northing, layer.top, layer.bottom,
    layer.vars.map fun v => (v.1, v.2.values)⟩
  let _ ← toRows plain
  match layer.vars.lookup density_name with
  | none => throw .KeyError
  | some v =>
    if v.transposed ∧ layer.northing.length ≠ layer.easting.length then throw .IndexError
    else tessLayerGravity forward plain density_name thickness_threshold

/-- `prism_layer.to_pyvista` of _forward/prisms/layer.py 485-519 for variables in any order: the values are raveled
in the order of each variable. -/
noncomputable def layerToPyvistaDims (junk : ℕ → ℕ → ℕ → Option ℝ) (layer : DimLayer)
    (drop_null_prisms : Bool := true) : Py (Verif.Utils.PvGrid (Option ℝ)) :=
  layerToPyvista junk ⟨layer.easting, layer.northing, layer.top, layer.bottom,
    layer.vars.map fun v => (v.1, v.2.values)⟩ drop_null_prisms

end Verif.Layers
