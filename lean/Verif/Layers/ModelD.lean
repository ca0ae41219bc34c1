import Verif.Layers.Model

/-!
Layers built from DataArrays: surface, reference and properties go through `np.asarray`, which keeps their values in
the order of their own dimensions and labels and drops both.
-/

namespace Verif.Layers
open Verif.Utils

/-- A DataArray over a horizontal grid: kind of its dtype, whether its dimensions are (easting, northing) instead of
(northing, easting), the labels of its coordinates and its value at each of them (latitude and longitude for
tesseroids). Arguments of _forward/prisms/layer.py 23-28, _forward/tesseroid_layer.py 20. -/
structure GridData where
  kind : Kind
  transposed : Bool
  northing : List ℝ
  easting : List ℝ
  val : ℝ → ℝ → Option ℝ

/-- `np.asarray` of a DataArray: _forward/prisms/layer.py 127, 290, _forward/tesseroid_layer.py 132, 298. -/
def GridData.asarray (g : GridData) : Arr :=
  if g.transposed then
    ⟨g.kind, [g.easting.length, g.northing.length], g.easting.flatMap fun e => g.northing.map fun n => g.val n e⟩
  else
    ⟨g.kind, [g.northing.length, g.easting.length], g.northing.flatMap fun n => g.easting.map fun e => g.val n e⟩

/-- `np.asarray` of the reference, a number or a DataArray: _forward/prisms/layer.py 290,
_forward/tesseroid_layer.py 298. -/
def referenceArr : ℝ ⊕ GridData → Arr
  | .inl x => ⟨.float, [], [some x]⟩
  | .inr g => g.asarray

/-- `prism_layer`, prisms/layer.py 23-138 (`overlapCheck = false`), and `tesseroid_layer`, tesseroid_layer.py 20-150
(`overlapCheck = true`), for DataArrays. -/
noncomputable def makeLayerX (overlapCheck : Bool) (easting northing : List ℝ) (surface : GridData)
    (reference : ℝ ⊕ GridData) (properties : List (String × GridData)) : Py Layer :=
  (makeLayer overlapCheck [surface.asarray, referenceArr reference] easting northing 0 1
    (properties.map fun p => (p.1, p.2.asarray))).map (·.2)

end Verif.Layers
