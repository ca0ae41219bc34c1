import Verif.Layers.Model
import Verif.Tesseroid.Model

/-! `tesseroid_layer.gravity` together with the forward model that it calls. -/

namespace Verif.Layers
open Verif.Forward Verif.Engine Verif.Tesseroid

/-- A row of `_to_tesseroids` as a tesseroid. The rows that reach the forward model have no NaN
(tesseroid_layer.py 385-388), so that the default value is never used (theorem `C23_gravity`).
_forward/tesseroid_layer.py 443-489. -/
noncomputable def Row.tess (r : Row) : Tess :=
  ⟨r.west, r.east, r.south, r.north, r.bottom.getD 0, r.top.getD 0⟩

/-- `tesseroid_layer.gravity`, tesseroid_layer.py 322-404, with the call of `tesseroid_gravity` at
397-404; the keyword arguments `radial_adaptive_discretization`, `disable_checks` and `parallel` are passed
on. The densities are an array, a case in which `tesseroid_gravity` always ends (no loop on the
variation of a density function). -/
noncomputable def tesseroidLayerGravity (junk : Junk) (mode : Mode) (M : Minimizer) (fuel : ℕ)
    (stack0 small0 : ℕ → Tess) (layer : Layer) (coordinates : NdArray × NdArray × NdArray)
    (field : String) (radial disableChecks : Bool) (density_name : String := "density")
    (thickness_threshold : Option ℝ := none) : Py NdArray :=
  tessLayerGravity (fun rows density =>
    (tesseroidGravity junk mode M fuel stack0 small0 coordinates (rows.map Row.tess)
      (.values (density.map (·.getD 0))) field radial disableChecks).getD (.error .TypeError))
    layer density_name thickness_threshold

end Verif.Layers
