import Verif.Filters.Model

/-!
The derivatives of filters/_filters.py and _transformations.py for any integer order, also negative. `Model.lean` has the
natural orders (`C134_natural` says that they agree).
-/

namespace Verif.Filters

open Classical in
/-- `x ** order` of numpy for floats (or complex numbers) and an integer order: not finite (inf or nan, with a warning) for
a negative power of zero. filters/_filters.py 67, 121, 175. -/
noncomputable def npPower {K : Type} [DivisionRing K] (x : K) (order : ℤ) : Option K :=
  if x = 0 ∧ order < 0 then none else some (x ^ order)

/-- filters/_filters.py 16-67 `derivative_upward_kernel` -/
noncomputable def derivativeUpwardKernelZ (order : ℤ) : Kernel := fun freq_easting freq_northing =>
  let k_easting := 2 * Real.pi * freq_easting
  let k_northing := 2 * Real.pi * freq_northing
  (npPower (-Real.sqrt (k_easting ^ 2 + k_northing ^ 2)) order).map Complex.ofReal

/-- filters/_filters.py 70-121 `derivative_easting_kernel` -/
noncomputable def derivativeEastingKernelZ (order : ℤ) : Kernel := fun freq_easting _ =>
  let k_easting := 2 * Real.pi * freq_easting
  npPower ((k_easting : ℂ) * Complex.I) order

/-- filters/_filters.py 124-175 `derivative_northing_kernel` -/
noncomputable def derivativeNorthingKernelZ (order : ℤ) : Kernel := fun _ freq_northing =>
  let k_northing := 2 * Real.pi * freq_northing
  npPower ((k_northing : ℂ) * Complex.I) order

/-- _transformations.py 25-73 `derivative_upward` -/
noncomputable def derivativeUpwardZ (fill : Fill) (grid : Grid) (order : ℤ := 1) (pad : Bool := true)
    (pad_kwargs : Option PadKwargs := none) : Option PadKwargs × Py Grid :=
  applyFilter fill grid (.ok (derivativeUpwardKernelZ order)) pad pad_kwargs

/-- _transformations.py 76-149 `derivative_easting`; `range(order)` is empty for negative orders. -/
noncomputable def derivativeEastingZ (fill : Fill) (grid : Grid) (order : ℤ := 1)
    (method : Method := "finite-diff") (pad : Bool := true)
    (pad_kwargs : Option PadKwargs := none) : Option PadKwargs × Py Grid :=
  if method = "finite-diff" then
    (pad_kwargs, do
      let coordinate ← getDataarrayCoordinate grid 1
      differentiateTimes 1 coordinate order.toNat grid)
  else if method = "fft" then
    applyFilter fill grid (.ok (derivativeEastingKernelZ order)) pad pad_kwargs
  else (pad_kwargs, .error .ValueError)

/-- _transformations.py 152-225 `derivative_northing` -/
noncomputable def derivativeNorthingZ (fill : Fill) (grid : Grid) (order : ℤ := 1)
    (method : Method := "finite-diff") (pad : Bool := true)
    (pad_kwargs : Option PadKwargs := none) : Option PadKwargs × Py Grid :=
  if method = "finite-diff" then
    (pad_kwargs, do
      let coordinate ← getDataarrayCoordinate grid 0
      differentiateTimes 0 coordinate order.toNat grid)
  else if method = "fft" then
    applyFilter fill grid (.ok (derivativeNorthingKernelZ order)) pad pad_kwargs
  else (pad_kwargs, .error .ValueError)

end Verif.Filters
