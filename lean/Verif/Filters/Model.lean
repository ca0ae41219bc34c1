import Verif.Utils.Model
import Mathlib.Analysis.SpecialFunctions.Complex.CircleAddChar
import Mathlib.Analysis.SpecialFunctions.Sqrt

/-!
Model of the grid transformations: src/harmonica/filters/_filters.py, filters/_utils.py,
filters/_fft.py and _transformations.py.

xarray and xrft are outside /repo. What the code uses of them is modelled here (sections
"DataArray", "xrft" and "differentiate"), following xrft 1.0:

* `xrft.fft` and `xrft.ifft` (with `true_phase` and `true_amplitude`) are written as the sums that
  define them, over evenly spaced coordinates; coordinates that are not evenly spaced raise. (xrft
  tolerates a relative deviation of 1e-3; here the spacing is exact.) Decreasing coordinates are
  flipped by `xrft.fft`, and `xrft.ifft` always returns increasing ones.
* The values that `np.pad` writes outside the original grid are a parameter (`Fill`).

NaN (and the infinities produced by divisions by zero) are `none`. A kernel with such a value at
any frequency makes every value of the inverse transform NaN.

Not modelled: rounding, dask arrays, attributes, names; orders that are not integer (negative ones: `ModelB.lean`).
-/

namespace Verif.Filters
open Verif.Utils

/-! ### DataArray -/

/-- A coordinate of a DataArray: its dimensions and values in C order.
xarray, as used at filters/_utils.py 76-87. -/
structure Coord where
  dims : List String
  values : List ℝ

/-- An `xarray.DataArray`: names and sizes of the dimensions, coordinates by name, and the element
at each multi-index. xarray, as used at filters/_utils.py 17-117. -/
structure Grid where
  dims : List String
  sizes : List ℕ
  coords : List (String × Coord)
  data : List ℕ → Option ℝ

/-- `grid.coords[name]`. e.g. filters/_utils.py 80-86. -/
def Grid.coord (g : Grid) (name : String) : Option Coord := g.coords.lookup name

/-- `idx` is an index of an array with the given sizes.
Indices of the grids of filters/_utils.py 17-117. -/
def InRange : List ℕ → List ℕ → Prop
  | [], [] => True
  | i :: idx, n :: sizes => i < n ∧ InRange idx sizes
  | _, _ => False

open Classical in
/-- `grid_sanity_checks`, filters/_utils.py 120-149. -/
noncomputable def gridSanityChecks (grid : Grid) : Py Unit :=
  if grid.dims.length ≠ 2 then .error .ValueError
  else if ∃ idx, InRange idx grid.sizes ∧ grid.data idx = none then .error .ValueError
  else .ok ()

/-! ### xrft -/

/-- A two dimensional array of numbers with its coordinates: axis 0 is northing.
The grid at filters/_utils.py 80-95. -/
structure Arr2 where
  n : ℕ
  m : ℕ
  y : List ℝ
  x : List ℝ
  val : ℕ → ℕ → ℝ

/-- A two dimensional array in the frequency domain. It keeps the spacings and the smallest
coordinate of each axis of the original grid (xrft keeps `direct_lag` and gets the spacing from the
frequencies). The result of filters/_fft.py 14-44. -/
structure Spectrum where
  n : ℕ
  m : ℕ
  dy : ℝ
  dx : ℝ
  y0 : ℝ
  x0 : ℝ
  val : ℕ → ℕ → ℂ

open Classical in
/-- Signed spacing of an evenly spaced coordinate. Used by xrft at filters/_fft.py 42-44. -/
noncomputable def spacing (c : List ℝ) : Py ℝ :=
  match c with
  | a :: b :: _ =>
    if b - a ≠ 0 ∧ ∀ i (h : i + 1 < c.length), c[i + 1] - c[i] = b - a then .ok (b - a)
    else .error .ValueError
  | _ => .error .IndexError

/-- Frequency number `p` of `n` with spacing `d` in the order of `fftshift(fftfreq(n, d))`.
Used by xrft at filters/_fft.py 42-44. -/
noncomputable def freq (n : ℕ) (d : ℝ) (p : ℕ) : ℝ := ((p : ℝ) - (n / 2 : ℕ)) / (n * d)

/-- Smallest of the first and last coordinate. Used by xrft at filters/_fft.py 42-44, 75-81. -/
noncomputable def firstCoord (c : List ℝ) : ℝ := min (c.headD 0) (c.getLastD 0)

/-- `fft`, filters/_fft.py 14-44: `xrft.fft` with `true_phase` and `true_amplitude`. The sum of the
values at the coordinates times the harmonics, times the spacings. -/
noncomputable def fft (g : Arr2) : Py Spectrum := do
  let dy ← spacing g.y
  let dx ← spacing g.x
  let dy := |dy|
  let dx := |dx|
  return { n := g.n, m := g.m, dy := dy, dx := dx, y0 := firstCoord g.y, x0 := firstCoord g.x
           val := fun p q => dy * dx * ∑ i ∈ Finset.range g.n, ∑ j ∈ Finset.range g.m,
             g.val i j * Complex.exp (-(2 * Real.pi * Complex.I *
               (freq g.n dy p * g.y.getD i 0 + freq g.m dx q * g.x.getD j 0))) }

/-- `ifft`, filters/_fft.py 47-81: `xrft.ifft`, the values in the spatial domain at increasing
coordinates. -/
noncomputable def ifft (s : Spectrum) (i j : ℕ) : ℂ :=
  1 / (s.n * s.dy) * (1 / (s.m * s.dx)) * ∑ p ∈ Finset.range s.n, ∑ q ∈ Finset.range s.m,
    s.val p q * Complex.exp (2 * Real.pi * Complex.I *
      (freq s.n s.dy p * (s.y0 + i * s.dy : ℝ) + freq s.m s.dx q * (s.x0 + j * s.dx : ℝ)))

/-- The values that `np.pad` writes outside of the original array: mode, constant values, widths on
axis 0 and axis 1, the array, and the position in the padded array.
Used by xrft.pad at filters/_utils.py 94. -/
abbrev Fill := String → Option ℝ → ℕ × ℕ → ℕ × ℕ → Arr2 → ℕ → ℕ → ℝ

/-- Coordinates of `xrft.pad`: extrapolated with the spacing.
Used by xrft.pad at filters/_utils.py 94. -/
noncomputable def padCoord (c : List ℝ) (d : ℝ) (w : ℕ × ℕ) : List ℝ :=
  (List.range (w.1 + c.length + w.2)).map fun (i : ℕ) => c.headD 0 + ((i : ℝ) - w.1) * d

/-- `xrft.pad(grid, pad_width, mode, constant_values)`. Called at filters/_utils.py 94. -/
noncomputable def xrftPad (fill : Fill) (mode : String) (constant : Option ℝ) (wy wx : ℕ × ℕ)
    (g : Arr2) : Py Arr2 := do
  let dy ← spacing g.y
  let dx ← spacing g.x
  return { n := wy.1 + g.n + wy.2, m := wx.1 + g.m + wx.2
           y := padCoord g.y dy wy, x := padCoord g.x dx wx
           val := fun i j =>
             if wy.1 ≤ i ∧ i < wy.1 + g.n ∧ wx.1 ≤ j ∧ j < wx.1 + g.m then
               g.val (i - wy.1) (j - wx.1)
             else fill mode constant wy wx g i j }

/-- `xrft.unpad(grid, pad_width)`: drop the first and last elements of each axis.
Called at filters/_utils.py 103. -/
def xrftUnpad {α : Type} (wy wx : ℕ × ℕ) (val : ℕ → ℕ → α) : ℕ → ℕ → α :=
  fun i j => val (i + wy.1) (j + wx.1)

/-! ### apply_filter -/

/-- The dictionary `pad_kwargs` (`none` for a missing key). A width given as one integer is the pair
with that integer twice. Other keys of `DataArray.pad` are not modelled. filters/_utils.py 86-94. -/
structure PadKwargs where
  pad_width : Option (List (String × (ℕ × ℕ))) := none
  mode : Option String := none
  constant_values : Option (Option ℝ) := none

/-- A filter in the frequency domain: its value at the frequencies easting and northing.
The argument `fft_filter` of filters/_utils.py 17-24, 98. -/
abbrev Kernel := ℝ → ℝ → Option ℂ

/-- filters/_utils.py 82-93: the defaults written into the dictionary. -/
def setDefaults (kw : PadKwargs) (dims : List String) (sizes : List ℕ) : PadKwargs :=
  let kw := match kw.pad_width with
    | none => { kw with
        pad_width := some (List.zipWith (fun d n => (d, (n / 4, n / 4))) dims sizes) }
    | some _ => kw
  let kw := match kw.mode with
    | none => { kw with mode := some "edge" }
    | some _ => kw
  match kw.constant_values with
    | none => { kw with constant_values := some none }
    | some _ => kw

/-- Width of a dimension; dimensions without an entry are not padded.
`pad_width` at filters/_utils.py 86-103. -/
def width (kw : PadKwargs) (d : String) : ℕ × ℕ :=
  match kw.pad_width with
  | none => (0, 0)
  | some w => (w.lookup d).getD (0, 0)

/-- The grid without non-dimensional coordinates, as numbers (after the sanity checks there are two
dimensions and no NaN; outside of the array the values are irrelevant). A dimension without
coordinate raises KeyError. filters/_utils.py 77-81. -/
def toArr2 (grid : Grid) (d0 d1 : String) (n m : ℕ) : Py Arr2 :=
  match grid.coord d0, grid.coord d1 with
  | some c0, some c1 => .ok
      { n := n, m := m, y := c0.values, x := c1.values
        val := fun i j => if i < n ∧ j < m then (grid.data [i, j]).getD 0 else 0 }
  | _, _ => .error .KeyError

open Classical in
/-- filters/_utils.py 97-101: product with the filter, inverse transform, real part; `none` if the
filter is not finite at some frequency. -/
noncomputable def filterSpectrum (kernel : Kernel) (s : Spectrum) (i j : ℕ) : Option ℝ :=
  if ∃ p < s.n, ∃ q < s.m, kernel (freq s.m s.dx q) (freq s.n s.dy p) = none then none
  else
    let filtered : Spectrum := { s with
      val := fun p q => s.val p q * (kernel (freq s.m s.dx q) (freq s.n s.dy p)).getD 0 }
    some (ifft filtered i j).re

/-- filters/_utils.py 78-103, between the sanity checks and the coordinates: the values of the
filtered grid. `fft_filter` builds the filter (and may raise). -/
noncomputable def filteredValues (fill : Fill) (fft_filter : Py Kernel) (pad : Bool) (kw : PadKwargs)
    (d0 d1 : String) (g : Arr2) : Py (ℕ → ℕ → Option ℝ) :=
  if pad then do
    let wy := width kw d0
    let wx := width kw d1
    let padded ← xrftPad fill (kw.mode.getD "") (kw.constant_values.getD none) wy wx g
    let s ← fft padded
    let kernel ← fft_filter
    return xrftUnpad wy wx (filterSpectrum kernel s)
  else do
    let s ← fft g
    let kernel ← fft_filter
    return filterSpectrum kernel s

/-- filters/_utils.py 104-117: restore the coordinates. -/
def restoreCoords (grid : Grid) (d0 d1 : String) (drop_coords : Bool) (val : ℕ → ℕ → Option ℝ) :
    Grid :=
  { dims := grid.dims, sizes := grid.sizes
    coords := grid.coords.filter (fun c => c.1 = d1 ∨ c.1 = d0) ++
      (if drop_coords then [] else grid.coords.filter fun c => ¬ (c.1 = d1 ∨ c.1 = d0))
    data := fun idx => match idx with
      | [i, j] => val i j
      | _ => none }

/-- `apply_filter`, filters/_utils.py 17-117, for a dictionary that exists. Returns the content of the
dictionary after the call. The keys of `pad_width` have to be dimensions of the grid. -/
noncomputable def applyFilterDict (fill : Fill) (grid : Grid) (fft_filter : Py Kernel) (pad : Bool)
    (kw : PadKwargs) (drop_coords : Bool) : PadKwargs × Py Grid :=
  match gridSanityChecks grid with
  | .error e => (kw, .error e)
  | .ok _ =>
    match grid.dims, grid.sizes with
    | [d0, d1], [n, m] =>
      let kw := if pad then setDefaults kw grid.dims grid.sizes else kw
      if pad ∧ ∃ w ∈ kw.pad_width.getD [], w.1 ≠ d0 ∧ w.1 ≠ d1 then (kw, .error .KeyError)
      else
        (kw, do
          let g ← toArr2 grid d0 d1 n m
          let val ← filteredValues fill fft_filter pad kw d0 d1 g
          return restoreCoords grid d0 d1 drop_coords val)
    | _, _ => (kw, .error .ValueError)

/-- `apply_filter`, filters/_utils.py 17-117: `pad_kwargs` is None or a dictionary of the caller, and
the first component is its content after the call. -/
noncomputable def applyFilter (fill : Fill) (grid : Grid) (fft_filter : Py Kernel) (pad : Bool := true)
    (pad_kwargs : Option PadKwargs := none) (drop_coords : Bool := false) :
    Option PadKwargs × Py Grid :=
  match pad_kwargs with
  | none => (none, (applyFilterDict fill grid fft_filter pad {} drop_coords).2)
  | some kw =>
    let r := applyFilterDict fill grid fft_filter pad kw drop_coords
    (some r.1, r.2)

/-! ### kernels (_filters.py) -/

/-- filters/_filters.py 16-67 `derivative_upward_kernel` -/
noncomputable def derivativeUpwardKernel (order : ℕ) : Kernel := fun freq_easting freq_northing =>
  let k_easting := 2 * Real.pi * freq_easting
  let k_northing := 2 * Real.pi * freq_northing
  some (((-Real.sqrt (k_easting ^ 2 + k_northing ^ 2)) ^ order : ℝ) : ℂ)

/-- filters/_filters.py 70-121 `derivative_easting_kernel` -/
noncomputable def derivativeEastingKernel (order : ℕ) : Kernel := fun freq_easting _ =>
  let k_easting := 2 * Real.pi * freq_easting
  some (((k_easting : ℂ) * Complex.I) ^ order)

/-- filters/_filters.py 124-175 `derivative_northing_kernel` -/
noncomputable def derivativeNorthingKernel (order : ℕ) : Kernel := fun _ freq_northing =>
  let k_northing := 2 * Real.pi * freq_northing
  some (((k_northing : ℂ) * Complex.I) ^ order)

/-- filters/_filters.py 178-232 `upward_continuation_kernel` -/
noncomputable def upwardContinuationKernel (height_displacement : ℝ) : Kernel :=
  fun freq_easting freq_northing =>
    let k_easting := 2 * Real.pi * freq_easting
    let k_northing := 2 * Real.pi * freq_northing
    some ((Real.exp (-Real.sqrt (k_easting ^ 2 + k_northing ^ 2) * height_displacement) : ℝ) : ℂ)

open Classical in
/-- filters/_filters.py 235-295 `gaussian_lowpass_kernel`; `2 * np.pi / wavelength` of a zero float raises. -/
noncomputable def gaussianLowpassKernel (wavelength : ℝ) : Py Kernel :=
  if wavelength = 0 then .error .ZeroDivisionError
  else .ok fun freq_easting freq_northing =>
    let k_easting := 2 * Real.pi * freq_easting
    let k_northing := 2 * Real.pi * freq_northing
    some ((Real.exp (-(k_easting ^ 2 + k_northing ^ 2) / (2 * (2 * Real.pi / wavelength) ^ 2)) : ℝ)
      : ℂ)

open Classical in
/-- filters/_filters.py 298-358 `gaussian_highpass_kernel` -/
noncomputable def gaussianHighpassKernel (wavelength : ℝ) : Py Kernel :=
  if wavelength = 0 then .error .ZeroDivisionError
  else .ok fun freq_easting freq_northing =>
    let k_easting := 2 * Real.pi * freq_easting
    let k_northing := 2 * Real.pi * freq_northing
    some ((1 - Real.exp (-(k_easting ^ 2 + k_northing ^ 2) /
      (2 * (2 * Real.pi / wavelength) ^ 2)) : ℝ) : ℂ)

open Classical in
/-- `z ** (-1)`: not finite at zero. filters/_filters.py 450-454. -/
noncomputable def inverse (z : ℂ) : Option ℂ := if z = 0 then none else some z⁻¹

/-- `magnetic_angles_to_vec(1, inclination, declination)`; an angle that is None raises TypeError in
`np.radians`. filters/_filters.py 437-445. -/
noncomputable def versor (inclination declination : Option ℝ) : Py (ℝ × ℝ × ℝ) :=
  match inclination, declination with
  | some i, some d => .ok (magneticAnglesToVec 1 i d)
  | _, _ => .error .TypeError

open Classical in
/-- filters/_filters.py 361-457 `reduction_to_pole_kernel` -/
noncomputable def reductionToPoleKernel (inclination declination : Option ℝ)
    (magnetization_inclination magnetization_declination : Option ℝ) : Py Kernel := do
  let m ← versor magnetization_inclination magnetization_declination
  let f ← versor inclination declination
  let m_z := -m.2.2
  let f_z := -f.2.2
  return fun freq_easting freq_northing =>
    let k_easting := 2 * Real.pi * freq_easting
    let k_northing := 2 * Real.pi * freq_northing
    let k_squared := k_northing ^ 2 + k_easting ^ 2
    let k := Real.sqrt k_squared
    if freq_northing = 0 ∧ freq_easting = 0 then some 0
    else
      (inverse (f_z * k + Complex.I * (f.1 * k_easting + f.2.1 * k_northing))).bind fun a =>
        (inverse (m_z * k + Complex.I * (m.1 * k_easting + m.2.1 * k_northing))).map fun b =>
          k_squared * a * b

/-! ### differentiate -/

/-- Arithmetic with NaN. _transformations.py 523, 587-588. -/
def lift2 (f : ℝ → ℝ → ℝ) (a b : Option ℝ) : Option ℝ := a.bind fun a => b.map fun b => f a b

open Classical in
/-- Division; not finite if the denominator is zero. _transformations.py 588. -/
noncomputable def odiv (a : Option ℝ) (b : ℝ) : Option ℝ := if b = 0 then none else a.map (· / b)

open Classical in
/-- `np.gradient(f, x)` at position `i` of `n`: one-sided differences at the edges; in the interior
the formula for even spacing when all spacings are equal, else the one for uneven spacing.
Used by xarray at _transformations.py 135, 211. -/
noncomputable def npGradient (f : ℕ → Option ℝ) (x : List ℝ) (n i : ℕ) : Option ℝ :=
  let X := fun k => x.getD k 0
  if i = 0 then odiv (lift2 (· - ·) (f 1) (f 0)) (X 1 - X 0)
  else if i + 1 = n then odiv (lift2 (· - ·) (f (n - 1)) (f (n - 2))) (X (n - 1) - X (n - 2))
  else if ∀ k, k + 1 < n → X (k + 1) - X k = X 1 - X 0 then
    odiv (lift2 (· - ·) (f (i + 1)) (f (i - 1))) (2 * (X 1 - X 0))
  else
    let dx1 := X i - X (i - 1)
    let dx2 := X (i + 1) - X i
    lift2 (· + ·)
      (lift2 (· + ·) (odiv ((f (i - 1)).map (-dx2 * ·)) (dx1 * (dx1 + dx2)))
        (odiv ((f i).map ((dx2 - dx1) * ·)) (dx1 * dx2)))
      (odiv ((f (i + 1)).map (dx1 * ·)) (dx2 * (dx1 + dx2)))

/-- `grid.differentiate(coord=name)` along axis `axis`; fewer than two elements raise.
_transformations.py 135, 211. -/
noncomputable def differentiate (grid : Grid) (axis : ℕ) (c : Coord) : Py Grid :=
  let n := grid.sizes.getD axis 0
  if n < 2 then .error .ValueError
  else .ok { grid with
    data := fun idx => npGradient (fun k => grid.data (idx.set axis k)) c.values n (idx.getD axis 0) }

/-! ### transformations (_transformations.py) -/

/-- _transformations.py 592-616 `_get_dataarray_coordinate`: the only coordinate along the dimension. -/
def getDataarrayCoordinate (grid : Grid) (dimension_index : ℕ) : Py Coord :=
  match grid.dims[dimension_index]? with
  | none => .error .IndexError
  | some dim_name =>
    match grid.coords.filter fun c => c.2.dims = [dim_name] with
    | [] => .error .IndexError
    | [c] => .ok c.2
    | _ => .error .ValueError

/-- `for _ in range(order): grid = grid.differentiate(coord=coordinate)`.
_transformations.py 134-135, 210-211. -/
noncomputable def differentiateTimes (axis : ℕ) (c : Coord) : ℕ → Grid → Py Grid
  | 0, grid => .ok grid
  | k + 1, grid => do
    let grid ← differentiate grid axis c
    differentiateTimes axis c k grid

/-- The argument `method`. _transformations.py 76, 152. -/
abbrev Method := String

/-- _transformations.py 25-73 `derivative_upward` -/
noncomputable def derivativeUpward (fill : Fill) (grid : Grid) (order : ℕ := 1) (pad : Bool := true)
    (pad_kwargs : Option PadKwargs := none) : Option PadKwargs × Py Grid :=
  applyFilter fill grid (.ok (derivativeUpwardKernel order)) pad pad_kwargs

/-- _transformations.py 76-149 `derivative_easting` -/
noncomputable def derivativeEasting (fill : Fill) (grid : Grid) (order : ℕ := 1)
    (method : Method := "finite-diff") (pad : Bool := true)
    (pad_kwargs : Option PadKwargs := none) : Option PadKwargs × Py Grid :=
  if method = "finite-diff" then
    (pad_kwargs, do
      let coordinate ← getDataarrayCoordinate grid 1
      differentiateTimes 1 coordinate order grid)
  else if method = "fft" then
    applyFilter fill grid (.ok (derivativeEastingKernel order)) pad pad_kwargs
  else (pad_kwargs, .error .ValueError)

/-- _transformations.py 152-225 `derivative_northing` -/
noncomputable def derivativeNorthing (fill : Fill) (grid : Grid) (order : ℕ := 1)
    (method : Method := "finite-diff") (pad : Bool := true)
    (pad_kwargs : Option PadKwargs := none) : Option PadKwargs × Py Grid :=
  if method = "finite-diff" then
    (pad_kwargs, do
      let coordinate ← getDataarrayCoordinate grid 0
      differentiateTimes 0 coordinate order grid)
  else if method = "fft" then
    applyFilter fill grid (.ok (derivativeNorthingKernel order)) pad pad_kwargs
  else (pad_kwargs, .error .ValueError)

/-- _transformations.py 228-283 `upward_continuation` -/
noncomputable def upwardContinuation (fill : Fill) (grid : Grid) (height_displacement : ℝ)
    (pad : Bool := true) (pad_kwargs : Option PadKwargs := none) : Option PadKwargs × Py Grid :=
  applyFilter fill grid (.ok (upwardContinuationKernel height_displacement)) pad pad_kwargs
    (drop_coords := true)

/-- _transformations.py 286-334 `gaussian_lowpass` -/
noncomputable def gaussianLowpass (fill : Fill) (grid : Grid) (wavelength : ℝ)
    (pad : Bool := true) (pad_kwargs : Option PadKwargs := none) : Option PadKwargs × Py Grid :=
  applyFilter fill grid (gaussianLowpassKernel wavelength) pad pad_kwargs

/-- _transformations.py 337-385 `gaussian_highpass` -/
noncomputable def gaussianHighpass (fill : Fill) (grid : Grid) (wavelength : ℝ)
    (pad : Bool := true) (pad_kwargs : Option PadKwargs := none) : Option PadKwargs × Py Grid :=
  applyFilter fill grid (gaussianHighpassKernel wavelength) pad pad_kwargs

/-- _transformations.py 388-461 `reduction_to_pole` -/
noncomputable def reductionToPole (fill : Fill) (grid : Grid) (inclination declination : ℝ)
    (magnetization_inclination magnetization_declination : Option ℝ := none)
    (pad : Bool := true) (pad_kwargs : Option PadKwargs := none) : Option PadKwargs × Py Grid :=
  applyFilter fill grid (reductionToPoleKernel (some inclination) (some declination)
    magnetization_inclination magnetization_declination) pad pad_kwargs

/-- Elementwise operation on three grids with the same coordinates; the result has the coordinates of
the first one. _transformations.py 523, 587-588. -/
def zip3 (f : ℝ → ℝ → ℝ → ℝ) (a b c : Grid) : Grid :=
  { a with
    data := fun idx => (a.data idx).bind fun x => (b.data idx).bind fun y =>
      (c.data idx).map fun z => f x y z }

/-- _transformations.py 514-521 (and 583-586): the three derivatives of a grid. -/
noncomputable def gradient (fill : Fill) (grid : Grid) (pad : Bool) (kw : Option PadKwargs) :
    Option PadKwargs × Py (Grid × Grid × Grid) :=
  match gridSanityChecks grid with
  | .error e => (kw, .error e)
  | .ok _ =>
    let e := derivativeEasting fill grid 1 (pad := pad) (pad_kwargs := kw)
    match e.2 with
    | .error err => (e.1, .error err)
    | .ok deriv_east =>
      let n := derivativeNorthing fill grid 1 (pad := pad) (pad_kwargs := e.1)
      match n.2 with
      | .error err => (n.1, .error err)
      | .ok deriv_north =>
        let u := derivativeUpward fill grid 1 (pad := pad) (pad_kwargs := n.1)
        match u.2 with
        | .error err => (u.1, .error err)
        | .ok deriv_up => (u.1, .ok (deriv_east, deriv_north, deriv_up))

/-- _transformations.py 464-523 `total_gradient_amplitude` -/
noncomputable def totalGradientAmplitude (fill : Fill) (grid : Grid) (pad : Bool := true)
    (kw : Option PadKwargs := none) : Option PadKwargs × Py Grid :=
  let r := gradient fill grid pad kw
  (r.1, r.2.map fun g => zip3 (fun e n u => Real.sqrt (e ^ 2 + n ^ 2 + u ^ 2)) g.1 g.2.1 g.2.2)

/-- _transformations.py 526-589 `tilt_angle` -/
noncomputable def tiltAngle (fill : Fill) (grid : Grid) (pad : Bool := true)
    (kw : Option PadKwargs := none) : Option PadKwargs × Py Grid :=
  let r := gradient fill grid pad kw
  (r.1, r.2.map fun g => zip3 (fun e n u =>
    let horiz_deriv := Real.sqrt (e ^ 2 + n ^ 2)
    arctan2 u horiz_deriv) g.1 g.2.1 g.2.2)

end Verif.Filters
