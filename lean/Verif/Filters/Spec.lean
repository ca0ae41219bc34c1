import Verif.Filters.Model

/-!
Specifications for the grid transformations.
-/

namespace Verif.Filters

/-- Geometry of a regular grid: names of the dimensions, sizes, first coordinate and spacing on axis
0 (northing) and axis 1 (easting). -/
structure Geo where
  d0 : String
  d1 : String
  n : ℕ
  m : ℕ
  y0 : ℝ
  dy : ℝ
  x0 : ℝ
  dx : ℝ

/-- Northing of row `i`. -/
def Geo.northing (G : Geo) (i : ℕ) : ℝ := G.y0 + i * G.dy

/-- Easting of column `j`. -/
def Geo.easting (G : Geo) (j : ℕ) : ℝ := G.x0 + j * G.dx

/-- At least two rows and columns, distinct names. -/
structure Geo.Valid (G : Geo) : Prop where
  ne : G.d0 ≠ G.d1
  n2 : 2 ≤ G.n
  m2 : 2 ≤ G.m
  dy0 : G.dy ≠ 0
  dx0 : G.dx ≠ 0

/-- ... and both coordinates increase. -/
structure Geo.Increasing (G : Geo) : Prop extends G.Valid where
  dy : 0 < G.dy
  dx : 0 < G.dx

/-- `A` is a grid with geometry `G` and the values `v i j` (row, column). It may have any other
coordinates. -/
structure IsGrid (A : Grid) (G : Geo) (v : ℕ → ℕ → ℝ) : Prop where
  dims : A.dims = [G.d0, G.d1]
  sizes : A.sizes = [G.n, G.m]
  northing : A.coord G.d0 = some ⟨[G.d0], (List.range G.n).map G.northing⟩
  easting : A.coord G.d1 = some ⟨[G.d1], (List.range G.m).map G.easting⟩
  data : ∀ i < G.n, ∀ j < G.m, A.data [i, j] = some (v i j)

/-- The widths in the dictionary of the caller, if any, are for dimensions of the grid. -/
def WidthsFor (G : Geo) (kw : Option PadKwargs) : Prop :=
  ∀ k ∈ kw, ∀ w ∈ k.pad_width.getD [], w.1 = G.d0 ∨ w.1 = G.d1

/-- The values that `np.pad` writes are linear in the values of the array (true of the modes edge,
reflect, symmetric, wrap, mean, and constant and linear_ramp with zero; not of median, maximum,
minimum). -/
def LinearFill (fill : Fill) : Prop :=
  ∀ mode c wy wx (n m : ℕ) (y x : List ℝ) (v w : ℕ → ℕ → ℝ) (a b : ℝ) i j,
    fill mode c wy wx ⟨n, m, y, x, fun i j => a * v i j + b * w i j⟩ i j =
      a * fill mode c wy wx ⟨n, m, y, x, v⟩ i j + b * fill mode c wy wx ⟨n, m, y, x, w⟩ i j

/-- Padding of mode "edge": the closest element. -/
def edgeFill : Fill := fun _ _ wy wx g i j =>
  g.val (min (i - wy.1) (g.n - 1)) (min (j - wx.1) (g.m - 1))

/-- A harmonic with amplitude and phase `a` and frequencies `fe`, `fn`, at height `z` above the
level where its amplitude is `|a|`: it satisfies Laplace's equation and decays upwards. -/
noncomputable def harmonic (a : ℂ) (fe fn : ℝ) (easting northing z : ℝ) : ℝ :=
  (a * Complex.exp (2 * Real.pi * Complex.I * (fe * easting + fn * northing))).re *
    Real.exp (-(2 * Real.pi * Real.sqrt (fe ^ 2 + fn ^ 2)) * z)

/-- Same coordinates (besides the dimensional ones) -/
def SameExtraCoords (A B : Grid) : Prop :=
  ∀ name, name ∉ A.dims → B.coord name = A.coord name

/-- Same grid for the user: names, sizes, coordinates and values. -/
structure SameGrid (A B : Grid) : Prop where
  dims : B.dims = A.dims
  sizes : B.sizes = A.sizes
  coords : ∀ name, B.coord name = A.coord name
  data : ∀ idx, InRange idx A.sizes → B.data idx = A.data idx

/-- The factor Θ of a unit vector with the given inclination and declination in degrees at the
frequencies `fe`, `fn` (Blakely 1995): sin I + i cos I (sin D fe + cos D fn) / |f|. -/
noncomputable def theta (inclination declination fe fn : ℝ) : ℂ :=
  Real.sin (inclination * Real.pi / 180) + Complex.I * (Real.cos (inclination * Real.pi / 180) *
    (Real.sin (declination * Real.pi / 180) * fe + Real.cos (declination * Real.pi / 180) * fn) /
      Real.sqrt (fe ^ 2 + fn ^ 2) : ℝ)

/-- The public transformations with their arguments (besides grid, `pad` and `pad_kwargs`). -/
inductive Transformation where
  | derivativeUpward (order : ℕ)
  | derivativeEasting (order : ℕ) (method : String)
  | derivativeNorthing (order : ℕ) (method : String)
  | upwardContinuation (height : ℝ)
  | gaussianLowpass (wavelength : ℝ)
  | gaussianHighpass (wavelength : ℝ)
  | reductionToPole (inclination declination : ℝ)
      (magnetization_inclination magnetization_declination : Option ℝ)
  | totalGradientAmplitude
  | tiltAngle

/-- A call: the dictionary of the caller after the call, and the result. -/
noncomputable def Transformation.call (fill : Fill) (grid : Grid) (pad : Bool)
    (kw : Option PadKwargs) : Transformation → Option PadKwargs × Py Grid
  | .derivativeUpward order => Filters.derivativeUpward fill grid order pad kw
  | .derivativeEasting order method => Filters.derivativeEasting fill grid order method pad kw
  | .derivativeNorthing order method => Filters.derivativeNorthing fill grid order method pad kw
  | .upwardContinuation height => Filters.upwardContinuation fill grid height pad kw
  | .gaussianLowpass wavelength => Filters.gaussianLowpass fill grid wavelength pad kw
  | .gaussianHighpass wavelength => Filters.gaussianHighpass fill grid wavelength pad kw
  | .reductionToPole i d mi md => Filters.reductionToPole fill grid i d mi md pad kw
  | .totalGradientAmplitude => Filters.totalGradientAmplitude fill grid pad kw
  | .tiltAngle => Filters.tiltAngle fill grid pad kw

/-- The transformation uses the FFT: all but the horizontal derivatives with finite differences. -/
def Transformation.UsesFFT : Transformation → Prop
  | .derivativeEasting _ method => method = "fft"
  | .derivativeNorthing _ method => method = "fft"
  | _ => True

/-- A sequence of calls that share a dictionary: its content at the end. -/
noncomputable def dictionaryAfter (fill : Fill) (kw : Option PadKwargs) :
    List (Transformation × Grid × Bool) → Option PadKwargs
  | [] => kw
  | (t, grid, pad) :: rest => dictionaryAfter fill (t.call fill grid pad kw).1 rest

/-- The dictionary has the three keys that the transformations look for. -/
def AllKeys (kw : PadKwargs) : Prop :=
  kw.pad_width ≠ none ∧ kw.mode ≠ none ∧ kw.constant_values ≠ none

/-- A two dimensional grid with coordinates `y` (axis 0) and `x` (axis 1), evenly spaced or not, and no
other coordinate along a single dimension. -/
structure IsGridXY (A : Grid) (d0 d1 : String) (n m : ℕ) (y x : ℕ → ℝ) (v : ℕ → ℕ → ℝ) : Prop where
  dims : A.dims = [d0, d1]
  sizes : A.sizes = [n, m]
  northing : A.coords.filter (fun c => c.2.dims = [d0]) = [(d0, ⟨[d0], (List.range n).map y⟩)]
  easting : A.coords.filter (fun c => c.2.dims = [d1]) = [(d1, ⟨[d1], (List.range m).map x⟩)]
  data : ∀ i < n, ∀ j < m, A.data [i, j] = some (v i j)

/-- The first `n` coordinates are distinct. -/
def Distinct (n : ℕ) (x : ℕ → ℝ) : Prop := ∀ i < n, ∀ j < n, x i = x j → i = j

end Verif.Filters
