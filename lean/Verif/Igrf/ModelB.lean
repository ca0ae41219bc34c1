import Verif.Igrf.Model

/-!
Model of `IGRF14.grid` (igrf.py 387-530) as the user calls it: region, shape, spacing, adjust and height; the
result is a dataset with its attributes. `bd.grid_coordinates` (bordado) is a parameter. Also parameters: the
ISO format of a date, the name of the ellipsoid and the version of the library.
-/

namespace Verif.Igrf

open Verif.Legendre Verif.Engine

noncomputable section

/-- The arguments of `grid`. The region is (west, east, south, north); a shape or a spacing has the south-north
value first. A spacing that is one number is the pair of that number twice. igrf.py 387. -/
structure GridArgs where
  region : ℝ × ℝ × ℝ × ℝ
  shape : Option (ℕ × ℕ) := none
  spacing : Option (ℝ × ℝ) := none
  adjust : String := "spacing"

/-- Value of an attribute: a string, or a pair of numbers. igrf.py 481-529. -/
inductive Attr where
  | str (s : String)
  | range (a b : ℝ)

/-- Attributes in the order in which they are set. igrf.py 481-529. -/
abbrev Attrs := List (String × Attr)

/-- A variable or coordinate with its attributes; `dims` are its dimensions. igrf.py 474-529. -/
structure Var (α : Type) where
  name : String
  dims : List String
  values : α
  attrs : Attrs

/-- The dataset that `grid` returns. igrf.py 474-530. -/
structure GridDataset where
  latitude : Var (List ℝ)
  longitude : Var (List ℝ)
  height : Var (ℕ → ℕ → ℝ)
  vars : List (Var (ℕ → ℕ → ℝ))
  attrs : Attrs

/-- What the attributes mention. igrf.py 276-279, 481-495. -/
structure Names where
  isoformat : Date → String
  ellipsoid : String
  version : String
  doi : String

/-- `x.min()` of a list that is not empty. igrf.py 500, 507. -/
def minimum (l : List ℝ) : ℝ := l.foldl min (l.headD 0)

/-- `x.max()` of a list that is not empty. igrf.py 501, 508. -/
def maximum (l : List ℝ) : ℝ := l.foldl max (l.headD 0)

/-- igrf.py 513-529: the attributes of one component. -/
def componentAttrs (names : Names) (date : Date) (direction : String) : Attrs :=
  [("units", .str "nT"), ("long_name", .str (direction ++ " component")),
   ("description", .str (direction ++ " component of the magnetic field vector calculated on " ++
     names.isoformat date))]

/-- igrf.py 474-529: the dataset. The minimum and maximum of the matrices of coordinates are those of the
nodes. Simplification: the checks of `vd.make_xarray_grid`, which the nodes of a regular grid pass. -/
def makeDataset (names : Names) (date : Date) (x : Grid) (b : ℕ → ℕ → V3) : GridDataset where
  latitude := ⟨"latitude", ["latitude"], x.latitude,
    [("long_name", .str "latitude"), ("standard_name", .str "latitude"), ("units", .str "degrees_north"),
     ("actual_range", .range (minimum x.latitude) (maximum x.latitude))]⟩
  longitude := ⟨"longitude", ["longitude"], x.longitude,
    [("long_name", .str "longitude"), ("standard_name", .str "longitude"), ("units", .str "degrees_east"),
     ("actual_range", .range (minimum x.longitude) (maximum x.longitude))]⟩
  height := ⟨"height", ["latitude", "longitude"], x.height,
    [("long_name", .str "geometric height"), ("standard_name", .str "height_above_reference_ellipsoid"),
     ("units", .str "m")]⟩
  vars :=
    [⟨"b_east", ["latitude", "longitude"], fun i j => (b i j).1, componentAttrs names date "Eastward"⟩,
     ⟨"b_north", ["latitude", "longitude"], fun i j => (b i j).2.1, componentAttrs names date "Northward"⟩,
     ⟨"b_up", ["latitude", "longitude"], fun i j => (b i j).2.2, componentAttrs names date "Upward"⟩]
  attrs :=
    [("Conventions", .str "CF-1.8"), ("title", .str ("IGRF14 magnetic field on " ++ names.isoformat date)),
     ("crs", .str names.ellipsoid),
     ("source", .str ("Generated by spherical harmonic synthesis using library " ++
       "Harmonica (fatiando.org/harmonica) version " ++ names.version ++ ".")),
     ("description", .str ("Three components of the magnetic field vector " ++ "calculated on " ++
       names.isoformat date ++ " in a geodetic coordinate system.")),
     ("units", .str "nT"), ("date", .str (names.isoformat date)),
     ("references", .str ("https://doi.org/" ++ names.doi))]

/-- igrf.py 439-440: the spacing when there is neither a shape nor a spacing. -/
def GridArgs.complete (args : GridArgs) (max_degree : ℕ) : GridArgs :=
  if args.spacing = none ∧ args.shape = none then
    { args with spacing := some (calculateIdealSpacing max_degree, calculateIdealSpacing max_degree) }
  else args

/-- igrf.py 387-530 `grid`. `H` is the type of the argument `height`. The nodes are computed before the
coefficients are read. -/
def gridCall {H : Type} (gridCoordinates : GridArgs → H → Py Grid) (names : Names) (mode mode' : Mode)
    (junk : Junk) (load : Py Table) (self : Igrf) (cache : Cache) (args : GridArgs) (height : H) :
    Py GridDataset × Cache :=
  match gridCoordinates (args.complete self.max_degree) height with
  | .error e => (.error e, cache)
  | .ok x =>
    let r := grid mode mode' junk load self cache x
    (r.1.map (makeDataset names self.date x), r.2)

end

end Verif.Igrf
