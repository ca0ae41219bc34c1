import Verif.EqSources.Model
import Verif.Utils.Model

/-!
Model of the methods `grid`, `profile` and `scatter` of the equivalent sources:
src/harmonica/_equivalent_sources/cartesian.py 417-631, spherical.py 284-409 and utils.py 42-51.
`EquivalentSourcesGB` inherits the Cartesian ones.

The methods of the parent class `verde.base.BaseGridder` and `verde.profile_coordinates` are external; they are
modelled by what they do (version 1.8) with the arguments these methods give them. A projection acts on
every point apart (as the functions of pyproj do). Two things of verde are left out: the text written to
the attributes of the outputs, and columns of a table that have the same name.
-/

namespace Verif.EqSources
open Verif.Forward Verif.Engine Verif.Distance Verif.Layers Verif.Utils

noncomputable section

/-- The categories of the warnings: `FutureWarning` of cartesian.py 499-506 and spherical.py 353-360, and
`UserWarning` of _equivalent_sources/utils.py 47-50. -/
inductive Warn where
  | futureWarning
  | userWarning
  deriving DecidableEq

/-- A call that can warn: the warnings it emits, and its outcome. cartesian.py 499-506. -/
abbrev Warns (α : Type) := List Warn × Py α

/-- `xarray.Dataset` returned by `grid` (cartesian.py 509-514, spherical.py 365-370): names of the dimensions (northing, easting), their
coordinates, the extra coordinate and the data variable. -/
structure Dataset where
  dims : String × String
  northing : List ℝ
  easting : List ℝ
  extra_name : String
  extra : NdArray
  data_name : String
  data : NdArray

/-- `np.meshgrid(easting, northing)` by verde for 1d arrays; 2d arrays stay. All the arrays must then have the
same shape. Called by cartesian.py 509-514 and spherical.py 365-370. -/
def meshgrid (c : Coords) : Py Coords :=
  match c.1.shape, c.2.1.shape with
  | [ne], [nn] =>
    if c.2.2.shape = [nn, ne] then
      .ok (⟨c.1.dtype, [nn, ne], c.2.1.data.flatMap fun _ => c.1.data⟩,
        ⟨c.2.1.dtype, [nn, ne], c.2.1.data.flatMap fun n => List.replicate ne n⟩, c.2.2)
    else .error .ValueError
  | [nn, ne], [nn', ne'] =>
    if nn = nn' ∧ ne = ne' ∧ c.2.2.shape = [nn, ne] then .ok c else .error .ValueError
  | _, _ => .error .ValueError

/-- `verde.base.utils` projection of the two first coordinates; the extra one stays.
The argument `projection` of cartesian.py 417-424, 510-516. -/
def projectCoordinates (projection : ℝ → ℝ → ℝ × ℝ) (c : Coords) : Coords :=
  (⟨.float64, c.1.shape, List.zipWith (fun e n => (projection e n).1) c.1.data c.2.1.data⟩,
   ⟨.float64, c.2.1.shape, List.zipWith (fun e n => (projection e n).2) c.1.data c.2.1.data⟩, c.2.2)

/-- The names of the data variables: one scalar field. The argument `data_names` of cartesian.py 417-424, 536-546. -/
def dataName : Option (List String) → Py String
  | none => .ok "scalars"
  | some [name] => .ok name
  | some _ => .error .ValueError

/-- The 1d coordinates of a meshgrid: the first row of the eastings and the first column of the northings;
ValueError if the others differ (`close` is the test of verde, `np.allclose`). IndexError for no rows or columns.
Called by cartesian.py 509-514 and spherical.py 365-370. -/
def meshgridTo1d (close : ℝ → ℝ → Prop) (c : Coords) : Py (List ℝ × List ℝ) :=
  match c.1.shape with
  | [nn, ne] =>
    if nn = 0 ∨ ne = 0 then .error .IndexError
    else
      let easting := c.1.data.take ne
      let northing := (List.range nn).map fun i => (c.2.1.data[i * ne]?).getD 0
      open Classical in
      if (∀ i < nn, ∀ j < ne, ∀ x ∈ easting[j]?, ∀ y ∈ c.1.data[i * ne + j]?, close x y) ∧
          (∀ i < nn, ∀ j < ne, ∀ x ∈ northing[i]?, ∀ y ∈ c.2.1.data[i * ne + j]?, close x y) then
        .ok (easting, northing)
      else .error .ValueError
  | _ => .error .ValueError

/-- `BaseGridder.grid(coordinates=.., dims=.., data_names=.., projection=..)` of verde for a class with the
given `predict`, `dims` and `extra_coords_name`. Called by cartesian.py 509-514 and spherical.py 365-370. -/
def baseGrid (close : ℝ → ℝ → Prop) (predict : Coords → Py NdArray) (class_dims : String × String)
    (extra_coords_name : String) (coordinates : Coords) (dims : Option (String × String))
    (data_names : Option (List String)) (projection : Option (ℝ → ℝ → ℝ × ℝ)) : Py Dataset := do
  let c ← meshgrid coordinates
  let data ← match projection with
    | none => predict c
    | some f => predict (projectCoordinates f c)
  let name ← dataName data_names
  let horizontal ← meshgridTo1d close c
  return { dims := dims.getD class_dims, northing := horizontal.2, easting := horizontal.1,
           extra_name := extra_coords_name, extra := ⟨c.2.2.shape, c.2.2.data⟩, data_name := name, data := data }

/-- The arguments that `grid` used to take: cartesian.py 484-489, spherical.py 338-343. -/
def deprecatedArgs : List String := ["upward", "shape", "region", "spacing"]

/-- `EquivalentSources.grid`, cartesian.py 417-515. `kwargs` are the names of the extra keyword arguments. -/
def grid (close : ℝ → ℝ → Prop) (junk : Junk) (mode : Mode) (P : Params) (s : State) (coordinates : Coords)
    (dims : Option (String × String)) (data_names : Option (List String))
    (projection : Option (ℝ → ℝ → ℝ × ℝ)) (kwargs : List String) : Warns Dataset :=
  if deprecatedArgs.any (fun a => kwargs.contains a) then ([], .error .ValueError)
  else
    (if kwargs.isEmpty then [] else [.futureWarning],
      baseGrid close (fun c => predict junk mode P c s) ("northing", "easting") "upward" coordinates dims
        data_names projection)

/-- `EquivalentSourcesSph.grid`, spherical.py 284-371: never projects. -/
def gridSph (close : ℝ → ℝ → Prop) (junk : Junk) (mode : Mode) (s : State) (coordinates : Coords)
    (dims : Option (String × String)) (data_names : Option (List String)) (kwargs : List String) :
    Warns Dataset :=
  if deprecatedArgs.any (fun a => kwargs.contains a) then ([], .error .ValueError)
  else
    (if kwargs.isEmpty then [] else [.futureWarning],
      baseGrid close (fun c => predictSph junk mode c s) ("spherical_latitude", "longitude") "radius"
        coordinates dims data_names none)

/-- `scatter` of the three classes, cartesian.py 517-534 and spherical.py 373-390. -/
def scatter {α : Type} : Py α := .error .NotImplementedError

/-- `EquivalentSourcesSph.profile`, spherical.py 392-409. -/
def profileSph {α : Type} : Py α := .error .NotImplementedError

/-- `verde.profile_coordinates(point1, point2, size, extra_coords=upward)`: coordinates and distances.
Called through verde by cartesian.py 621-630. -/
def profileCoordinates (point1 point2 : ℝ × ℝ) (size : ℤ) (upward : ℝ) : Py (Arrs × List ℝ) :=
  if size ≤ 0 then .error .ValueError
  else
    let separation := √((point2.1 - point1.1) ^ 2 + (point2.2 - point1.2) ^ 2)
    -- `np.linspace(0, separation, size)`; for a size of 1, only 0 (in the model 0 times a division by zero)
    let distances := (List.range size.toNat).map fun (i : ℕ) => i * (separation / (size - 1 : ℤ))
    let angle := arctan2 (point2.2 - point1.2) (point2.1 - point1.1)
    .ok ((distances.map fun d => point1.1 + d * Real.cos angle,
      distances.map fun d => point1.2 + d * Real.sin angle,
      distances.map fun _ => upward), distances)

/-- `pandas.DataFrame` returned by `profile` (cartesian.py 621-630): names and values of the columns, in order. -/
abbrev Table := List (String × List ℝ)

/-- `BaseGridder.profile(..)` of verde; a keyword argument other than `extra_coords` is a TypeError of
`profile_coordinates`. `projection true` is the inverse projection. Called at cartesian.py 621-630. -/
def baseProfile (predict : Coords → Py NdArray) (class_dims : String × String) (extra_coords_name : String)
    (point1 point2 : ℝ × ℝ) (size : ℤ) (dims : Option (String × String)) (data_names : Option (List String))
    (projection : Option (Bool → ℝ → ℝ → ℝ × ℝ)) (upward : ℝ) (kwargs : List String) : Py Table := do
  let project := match projection with
    | none => fun p => p
    | some f => fun (p : ℝ × ℝ) => f false p.1 p.2
  if kwargs ≠ [] then throw .TypeError
  let (c, distances) ← profileCoordinates (project point1) (project point2) size upward
  let n := distances.length
  let data ← predict (⟨.float64, [n], c.1⟩, ⟨.float64, [n], c.2.1⟩, ⟨.float64, [n], c.2.2⟩)
  let name ← dataName data_names
  let dims := dims.getD class_dims
  let (easting, northing) := match projection with
    | none => (c.1, c.2.1)
    | some f => (List.zipWith (fun e n => (f true e n).1) c.1 c.2.1,
        List.zipWith (fun e n => (f true e n).2) c.1 c.2.1)
  return [(dims.1, northing), (dims.2, easting), ("distance", distances), (extra_coords_name, c.2.2),
    (name, data.data)]

/-- `pop_extra_coords`, _equivalent_sources/utils.py 42-51: the warnings and the remaining arguments. -/
def popExtraCoords (kwargs : List String) : List Warn × List String :=
  if kwargs.contains "extra_coords" then ([.userWarning], kwargs.filter (· ≠ "extra_coords"))
  else ([], kwargs)

/-- `EquivalentSources.profile`, cartesian.py 536-631. `kwargs` are the names of the extra keyword arguments (all
different). -/
def profile (junk : Junk) (mode : Mode) (P : Params) (s : State) (point1 point2 : ℝ × ℝ) (upward : ℝ)
    (size : ℤ) (dims : Option (String × String)) (data_names : Option (List String))
    (projection : Option (Bool → ℝ → ℝ → ℝ × ℝ)) (kwargs : List String) : Warns Table :=
  let (warnings, kwargs) := popExtraCoords kwargs
  (warnings, baseProfile (fun c => predict junk mode P c s) ("northing", "easting") "upward" point1 point2
    size dims data_names projection upward kwargs)

end

end Verif.EqSources
