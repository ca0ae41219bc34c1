import Verif.Basic
import Mathlib.Data.List.Infix

/-!
Model of src/harmonica/_io/icgem_gdf.py.

A file is the list of its lines and a string the list of its characters. The functions `int` and
`float` of Python are parameters (`none` is ValueError); floats are exact reals, so infinities and NaN
are not modelled. `np.loadtxt` is modelled here (it is not in /repo): comments start with `#`, columns
are separated by white space, blank lines are skipped. Of its keyword arguments only `usecols` (a list
of integers) is modelled. Not modelled: opening and closing the file, the texts of the messages.
-/

namespace Verif.Icgem

/-- Strings of icgem_gdf.py 108-121. -/
abbrev Str := List Char

/-! ### strings -/

/-- `str.isspace` for one character. icgem_gdf.py 109-121. -/
def isSpace (c : Char) : Bool :=
  let n := c.toNat
  (9 ≤ n && n ≤ 13) || (28 ≤ n && n ≤ 32) || n == 0x85 || n == 0xA0 || n == 0x1680 ||
  (0x2000 ≤ n && n ≤ 0x200A) || n == 0x2028 || n == 0x2029 || n == 0x202F || n == 0x205F || n == 0x3000

/-- `str.split()`; `cur` is the word being read. icgem_gdf.py 115-121. -/
def splitAux : Str → Str → List Str
  | cur, [] => if cur = [] then [] else [cur]
  | cur, c :: t =>
    if isSpace c then (if cur = [] then splitAux [] t else cur :: splitAux [] t)
    else splitAux (cur ++ [c]) t

/-- `str.split()`: icgem_gdf.py 61, 115-121, 152. -/
def split (s : Str) : List Str := splitAux [] s

/-- `str.strip()`. icgem_gdf.py 109-121, 166. -/
def strip (s : Str) : Str := ((s.dropWhile isSpace).reverse.dropWhile isSpace).reverse

/-- `" ".join(parts)`. icgem_gdf.py 66-67, 116. -/
def join : List Str → Str
  | [] => []
  | [p] => p
  | p :: ps => p ++ ' ' :: join ps

/-! ### dictionaries, in the order of insertion -/

/-- The dictionary `metadata` of icgem_gdf.py 105-133. -/
abbrev Dict (V : Type) := List (Str × V)

/-- `metadata[key]`: icgem_gdf.py 46-75. -/
def Dict.get? {V : Type} (d : Dict V) (k : Str) : Option V :=
  match d with
  | [] => none
  | (k', v) :: rest => if k' = k then some v else Dict.get? rest k

/-- `metadata[key] = v`: icgem_gdf.py 116-121, 152, 165. -/
def Dict.set {V : Type} (d : Dict V) (k : Str) (v : V) : Dict V :=
  match d with
  | [] => [(k, v)]
  | (k', v') :: rest => if k' = k then (k', v) :: rest else (k', v') :: Dict.set rest k v

/-- Values of the metadata: strings or lists of strings. icgem_gdf.py 116-121. -/
inductive Val where
  | str (s : Str)
  | list (l : List Str)

/-- Elements when iterated (the characters of a string). icgem_gdf.py 47, 66-67, 127, 165-168. -/
def Val.elems : Val → List Str
  | .str s => s.map fun c => [c]
  | .list l => l

/-- `x in v` (substrings of a string). icgem_gdf.py 170. -/
def Val.contains (v : Val) (x : Str) : Bool :=
  match v with
  | .str s => decide (x <:+: s)
  | .list l => decide (x ∈ l)

/-- `l[i]` with negative indices; the exception depends on the caller. icgem_gdf.py 127. -/
def pyIndex {α : Type} (l : List α) (i : ℤ) (e : PyErr) : Py α :=
  let j := if i < 0 then i + l.length else i
  if j < 0 then .error e
  else match l[j.toNat]? with
    | some x => .ok x
    | none => .error e

/-! ### header -/

/-- icgem_gdf.py 109. -/
def endOfHead : Str := "end_of_head".toList
/-- icgem_gdf.py 118. -/
def kAttributes : Str := "attributes".toList
/-- icgem_gdf.py 121. -/
def kUnits : Str := "attributes_units".toList

/-- The variables of the loop at icgem_gdf.py 105-107. -/
structure State where
  metadata : Dict Val
  metadata_line : Bool
  attributes_units_line : Bool

/-- icgem_gdf.py 108-121: the loop over the lines; the metadata and the lines that were not read. -/
def headerLoop : List Str → State → Dict Val × List Str
  | [], s => (s.metadata, [])
  | line :: rest, s =>
    if (strip line).take 11 = endOfHead then (s.metadata, rest)
    else if strip line = [] then headerLoop rest { s with metadata_line := false }
    else if s.metadata_line then
      match split (strip line) with
      | [] => headerLoop rest s -- not reached: the line has a word
      | key :: parts =>
        headerLoop rest { s with metadata := s.metadata.set key (.str (join parts)) }
    else if !s.attributes_units_line then
      headerLoop rest { s with
        metadata := s.metadata.set kAttributes (.list (split (strip line)))
        attributes_units_line := true }
    else
      headerLoop rest { s with
        metadata := s.metadata.set kUnits (.list (split (strip line))) }

/-! ### numpy.loadtxt -/

/-- The words of a line that `usecols` selects. `usecols` of np.loadtxt, icgem_gdf.py 123. -/
def selectCols (usecols : Option (List ℤ)) (words : List Str) : Py (List Str) :=
  match usecols with
  | none => .ok words
  | some us => us.mapM fun i => pyIndex words i .ValueError

/-- One value. np.loadtxt, icgem_gdf.py 123. -/
def parseWord (toFloat : Str → Option ℝ) (w : Str) : Py ℝ :=
  match toFloat w with
  | some x => .ok x
  | none => .error .ValueError

/-- One line that is not blank. np.loadtxt, icgem_gdf.py 123. -/
def parseRow (toFloat : Str → Option ℝ) (usecols : Option (List ℤ)) (words : List Str) :
    Py (List ℝ) := do
  let ws ← selectCols usecols words
  ws.mapM (parseWord toFloat)

/-- From rows to columns: all the rows must have the same number of columns. Without data there are no
rows (of one column, or of the selected ones). np.loadtxt with `unpack=True`, icgem_gdf.py 123. -/
def toColumns (usecols : Option (List ℤ)) (rows : List (List ℝ)) : Py (List (List ℝ)) :=
  match rows with
  | [] => .ok (List.replicate (match usecols with | none => 1 | some us => us.length) [])
  | first :: _ =>
    if rows.all (fun r => r.length = first.length) then
      .ok ((List.range first.length).map fun (c : ℕ) => rows.map fun r => r.getD c 0)
    else .error .ValueError

/-- `np.loadtxt(gdf_file, ndmin=2, unpack=True, usecols=usecols)`: the list of columns.
icgem_gdf.py 123. -/
def loadtxt (toFloat : Str → Option ℝ) (lines : List Str) (usecols : Option (List ℤ)) :
    Py (List (List ℝ)) := do
  let words := (lines.map fun l => split (l.takeWhile (· ≠ '#'))).filter (· ≠ [])
  let rows ← words.mapM (parseRow toFloat usecols)
  toColumns usecols rows

/-! ### checks -/

/-- icgem_gdf.py 138-146 `needed_args` -/
def neededArgs : List Str :=
  ["latitude_parallels".toList, "longitude_parallels".toList, "number_of_gridpoints".toList,
   "latlimit_south".toList, "latlimit_north".toList, "longlimit_west".toList, "longlimit_east".toList]

/-- `value.split()[0]`. icgem_gdf.py 61, 152. -/
def firstWord (v : Val) : Py Str :=
  match v with
  | .list _ => .error .AttributeError
  | .str s =>
    match split s with
    | [] => .error .IndexError
    | w :: _ => .ok w

/-- icgem_gdf.py 148-152: the loop over the needed arguments. -/
def checkNeeded : List Str → Dict Val → Py (Dict Val)
  | [], metadata => .ok metadata
  | arg :: rest, metadata =>
    match metadata.get? arg with
    | none => .error .OSError
    | some v => do
      let w ← firstWord v
      checkNeeded rest (metadata.set arg (.str w))

/-- icgem_gdf.py 165-168: `attr.replace("[", "").replace("]", "").strip()` -/
def cleanUnit (u : Str) : Str := strip ((u.filter (· ≠ '[')).filter (· ≠ ']'))

/-- `int(metadata[key])`, a key that was checked before. icgem_gdf.py 46, 174-175. -/
def intOf (toInt : Str → Option ℤ) (metadata : Dict Val) (key : Str) : Py ℤ :=
  match metadata.get? key with
  | none => .error .KeyError
  | some (.list _) => .error .TypeError
  | some (.str s) =>
    match toInt s with
    | some n => .ok n
    | none => .error .ValueError

/-- `float(metadata[key])`. icgem_gdf.py 71-74. -/
def floatOf (toFloat : Str → Option ℝ) (metadata : Dict Val) (key : Str) : Py ℝ :=
  match metadata.get? key with
  | none => .error .KeyError
  | some (.list _) => .error .TypeError
  | some (.str s) =>
    match toFloat s with
    | some x => .ok x
    | none => .error .ValueError

/-- icgem_gdf.py 153-164: attributes and units. -/
def checkColumns (metadata : Dict Val) : Py (Val × Val) :=
  match metadata.get? kAttributes with
  | none => .error .OSError
  | some attributes =>
    match metadata.get? kUnits with
    | none => .error .OSError
    | some units =>
      if attributes.elems.length ≠ units.elems.length then .error .OSError
      else .ok (attributes, units)

/-- icgem_gdf.py 169-172: the columns of the coordinates. -/
def checkLatLon (attributes : Val) : Py Unit :=
  if !attributes.contains "latitude".toList then .error .OSError
  else if !attributes.contains "longitude".toList then .error .OSError
  else .ok ()

/-- icgem_gdf.py 174-178: the number of points. -/
def checkSize (toInt : Str → Option ℤ) (metadata : Dict Val) : Py Unit := do
  let n ← intOf toInt metadata "latitude_parallels".toList
  let m ← intOf toInt metadata "longitude_parallels".toList
  let size ← intOf toInt metadata "number_of_gridpoints".toList
  if n * m ≠ size then .error .OSError else .ok ()

/-- icgem_gdf.py 136-178 `_check_gdf_integrity`: the metadata after the call. -/
def checkGdfIntegrity (toInt : Str → Option ℤ) (metadata : Dict Val) : Py (Dict Val) := do
  let metadata ← checkNeeded neededArgs metadata
  let (attributes, units) ← checkColumns metadata
  let metadata := metadata.set kUnits (.list (units.elems.map cleanUnit))
  checkLatLon attributes
  checkSize toInt metadata
  return metadata

/-- icgem_gdf.py 126-127: the names of the columns that were read. -/
def selectNames (usecols : Option (List ℤ)) (metadata : Dict Val) : Py (Dict Val) :=
  match usecols with
  | none => .ok metadata
  | some us =>
    match metadata.get? kAttributes with
    | none => .error .KeyError
    | some attributes => do
      let names ← us.mapM fun i => pyIndex attributes.elems i .IndexError
      return metadata.set kAttributes (.list names)

/-- `metadata["attributes"]`, `metadata["attributes_units"]`, as a sequence.
icgem_gdf.py 47, 160, 166-168. -/
def elemsOf (metadata : Dict Val) (key : Str) : Py (List Str) :=
  match metadata.get? key with
  | none => .error .KeyError
  | some v => .ok v.elems

/-- icgem_gdf.py 128-132: names and columns. -/
def checkColumnCount (names : List Str) (rawdata : List (List ℝ)) : Py Unit :=
  if names.length ≠ rawdata.length then .error .OSError else .ok ()

/-- icgem_gdf.py 91-133 `_read_gdf_file` -/
def readGdfFile (toInt : Str → Option ℤ) (toFloat : Str → Option ℝ) (lines : List Str)
    (usecols : Option (List ℤ)) : Py (List (List ℝ) × Dict Val) := do
  let h := headerLoop lines ⟨[], true, false⟩
  let rawdata ← loadtxt toFloat h.2 usecols
  let metadata ← checkGdfIntegrity toInt h.1
  let metadata ← selectNames usecols metadata
  let names ← elemsOf metadata kAttributes
  checkColumnCount names rawdata
  return (rawdata, metadata)

/-! ### the grid -/

/-- The sizes of `array.reshape(shape)` for an array of `size` numbers: numpy works out one negative size
from the other. icgem_gdf.py 49-54. -/
def newShape (shape : ℤ × ℤ) (size : ℕ) : Py (ℕ × ℕ) :=
  if shape.1 < 0 then
    if shape.2 ≤ 0 ∨ size % shape.2.toNat ≠ 0 then .error .ValueError
    else .ok (size / shape.2.toNat, shape.2.toNat)
  else if shape.2 < 0 then
    if shape.1 ≤ 0 ∨ size % shape.1.toNat ≠ 0 then .error .ValueError
    else .ok (shape.1.toNat, size / shape.1.toNat)
  else if shape.1 * shape.2 ≠ size then .error .ValueError
  else .ok (shape.1.toNat, shape.2.toNat)

/-- `array.reshape(shape)`. icgem_gdf.py 49-54. -/
def reshape (shape : ℤ × ℤ) (l : List ℝ) : Py (List (List ℝ)) := do
  let (n, m) ← newShape shape l.length
  return (List.range n).map fun (i : ℕ) => (List.range m).map fun (j : ℕ) => l.getD (i * m + j) 0

/-- `a[0, :]`. icgem_gdf.py 49. -/
def firstRow (a : List (List ℝ)) : Py (List ℝ) :=
  match a with
  | [] => .error .IndexError
  | row :: _ => .ok row

/-- `a[:, 0]` for an array with rows (line 49 raises before when there are none). icgem_gdf.py 50. -/
def firstColumn (a : List (List ℝ)) : Py (List ℝ) :=
  a.mapM fun row => match row with
    | [] => .error .IndexError
    | x :: _ => .ok x

/-- `data[name]`. icgem_gdf.py 49-50. -/
def column (data : Dict (List ℝ)) (name : Str) : Py (List ℝ) :=
  match data.get? name with
  | none => .error .KeyError
  | some c => .ok c

/-- The returned dataset, icgem_gdf.py 68. -/
structure Dataset where
  data_vars : Dict (List (List ℝ))
  latitude : List ℝ
  longitude : List ℝ
  attrs : Dict Val

/-- icgem_gdf.py 53-57: the variables. -/
def dataVars (shape : ℤ × ℤ) : Dict (List ℝ) → Py (Dict (List (List ℝ)))
  | [] => .ok []
  | (name, value) :: rest =>
    if name = "latitude".toList ∨ name = "longitude".toList then dataVars shape rest
    else do
      let v ← reshape shape value
      let vs ← dataVars shape rest
      return (name, v.reverse) :: vs

/-- icgem_gdf.py 60-62: the constant height; `np.full` refuses negative sizes. -/
def addHeight (toFloat : Str → Option ℝ) (metadata : Dict Val) (shape : ℤ × ℤ)
    (vars : Dict (List (List ℝ))) : Py (Dict (List (List ℝ))) :=
  match metadata.get? "height_over_ell".toList with
  | none => .ok vars
  | some v => do
    let w ← firstWord v
    let height ← parseWord toFloat w
    if shape.1 < 0 ∨ shape.2 < 0 then throw .ValueError
    return vars.set "height_over_ell".toList
      (List.replicate shape.1.toNat (List.replicate shape.2.toNat height))

/-- `" ".join(metadata[key])` stored at the same key. icgem_gdf.py 66-67. -/
def joinAt (metadata : Dict Val) (key : Str) : Py (Dict Val) := do
  let l ← elemsOf metadata key
  return metadata.set key (.str (join l))

/-- `np.isclose`. icgem_gdf.py 82. -/
def isClose (a b : ℝ) : Prop := |a - b| ≤ 1e-8 + 1e-5 * |b|

/-- `min` and `max` of an array that is not empty. icgem_gdf.py 77-80. -/
noncomputable def minOf (l : List ℝ) : ℝ := l.foldl min (l.headD 0)
/-- `max` of an array that is not empty: icgem_gdf.py 77-80. -/
noncomputable def maxOf (l : List ℝ) : ℝ := l.foldl max (l.headD 0)

open Classical in
/-- icgem_gdf.py 70-87: the check of the area. -/
noncomputable def checkArea (toFloat : Str → Option ℝ) (grid : Dataset) : Py Unit := do
  let s ← floatOf toFloat grid.attrs "latlimit_south".toList
  let n ← floatOf toFloat grid.attrs "latlimit_north".toList
  let w ← floatOf toFloat grid.attrs "longlimit_west".toList
  let e ← floatOf toFloat grid.attrs "longlimit_east".toList
  if isClose s (minOf grid.latitude) ∧ isClose n (maxOf grid.latitude) ∧
      isClose w (minOf grid.longitude) ∧ isClose e (maxOf grid.longitude) then .ok ()
  else .error .OSError

/-- icgem_gdf.py 46-68: the dataset. -/
def buildDataset (toInt : Str → Option ℤ) (toFloat : Str → Option ℝ) (rawdata : List (List ℝ))
    (metadata : Dict Val) : Py Dataset := do
  let n ← intOf toInt metadata "latitude_parallels".toList
  let m ← intOf toInt metadata "longitude_parallels".toList
  let shape := (n, m)
  let names ← elemsOf metadata kAttributes
  let data : Dict (List ℝ) := (names.zip rawdata).foldl (fun d p => d.set p.1 p.2) []
  let lon ← column data "longitude".toList
  let lon ← reshape shape lon
  let longitude ← firstRow lon
  let lat ← column data "latitude".toList
  let lat ← reshape shape lat
  let lat ← firstColumn lat
  let data_vars ← dataVars shape data
  let data_vars ← addHeight toFloat metadata shape data_vars
  let metadata ← joinAt metadata kAttributes
  let metadata ← joinAt metadata kUnits
  return { data_vars, latitude := lat.reverse, longitude, attrs := metadata }

/-- icgem_gdf.py 18-88 `load_icgem_gdf` -/
noncomputable def loadIcgemGdf (toInt : Str → Option ℤ) (toFloat : Str → Option ℝ) (lines : List Str)
    (usecols : Option (List ℤ)) : Py Dataset := do
  let (rawdata, metadata) ← readGdfFile toInt toFloat lines usecols
  let grid ← buildDataset toInt toFloat rawdata metadata
  checkArea toFloat grid
  return grid

end Verif.Icgem
