import Verif.Basic
import Mathlib.Data.UInt
import Mathlib.Analysis.SpecialFunctions.Pow.Real

/-!
Model of src/harmonica/_io/oasis_montaj_grd.py.

A file is the list of its bytes. `array.array` reads native integers and floats: a little endian machine
with 4 byte `i`, `I`, `f` and 8 byte `q`, `d` is assumed. Floating point numbers are the numbers of
IEEE 754 given by their bits: a real number, an infinity or NaN; arithmetic on them is exact (no
rounding, no overflow, no sign of zero). `zlib.decompress` is a parameter.

Not modelled: opening the file, the texts of the messages.
-/

namespace Verif.Oasis

/-- The content of the file, oasis_montaj_grd.py 81-90. -/
abbrev Bytes := List UInt8

/-! ### numbers in bytes -/

/-- Little endian number. `array.array` at oasis_montaj_grd.py 170-206. -/
def ofLE : Bytes → ℕ
  | [] => 0
  | b :: t => b.toNat + 256 * ofLE t

/-- Two's complement of `k` bytes. `array.array` at oasis_montaj_grd.py 170-206. -/
def signed (k n : ℕ) : ℤ := if 2 * n < 256 ^ k then n else (n : ℤ) - 256 ^ k

/-- A floating point number. float64 values of oasis_montaj_grd.py 95-140. -/
inductive Num where
  | fin (x : ℝ)
  | inf (negative : Bool)
  | nan

/-- IEEE 754: `ew` bits of exponent and `mw` bits of mantissa.
`array.array("f")` and `("d")` at oasis_montaj_grd.py 95, 147-222. -/
noncomputable def ieee (ew mw n : ℕ) : Num :=
  let negative : Bool := n / 2 ^ (ew + mw) % 2 = 1
  let e := n / 2 ^ mw % 2 ^ ew
  let m := n % 2 ^ mw
  let bias : ℤ := 2 ^ (ew - 1) - 1
  let sign : ℝ := if negative then -1 else 1
  if e = 2 ^ ew - 1 then (if m = 0 then .inf negative else .nan)
  else if e = 0 then .fin (sign * m * (2 : ℝ) ^ (1 - bias - mw))
  else .fin (sign * (2 ^ mw + m) * (2 : ℝ) ^ (e - bias - mw))

/-- `array.array` splits the bytes in items; ValueError if the length is not a multiple of the size
of the items. oasis_montaj_grd.py 95, 147-222. -/
def items (size : ℕ) (b : Bytes) : Py (List Bytes) :=
  if b.length % size ≠ 0 then .error .ValueError
  else .ok ((List.range (b.length / size)).map fun i => (b.drop (i * size)).take size)

/-- `array.array("i", b)`: oasis_montaj_grd.py 170-206. -/
def arrayI (b : Bytes) : Py (List ℤ) := (items 4 b).map fun l => l.map fun x => signed 4 (ofLE x)
/-- `array.array("q", b)`: oasis_montaj_grd.py 325. -/
def arrayQ (b : Bytes) : Py (List ℤ) := (items 8 b).map fun l => l.map fun x => signed 8 (ofLE x)
/-- `array.array("f", b)`: oasis_montaj_grd.py 95. -/
noncomputable def arrayF (b : Bytes) : Py (List Num) :=
  (items 4 b).map fun l => l.map fun x => ieee 8 23 (ofLE x)
/-- `array.array("d", b)`: oasis_montaj_grd.py 170-206. -/
noncomputable def arrayD (b : Bytes) : Py (List Num) :=
  (items 8 b).map fun l => l.map fun x => ieee 11 52 (ofLE x)

/-- Python slice `b[start:stop]`. oasis_montaj_grd.py 83, 172-206, 321-346. -/
def slice (b : Bytes) (start stop : ℤ) : Bytes :=
  let norm := fun x : ℤ => if x < 0 then (x + b.length).toNat else min x.toNat b.length
  (b.take (norm stop)).drop (norm start)

/-! ### the header -/

/-- The dictionary of oasis_montaj_grd.py 143-222. -/
structure Header where
  n_bytes_per_element : ℤ
  sign_flag : ℤ
  shape_e : ℤ
  shape_v : ℤ
  ordering : ℤ
  spacing_e : Num
  spacing_v : Num
  x_origin : Num
  y_origin : Num
  rotation : Num
  base_value : Num
  data_factor : Num
  map_projection : ℤ
  units_x : ℤ
  units_y : ℤ
  units_z : ℤ
  n_valid_points : ℤ
  grid_min : Num
  grid_max : Num
  grid_median : Num
  grid_mean : Num
  grid_variance : Num
  process_flag : ℤ

/-- Unpacking to one, two, four and five names: ValueError for any other length.
oasis_montaj_grd.py 170-206. -/
def unpack1 {α : Type} : List α → Py α
  | [a] => .ok a
  | _ => .error .ValueError
/-- oasis_montaj_grd.py 170-206. -/
def unpack2 {α : Type} : List α → Py (α × α)
  | [a, b] => .ok (a, b)
  | _ => .error .ValueError
/-- oasis_montaj_grd.py 170-206. -/
def unpack4 {α : Type} : List α → Py (α × α × α × α)
  | [a, b, c, d] => .ok (a, b, c, d)
  | _ => .error .ValueError
/-- oasis_montaj_grd.py 170-206. -/
def unpack5 {α : Type} : List α → Py (α × α × α × α × α)
  | [a, b, c, d, e] => .ok (a, b, c, d, e)
  | _ => .error .ValueError

/-- oasis_montaj_grd.py 143-222 `_read_header` -/
noncomputable def readHeader (header_bytes : Bytes) : Py Header := do
  let (ES, SF, NE, NV, KX) ← arrayI (slice header_bytes 0 (5 * 4)) >>= unpack5
  let (DE, DV, X0, Y0, ROT) ← arrayD (slice header_bytes 20 (20 + 5 * 8)) >>= unpack5
  let (ZBASE, ZMULT) ← arrayD (slice header_bytes 60 (60 + 2 * 8)) >>= unpack2
  let (PROJ, UNITX, UNITY, UNITZ, NVPTS) ← arrayI (slice header_bytes 140 (140 + 5 * 4)) >>= unpack5
  let (IZMIN, IZMAX, IZMED, IZMEA) ← arrayF (slice header_bytes 160 (160 + 4 * 4)) >>= unpack4
  let ZVAR ← arrayD (slice header_bytes 176 (176 + 8)) >>= unpack1
  let PRCS ← arrayI (slice header_bytes 184 (184 + 4)) >>= unpack1
  return {
    n_bytes_per_element := ES
    sign_flag := SF
    shape_e := NE
    shape_v := NV
    ordering := KX
    spacing_e := DE
    spacing_v := DV
    x_origin := X0
    y_origin := Y0
    rotation := ROT
    base_value := ZBASE
    data_factor := ZMULT
    map_projection := PROJ
    units_x := UNITX
    units_y := UNITY
    units_z := UNITZ
    n_valid_points := NVPTS
    grid_min := IZMIN
    grid_max := IZMAX
    grid_median := IZMED
    grid_mean := IZMEA
    grid_variance := ZVAR
    process_flag := PRCS }

/-- oasis_montaj_grd.py 225-233 `_check_ordering` -/
def checkOrdering (ordering : ℤ) : Py Unit :=
  if ordering = -1 ∨ ordering = 1 then .ok () else .error .NotImplementedError

/-- oasis_montaj_grd.py 236-242 `_check_sign_flag` -/
def checkSignFlag (sign_flag : ℤ) : Py Unit :=
  if sign_flag = 3 then .error .NotImplementedError else .ok ()

/-- The type codes of `array.array`. oasis_montaj_grd.py 245-284. -/
inductive DataType where
  | B | b | H | h | I | i | f | d
  deriving DecidableEq

/-- oasis_montaj_grd.py 23 `VALID_ELEMENT_SIZES` -/
def validElementSizes : List ℤ :=
  [1, 2, 4, 8, 1024 + 1, 1024 + 2, 1024 + 4, 1024 + 8]

/-- oasis_montaj_grd.py 265-283: the `if` chain; the local variable `data_type` may stay without a value. -/
def chooseDataType (n_bytes_per_element sign_flag : ℤ) : Option DataType :=
  if n_bytes_per_element = 1 then
    if sign_flag = 0 then some .B
    else if sign_flag = 1 then some .b
    else none
  else if n_bytes_per_element = 2 then
    if sign_flag = 0 then some .H
    else if sign_flag = 1 then some .h
    else none
  else if n_bytes_per_element = 4 then
    if sign_flag = 0 then some .I
    else if sign_flag = 1 then some .i
    else if sign_flag = 2 then some .f
    else none
  else if n_bytes_per_element = 8 then some .d
  else none

/-- oasis_montaj_grd.py 245-284 `_get_data_type` -/
def getDataType (n_bytes_per_element sign_flag : ℤ) : Py DataType :=
  if n_bytes_per_element ∉ validElementSizes then .error .NotImplementedError
  else
    let n_bytes_per_element :=
      if n_bytes_per_element > 1024 then n_bytes_per_element - 1024 else n_bytes_per_element
    match chooseDataType n_bytes_per_element sign_flag with
    | some t => .ok t
    | none => .error .UnboundLocalError

/-- oasis_montaj_grd.py 95-97: `array.array(data_type, grid)` converted to float64 (exact for all the types). -/
noncomputable def arrayOf (t : DataType) (grid : Bytes) : Py (List Num) :=
  match t with
  | .B => (items 1 grid).map fun l => l.map fun x => .fin (ofLE x : ℝ)
  | .b => (items 1 grid).map fun l => l.map fun x => .fin (signed 1 (ofLE x) : ℝ)
  | .H => (items 2 grid).map fun l => l.map fun x => .fin (ofLE x : ℝ)
  | .h => (items 2 grid).map fun l => l.map fun x => .fin (signed 2 (ofLE x) : ℝ)
  | .I => (items 4 grid).map fun l => l.map fun x => .fin (ofLE x : ℝ)
  | .i => (items 4 grid).map fun l => l.map fun x => .fin (signed 4 (ofLE x) : ℝ)
  | .f => arrayF grid
  | .d => arrayD grid

/-- oasis_montaj_grd.py 25-34 `DUMMIES`. The double written -1e32 is a little below -10^32 and the next double is above, so
`x <= -1e32` holds for the same doubles in both readings. -/
noncomputable def dummies : DataType → ℝ
  | .b => -127
  | .B => 255
  | .h => -32767
  | .H => 65535
  | .i => -2147483647
  | .I => 4294967295
  | .f => -10 ^ 32
  | .d => -10 ^ 32

open Classical in
/-- `x <= y` for a finite `y`. oasis_montaj_grd.py 287-296. -/
noncomputable def Num.le (x : Num) (y : ℝ) : Bool :=
  match x with
  | .fin x => decide (x ≤ y)
  | .inf negative => negative
  | .nan => false

open Classical in
/-- `x == y` for a finite `y`. oasis_montaj_grd.py 287-296. -/
noncomputable def Num.eq (x : Num) (y : ℝ) : Bool :=
  match x with
  | .fin x => decide (x = y)
  | _ => false

/-- oasis_montaj_grd.py 287-296 `_remove_dummies` -/
noncomputable def removeDummies (grid : List Num) (t : DataType) : List Num :=
  if t = .f ∨ t = .d then grid.map fun x => if x.le (dummies t) then .nan else x
  else grid.map fun x => if x.eq (dummies t) then .nan else x

/-! ### arithmetic with infinities and NaN -/

open Classical in
/-- Arithmetic of oasis_montaj_grd.py 101-132. -/
noncomputable def Num.neg : Num → Num
  | .fin x => .fin (-x)
  | .inf s => .inf (!s)
  | .nan => .nan

/-- Arithmetic of oasis_montaj_grd.py 101-132, 378-428. -/
noncomputable def Num.add : Num → Num → Num
  | .fin x, .fin y => .fin (x + y)
  | .fin _, .inf s => .inf s
  | .inf s, .fin _ => .inf s
  | .inf s, .inf t => if s = t then .inf s else .nan
  | _, _ => .nan

/-- Arithmetic of oasis_montaj_grd.py 378-428. -/
noncomputable def Num.sub (a b : Num) : Num := a.add b.neg

open Classical in
/-- Arithmetic of oasis_montaj_grd.py 378-428. -/
noncomputable def Num.mul : Num → Num → Num
  | .fin x, .fin y => .fin (x * y)
  | .fin x, .inf s => if x = 0 then .nan else .inf (xor (decide (x < 0)) s)
  | .inf s, .fin x => if x = 0 then .nan else .inf (xor (decide (x < 0)) s)
  | .inf s, .inf t => .inf (xor s t)
  | _, _ => .nan

open Classical in
/-- Division by zero gives an infinity with the sign of the numerator (the zero is taken as
positive). oasis_montaj_grd.py 101. -/
noncomputable def Num.div : Num → Num → Num
  | .fin x, .fin y => if y = 0 then (if x = 0 then .nan else .inf (decide (x < 0))) else .fin (x / y)
  | .fin _, .inf _ => .fin 0
  | .inf s, .fin x => .inf (xor (decide (x < 0)) s)
  | _, _ => .nan

/-- `np.cos`, `np.sin` of `np.radians`. oasis_montaj_grd.py 424-428. -/
noncomputable def Num.cosDeg : Num → Num
  | .fin x => .fin (Real.cos (radians x))
  | _ => .nan
/-- oasis_montaj_grd.py 424-428. -/
noncomputable def Num.sinDeg : Num → Num
  | .fin x => .fin (Real.sin (radians x))
  | _ => .nan

/-! ### the grid -/

/-- oasis_montaj_grd.py 332-346: the loop over the blocks. `inflate` is `zlib.decompress`, with zlib.error for
`none`. -/
def decompressLoop (inflate : Bytes → Option Bytes) (grid_compressed : Bytes)
    (block_offsets compressed_block_sizes : List ℤ) : List ℕ → Bytes → Py Bytes
  | [], grid => .ok grid
  | i :: rest, grid =>
    match block_offsets[i]?, compressed_block_sizes[i]? with
    | some offset, some size =>
      let start_offset := offset - 512 + 16
      let end_offset := size + offset - 512
      match inflate (slice grid_compressed start_offset end_offset) with
      | none => .error .ZlibError
      | some grid_sub =>
        decompressLoop inflate grid_compressed block_offsets compressed_block_sizes rest
          (grid ++ grid_sub)
    | _, _ => .error .IndexError

/-- oasis_montaj_grd.py 299-347 `_decompress_grid` -/
def decompressGrid (inflate : Bytes → Option Bytes) (grid_compressed : Bytes) : Py Bytes := do
  let n_blocks ← arrayI (slice grid_compressed 8 (8 + 4)) >>= unpack1
  let _vectors_per_block ← arrayI (slice grid_compressed 12 (12 + 4)) >>= unpack1
  let block_offsets ← arrayQ (slice grid_compressed 16 (16 + n_blocks * 8))
  let compressed_block_sizes ← arrayI
    (slice grid_compressed (16 + n_blocks * 8) (16 + n_blocks * 8 + n_blocks * 4))
  decompressLoop inflate grid_compressed block_offsets compressed_block_sizes
    (List.range n_blocks.toNat) []

/-- `np.linspace(start, stop, num)`, `num ≥ 0`. oasis_montaj_grd.py 378-379, 419-420. -/
noncomputable def linspace (start stop : Num) (num : ℕ) : List Num :=
  (List.range num).map fun (i : ℕ) =>
    let delta := stop.sub start
    if num ≤ 1 then ((Num.fin i).mul delta).add start
    else if i + 1 = num then stop
    else ((Num.fin i).mul (delta.div (.fin ((num : ℝ) - 1)))).add start

/-- oasis_montaj_grd.py 350-380 `_build_coordinates`: easting and northing. -/
noncomputable def buildCoordinates (west south : Num) (shape : ℕ × ℕ) (spacing : Num × Num) :
    List Num × List Num :=
  let easting := linspace west (west.add (spacing.2.mul (.fin ((shape.2 : ℝ) - 1)))) shape.2
  let northing := linspace south (south.add (spacing.1.mul (.fin ((shape.1 : ℝ) - 1)))) shape.1
  (easting, northing)

/-- oasis_montaj_grd.py 383-428 `_build_rotated_coordinates`: the 2d arrays as lists of rows. -/
noncomputable def buildRotatedCoordinates (west south : Num) (shape : ℕ × ℕ) (spacing : Num × Num)
    (rotation_deg : Num) : List (List Num) × List (List Num) :=
  let x := linspace (.fin 0) (spacing.2.mul (.fin ((shape.2 : ℝ) - 1))) shape.2
  let y := linspace (.fin 0) (spacing.1.mul (.fin ((shape.1 : ℝ) - 1))) shape.1
  let cos := rotation_deg.cosDeg
  let sin := rotation_deg.sinDeg
  (y.map fun y => x.map fun x => (west.add (x.mul cos)).sub (y.mul sin),
   y.map fun y => x.map fun x => (south.add (x.mul sin)).add (y.mul cos))

/-- Coordinates of the DataArray: 1d (dims northing, easting) or 2d (dims y, x).
oasis_montaj_grd.py 121-140. -/
inductive Coords where
  | plain (easting northing : List Num)
  | rotated (easting northing : List (List Num))

/-- The returned DataArray. oasis_montaj_grd.py 133-140. -/
structure DataArray where
  dims : String × String
  values : List (List Num)
  coords : Coords
  attrs : Header

/-- oasis_montaj_grd.py 103-110: shape, spacing and order of the elements; the ordering was checked before. -/
def layoutOf (header : Header) : (ℤ × ℤ) × (Num × Num) × Bool :=
  if header.ordering = 1 then
    ((header.shape_v, header.shape_e), (header.spacing_v, header.spacing_e), true)
  else ((header.shape_e, header.shape_v), (header.spacing_e, header.spacing_v), false)

/-- oasis_montaj_grd.py 119 `grid.reshape(shape, order=order)` for the right number of elements. -/
def reshape (shape : ℕ × ℕ) (cOrder : Bool) (grid : List Num) : List (List Num) :=
  (List.range shape.1).map fun (i : ℕ) => (List.range shape.2).map fun (j : ℕ) =>
    grid.getD (if cOrder then i * shape.2 + j else i + j * shape.1) .nan

open Classical in
/-- oasis_montaj_grd.py 121-132: coordinates and names of the dimensions. -/
noncomputable def gridCoords (header : Header) (shape : ℕ × ℕ) (spacing : Num × Num) :
    Coords × (String × String) :=
  if header.rotation.eq 0 then
    let c := buildCoordinates header.x_origin header.y_origin shape spacing
    (.plain c.1 c.2, ("northing", "easting"))
  else
    let c := buildRotatedCoordinates header.x_origin header.y_origin shape spacing header.rotation
    (.rotated c.1 c.2, ("y", "x"))

/-- oasis_montaj_grd.py 95-140: from the bytes of the grid to the DataArray. Negative sizes are rejected by numpy with
ValueError. -/
noncomputable def buildGrid (header : Header) (data_type : DataType) (grid : Bytes) : Py DataArray := do
  let grid ← arrayOf data_type grid
  let grid := removeDummies grid data_type
  let grid := grid.map fun x => (x.div header.data_factor).add header.base_value
  let (shape, spacing, cOrder) := layoutOf header
  if shape.1 * shape.2 ≠ grid.length then throw .ValueError
  else if shape.1 < 0 ∨ shape.2 < 0 then throw .ValueError
  else
    let shape := (shape.1.toNat, shape.2.toNat)
    let c := gridCoords header shape spacing
    return { dims := c.2, values := reshape shape cOrder grid, coords := c.1, attrs := header }

/-- oasis_montaj_grd.py 91-93: decompress if needed. -/
def maybeDecompress (inflate : Bytes → Option Bytes) (header : Header) (grid : Bytes) : Py Bytes :=
  if header.n_bytes_per_element > 1024 then decompressGrid inflate grid else .ok grid

/-- oasis_montaj_grd.py 37-140 `load_oasis_montaj_grid` for the bytes of the file. -/
noncomputable def loadOasisMontajGrid (inflate : Bytes → Option Bytes) (file : Bytes) :
    Py DataArray := do
  let header ← readHeader (file.take 512)
  checkOrdering header.ordering
  checkSignFlag header.sign_flag
  let data_type ← getDataType header.n_bytes_per_element header.sign_flag
  let grid := file.drop 512
  let grid ← maybeDecompress inflate header grid
  buildGrid header data_type grid

end Verif.Oasis
