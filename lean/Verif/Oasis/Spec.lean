import Verif.Oasis.Model

/-!
The version 2 of the Geosoft grid format, as a writer: what the properties C47-C52 refer to.
-/

namespace Verif.Oasis

/-- `k` bytes of a number, little endian. -/
def leBytes : ℕ → ℕ → Bytes
  | 0, _ => []
  | k + 1, n => UInt8.ofNat n :: leBytes k (n / 256)

/-- Signed integers of 4 and 8 bytes. -/
def int32 (z : ℤ) : Bytes := leBytes 4 (z % 2 ^ 32).toNat
def int64 (z : ℤ) : Bytes := leBytes 8 (z % 2 ^ 64).toNat

def IsInt32 (z : ℤ) : Prop := -2 ^ 31 ≤ z ∧ z < 2 ^ 31
def IsInt64 (z : ℤ) : Prop := -2 ^ 63 ≤ z ∧ z < 2 ^ 63

/-- The fields of the header with the names of the format; floating point fields are given by their
bits. -/
structure Fields where
  (ES SF NE NV KX : ℤ)
  (DE DV X0 Y0 ROT : ℕ)
  (ZBASE ZMULT : ℕ)
  (PROJ UNITX UNITY UNITZ NVPTS : ℤ)
  (IZMIN IZMAX IZMED IZMEA : ℕ)
  (ZVAR : ℕ)
  (PRCS : ℤ)

/-- The values fit in their sizes. -/
def Fields.Valid (f : Fields) : Prop :=
  (∀ z ∈ [f.ES, f.SF, f.NE, f.NV, f.KX, f.PROJ, f.UNITX, f.UNITY, f.UNITZ, f.NVPTS, f.PRCS],
    IsInt32 z) ∧
  (∀ n ∈ [f.DE, f.DV, f.X0, f.Y0, f.ROT, f.ZBASE, f.ZMULT, f.ZVAR], n < 2 ^ 64) ∧
  ∀ n ∈ [f.IZMIN, f.IZMAX, f.IZMED, f.IZMEA], n < 2 ^ 32

/-- The header in the file: 76 bytes of fields, 64 bytes of labels, 48 bytes of optional fields, and
324 bytes that are not defined. -/
def Fields.bytes (f : Fields) (labels undefined : Bytes) : Bytes :=
  (int32 f.ES ++ int32 f.SF ++ int32 f.NE ++ int32 f.NV ++ int32 f.KX) ++
  (leBytes 8 f.DE ++ leBytes 8 f.DV ++ leBytes 8 f.X0 ++ leBytes 8 f.Y0 ++ leBytes 8 f.ROT) ++
  (leBytes 8 f.ZBASE ++ leBytes 8 f.ZMULT) ++
  labels ++
  (int32 f.PROJ ++ int32 f.UNITX ++ int32 f.UNITY ++ int32 f.UNITZ ++ int32 f.NVPTS) ++
  (leBytes 4 f.IZMIN ++ leBytes 4 f.IZMAX ++ leBytes 4 f.IZMED ++ leBytes 4 f.IZMEA) ++
  leBytes 8 f.ZVAR ++
  int32 f.PRCS ++
  undefined

/-- Values of the bits of a float and a double. -/
noncomputable def float32 (bits : ℕ) : Num := ieee 8 23 bits
noncomputable def float64 (bits : ℕ) : Num := ieee 11 52 bits

/-- The header that the user gets. -/
noncomputable def Fields.header (f : Fields) : Header where
  n_bytes_per_element := f.ES
  sign_flag := f.SF
  shape_e := f.NE
  shape_v := f.NV
  ordering := f.KX
  spacing_e := float64 f.DE
  spacing_v := float64 f.DV
  x_origin := float64 f.X0
  y_origin := float64 f.Y0
  rotation := float64 f.ROT
  base_value := float64 f.ZBASE
  data_factor := float64 f.ZMULT
  map_projection := f.PROJ
  units_x := f.UNITX
  units_y := f.UNITY
  units_z := f.UNITZ
  n_valid_points := f.NVPTS
  grid_min := float32 f.IZMIN
  grid_max := float32 f.IZMAX
  grid_median := float32 f.IZMED
  grid_mean := float32 f.IZMEA
  grid_variance := float64 f.ZVAR
  process_flag := f.PRCS

/-- Types of the elements in the format: (element size without compression, sign flag). -/
inductive IsType : ℤ → ℤ → DataType → Prop where
  | unsignedByte : IsType 1 0 .B
  | signedByte : IsType 1 1 .b
  | unsignedShort : IsType 2 0 .H
  | signedShort : IsType 2 1 .h
  | unsignedLong : IsType 4 0 .I
  | signedLong : IsType 4 1 .i
  | float : IsType 4 2 .f
  | double (sign_flag : ℤ) : sign_flag ≠ 3 → IsType 8 sign_flag .d

/-- Number of bytes of a type. -/
def DataType.size : DataType → ℕ
  | .B => 1 | .b => 1 | .H => 2 | .h => 2 | .I => 4 | .i => 4 | .f => 4 | .d => 8

/-- Value of the bytes of an element. -/
noncomputable def DataType.value : DataType → Bytes → Num
  | .B, x => .fin (ofLE x : ℝ)
  | .b, x => .fin (signed 1 (ofLE x) : ℝ)
  | .H, x => .fin (ofLE x : ℝ)
  | .h, x => .fin (signed 2 (ofLE x) : ℝ)
  | .I, x => .fin (ofLE x : ℝ)
  | .i, x => .fin (signed 4 (ofLE x) : ℝ)
  | .f, x => float32 (ofLE x)
  | .d, x => float64 (ofLE x)

/-- Dummies of the format: one value for each integer type; for floating point, numbers up to
-1e32. -/
def IsDummy : DataType → Num → Prop
  | .B, x => x = .fin 255
  | .b, x => x = .fin (-127)
  | .H, x => x = .fin 65535
  | .h, x => x = .fin (-32767)
  | .I, x => x = .fin 4294967295
  | .i, x => x = .fin (-2147483647)
  | .f, x => (∃ r, x = .fin r ∧ r ≤ -1e32) ∨ x = .inf true
  | .d, x => (∃ r, x = .fin r ∧ r ≤ -1e32) ∨ x = .inf true

open Classical in
/-- Value of the grid for the bytes of an element: NaN for dummies, rescaled for the rest. -/
noncomputable def loadedValue (t : DataType) (factor base : Num) (x : Bytes) : Num :=
  if IsDummy t (t.value x) then .nan else ((t.value x).div factor).add base

/-- Row and column of the grid for the element `e` of the vector `v` of the file: vectors are rows
(KX = 1) or columns (KX = -1). -/
def nodeOf (KX : ℤ) (v e : ℕ) : ℕ × ℕ := if KX = 1 then (v, e) else (e, v)

/-- Offsets (easting, northing) from the origin, before the rotation, of that element. -/
def offsetOf (KX : ℤ) (DE DV : ℝ) (v e : ℕ) : ℝ × ℝ :=
  if KX = 1 then (e * DE, v * DV) else (v * DV, e * DE)

/-- Entry of a list of rows. -/
def entry {α : Type} (rows : List (List α)) (i j : ℕ) : Option α := rows[i]?.bind fun row => row[j]?

/-- Easting and northing of the node (i, j). -/
def Coords.at (c : Coords) (i j : ℕ) : Option (Num × Num) :=
  match c with
  | .plain easting northing => do
    let e ← easting[j]?
    let n ← northing[i]?
    return (e, n)
  | .rotated easting northing => do
    let e ← entry easting i j
    let n ← entry northing i j
    return (e, n)

/-- A compressed grid: signature and type (8 bytes), number of blocks, vectors per block, file offset and
size of each block, and the blocks, each with 16 bytes before the compressed data. Offsets count from
the start of the file, 512 bytes before the grid. -/
def blockBytes (blocks : List (Bytes × Bytes)) : Bytes := (blocks.map fun b => b.1 ++ b.2).flatten

def offsets (first : ℕ) : List (Bytes × Bytes) → List ℕ
  | [] => []
  | b :: rest => first :: offsets (first + (b.1 ++ b.2).length) rest

def compressedBytes (signature : Bytes) (vectorsPerBlock : ℤ) (blocks : List (Bytes × Bytes)) : Bytes :=
  signature ++ int32 blocks.length ++ int32 vectorsPerBlock ++
  ((offsets (512 + 16 + 12 * blocks.length) blocks).map fun (o : ℕ) => int64 (o : ℤ)).flatten ++
  (blocks.map fun b => int32 (b.1 ++ b.2).length).flatten ++
  blockBytes blocks

end Verif.Oasis
