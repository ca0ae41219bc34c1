import Verif.Icgem.Model
import Mathlib.Order.Bounds.Basic

/-!
The ICGEM grid format, for C53-C55: lines made of words, the header and the rows of numbers.
-/

namespace Verif.Icgem

def IsBlank (l : Str) : Prop := ∀ c ∈ l, isSpace c = true

def IsWord (w : Str) : Prop := w ≠ [] ∧ ∀ c ∈ w, isSpace c = false

/-- A line with these words, separated (and surrounded) by any white space. -/
def IsLine : List Str → Str → Prop
  | [], line => IsBlank line
  | w :: ws, line => ∃ pre rest, line = pre ++ (w ++ rest) ∧ IsBlank pre ∧ IsWord w ∧
      (∀ c ∈ rest.head?, isSpace c = true) ∧ IsLine ws rest

/-- A header: entries (key, words of the value), names and units of the columns. -/
structure Header where
  entries : List (Str × List Str)
  names : List Str
  units : List Str

/-- The word starts with end_of_head. -/
def EndsHead (w : Str) : Prop := "end_of_head".toList <+: w

/-- The lines of a header: one line for each entry, blank lines (one at least), the line of the names, the
line of the units, and the line end_of_head. Blank lines may follow the names and the units. -/
structure IsHeader (h : Header) (lines : List Str) : Prop where
  lines : ∃ keyLines blanks nameLine blanks' unitLine blanks'' endLine,
    lines = keyLines ++ blanks ++ [nameLine] ++ blanks' ++ [unitLine] ++ blanks'' ++ [endLine] ∧
    List.Forall₂ (fun (e : Str × List Str) l => IsLine (e.1 :: e.2) l) h.entries keyLines ∧
    blanks ≠ [] ∧ (∀ b ∈ blanks, IsBlank b) ∧
    IsLine h.names nameLine ∧ (∀ b ∈ blanks', IsBlank b) ∧
    IsLine h.units unitLine ∧ (∀ b ∈ blanks'', IsBlank b) ∧
    ∃ w ws, EndsHead w ∧ IsLine (w :: ws) endLine
  keys : ∀ e ∈ h.entries, ¬ EndsHead e.1
  names : ∃ n ns, h.names = n :: ns ∧ ¬ EndsHead n
  units : ∃ u us, h.units = u :: us ∧ ¬ EndsHead u

/-- Words of the value of a key (the last one if the key is repeated). -/
def Header.words (h : Header) (k : Str) : Option (List Str) :=
  (h.entries.reverse.find? fun e => e.1 = k).map fun e => e.2

/-- Words separated by one space. -/
def spaced : List Str → Str
  | [] => []
  | w :: ws => w ++ (ws.map fun x => ' ' :: x).flatten

/-- The keys that every file must have. -/
def required : List Str :=
  ["latitude_parallels", "longitude_parallels", "number_of_gridpoints", "latlimit_south",
   "latlimit_north", "longlimit_west", "longlimit_east"].map String.toList

/-- A unit without its brackets. -/
def bare (u : Str) : Str := u.filter fun c => c ≠ '[' && c ≠ ']'

/-- What the attributes of the dataset must be. Of the required keys only the first word is kept. -/
def Header.attr (h : Header) (names units : List Str) (k : Str) : Option Str :=
  if k = "attributes_units".toList then some (spaced (units.map bare))
  else if k = "attributes".toList then some (spaced names)
  else if k ∈ required then (h.words k).bind List.head?
  else (h.words k).map spaced

/-- Position of the column `i` (negative from the end) of `n`. -/
def IsColumn (n : ℕ) (i : ℤ) (c : ℕ) : Prop := c < n ∧ (i = c ∨ i = (c : ℤ) - n)

/-- The columns that are read. -/
def Selects (n : ℕ) (usecols : Option (List ℤ)) (cols : List ℕ) : Prop :=
  match usecols with
  | none => cols = List.range n
  | some us => List.Forall₂ (IsColumn n) us cols

/-- A line of numbers. -/
def IsRow (toFloat : Str → Option ℝ) (row : List ℝ) (line : Str) : Prop :=
  ∃ words, words ≠ [] ∧ IsLine words line ∧ '#' ∉ line ∧ words.map toFloat = row.map some

/-- Entry of a list of rows. -/
def entry {α : Type} (rows : List (List α)) (i j : ℕ) : Option α := rows[i]?.bind fun row => row[j]?

/-- Numbers in the header: the first word of the value of a key. -/
def Header.number {α : Type} (h : Header) (parse : Str → Option α) (k : String) : Option α :=
  ((h.words k.toList).bind List.head?).bind parse

/-- The default tolerances of `numpy.allclose`. -/
def Close (a b : ℝ) : Prop := |a - b| ≤ 1e-8 + 1e-5 * |b|

/-- A header and rows of numbers that agree: a regular grid of `nlat` by `nlon` points, row by row, with
latitude and longitude in the columns `clat` and `clon`; `cols` are the columns that are read. -/
structure IsGrid (toInt : Str → Option ℤ) (toFloat : Str → Option ℝ) (h : Header)
    (rows : List (List ℝ)) (nlat nlon : ℕ) (usecols : Option (List ℤ)) (cols : List ℕ)
    (clat clon : ℕ) : Prop where
  units : h.units.length = h.names.length
  distinct : h.names.Nodup
  count : rows.length = nlat * nlon
  columns : ∀ r ∈ rows, r.length = h.names.length
  nlat_pos : 0 < nlat
  nlon_pos : 0 < nlon
  selects : Selects h.names.length usecols cols
  nlat_eq : h.number toInt "latitude_parallels" = some (nlat : ℤ)
  nlon_eq : h.number toInt "longitude_parallels" = some (nlon : ℤ)
  points : h.number toInt "number_of_gridpoints" = some (nlat * nlon : ℤ)
  limits : ∀ k ∈ ["latlimit_south", "latlimit_north", "longlimit_west", "longlimit_east"],
    ∃ x, h.number toFloat k = some x
  clat_name : h.names[clat]? = some "latitude".toList
  clon_name : h.names[clon]? = some "longitude".toList
  clat_read : clat ∈ cols
  clon_read : clon ∈ cols
  height : (h.words "height_over_ell".toList).isSome → ∃ x, h.number toFloat "height_over_ell" = some x
  parallels : ∀ i < nlat, ∀ j < nlon, entry rows (i * nlon + j) clat = entry rows (i * nlon) clat
  meridians : ∀ i < nlat, ∀ j < nlon, entry rows (i * nlon + j) clon = entry rows j clon

/-- The values of a column. -/
def valuesOf (rows : List (List ℝ)) (c : ℕ) : Set ℝ := {x | ∃ m, entry rows m c = some x}

/-- The limits in the header are close to those of the coordinates. -/
def AreaAgrees (toFloat : Str → Option ℝ) (h : Header) (rows : List (List ℝ)) (clat clon : ℕ) : Prop :=
  (∃ x y, h.number toFloat "latlimit_south" = some x ∧ IsLeast (valuesOf rows clat) y ∧ Close x y) ∧
  (∃ x y, h.number toFloat "latlimit_north" = some x ∧ IsGreatest (valuesOf rows clat) y ∧ Close x y) ∧
  (∃ x y, h.number toFloat "longlimit_west" = some x ∧ IsLeast (valuesOf rows clon) y ∧ Close x y) ∧
  (∃ x y, h.number toFloat "longlimit_east" = some x ∧ IsGreatest (valuesOf rows clon) y ∧ Close x y)

/-- The keys with integers. -/
def integers : List Str :=
  ["latitude_parallels", "longitude_parallels", "number_of_gridpoints"].map String.toList

/-- The metadata of a file when its values can be read: the required keys that are present have a first
word, an integer for three of them. -/
structure Readable (toInt : Str → Option ℤ) (metadata : Dict Val) : Prop where
  words : ∀ k ∈ required, ∀ v, metadata.get? k = some v → ∃ s w ws, v = .str s ∧ IsLine (w :: ws) s
  ints : ∀ k ∈ integers, ∀ s w ws, metadata.get? k = some (.str s) → IsLine (w :: ws) s →
    ∃ n, toInt w = some n
  columns : ∀ k ∈ ["attributes".toList, "attributes_units".toList], ∀ v, metadata.get? k = some v →
    ∃ l, v = .list l

/-- The value of a key is this integer. -/
def IsInteger (toInt : Str → Option ℤ) (metadata : Dict Val) (k : String) (n : ℤ) : Prop :=
  ∃ s w ws, metadata.get? k.toList = some (.str s) ∧ IsLine (w :: ws) s ∧ toInt w = some n

/-- Metadata of a malformed file. -/
inductive Malformed (toInt : Str → Option ℤ) (metadata : Dict Val) : Prop
  | missing (k) (h : k ∈ required) (h' : metadata.get? k = none)
  | noNames (h : metadata.get? "attributes".toList = none)
  | noUnits (h : metadata.get? "attributes_units".toList = none)
  | counts (names units) (h : metadata.get? "attributes".toList = some (.list names))
      (h' : metadata.get? "attributes_units".toList = some (.list units))
      (ne : names.length ≠ units.length)
  | noLatitude (names) (h : metadata.get? "attributes".toList = some (.list names))
      (h' : "latitude".toList ∉ names)
  | noLongitude (names) (h : metadata.get? "attributes".toList = some (.list names))
      (h' : "longitude".toList ∉ names)
  | size (n m s) (hn : IsInteger toInt metadata "latitude_parallels" n)
      (hm : IsInteger toInt metadata "longitude_parallels" m)
      (hs : IsInteger toInt metadata "number_of_gridpoints" s) (ne : n * m ≠ s)

/-- A header that is malformed in one of these ways. -/
inductive Header.Malformed (toInt : Str → Option ℤ) (h : Header) : Prop
  | missing (k) (hk : k ∈ required) (hn : h.words k = none)
  | counts (ne : h.names.length ≠ h.units.length)
  | noLatitude (hn : "latitude".toList ∉ h.names)
  | noLongitude (hn : "longitude".toList ∉ h.names)
  | size (n m s) (hn : h.number toInt "latitude_parallels" = some n)
      (hm : h.number toInt "longitude_parallels" = some m)
      (hs : h.number toInt "number_of_gridpoints" = some s) (ne : n * m ≠ s)

/-- The values that are present can be read. -/
structure Header.Readable (toInt : Str → Option ℤ) (h : Header) : Prop where
  words : ∀ k ∈ required, ∀ ws, h.words k = some ws → ws ≠ []
  ints : ∀ k ∈ integers, ∀ w ws, h.words k = some (w :: ws) → ∃ n, toInt w = some n

/-- A header without the line of the units, or without the lines of names and units. -/
def IsShortHeader (entries : List (Str × List Str)) (lines : List Str) : Prop :=
  (∀ e ∈ entries, ¬ EndsHead e.1 ∧ e.1 ≠ "attributes".toList ∧ e.1 ≠ "attributes_units".toList) ∧
  ∃ keyLines blanks nameLines blanks' endLine,
    lines = keyLines ++ blanks ++ nameLines ++ blanks' ++ [endLine] ∧
    List.Forall₂ (fun (e : Str × List Str) l => IsLine (e.1 :: e.2) l) entries keyLines ∧
    blanks ≠ [] ∧ (∀ b ∈ blanks, IsBlank b) ∧
    (nameLines = [] ∨ ∃ n ns nameLine, nameLines = [nameLine] ∧ IsLine (n :: ns) nameLine ∧
      ¬ EndsHead n) ∧
    (∀ b ∈ blanks', IsBlank b) ∧
    ∃ w ws, EndsHead w ∧ IsLine (w :: ws) endLine

end Verif.Icgem
