import Verif.Legendre.Model
import Verif.Icgem.Model
import Verif.Engine.Model

/-!
Model of src/harmonica/_spherical_harmonics/igrf.py.

Files are lists of lines (strings of characters, as in `Verif.Icgem`); `int` and `float` are parameters.
A date is its year and the seconds since the start of that year; `aware` says that it has a time zone.
The ellipsoid (boule) is a parameter: `geodetic_to_spherical` keeps the longitude and its other two outputs
are functions of latitude and height. `bd.grid_coordinates` (bordado) gives the nodes of a regular grid: it
is represented by the lists of longitudes and latitudes and the heights of the nodes. Arrays of points are
lists (shapes are not modelled). Not modelled: downloading the file, messages. The dataset of `grid` is in ModelB.
-/

namespace Verif.Igrf

open Verif.Legendre Verif.Engine

/-- Strings of igrf.py 51-76. -/
abbrev Str := Icgem.Str

noncomputable section

/-! ### 26-77 `load_igrf` -/

/-- The dictionary of coefficients of igrf.py 60-77. -/
structure Table where
  years : List ℤ
  (g h : ℕ → Arr)
  (g_sv h_sv : Arr)

/-- igrf.py 60 -/
def tableDegree : ℕ := 13

/-- Index of an axis of size 14, from the end when negative. igrf.py 72-76. -/
def axisIndex (i : ℤ) : Py ℕ :=
  if 0 ≤ i ∧ i ≤ tableDegree then .ok i.toNat
  else if i < 0 ∧ -((tableDegree : ℤ) + 1) ≤ i then .ok (i + tableDegree + 1).toNat
  else .error .IndexError

/-- `int` or `float` of a word: igrf.py 56-76. -/
def parse {α : Type} (f : Str → Option α) (w : Str) : Py α :=
  match f w with
  | some x => .ok x
  | none => .error .ValueError

/-- `parts[3:-1]`. igrf.py 56-76. -/
def middle (parts : List Str) : List Str := parts.dropLast.drop 3

/-- igrf.py 58 `int(y.split(".")[0])` -/
def parseYear (toInt : Str → Option ℤ) (w : Str) : Py ℤ := parse toInt (w.takeWhile (· ≠ '.'))

/-- `degree, order = (int(i) for i in parts[1:3])`. igrf.py 70-76. -/
def parseIndices (toInt : Str → Option ℤ) (parts : List Str) : Py (ℤ × ℤ) :=
  match (parts.drop 1).take 2 with
  | [a, b] => do
    let n ← parse toInt a
    let m ← parse toInt b
    return (n, m)
  | _ => .error .ValueError

/-- `coeffs[key][: years.size, degree, order] = values`: sizes must agree, or there is one value.
igrf.py 70-76. -/
def assignValues (a : ℕ → Arr) (size : ℕ) (values : List ℝ) (degree order : ℤ) : Py (ℕ → Arr) := do
  let n ← axisIndex degree
  let m ← axisIndex order
  if values.length = size ∨ values.length = 1 then
    .ok fun t i j =>
      if i = n ∧ j = m ∧ t < size then values.getD (if values.length = 1 then 0 else t) 0 else a t i j
  else .error .ValueError

/-- igrf.py 69-76: one line. The dictionary also has the keys g_sv and h_sv, whose arrays have two axes. -/
def readLine (toInt : Str → Option ℤ) (toFloat : Str → Option ℝ) (T : Table) (line : Str) : Py Table := do
  let parts := Icgem.split line
  let key ← (match parts.head? with
    | some k => .ok (Icgem.strip k)
    | none => .error .IndexError)
  let (degree, order) ← parseIndices toInt parts
  let values ← (middle parts).mapM (parse toFloat)
  if key = ['g'] then do
    let g ← assignValues T.g T.years.length values degree order
    let sv ← parse toFloat (parts.getLastD [])
    let n ← axisIndex degree
    let m ← axisIndex order
    return { T with g := g, g_sv := upd T.g_sv n m sv }
  else if key = ['h'] then do
    let h ← assignValues T.h T.years.length values degree order
    let sv ← parse toFloat (parts.getLastD [])
    let n ← axisIndex degree
    let m ← axisIndex order
    return { T with h := h, h_sv := upd T.h_sv n m sv }
  else if key = ['g', '_', 's', 'v'] ∨ key = ['h', '_', 's', 'v'] then .error .IndexError
  else .error .KeyError

/-- igrf.py 26-77 `load_igrf` -/
def loadIgrf (toInt : Str → Option ℤ) (toFloat : Str → Option ℝ) (lines : List Str) : Py Table := do
  let years ← (middle (Icgem.split (lines.getD 3 []))).mapM (parseYear toInt)
  (lines.drop 4).foldlM (readLine toInt toFloat)
    { years := years, g := fun _ _ _ => 0, h := fun _ _ _ => 0, g_sv := fun _ _ => 0, h_sv := fun _ _ => 0 }

/-! ### dates (`datetime` of Python) -/

/-- Days from the origin of the calendar to the first of January.
The calendar of `datetime`, used at igrf.py 115-129. -/
def daysBefore (year : ℤ) : ℤ :=
  365 * (year - 1) + (year - 1) / 4 - (year - 1) / 100 + (year - 1) / 400

/-- Seconds from the origin of the calendar to the first of January. Used at igrf.py 115-129. -/
def jan1 (year : ℤ) : ℝ := 86400 * (daysBefore year : ℝ)

/-- The argument `date` of igrf.py 80-143, 281-295. -/
structure Date where
  year : ℤ
  seconds : ℝ
  aware : Bool

/-- Seconds from the origin of the calendar. igrf.py 115-129. -/
def Date.time (d : Date) : ℝ := jan1 d.year + d.seconds

/-- `datetime.datetime(year=year, month=1, day=1)`, as seconds. igrf.py 115-129. -/
def newYear (year : ℤ) : Py ℝ := if 1 ≤ year ∧ year ≤ 9999 then .ok (jan1 year) else .error .ValueError

/-- `date - start`, where `start` has no time zone. igrf.py 123-129. -/
def Date.sub (d : Date) (start : ℝ) : Py ℝ :=
  if d.aware then .error .TypeError else .ok (d.time - start)

/-! ### 80-143 `interpolate_coefficients` -/

/-- igrf.py 115-120 -/
def checkDate (date : Date) (first last : ℤ) : Py Unit :=
  if date.year < first ∨ date.year ≥ last + 5 then .error .ValueError else .ok ()

/-- Reads of the table at igrf.py 131-142. -/
def item {α : Type} (o : Option α) : Py α :=
  match o with
  | some x => .ok x
  | none => .error .IndexError

/-- igrf.py 131-142: the loops. -/
def interpolateLoop (max_degree index size : ℕ) (since epoch year_in_seconds : ℝ) (T : Table) : Arr × Arr :=
  forRange 1 (max_degree + 1) ((fun _ _ => 0, fun _ _ => 0) : Arr × Arr) fun s n =>
    forRange 0 (n + 1) s fun s m =>
      let variation_g := if index + 1 ≥ size then T.g_sv n m / year_in_seconds
        else (T.g (index + 1) n m - T.g index n m) / epoch
      let variation_h := if index + 1 ≥ size then T.h_sv n m / year_in_seconds
        else (T.h (index + 1) n m - T.h index n m) / epoch
      (upd s.1 n m (T.g index n m + since * variation_g), upd s.2 n m (T.h index n m + since * variation_h))

/-- The arrays of the table have degrees up to 13. igrf.py 131-142. -/
def checkDegree (max_degree : ℕ) : Py Unit :=
  if max_degree > tableDegree then .error .IndexError else .ok ()

/-- igrf.py 80-143 `interpolate_coefficients` -/
def interpolateCoefficients (date : Date) (max_degree : ℕ) (T : Table) : Py (Arr × Arr) := do
  let first ← item T.years.head?
  let last ← item T.years.getLast?
  checkDate date first last
  let index := ((date.year - first) / 5).toNat
  let year ← item T.years[index]?
  let start ← newYear year
  let since ← date.sub start
  let stop ← newYear (year + 5)
  let epoch := stop - start
  checkDegree max_degree
  return interpolateLoop max_degree index T.years.length since epoch (365.25 * 24 * 60 * 60) T

/-- igrf.py 146-165 `calculate_ideal_spacing` -/
def calculateIdealSpacing (max_degree : ℕ) : ℝ := 180 / (2 * (max_degree : ℝ) + 2)

/-! ### 561-704 the synthesis -/

/-- Values added to the three components (east, north, radial). igrf.py 604-629. -/
abbrev V3 := ℝ × ℝ × ℝ

/-- igrf.py 593-601, 654-667: sine and cosine of the multiples of the longitude; `c0` and `s0` are the contents of the
new arrays. -/
def cosSin (lon : ℝ) (max_degree : ℕ) (c0 s0 : ℕ → ℝ) : (ℕ → ℝ) × (ℕ → ℝ) :=
  let set := fun (a : ℕ → ℝ) (k : ℕ) (v : ℝ) (i : ℕ) => if i = k then v else a i
  let c := set (set c0 0 1) 1 (Real.cos lon)
  let s := set (set s0 0 0) 1 (Real.sin lon)
  forRange 2 (max_degree + 1) (c, s) fun a m =>
    (set a.1 m (2 * a.1 1 * a.1 (m - 1) - a.1 (m - 2)), set a.2 m (2 * a.1 1 * a.2 (m - 1) - a.2 (m - 2)))

/-- igrf.py 608-623, 683-698: what one degree and order adds. -/
def term (r_frac : ℝ) (g h p dp : Arr) (c s : ℕ → ℝ) (n m : ℕ) : V3 :=
  (r_frac * (-(m : ℝ) * g n m * s m + (m : ℝ) * h n m * c m) * p n m,
   r_frac * (g n m * c m + h n m * s m) * dp n m,
   ((n : ℝ) + 1) * r_frac * (g n m * c m + h n m * s m) * p n m)

/-- The loop on the degrees, with the power of the radius updated in each of them.
igrf.py 604-623, 679-698. -/
def degreeLoop (nr : ℝ) (g h p dp : Arr) (c s : ℕ → ℝ) : ℝ → List ℕ → List V3
  | _, [] => []
  | r_frac, n :: ns =>
    (List.range (n + 1)).map (term (r_frac * nr) g h p dp c s n) ++
      degreeLoop nr g h p dp c s (r_frac * nr) ns

/-- `for n in range(min_degree, max_degree + 1)`. igrf.py 604-623, 679-698. -/
def synthesis (nr : ℝ) (g h p dp : Arr) (c s : ℕ → ℝ) (min_degree max_degree : ℕ) : List V3 :=
  degreeLoop nr g h p dp c s (nr ^ (min_degree + 1)) (List.range' min_degree (max_degree + 1 - min_degree))

variable {K : Type}

/-- Accumulation on the three output arrays. igrf.py 608-623. -/
def accumAt (k : K) (v : V3) : List (Op (Fin 3 × K) ℝ) :=
  accum (0, k) v.1 ++ accum (1, k) v.2.1 ++ accum (2, k) v.2.2

/-- igrf.py 624-629: the end of the iteration. -/
def finish (k : K) (sin_colat : ℝ) : List (Op (Fin 3 × K) ℝ) :=
  if |sin_colat| < 1e-10 then [.put (0, k) 0] else [.load (0, k), .apply (0, k) (· * (-1 / sin_colat))]

/-- Arrays just allocated hold anything. `np.empty` at igrf.py 583-584, 593-594. -/
structure Junk where
  p : ℕ → Arr
  dp : ℕ → Arr
  c : ℕ → ℕ → ℝ
  s : ℕ → ℕ → ℝ

/-- igrf.py 579-586, 669-677: the Legendre functions and their derivatives. -/
def legendreAt (colat : ℝ) (max_degree : ℕ) (p dp : Arr) : Py (Arr × Arr) := do
  let p ← associatedLegendreSchmidt (Real.cos colat) max_degree p
  let dp ← associatedLegendreSchmidtDerivative max_degree p dp
  return (p, dp)

/-- One iteration of the loop on the points. igrf.py 578-629. -/
def pointProgram (junk : Junk) (points : List (ℝ × ℝ × ℝ)) (g h : Arr) (min_degree max_degree : ℕ) (i : ℕ) :
    List (Op (Fin 3 × ℕ) ℝ) :=
  let x := points.getD i (0, 0, 0)
  match legendreAt x.2.1 max_degree (junk.p i) (junk.dp i) with
  | .error _ => []
  | .ok (p, dp) =>
    let cs := cosSin x.1 max_degree (junk.c i) (junk.s i)
    (synthesis x.2.2 g h p dp cs.1 cs.2 min_degree max_degree).flatMap (accumAt i) ++
      finish i (Real.sin x.2.1)

/-- igrf.py 561-629 `spherical_harmonics_magnetic_field`; a point is (longitude, colatitude, normalized radius).
With `max_degree = 0` the code accesses memory outside its arrays (an IndexError here). -/
def magneticField (mode : Mode) (junk : Junk) (points : List (ℝ × ℝ × ℝ)) (g h : Arr)
    (min_degree max_degree : ℕ) : Py (List V3) :=
  if max_degree = 0 then .error .IndexError
  else
    let out := run mode points.length (pointProgram junk points g h min_degree max_degree) 0 (fun _ => 0)
    .ok ((List.range points.length).map fun i => (out (0, i), out (1, i), out (2, i)))

/-- igrf.py 533-558 `vector_spherical_to_geodetic` -/
def vectorSphericalToGeodetic (latitude latitude_spherical : ℝ) (vector : V3) : V3 :=
  let angle := radians (latitude_spherical - latitude)
  let cos := Real.cos angle
  let sin := Real.sin angle
  (vector.1, cos * vector.2.1 + sin * vector.2.2, -sin * vector.2.1 + cos * vector.2.2)

/-- The ellipsoid: spherical latitude and radius for latitude and height.
boule, used at igrf.py 354-356, 448-450. -/
structure Ellipsoid where
  latitude : ℝ → ℝ → ℝ
  radius : ℝ → ℝ → ℝ

/-- igrf.py 281-295: the attributes of the class. -/
structure Igrf where
  date : Date
  min_degree : ℕ
  max_degree : ℕ
  ellipsoid : Ellipsoid

/-- igrf.py 279 -/
def referenceRadius : ℝ := 6371.2e3

/-- igrf.py 354-359, 448-453: geodetic coordinates to longitude, colatitude (radians) and normalized radius. -/
def toKernel (e : Ellipsoid) (x : ℝ × ℝ × ℝ) : ℝ × ℝ × ℝ :=
  (radians x.1, radians (90 - e.latitude x.2.1 x.2.2), referenceRadius / e.radius x.2.1 x.2.2)

/-- igrf.py 325-385 `predict`, with the coefficients; a point is (longitude, latitude, height). -/
def predictWith (mode : Mode) (junk : Junk) (self : Igrf) (coefficients : Arr × Arr)
    (points : List (ℝ × ℝ × ℝ)) : Py (List V3) := do
  let b ← magneticField mode junk (points.map (toKernel self.ellipsoid)) coefficients.1 coefficients.2
    self.min_degree self.max_degree
  return List.zipWith (fun x v => vectorSphericalToGeodetic x.2.1 (self.ellipsoid.latitude x.2.1 x.2.2) v)
    points b

/-- One iteration of the loop on the parallels of a grid: `c` and `s` are the arrays of the first loop.
igrf.py 668-704. -/
def gridProgram (junk : Junk) (n_lon : ℕ) (colat : List ℝ) (nr : ℕ → ℕ → ℝ) (g h : Arr)
    (c s : ℕ → ℕ → ℝ) (min_degree max_degree : ℕ) (i : ℕ) : List (Op (Fin 3 × ℕ × ℕ) ℝ) :=
  match legendreAt (colat.getD i 0) max_degree (junk.p i) (junk.dp i) with
  | .error _ => []
  | .ok (p, dp) =>
    (List.range n_lon).flatMap fun j =>
      (synthesis (nr i j) g h p dp (c j) (s j) min_degree max_degree).flatMap (accumAt (i, j)) ++
        finish (i, j) (Real.sin (colat.getD i 0))

/-- First loop of the grid: iteration j fills the row j of both arrays (cell (0, j, m) is the cosine and
(1, j, m) the sine). The values of the recursion, which are those of the cells that this iteration has
already written, are computed beforehand. igrf.py 656-667. -/
def trigProgram (junk : Junk) (lon : List ℝ) (max_degree : ℕ) (j : ℕ) : List (Op (Fin 2 × ℕ × ℕ) ℝ) :=
  let cs := cosSin (lon.getD j 0) max_degree (junk.c j) (junk.s j)
  (List.range (max_degree + 1)).flatMap fun m => [.put (0, j, m) (cs.1 m), .put (1, j, m) (cs.2 m)]

/-- igrf.py 632-704 `spherical_harmonics_magnetic_field_grid`: the modes of its two parallel loops. -/
def magneticFieldGrid (mode mode' : Mode) (junk : Junk) (lon colat : List ℝ) (nr : ℕ → ℕ → ℝ) (g h : Arr)
    (min_degree max_degree : ℕ) : Py (ℕ → ℕ → V3) :=
  if max_degree = 0 then .error .IndexError
  else
    let trig := run mode lon.length (trigProgram junk lon max_degree) 0
      (fun c => if c.1 = 0 then junk.c c.2.1 c.2.2 else junk.s c.2.1 c.2.2)
    let out := run mode' colat.length (gridProgram junk lon.length colat nr g h
      (fun j m => trig (0, j, m)) (fun j m => trig (1, j, m)) min_degree max_degree) 0 (fun _ => 0)
    .ok fun i j => (out (0, i, j), out (1, i, j), out (2, i, j))

/-- A regular grid: the longitudes, the latitudes and the height of each node. igrf.py 441-450. -/
structure Grid where
  longitude : List ℝ
  latitude : List ℝ
  height : ℕ → ℕ → ℝ

/-- igrf.py 387-530 `grid`, with the coefficients. Spherical latitudes and radii are computed for every node; the
kernel gets the first row of the longitudes and the first column of the colatitudes. -/
def gridWith (mode mode' : Mode) (junk : Junk) (self : Igrf) (coefficients : Arr × Arr) (grid : Grid) :
    Py (ℕ → ℕ → V3) := do
  let lat := fun i => grid.latitude.getD i 0
  let lat_sph := fun i j => self.ellipsoid.latitude (lat i) (grid.height i j)
  let colat := (List.range grid.latitude.length).map fun i => radians (90 - lat_sph i 0)
  let nr := fun i j => referenceRadius / self.ellipsoid.radius (lat i) (grid.height i j)
  let b ← magneticFieldGrid mode mode' junk (grid.longitude.map radians) colat nr coefficients.1
    coefficients.2 self.min_degree self.max_degree
  return fun i j => vectorSphericalToGeodetic (lat i) (lat_sph i j) (b i j)

/-! ### the object: `_coefficients` is filled by the first access -/

/-- The attribute `_coefficients`, igrf.py 295-303. -/
abbrev Cache := Option (Arr × Arr)

/-- igrf.py 297-303 `coefficients`; `load` reads the file. -/
def coefficients (load : Py Table) (self : Igrf) (cache : Cache) : Py (Arr × Arr) × Cache :=
  match cache with
  | some c => (.ok c, some c)
  | none =>
    match load.bind (interpolateCoefficients self.date self.max_degree) with
    | .ok c => (.ok c, some c)
    | .error e => (.error e, none)

/-- igrf.py 325-385 `predict` -/
def predict (mode : Mode) (junk : Junk) (load : Py Table) (self : Igrf) (cache : Cache)
    (points : List (ℝ × ℝ × ℝ)) : Py (List V3) × Cache :=
  let r := coefficients load self cache
  (r.1.bind fun c => predictWith mode junk self c points, r.2)

/-- igrf.py 387-530 `grid` -/
def grid (mode mode' : Mode) (junk : Junk) (load : Py Table) (self : Igrf) (cache : Cache) (x : Grid) :
    Py (ℕ → ℕ → V3) × Cache :=
  let r := coefficients load self cache
  (r.1.bind fun c => gridWith mode mode' junk self c x, r.2)

/-- What a user can call on the object. igrf.py 297-303, 325, 387. -/
inductive Access where
  | coefficients
  | predict (mode : Mode) (junk : Junk) (points : List (ℝ × ℝ × ℝ))
  | grid (mode mode' : Mode) (junk : Junk) (x : Grid)

/-- The results of the calls of igrf.py 297-303, 325, 387. -/
inductive Result where
  | coefficients (r : Py (Arr × Arr))
  | predict (r : Py (List V3))
  | grid (r : Py (ℕ → ℕ → V3))

/-- One call: igrf.py 297-303, 325, 387. -/
def access (load : Py Table) (self : Igrf) (cache : Cache) : Access → Result × Cache
  | .coefficients => let r := coefficients load self cache; (.coefficients r.1, r.2)
  | .predict mode junk points => let r := predict mode junk load self cache points; (.predict r.1, r.2)
  | .grid mode mode' junk x => let r := grid mode mode' junk load self cache x; (.grid r.1, r.2)

/-- The results of a history of accesses. Calls of igrf.py 297-303, 325, 387. -/
def history (load : Py Table) (self : Igrf) : Cache → List Access → List Result
  | _, [] => []
  | cache, a :: as =>
    let r := access load self cache a
    r.1 :: history load self r.2 as

end

end Verif.Igrf
