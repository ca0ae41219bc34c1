import Verif.Igrf.Model
import Verif.Forward.Model

/-!
Model of `IGRF14.predict` (igrf.py 325-385) for coordinates of any number and any shapes: the broadcast shape, the
arrays that are flattened without being broadcast, the loop that reads arrays of other sizes, and what is returned
for a single point. boule's `geodetic_to_spherical` is applied to arrays by the rule of numpy for arithmetic on
arrays of one dimension.
-/

namespace Verif.Igrf

open Verif.Legendre Verif.Engine Verif.Forward

noncomputable section

/-- Arithmetic on two arrays of one dimension: sizes that agree, or one of them is 1 and that array is repeated.
igrf.py 354-356 (inside boule), 553-557. -/
def zipArrays (f : ℝ → ℝ → ℝ) (a b : List ℝ) : Py (List ℝ) :=
  if a.length = b.length then .ok (List.zipWith f a b)
  else if a.length = 1 then .ok (b.map fun y => f (a.headD 0) y)
  else if b.length = 1 then .ok (a.map fun x => f x (b.headD 0))
  else .error .ValueError

/-- `c.reshape(cast.shape)`. igrf.py 378. -/
def reshapeTo (shape : List ℕ) (data : List ℝ) : Py NdArray :=
  if data.length = shape.prod then .ok ⟨shape, data⟩ else .error .ValueError

/-- igrf.py 533-558 `vector_spherical_to_geodetic` for arrays of one dimension. -/
def rotateArrays (latitude latitude_spherical : List ℝ) (b : List ℝ × List ℝ × List ℝ) :
    Py (List ℝ × List ℝ × List ℝ) := do
  let angle ← zipArrays (fun s l => radians (s - l)) latitude_spherical latitude
  let cos := angle.map Real.cos
  let sin := angle.map Real.sin
  let n1 ← zipArrays (· * ·) cos b.2.1
  let n2 ← zipArrays (· * ·) sin b.2.2
  let north ← zipArrays (· + ·) n1 n2
  let u1 ← zipArrays (· * ·) (sin.map fun x => -x) b.2.1
  let u2 ← zipArrays (· * ·) cos b.2.2
  let up ← zipArrays (· + ·) u1 u2
  return (b.1, north, up)

/-- What `predict` returns: three arrays, or three numbers when there is one point. igrf.py 376-385. -/
inductive Field where
  | arrays (b : NdArray × NdArray × NdArray)
  | numbers (b : V3)

/-- The first number of an array: `float(c)` of an array with one element. igrf.py 384. -/
def first (a : NdArray) : ℝ := a.data.headD 0

/-- What comes before the coefficients: the broadcast shape, the geocentric latitude and the radius.
igrf.py 352-356. -/
def prepare (e : Ellipsoid) (longitude latitude height : NdArray) : Py (List ℕ × List ℝ × List ℝ) := do
  let shape ← npBroadcast longitude latitude height
  let latitude_sph ← zipArrays e.latitude latitude.data height.data
  let radius ← zipArrays e.radius latitude.data height.data
  return (shape, latitude_sph, radius)

/-- What comes after the coefficients: the loop, which reads the arrays at each index of the longitude (`mem` is
what it finds past the end of an array), the rotation and the output. igrf.py 357-385. -/
def compute (mode : Mode) (junk : Junk) (mem : Forward.Junk) (self : Igrf) (c : Arr × Arr)
    (longitude latitude : NdArray) (p : List ℕ × List ℝ × List ℝ) : Py Field := do
  let points := (List.range longitude.data.length).map fun i =>
    (radians (rd mem "longitude" longitude.data i),
      rd mem "colatitude" (p.2.1.map fun l => radians (90 - l)) i,
      rd mem "radius" (p.2.2.map fun r => referenceRadius / r) i)
  let b ← magneticField mode junk points c.1 c.2 self.min_degree self.max_degree
  let v ← rotateArrays latitude.data p.2.1 (b.map (·.1), b.map (·.2.1), b.map (·.2.2))
  let be ← reshapeTo p.1 v.1
  let bn ← reshapeTo p.1 v.2.1
  let bu ← reshapeTo p.1 v.2.2
  return if longitude.data.length = 1 then .numbers (first be, first bn, first bu) else .arrays (be, bn, bu)

/-- igrf.py 325-385 `predict` for any tuple of arrays. Unpacking into three variables (line 353) raises ValueError
for tuples with another number of arrays. -/
def predictNd (mode : Mode) (junk : Junk) (mem : Forward.Junk) (load : Py Table) (self : Igrf) (cache : Cache)
    (coordinates : List NdArray) : Py Field × Cache :=
  match coordinates with
  | [longitude, latitude, height] =>
    match prepare self.ellipsoid longitude latitude height with
    | .error e => (.error e, cache)
    | .ok p =>
      let r := coefficients load self cache
      (r.1.bind fun c => compute mode junk mem self c longitude latitude p, r.2)
  | _ => (.error .ValueError, cache)

end

end Verif.Igrf
