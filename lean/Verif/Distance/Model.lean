import Verif.Basic

/-! Model of the distance functions of src/harmonica/_forward/utils.py. -/

namespace Verif.Distance
open Real

/-- A point given by three coordinates: (easting, northing, upward), (longitude, latitude, radius)
or (longitude, latitude, height). The tuples `coordinates` of _forward/utils.py 18-68, 91-160. -/
structure P3 where
  x : ℝ
  y : ℝ
  z : ℝ

/-- _forward/utils.py 91-118 `distance_cartesian`. -/
noncomputable def distanceCartesian (p q : P3) : ℝ :=
  sqrt ((p.x - q.x) ^ 2 + (p.y - q.y) ^ 2 + (p.z - q.z) ^ 2)

/-- _forward/utils.py 164-201 `distance_spherical_core`; returns (dist, cospsi, coslambda). -/
noncomputable def distanceSphericalCore
    (longitude cosphi sinphi radius longitude_p cosphi_p sinphi_p radius_p : ℝ) : ℝ × ℝ × ℝ :=
  let coslambda := cos (longitude_p - longitude)
  let cospsi := sinphi_p * sinphi + cosphi_p * cosphi * coslambda
  let dist := sqrt ((radius - radius_p) ^ 2 + 2 * radius * radius_p * (1 - cospsi))
  (dist, cospsi, coslambda)

/-- _forward/utils.py 122-160 `distance_spherical` (angles in degrees). -/
noncomputable def distanceSpherical (p q : P3) : ℝ :=
  let longitude := radians p.x
  let latitude := radians p.y
  let longitude_p := radians q.x
  let latitude_p := radians q.y
  let cosphi_p := cos latitude_p
  let sinphi_p := sin latitude_p
  let cosphi := cos latitude
  let sinphi := sin latitude
  (distanceSphericalCore longitude cosphi sinphi p.z longitude_p cosphi_p sinphi_p q.z).1

/-- The two attributes of `boule.Ellipsoid` used by the code; boule itself is outside the model.
Used at _forward/utils.py 258-271 and igrf.py 354-356, 448-450. -/
structure BouleEllipsoid where
  /-- `ellipsoid.prime_vertical_radius(sinphi)` -/
  primeVerticalRadius : ℝ → ℝ
  /-- `ellipsoid.first_eccentricity` -/
  firstEccentricity : ℝ

/-- _forward/utils.py 275-330 `geodetic_distance_core`. -/
noncomputable def geodeticDistanceCore
    (cosphi sinphi height cosphi_p sinphi_p height_p coslambda
      prime_vertical_radius prime_vertical_radius_p ecc_sq : ℝ) : ℝ :=
  let upward_sum := prime_vertical_radius + height
  let upward_sum_p := prime_vertical_radius_p + height_p
  sqrt (upward_sum_p ^ 2 * cosphi_p ^ 2
    + upward_sum ^ 2 * cosphi ^ 2
    - 2 * upward_sum * upward_sum_p * cosphi * cosphi_p * coslambda
    + (upward_sum_p - ecc_sq * prime_vertical_radius_p) ^ 2 * sinphi_p ^ 2
    + (upward_sum - ecc_sq * prime_vertical_radius) ^ 2 * sinphi ^ 2
    - (2 * (upward_sum_p - ecc_sq * prime_vertical_radius_p)
        * (upward_sum - ecc_sq * prime_vertical_radius) * sinphi * sinphi_p))

/-- _forward/utils.py 204-272 `distance_geodetic`. -/
noncomputable def distanceGeodetic (p q : P3) (ell : BouleEllipsoid) : ℝ :=
  let longitude := radians p.x
  let latitude := radians p.y
  let longitude_p := radians q.x
  let latitude_p := radians q.y
  let cosphi := cos latitude
  let sinphi := sin latitude
  let cosphi_p := cos latitude_p
  let sinphi_p := sin latitude_p
  let coslambda := cos (longitude_p - longitude)
  geodeticDistanceCore cosphi sinphi p.z cosphi_p sinphi_p q.z coslambda
    (ell.primeVerticalRadius sinphi) (ell.primeVerticalRadius sinphi_p)
    (ell.firstEccentricity ^ 2)

/-- _forward/utils.py 71-87 `check_coordinate_system`. -/
def checkCoordinateSystem (system : String)
    (valid : List String := ["cartesian", "spherical", "geodetic"]) : Py Unit :=
  if system ∈ valid then .ok () else .error .ValueError

/-- _forward/utils.py 18-68 `distance`. The ellipsoid is an `Option` (`None` by default); calling
the geodetic branch with `None` fails on attribute access. -/
noncomputable def distance (p q : P3) (system : String) (ellipsoid : Option BouleEllipsoid) :
    Py ℝ := do
  checkCoordinateSystem system
  if system = "cartesian" then return distanceCartesian p q
  if system = "spherical" then return distanceSpherical p q
  match ellipsoid with
  | none => .error .AttributeError
  | some e => return distanceGeodetic p q e

end Verif.Distance
