import Verif.Ellipsoids.Model

/-!
The export and the printed representation of the class `Ellipsoid` of
src/harmonica/_forward/ellipsoids/ellipsoids.py.
-/

namespace Verif.Ellipsoids

/-- ellipsoids.py 317-322 `to_pyvista`: the points of the mesh. `sphere` are the points of the mesh that
`pyvista.ParametricEllipsoid` builds for unit radii; with other radii it multiplies their coordinates by the
radii. `rotate` multiplies the points by the matrix and `translate` adds the vector. The faces are not
modelled. -/
noncomputable def toPyvista (sphere : List V3) (e : Ellipsoid) : List V3 :=
  let ellipsoid := sphere.map fun s => ![e.a * s 0, e.b * s 1, e.c * s 2]
  let ellipsoid := ellipsoid.map fun p => e.rotationMatrix.mulVec p
  ellipsoid.map fun p => p + e.center

/-- What Python and numpy print: a float, a tuple of three floats, a matrix (its lines stripped and joined with
spaces, ellipsoids.py 282-285) and an array. ellipsoids.py 262-291. -/
structure Printer where
  float : ℝ → String
  tuple : ℝ → ℝ → ℝ → String
  matrix : M3 → String
  array : V3 → String

/-- ellipsoids.py 262-291 `__repr__`: the list `attrs` before it is joined with commas. -/
noncomputable def reprAttrs (P : Printer) (e : Ellipsoid) : List String :=
  let attrs := ["a=" ++ P.float e.a, "b=" ++ P.float e.b, "c=" ++ P.float e.c,
    "center=" ++ P.tuple (e.center 0) (e.center 1) (e.center 2), "yaw=" ++ P.float e.yaw,
    "pitch=" ++ P.float e.pitch, "roll=" ++ P.float e.roll]
  let attrs := match e.density with
    | some density => attrs ++ ["density=" ++ P.float density]
    | none => attrs
  let attrs := match e.susceptibility with
    | some (.scalar k) => attrs ++ ["susceptibility=" ++ P.float k]
    | some (.tensor t) => attrs ++ ["susceptibility=" ++ P.matrix t]
    | none => attrs
  match e.remanent_mag with
    | some m => attrs ++ ["remanent_mag=" ++ P.array m]
    | none => attrs

end Verif.Ellipsoids
