import Verif.Ellipsoids.ModelB

/-! The texts of `str` and `repr` of the class `Ellipsoid` of src/harmonica/_forward/ellipsoids/ellipsoids.py. -/

namespace Verif.Ellipsoids

/-- What Python and numpy print: the text of `float(x)` in a formatted string and the lines of the text of a matrix
(`str(matrix).splitlines()`). ellipsoids.py 234-260. -/
structure TextPrinter where
  float : ℝ → String
  lines : M3 → List String

/-- ellipsoids.py 234-260 `__str__` of an object of the class `Ellipsoid` itself (`type(self).__name__` is
`Ellipsoid`). -/
noncomputable def strText (P : TextPrinter) (e : Ellipsoid) : String :=
  let string := "Ellipsoid:\n" ++
    ("  • a:      " ++ P.float e.a ++ " m\n") ++
    ("  • b:      " ++ P.float e.b ++ " m\n") ++
    ("  • c:      " ++ P.float e.c ++ " m\n") ++
    ("  • center: (" ++ P.float (e.center 0) ++ ", " ++ P.float (e.center 1) ++ ", " ++ P.float (e.center 2) ++
      ") m\n") ++
    ("  • yaw:    " ++ P.float e.yaw ++ "\n") ++
    ("  • pitch:  " ++ P.float e.pitch ++ "\n") ++
    ("  • roll:   " ++ P.float e.roll)
  let string := match e.density with
    | some density => string ++ ("\n  • density: " ++ P.float density ++ " kg/m³")
    | none => string
  let string := match e.susceptibility with
    | some (.scalar k) => string ++ ("\n  • susceptibility: " ++ P.float k)
    | some (.tensor t) => (P.lines t).foldl (fun string line => string ++ ("\n        " ++ line))
        (string ++ "\n  • susceptibility:")
    | none => string
  match e.remanent_mag with
  | some m => string ++ ("\n  • remanent_mag: (" ++ P.float (m 0) ++ ", " ++ P.float (m 1) ++ ", " ++ P.float (m 2) ++
      ") A/m")
  | none => string

/-- ellipsoids.py 262-291 `__repr__` of an object of the class `Ellipsoid` itself: the list `attrs` (`reprAttrs`) joined
with commas. The first part of `self.__class__.__module__` is `harmonica`. -/
noncomputable def reprText (P : Printer) (e : Ellipsoid) : String :=
  "harmonica." ++ "Ellipsoid" ++ "(" ++ ", ".intercalate (reprAttrs P e) ++ ")"

end Verif.Ellipsoids
