import Verif.Ellipsoids.Model

/-!
Model of the class `Ellipsoid` of src/harmonica/_forward/ellipsoids/ellipsoids.py as an object with
mutable attributes: construction, the property setters and plain attributes, for values of any type.

An object holds references: writing into an array held by it is modelled in ObjectB.lean.
-/

namespace Verif.Ellipsoids

/-- Python values, as far as the checks of the class tell them apart. Numbers that are not a number are
`none`. -/
inductive PyVal where
  /-- None -/
  | none
  /-- an instance of numbers.Real -/
  | real (x : Option ℝ)
  /-- a numpy array: shape and data -/
  | array (shape : List ℕ) (data : List (Option ℝ))
  /-- an instance of collections.abc.Sequence, with what np.asarray makes of it -/
  | seq (asarray : Py (List ℕ × List (Option ℝ)))
  /-- anything else, which cannot be compared with zero -/
  | other

/-- The attributes of an object. -/
structure Obj where
  a : PyVal
  b : PyVal
  c : PyVal
  yaw : PyVal
  pitch : PyVal
  roll : PyVal
  center : PyVal
  density : PyVal
  susceptibility : PyVal
  remanent_mag : PyVal

/-- The test `value <= 0` on a number: false on nan -/
noncomputable def nonPositive : Option ℝ → Bool
  | Option.none => false
  | some x => decide (x ≤ 0)

/-- ellipsoids.py 219-232 `_check_positive_semiaxis`. The truth value of an array is that of its only
element, and an error for the others. -/
noncomputable def checkPositiveSemiaxis : PyVal → Py Unit
  | .real x => if nonPositive x then .error .ValueError else .ok ()
  | .array _ [x] => if nonPositive x then .error .ValueError else .ok ()
  | .array _ _ => .error .ValueError
  | .none => .error .TypeError
  | .seq _ => .error .TypeError
  | .other => .error .TypeError

/-- ellipsoids.py 134-144: the value stored by the setter of `density` (`float(value)` is the number) -/
def castDensity : PyVal → Py PyVal
  | .none => .ok .none
  | .real x => .ok (.real x)
  | _ => .error .TypeError

/-- ellipsoids.py 151-168: the value stored by the setter of `susceptibility` -/
def castSusceptibilityValue : PyVal → Py PyVal
  | .array shape data => if shape ≠ [3, 3] then .error .ValueError else .ok (.array shape data)
  | .real x => .ok (.real x)
  | .none => .ok .none
  | _ => .error .TypeError

/-- ellipsoids.py 179-192: the checks of the setter of `remanent_mag` after the conversion of
sequences -/
def checkRemanent : PyVal → Py PyVal
  | .array shape data => if shape ≠ [3] then .error .ValueError else .ok (.array shape data)
  | .none => .ok .none
  | _ => .error .TypeError

/-- ellipsoids.py 175-192: the value stored by the setter of `remanent_mag` -/
def castRemanentValue : PyVal → Py PyVal
  | .seq asarray => do
    let x ← asarray
    checkRemanent (.array x.1 x.2)
  | v => checkRemanent v

/-- The attributes that can be assigned. -/
inductive Attr where
  | a | b | c | yaw | pitch | roll | center | density | susceptibility | remanent_mag
  deriving DecidableEq

/-- Value of an attribute (the getters return the private attribute). -/
def Obj.get (o : Obj) : Attr → PyVal
  | .a => o.a
  | .b => o.b
  | .c => o.c
  | .yaw => o.yaw
  | .pitch => o.pitch
  | .roll => o.roll
  | .center => o.center
  | .density => o.density
  | .susceptibility => o.susceptibility
  | .remanent_mag => o.remanent_mag

/-- `object.attr = value` (ellipsoids.py 99-192): the object after the assignment, and the exception if
it raises one. The checks come before the store. -/
noncomputable def Obj.assign (o : Obj) (attr : Attr) (v : PyVal) : Obj × Option PyErr :=
  match attr with
  | .a => match checkPositiveSemiaxis v with
    | .ok _ => ({ o with a := v }, none)
    | .error e => (o, some e)
  | .b => match checkPositiveSemiaxis v with
    | .ok _ => ({ o with b := v }, none)
    | .error e => (o, some e)
  | .c => match checkPositiveSemiaxis v with
    | .ok _ => ({ o with c := v }, none)
    | .error e => (o, some e)
  | .yaw => ({ o with yaw := v }, none)
  | .pitch => ({ o with pitch := v }, none)
  | .roll => ({ o with roll := v }, none)
  | .center => ({ o with center := v }, none)
  | .density => match castDensity v with
    | .ok w => ({ o with density := w }, none)
    | .error e => (o, some e)
  | .susceptibility => match castSusceptibilityValue v with
    | .ok w => ({ o with susceptibility := w }, none)
    | .error e => (o, some e)
  | .remanent_mag => match castRemanentValue v with
    | .ok w => ({ o with remanent_mag := w }, none)
    | .error e => (o, some e)

/-- ellipsoids.py 71-98 `__init__`: there is no object if it raises. -/
noncomputable def construct (a b c yaw pitch roll center density susceptibility remanent_mag : PyVal) :
    Py Obj := do
  checkPositiveSemiaxis a
  checkPositiveSemiaxis b
  checkPositiveSemiaxis c
  let density ← castDensity density
  let susceptibility ← castSusceptibilityValue susceptibility
  let remanent_mag ← castRemanentValue remanent_mag
  return { a, b, c, yaw, pitch, roll, center, density, susceptibility, remanent_mag }

/-- A history of assignments by a program that goes on after exceptions. -/
noncomputable def Obj.run (o : Obj) (history : List (Attr × PyVal)) : Obj :=
  history.foldl (fun o step => (o.assign step.1 step.2).1) o

/-! ### The object as the forward models see it -/

/-- A number in arithmetic. -/
def PyVal.number : PyVal → Option ℝ
  | .real x => x
  | _ => Option.none

/-- Three numbers: a sequence or array of shape (3,) -/
def PyVal.vector : PyVal → Option V3
  | .seq (.ok ([3], [some x, some y, some z])) => some ![x, y, z]
  | .array [3] [some x, some y, some z] => some ![x, y, z]
  | _ => Option.none

/-- A (3, 3) array of numbers -/
def PyVal.matrix : PyVal → Option M3
  | .array [3, 3] [some a, some b, some c, some d, some e, some f, some g, some h, some i] =>
    some !![a, b, c; d, e, f; g, h, i]
  | _ => Option.none

/-- An optional attribute -/
def PyVal.optional {α : Type} (f : PyVal → Option α) : PyVal → Option (Option α)
  | .none => some Option.none
  | v => (f v).map some

/-- A susceptibility -/
def PyVal.susceptibilityValue (v : PyVal) : Option Susceptibility :=
  match v.number, v.matrix with
  | some x, _ => some (.scalar x)
  | Option.none, some t => some (.tensor t)
  | Option.none, Option.none => Option.none

/-- The attributes read by the forward models, when they are numbers. -/
def Obj.view (o : Obj) : Option Ellipsoid := do
  let a ← o.a.number
  let b ← o.b.number
  let c ← o.c.number
  let yaw ← o.yaw.number
  let pitch ← o.pitch.number
  let roll ← o.roll.number
  let center ← o.center.vector
  let density ← o.density.optional PyVal.number
  let susceptibility ← o.susceptibility.optional PyVal.susceptibilityValue
  let remanent_mag ← o.remanent_mag.optional PyVal.vector
  return { a, b, c, yaw, pitch, roll, center, density, susceptibility, remanent_mag }

end Verif.Ellipsoids
