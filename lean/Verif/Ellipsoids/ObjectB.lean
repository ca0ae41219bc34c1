import Verif.Ellipsoids.Object

/-!
Model of the class `Ellipsoid` of src/harmonica/_forward/ellipsoids/ellipsoids.py with the arrays and
lists of the program that it refers to. The setters store the value they are given, without copies,
except that `float(value)` makes a number and `np.asarray` a new array of a sequence.

Writes into an array keep its shape (`array.shape = ..` and `array.resize` are not modelled); arrays that
share memory without being the same array are not modelled.
-/

namespace Verif.Ellipsoids

/-- A value that can be changed in place. Arguments of ellipsoids.py 71-97. -/
inductive Cell where
  /-- a numpy array: shape and data -/
  | array (shape : List ℕ) (data : List (Option ℝ))
  /-- a list, with what np.asarray makes of it -/
  | list (asarray : Py (List ℕ × List (Option ℝ)))

/-- The value of a cell. Reads of the attributes: ellipsoids.py 99-192. -/
def Cell.val : Cell → PyVal
  | .array shape data => .array shape data
  | .list asarray => .seq asarray

/-- The cells that another one can be changed to in place. Arguments of ellipsoids.py 71-97. -/
def Cell.sameKind : Cell → Cell → Bool
  | .array shape _, .array shape' _ => shape = shape'
  | .list _, .list _ => true
  | _, _ => false

/-- A Python value: one that cannot be changed (a number, None, a tuple) or the address of a cell.
Arguments of ellipsoids.py 71-97. -/
inductive Ref where
  | val (v : PyVal)
  | addr (a : ℕ)

/-- What a reference is worth in a memory (addresses out of the memory do not occur).
ellipsoids.py 99-192. -/
def Ref.read (mem : List Cell) : Ref → PyVal
  | .val v => v
  | .addr a => (mem[a]?).elim .other Cell.val

/-- The attributes of an object. ellipsoids.py 71-97. -/
abbrev RefObj := Attr → Ref

/-- The attributes as they are in memory. ellipsoids.py 99-192. -/
def RefObj.read (mem : List Cell) (o : RefObj) : Obj where
  a := (o .a).read mem
  b := (o .b).read mem
  c := (o .c).read mem
  yaw := (o .yaw).read mem
  pitch := (o .pitch).read mem
  roll := (o .roll).read mem
  center := (o .center).read mem
  density := (o .density).read mem
  susceptibility := (o .susceptibility).read mem
  remanent_mag := (o .remanent_mag).read mem

/-- The value that a setter stores when its checks pass: the one it is given, or a new array for a
sequence given as `remanent_mag`. The memory, and the address of the new array, come with it.
ellipsoids.py 99-192, `np.asarray` at 177-178. -/
def storeRef (mem : List Cell) (attr : Attr) (v : Ref) : List Cell × Ref :=
  match attr, v.read mem with
  | .remanent_mag, .seq (.ok x) => (mem ++ [.array x.1 x.2], .addr mem.length)
  | _, _ => (mem, v)

/-- The memory, an object, and the addresses that the program does not hold, because they were made by a
setter. See ellipsoids.py 71-192. -/
structure RefWorld where
  mem : List Cell
  obj : RefObj
  hidden : List ℕ := []

/-- What a program does: it makes an array or list, changes one that it holds, or assigns to an
attribute. See ellipsoids.py 99-192. -/
inductive RefEvent where
  | new (x : Cell)
  | write (a : ℕ) (x : Cell)
  | assign (attr : Attr) (v : Ref)

/-- Is the address of the new array if there is one. `np.asarray` at ellipsoids.py 177-178. -/
def newAddr (mem mem' : List Cell) : List ℕ := if mem'.length = mem.length then [] else [mem.length]

/-- One event; assignments that raise leave everything as it was. ellipsoids.py 99-192. -/
noncomputable def RefWorld.step (w : RefWorld) : RefEvent → RefWorld
  | .new x => { w with mem := w.mem ++ [x] }
  | .write a x =>
    if a ∈ w.hidden ∨ ((w.mem[a]?).elim true fun y => y.sameKind x) = false then w
    else { w with mem := w.mem.set a x }
  | .assign attr v =>
    match ((RefObj.read w.mem w.obj).assign attr (v.read w.mem)).2 with
    | some _ => w
    | none =>
      let s := storeRef w.mem attr v
      ⟨s.1, Function.update w.obj attr s.2, w.hidden ++ newAddr w.mem s.1⟩

/-- `Ellipsoid(...)`, ellipsoids.py 71-97, by a program that holds the arrays and lists `mem`. -/
noncomputable def constructRef (mem : List Cell) (args : RefObj) : Py RefWorld := do
  let _ ← construct ((args .a).read mem) ((args .b).read mem) ((args .c).read mem)
    ((args .yaw).read mem) ((args .pitch).read mem) ((args .roll).read mem)
    ((args .center).read mem) ((args .density).read mem) ((args .susceptibility).read mem)
    ((args .remanent_mag).read mem)
  let s := storeRef mem .remanent_mag (args .remanent_mag)
  return ⟨s.1, Function.update args .remanent_mag s.2, newAddr mem s.1⟩

end Verif.Ellipsoids
