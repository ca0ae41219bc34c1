import Verif.EqSources.Model

/-!
Model of the arrays that the equivalent sources keep after `fit`: which of them are new and which
are the arrays of the caller.

Arrays live in a memory and are named by their address. numpy facts used: `np.ravel` of a contiguous
array is a view of it and of any other array is a copy, `astype` copies, arithmetic makes a new array.
verde's `check_fit_input` and `n_1d_arrays` (external) are assumed to add no copies:
`n_1d_arrays(arrays, n)` is `tuple(np.atleast_1d(i).ravel() for i in arrays[:n])` and
`check_fit_input` returns the coordinates it was given. Arrays that overlap in memory without being
the same array are not modelled, and the shape of an array of the caller does not matter for its
view. Data and weights are given by value, because no attribute keeps them.
-/

namespace Verif.EqSources
open Verif.Forward Verif.Engine

/-- An array in memory, and whether its elements are contiguous (in C order).
Arguments of cartesian.py 236-281, spherical.py 176-217. -/
structure MemArr where
  arr : CArr
  contiguous : Bool := true

/-- The arrays in memory; the address of an array is its position. See cartesian.py 236-281. -/
abbrev Mem := List MemArr

/-- The addresses of three arrays. `coordinates`, `points` and `points_`: cartesian.py 270-278,
spherical.py 207-214. -/
abbrev Addr3 := ℕ × ℕ × ℕ

/-- The array at an address (addresses out of the memory do not occur; they hold no elements).
Reads at cartesian.py 269, 377-383 and spherical.py 206, 244-248. -/
def Mem.content (m : Mem) (a : ℕ) : CArr := (m[a]?).elim ⟨.float64, [0], []⟩ (·.arr)

/-- The three arrays at three addresses. cartesian.py 269, 377-383, spherical.py 206, 244-248. -/
def Mem.contents (m : Mem) (a : Addr3) : Coords :=
  (m.content a.1, m.content a.2.1, m.content a.2.2)

/-- A new 1d array. `astype` at cartesian.py 272, 277 and gradient_boosted.py 231, 236;
`coordinates[2] - self.relative_depth` at spherical.py 211. -/
def Mem.new (m : Mem) (d : DType) (l : List ℝ) : Mem × ℕ :=
  (m ++ [⟨⟨d, [l.length], l⟩, true⟩], m.length)

/-- `np.atleast_1d(a).ravel()`: a view of contiguous arrays, else a copy.
`vdb.n_1d_arrays` at spherical.py 206, 214. -/
def Mem.ravel (m : Mem) (a : ℕ) : Mem × ℕ :=
  if (m[a]?).elim true (·.contiguous) then (m, a) else m.new (m.content a).dtype (m.content a).data

/-- An estimator and the memory: its fitted attributes other than `points_`, and the addresses of
`points_`. Attributes set at cartesian.py 267-281, spherical.py 204-217. -/
structure MemObj where
  attrs : State := {}
  points : Option Addr3 := none

/-- The fitted attributes as they are now in memory. Reads of `self.points_`: cartesian.py 377-383,
spherical.py 244-248. -/
def MemObj.state (o : MemObj) (m : Mem) : State :=
  { o.attrs with points_ := o.points.map fun a => n1dArrays (m.contents a) }

/-- `fit` of `EquivalentSources` and `EquivalentSourcesGB`: `points_` are three new arrays
(`astype`). `f` is the call of `fit` with the arrays that are passed, on the attributes (without
`points_`, so that the points set by this call are the ones of its result).
cartesian.py 270-278, gradient_boosted.py 229-237. -/
def storeCopies (m : Mem) (d : DType) (f : State → State × Py Unit) (o : MemObj) :
    Mem × MemObj × Py Unit :=
  let r := f { o.attrs with points_ := none }
  match r.1.points_ with
  | none => (m, ⟨r.1, o.points⟩, r.2)
  | some p =>
    let e := m.new d p.1
    let n := e.1.new d p.2.1
    let u := n.1.new d p.2.2
    (u.1, ⟨{ r.1 with points_ := none }, some (e.2, n.2, u.2)⟩, r.2)

/-- `EquivalentSources.fit` on arrays in memory (`points` are the addresses of the parameter of that
name). cartesian.py 236-281. -/
noncomputable def fitMem (env : Env) (junk : Junk) (mode : Mode) (P : Params) (points : Option Addr3)
    (m : Mem) (coordinates : Addr3) (data : CArr) (weights : Option CArr) (o : MemObj) :
    Mem × MemObj × Py Unit :=
  storeCopies m P.dtype (fit env junk mode { P with points := points.map m.contents }
    (m.contents coordinates) data weights) o

/-- `EquivalentSourcesGB.fit` on arrays in memory. gradient_boosted.py 188-242. -/
noncomputable def fitMemGB (env : Env) (junk : Junk) (perm : ℕ → List ℕ) (modes : ℕ → Mode × Mode)
    (P : Params) (points : Option Addr3) (m : Mem) (coordinates : Addr3) (data : CArr)
    (weights : Option CArr) (o : MemObj) : Mem × MemObj × Py Unit :=
  storeCopies m P.dtype (fitGB env junk perm modes { P with points := points.map m.contents }
    (m.contents coordinates) data weights) o

/-- The arrays that `EquivalentSourcesSph.fit` keeps in `points_`: the raveled longitude and
latitude and a new array of radii, or the raveled arrays of the parameter `points`.
spherical.py 206-214. -/
noncomputable def sphKeep (P : SphParams) (points : Option Addr3) (m : Mem) (c : Addr3) : Mem × Addr3 :=
  match points with
  | none =>
    let e := m.ravel c.1
    let n := e.1.ravel c.2.1
    let u := n.1.new (m.content c.2.2).dtype ((m.content c.2.2).data.map fun r => r - P.relative_depth)
    (u.1, e.2, n.2, u.2)
  | some p =>
    let e := m.ravel p.1
    let n := e.1.ravel p.2.1
    let u := n.1.ravel p.2.2
    (u.1, e.2, n.2, u.2)

/-- `EquivalentSourcesSph.fit` on arrays in memory. spherical.py 176-217. -/
noncomputable def fitMemSph (env : Env) (junk : Junk) (mode : Mode) (P : SphParams)
    (points : Option Addr3) (m : Mem) (coordinates : Addr3) (data : CArr) (weights : Option CArr)
    (o : MemObj) : Mem × MemObj × Py Unit :=
  let r := fitSph env junk mode { P with points := points.map m.contents }
    (m.contents coordinates) data weights { o.attrs with points_ := none }
  match r.1.points_ with
  | none => (m, ⟨r.1, o.points⟩, r.2)
  | some _ =>
    let k := sphKeep P points m coordinates
    (k.1, ⟨{ r.1 with points_ := none }, some k.2⟩, r.2)

/-- `predict` of the Cartesian classes, with the sources as they are in memory.
cartesian.py 353-383. -/
noncomputable def predictMem (junk : Junk) (mode : Mode) (P : Params) (m : Mem) (o : MemObj)
    (q : Coords) : Py NdArray := predict junk mode P q (o.state m)

/-- `EquivalentSourcesSph.predict`, with the sources as they are in memory. spherical.py 219-248. -/
noncomputable def predictMemSph (junk : Junk) (mode : Mode) (m : Mem) (o : MemObj) (q : Coords) :
    Py NdArray := predictSph junk mode q (o.state m)

/-! ### programs -/

/-- What the program that uses an estimator does between two calls of `predict`: it makes a new
array, writes into an array it holds, or calls `fit` (with arrays it holds).
Calls of cartesian.py 236-281, gradient_boosted.py 188-242, spherical.py 176-217. -/
inductive Event (α : Type) where
  | new (x : MemArr)
  | write (a : ℕ) (x : MemArr)
  | fit (how : α) (coordinates : Addr3) (data : CArr) (weights : Option CArr)

/-- The memory, the estimator, and the addresses that the program cannot name: those of the arrays
that `fit` made (attributes of the estimator). See cartesian.py 236-281. -/
structure World where
  mem : Mem
  obj : MemObj := {}
  hidden : List ℕ := []

/-- One event. Writes to arrays that the program does not hold do not happen. `fit` is the method of
the class. cartesian.py 236-281, gradient_boosted.py 188-242, spherical.py 176-217. -/
def World.step {α : Type}
    (fit : α → Mem → Addr3 → CArr → Option CArr → MemObj → Mem × MemObj × Py Unit) (w : World) :
    Event α → World
  | .new x => { w with mem := w.mem ++ [x] }
  | .write a x => if a ∈ w.hidden then w else { w with mem := w.mem.set a x }
  | .fit how c d wt =>
    let r := fit how w.mem c d wt w.obj
    ⟨r.1, r.2.1, w.hidden ++ (List.range r.1.length).filter fun i => w.mem.length ≤ i⟩

end Verif.EqSources
