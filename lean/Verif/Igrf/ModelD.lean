import Verif.Igrf.ModelB

/-!
Model of an IGRF14 object (igrf.py 281-530) whose public attributes `date`, `min_degree`, `max_degree` and
`ellipsoid` are assigned by the program after its construction, and whose arrays of coefficients, which the property
`coefficients` hands out, are written by the program. Nothing in the class looks at these assignments: the
coefficients are computed on the first use and kept.
-/

namespace Verif.Igrf

open Verif.Legendre

noncomputable section

/-- An object: its public attributes, and `_coefficients` with the degree of the arrays (their shape is that number
plus one, twice). igrf.py 288-303, 131-132. -/
structure Obj where
  attrs : Igrf
  coeffs : Option (ℕ × (Arr × Arr))

/-- igrf.py 281-295 `__init__` -/
def Obj.new (attrs : Igrf) : Obj := ⟨attrs, none⟩

/-- What a program does with an object: assigns an attribute (igrf.py 288-294), writes an element of one of the
arrays it gets from `coefficients` (`igrf.coefficients[0][n, m] = v`, igrf.py 297-303; negative indices are not
modelled), or uses the property and the methods (igrf.py 297-303, 325, 387). -/
inductive Use where
  | setDate (date : Date)
  | setMinDegree (min_degree : ℕ)
  | setMaxDegree (max_degree : ℕ)
  | setEllipsoid (ellipsoid : Ellipsoid)
  | write (isG : Bool) (n m : ℕ) (v : ℝ)
  | access (a : Access)

/-- What the program gets. igrf.py 297-303, 325, 387. -/
inductive Reply where
  | assigned (r : Py Unit)
  | result (r : Result)

/-- igrf.py 297-303 `coefficients` of the object. -/
def Obj.load (file : Py Table) (o : Obj) : Py (ℕ × (Arr × Arr)) × Obj :=
  match o.coeffs with
  | some c => (.ok c, o)
  | none =>
    match file.bind (interpolateCoefficients o.attrs.date o.attrs.max_degree) with
    | .ok c => (.ok (o.attrs.max_degree, c), { o with coeffs := some (o.attrs.max_degree, c) })
    | .error e => (.error e, o)

/-- One use of the object. `none` when the compiled loops of igrf.py 561-704 access memory outside their arrays, which
happens if `max_degree` is greater than the degree of the arrays: then nothing is known of what follows. Simplification:
also if there are no points. -/
def Obj.step (file : Py Table) (o : Obj) : Use → Option (Reply × Obj)
  | .setDate d => some (.assigned (.ok ()), { o with attrs := { o.attrs with date := d } })
  | .setMinDegree n => some (.assigned (.ok ()), { o with attrs := { o.attrs with min_degree := n } })
  | .setMaxDegree n => some (.assigned (.ok ()), { o with attrs := { o.attrs with max_degree := n } })
  | .setEllipsoid e => some (.assigned (.ok ()), { o with attrs := { o.attrs with ellipsoid := e } })
  | .write isG n m v =>
    match o.load file with
    | (.error e, o) => some (.assigned (.error e), o)
    | (.ok (N, c), o) =>
      if n ≤ N ∧ m ≤ N then
        some (.assigned (.ok ()), { o with
          coeffs := some (N, if isG then (upd c.1 n m v, c.2) else (c.1, upd c.2 n m v)) })
      else some (.assigned (.error .IndexError), o)
  | .access .coefficients =>
    match o.load file with
    | (.error e, o) => some (.result (.coefficients (.error e)), o)
    | (.ok (_, c), o) => some (.result (.coefficients (.ok c)), o)
  | .access (.predict mode junk points) =>
    match o.load file with
    | (.error e, o) => some (.result (.predict (.error e)), o)
    | (.ok (N, c), o) =>
      if o.attrs.max_degree > N then none
      else some (.result (.predict (predictWith mode junk o.attrs c points)), o)
  | .access (.grid mode mode' junk x) =>
    match o.load file with
    | (.error e, o) => some (.result (.grid (.error e)), o)
    | (.ok (N, c), o) =>
      if o.attrs.max_degree > N then none
      else some (.result (.grid (gridWith mode mode' junk o.attrs c x)), o)

/-- The object after a history of uses. Calls and assignments of igrf.py 288-303, 325, 387. -/
def Obj.after (file : Py Table) (o : Obj) : List Use → Option Obj
  | [] => some o
  | u :: us =>
    match o.step file u with
    | none => none
    | some (_, o) => o.after file us

end

end Verif.Igrf
