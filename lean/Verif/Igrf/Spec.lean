import Verif.Igrf.Model
import Verif.Legendre.Spec
import Verif.Icgem.Spec
import Mathlib.Analysis.Calculus.Deriv.Basic
import Mathlib.Analysis.SpecialFunctions.Trigonometric.Inverse
import Mathlib.Algebra.BigOperators.Intervals

/-!
What C56-C59, C73 and C77 refer to: the time axis, the spherical harmonic field, the coefficient file.
-/

namespace Verif.Igrf

open Verif.Legendre

noncomputable section

/-! ### time -/

/-- A date within its year. -/
def Date.Valid (d : Date) : Prop := 0 ≤ d.seconds ∧ d.time < jan1 (d.year + 1)

/-- A table with K epochs, one every five years from `y0`, in the range of years of `datetime`. -/
structure Table.Regular (T : Table) (y0 : ℤ) (K : ℕ) : Prop where
  years : T.years = (List.range K).map fun (i : ℕ) => y0 + 5 * (i : ℤ)
  nonempty : 1 ≤ K
  first : 1 ≤ y0
  last : y0 + 5 * (K : ℤ) ≤ 9999

/-- Time of the epoch i: the first of January of its year. -/
def epochTime (y0 : ℤ) (i : ℕ) : ℝ := jan1 (y0 + 5 * (i : ℤ))

/-- Linear interpolation from `a` (at `s = 0`) to `b` (at `s = 1`). -/
def lerp (a b s : ℝ) : ℝ := (1 - s) * a + s * b

/-- Seconds in a year of 365.25 days. -/
def yearSeconds : ℝ := 31557600

/-- The coefficients: `G n m` and `H n m` have these values for 1 ≤ n ≤ N and m ≤ n, and zero elsewhere. -/
def HasValues (G H : Arr) (N : ℕ) (vg vh : Arr) : Prop :=
  ∀ n m, (1 ≤ n → n ≤ N → m ≤ n → G n m = vg n m ∧ H n m = vh n m) ∧
    (¬ (1 ≤ n ∧ n ≤ N ∧ m ≤ n) → G n m = 0 ∧ H n m = 0)

/-! ### field -/

/-- Schmidt semi-normalized function of the colatitude. -/
def schmidtP (n m : ℕ) (θ : ℝ) : ℝ := schmidt n m * legendreNM n m (Real.cos θ)

/-- Derivative with respect to the colatitude (one sided at the poles). -/
def schmidtDeriv (n m : ℕ) (θ : ℝ) : ℝ := derivWithin (schmidtP n m) (Set.Icc 0 Real.pi) θ

/-- Sum on degrees from `a` to `b` and orders. -/
def degreeSum (a b : ℕ) (f : ℕ → ℕ → ℝ) : ℝ := ∑ n ∈ Finset.Icc a b, ∑ m ∈ Finset.range (n + 1), f n m

/-- The documented sums, for longitude, colatitude and `q` = R / r. -/
def bEast (g h : Arr) (a b : ℕ) (lon θ q : ℝ) : ℝ :=
  -(1 / Real.sin θ) * degreeSum a b fun n m =>
    q ^ (n + 2) * (-(m : ℝ) * g n m * Real.sin (m * lon) + m * h n m * Real.cos (m * lon)) * schmidtP n m θ

def bNorth (g h : Arr) (a b : ℕ) (lon θ q : ℝ) : ℝ :=
  degreeSum a b fun n m =>
    q ^ (n + 2) * (g n m * Real.cos (m * lon) + h n m * Real.sin (m * lon)) * schmidtDeriv n m θ

def bRadial (g h : Arr) (a b : ℕ) (lon θ q : ℝ) : ℝ :=
  degreeSum a b fun n m =>
    ((n : ℝ) + 1) * q ^ (n + 2) * (g n m * Real.cos (m * lon) + h n m * Real.sin (m * lon)) * schmidtP n m θ

/-- The east component is zero next to the poles. -/
def field (g h : Arr) (a b : ℕ) (x : ℝ × ℝ × ℝ) : ℝ × ℝ × ℝ :=
  (if |Real.sin x.2.1| < 1e-10 then 0 else bEast g h a b x.1 x.2.1 x.2.2, bNorth g h a b x.1 x.2.1 x.2.2,
    bRadial g h a b x.1 x.2.1 x.2.2)

/-- The potential of the expansion: R Σ (R / r)^(n + 1) (g cos mλ + h sin mλ) P(cos θ). -/
def potential (R : ℝ) (g h : Arr) (a b : ℕ) (lon θ r : ℝ) : ℝ :=
  R * degreeSum a b fun n m =>
    (R / r) ^ (n + 1) * (g n m * Real.cos (m * lon) + h n m * Real.sin (m * lon)) * schmidtP n m θ

/-! ### schedules -/

/-- Number of accesses to the memory of one iteration, at most. -/
def accesses (max_degree : ℕ) : ℕ := 6 * ((max_degree + 1) * (max_degree + 1)) + 2

/-! ### ellipsoid -/

/-- Geodetic to geocentric spherical coordinates, for the semimajor axis and the squared eccentricity
(the formulas of boule, latitude in degrees). -/
def boule (a e2 : ℝ) : Ellipsoid where
  latitude := fun lat h =>
    let N := a / √(1 - e2 * Real.sin (radians lat) ^ 2)
    let X := (h + N) * Real.cos (radians lat)
    let Z := (h + (1 - e2) * N) * Real.sin (radians lat)
    degrees (Real.arcsin (Z / √(X ^ 2 + Z ^ 2)))
  radius := fun lat h =>
    let N := a / √(1 - e2 * Real.sin (radians lat) ^ 2)
    let X := (h + N) * Real.cos (radians lat)
    let Z := (h + (1 - e2) * N) * Real.sin (radians lat)
    √(X ^ 2 + Z ^ 2)

/-! ### file -/

/-- A row of the table: g or h, degree, order, one value for each year, secular variation. -/
structure Row where
  isG : Bool
  (n m : ℕ)
  values : List ℝ
  sv : ℝ

/-- The words of a row. -/
structure IsRow (toInt : Str → Option ℤ) (toFloat : Str → Option ℝ) (r : Row) (line : Str) : Prop where
  words : ∃ wn wm ws wsv, Icgem.IsLine ((if r.isG then ['g'] else ['h']) :: wn :: wm :: (ws ++ [wsv])) line ∧
    toInt wn = some (r.n : ℤ) ∧ toInt wm = some (r.m : ℤ) ∧ ws.map toFloat = r.values.map some ∧
    toFloat wsv = some r.sv
  degree : r.n ≤ 13
  order : r.m ≤ 13

/-- A coefficient file: three lines, the line with the years (three words before them and one after; a year
may end with a point and decimals), and the rows. -/
def IsFile (toInt : Str → Option ℤ) (toFloat : Str → Option ℝ) (years : List ℤ) (rows : List Row)
    (lines : List Str) : Prop :=
  ∃ l1 l2 l3 header body, lines = l1 :: l2 :: l3 :: header :: body ∧
    (∃ w1 w2 w3 ws wl, Icgem.IsLine (w1 :: w2 :: w3 :: (ws ++ [wl])) header ∧
      List.Forall₂ (fun w y => ∃ d rest, w = d ++ rest ∧ '.' ∉ d ∧ (∀ c ∈ rest.head?, c = '.') ∧
        toInt d = some y) ws years) ∧
    List.Forall₂ (IsRow toInt toFloat) rows body ∧ (∀ r ∈ rows, r.values.length = years.length) ∧
    rows.Pairwise fun r r' => (r.isG, r.n, r.m) ≠ (r'.isG, r'.n, r'.m)

/-- g or h, and their secular variation. -/
def Table.value (T : Table) (isG : Bool) (t n m : ℕ) : ℝ := if isG then T.g t n m else T.h t n m

def Table.variation (T : Table) (isG : Bool) (n m : ℕ) : ℝ := if isG then T.g_sv n m else T.h_sv n m

end

end Verif.Igrf
