import Verif.Basic
import Mathlib.Analysis.SpecialFunctions.Sqrt

/-!
Model of src/harmonica/_spherical_harmonics/legendre.py.

The arrays `p` and `dp` are functions of two indices that the routines update in place: what is not
written stays as it was. With `max_degree = 0` the normalized routines write outside the arrays (numba
does not check): this is an IndexError here. `np.sqrt(np.arange(...))` is the square root of the index;
all its indices are within its size 2 (max_degree + 1).
-/

namespace Verif.Legendre

noncomputable section

/-- The array `p` of legendre.py 27-378. -/
abbrev Arr := ℕ → ℕ → ℝ

/-- `p[n, m] = v`. legendre.py 27-378. -/
def upd (p : Arr) (n m : ℕ) (v : ℝ) : Arr := fun i j => if i = n ∧ j = m then v else p i j

/-- `for k in range(start, stop)`. legendre.py 27-378. -/
def forRange {α : Type} (start stop : ℕ) (a : α) (f : α → ℕ → α) : α :=
  (List.range' start (stop - start)).foldl f a

/-- Square root of an integer. legendre.py 165, 236, 290, 363. -/
def sq (k : ℕ) : ℝ := √(k : ℝ)

/-- legendre.py 15-23 `_rescale` -/
def rescale (u : ℝ) (max_degree : ℕ) (p : Arr) : Arr :=
  (forRange 0 (max_degree + 1) (p, (1e280 : ℝ)) fun s m =>
    let r := if m > 0 then s.2 * u else s.2
    (forRange m (max_degree + 1) s.1 fun p n => upd p n m (p n m * r), r)).1

/-- legendre.py 26-70 `associated_legendre` -/
def associatedLegendre (x : ℝ) (max_degree : ℕ) (p : Arr) : Arr :=
  let u := √((1 - x) * (1 + x))
  let p := upd p 0 0 1
  forRange 1 (max_degree + 1) p fun p n =>
    let p := forRange 0 (n - 1) p fun p m =>
      let a := (2 * (n : ℝ) - 1) / ((n : ℝ) - m)
      let b := -((n : ℝ) + m - 1) / ((n : ℝ) - m)
      upd p n m (a * x * p (n - 1) m + b * p (n - 2) m)
    let c := 2 * (n : ℝ) - 1
    let p := upd p n (n - 1) (c * x * p (n - 1) (n - 1))
    let d := 2 * (n : ℝ) - 1
    upd p n n (d * u * p (n - 1) (n - 1))

/-- legendre.py 73-124 `associated_legendre_derivative` -/
def associatedLegendreDerivative (max_degree : ℕ) (p dp : Arr) : Arr :=
  let dp := upd dp 0 0 0
  forRange 1 (max_degree + 1) dp fun dp n =>
    let a : ℝ := -1
    let dp := upd dp n 0 (a * p n 1)
    let dp := forRange 1 n dp fun dp m =>
      let b := 0.5 * ((n : ℝ) + m) * ((n : ℝ) - m + 1)
      let c : ℝ := -0.5
      upd dp n m (b * p n (m - 1) + c * p n (m + 1))
    let d := (n : ℝ)
    upd dp n n (d * p n (n - 1))

/-- legendre.py 127-189 `associated_legendre_schmidt` -/
def associatedLegendreSchmidt (x : ℝ) (max_degree : ℕ) (p : Arr) : Py Arr :=
  if max_degree = 0 then .error .IndexError
  else
    let u := √((1 - x) * (1 + x))
    let p := upd p 0 0 (1 * 1e-280)
    let p := upd p 1 0 (x * 1e-280)
    let p := upd p 1 1 (p 0 0)
    let p := forRange 2 (max_degree + 1) p fun p n =>
      let a := (2 * (n : ℝ) - 1) / (sq n ^ 2)
      let b := -((sq (n - 1) / sq n) ^ 2)
      upd p n 0 (a * x * p (n - 1) 0 + b * p (n - 2) 0)
    let p := forRange 2 (max_degree + 1) p fun p n =>
      let p := forRange 1 (n - 1) p fun p m =>
        let a := (2 * (n : ℝ) - 1) / (sq (n + m) * sq (n - m))
        let b := -sq (n + m - 1) * sq (n - m - 1) / (sq (n + m) * sq (n - m))
        upd p n m (a * x * p (n - 1) m + b * p (n - 2) m)
      let c := sq (2 * n - 1)
      let p := upd p n (n - 1) (c * x * p (n - 1) (n - 1))
      let d := sq (2 * n - 1) / sq (2 * n)
      upd p n n (d * p (n - 1) (n - 1))
    .ok (rescale u max_degree p)

/-- legendre.py 192-251 `associated_legendre_schmidt_derivative` -/
def associatedLegendreSchmidtDerivative (max_degree : ℕ) (p dp : Arr) : Py Arr :=
  if max_degree = 0 then .error .IndexError
  else
    let dp := upd dp 0 0 0
    let dp := upd dp 1 0 (-p 1 1)
    let dp := upd dp 1 1 (p 1 0)
    .ok (forRange 2 (max_degree + 1) dp fun dp n =>
      let a := -sq n * sq (n + 1) / sq 2
      let dp := upd dp n 0 (a * p n 1)
      let b := 0.5 * sq n * sq (n + 1) * sq 2
      let c := -0.5 * sq (n + 2) * sq (n - 1)
      let dp := upd dp n 1 (b * p n 0 + c * p n 2)
      let dp := forRange 2 n dp fun dp m =>
        let b := 0.5 * sq (n + m) * sq (n - m + 1)
        let c := -0.5 * sq (n + m + 1) * sq (n - m)
        upd dp n m (b * p n (m - 1) + c * p n (m + 1))
      let d := 0.5 * sq 2 * sq n
      upd dp n n (d * p n (n - 1)))

/-- legendre.py 254-319 `associated_legendre_full` -/
def associatedLegendreFull (x : ℝ) (max_degree : ℕ) (p : Arr) : Py Arr :=
  if max_degree = 0 then .error .IndexError
  else
    let u := √((1 - x) * (1 + x))
    let p := upd p 0 0 (1 * 1e-280)
    let p := upd p 1 0 (x * sq 3 * 1e-280)
    let p := upd p 1 1 (p 0 0 * sq 3)
    let p := forRange 2 (max_degree + 1) p fun p n =>
      let a := sq (2 * n - 1) * sq (2 * n + 1) / n
      let b := -((n : ℝ) - 1) * sq (2 * n + 1) / (n * sq (2 * n - 3))
      upd p n 0 (a * x * p (n - 1) 0 + b * p (n - 2) 0)
    let p := forRange 2 (max_degree + 1) p fun p n =>
      let p := forRange 1 (n - 1) p fun p m =>
        let a := sq (2 * n + 1) * sq (2 * n - 1) / (sq (n + m) * sq (n - m))
        let b := -sq (n + m - 1) * sq (n - m - 1) * sq (2 * n + 1) /
          (sq (n + m) * sq (n - m) * sq (2 * n - 3))
        upd p n m (a * x * p (n - 1) m + b * p (n - 2) m)
      let c := sq (2 * n + 1)
      let p := upd p n (n - 1) (c * x * p (n - 1) (n - 1))
      let d := sq (2 * n + 1) / sq (2 * n)
      upd p n n (d * p (n - 1) (n - 1))
    .ok (rescale u max_degree p)

/-- legendre.py 322-378 `associated_legendre_full_derivative` -/
def associatedLegendreFullDerivative (max_degree : ℕ) (p dp : Arr) : Py Arr :=
  if max_degree = 0 then .error .IndexError
  else
    let dp := upd dp 0 0 0
    let dp := upd dp 1 0 (-p 1 1)
    let dp := upd dp 1 1 (p 1 0)
    .ok (forRange 2 (max_degree + 1) dp fun dp n =>
      let a := -sq n * sq (n + 1) / sq 2
      let dp := upd dp n 0 (a * p n 1)
      let b := 0.5 * sq 2 * sq (n + 1) * sq n
      let c := -0.5 * sq (n + 2) * sq (n - 1)
      let dp := upd dp n 1 (b * p n 0 + c * p n 2)
      let dp := forRange 2 n dp fun dp m =>
        let b := 0.5 * sq (n + m) * sq (n - m + 1)
        let c := -0.5 * sq (n + m + 1) * sq (n - m)
        upd dp n m (b * p n (m - 1) + c * p n (m + 1))
      let d := 0.5 * sq 2 * sq n
      upd dp n n (d * p n (n - 1)))

end

end Verif.Legendre
