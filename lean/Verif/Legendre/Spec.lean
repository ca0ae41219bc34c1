import Mathlib.Analysis.Calculus.IteratedDeriv.Defs
import Mathlib.Analysis.SpecialFunctions.Sqrt

/-!
Legendre functions by their definition (C60-C62).
-/

namespace Verif.Legendre

noncomputable section

/-- Rodrigues' formula: P_n(x) = 1 / (2^n n!) d^n/dx^n (x² - 1)^n. -/
def legendreP (n : ℕ) (x : ℝ) : ℝ :=
  1 / (2 ^ n * n.factorial) * iteratedDeriv n (fun t => (t ^ 2 - 1) ^ n) x

/-- P_n^m(x) = (1 - x²)^(m/2) d^m/dx^m P_n(x), without the Condon-Shortley phase. -/
def legendreNM (n m : ℕ) (x : ℝ) : ℝ := √(1 - x ^ 2) ^ m * iteratedDeriv m (legendreP n) x

/-- Schmidt factor: the square root of (2 - δ) (n - m)! / (n + m)!. -/
def schmidt (n m : ℕ) : ℝ :=
  √((if m = 0 then 1 else 2) * ((n - m).factorial : ℝ) / ((n + m).factorial : ℝ))

/-- Factor of the full normalization: the square root of (2 - δ) (2 n + 1) (n - m)! / (n + m)!. -/
def full (n m : ℕ) : ℝ :=
  √((if m = 0 then 1 else 2) * (2 * n + 1) * ((n - m).factorial : ℝ) / ((n + m).factorial : ℝ))

end

end Verif.Legendre
