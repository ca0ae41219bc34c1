import Verif.Euler.Model

/-! Changes of the data of Euler's methods that do not change the source, for C131. -/

namespace Verif.Euler

open Matrix

/-- A change of the survey: a rotation (or reflection) and a translation of the axes, a factor of the field and its
derivatives, another order of the observations. -/
structure Change (N : ℕ) where
  R : Matrix (Fin 3) (Fin 3) ℝ
  t : Fin 3 → ℝ
  s : ℝ
  σ : Equiv.Perm (Fin N)
  orthogonal : R * Rᵀ = 1
  nonzero : s ≠ 0

namespace Change

variable {N : ℕ} (g : Change N)

/-- A position in the new axes. -/
def position (x : Fin 3 → ℝ) : Fin 3 → ℝ := fun k => ∑ j, g.R k j * x j + g.t k

/-- The coordinates of the observations. -/
def coordinates (c : Coordinates N) : Coordinates N := fun k i => g.position (fun j => c j (g.σ i)) k

/-- The field is multiplied by the factor; its derivatives too, and they are the components along the new axes. -/
def data (d : Data N) : Data N :=
  ![fun i => g.s * d 0 (g.σ i), fun i => g.s * ∑ j : Fin 3, g.R 0 j * d j.succ (g.σ i),
    fun i => g.s * ∑ j : Fin 3, g.R 1 j * d j.succ (g.σ i),
    fun i => g.s * ∑ j : Fin 3, g.R 2 j * d j.succ (g.σ i)]

/-- How small changes of the position and of the base level transform. -/
def linear : Matrix (Fin 4) (Fin 4) ℝ :=
  !![g.R 0 0, g.R 0 1, g.R 0 2, 0; g.R 1 0, g.R 1 1, g.R 1 2, 0; g.R 2 0, g.R 2 1, g.R 2 2, 0; 0, 0, 0, g.s]

/-- A covariance matrix of position and base level. -/
def covariance (C : Matrix (Fin 4) (Fin 4) ℝ) : Matrix (Fin 4) (Fin 4) ℝ := g.linear * C * g.linearᵀ

/-- The attributes of a fit: the position moves, base level and misfit take the factor, the covariance is that of
the new position and base level, the structural index stays. -/
def attributes (a : Attributes) : Attributes where
  location_ := a.location_.map g.position
  base_level_ := a.base_level_.map (g.s * ·)
  covariance_ := a.covariance_.map (·.map g.covariance)
  structural_index_ := a.structural_index_
  data_misfit_ := a.data_misfit_.map (|g.s| * ·)

end Change

/-- The axes that are mixed have derivatives of the same weight. -/
def Change.Respects {N : ℕ} (g : Change N) (weights : Fin 4 → ℝ) : Prop :=
  ∀ j k : Fin 3, g.R j k ≠ 0 → weights j.succ = weights k.succ

/-- A constant is added to the field; the derivatives stay. -/
def raised {N : ℕ} (a : ℝ) (d : Data N) : Data N := fun k i => if k = 0 then d 0 i + a else d k i

/-- The constant is added to the base level; everything else stays. -/
def Attributes.raised (a : ℝ) (x : Attributes) : Attributes := { x with base_level_ := x.base_level_.map (· + a) }

end Verif.Euler
