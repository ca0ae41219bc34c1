import Verif.Forward.Model
import Verif.Distance.Props

/-!
Specification of the forward models of point masses, prisms and dipoles, independent of the loops
of the code: well-formed inputs, documented tables of fields, superposition integrals (sums).
-/

namespace Verif.Forward
open Verif.Distance Verif.Engine

/-- The three coordinate arrays of a list of points, laid out with a given shape. -/
def arrays (shape : List ℕ) (pts : List P3) : NdArray × NdArray × NdArray :=
  (⟨shape, pts.map (·.x)⟩, ⟨shape, pts.map (·.y)⟩, ⟨shape, pts.map (·.z)⟩)

/-- 1d arrays of a list of points -/
def arrays1 (pts : List P3) : NdArray × NdArray × NdArray := arrays [pts.length] pts

/-- 1d array -/
def array1 (l : List ℝ) : NdArray := ⟨[l.length], l⟩

/-- Field at `q` of a list of sources: the sum of the contributions of each source. -/
def total {S : Type} (contribution : P3 → S → ℝ) (srcs : List S) (q : P3) : ℝ :=
  (srcs.map (contribution q)).sum

/-- elementwise sum of two results; errors propagate -/
noncomputable def addPy (x y : Py NdArray) : Py NdArray := do
  let a ← x
  let b ← y
  return ⟨a.shape, List.zipWith (· + ·) a.data b.data⟩

/-- elementwise product by a number -/
noncomputable def smulPy (c : ℝ) (x : Py NdArray) : Py NdArray := do
  let a ← x
  return ⟨a.shape, a.data.map (c * ·)⟩

/-- Documented fields of `point_gravity` in Cartesian coordinates: SI kernel (upward positive) and
the sign and unit factor (mGal and Eötvös, z positive downwards). -/
noncomputable def pointFieldTable (K : PointKernels) (field : String) :
    Option ((P3 → P3 → ℝ → ℝ) × ℝ) :=
  if field = "potential" then some (K.pot, 1)
  else if field = "g_e" then some (K.e, 10 ^ 5)
  else if field = "g_n" then some (K.n, 10 ^ 5)
  else if field = "g_z" then some (K.u, -10 ^ 5)
  else if field = "g_ee" then some (K.ee, 10 ^ 9)
  else if field = "g_nn" then some (K.nn, 10 ^ 9)
  else if field = "g_zz" then some (K.uu, 10 ^ 9)
  else if field = "g_en" ∨ field = "g_ne" then some (K.en, 10 ^ 9)
  else if field = "g_ez" ∨ field = "g_ze" then some (K.eu, -10 ^ 9)
  else if field = "g_nz" ∨ field = "g_zn" then some (K.nu, -10 ^ 9)
  else none

/-- Documented fields of `prism_gravity`. -/
noncomputable def prismFieldTable (K : PrismKernels) (field : String) :
    Option ((P3 → Prism → ℝ → ℝ) × ℝ) :=
  if field = "potential" then some (K.pot, 1)
  else if field = "g_e" then some (K.e, 10 ^ 5)
  else if field = "g_n" then some (K.n, 10 ^ 5)
  else if field = "g_z" then some (K.u, -10 ^ 5)
  else if field = "g_ee" then some (K.ee, 10 ^ 9)
  else if field = "g_nn" then some (K.nn, 10 ^ 9)
  else if field = "g_zz" then some (K.uu, 10 ^ 9)
  else if field = "g_en" then some (K.en, 10 ^ 9)
  else if field = "g_ez" then some (K.eu, -10 ^ 9)
  else if field = "g_nz" then some (K.nu, -10 ^ 9)
  else none

/-- Newtonian potential at the spherical point `q` (lon, lat, radius) of a mass `m` at `p`:
`G m / ‖q - p‖` in space, with G in m³ kg⁻¹ s⁻². -/
noncomputable def newtonPotential (q p : P3) (m : ℝ) : ℝ :=
  6.6743e-11 * m / dist (sphPos q) (sphPos p)

/-- A prism with ordered boundaries. -/
def Prism.Ordered (p : Prism) : Prop := p.west ≤ p.east ∧ p.south ≤ p.north ∧ p.bottom ≤ p.top

/-- Volume of a prism -/
def Prism.volume (p : Prism) : ℝ := (p.east - p.west) * (p.north - p.south) * (p.top - p.bottom)

/-- Documented value of the magnetic field functions: sums of contributions, in nT. -/
noncomputable def magSpec {S : Type} (K : MagKernels S) (shape : List ℕ) (obs : List P3)
    (srcs : List (S × V3)) (field : String) : Py MagResult :=
  let arr (k : P3 → S → V3 → ℝ) : NdArray :=
    ⟨shape, obs.map (fun q => total (fun q s => k q s.1 s.2) srcs q * 10 ^ 9)⟩
  if field = "b" then
    .ok (.vector (arr fun q s m => (K.field q s m).1) (arr fun q s m => (K.field q s m).2.1)
      (arr fun q s m => (K.field q s m).2.2))
  else if field = "b_e" then .ok (.single (arr K.e))
  else if field = "b_n" then .ok (.single (arr K.n))
  else if field = "b_u" then .ok (.single (arr K.u))
  else .error .ValueError

open Classical in
/-- numpy broadcasting of an array to a (compatible) shape: the reference semantics of
`np.broadcast_to(a, shape).ravel()`, with shapes already padded to the same number of axes. -/
noncomputable def broadcastTo : List ℕ → List ℕ → List ℝ → List ℝ
  | x :: a, y :: b, d =>
    let rows := (List.range x).map fun i => broadcastTo a b ((d.drop (i * a.prod)).take a.prod)
    if x = y then rows.flatten else (List.replicate y (rows.headD [])).flatten
  | _, _, d => d

/-- broadcast with shapes padded with ones on the left -/
noncomputable def NdArray.broadcastTo (a : NdArray) (shape : List ℕ) : List ℝ :=
  Forward.broadcastTo (List.replicate (shape.length - a.shape.length) 1 ++ a.shape) shape a.data

/-- the points described by three arrays of the same length -/
def zipPoints (xs ys zs : List ℝ) : List P3 :=
  List.zipWith (fun x (yz : ℝ × ℝ) => ⟨x, yz.1, yz.2⟩) xs (ys.zip zs)

end Verif.Forward
