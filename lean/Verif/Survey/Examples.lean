import Verif.Survey.Props
import Verif.Ellipsoids.Examples
import Verif.Igrf.Examples

/-! Concrete cases of C103. -/

namespace Verif.Survey

open Verif.Engine Verif.Distance Verif.Forward

/-- A schedule that visits the points in both orders. -/
theorem schedule : (Mode.parallel [0, 1, 1, 0]).Full 2 2 := by
  constructor
  · decide
  · intro i hi
    have : i = 0 ∨ i = 1 := by omega
    rcases this with rfl | rfl <;> decide

def here : P3 := ⟨0, 0, 0⟩
def there : P3 := ⟨5, 0, 0⟩

/-- Two points at once, in parallel, and one by one: both values come from calls on one point. -/
example (junk : Junk) (K : PointKernels) (r : NdArray)
    (h : pointGravity junk (.parallel [0, 1, 1, 0]) K (arrays [2] [here, there]) (arrays1 [⟨1, 0, -1⟩])
      (array1 [3]) "g_z" "cartesian" = .ok r) :
    ∃ x y, r = ⟨[2], [x, y]⟩ ∧
      pointGravity junk .serial K (arrays1 [here]) (arrays1 [⟨1, 0, -1⟩]) (array1 [3]) "g_z" "cartesian" =
        .ok ⟨[1], [x]⟩ ∧
      pointGravity junk .serial K (arrays1 [there]) (arrays1 [⟨1, 0, -1⟩]) (array1 [3]) "g_z" "cartesian" =
        .ok ⟨[1], [y]⟩ := by
  have := (C103_point_gravity junk (.parallel [0, 1, 1, 0]) .serial K [2] [here, there] rfl (by simp)
    [(⟨1, 0, -1⟩, 3)] schedule trivial "g_z" "cartesian" r).1 h
  obtain ⟨s, d⟩ := r
  obtain ⟨h1, h2⟩ := this
  simp only [List.forall₂_cons_left_iff, List.forall₂_nil_left_iff] at h2
  obtain ⟨x, m, hx, ⟨y, m', hy, rfl, rfl⟩, rfl⟩ := h2
  simp only at h1
  exact ⟨x, y, by rw [h1], hx, hy⟩

/-- Such calls return. -/
example (junk : Junk) (K : PointKernels) : ∃ r,
    pointGravity junk (.parallel [0, 1, 1, 0]) K (arrays [2] [here, there]) (arrays1 [⟨1, 0, -1⟩])
      (array1 [3]) "g_z" "cartesian" = .ok r :=
  ⟨_, C04_point_gravity_cartesian junk (.parallel [0, 1, 1, 0]) K [2] [1] [1] [here, there] rfl
    [(⟨1, 0, -1⟩, 3)] schedule "g_z"⟩

/-- A call that fails for one point fails, and the other way round. -/
example (junk : Junk) (K : PrismKernels) (p : Prism) (field : String) :
    (∃ r, (prismGravity junk .serial K (arrays [2] [here, there]) [p] [1] field false).map (·.2) = .ok r) ↔
      ∃ x y, (prismGravity junk .serial K (arrays1 [here]) [p] [1] field false).map (·.2) =
          .ok ⟨[1], [x]⟩ ∧
        (prismGravity junk .serial K (arrays1 [there]) [p] [1] field false).map (·.2) = .ok ⟨[1], [y]⟩ := by
  have := C103_prism_gravity junk .serial .serial K [2] [here, there] rfl (by simp) [(p, 1)] trivial trivial
    field false
  constructor
  · rintro ⟨r, h⟩
    have h2 := ((this r).1 h).2
    simp only [List.forall₂_cons_left_iff] at h2
    obtain ⟨x, m, hx, ⟨y, m', hy, -⟩, -⟩ := h2
    exact ⟨x, y, hx, hy⟩
  · rintro ⟨x, y, hx, hy⟩
    exact ⟨⟨[2], [x, y]⟩, (this _).2 ⟨rfl, .cons hx (.cons hy .nil)⟩⟩

open Verif.Ellipsoids in
/-- The bodies of the examples of ellipsoids meet the hypotheses of their theorems. -/
example : OneByOne3 [2] points
      ((ellipsoidGravity (arrays [2] points) (.many [rock, ball, rod, void])).map (·.1))
      (fun q => (ellipsoidGravity (arrays1 [q]) (.many [rock, ball, rod, void])).map (·.1)) ∧
    OneByOne3 [2] points ((ellipsoidMagnetic (4e-7 * Real.pi) (arrays [2] points)
        (.many [rock, ball, rod, void]) ![10000, 5000, -40000]).map (·.1))
      (fun q => (ellipsoidMagnetic (4e-7 * Real.pi) (arrays1 [q]) (.many [rock, ball, rod, void])
        ![10000, 5000, -40000]).map (·.1)) :=
  ⟨C103_ellipsoid_gravity [2] points rfl _ fun e he => (all_bodies e he).1,
    C103_ellipsoid_magnetic _ [2] points rfl _ (fun e he => ⟨(all_bodies e he).1, (all_bodies e he).2.1⟩) _⟩

open Verif.Igrf in
example (a e2 : ℝ) (date : Date) (junk junk' : Igrf.Junk) (c : Legendre.Arr × Legendre.Arr)
    (r : List Igrf.V3) :
    predictWith .serial junk ⟨date, 1, 13, boule a e2⟩ c [(0, 0, 0), (1, 45, 100)] = .ok r ↔
      List.Forall₂ (fun x v => predictWith .serial junk' ⟨date, 1, 13, boule a e2⟩ c [x] = .ok [v])
        [(0, 0, 0), (1, 45, 100)] r :=
  C103_igrf_predict .serial .serial junk junk' ⟨date, 1, 13, boule a e2⟩ c _ (by simp) trivial trivial
    (fun _ _ => degrees_arcsin_mem _) r

open Verif.Layers in
example (junk : Junk) (K : PrismKernels) :
    OneByOne [2] [here, there]
      (layerGravity junk .serial K ⟨coords 2 (fun j => j), coords 2 (fun k => k), grid 2 2 (fun _ _ => some 1),
        grid 2 2 (fun _ _ => some 0), [("density", grid 2 2 fun _ _ => some 2)]⟩ (arrays [2] [here, there]) "g_z")
      (fun q => layerGravity junk .serial K ⟨coords 2 (fun j => j), coords 2 (fun k => k),
        grid 2 2 (fun _ _ => some 1), grid 2 2 (fun _ _ => some 0),
        [("density", grid 2 2 fun _ _ => some 2)]⟩ (arrays1 [q]) "g_z") :=
  C103_prism_layer junk .serial .serial K [2] [here, there] rfl (by simp) le_rfl le_rfl _ _ _ _
    (fun _ _ => some 2) _ "density" (by simp [List.lookup]) none trivial trivial "g_z"

open Verif.Tesseroid in
/-- A tesseroid seen from two points. -/
example (junk : Junk) (M : Minimizer) (stack0 small0 : ℕ → Tess) :
    OneByOne [2] [⟨0, 0, 1000⟩, ⟨20, 10, 1000⟩]
      (ends (tesseroidGravity junk .serial M 0 stack0 small0
        (arrays [2] [⟨0, 0, 1000⟩, ⟨20, 10, 1000⟩]) [⟨-1, 1, -1, 1, 1, 2⟩] (.values [1]) "g_z" true false))
      (fun q => ends (tesseroidGravity junk .serial M 0 stack0 small0 (arrays1 [q])
        [⟨-1, 1, -1, 1, 1, 2⟩] (.values [1]) "g_z" true false)) :=
  C103_tesseroid_gravity junk .serial .serial M 0 stack0 small0 stack0 small0 [2] _ rfl (by simp)
    [(⟨-1, 1, -1, 1, 1, 2⟩, 1)] "g_z" true false trivial trivial

end Verif.Survey
