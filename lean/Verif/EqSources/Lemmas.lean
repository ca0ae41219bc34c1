import Verif.EqSources.Spec
import Verif.Forward.Lemmas
import Mathlib.Tactic.Ring

namespace Verif.EqSources
open Verif.Forward Verif.Engine Verif.Distance

theorem cast_float {d : DType} (hd : d.IsFloat) (x : ℝ) : d.cast x = x := by
  cases d <;> simp_all [DType.IsFloat, DType.cast]

theorem cast_float_fun {d : DType} (hd : d.IsFloat) : d.cast = id := funext (cast_float hd)

theorem castArrs_float {d : DType} (hd : d.IsFloat) (a : Arrs) : castArrs d a = a := by
  simp [castArrs, cast_float_fun hd]

theorem n1dArrays_coordArrs (d1 d2 d3 : DType) (shape : List ℕ) (pts : List P3) :
    n1dArrays (coordArrs d1 d2 d3 shape pts) = pointArrs pts := rfl

/-- sum of the accumulated values -/
theorem acc_foldl {d : DType} (hd : d.IsFloat) (l : List (Acc d)) (a : Acc d) :
    (l.foldl (· + ·) a).val = a.val + (l.map (·.val)).sum := by
  induction l generalizing a with
  | nil => simp
  | cons x l ih =>
    rw [List.foldl_cons, ih]
    show (d.cast (a.val + x.val)) + _ = _
    rw [cast_float hd]; simp; ring

theorem runOps_puts {F : Type} [Add F] (i m : ℕ) (val : ℕ → F) (mem : ℕ × ℕ → F) (r : F) (j : ℕ) :
    (runOps ((List.range m).map fun j => Op.put (i, j) (val j)) (mem, r)).1 (i, j) =
      if j < m then val j else mem (i, j) := by
  induction m with
  | zero => simp [runOps]
  | succ m ih =>
    rw [List.range_succ, List.map_append, runOps_append]
    simp only [List.map_cons, List.map_nil]
    show (if (i, j) = (i, m) then val m else _) = _
    rw [ih]
    by_cases h : j = m
    · subst h; simp
    · by_cases h2 : j < m
      · simp [h, h2, Nat.lt_succ_of_lt h2]
      · have : ¬ j < m + 1 := by omega
        simp [h, h2, this]

/-- the Jacobian of well-formed inputs -/
theorem jacobian_eq (junk : Junk) (mode : Mode) (g : P3 → P3 → ℝ) {d : DType} (hd : d.IsFloat)
    (obs pts : List P3) (hm : mode.Full obs.length pts.length) :
    jacobian junk mode g d (pointArrs obs) (pointArrs pts) =
      obs.map fun q => pts.map fun p => g q p := by
  unfold jacobian
  simp only
  have hlen : (pointArrs obs).1.length = obs.length := by simp [pointArrs]
  have hlenp : (pointArrs pts).1.length = pts.length := by simp [pointArrs]
  rw [hlen, hlenp]
  apply range_map_eq
  intro i hi
  apply range_map_eq
  intro j hj
  have hown : Engine.Disjoint (fun c : ℕ × ℕ => c.1)
      (jacobianLoop junk g d (pointArrs obs) (pointArrs pts)) := by
    intro i op hop
    simp only [jacobianLoop, List.mem_map] at hop
    obtain ⟨j, -, rfl⟩ := hop
    rfl
  rw [run_eq_serial (fun c => c.1) obs.length pts.length _ hown _ _ mode hm
    (by intro i hi; simp [jacobianLoop, pointArrs]),
    runSerial_cell (fun c => c.1) _ _ hown, if_pos hi]
  simp only [jacobianLoop]
  rw [runOps_puts, hlenp, if_pos hj]
  simp only [cast_float hd, pointArrs]
  rw [rd_map _ _ _ obs i hi, rd_map _ _ _ obs i hi, rd_map _ _ _ obs i hi,
    rd_map _ _ _ pts j hj, rd_map _ _ _ pts j hj, rd_map _ _ _ pts j hj]

/-- the prediction of well-formed inputs -/
theorem predictKernel_eq (junk : Junk) (mode : Mode) (g : P3 → P3 → ℝ) {d : DType} (hd : d.IsFloat)
    (obs : List P3) (srcs : List (P3 × ℝ)) (hm : mode.Full obs.length (2 * srcs.length)) :
    predictKernel junk mode g d (pointArrs obs) (pointArrs (srcs.map (·.1))) (srcs.map (·.2))
      obs.length = obs.map fun q => (srcs.map fun s => s.2 * g q s.1).sum := by
  unfold predictKernel
  simp only
  have hlen : (pointArrs obs).1.length = obs.length := by simp [pointArrs]
  rw [hlen]
  apply range_map_eq
  intro i hi
  have hprog : predictLoop junk g d (pointArrs obs) (pointArrs (srcs.map (·.1))) (srcs.map (·.2))
      = fun i => (srcs.map (fun s => (⟨s.2 * g
          ⟨rd junk "east" (obs.map (·.x)) i, rd junk "north" (obs.map (·.y)) i,
            rd junk "upward" (obs.map (·.z)) i⟩ s.1⟩ : Acc d))).flatMap (accum i) := by
    funext i
    unfold predictLoop
    simp only [pointArrs, List.length_map]
    rw [List.flatMap_def, List.flatMap_def]
    congr 1
    refine (range_map_eq srcs _ (fun s => accum i (⟨s.2 * g
          ⟨rd junk "east" (obs.map (·.x)) i, rd junk "north" (obs.map (·.y)) i,
            rd junk "upward" (obs.map (·.z)) i⟩ s.1⟩ : Acc d)) ?_).trans (by simp)
    intro j hj
    have h1 := rd_map junk "point_east" (fun p : P3 => p.x) (srcs.map (·.1)) j (by simpa using hj)
    have h2 := rd_map junk "point_north" (fun p : P3 => p.y) (srcs.map (·.1)) j (by simpa using hj)
    have h3 := rd_map junk "point_upward" (fun p : P3 => p.z) (srcs.map (·.1)) j (by simpa using hj)
    have h4 := rd_map junk "coeffs" (·.2) srcs j hj
    simp only [h1, h2, h3, h4, List.getElem_map]
  rw [hprog, run_accum obs.length (2 * srcs.length) _ _ _ mode hm (by intro i hi; simp), if_pos hi,
    acc_foldl hd]
  rw [rd_map junk _ _ obs i hi, rd_map junk _ _ obs i hi, rd_map junk _ _ obs i hi]
  simp [List.map_map, Function.comp_def]

/-- the prediction of any input in a float dtype -/
theorem predictKernel_float (junk : Junk) (mode : Mode) (g : P3 → P3 → ℝ) {d : DType}
    (hd : d.IsFloat) (c p : Arrs) (coeffs : List ℝ) (size : ℕ)
    (hm : mode.Full c.1.length (2 * p.1.length)) :
    predictKernel junk mode g d c p coeffs size = (List.range size).map fun i =>
      if i < c.1.length then ((List.range p.1.length).map fun j => rd junk "coeffs" coeffs j * g
        ⟨rd junk "east" c.1 i, rd junk "north" c.2.1 i, rd junk "upward" c.2.2 i⟩
        ⟨rd junk "point_east" p.1 j, rd junk "point_north" p.2.1 j,
          rd junk "point_upward" p.2.2 j⟩).sum else 0 := by
  unfold predictKernel
  apply List.map_congr_left
  intro i _
  have hprog : predictLoop junk g d c p coeffs = fun i => ((List.range p.1.length).map fun j =>
      (⟨rd junk "coeffs" coeffs j * g
        ⟨rd junk "east" c.1 i, rd junk "north" c.2.1 i, rd junk "upward" c.2.2 i⟩
        ⟨rd junk "point_east" p.1 j, rd junk "point_north" p.2.1 j,
          rd junk "point_upward" p.2.2 j⟩⟩ : Acc d)).flatMap (accum i) := by
    funext i
    simp only [predictLoop, List.flatMap_map]
  rw [hprog, run_accum c.1.length (2 * p.1.length) _ _ _ mode hm (by intro i hi; simp)]
  split
  · rw [acc_foldl hd]
    simp [List.map_map, Function.comp_def]
  · rfl

theorem greensCart (q p : P3) (c : ℝ) :
    c * greensFuncCartesian q p = c / dist (cartPos q) (cartPos p) := by
  rw [greensFuncCartesian, C10_distance_cartesian]; ring

theorem greensSph (q p : P3) (c : ℝ) :
    c * greensFuncSpherical q p = c / dist (sphPos q) (sphPos p) := by
  rw [greensFuncSpherical, C10_distance_spherical]; ring

theorem greensCart1 (q p : P3) :
    greensFuncCartesian q p = 1 / dist (cartPos q) (cartPos p) := by
  rw [← greensCart, one_mul]

theorem greensSph1 (q p : P3) :
    greensFuncSpherical q p = 1 / dist (sphPos q) (sphPos p) := by
  rw [← greensSph, one_mul]

theorem npBroadcast_coordArrs (d1 d2 d3 : DType) (shape : List ℕ) (pts : List P3) :
    npBroadcast ⟨(coordArrs d1 d2 d3 shape pts).1.shape, (coordArrs d1 d2 d3 shape pts).1.data⟩
      ⟨(coordArrs d1 d2 d3 shape pts).2.1.shape, (coordArrs d1 d2 d3 shape pts).2.1.data⟩
      ⟨(coordArrs d1 d2 d3 shape pts).2.2.shape, (coordArrs d1 d2 d3 shape pts).2.2.data⟩
      = .ok shape := npBroadcast_arrays shape pts

theorem predict_eq (junk : Junk) (mode : Mode) (P : Params) (hd : P.dtype.IsFloat)
    (d1 d2 d3 : DType) (shape : List ℕ) (obs : List P3) (hshape : shape.prod = obs.length)
    (srcs : List (P3 × ℝ)) (hm : mode.Full obs.length (2 * srcs.length)) (s : State)
    (hp : s.points_ = some (pointArrs (srcs.map (·.1)))) (hc : s.coefs_ = some (srcs.map (·.2))) :
    predict junk mode P (coordArrs d1 d2 d3 shape obs) s =
      .ok ⟨shape, obs.map (field cartPos srcs)⟩ := by
  unfold predict
  simp only [hp, hc, npBroadcast_coordArrs, Py.bind_ok, Py.pure_eq, castArrs_float hd,
    n1dArrays_coordArrs, hshape]
  rw [predictKernel_eq junk mode _ hd obs srcs hm]
  simp only [greensCart]
  rfl

theorem predictSph_eq (junk : Junk) (mode : Mode)
    (d1 d2 d3 : DType) (hd : d1.IsFloat) (shape : List ℕ) (obs : List P3)
    (hshape : shape.prod = obs.length)
    (srcs : List (P3 × ℝ)) (hm : mode.Full obs.length (2 * srcs.length)) (s : State)
    (hp : s.points_ = some (pointArrs (srcs.map (·.1)))) (hc : s.coefs_ = some (srcs.map (·.2))) :
    predictSph junk mode (coordArrs d1 d2 d3 shape obs) s =
      .ok ⟨shape, obs.map (field sphPos srcs)⟩ := by
  unfold predictSph
  simp only [hp, hc, npBroadcast_coordArrs, Py.bind_ok, Py.pure_eq,
    n1dArrays_coordArrs, hshape]
  rw [show (coordArrs d1 d2 d3 shape obs).1.dtype = d1 from rfl,
    predictKernel_eq junk mode _ hd obs srcs hm]
  simp only [greensSph]
  rfl

end Verif.EqSources
