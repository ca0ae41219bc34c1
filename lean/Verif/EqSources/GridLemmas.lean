import Verif.EqSources.Gridder
import Verif.EqSources.Lemmas

/-! Lemmas about `grid` and `profile`. -/

namespace Verif.EqSources
open Verif.Forward Verif.Engine Verif.Distance Verif.Layers Verif.Utils

theorem flatMap_index {α β : Type} (f : α → List β) (m : ℕ) (hf : ∀ a, (f a).length = m) :
    ∀ (l : List α) (i j : ℕ), j < m → (l.flatMap f)[i * m + j]? = (l[i]?).bind fun a => (f a)[j]? := by
  intro l
  induction l with
  | nil => intro i j _; simp
  | cons a l ih =>
    intro i j hj
    cases i with
    | zero =>
      simp only [List.flatMap_cons, Nat.zero_mul, Nat.zero_add, List.getElem?_cons_zero, Option.bind_some]
      rw [List.getElem?_append_left (by rw [hf]; exact hj)]
    | succ i =>
      simp only [List.flatMap_cons, List.getElem?_cons_succ]
      rw [List.getElem?_append_right (by rw [hf]; nlinarith), hf, ← ih i j hj]
      congr 1
      rw [Nat.add_mul]; omega

theorem flatMap_length {α β : Type} (f : α → List β) (m : ℕ) (hf : ∀ a, (f a).length = m) (l : List α) :
    (l.flatMap f).length = l.length * m := by
  induction l with
  | nil => simp
  | cons a l ih => simp [ih, hf, Nat.add_mul]; omega

/-- the horizontal positions of the nodes, northing by northing -/
def nodes (es ns : List ℝ) : List (ℝ × ℝ) := ns.flatMap fun n => es.map fun e => (e, n)

theorem nodes_length (es ns : List ℝ) : (nodes es ns).length = ns.length * es.length :=
  flatMap_length _ _ (by simp) ns

theorem nodes_index (es ns : List ℝ) (i j : ℕ) (e n : ℝ) (hn : ns[i]? = some n) (he : es[j]? = some e) :
    (nodes es ns)[i * es.length + j]? = some (e, n) := by
  have hj : j < es.length := by
    by_contra h
    rw [List.getElem?_eq_none (by omega)] at he
    simp at he
  unfold nodes
  rw [flatMap_index _ es.length (by simp) ns i j hj, hn]
  simp [he]

theorem nodes_fst (es ns : List ℝ) : (nodes es ns).map (·.1) = ns.flatMap fun _ => es := by
  simp [nodes, List.map_flatMap, Function.comp_def]

theorem nodes_snd (es ns : List ℝ) :
    (nodes es ns).map (·.2) = ns.flatMap fun n => List.replicate es.length n := by
  simp [nodes, List.map_flatMap, Function.comp_def]

theorem meshgridTo1d_nodes (close : ℝ → ℝ → Prop) (hclose : ∀ x, close x x) (d1 d2 : DType) (u : CArr)
    (es ns : List ℝ) (he : es ≠ []) (hn : ns ≠ []) :
    meshgridTo1d close (⟨d1, [ns.length, es.length], (nodes es ns).map (·.1)⟩,
      ⟨d2, [ns.length, es.length], (nodes es ns).map (·.2)⟩, u) = .ok (es, ns) := by
  have he' : es.length ≠ 0 := by simpa using he
  have hn' : ns.length ≠ 0 := by simpa using hn
  have h1 : ((nodes es ns).map (·.1)).take es.length = es := by
    rw [nodes_fst]
    cases ns with
    | nil => exact absurd rfl hn
    | cons n ns => simp
  have hidx : ∀ i < ns.length, ∀ j < es.length, (nodes es ns)[i * es.length + j]? =
      some (es[j]!, ns[i]!) := by
    intro i hi j hj
    apply nodes_index
    · simp [hi]
    · simp [hj]
  have h2 : (List.range ns.length).map (fun i => (((nodes es ns).map (·.2))[i * es.length]?).getD 0) = ns := by
    apply List.ext_getElem?
    intro i
    by_cases hi : i < ns.length
    · have := hidx i hi 0 (by omega)
      simp only [Nat.add_zero] at this
      simp [hi, this]
    · rw [List.getElem?_eq_none (by simp; omega), List.getElem?_eq_none (by omega)]
  unfold meshgridTo1d
  simp only [he', hn', or_self, if_false]
  rw [if_pos]
  · rw [h1, h2]
  constructor
  · intro i hi j hj x hx y hy
    simp only [List.getElem?_map, hidx i hi j hj, Option.map_some, Option.mem_some_iff] at hy
    have : es[j]? = some es[j]! := by simp [hj]
    rw [h1, this, Option.mem_some_iff] at hx
    rw [← hx, ← hy]; exact hclose _
  · intro i hi j hj x hx y hy
    simp only [List.getElem?_map, hidx i hi j hj, Option.map_some, Option.mem_some_iff] at hy
    have : ns[i]? = some ns[i]! := by simp [hi]
    rw [h2, this, Option.mem_some_iff] at hx
    rw [← hx, ← hy]; exact hclose _

/-- the points of the nodes -/
def nodePoints (es ns u : List ℝ) : List P3 := List.zipWith (fun q z => ⟨q.1, q.2, z⟩) (nodes es ns) u

theorem nodePoints_length (es ns u : List ℝ) (hu : u.length = ns.length * es.length) :
    (nodePoints es ns u).length = ns.length * es.length := by
  simp [nodePoints, nodes_length, hu]

theorem zipWith_left {α β γ : Type} (f : α → γ) : ∀ (l : List α) (m : List β), l.length = m.length →
    List.zipWith (fun a _ => f a) l m = l.map f := by
  intro l
  induction l with
  | nil => intro m _; simp
  | cons a l ih =>
    intro m h
    cases m with
    | nil => simp at h
    | cons b m => simp [ih m (by simpa using h)]

theorem zipWith_right {α β γ : Type} (f : β → γ) : ∀ (l : List α) (m : List β), l.length = m.length →
    List.zipWith (fun _ b => f b) l m = m.map f := by
  intro l
  induction l with
  | nil => intro m h; cases m with
    | nil => simp
    | cons b m => simp at h
  | cons a l ih =>
    intro m h
    cases m with
    | nil => simp at h
    | cons b m => simp [ih m (by simpa using h)]

theorem nodePoints_x (es ns u : List ℝ) (hu : u.length = ns.length * es.length) :
    (nodePoints es ns u).map (·.x) = (nodes es ns).map (·.1) := by
  simp only [nodePoints, List.map_zipWith]
  exact zipWith_left (fun q : ℝ × ℝ => q.1) _ _ (by rw [nodes_length, hu])

theorem nodePoints_y (es ns u : List ℝ) (hu : u.length = ns.length * es.length) :
    (nodePoints es ns u).map (·.y) = (nodes es ns).map (·.2) := by
  simp only [nodePoints, List.map_zipWith]
  exact zipWith_left (fun q : ℝ × ℝ => q.2) _ _ (by rw [nodes_length, hu])

theorem nodePoints_z (es ns u : List ℝ) (hu : u.length = ns.length * es.length) :
    (nodePoints es ns u).map (·.z) = u := by
  simp only [nodePoints, List.map_zipWith]
  rw [zipWith_right (fun z : ℝ => z) _ _ (by rw [nodes_length, hu])]
  simp

/-- a projection of the points, given as a function of the horizontal position -/
def projPoint (f : ℝ → ℝ → ℝ × ℝ) (q : P3) : P3 := ⟨(f q.x q.y).1, (f q.x q.y).2, q.z⟩

theorem projectCoordinates_coordArrs (f : ℝ → ℝ → ℝ × ℝ) (d1 d2 d3 : DType) (shape : List ℕ) (pts : List P3) :
    projectCoordinates f (coordArrs d1 d2 d3 shape pts) =
      coordArrs .float64 .float64 d3 shape (pts.map (projPoint f)) := by
  simp [projectCoordinates, coordArrs, projPoint, List.zipWith_map, List.zipWith_self, Function.comp_def]

end Verif.EqSources
