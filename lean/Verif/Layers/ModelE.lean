import Verif.Layers.Model

/-!
Layers as objects in memory: which arrays of the caller a layer keeps. `np.asarray` of a numpy array is that array, and
`verde.make_xarray_grid` and `xarray.Dataset` (external) keep the arrays they get for data variables without copying
them.
-/

namespace Verif.Layers

/-- A layer in memory: addresses of the arrays of its coordinates `top` and `bottom` and of its properties.
_forward/prisms/layer.py 120-138, _forward/tesseroid_layer.py 125-150. -/
structure LayerRef where
  easting : List ℝ
  northing : List ℝ
  top : ℕ
  bottom : ℕ
  vars : List (String × ℕ)

/-- Elements of the array at an address. Values of variables at _forward/prisms/layer.py 372-412. -/
def dataAt (heap : Heap) (a : ℕ) : List (Option ℝ) := ((heap[a]?).map Arr.data).getD []

/-- What a layer shows: its coordinates and the elements of its arrays. _forward/prisms/layer.py 120-138,
_forward/tesseroid_layer.py 125-150. -/
def LayerRef.read (heap : Heap) (l : LayerRef) : Layer :=
  ⟨l.easting, l.northing, dataAt heap l.top, dataAt heap l.bottom, l.vars.map fun p => (p.1, dataAt heap p.2)⟩

/-- `prism_layer`, prisms/layer.py 23-138 (`overlapCheck = false`), and `tesseroid_layer`, tesseroid_layer.py 20-150
(`overlapCheck = true`), as `makeLayer` but with addresses. -/
noncomputable def makeRef (overlapCheck : Bool) (heap : Heap) (easting northing : List ℝ) (surface reference : ℕ)
    (properties : List (String × ℕ)) : Py (Heap × LayerRef) := do
  if properties.any (fun p => (heap[p.2]?).map Arr.shape ≠ some (layerShape easting northing)) then throw .ValueError
  checkRegularGrid easting northing
  if overlapCheck then checkOverlap easting
  let r ← updateTopBottom (layerShape easting northing) heap surface reference
  return (r.1, ⟨easting, northing, r.2.1, r.2.2, properties⟩)

/-- `layer.prism_layer.update_top_bottom(surface, reference)`, prisms/layer.py 264-312, and the same of tesseroids,
tesseroid_layer.py 273-320: the coordinates of the layer become the new arrays. -/
noncomputable def LayerRef.update (heap : Heap) (l : LayerRef) (surface reference : ℕ) : Py (Heap × LayerRef) := do
  let r ← updateTopBottom (layerShape l.easting l.northing) heap surface reference
  return (r.1, { l with top := r.2.1, bottom := r.2.2 })

/-- A session of a program that uses layers: its memory and the layers it made. The memory of
_forward/prisms/layer.py 120-138, 290-312. -/
structure Session where
  heap : Heap
  layers : List LayerRef

/-- What a program does: write into one of its arrays, make a layer, update a layer. Calls of
_forward/prisms/layer.py 23, 264 and _forward/tesseroid_layer.py 20, 273. -/
inductive Op where
  | write (address : ℕ) (value : Arr)
  | make (overlapCheck : Bool) (easting northing : List ℝ) (surface reference : ℕ) (properties : List (String × ℕ))
  | update (layer : ℕ) (surface reference : ℕ)

open Classical in
/-- One step. Writing does not change the shape and the dtype of an array. When a call raises, nothing was changed.
_forward/prisms/layer.py 23-138, 264-312, _forward/tesseroid_layer.py 20-150, 273-320. -/
noncomputable def Session.step (s : Session) : Op → Session
  | .write a v =>
    match s.heap[a]? with
    | some old => if v.kind = old.kind ∧ v.shape = old.shape then { s with heap := s.heap.set a v } else s
    | none => s
  | .make ov e n a b props =>
    match makeRef ov s.heap e n a b props with
    | .ok (heap, l) => ⟨heap, s.layers ++ [l]⟩
    | .error _ => s
  | .update i a b =>
    match s.layers[i]? with
    | none => s
    | some l =>
      match l.update s.heap a b with
      | .ok (heap, l') => ⟨heap, s.layers.set i l'⟩
      | .error _ => s

/-- A sequence of steps. -/
noncomputable def Session.run (s : Session) (ops : List Op) : Session := ops.foldl Session.step s

end Verif.Layers
