import Verif.Igrf.ModelC
import Verif.Igrf.Examples
import Verif.Shapes.Broadcast

/-! C08 for `IGRF14.predict`: coordinates of any number and any shapes. -/

namespace Verif.Igrf

open Verif.Legendre Verif.Engine Verif.Forward Verif.Shapes

/-- The computation points: the three arrays broadcast to the shape. -/
noncomputable def broadcastPoints (shape : List ℕ) (longitude latitude height : NdArray) : List (ℝ × ℝ × ℝ) :=
  (longitude.broadcastTo shape).zip ((latitude.broadcastTo shape).zip (height.broadcastTo shape))

/-- Three arrays of a shape with the components of the vectors of a list; three numbers if there is one vector. -/
noncomputable def shaped (shape : List ℕ) (b : List V3) : Field :=
  if shape.prod = 1 then .numbers (b.headD 0)
  else .arrays (⟨shape, b.map (·.1)⟩, ⟨shape, b.map (·.2.1)⟩, ⟨shape, b.map (·.2.2)⟩)

/-- Entry of an array that is repeated if it has one element. -/
def spread (a : List ℝ) (i : ℕ) : ℝ := (a[i]?).getD (a.headD 0)

theorem spread_range (f : ℕ → ℝ) {n i : ℕ} (h : i < n) : spread ((List.range n).map f) i = f i := by
  simp [spread, h]

theorem zipArrays_spread (f : ℝ → ℝ → ℝ) {n : ℕ} {a b : List ℝ} (ha : a.length = n ∨ a.length = 1)
    (hb : b.length = n ∨ b.length = 1) (hn : a.length = n ∨ b.length = n) :
    zipArrays f a b = .ok ((List.range n).map fun i => f (spread a i) (spread b i)) := by
  unfold zipArrays
  split
  · rename_i h
    congr 1
    apply List.ext_getElem
    · simp; omega
    intro i h1 h2
    simp only [List.length_zipWith] at h1
    have e1 : i < a.length := by omega
    have e2 : i < b.length := by omega
    simp [spread, e1, e2]
  split
  · rename_i h h'
    congr 1
    apply List.ext_getElem
    · simp; omega
    intro i h1 h2
    simp only [List.length_map] at h1
    have hb' : spread b i = b[i] := by simp [spread, h1]
    obtain ⟨v, rfl⟩ := List.length_eq_one_iff.1 h'
    simp only [List.getElem_map, List.getElem_range, hb']
    cases i <;> simp [spread]
  · rename_i h h'
    have h3 : b.length = 1 := by omega
    rw [if_pos h3]
    congr 1
    apply List.ext_getElem
    · simp; omega
    intro i h1 h2
    simp only [List.length_map] at h1
    have ha' : spread a i = a[i] := by simp [spread, h1]
    obtain ⟨v, rfl⟩ := List.length_eq_one_iff.1 h3
    simp only [List.getElem_map, List.getElem_range, ha']
    cases i <;> simp [spread]

theorem zipArrays_range (f : ℝ → ℝ → ℝ) (g h : ℕ → ℝ) (n : ℕ) :
    zipArrays f ((List.range n).map g) ((List.range n).map h) = .ok ((List.range n).map fun i => f (g i) (h i)) := by
  rw [zipArrays_spread f (n := n) (by simp) (by simp) (by simp)]
  congr 1
  apply List.map_congr_left
  intro i hi
  have hi := List.mem_range.1 hi
  rw [spread_range _ hi, spread_range _ hi]

theorem rotateArrays_range (lat : List ℝ) (n : ℕ) (hl : lat.length = n ∨ lat.length = 1) (s : ℕ → ℝ) (b : ℕ → V3) :
    rotateArrays lat ((List.range n).map s) ((List.range n).map fun i => (b i).1,
      (List.range n).map fun i => (b i).2.1, (List.range n).map fun i => (b i).2.2) =
    .ok ((List.range n).map fun i => (vectorSphericalToGeodetic (spread lat i) (s i) (b i)).1,
      (List.range n).map fun i => (vectorSphericalToGeodetic (spread lat i) (s i) (b i)).2.1,
      (List.range n).map fun i => (vectorSphericalToGeodetic (spread lat i) (s i) (b i)).2.2) := by
  unfold rotateArrays
  rw [zipArrays_spread _ (n := n) (by simp) hl (by simp), Py.bind_ok]
  simp only [List.map_map, zipArrays_range, Py.bind_ok, Py.pure_eq]
  congr 1
  refine Prod.ext rfl (Prod.ext ?_ ?_)
  all_goals
    apply List.map_congr_left
    intro i hi
    have hi := List.mem_range.1 hi
    simp only [Function.comp_apply, spread_range _ hi, vectorSphericalToGeodetic]

theorem rd_range (mem : Forward.Junk) (name : String) (f : ℕ → ℝ) {n i : ℕ} (h : i < n) :
    rd mem name ((List.range n).map f) i = f i := by
  simp [rd, h]

theorem broadcastTo_spread {shapes : List (List ℕ)} {s : List ℕ} (h : IsBroadcast shapes s) (a : NdArray)
    (ha : a.Wf) (hm : a.shape ∈ shapes) (h1 : a.data.length = s.prod ∨ a.data.length = 1) :
    a.broadcastTo s = (List.range s.prod).map (spread a.data) := by
  rcases h1 with h1 | h1
  · rw [nd_broadcastTo_full h a ha hm h1]
    apply List.ext_getElem
    · simp [h1]
    intro i h2 h3
    simp [spread, h2]
  · rw [nd_broadcastTo_one h a ha hm h1]
    apply List.ext_getElem
    · simp
    intro i h2 h3
    obtain ⟨v, hv⟩ := List.length_eq_one_iff.1 h1
    simp only [hv]
    cases i <;> simp [spread]

/-- C08 for `predict` (same form as the full statement below): the longitude has as many elements as the result,
and so does the latitude or the height; the other one may be a single number. The result has the broadcast shape and
each entry is what `predict` gives for its own point; for one point the three components are numbers. What is
missing: other shapes, see below. -/
theorem C08_igrf_partial (mode : Mode) (junk : Junk) (mem : Forward.Junk) (load : Py Table) (self : Igrf)
    (cache : Cache) (longitude latitude height : NdArray) (shape : List ℕ)
    (h1 : longitude.Wf) (h2 : latitude.Wf) (h3 : height.Wf)
    (hs : IsBroadcast [longitude.shape, latitude.shape, height.shape] shape)
    (n1 : longitude.data.length = shape.prod)
    (n2 : latitude.data.length = shape.prod ∨ latitude.data.length = 1)
    (n3 : height.data.length = shape.prod ∨ height.data.length = 1)
    (n : latitude.data.length = shape.prod ∨ height.data.length = shape.prod) :
    predictNd mode junk mem load self cache [longitude, latitude, height] =
      ((predict mode junk load self cache (broadcastPoints shape longitude latitude height)).1.map (shaped shape),
        (predict mode junk load self cache (broadcastPoints shape longitude latitude height)).2) := by
  have hp : prepare self.ellipsoid longitude latitude height = .ok (shape,
      (List.range shape.prod).map (fun i =>
        self.ellipsoid.latitude (spread latitude.data i) (spread height.data i)),
      (List.range shape.prod).map (fun i =>
        self.ellipsoid.radius (spread latitude.data i) (spread height.data i))) := by
    unfold prepare
    rw [npBroadcast_ok _ _ _ hs, Py.bind_ok, zipArrays_spread _ n2 n3 n, Py.bind_ok, zipArrays_spread _ n2 n3 n,
      Py.bind_ok, Py.pure_eq]
  have hpts : broadcastPoints shape longitude latitude height =
      (List.range shape.prod).map fun i =>
        (spread longitude.data i, spread latitude.data i, spread height.data i) := by
    unfold broadcastPoints
    rw [broadcastTo_spread hs longitude h1 (by simp) (.inl n1), broadcastTo_spread hs latitude h2 (by simp) n2,
      broadcastTo_spread hs height h3 (by simp) n3]
    apply List.ext_getElem <;> simp
  have hk : ((List.range longitude.data.length).map fun i =>
      (radians (rd mem "longitude" longitude.data i),
        rd mem "colatitude" (((List.range shape.prod).map (fun i =>
          self.ellipsoid.latitude (spread latitude.data i) (spread height.data i))).map
            fun l => radians (90 - l)) i,
        rd mem "radius" (((List.range shape.prod).map (fun i =>
          self.ellipsoid.radius (spread latitude.data i) (spread height.data i))).map
            fun r => referenceRadius / r) i)) =
      (broadcastPoints shape longitude latitude height).map (toKernel self.ellipsoid) := by
    rw [hpts, n1]
    simp only [List.map_map]
    apply List.map_congr_left
    intro i hi
    have hi := List.mem_range.1 hi
    have hi' : i < longitude.data.length := by omega
    simp only [rd_range _ _ _ hi, Function.comp_apply, toKernel]
    simp [rd, spread, hi']
  unfold predictNd predict
  simp only [hp]
  refine Prod.ext ?_ rfl
  simp only
  cases hc : (coefficients load self cache).1 with
  | error e => rfl
  | ok c =>
    simp only [Except.bind]
    unfold compute predictWith
    rw [hk]
    cases hb : magneticField mode junk ((broadcastPoints shape longitude latitude height).map
      (toKernel self.ellipsoid)) c.1 c.2 self.min_degree self.max_degree with
    | error e => simp only [hb, Py.bind_error, Except.map]
    | ok b =>
      have hbl : b.length = shape.prod := by
        unfold magneticField at hb
        split at hb
        · cases hb
        · simp only [Except.ok.injEq] at hb
          rw [← hb]
          simp [hpts]
      have hbr : b = (List.range shape.prod).map fun i => b.getD i 0 := by
        apply List.ext_getElem
        · simp [hbl]
        intro i h1 h2
        simp [h1]
      have m1 : b.map (·.1) = (List.range shape.prod).map fun i => (b.getD i 0).1 := by
        conv_lhs => rw [hbr, List.map_map]
        rfl
      have m2 : b.map (·.2.1) = (List.range shape.prod).map fun i => (b.getD i 0).2.1 := by
        conv_lhs => rw [hbr, List.map_map]
        rfl
      have m3 : b.map (·.2.2) = (List.range shape.prod).map fun i => (b.getD i 0).2.2 := by
        conv_lhs => rw [hbr, List.map_map]
        rfl
      have hz : List.zipWith (fun x v => vectorSphericalToGeodetic x.2.1 (self.ellipsoid.latitude x.2.1 x.2.2) v)
          (broadcastPoints shape longitude latitude height) b =
          (List.range shape.prod).map fun i => vectorSphericalToGeodetic (spread latitude.data i)
            (self.ellipsoid.latitude (spread latitude.data i) (spread height.data i)) (b.getD i 0) := by
        rw [hpts]
        apply List.ext_getElem
        · simp [hbl]
        intro i h1 h2
        have hi : i < b.length := by simpa [hbl] using h2
        simp [hi]
      have hrot := rotateArrays_range latitude.data _ n2
        (fun i => self.ellipsoid.latitude (spread latitude.data i) (spread height.data i)) (fun i => b.getD i 0)
      rw [← m1, ← m2, ← m3] at hrot
      simp only [hb, Py.bind_ok, Py.pure_eq]
      rw [hrot]
      simp only [Py.bind_ok, reshapeTo, List.length_map,
        List.length_range, if_true, hz, Except.map, n1, shaped, first, List.map_map, Function.comp_def]
      split
      · rename_i h
        rw [h]
        rfl
      · rfl

/-- Two longitudes, a row of two latitudes and one height: shape (1, 2), and the field at each point. -/
example (mode : Mode) (junk : Junk) (mem : Forward.Junk) (load : Py Table) (self : Igrf) (cache : Cache) :
    predictNd mode junk mem load self cache [⟨[2], [10, 20]⟩, ⟨[1, 2], [30, 40]⟩, ⟨[], [5]⟩] =
      ((predict mode junk load self cache [(10, 30, 5), (20, 40, 5)]).1.map (shaped [1, 2]),
        (predict mode junk load self cache [(10, 30, 5), (20, 40, 5)]).2) := by
  have h := C08_igrf_partial mode junk mem load self cache ⟨[2], [10, 20]⟩ ⟨[1, 2], [30, 40]⟩ ⟨[], [5]⟩ [1, 2]
    (by simp [NdArray.Wf]) (by simp [NdArray.Wf]) (by simp [NdArray.Wf])
    ((C08_shape_rule ⟨[2], [10, 20]⟩ ⟨[1, 2], [30, 40]⟩ ⟨[], [5]⟩ [1, 2]).1 (by simp [npBroadcast, broadcastRev]))
    (by simp) (by simp) (by simp) (by simp)
  have hp : broadcastPoints [1, 2] ⟨[2], [10, 20]⟩ ⟨[1, 2], [30, 40]⟩ ⟨[], [5]⟩ = [(10, 30, 5), (20, 40, 5)] := by
    simp [broadcastPoints, NdArray.broadcastTo, Forward.broadcastTo, List.range_succ, List.take]
  rw [hp] at h
  exact h

/-! ### sizes that raise -/

theorem zipArrays_ok {f : ℝ → ℝ → ℝ} {a b r : List ℝ} (h : zipArrays f a b = .ok r) :
    (a.length = b.length ∨ a.length = 1 ∨ b.length = 1) ∧
      r.length = if a.length = 1 then b.length else a.length := by
  unfold zipArrays at h
  split at h
  · rename_i h1
    cases h
    refine ⟨.inl h1, ?_⟩
    split <;> simp [h1]
  split at h
  · rename_i h1 h2
    cases h
    exact ⟨.inr (.inl h2), by simp [h2]⟩
  split at h
  · rename_i h1 h2 h3
    cases h
    exact ⟨.inr (.inr h3), by simp [h2]⟩
  · cases h

theorem zipArrays_error {f : ℝ → ℝ → ℝ} {a b : List ℝ} {e : PyErr} (h : zipArrays f a b = .error e) :
    e = .ValueError := by
  unfold zipArrays at h
  split at h
  · cases h
  split at h
  · cases h
  split at h
  · cases h
  · cases h; rfl

theorem reshapeTo_error {shape : List ℕ} {d : List ℝ} {e : PyErr} (h : reshapeTo shape d = .error e) :
    e = .ValueError := by
  unfold reshapeTo at h
  split at h
  · cases h
  · cases h; rfl

theorem reshapeTo_ok {shape : List ℕ} {d : List ℝ} {a : NdArray} (h : reshapeTo shape d = .ok a) :
    d.length = shape.prod ∧ a = ⟨shape, d⟩ := by
  unfold reshapeTo at h
  split at h
  · rename_i h1
    cases h
    exact ⟨h1, rfl⟩
  · cases h

/-- Only ValueError is raised. -/
def OnlyValue {α : Type} (x : Py α) : Prop := ∀ e, x = .error e → e = .ValueError

theorem OnlyValue.bind {α β : Type} {x : Py α} {f : α → Py β} (hx : OnlyValue x) (hf : ∀ a, OnlyValue (f a)) :
    OnlyValue (x >>= f) := by
  intro e h
  cases x with
  | error e' => rw [Py.bind_error] at h; cases h; exact hx _ rfl
  | ok a => rw [Py.bind_ok] at h; exact hf a e h

theorem OnlyValue.ok {α : Type} (a : α) : OnlyValue (pure a : Py α) := by
  intro e h
  cases h

theorem rotateArrays_only (lat ls : List ℝ) (b : List ℝ × List ℝ × List ℝ) : OnlyValue (rotateArrays lat ls b) := by
  unfold rotateArrays
  repeat' refine OnlyValue.bind (fun _ h => zipArrays_error h) fun _ => ?_
  exact OnlyValue.ok _

theorem prepare_only (e : Ellipsoid) (a b c : NdArray) : OnlyValue (prepare e a b c) := by
  unfold prepare
  refine OnlyValue.bind (fun e h => ?_) fun _ => ?_
  · unfold npBroadcast at h
    split at h
    · cases h; rfl
    · cases h
  repeat' refine OnlyValue.bind (fun _ h => zipArrays_error h) fun _ => ?_
  exact OnlyValue.ok _

theorem compute_only (mode : Mode) (junk : Junk) (mem : Forward.Junk) (self : Igrf) (c : Arr × Arr)
    (a b : NdArray) (p : List ℕ × List ℝ × List ℝ) (hN : 1 ≤ self.max_degree) :
    OnlyValue (compute mode junk mem self c a b p) := by
  unfold compute
  refine OnlyValue.bind (fun e h => ?_) fun _ => OnlyValue.bind (rotateArrays_only _ _ _) fun _ => ?_
  · unfold magneticField at h
    rw [if_neg (by omega)] at h
    cases h
  repeat' refine OnlyValue.bind (fun _ h => reshapeTo_error h) fun _ => ?_
  exact OnlyValue.ok _

theorem compute_sizes {mode : Mode} {junk : Junk} {mem : Forward.Junk} {self : Igrf} {c : Arr × Arr}
    {lon lat height : NdArray} {p : List ℕ × List ℝ × List ℝ} {r : Field}
    (hp : prepare self.ellipsoid lon lat height = .ok p) (h : compute mode junk mem self c lon lat p = .ok r) :
    IsBroadcast [lon.shape, lat.shape, height.shape] p.1 ∧ lon.data.length = p.1.prod ∧
      (lat.data.length = p.1.prod ∨ lat.data.length = 1) ∧
      (height.data.length = p.1.prod ∨ height.data.length = 1) ∧
      (p.1.prod = 1 → ∃ b, r = .numbers b) ∧
      (p.1.prod ≠ 1 → ∃ be bn bu, r = .arrays (⟨p.1, be⟩, ⟨p.1, bn⟩, ⟨p.1, bu⟩) ∧ be.length = p.1.prod ∧
        bn.length = p.1.prod ∧ bu.length = p.1.prod) := by
  unfold prepare at hp
  obtain ⟨shape, hs, hp⟩ := ok_bind hp
  obtain ⟨ls, h1, hp⟩ := ok_bind hp
  obtain ⟨ra, h2, hp⟩ := ok_bind hp
  rw [Py.pure_eq] at hp
  cases hp
  unfold compute at h
  obtain ⟨b, hb, h⟩ := ok_bind h
  obtain ⟨v, hv, h⟩ := ok_bind h
  obtain ⟨be, hbe, h⟩ := ok_bind h
  obtain ⟨bn, hbn, h⟩ := ok_bind h
  obtain ⟨bu, hbu, h⟩ := ok_bind h
  have hbl : b.length = lon.data.length := by
    unfold magneticField at hb
    split at hb
    · cases hb
    · simp only [Except.ok.injEq] at hb
      rw [← hb]
      simp
  unfold rotateArrays at hv
  obtain ⟨angle, ha, hv⟩ := ok_bind hv
  obtain ⟨x1, hx1, hv⟩ := ok_bind hv
  obtain ⟨x2, hx2, hv⟩ := ok_bind hv
  obtain ⟨north, hn, hv⟩ := ok_bind hv
  obtain ⟨y1, hy1, hv⟩ := ok_bind hv
  obtain ⟨y2, hy2, hv⟩ := ok_bind hv
  obtain ⟨up, hu, hv⟩ := ok_bind hv
  rw [Py.pure_eq] at hv
  cases hv
  obtain ⟨l1, rfl⟩ := reshapeTo_ok hbe
  obtain ⟨l2, rfl⟩ := reshapeTo_ok hbn
  obtain ⟨l3, rfl⟩ := reshapeTo_ok hbu
  obtain ⟨a1, a2⟩ := zipArrays_ok h1
  obtain ⟨c1, c2⟩ := zipArrays_ok ha
  obtain ⟨d1, d2⟩ := zipArrays_ok hx1
  obtain ⟨e1, e2⟩ := zipArrays_ok hx2
  obtain ⟨f1, f2⟩ := zipArrays_ok hn
  simp only [List.length_map] at *
  rw [Py.pure_eq, Except.ok.injEq] at h
  refine ⟨(npBroadcast_spec _ _ _).1 _ hs, by omega, ?_, ?_, ?_, ?_⟩
  · split_ifs at * <;> omega
  · split_ifs at * <;> omega
  · intro hp1
    rw [if_pos (by omega)] at h
    exact ⟨_, h.symm⟩
  · intro hp1
    rw [if_neg (by omega)] at h
    refine ⟨_, _, _, h.symm, ?_, ?_, ?_⟩ <;> simpa using by omega

/-- C08, what raises: tuples that do not have three arrays, arrays that cannot be broadcast, a longitude with fewer
elements than the result, and a latitude or height with neither one element nor as many as the result. -/
theorem C08_igrf_errors (mode : Mode) (junk : Junk) (mem : Forward.Junk) (load : Py Table) (self : Igrf)
    (cache : Cache) (hN : 1 ≤ self.max_degree) (hc : ∃ c, (coefficients load self cache).1 = .ok c) :
    (∀ l : List NdArray, l.length ≠ 3 →
      (predictNd mode junk mem load self cache l).1 = .error .ValueError) ∧
    ∀ longitude latitude height : NdArray,
      (¬ ∃ shape, IsBroadcast [longitude.shape, latitude.shape, height.shape] shape ∧
        longitude.data.length = shape.prod ∧
        (latitude.data.length = shape.prod ∨ latitude.data.length = 1) ∧
        (height.data.length = shape.prod ∨ height.data.length = 1)) →
      (predictNd mode junk mem load self cache [longitude, latitude, height]).1 = .error .ValueError := by
  obtain ⟨c, hc⟩ := hc
  constructor
  · intro l hl
    unfold predictNd
    split
    · simp at hl
    · rfl
  · intro lon lat height h
    unfold predictNd
    cases hp : prepare self.ellipsoid lon lat height with
    | error e =>
      rw [prepare_only _ _ _ _ _ hp] at hp
      simp only [hp]
    | ok p =>
      simp only [hp, hc, Except.bind]
      cases hr : compute mode junk mem self c lon lat p with
      | error e => rw [compute_only _ _ _ _ _ _ _ _ hN _ hr]
      | ok r =>
        obtain ⟨g1, g2, g3, g4, -⟩ := compute_sizes hp hr
        exact absurd ⟨p.1, g1, g2, g3, g4⟩ h

/-- C08, the shape: whatever is returned has the broadcast shape, as arrays, or as numbers when that shape has one
element. -/
theorem C08_shape_igrf (mode : Mode) (junk : Junk) (mem : Forward.Junk) (load : Py Table) (self : Igrf)
    (cache : Cache) (longitude latitude height : NdArray) (r : Field)
    (h : (predictNd mode junk mem load self cache [longitude, latitude, height]).1 = .ok r) :
    ∃ shape, IsBroadcast [longitude.shape, latitude.shape, height.shape] shape ∧
      (shape.prod = 1 → ∃ b, r = .numbers b) ∧
      (shape.prod ≠ 1 → ∃ be bn bu, r = .arrays (⟨shape, be⟩, ⟨shape, bn⟩, ⟨shape, bu⟩) ∧
        be.length = shape.prod ∧ bn.length = shape.prod ∧ bu.length = shape.prod) := by
  unfold predictNd at h
  cases hp : prepare self.ellipsoid longitude latitude height with
  | error e => simp [hp] at h
  | ok p =>
    simp only [hp] at h
    cases hc : (coefficients load self cache).1 with
    | error e => simp [hc, Except.bind] at h
    | ok c =>
      simp only [hc, Except.bind] at h
      obtain ⟨g1, g2, g3, g4, g5⟩ := compute_sizes hp h
      exact ⟨p.1, g1, g5⟩

/-- C08 for `predict`, full statement: coordinates of any shapes that broadcast. -/
def C08_igrf_full : Prop :=
  ∀ (junk : Junk) (mem : Forward.Junk) (load : Py Table) (self : Igrf) (cache : Cache)
    (longitude latitude height : NdArray) (shape : List ℕ), longitude.Wf → latitude.Wf → height.Wf →
    IsBroadcast [longitude.shape, latitude.shape, height.shape] shape →
    predictNd .serial junk mem load self cache [longitude, latitude, height] =
      ((predict .serial junk load self cache
          (broadcastPoints shape longitude latitude height)).1.map (shaped shape),
        (predict .serial junk load self cache (broadcastPoints shape longitude latitude height)).2)

/-- An object of degree 1 whose coefficients are those of the axial dipole. -/
def dipole (date : Date) (e : Ellipsoid) : Igrf := ⟨date, 1, 1, e⟩

/-- C08 for `predict`, negation: one longitude with two latitudes and heights raises, for every ellipsoid. -/
theorem C08_igrf_not_full : ¬ C08_igrf_full := by
  intro h
  have key := h ⟨fun _ _ _ => 0, fun _ _ _ => 0, fun _ _ => 0, fun _ _ => 0⟩ (fun _ _ => 0) (.error .ValueError)
    (dipole ⟨2020, 1, false⟩ (boule 1 0)) (some (axial, fun _ _ => 0)) ⟨[], [0]⟩ ⟨[2], [0, 1]⟩ ⟨[2], [0, 0]⟩ [2]
    (by simp [NdArray.Wf]) (by simp [NdArray.Wf]) (by simp [NdArray.Wf])
    ((C08_shape_rule ⟨[], [0]⟩ ⟨[2], [0, 1]⟩ ⟨[2], [0, 0]⟩ [2]).1 (by simp [npBroadcast, broadcastRev]))
  have e1 := (C08_igrf_errors .serial ⟨fun _ _ _ => 0, fun _ _ _ => 0, fun _ _ => 0, fun _ _ => 0⟩ (fun _ _ => 0)
    (.error .ValueError) (dipole ⟨2020, 1, false⟩ (boule 1 0)) (some (axial, fun _ _ => 0)) le_rfl ⟨_, rfl⟩).2
    ⟨[], [0]⟩ ⟨[2], [0, 1]⟩ ⟨[2], [0, 0]⟩ (by
      rintro ⟨s, h1, h2, -, h4⟩
      simp at h2 h4
      omega)
  rw [key] at e1
  simp only [predict, coefficients, Except.bind] at e1
  rw [C57_predict .serial _ _ _ _ le_rfl trivial (fun x _ => degrees_arcsin_mem _)] at e1
  cases e1

/-- C08 for `predict`, negation, second symptom: two longitudes at one latitude and one height make the loop read
past the end of two arrays, for every ellipsoid. Nothing is raised, and the result depends on what is there. -/
theorem C08_igrf_out_of_bounds (junk : Junk) (load : Py Table) (date : Date) (e : Ellipsoid)
    (he : e.latitude 0 0 ∈ Set.Icc (-90) 90) :
    ∃ (mem mem' : Forward.Junk) (r r' : Field) (cache : Cache),
      predictNd .serial junk mem load (dipole date e) cache [⟨[2], [0, 0]⟩, ⟨[], [0]⟩, ⟨[], [0]⟩] =
        (.ok r, cache) ∧
      predictNd .serial junk mem' load (dipole date e) cache [⟨[2], [0, 0]⟩, ⟨[], [0]⟩, ⟨[], [0]⟩] =
        (.ok r', cache) ∧ r ≠ r' := by
  have hp0 := Real.pi_pos
  have hcol : radians (90 - e.latitude 0 0) ∈ Set.Icc 0 Real.pi := by
    unfold radians
    constructor
    · have : 0 ≤ 90 - e.latitude 0 0 := by linarith [he.2]
      positivity
    · nlinarith [he.1]
  let angle := radians (e.latitude 0 0 - 0)
  let v0 := field axial (fun _ _ => 0) 1 1
    (radians 0, radians (90 - e.latitude 0 0), referenceRadius / e.radius 0 0)
  let v : ℝ → V3 := fun q => field axial (fun _ _ => 0) 1 1 (radians 0, 0, q)
  have hv : ∀ q, (v q).2 = (0, 2 * q ^ 3) := by
    intro q
    simp only [v]
    rw [field_axial _ _ _ ⟨le_rfl, hp0.le⟩]
    simp
  have run : ∀ q : ℝ, predictNd .serial junk (fun name _ => if name = "radius" then q else 0) load (dipole date e)
      (some (axial, fun _ _ => 0)) [⟨[2], [0, 0]⟩, ⟨[], [0]⟩, ⟨[], [0]⟩] =
      (.ok (.arrays (⟨[2], [v0.1, (v q).1]⟩,
        ⟨[2], [Real.cos angle * v0.2.1 + Real.sin angle * v0.2.2, Real.sin angle * (2 * q ^ 3)]⟩,
        ⟨[2], [-Real.sin angle * v0.2.1 + Real.cos angle * v0.2.2, Real.cos angle * (2 * q ^ 3)]⟩)),
        some (axial, fun _ _ => 0)) := by
    intro q
    have hf := magneticField_field .serial junk
      [(radians 0, radians (90 - e.latitude 0 0), referenceRadius / e.radius 0 0), (radians 0, 0, q)]
      axial (fun _ _ => 0) 1 1 le_rfl trivial (by
        intro x hx
        simp only [List.mem_cons, List.not_mem_nil, or_false] at hx
        rcases hx with rfl | rfl
        · exact hcol
        · exact ⟨le_rfl, hp0.le⟩)
    have hf' : magneticField .serial junk
      [(radians 0, radians (90 - e.latitude 0 0), referenceRadius / e.radius 0 0), (radians 0, 0, q)]
      axial (fun _ _ => 0) 1 1 = .ok [v0, v q] := hf
    have hprep : prepare e ⟨[2], [0, 0]⟩ ⟨[], [0]⟩ ⟨[], [0]⟩ = .ok ([2], [e.latitude 0 0], [e.radius 0 0]) := by
      simp [prepare, npBroadcast, broadcastRev, zipArrays, Py.bind_ok, Py.pure_eq]
    unfold predictNd
    simp only [dipole, hprep, coefficients, Except.bind]
    refine Prod.ext ?_ rfl
    simp only
    unfold compute
    have hpts : ((List.range ([0, 0] : List ℝ).length).map fun i =>
        (radians (rd (fun name _ => if name = "radius" then q else 0) "longitude" [0, 0] i),
          rd (fun name _ => if name = "radius" then q else 0) "colatitude"
            ([e.latitude 0 0].map fun l => radians (90 - l)) i,
          rd (fun name _ => if name = "radius" then q else 0) "radius"
            ([e.radius 0 0].map fun r => referenceRadius / r) i)) =
        [(radians 0, radians (90 - e.latitude 0 0), referenceRadius / e.radius 0 0), (radians 0, 0, q)] := by
      simp [List.range_succ, rd]
    simp only [hpts, hf', Py.bind_ok]
    simp [rotateArrays, zipArrays, Py.bind_ok, Py.pure_eq, reshapeTo, hv, angle]
  refine ⟨_, _, _, _, _, run 1, run 0, ?_⟩
  intro heq
  simp only [Field.arrays.injEq, Prod.mk.injEq, NdArray.mk.injEq, List.cons.injEq, and_true, true_and] at heq
  obtain ⟨-, h1, h2⟩ := heq
  norm_num at h1 h2
  have := Real.sin_sq_add_cos_sq angle
  rw [h1, h2] at this
  norm_num at this

end Verif.Igrf
