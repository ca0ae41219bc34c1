import Verif.EqSources.GridLemmas
import Verif.EqSources.PropsB

/-!
C87 (grids), C88 (profiles) and C89 (the spherical methods) for the equivalent sources.
-/

namespace Verif.EqSources
open Verif.Forward Verif.Engine Verif.Distance Verif.Layers Verif.Utils

/-! ### Specification -/

/-- The tuple `coordinates` of arrays is the regular grid with eastings `es`, northings `ns` and upward (or
radius) `u`, the last one northing by northing: either 1d arrays of eastings and northings, or the 2d arrays
of a meshgrid, whose element in row i and column j are the easting j and the northing i. -/
def Describes (c : Coords) (es ns u : List ℝ) : Prop :=
  c.2.2.shape = [ns.length, es.length] ∧ c.2.2.data = u ∧ u.length = ns.length * es.length ∧
  ((c.1.shape = [es.length] ∧ c.1.data = es ∧ c.2.1.shape = [ns.length] ∧ c.2.1.data = ns) ∨
    (c.1.shape = [ns.length, es.length] ∧ c.2.1.shape = [ns.length, es.length] ∧
      c.1.data.length = ns.length * es.length ∧ c.2.1.data.length = ns.length * es.length ∧
      ∀ (i j : ℕ) (e n : ℝ), ns[i]? = some n → es[j]? = some e →
        c.1.data[i * es.length + j]? = some e ∧ c.2.1.data[i * es.length + j]? = some n))

/-- The sources with their coefficients that a fitted estimator holds. -/
def Fitted (s : State) (srcs : List (P3 × ℝ)) : Prop :=
  s.points_ = some (pointArrs (srcs.map (·.1))) ∧ s.coefs_ = some (srcs.map (·.2))

/-- The values of an array of shape (number of northings, number of eastings) are, in row i and column j, the
value `f` of the easting j, the northing i and the upward of that node. -/
def ValuesAt (es ns u : List ℝ) (f : ℝ → ℝ → ℝ → ℝ) (a : NdArray) : Prop :=
  a.shape = [ns.length, es.length] ∧ a.data.length = ns.length * es.length ∧
  ∀ (i j : ℕ) (e n z : ℝ), ns[i]? = some n → es[j]? = some e → u[i * es.length + j]? = some z →
    a.data[i * es.length + j]? = some (f e n z)

/-! ### Lemmas -/

theorem index_ext {α : Type} (l m : List α) (nn ne : ℕ) (hl : l.length = nn * ne) (hm : m.length = nn * ne)
    (h : ∀ i < nn, ∀ j < ne, l[i * ne + j]? = m[i * ne + j]?) : l = m := by
  apply List.ext_getElem?
  intro k
  by_cases hk : k < nn * ne
  · have hne : 0 < ne := by
      rcases Nat.eq_zero_or_pos ne with h0 | h0
      · subst h0; simp at hk
      · exact h0
    have := h (k / ne) (Nat.div_lt_of_lt_mul (by rw [Nat.mul_comm]; exact hk)) (k % ne) (Nat.mod_lt _ hne)
    rwa [Nat.mul_comm, Nat.div_add_mod] at this
  · rw [List.getElem?_eq_none (by omega), List.getElem?_eq_none (by omega)]

theorem meshgrid_describes (c : Coords) (es ns u : List ℝ) (h : Describes c es ns u) :
    meshgrid c = .ok (coordArrs c.1.dtype c.2.1.dtype c.2.2.dtype [ns.length, es.length]
      (nodePoints es ns u)) := by
  obtain ⟨⟨d1, s1, a1⟩, ⟨d2, s2, a2⟩, ⟨d3, s3, a3⟩⟩ := c
  obtain ⟨h1, h2, h3, h4⟩ := h
  simp only at h1 h2 h4
  subst h1; subst h2
  simp only [coordArrs]
  rw [nodePoints_x _ _ _ h3, nodePoints_y _ _ _ h3, nodePoints_z _ _ _ h3]
  rcases h4 with ⟨r1, r2, r3, r4⟩ | ⟨r1, r2, r3, r4, r5⟩
  · subst r1; subst r2; subst r3; subst r4
    simp only [meshgrid, if_true, nodes_fst, nodes_snd]
  · subst r1; subst r2
    simp only [meshgrid, and_self, if_true]
    have ha : a1 = (nodes es ns).map (·.1) := by
      apply index_ext _ _ ns.length es.length r3 (by simp [nodes_length])
      intro i hi j hj
      have hn : ns[i]? = some ns[i] := by simp [hi]
      have he : es[j]? = some es[j] := by simp [hj]
      rw [(r5 i j _ _ hn he).1, List.getElem?_map, nodes_index es ns i j _ _ hn he]
      rfl
    have hb : a2 = (nodes es ns).map (·.2) := by
      apply index_ext _ _ ns.length es.length r4 (by simp [nodes_length])
      intro i hi j hj
      have hn : ns[i]? = some ns[i] := by simp [hi]
      have he : es[j]? = some es[j] := by simp [hj]
      rw [(r5 i j _ _ hn he).2, List.getElem?_map, nodes_index es ns i j _ _ hn he]
      rfl
    rw [ha, hb]

theorem valuesAt_map (es ns u : List ℝ) (hu : u.length = ns.length * es.length) (g : P3 → ℝ)
    (f : ℝ → ℝ → ℝ → ℝ) (hg : ∀ q : P3, g q = f q.x q.y q.z) :
    ValuesAt es ns u f ⟨[ns.length, es.length], (nodePoints es ns u).map g⟩ := by
  refine ⟨rfl, by simp [nodePoints_length es ns u hu], ?_⟩
  intro i j e n z hn he hz
  simp only [List.getElem?_map, nodePoints, List.getElem?_zipWith, nodes_index es ns i j e n hn he, hz,
    Option.map_some, hg]

theorem baseGrid_eq (close : ℝ → ℝ → Prop) (hclose : ∀ x, close x x) (pred : Coords → Py NdArray)
    (class_dims : String × String) (extra : String) (c : Coords) (es ns u : List ℝ)
    (h : Describes c es ns u) (he : es ≠ []) (hn : ns ≠ []) (dims : Option (String × String))
    (data_names : Option (List String)) (name : String) (hname : dataName data_names = .ok name)
    (projection : Option (ℝ → ℝ → ℝ × ℝ)) (v : NdArray)
    (hv : (match projection with
      | none => pred (coordArrs c.1.dtype c.2.1.dtype c.2.2.dtype [ns.length, es.length] (nodePoints es ns u))
      | some f => pred (coordArrs .float64 .float64 c.2.2.dtype [ns.length, es.length]
          ((nodePoints es ns u).map (projPoint f)))) = .ok v) :
    baseGrid close pred class_dims extra c dims data_names projection =
      .ok { dims := dims.getD class_dims, northing := ns, easting := es, extra_name := extra,
            extra := ⟨[ns.length, es.length], u⟩, data_name := name, data := v } := by
  have hm := meshgridTo1d_nodes close hclose c.1.dtype c.2.1.dtype
    ⟨c.2.2.dtype, [ns.length, es.length], u⟩ es ns he hn
  have hu := h.2.2.1
  have hc : coordArrs c.1.dtype c.2.1.dtype c.2.2.dtype [ns.length, es.length] (nodePoints es ns u) =
      (⟨c.1.dtype, [ns.length, es.length], (nodes es ns).map (·.1)⟩,
        ⟨c.2.1.dtype, [ns.length, es.length], (nodes es ns).map (·.2)⟩,
        ⟨c.2.2.dtype, [ns.length, es.length], u⟩) := by
    simp only [coordArrs]
    rw [nodePoints_x _ _ _ hu, nodePoints_y _ _ _ hu, nodePoints_z _ _ _ hu]
  unfold baseGrid
  rw [meshgrid_describes c es ns u h, Py.bind_ok]
  cases projection with
  | none =>
    simp only at hv
    simp only [hv, Py.bind_ok, hname]
    rw [hc, hm]
    rfl
  | some f =>
    simp only at hv
    simp only [projectCoordinates_coordArrs, hv, Py.bind_ok, hname]
    rw [hc, hm]
    rfl

/-! ### C87: grids -/

/-- C87: `grid` of fitted Cartesian equivalent sources (in the default or float dtypes), for eastings and
northings given as 1d arrays or as a meshgrid: the dataset has the given coordinates and names, and in row i and
column j the field of the sources at the easting j, the northing i and the upward of that node. With a
projection, the sources are evaluated at the projected position. No warning. -/
theorem C87_grid (close : ℝ → ℝ → Prop) (hclose : ∀ x, close x x) (junk : Junk) (mode : Mode) (P : Params)
    (hd : P.dtype.IsFloat) (s : State) (srcs : List (P3 × ℝ)) (hs : Fitted s srcs) (c : Coords)
    (es ns u : List ℝ) (h : Describes c es ns u) (he : es ≠ []) (hn : ns ≠ [])
    (hm : mode.Full (ns.length * es.length) (2 * srcs.length)) (dims : Option (String × String))
    (name : Option String) (projection : Option (ℝ → ℝ → ℝ × ℝ)) :
    ∃ data, grid close junk mode P s c dims (name.map fun n => [n]) projection [] =
        ([], .ok { dims := dims.getD ("northing", "easting"), northing := ns, easting := es,
                   extra_name := "upward", extra := ⟨[ns.length, es.length], u⟩,
                   data_name := name.getD "scalars", data := data }) ∧
      ValuesAt es ns u (fun e n z => field cartPos srcs
        (match projection with
          | none => ⟨e, n, z⟩
          | some f => ⟨(f e n).1, (f e n).2, z⟩)) data := by
  have hname : dataName (name.map fun n => [n]) = .ok (name.getD "scalars") := by
    cases name <;> rfl
  have hl := nodePoints_length es ns u h.2.2.1
  cases projection with
  | none =>
    refine ⟨_, ?_, valuesAt_map es ns u h.2.2.1 (field cartPos srcs) _ (fun q => rfl)⟩
    unfold grid
    rw [baseGrid_eq close hclose _ _ _ c es ns u h he hn dims _ _ hname none _
      (predict_eq junk mode P hd _ _ _ _ _ (by simp [hl]) srcs (by rw [hl]; exact hm) s hs.1 hs.2)]
    rfl
  | some f =>
    refine ⟨_, ?_, valuesAt_map es ns u h.2.2.1 (fun q => field cartPos srcs (projPoint f q)) _
      (fun q => rfl)⟩
    unfold grid
    rw [baseGrid_eq close hclose _ _ _ c es ns u h he hn dims _ _ hname (some f) _
      (predict_eq junk mode P hd _ _ _ _ _ (by simp [hl]) srcs (by rw [List.length_map, hl]; exact hm)
        s hs.1 hs.2)]
    simp [deprecatedArgs, Function.comp_def]

/-- C87: the arguments `upward`, `shape`, `region` and `spacing` are refused with a ValueError, whatever the
others are. -/
theorem C87_deprecated (close : ℝ → ℝ → Prop) (junk : Junk) (mode : Mode) (P : Params) (s : State) (c : Coords)
    (dims : Option (String × String)) (data_names : Option (List String))
    (projection : Option (ℝ → ℝ → ℝ × ℝ)) (kwargs : List String)
    (h : "upward" ∈ kwargs ∨ "shape" ∈ kwargs ∨ "region" ∈ kwargs ∨ "spacing" ∈ kwargs) :
    grid close junk mode P s c dims data_names projection kwargs = ([], .error .ValueError) := by
  unfold grid
  rw [if_pos]
  simpa [deprecatedArgs, List.contains_eq_mem] using h

/-- C87: any other keyword argument changes nothing but for one FutureWarning. -/
theorem C87_ignored (close : ℝ → ℝ → Prop) (junk : Junk) (mode : Mode) (P : Params) (s : State) (c : Coords)
    (dims : Option (String × String)) (data_names : Option (List String))
    (projection : Option (ℝ → ℝ → ℝ × ℝ)) (kwargs : List String) (hk : kwargs ≠ [])
    (h : ∀ a ∈ kwargs, a ≠ "upward" ∧ a ≠ "shape" ∧ a ≠ "region" ∧ a ≠ "spacing") :
    grid close junk mode P s c dims data_names projection kwargs =
      ([.futureWarning], (grid close junk mode P s c dims data_names projection []).2) := by
  unfold grid
  rw [if_neg, if_neg, if_neg]
  · simp
  · simpa using hk
  · simp only [deprecatedArgs, List.any_cons, List.any_nil, List.contains_eq_mem, Bool.or_false,
      Bool.or_eq_true, decide_eq_true_eq, not_or]
    exact ⟨fun x => (h _ x).1 rfl, fun x => (h _ x).2.1 rfl, fun x => (h _ x).2.2.1 rfl,
      fun x => (h _ x).2.2.2 rfl⟩

/-- C87: sources that were never fitted give no grid. -/
theorem C87_not_fitted (close : ℝ → ℝ → Prop) (junk : Junk) (mode : Mode) (P : Params) (c : Coords) (s : State)
    (hs : s.coefs_ = none) (dims : Option (String × String)) (data_names : Option (List String))
    (projection : Option (ℝ → ℝ → ℝ × ℝ)) (kwargs : List String) :
    (grid close junk mode P s c dims data_names projection kwargs).2 = .error .ValueError := by
  have hp : ∀ c, predict junk mode P c s = .error .ValueError := by
    intro c; unfold predict; rw [hs]
  unfold grid
  split
  · rfl
  · unfold baseGrid
    simp only [hp]
    have : ∀ m : Py Coords, meshgrid c = m → m = .error .ValueError ∨ ∃ x, m = .ok x := by
      intro m hm
      unfold meshgrid at hm
      split at hm
      · split at hm
        · exact Or.inr ⟨_, hm.symm⟩
        · exact Or.inl hm.symm
      · split at hm
        · exact Or.inr ⟨_, hm.symm⟩
        · exact Or.inl hm.symm
      · exact Or.inl hm.symm
    rcases this _ rfl with hm | ⟨x, hm⟩
    · rw [hm]; rfl
    · rw [hm, Py.bind_ok]
      cases projection <;> rfl

/-- C87: `scatter` is not implemented for any of the classes, and `profile` is not for the spherical one. -/
theorem C87_scatter {α : Type} : (scatter : Py α) = .error .NotImplementedError ∧
    (profileSph : Py α) = .error .NotImplementedError := ⟨rfl, rfl⟩

/-- arrays that do not make a grid are refused: the number of dimensions of easting and northing differ or is
neither 1 nor 2, or the upward is not given on every node -/
theorem C87_shapes (close : ℝ → ℝ → Prop) (junk : Junk) (mode : Mode) (P : Params) (s : State) (c : Coords)
    (dims : Option (String × String)) (data_names : Option (List String))
    (projection : Option (ℝ → ℝ → ℝ × ℝ)) (kwargs : List String)
    (h : ∀ nn ne, c.2.2.shape = [nn, ne] →
      ¬ (c.1.shape = [ne] ∧ c.2.1.shape = [nn]) ∧ ¬ (c.1.shape = [nn, ne] ∧ c.2.1.shape = [nn, ne])) :
    (grid close junk mode P s c dims data_names projection kwargs).2 = .error .ValueError := by
  unfold grid
  split
  · rfl
  · have : meshgrid c = .error .ValueError := by
      unfold meshgrid
      split
      · rename_i ne nn h1 h2
        rw [if_neg]
        intro h3
        exact (h nn ne h3).1 ⟨h1, h2⟩
      · rename_i nn ne nn' ne' h1 h2
        rw [if_neg]
        rintro ⟨rfl, rfl, h3⟩
        exact (h nn ne h3).2 ⟨h1, h2⟩
      · rfl
    unfold baseGrid
    rw [this]
    rfl

/-- C87: one name for the data, or none: with any other number of names a call that would return raises
`ValueError`. -/
theorem C87_data_names (close : ℝ → ℝ → Prop) (junk : Junk) (mode : Mode) (P : Params) (s : State) (c : Coords)
    (dims : Option (String × String)) (data_names : Option (List String)) (names : List String)
    (projection : Option (ℝ → ℝ → ℝ × ℝ)) (kwargs : List String) (d : Dataset)
    (h : (grid close junk mode P s c dims data_names projection kwargs).2 = .ok d) :
    (names.length ≠ 1 → (grid close junk mode P s c dims (some names) projection kwargs).2 = .error .ValueError) ∧
    (∀ name, (grid close junk mode P s c dims (some [name]) projection kwargs).2 =
      .ok { d with data_name := name }) := by
  unfold grid at h ⊢
  split at h
  · simp at h
  · rename_i hk
    simp only [if_neg hk]
    unfold baseGrid at h ⊢
    simp only at h ⊢
    cases hm : meshgrid c with
    | error e => rw [hm] at h; cases h
    | ok x =>
    rw [hm] at h
    simp only [Py.bind_ok] at h ⊢
    have hd : ∀ (m : Py NdArray),
        (m >>= fun data => do
          let name ← dataName data_names
          let horizontal ← meshgridTo1d close x
          (pure { dims := dims.getD ("northing", "easting"), northing := horizontal.2, easting := horizontal.1,
                  extra_name := "upward", extra := ⟨x.2.2.shape, x.2.2.data⟩, data_name := name,
                  data := data } : Py Dataset)) = .ok d →
        (names.length ≠ 1 → (m >>= fun data => do
          let name ← dataName (some names)
          let horizontal ← meshgridTo1d close x
          (pure { dims := dims.getD ("northing", "easting"), northing := horizontal.2, easting := horizontal.1,
                  extra_name := "upward", extra := ⟨x.2.2.shape, x.2.2.data⟩, data_name := name,
                  data := data } : Py Dataset)) = .error .ValueError) ∧
        (∀ name, (m >>= fun data => do
          let name ← dataName (some [name])
          let horizontal ← meshgridTo1d close x
          (pure { dims := dims.getD ("northing", "easting"), northing := horizontal.2, easting := horizontal.1,
                  extra_name := "upward", extra := ⟨x.2.2.shape, x.2.2.data⟩, data_name := name,
                  data := data } : Py Dataset)) = .ok { d with data_name := name }) := by
      intro m hmd
      cases m with
      | error e => cases hmd
      | ok data =>
      simp only [Py.bind_ok] at hmd ⊢
      constructor
      · intro hn
        have : dataName (some names) = .error .ValueError := by
          unfold dataName
          split
          · rename_i heq; cases heq
          · rename_i heq; cases heq; simp at hn
          · rfl
        rw [this]
        rfl
      · intro name
        cases h1 : dataName data_names with
        | error e => rw [h1] at hmd; cases hmd
        | ok nm =>
        rw [h1] at hmd
        cases h2 : meshgridTo1d close x with
        | error e => rw [h2] at hmd; cases hmd
        | ok hz =>
        rw [h2] at hmd
        simp only [Py.bind_ok, Py.pure_eq, Except.ok.injEq] at hmd
        subst hmd
        rfl
    cases projection with
    | none => exact hd _ h
    | some f => exact hd _ h

/-- C87: a grid without rows or without columns is refused. -/
theorem C87_empty (close : ℝ → ℝ → Prop) (junk : Junk) (mode : Mode) (P : Params) (s : State) (c : Coords)
    (dims : Option (String × String)) (data_names : Option (List String))
    (projection : Option (ℝ → ℝ → ℝ × ℝ)) (kwargs : List String) (nn ne : ℕ)
    (hc : c.2.2.shape = [nn, ne]) (h0 : nn = 0 ∨ ne = 0) (d : Dataset) :
    (grid close junk mode P s c dims data_names projection kwargs).2 ≠ .ok d := by
  intro h
  unfold grid at h
  split at h
  · simp at h
  · unfold baseGrid at h
    simp only at h
    cases hm : meshgrid c with
    | error e => rw [hm] at h; cases h
    | ok x =>
    rw [hm] at h
    simp only [Py.bind_ok] at h
    have hx : x.1.shape = [nn, ne] := by
      unfold meshgrid at hm
      split at hm
      · split at hm
        · rename_i h3
          cases hm
          rw [← hc, h3]
        · cases hm
      · split at hm
        · rename_i h1 _ h3
          cases hm
          rw [h1, ← hc, h3.2.2]
        · cases hm
      · cases hm
    have hmg : meshgridTo1d close x = .error .IndexError := by
      unfold meshgridTo1d
      rw [hx]
      simp only [if_pos h0]
    have hd : ∀ (m : Py NdArray),
        (m >>= fun data => do
          let name ← dataName data_names
          let horizontal ← meshgridTo1d close x
          (pure { dims := dims.getD ("northing", "easting"), northing := horizontal.2, easting := horizontal.1,
                  extra_name := "upward", extra := ⟨x.2.2.shape, x.2.2.data⟩, data_name := name,
                  data := data } : Py Dataset)) ≠ .ok d := by
      intro m hmd
      cases m with
      | error e => cases hmd
      | ok data =>
      rw [hmg] at hmd
      cases h1 : dataName data_names with
      | error e => rw [h1] at hmd; cases hmd
      | ok nm => rw [h1] at hmd; cases hmd
    cases projection with
    | none => exact hd _ h
    | some f => exact hd _ h

/-! ### C88: profiles -/

/-- The fraction of the way of point `i` of `size` equally spaced points; 0 for a single one. -/
noncomputable def fraction (size i : ℕ) : ℝ := i / ((size : ℝ) - 1)

/-- The point a fraction `t` of the way from `p` to `q`. -/
def between (p q : ℝ × ℝ) (t : ℝ) : ℝ × ℝ := (p.1 + t * (q.1 - p.1), p.2 + t * (q.2 - p.2))

/-- Euclidean distance between two points of the plane. -/
noncomputable def planeDist (p q : ℝ × ℝ) : ℝ := √((q.1 - p.1) ^ 2 + (q.2 - p.2) ^ 2)

theorem planeDist_cos (p q : ℝ × ℝ) :
    planeDist p q * Real.cos (arctan2 (q.2 - p.2) (q.1 - p.1)) = q.1 - p.1 ∧
    planeDist p q * Real.sin (arctan2 (q.2 - p.2) (q.1 - p.1)) = q.2 - p.2 := by
  have h : planeDist p q = ‖(⟨q.1 - p.1, q.2 - p.2⟩ : ℂ)‖ := by
    rw [planeDist, Complex.norm_def, Complex.normSq_mk]
    congr 1
    ring
  rw [h]
  exact ⟨Complex.norm_mul_cos_arg _, Complex.norm_mul_sin_arg _⟩

/-- the points of the profile -/
noncomputable def profilePoints (p q : ℝ × ℝ) (size : ℕ) : List (ℝ × ℝ) :=
  (List.range size).map fun i => between p q (fraction size i)

theorem profileCoordinates_eq (p q : ℝ × ℝ) (size : ℕ) (h : 0 < size) (u : ℝ) :
    profileCoordinates p q size u =
      .ok (((profilePoints p q size).map (·.1), (profilePoints p q size).map (·.2),
          (profilePoints p q size).map fun _ => u),
        (List.range size).map fun i => fraction size i * planeDist p q) := by
  unfold profileCoordinates
  rw [if_neg (by omega)]
  obtain ⟨hc, hs⟩ := planeDist_cos p q
  have hd : ∀ i : ℕ, (i : ℝ) * (√((q.1 - p.1) ^ 2 + (q.2 - p.2) ^ 2) / (((size : ℤ) - 1 : ℤ) : ℝ)) =
      fraction size i * planeDist p q := by
    intro i
    push_cast
    rw [planeDist, fraction]
    ring
  simp only [hd, Int.toNat_natCast, List.map_map, profilePoints, Function.comp_def, between]
  congr 3
  · refine List.map_congr_left fun i _ => ?_
    rw [mul_assoc, hc]
  · congr 1
    refine List.map_congr_left fun i _ => ?_
    rw [mul_assoc, hs]

/-- C88: a profile of fitted sources (no extra argument): `size` equally spaced points between the (projected)
end points, at the given upward. The columns are the northings and the eastings (projected back), the distance
to the first point, the upward and the field of the sources there. No warning. -/
theorem C88_profile (junk : Junk) (mode : Mode) (P : Params) (hd : P.dtype.IsFloat) (s : State)
    (srcs : List (P3 × ℝ)) (hs : Fitted s srcs) (point1 point2 : ℝ × ℝ) (upward : ℝ) (size : ℕ)
    (hsize : 0 < size) (hm : mode.Full size (2 * srcs.length)) (dims : Option (String × String))
    (name : Option String) (projection : Option (Bool → ℝ → ℝ → ℝ × ℝ)) :
    ∃ at_ : ℕ → ℝ × ℝ, ∃ p q : ℝ × ℝ,
      (match projection with
        | none => p = point1 ∧ q = point2
        | some f => p = f false point1.1 point1.2 ∧ q = f false point2.1 point2.2) ∧
      (∀ i, at_ i = between p q (fraction size i)) ∧
      profile junk mode P s point1 point2 upward size dims (name.map fun n => [n]) projection [] =
        ([], .ok [
          ((dims.getD ("northing", "easting")).1, (List.range size).map fun i =>
            match projection with
            | none => (at_ i).2
            | some f => (f true (at_ i).1 (at_ i).2).2),
          ((dims.getD ("northing", "easting")).2, (List.range size).map fun i =>
            match projection with
            | none => (at_ i).1
            | some f => (f true (at_ i).1 (at_ i).2).1),
          ("distance", (List.range size).map fun i => fraction size i * planeDist p q),
          ("upward", (List.range size).map fun _ => upward),
          (name.getD "scalars", (List.range size).map fun i =>
            field cartPos srcs ⟨(at_ i).1, (at_ i).2, upward⟩)]) := by
  have hname : dataName (name.map fun n => [n]) = .ok (name.getD "scalars") := by
    cases name <;> rfl
  have key : ∀ p q : ℝ × ℝ, predict junk mode P
      (⟨.float64, [size], (profilePoints p q size).map (·.1)⟩,
        ⟨.float64, [size], (profilePoints p q size).map (·.2)⟩,
        ⟨.float64, [size], (profilePoints p q size).map fun _ => upward⟩) s =
      .ok ⟨[size], (profilePoints p q size).map fun a => field cartPos srcs ⟨a.1, a.2, upward⟩⟩ := by
    intro p q
    have := predict_eq junk mode P hd .float64 .float64 .float64 [size]
      ((profilePoints p q size).map fun a => (⟨a.1, a.2, upward⟩ : P3)) (by simp [profilePoints]) srcs
      (by simpa [profilePoints] using hm) s hs.1 hs.2
    simpa [coordArrs, List.map_map, Function.comp_def] using this
  cases projection with
  | none =>
    refine ⟨fun i => between point1 point2 (fraction size i), point1, point2, ⟨rfl, rfl⟩, fun _ => rfl, ?_⟩
    simp only [profile, popExtraCoords, List.contains_nil, Bool.false_eq_true, if_false, baseProfile,
      ne_eq, not_true_eq_false]
    rw [profileCoordinates_eq _ _ _ hsize]
    simp only [Py.bind_ok, List.length_map, List.length_range, key, hname, Py.pure_eq]
    simp [profilePoints, List.map_map, Function.comp_def]
  | some f =>
    refine ⟨fun i => between (f false point1.1 point1.2) (f false point2.1 point2.2) (fraction size i),
      f false point1.1 point1.2, f false point2.1 point2.2, ⟨rfl, rfl⟩, fun _ => rfl, ?_⟩
    simp only [profile, popExtraCoords, List.contains_nil, Bool.false_eq_true, if_false, baseProfile,
      ne_eq, not_true_eq_false]
    rw [profileCoordinates_eq _ _ _ hsize]
    simp only [Py.bind_ok, List.length_map, List.length_range, key, hname, Py.pure_eq]
    simp [profilePoints, List.map_map, Function.comp_def, List.zipWith_map]

/-- C88: the first of two or more points is the first end point and the last one is the second. -/
theorem C88_ends (p q : ℝ × ℝ) (size : ℕ) (h : 2 ≤ size) :
    between p q (fraction size 0) = p ∧ between p q (fraction size (size - 1)) = q ∧
      fraction size (size - 1) * planeDist p q = planeDist p q := by
  have h1 : fraction size (size - 1) = 1 := by
    have : (2 : ℝ) ≤ size := by exact_mod_cast h
    rw [fraction, Nat.cast_sub (by omega), Nat.cast_one, div_self (by linarith)]
  refine ⟨by simp [between, fraction], ?_, by rw [h1, one_mul]⟩
  rw [h1, between]
  simp

/-- C88: without points, ValueError. -/
theorem C88_size (junk : Junk) (mode : Mode) (P : Params) (s : State) (point1 point2 : ℝ × ℝ) (upward : ℝ)
    (size : ℤ) (hsize : size ≤ 0) (dims : Option (String × String)) (data_names : Option (List String))
    (projection : Option (Bool → ℝ → ℝ → ℝ × ℝ)) :
    profile junk mode P s point1 point2 upward size dims data_names projection [] =
      ([], .error .ValueError) := by
  simp only [profile, popExtraCoords, List.contains_nil, Bool.false_eq_true, if_false, baseProfile,
    ne_eq, not_true_eq_false, profileCoordinates, if_pos hsize, Py.pure_eq]
  rfl

/-- C88: `extra_coords` is ignored, with one UserWarning. -/
theorem C88_extra_coords (junk : Junk) (mode : Mode) (P : Params) (s : State) (point1 point2 : ℝ × ℝ)
    (upward : ℝ) (size : ℤ) (dims : Option (String × String)) (data_names : Option (List String))
    (projection : Option (Bool → ℝ → ℝ → ℝ × ℝ)) :
    profile junk mode P s point1 point2 upward size dims data_names projection ["extra_coords"] =
      ([.userWarning], (profile junk mode P s point1 point2 upward size dims data_names projection []).2) := by
  simp [profile, popExtraCoords]

/-- C88: the profile takes no other argument, although its documentation says that they are passed on. -/
theorem C88_other_arguments (junk : Junk) (mode : Mode) (P : Params) (s : State) (point1 point2 : ℝ × ℝ)
    (upward : ℝ) (size : ℤ) (dims : Option (String × String)) (data_names : Option (List String))
    (projection : Option (Bool → ℝ → ℝ → ℝ × ℝ)) (kwargs : List String)
    (h : ∃ a ∈ kwargs, a ≠ "extra_coords") :
    (profile junk mode P s point1 point2 upward size dims data_names projection kwargs).2 =
      .error .TypeError := by
  obtain ⟨a, ha, hne⟩ := h
  have : (popExtraCoords kwargs).2 ≠ [] := by
    unfold popExtraCoords
    split
    · exact List.ne_nil_of_mem (List.mem_filter.2 ⟨ha, by simpa using hne⟩)
    · exact List.ne_nil_of_mem ha
  simp only [profile, baseProfile, if_pos this]
  rfl

/-! ### C89: the spherical class -/

/-- C89 (for longitudes of a floating point type): `grid` of fitted spherical equivalent sources evaluates the
sources on the nodes themselves, with the names of the spherical class. -/
theorem C89_grid_partial (close : ℝ → ℝ → Prop) (hclose : ∀ x, close x x) (junk : Junk) (mode : Mode)
    (s : State) (srcs : List (P3 × ℝ)) (hs : Fitted s srcs) (c : Coords) (hc : c.1.dtype.IsFloat)
    (lons lats r : List ℝ) (h : Describes c lons lats r) (he : lons ≠ []) (hn : lats ≠ [])
    (hm : mode.Full (lats.length * lons.length) (2 * srcs.length)) (dims : Option (String × String))
    (name : Option String) :
    ∃ data, gridSph close junk mode s c dims (name.map fun n => [n]) [] =
        ([], .ok { dims := dims.getD ("spherical_latitude", "longitude"), northing := lats, easting := lons,
                   extra_name := "radius", extra := ⟨[lats.length, lons.length], r⟩,
                   data_name := name.getD "scalars", data := data }) ∧
      ValuesAt lons lats r (fun lon lat rad => field sphPos srcs ⟨lon, lat, rad⟩) data := by
  have hname : dataName (name.map fun n => [n]) = .ok (name.getD "scalars") := by
    cases name <;> rfl
  have hl := nodePoints_length lons lats r h.2.2.1
  refine ⟨_, ?_, valuesAt_map lons lats r h.2.2.1 (field sphPos srcs) _ (fun q => rfl)⟩
  unfold gridSph
  rw [baseGrid_eq close hclose _ _ _ c lons lats r h he hn dims _ _ hname none _
    (predictSph_eq junk mode _ _ _ hc _ _ (by simp [hl]) srcs (by rw [hl]; exact hm) s hs.1 hs.2)]
  rfl

/-- C89: the arguments that `grid` no longer takes are refused. -/
theorem C89_deprecated (close : ℝ → ℝ → Prop) (junk : Junk) (mode : Mode) (s : State) (c : Coords)
    (dims : Option (String × String)) (data_names : Option (List String)) (kwargs : List String)
    (h : "upward" ∈ kwargs ∨ "shape" ∈ kwargs ∨ "region" ∈ kwargs ∨ "spacing" ∈ kwargs) :
    gridSph close junk mode s c dims data_names kwargs = ([], .error .ValueError) := by
  unfold gridSph
  rw [if_pos]
  simpa [deprecatedArgs, List.contains_eq_mem] using h

/-- C89: any other argument, `projection` among them, changes nothing but for one FutureWarning. -/
theorem C89_ignored (close : ℝ → ℝ → Prop) (junk : Junk) (mode : Mode) (s : State) (c : Coords)
    (dims : Option (String × String)) (data_names : Option (List String)) (kwargs : List String)
    (hk : kwargs ≠ [])
    (h : ∀ a ∈ kwargs, a ≠ "upward" ∧ a ≠ "shape" ∧ a ≠ "region" ∧ a ≠ "spacing") :
    gridSph close junk mode s c dims data_names kwargs =
      ([.futureWarning], (gridSph close junk mode s c dims data_names []).2) := by
  unfold gridSph
  rw [if_neg, if_neg, if_neg]
  · simp
  · simpa using hk
  · simp only [deprecatedArgs, List.any_cons, List.any_nil, List.contains_eq_mem, Bool.or_false,
      Bool.or_eq_true, decide_eq_true_eq, not_or]
    exact ⟨fun x => (h _ x).1 rfl, fun x => (h _ x).2.1 rfl, fun x => (h _ x).2.2.1 rfl,
      fun x => (h _ x).2.2.2 rfl⟩

/-- The grid of one node at the longitude 0, latitude 0 and radius 1. -/
def oneNode (d : DType) : Coords := (⟨d, [1], [0]⟩, ⟨.float64, [1], [0]⟩, ⟨.float64, [1, 1], [1]⟩)

theorem oneNode_describes (d : DType) : Describes (oneNode d) [0] [0] [1] :=
  ⟨rfl, rfl, rfl, Or.inl ⟨rfl, rfl, rfl, rfl⟩⟩

theorem sph_int_grid (junk : Junk) :
    predictSph junk .serial (coordArrs .int64 .float64 .float64 [1, 1] [⟨0, 0, 1⟩]) sphState =
      .ok ⟨[1, 1], [0]⟩ := by
  have h := sph_int junk
  unfold predictSph sphState at h ⊢
  simp only [npBroadcast_coordArrs, Py.bind_ok, Py.pure_eq, n1dArrays_coordArrs, List.prod_cons,
    List.prod_nil, mul_one, Except.ok.injEq, NdArray.mk.injEq, true_and] at h ⊢
  exact h

/-- The full C89 is false: for integer longitudes the values are truncated to integers, here 0 instead of 1/2. -/
theorem C89_not_full (close : ℝ → ℝ → Prop) (hclose : ∀ x, close x x) (junk : Junk) :
    ∃ ds, gridSph close junk .serial sphState (oneNode .int64) none none [] = ([], .ok ds) ∧
      ds.data = ⟨[1, 1], [0]⟩ ∧ field sphPos [(⟨0, 0, 3⟩, 1)] ⟨0, 0, 1⟩ = 1 / 2 := by
  have h : gridSph close junk .serial sphState (oneNode .int64) none none [] =
      ([], .ok ⟨("spherical_latitude", "longitude"), [0], [0], "radius", ⟨[1, 1], [1]⟩, "scalars",
        ⟨[1, 1], [0]⟩⟩) := by
    unfold gridSph
    rw [baseGrid_eq close hclose _ _ _ (oneNode .int64) [0] [0] [1] (oneNode_describes _) (by simp) (by simp)
      none none _ rfl none ⟨[1, 1], [0]⟩ (sph_int_grid junk)]
    rfl
  exact ⟨_, h, rfl, sph_value⟩

/-! ### Concrete cases -/

/-- a 2 by 3 grid given as 1d arrays -/
example : Describes (⟨.float64, [3], [0, 1, 2]⟩, ⟨.int64, [2], [10, 20]⟩,
    ⟨.float64, [2, 3], [1, 1, 1, 2, 2, 3]⟩) [0, 1, 2] [10, 20] [1, 1, 1, 2, 2, 3] :=
  ⟨rfl, rfl, rfl, Or.inl ⟨rfl, rfl, rfl, rfl⟩⟩

/-- the same grid given as 2d arrays -/
theorem meshExample : Describes (⟨.float64, [2, 3], [0, 1, 2, 0, 1, 2]⟩,
    ⟨.int64, [2, 3], [10, 10, 10, 20, 20, 20]⟩,
    ⟨.float64, [2, 3], [1, 1, 1, 2, 2, 3]⟩) [0, 1, 2] [10, 20] [1, 1, 1, 2, 2, 3] := by
  refine ⟨rfl, rfl, rfl, Or.inr ⟨rfl, rfl, rfl, rfl, ?_⟩⟩
  intro i j e n hi hj
  match i, j with
  | 0, 0 | 0, 1 | 0, 2 | 1, 0 | 1, 1 | 1, 2 => simp_all
  | 0, j + 3 | 1, j + 3 => simp at hj
  | i + 2, _ => simp at hi

/-- the sources of the cases below, one of them below the node (2, 20, 3) -/
noncomputable def twoSources : List (P3 × ℝ) := [(⟨2, 20, -1⟩, 8), (⟨0, 0, -1⟩, 0)]

noncomputable def twoFitted : State :=
  { points_ := some (pointArrs (twoSources.map (·.1))), coefs_ := some (twoSources.map (·.2)) }

/-- C87 on that grid: the value in the second row and third column is 8 over the distance 4. -/
example (close : ℝ → ℝ → Prop) (hclose : ∀ x, close x x) (junk : Junk) (P : Params) (hd : P.dtype.IsFloat) :
    ∃ ds, grid close junk .serial P twoFitted
        (⟨.float64, [2, 3], [0, 1, 2, 0, 1, 2]⟩, ⟨.int64, [2, 3], [10, 10, 10, 20, 20, 20]⟩,
          ⟨.float64, [2, 3], [1, 1, 1, 2, 2, 3]⟩) none (some ["g"]) none [] = ([], .ok ds) ∧
      ds.data_name = "g" ∧ ds.data.data[5]? = some 2 := by
  obtain ⟨a, h1, -, -, h2⟩ := C87_grid close hclose junk .serial P hd twoFitted twoSources ⟨rfl, rfl⟩ _ _ _ _
    meshExample (by simp) (by simp) trivial none (some "g") none
  refine ⟨_, h1, rfl, ?_⟩
  have := h2 1 2 2 20 3 rfl rfl rfl
  simp only [List.length_cons, List.length_nil] at this
  norm_num at this
  rw [this]
  simp only [field, twoSources, List.map_cons, List.map_nil, List.sum_cons, List.sum_nil]
  rw [EuclideanSpace.dist_eq]
  simp [cartPos, Fin.sum_univ_three, Real.dist_eq]
  norm_num
  rw [show (16 : ℝ) = 4 ^ 2 by norm_num, Real.sqrt_sq (by norm_num)]
  norm_num

/-- C87 with a projection that scales: the value at the node (1, 10, 1) is that of (2, 20, 1). -/
example (close : ℝ → ℝ → Prop) (hclose : ∀ x, close x x) (junk : Junk) (P : Params) (hd : P.dtype.IsFloat) :
    ∃ ds, grid close junk .serial P twoFitted
        (⟨.float64, [2, 3], [0, 1, 2, 0, 1, 2]⟩, ⟨.int64, [2, 3], [10, 10, 10, 20, 20, 20]⟩,
          ⟨.float64, [2, 3], [1, 1, 1, 2, 2, 3]⟩) none none (some fun e n => (2 * e, 2 * n)) [] = ([], .ok ds) ∧
      ds.easting = [0, 1, 2] ∧ ds.data.data[1]? = some 4 := by
  obtain ⟨a, h1, -, -, h2⟩ := C87_grid close hclose junk .serial P hd twoFitted twoSources ⟨rfl, rfl⟩ _ _ _ _
    meshExample (by simp) (by simp) trivial none none (some fun e n => (2 * e, 2 * n))
  refine ⟨_, h1, rfl, ?_⟩
  have := h2 0 1 1 10 1 rfl rfl rfl
  simp only [List.length_cons, List.length_nil] at this
  norm_num at this
  rw [this]
  simp only [field, twoSources, List.map_cons, List.map_nil, List.sum_cons, List.sum_nil]
  rw [EuclideanSpace.dist_eq]
  simp [cartPos, Fin.sum_univ_three, Real.dist_eq]
  norm_num

/-- C87: an argument of the old interface and an unknown one. -/
example (close : ℝ → ℝ → Prop) (junk : Junk) (P : Params) (c : Coords) :
    grid close junk .serial P twoFitted c none none none ["adjust", "spacing"] = ([], .error .ValueError) ∧
    (grid close junk .serial P twoFitted c none none none ["adjust"]).1 = [.futureWarning] :=
  ⟨C87_deprecated _ _ _ _ _ _ _ _ _ _ (by simp), by
    rw [C87_ignored _ _ _ _ _ _ _ _ _ _ (by simp) (by simp)]⟩

/-- C87: 1d arrays of upward, or a transposed one, are refused. -/
example (close : ℝ → ℝ → Prop) (junk : Junk) (P : Params) :
    (grid close junk .serial P twoFitted (⟨.float64, [3], [0, 1, 2]⟩, ⟨.int64, [2], [10, 20]⟩,
      ⟨.float64, [3, 2], [1, 1, 1, 2, 2, 3]⟩) none none none []).2 = .error .ValueError :=
  C87_shapes _ _ _ _ _ _ _ _ _ _ (by
    intro nn ne h
    simp only [List.cons.injEq, and_true] at h
    obtain ⟨rfl, rfl⟩ := h
    simp)

/-- C88: the profile from (0, 0) to (3, 4) in three points, at the distances 0, 5/2 and 5. -/
example (junk : Junk) (P : Params) (hd : P.dtype.IsFloat) :
    ∃ t, profile junk .serial P twoFitted (0, 0) (3, 4) 1 3 none none none [] = ([], .ok t) ∧
      t[1]? = some ("easting", [0, 3 / 2, 3]) ∧ t[0]? = some ("northing", [0, 2, 4]) ∧
      t[2]? = some ("distance", [0, 5 / 2, 5]) := by
  obtain ⟨a, p, q, ⟨rfl, rfl⟩, h2, h3⟩ := C88_profile junk .serial P hd twoFitted twoSources ⟨rfl, rfl⟩
    (0, 0) (3, 4) 1 3 (by norm_num) trivial none none none
  refine ⟨_, h3, ?_, ?_, ?_⟩
  · simp [h2, List.range_succ, between, fraction]
    norm_num
  · simp [h2, List.range_succ, between, fraction]
    norm_num
  · have : √((3 : ℝ) ^ 2 + 4 ^ 2) = 5 := by
      rw [show (3 : ℝ) ^ 2 + 4 ^ 2 = 5 ^ 2 by norm_num, Real.sqrt_sq (by norm_num)]
    simp [List.range_succ, fraction, planeDist, this]
    norm_num

/-- C88: `extra_coords` warns; any other argument is an error. -/
example (junk : Junk) (P : Params) :
    (profile junk .serial P twoFitted (0, 0) (3, 4) 1 3 none none none ["extra_coords"]).1 = [.userWarning] ∧
    (profile junk .serial P twoFitted (0, 0) (3, 4) 1 3 none none none ["extra_coords", "seed"]).2 =
      .error .TypeError ∧
    profile junk .serial P twoFitted (0, 0) (3, 4) 1 0 none none none [] = ([], .error .ValueError) :=
  ⟨by rw [C88_extra_coords], C88_other_arguments _ _ _ _ _ _ _ _ _ _ _ _ ⟨"seed", by simp, by decide⟩,
    C88_size _ _ _ _ _ _ _ _ (by norm_num) _ _ _⟩

/-- C89: the grid of one node with a longitude of type float, also with an ignored projection. -/
example (close : ℝ → ℝ → Prop) (hclose : ∀ x, close x x) (junk : Junk) :
    ∃ ds, gridSph close junk .serial sphState (oneNode .float64) none none ["projection"] =
        ([.futureWarning], .ok ds) ∧ ds.data.data[0]? = some (1 / 2) := by
  obtain ⟨a, h1, -, -, h2⟩ := C89_grid_partial close hclose junk .serial sphState [(⟨0, 0, 3⟩, 1)] ⟨rfl, rfl⟩
    (oneNode .float64) trivial _ _ _ (oneNode_describes _) (by simp) (by simp) trivial none none
  have h3 := C89_ignored close junk .serial sphState (oneNode .float64) none none ["projection"] (by simp)
    (by simp)
  simp only [Option.map_none] at h1
  rw [h1] at h3
  refine ⟨_, h3, ?_⟩
  have := h2 0 0 0 0 1 rfl rfl rfl
  simpa [sph_value] using this

end Verif.EqSources
