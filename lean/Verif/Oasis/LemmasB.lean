import Verif.Oasis.Lemmas

/-! Helper lemmas for C48-C52. -/

namespace Verif.Oasis

theorem load_eq (inflate : Bytes → Option Bytes) (f : Fields) (hf : f.Valid)
    {labels undefined : Bytes} (hl : labels.length = 64) (hu : undefined.length = 324) (rest : Bytes) :
    loadOasisMontajGrid inflate (f.bytes labels undefined ++ rest) = (do
      checkOrdering f.KX
      checkSignFlag f.SF
      let t ← getDataType f.ES f.SF
      let grid ← maybeDecompress inflate f.header rest
      buildGrid f.header t grid) := by
  unfold loadOasisMontajGrid
  rw [List.take_left' (bytes_length f hl hu), List.drop_left' (bytes_length f hl hu),
    readHeader_bytes f hf hl]
  rfl

theorem arrayOf_flatten (t : DataType) (chunks : List Bytes) (h : ∀ c ∈ chunks, c.length = t.size) :
    arrayOf t chunks.flatten = .ok (chunks.map t.value) := by
  cases t <;>
    simp only [arrayOf, arrayF, arrayD, DataType.size] at h ⊢ <;>
    rw [items_flatten (by norm_num) _ h] <;> rfl

theorem removeDummies_eq (t : DataType) (l : List Num) :
    removeDummies l t = l.map fun x => open Classical in if IsDummy t x then .nan else x := by
  classical
  have hle : ∀ (x : Num) (y : ℝ), x.le y = true ↔ (∃ r, x = .fin r ∧ r ≤ y) ∨ x = .inf true := by
    intro x y
    cases x with
    | fin x => simp [Num.le]
    | inf s => simp [Num.le]
    | nan => simp [Num.le]
  have heq : ∀ (x : Num) (y : ℝ), x.eq y = true ↔ x = .fin y := by
    intro x y
    cases x with
    | fin x => simp [Num.eq]
    | inf s => simp [Num.eq]
    | nan => simp [Num.eq]
  have h32 : (-10 ^ 32 : ℝ) = -1e32 := by norm_num
  cases t <;> simp only [removeDummies, dummies, IsDummy, h32] <;>
    simp only [reduceCtorEq, or_self, or_true, true_or, if_true, if_false] <;>
    refine List.map_congr_left fun x _ => ?_
  all_goals first
    | exact if_congr (heq _ _) rfl rfl
    | exact @if_congr _ _ _ _ (_) _ _ _ _ (hle _ _) rfl rfl
    | (by_cases hx : (∃ r, x = Num.fin r ∧ r ≤ (-1e32 : ℝ)) ∨ x = Num.inf true
       · rw [if_pos ((hle _ _).2 hx), if_pos hx]
       · rw [if_neg (fun h => hx ((hle _ _).1 h)), if_neg hx])

theorem getDataType_of_isType {es sf : ℤ} {t : DataType} (h : IsType es sf t) :
    getDataType es sf = .ok t ∧ getDataType (1024 + es) sf = .ok t ∧ sf ≠ 3 ∧
      (es = 1 ∨ es = 2 ∨ es = 4 ∨ es = 8) := by
  cases h <;>
    simp_all [getDataType, validElementSizes, chooseDataType]

theorem buildGrid_eq (h : Header) (t : DataType) (chunks : List Bytes)
    (hc : ∀ c ∈ chunks, c.length = t.size) (hk : h.ordering = 1 ∨ h.ordering = -1) :
    buildGrid h t chunks.flatten =
      if (h.shape_e * h.shape_v ≠ chunks.length) ∨ h.shape_e < 0 ∨ h.shape_v < 0 then
        .error .ValueError
      else
        let shape := ((layoutOf h).1.1.toNat, (layoutOf h).1.2.toNat)
        let c := gridCoords h shape (layoutOf h).2.1
        .ok { dims := c.2,
              values := reshape shape (layoutOf h).2.2
                (chunks.map (loadedValue t h.data_factor h.base_value)),
              coords := c.1, attrs := h } := by
  have hm : ((chunks.map t.value).map fun x => open Classical in if IsDummy t x then .nan else x).map
      (fun x => (x.div h.data_factor).add h.base_value) =
      chunks.map (loadedValue t h.data_factor h.base_value) := by
    rw [List.map_map, List.map_map]
    refine List.map_congr_left fun c _ => ?_
    simp only [Function.comp, loadedValue]
    split
    · cases h.data_factor <;> rfl
    · rfl
  unfold buildGrid
  rw [arrayOf_flatten t chunks hc]
  simp only [Py.bind_ok, removeDummies_eq, hm]
  have hs : (layoutOf h).1.1 * (layoutOf h).1.2 = h.shape_e * h.shape_v ∧
      ((layoutOf h).1.1 < 0 ∨ (layoutOf h).1.2 < 0 ↔ h.shape_e < 0 ∨ h.shape_v < 0) := by
    unfold layoutOf
    split
    · exact ⟨mul_comm _ _, or_comm⟩
    · exact ⟨rfl, Iff.rfl⟩
  generalize hL : layoutOf h = L at hs ⊢
  obtain ⟨shape, spacing, cOrder⟩ := L
  simp only at hs ⊢
  rw [List.length_map, hs.1]
  by_cases h1 : h.shape_e * h.shape_v ≠ chunks.length
  · rw [if_pos h1, if_pos (Or.inl h1)]
    rfl
  · rw [if_neg h1]
    by_cases h2 : h.shape_e < 0 ∨ h.shape_v < 0
    · rw [if_pos (hs.2.2 h2), if_pos (Or.inr h2)]
      rfl
    · rw [if_neg (fun h3 => h2 (hs.2.1 h3)), if_neg (by tauto)]
      rfl

/-! ### entries -/

theorem entry_reshape {shape : ℕ × ℕ} {cOrder : Bool} {l : List Num} {i j : ℕ} (hi : i < shape.1)
    (hj : j < shape.2) : entry (reshape shape cOrder l) i j =
      some (l.getD (if cOrder then i * shape.2 + j else i + j * shape.1) .nan) := by
  simp [entry, reshape, hi, hj]

theorem linspace_length (a b : Num) (n : ℕ) : (linspace a b n).length = n := by
  simp [linspace]

theorem linspace_get (a s : ℝ) {n i : ℕ} (hi : i < n) :
    (linspace (.fin a) ((Num.fin a).add ((Num.fin s).mul (.fin ((n : ℝ) - 1)))) n)[i]? =
      some (.fin (a + i * s)) := by
  unfold linspace
  simp only [List.getElem?_map, List.getElem?_range hi, Option.map_some]
  congr 1
  by_cases h1 : n ≤ 1
  · rw [if_pos h1]
    have : i = 0 := by omega
    subst this
    simp [Num.add, Num.mul, Num.sub, Num.neg]
  · rw [if_neg h1]
    have hn : (n : ℝ) - 1 ≠ 0 := by
      have : (1 : ℝ) < n := by exact_mod_cast (by omega : 1 < n)
      linarith
    by_cases h2 : i + 1 = n
    · rw [if_pos h2]
      have : (n : ℝ) = i + 1 := by rw [← h2]; push_cast; ring
      simp only [Num.add, Num.mul, this]
      congr 1
      ring
    · rw [if_neg h2]
      simp only [Num.add, Num.mul, Num.sub, Num.neg, Num.div, if_neg hn]
      congr 1
      field_simp
      ring

theorem linspace_zero (s : ℝ) {n i : ℕ} (hi : i < n) :
    (linspace (.fin 0) ((Num.fin s).mul (.fin ((n : ℝ) - 1))) n)[i]? = some (.fin (i * s)) := by
  have := linspace_get 0 s hi
  simpa [Num.add, Num.mul] using this

/-- Coordinates of a node for a finite rotation. -/
theorem gridCoords_at (h : Header) (shape : ℕ × ℕ) {dy dx x0 y0 rot : ℝ} (hx : h.x_origin = .fin x0)
    (hy : h.y_origin = .fin y0) (hr : h.rotation = .fin rot) {i j : ℕ} (hi : i < shape.1)
    (hj : j < shape.2) :
    (gridCoords h shape (.fin dy, .fin dx)).1.at i j =
      some (.fin (x0 + (Real.cos (radians rot) * (j * dx) - Real.sin (radians rot) * (i * dy))),
            .fin (y0 + (Real.sin (radians rot) * (j * dx) + Real.cos (radians rot) * (i * dy)))) := by
  unfold gridCoords
  rw [hx, hy, hr]
  by_cases h0 : rot = 0
  · subst h0
    simp only [Num.eq, decide_true, if_true, buildCoordinates, Coords.at]
    rw [linspace_get _ _ hj, linspace_get _ _ hi]
    simp [radians]
  · simp only [Num.eq, decide_eq_false h0, Bool.false_eq_true, if_false, buildRotatedCoordinates,
      Coords.at, entry, List.getElem?_map]
    rw [linspace_zero _ hi]
    simp only [Option.map_some, Option.bind_some, bind, pure, List.getElem?_map]
    rw [linspace_zero _ hj]
    simp only [Option.map_some, Option.bind_some, Num.cosDeg, Num.sinDeg, Num.add, Num.mul, Num.sub,
      Num.neg]
    congr 3 <;> ring

/-! ### compressed grids -/

theorem flatten_length {s : ℕ} (cs : List Bytes) (h : ∀ c ∈ cs, c.length = s) :
    cs.flatten.length = cs.length * s := by
  rw [List.length_flatten, List.map_congr_left (g := fun _ => s) h]
  simp

theorem offsets_get (first : ℕ) : ∀ (blocks : List (Bytes × Bytes)) (i : ℕ), i < blocks.length →
    (offsets first blocks)[i]? = some (first + (blockBytes (blocks.take i)).length)
  | [], i, h => by simp at h
  | b :: rest, 0, _ => by simp [offsets, blockBytes]
  | b :: rest, i + 1, h => by
    rw [offsets, List.getElem?_cons_succ, offsets_get _ rest i (by simpa using h)]
    simp only [blockBytes, List.take_succ_cons, List.map_cons, List.flatten_cons,
      List.length_append]
    congr 1
    omega

theorem offsets_length (first : ℕ) (blocks : List (Bytes × Bytes)) :
    (offsets first blocks).length = blocks.length := by
  induction blocks generalizing first with
  | nil => rfl
  | cons b rest ih => simp [offsets, ih]

theorem offsets_le {first : ℕ} {blocks : List (Bytes × Bytes)} {o : ℕ}
    (h : o ∈ offsets first blocks) : o ≤ first + (blockBytes blocks).length := by
  induction blocks generalizing first with
  | nil => simp [offsets] at h
  | cons b rest ih =>
    rw [offsets, List.mem_cons] at h
    have hb : (blockBytes (b :: rest)).length = (b.1 ++ b.2).length + (blockBytes rest).length := by
      simp [blockBytes]
      omega
    rcases h with rfl | h
    · omega
    · have := ih h
      omega

/-- Decompress payloads in order; the first failure stops. -/
def inflateAll (inflate : Bytes → Option Bytes) : List Bytes → Bytes → Py Bytes
  | [], acc => .ok acc
  | p :: ps, acc =>
    match inflate p with
    | none => .error .ZlibError
    | some r => inflateAll inflate ps (acc ++ r)

theorem decompressLoop_eq (inflate : Bytes → Option Bytes) (b : Bytes) (os ss : List ℤ)
    (payload : ℕ → Bytes) : ∀ (is : List ℕ) (grid : Bytes),
    (∀ i ∈ is, ∃ o s, os[i]? = some o ∧ ss[i]? = some s ∧
      slice b (o - 512 + 16) (s + o - 512) = payload i) →
    decompressLoop inflate b os ss is grid = inflateAll inflate (is.map payload) grid
  | [], grid, _ => by simp [decompressLoop, inflateAll]
  | i :: is, grid, h => by
    obtain ⟨o, s, h1, h2, h3⟩ := h i (by simp)
    rw [decompressLoop, List.map_cons, inflateAll]
    simp only [h1, h2, h3]
    cases inflate (payload i) with
    | none => rfl
    | some r =>
      exact decompressLoop_eq inflate b os ss payload is _ fun j hj => h j (by simp [hj])

theorem inflateAll_ok (inflate : Bytes → Option Bytes) (blocks : List (Bytes × Bytes × Bytes))
    (hz : ∀ b ∈ blocks, inflate b.2.1 = some b.2.2) (acc : Bytes) :
    inflateAll inflate (blocks.map fun b => b.2.1) acc =
      .ok (acc ++ (blocks.map fun b => b.2.2).flatten) := by
  induction blocks generalizing acc with
  | nil => simp [inflateAll]
  | cons b blocks ih =>
    rw [List.map_cons, inflateAll, hz b (by simp)]
    simp only
    rw [ih fun c hc => hz c (by simp [hc])]
    simp

theorem inflateAll_error (inflate : Bytes → Option Bytes) (ps : List Bytes)
    (hz : ∃ p ∈ ps, inflate p = none) (acc : Bytes) :
    inflateAll inflate ps acc = .error .ZlibError := by
  induction ps generalizing acc with
  | nil => simp at hz
  | cons p ps ih =>
    rw [inflateAll]
    cases h : inflate p with
    | none => rfl
    | some r =>
      refine ih ?_ _
      obtain ⟨q, hq, hq0⟩ := hz
      rcases List.mem_cons.1 hq with rfl | hq
      · rw [h] at hq0; cases hq0
      · exact ⟨q, hq, hq0⟩

theorem decompressGrid_eq (inflate : Bytes → Option Bytes) {signature : Bytes}
    (hsig : signature.length = 8) {vpb : ℤ} (hvpb : IsInt32 vpb) (bl : List (Bytes × Bytes))
    (h16 : ∀ b ∈ bl, b.1.length = 16)
    (hsize : ∀ b ∈ bl, (b.1 ++ b.2).length < 2 ^ 31) (hn : bl.length < 2 ^ 31)
    (htotal : (blockBytes bl).length + 12 * bl.length + 528 < 2 ^ 63) :
    decompressGrid inflate (compressedBytes signature vpb bl) =
      inflateAll inflate (bl.map fun b => b.2) [] := by
  set n := bl.length with hnn
  have hlen : bl.length = n := rfl
  set N := ([(n : ℤ)].map int32).flatten with hN
  set V := ([vpb].map int32).flatten with hV
  set O := (((offsets (512 + 16 + 12 * n) bl).map fun o : ℕ => (o : ℤ)).map int64).flatten with hO
  set S := ((bl.map fun b => ((b.1 ++ b.2).length : ℤ)).map int32).flatten with hS
  have hb : compressedBytes signature vpb bl = signature ++ (N ++ (V ++ (O ++ (S ++ blockBytes bl)))) := by
    simp [compressedBytes, hN, hV, hO, hS, hlen, List.map_map, Function.comp_def]
  have lN : N.length = 4 := by simp [hN, int32_length]
  have lV : V.length = 4 := by simp [hV, int32_length]
  have lO : O.length = 8 * n := by
    rw [hO, flatten_length (s := 8)]
    · simp [offsets_length, hlen]
      omega
    · simp only [List.mem_map]
      rintro _ ⟨z, _, rfl⟩
      exact int64_length z
  have lS : S.length = 4 * n := by
    rw [hS, flatten_length (s := 4)]
    · simp [hlen]
      omega
    · simp only [List.mem_map]
      rintro _ ⟨z, _, rfl⟩
      exact int32_length z
  have eN : arrayI N = .ok [(n : ℤ)] := arrayI_flatten _ (by
    simp only [List.mem_singleton, forall_eq, IsInt32]
    constructor <;> [omega; exact_mod_cast hn])
  have eV : arrayI V = .ok [vpb] := arrayI_flatten _ (by simpa using hvpb)
  have eO : arrayQ O = .ok ((offsets (512 + 16 + 12 * n) bl).map fun o : ℕ => (o : ℤ)) :=
    arrayQ_flatten _ (by
      simp only [List.mem_map]
      rintro _ ⟨o, ho, rfl⟩
      have := offsets_le ho
      unfold IsInt64
      constructor <;> omega)
  have eS : arrayI S = .ok (bl.map fun b => ((b.1 ++ b.2).length : ℤ)) :=
    arrayI_flatten _ (by
      simp only [List.mem_map]
      rintro _ ⟨c, hc, rfl⟩
      have := hsize c hc
      unfold IsInt32
      constructor <;> omega)
  have s1 : slice (compressedBytes signature vpb bl) (8 : ℕ) (12 : ℕ) = N :=
    slice_append hb hsig (by omega)
  have s2 : slice (compressedBytes signature vpb bl) (12 : ℕ) (16 : ℕ) = V :=
    slice_append (p := signature ++ N) (q := O ++ (S ++ blockBytes bl))
      (by rw [hb]; simp only [List.append_assoc])
      (by rw [List.length_append]; omega) (by omega)
  have s3 : slice (compressedBytes signature vpb bl) (16 : ℕ) ((16 + n * 8 : ℕ) : ℤ) = O :=
    slice_append (p := signature ++ (N ++ V)) (q := S ++ blockBytes bl)
      (by rw [hb]; simp only [List.append_assoc])
      (by simp only [List.length_append]; omega) (by omega)
  have s4 : slice (compressedBytes signature vpb bl) ((16 + n * 8 : ℕ) : ℤ)
      ((16 + n * 8 + n * 4 : ℕ) : ℤ) = S :=
    slice_append (p := signature ++ (N ++ (V ++ O))) (q := blockBytes bl)
      (by rw [hb]; simp only [List.append_assoc])
      (by simp only [List.length_append]; omega) (by omega)
  have hblock : ∀ i (hi : i < n), slice (compressedBytes signature vpb bl)
      (((512 + 16 + 12 * n) + (blockBytes (bl.take i)).length : ℕ) - 512 + 16)
      (((bl[i].1 ++ bl[i].2).length : ℤ) +
        ((512 + 16 + 12 * n) + (blockBytes (bl.take i)).length : ℕ) - 512) = bl[i].2 := by
    intro i hi
    have hsplit : bl = bl.take i ++ bl[i] :: bl.drop (i + 1) := by
      have h1 := List.take_append_drop i bl
      rw [List.drop_eq_getElem_cons (by omega : i < bl.length)] at h1
      exact h1.symm
    have hbb : blockBytes bl = blockBytes (bl.take i) ++ ((bl[i].1 ++ bl[i].2) ++
        blockBytes (bl.drop (i + 1))) := by
      have h2 := congrArg blockBytes hsplit
      rw [h2]
      simp only [blockBytes, List.map_append, List.map_cons, List.flatten_append, List.flatten_cons]
    have h16i := h16 bl[i] (List.getElem_mem hi)
    have := slice_append (b := compressedBytes signature vpb bl)
      (p := signature ++ (N ++ (V ++ (O ++ (S ++ (blockBytes (bl.take i) ++ bl[i].1))))))
      (x := bl[i].2) (q := blockBytes (bl.drop (i + 1)))
      (s := 16 + 12 * n + (blockBytes (bl.take i)).length + 16)
      (t := 16 + 12 * n + (blockBytes (bl.take i)).length + 16 + bl[i].2.length)
      (by rw [hb, hbb]; simp only [List.append_assoc])
      (by simp only [List.length_append]; omega) rfl
    refine Eq.trans ?_ this
    congr 1
    · push_cast
      ring
    · rw [List.length_append, h16i]
      push_cast
      ring
  clear_value N V O S
  unfold decompressGrid
  have c1 : ((8 : ℕ) : ℤ) = 8 := rfl
  have c2 : ((12 : ℕ) : ℤ) = 8 + 4 := rfl
  have c3 : ((12 : ℕ) : ℤ) = 12 := rfl
  have c4 : ((16 : ℕ) : ℤ) = 12 + 4 := rfl
  have c5 : ((16 : ℕ) : ℤ) = 16 := rfl
  rw [c1, c2] at s1
  rw [c3, c4] at s2
  rw [c5] at s3
  push_cast at s3 s4
  simp only [s1, eN, s2, eV, Py.bind_ok, unpack1, s3, s4, eO, eS, Int.toNat_natCast]
  rw [decompressLoop_eq inflate _ _ _ (fun i => (bl.map fun b => b.2).getD i []) _ _ fun i hi => ?_]
  · congr 1
    refine List.ext_getElem (by simp [hnn]) fun i h1 h2 => ?_
    simp at h2
    simp [h2]
  · have hi : i < n := by simpa using hi
    refine ⟨_, _, by
      rw [List.getElem?_map, offsets_get _ _ _ (by omega : i < bl.length)]
      rfl, by
      rw [List.getElem?_map, List.getElem?_eq_getElem (by omega : i < bl.length)]
      rfl, ?_⟩
    rw [hblock i hi]
    simp [hnn ▸ hi]

end Verif.Oasis
