import Verif.Oasis.LemmasB

/-! C47-C52: the reader of Oasis montaj grids. Examples are in Verif.Oasis.Examples. -/

namespace Verif.Oasis

/-! ### C47 -/

/-- C47: reading the header written from any values of the fields gives those values, each under its
own name; the 64 bytes of labels and the 324 undefined bytes do not matter. -/
theorem C47_roundtrip (f : Fields) (hf : f.Valid) (labels undefined : Bytes)
    (hl : labels.length = 64) : readHeader (f.bytes labels undefined) = .ok f.header :=
  readHeader_bytes f hf hl

/-- C47: the attributes of every grid that is loaded are the values of the header of its file. -/
theorem C47_attrs (inflate : Bytes → Option Bytes) (f : Fields) (hf : f.Valid)
    (labels undefined rest : Bytes) (hl : labels.length = 64) (hu : undefined.length = 324)
    {g : DataArray} (h : loadOasisMontajGrid inflate (f.bytes labels undefined ++ rest) = .ok g) :
    g.attrs = f.header := by
  rw [load_eq inflate f hf hl hu] at h
  generalize f.header = hd at h ⊢
  cases h1 : checkOrdering f.KX with
  | error e => rw [h1] at h; cases h
  | ok _ =>
    cases h2 : checkSignFlag f.SF with
    | error e => rw [h1, h2] at h; cases h
    | ok _ =>
      cases h3 : getDataType f.ES f.SF with
      | error e => rw [h1, h2, h3] at h; cases h
      | ok t =>
        cases h4 : maybeDecompress inflate hd rest with
        | error e => rw [h1, h2, h3, h4] at h; cases h
        | ok b =>
          rw [h1, h2, h3, h4] at h
          simp only [Py.bind_ok] at h
          unfold buildGrid at h
          cases h5 : arrayOf t b with
          | error e => rw [h5] at h; cases h
          | ok a =>
            rw [h5] at h
            simp only [Py.bind_ok] at h
            generalize layoutOf hd = L at h
            obtain ⟨shape, spacing, c⟩ := L
            simp only at h
            split at h
            · cases h
            · split at h
              · cases h
              · simp only [Py.pure_eq, Except.ok.injEq] at h
                rw [← h]

theorem items_cases (s : ℕ) (b : Bytes) :
    items s b = .error .ValueError ∨ ∃ l, items s b = .ok l ∧ l.length * s = b.length := by
  unfold items
  by_cases h : b.length % s ≠ 0
  · exact Or.inl (if_pos h)
  · refine Or.inr ⟨_, if_neg h, ?_⟩
    rw [List.length_map, List.length_range]
    exact Nat.div_mul_cancel (Nat.dvd_of_mod_eq_zero (by simpa using h))

/-- C47: a file that ends before the header does is rejected with ValueError. -/
theorem C47_truncated (inflate : Bytes → Option Bytes) (file : Bytes) (h : file.length < 188) :
    loadOasisMontajGrid inflate file = .error .ValueError := by
  have key : readHeader (file.take 512) = .error .ValueError := by
    have hI : ∀ b, arrayI b = .error .ValueError ∨ ∃ l, arrayI b = .ok l ∧ l.length * 4 = b.length := by
      intro b
      unfold arrayI
      rcases items_cases 4 b with h | ⟨l, h, hl⟩ <;> rw [h]
      · exact Or.inl rfl
      · exact Or.inr ⟨_, rfl, by simpa using hl⟩
    have hD : ∀ b, arrayD b = .error .ValueError ∨ ∃ l, arrayD b = .ok l := by
      intro b
      unfold arrayD
      rcases items_cases 8 b with h | ⟨l, h, hl⟩ <;> rw [h]
      · exact Or.inl rfl
      · exact Or.inr ⟨_, rfl⟩
    have hF : ∀ b, arrayF b = .error .ValueError ∨ ∃ l, arrayF b = .ok l := by
      intro b
      unfold arrayF
      rcases items_cases 4 b with h | ⟨l, h, hl⟩ <;> rw [h]
      · exact Or.inl rfl
      · exact Or.inr ⟨_, rfl⟩
    have h5 : ∀ {α : Type} (l : List α), unpack5 l = .error .ValueError ∨ ∃ r, unpack5 l = .ok r := by
      intro α l
      unfold unpack5
      split
      · exact Or.inr ⟨_, rfl⟩
      · exact Or.inl rfl
    have h4 : ∀ {α : Type} (l : List α), unpack4 l = .error .ValueError ∨ ∃ r, unpack4 l = .ok r := by
      intro α l
      unfold unpack4
      split
      · exact Or.inr ⟨_, rfl⟩
      · exact Or.inl rfl
    have h2 : ∀ {α : Type} (l : List α), unpack2 l = .error .ValueError ∨ ∃ r, unpack2 l = .ok r := by
      intro α l
      unfold unpack2
      split
      · exact Or.inr ⟨_, rfl⟩
      · exact Or.inl rfl
    have h1 : ∀ {α : Type} (l : List α), unpack1 l = .error .ValueError ∨ ∃ r, unpack1 l = .ok r := by
      intro α l
      unfold unpack1
      split
      · exact Or.inr ⟨_, rfl⟩
      · exact Or.inl rfl
    have s : ∀ {α β : Type} (x : Py α) (u : α → Py β), (x = .error .ValueError ∨ ∃ l, x = .ok l) →
        (∀ l, u l = .error .ValueError ∨ ∃ r, u l = .ok r) →
        x >>= u = .error .ValueError ∨ ∃ r, x >>= u = .ok r := by
      intro α β x u hx hu
      rcases hx with hx | ⟨l, hx⟩ <;> rw [hx]
      · exact Or.inl rfl
      · exact hu l
    have last : arrayI (slice (file.take 512) 184 (184 + 4)) >>= unpack1 = .error .ValueError := by
      have hsl : (slice (file.take 512) 184 (184 + 4)).length < 4 := by
        have := slice_nat (file.take 512) 184 188
        push_cast at this
        rw [show (184 + 4 : ℤ) = 188 by norm_num, this]
        simp only [List.length_drop, List.length_take]
        omega
      rcases hI (slice (file.take 512) 184 (184 + 4)) with h | ⟨l, h, hl⟩ <;> rw [h]
      · rfl
      · have : l.length = 0 := by omega
        rw [List.length_eq_zero_iff] at this
        rw [this]
        rfl
    have hI' : ∀ b, arrayI b = .error .ValueError ∨ ∃ l, arrayI b = .ok l := fun b =>
      (hI b).imp_right fun ⟨l, h, _⟩ => ⟨l, h⟩
    unfold readHeader
    have step : ∀ {α β : Type} (x : Py α) (k : α → Py β),
        (x = .error .ValueError ∨ ∃ l, x = .ok l) → (∀ l, k l = .error .ValueError) →
        x >>= k = .error .ValueError := by
      intro α β x k hx hk
      rcases hx with hx | ⟨l, hx⟩ <;> rw [hx]
      · rfl
      · exact hk l
    refine step _ _ (s _ _ (hI' _) h5) fun a => ?_
    refine step _ _ (s _ _ (hD _) h5) fun b => ?_
    refine step _ _ (s _ _ (hD _) h2) fun c => ?_
    refine step _ _ (s _ _ (hI' _) h5) fun d => ?_
    refine step _ _ (s _ _ (hF _) h4) fun e => ?_
    refine step _ _ (s _ _ (hD _) h1) fun g => ?_
    rw [last]
    rfl
  unfold loadOasisMontajGrid
  rw [key]
  rfl

/-! ### C48 -/

/-- C48: for any file with an ordering of ±1 and a supported type, with NV vectors of NE elements:
the grid has the right shape (vectors are rows for KX = 1 and columns for KX = -1), and the element
`e` of the vector `v` of the file, with NaN for dummies and rescaled otherwise, is at its node. -/
theorem C48_values (inflate : Bytes → Option Bytes) (f : Fields) (hf : f.Valid)
    (labels undefined : Bytes) (hl : labels.length = 64) (hu : undefined.length = 324)
    {t : DataType} (ht : IsType f.ES f.SF t) (hk : f.KX = 1 ∨ f.KX = -1) (NE NV : ℕ)
    (hNE : f.NE = NE) (hNV : f.NV = NV) (chunks : List Bytes) (hc : ∀ c ∈ chunks, c.length = t.size)
    (hn : chunks.length = NV * NE) :
    ∃ g, loadOasisMontajGrid inflate (f.bytes labels undefined ++ chunks.flatten) = .ok g ∧
      g.attrs = f.header ∧
      g.values.length = (nodeOf f.KX NV NE).1 ∧
      (∀ row ∈ g.values, row.length = (nodeOf f.KX NV NE).2) ∧
      ∀ v < NV, ∀ e < NE,
        entry g.values (nodeOf f.KX v e).1 (nodeOf f.KX v e).2 = chunks[v * NE + e]?.map
          (loadedValue t (float64 f.ZMULT) (float64 f.ZBASE)) := by
  have h1 : checkOrdering f.KX = .ok () := if_pos (by tauto)
  obtain ⟨h3, -, hsf, hes⟩ := getDataType_of_isType ht
  have h2 : checkSignFlag f.SF = .ok () := if_neg hsf
  have h4 : maybeDecompress inflate f.header chunks.flatten = .ok chunks.flatten := if_neg (by
    show ¬ f.ES > 1024
    omega)
  rw [load_eq inflate f hf hl hu, h1, h2, h3, h4]
  simp only [Py.bind_ok]
  rw [buildGrid_eq f.header t chunks hc hk, if_neg (by
    simp only [Fields.header, hNE, hNV, hn]
    push_cast
    rw [mul_comm (NV : ℤ)]
    have h1 : ¬ ((NE : ℤ) < 0) := by omega
    have h2 : ¬ ((NV : ℤ) < 0) := by omega
    simp [h1, h2])]
  refine ⟨_, rfl, rfl, ?_, ?_, ?_⟩
  · simp only [reshape, List.length_map, List.length_range]
    rcases hk with hk | hk <;> simp [layoutOf, Fields.header, hk, nodeOf, hNE, hNV]
  · simp only [reshape, List.mem_map]
    rintro row ⟨i, _, rfl⟩
    rw [List.length_map, List.length_range]
    rcases hk with hk | hk <;> simp [layoutOf, Fields.header, hk, nodeOf, hNE, hNV]
  · intro v hv e he
    have hlt : v * NE + e < chunks.length := by
      rw [hn]
      calc v * NE + e < v * NE + NE := by omega
        _ = (v + 1) * NE := by ring
        _ ≤ NV * NE := Nat.mul_le_mul_right _ hv
    rcases hk with hk | hk
    · rw [entry_reshape (by simpa [layoutOf, Fields.header, hk, nodeOf, hNV] using hv)
        (by simpa [layoutOf, Fields.header, hk, nodeOf, hNE] using he)]
      simp [layoutOf, Fields.header, hk, nodeOf, hNE, hlt]
    · rw [entry_reshape (by simpa [layoutOf, Fields.header, hk, nodeOf, hNE] using he)
        (by simpa [layoutOf, Fields.header, hk, nodeOf, hNV] using hv)]
      simp [layoutOf, Fields.header, hk, nodeOf, hNE, add_comm e, hlt]

/-- C48, C52: the coordinates of the node of the element `e` of the vector `v` of any grid that is
loaded, for finite origin, spacings and rotation: the origin plus the offset rotated by the angle
of the header, in degrees, counter clockwise. -/
theorem C52_coordinates (inflate : Bytes → Option Bytes) (f : Fields) (hf : f.Valid)
    (labels undefined rest : Bytes) (hl : labels.length = 64) (hu : undefined.length = 324)
    {g : DataArray} (h : loadOasisMontajGrid inflate (f.bytes labels undefined ++ rest) = .ok g)
    (NE NV : ℕ) (hNE : f.NE = NE) (hNV : f.NV = NV) {DE DV X0 Y0 ROT : ℝ}
    (hDE : float64 f.DE = .fin DE) (hDV : float64 f.DV = .fin DV) (hX0 : float64 f.X0 = .fin X0)
    (hY0 : float64 f.Y0 = .fin Y0) (hROT : float64 f.ROT = .fin ROT) :
    ∀ v < NV, ∀ e < NE,
      g.coords.at (nodeOf f.KX v e).1 (nodeOf f.KX v e).2 =
        let offset := offsetOf f.KX DE DV v e
        let a := ROT * Real.pi / 180
        some (.fin (X0 + (Real.cos a * offset.1 - Real.sin a * offset.2)),
              .fin (Y0 + (Real.sin a * offset.1 + Real.cos a * offset.2))) := by
  rw [load_eq inflate f hf hl hu] at h
  cases h1 : checkOrdering f.KX with
  | error e => rw [h1] at h; cases h
  | ok _ =>
    have hk : f.KX = -1 ∨ f.KX = 1 := by
      by_contra hne
      rw [checkOrdering, if_neg hne] at h1
      cases h1
    cases h2 : checkSignFlag f.SF with
    | error e => rw [h1, h2] at h; cases h
    | ok _ =>
      cases h3 : getDataType f.ES f.SF with
      | error e => rw [h1, h2, h3] at h; cases h
      | ok t =>
        cases h4 : maybeDecompress inflate f.header rest with
        | error e => rw [h1, h2, h3, h4] at h; cases h
        | ok b =>
          rw [h1, h2, h3, h4] at h
          simp only [Py.bind_ok] at h
          unfold buildGrid at h
          cases h5 : arrayOf t b with
          | error e => rw [h5] at h; cases h
          | ok a =>
            rw [h5] at h
            simp only [Py.bind_ok] at h
            intro v hv e he
            rw [show ROT * Real.pi / 180 = radians ROT by unfold radians; ring]
            rcases hk with hk | hk
            · have hL : layoutOf f.header = ((f.NE, f.NV), (.fin DE, .fin DV), false) := by
                simp [layoutOf, Fields.header, hk, hDE, hDV]
              rw [hL] at h
              simp only at h
              split at h
              · cases h
              · split at h
                · cases h
                · simp only [Py.pure_eq, Except.ok.injEq] at h
                  rw [← h]
                  simp only [nodeOf, offsetOf, hk, hNE, hNV, Int.toNat_natCast]
                  exact gridCoords_at f.header (NE, NV) hX0 hY0 hROT he hv
            · have hL : layoutOf f.header = ((f.NV, f.NE), (.fin DV, .fin DE), true) := by
                simp [layoutOf, Fields.header, hk, hDE, hDV]
              rw [hL] at h
              simp only at h
              split at h
              · cases h
              · split at h
                · cases h
                · simp only [Py.pure_eq, Except.ok.injEq] at h
                  rw [← h]
                  simp only [nodeOf, offsetOf, hk, hNE, hNV, Int.toNat_natCast, if_true]
                  exact gridCoords_at f.header (NV, NE) hX0 hY0 hROT hv he

/-- C48: without rotation the coordinates of a node are the origin plus the index times the spacing,
as 1d coordinates easting and northing. -/
theorem C48_coordinates (inflate : Bytes → Option Bytes) (f : Fields) (hf : f.Valid)
    (labels undefined rest : Bytes) (hl : labels.length = 64) (hu : undefined.length = 324)
    {g : DataArray} (h : loadOasisMontajGrid inflate (f.bytes labels undefined ++ rest) = .ok g)
    (NE NV : ℕ) (hNE : f.NE = NE) (hNV : f.NV = NV) {DE DV X0 Y0 : ℝ}
    (hDE : float64 f.DE = .fin DE) (hDV : float64 f.DV = .fin DV) (hX0 : float64 f.X0 = .fin X0)
    (hY0 : float64 f.Y0 = .fin Y0) (hROT : float64 f.ROT = .fin 0) :
    ∀ v < NV, ∀ e < NE,
      g.coords.at (nodeOf f.KX v e).1 (nodeOf f.KX v e).2 =
        some (.fin (X0 + (offsetOf f.KX DE DV v e).1), .fin (Y0 + (offsetOf f.KX DE DV v e).2)) := by
  intro v hv e he
  rw [C52_coordinates inflate f hf labels undefined rest hl hu h NE NV hNE hNV hDE hDV hX0 hY0 hROT
    v hv e he]
  simp

/-- C48: a number of elements other than the product of the sizes is rejected with ValueError. -/
theorem C48_wrong_count (inflate : Bytes → Option Bytes) (f : Fields) (hf : f.Valid)
    (labels undefined : Bytes) (hl : labels.length = 64) (hu : undefined.length = 324)
    {t : DataType} (ht : IsType f.ES f.SF t) (hk : f.KX = 1 ∨ f.KX = -1) (chunks : List Bytes)
    (hc : ∀ c ∈ chunks, c.length = t.size) (hn : f.NV * f.NE ≠ chunks.length) :
    loadOasisMontajGrid inflate (f.bytes labels undefined ++ chunks.flatten) = .error .ValueError := by
  have h1 : checkOrdering f.KX = .ok () := if_pos (by tauto)
  obtain ⟨h3, -, hsf, hes⟩ := getDataType_of_isType ht
  have h2 : checkSignFlag f.SF = .ok () := if_neg hsf
  have h4 : maybeDecompress inflate f.header chunks.flatten = .ok chunks.flatten := if_neg (by
    show ¬ f.ES > 1024
    omega)
  rw [load_eq inflate f hf hl hu, h1, h2, h3, h4]
  simp only [Py.bind_ok]
  rw [buildGrid_eq f.header t chunks hc hk, if_pos (Or.inl (by
    show f.NE * f.NV ≠ _
    rwa [mul_comm]))]

/-- C48: so is a file whose last element is incomplete. -/
theorem C48_incomplete_element (inflate : Bytes → Option Bytes) (f : Fields) (hf : f.Valid)
    (labels undefined : Bytes) (hl : labels.length = 64) (hu : undefined.length = 324)
    {t : DataType} (ht : IsType f.ES f.SF t) (hk : f.KX = 1 ∨ f.KX = -1) (rest : Bytes)
    (hn : ¬ t.size ∣ rest.length) :
    loadOasisMontajGrid inflate (f.bytes labels undefined ++ rest) = .error .ValueError := by
  have h1 : checkOrdering f.KX = .ok () := if_pos (by tauto)
  obtain ⟨h3, -, hsf, hes⟩ := getDataType_of_isType ht
  have h2 : checkSignFlag f.SF = .ok () := if_neg hsf
  have h4 : maybeDecompress inflate f.header rest = .ok rest := if_neg (by
    show ¬ f.ES > 1024
    omega)
  rw [load_eq inflate f hf hl hu, h1, h2, h3, h4]
  simp only [Py.bind_ok]
  have : arrayOf t rest = .error .ValueError := by
    rw [Nat.dvd_iff_mod_eq_zero] at hn
    cases t <;> simp only [DataType.size] at hn <;>
      simp only [arrayOf, arrayF, arrayD, items, if_pos hn] <;> rfl
  unfold buildGrid
  rw [this]
  rfl

/-- C48: orderings other than ±1 are rejected with NotImplementedError, whatever follows. -/
theorem C48_ordering (inflate : Bytes → Option Bytes) (f : Fields) (hf : f.Valid)
    (labels undefined rest : Bytes) (hl : labels.length = 64) (hu : undefined.length = 324)
    (hk : f.KX ≠ 1) (hk' : f.KX ≠ -1) :
    loadOasisMontajGrid inflate (f.bytes labels undefined ++ rest) = .error .NotImplementedError := by
  rw [load_eq inflate f hf hl hu, checkOrdering, if_neg (by tauto)]
  rfl

/-! ### C49 -/

/-- C49, full statement: for every element size and sign flag of the header the file is either read with
the type of the format or rejected with NotImplementedError. -/
def C49_statement : Prop :=
  ∀ es sf : ℤ,
    (∃ t, (IsType es sf t ∨ IsType (es - 1024) sf t) ∧
      (checkSignFlag sf >>= fun _ => getDataType es sf) = .ok t) ∨
    (checkSignFlag sf >>= fun _ => getDataType es sf) = .error .NotImplementedError

/-- C49: the types of the format, alone or compressed (1024 more), are decoded as documented. -/
theorem C49_supported {es sf : ℤ} {t : DataType} (h : IsType es sf t ∨ IsType (es - 1024) sf t) :
    (checkSignFlag sf >>= fun _ => getDataType es sf) = .ok t := by
  rcases h with h | h
  · obtain ⟨h1, -, h3, -⟩ := getDataType_of_isType h
    rw [checkSignFlag, if_neg h3, Py.bind_ok, h1]
  · obtain ⟨-, h2, h3, -⟩ := getDataType_of_isType h
    rw [show (1024 : ℤ) + (es - 1024) = es by ring] at h2
    rw [checkSignFlag, if_neg h3, Py.bind_ok, h2]

/-- C49, what holds: the outcome for every pair of integers. What is missing: the pairs of a known size
and an undefined sign flag other than 3 end in UnboundLocalError, not in NotImplementedError. -/
theorem C49_partial (es sf : ℤ) :
    (∃ t, (IsType es sf t ∨ IsType (es - 1024) sf t) ∧
      (checkSignFlag sf >>= fun _ => getDataType es sf) = .ok t) ∨
    ((sf = 3 ∨ es ∉ ([1, 2, 4, 8, 1025, 1026, 1028, 1032] : List ℤ)) ∧
      (checkSignFlag sf >>= fun _ => getDataType es sf) = .error .NotImplementedError) ∨
    (sf ≠ 3 ∧ ((es = 1 ∨ es = 2 ∨ es = 1025 ∨ es = 1026) ∧ sf ≠ 0 ∧ sf ≠ 1 ∨
        (es = 4 ∨ es = 1028) ∧ sf ≠ 0 ∧ sf ≠ 1 ∧ sf ≠ 2) ∧
      (checkSignFlag sf >>= fun _ => getDataType es sf) = .error .UnboundLocalError) := by
  by_cases h3 : sf = 3
  · refine Or.inr (Or.inl ⟨Or.inl h3, ?_⟩)
    rw [checkSignFlag, if_pos h3]
    rfl
  by_cases hes : es ∈ ([1, 2, 4, 8, 1025, 1026, 1028, 1032] : List ℤ)
  swap
  · refine Or.inr (Or.inl ⟨Or.inr hes, ?_⟩)
    rw [checkSignFlag, if_neg h3, Py.bind_ok, getDataType, if_pos (by simpa [validElementSizes] using hes)]
  by_cases hT : ∃ t, IsType es sf t ∨ IsType (es - 1024) sf t
  · obtain ⟨t, ht⟩ := hT
    exact Or.inl ⟨t, ht, C49_supported ht⟩
  · refine Or.inr (Or.inr ⟨h3, ?_⟩)
    simp only [not_exists, not_or] at hT
    have n0 : sf = 0 → es ∉ ([1, 2, 4, 1025, 1026, 1028] : List ℤ) := by
      rintro rfl h
      simp only [List.mem_cons, List.not_mem_nil, or_false] at h
      rcases h with rfl | rfl | rfl | rfl | rfl | rfl
      · exact (hT .B).1 .unsignedByte
      · exact (hT .H).1 .unsignedShort
      · exact (hT .I).1 .unsignedLong
      · exact (hT .B).2 .unsignedByte
      · exact (hT .H).2 .unsignedShort
      · exact (hT .I).2 .unsignedLong
    have n1 : sf = 1 → es ∉ ([1, 2, 4, 1025, 1026, 1028] : List ℤ) := by
      rintro rfl h
      simp only [List.mem_cons, List.not_mem_nil, or_false] at h
      rcases h with rfl | rfl | rfl | rfl | rfl | rfl
      · exact (hT .b).1 .signedByte
      · exact (hT .h).1 .signedShort
      · exact (hT .i).1 .signedLong
      · exact (hT .b).2 .signedByte
      · exact (hT .h).2 .signedShort
      · exact (hT .i).2 .signedLong
    have n2 : sf = 2 → es ∉ ([4, 1028] : List ℤ) := by
      rintro rfl h
      simp only [List.mem_cons, List.not_mem_nil, or_false] at h
      rcases h with rfl | rfl
      · exact (hT .f).1 .float
      · exact (hT .f).2 .float
    have n8 : es ≠ 8 ∧ es ≠ 1032 :=
      ⟨fun h => (hT .d).1 (by rw [h]; exact .double sf h3),
       fun h => (hT .d).2 (by rw [h]; exact .double sf h3)⟩
    simp only [List.mem_cons, List.not_mem_nil, or_false] at hes n0 n1 n2
    rw [checkSignFlag, if_neg h3, Py.bind_ok]
    rcases hes with rfl | rfl | rfl | rfl | rfl | rfl | rfl | rfl <;>
      simp_all [getDataType, validElementSizes, chooseDataType]

/-- C49: the full statement fails: one byte elements with the sign flag of floats end in
UnboundLocalError. -/
theorem C49_not_full : ¬ C49_statement := by
  intro h
  rcases h 1 2 with ⟨t, -, h⟩ | h <;>
    simp [checkSignFlag, getDataType, validElementSizes, chooseDataType, Py.bind_ok] at h

/-- C49: so ends the call of the user for any such file. -/
theorem C49_unbound (inflate : Bytes → Option Bytes) (f : Fields) (hf : f.Valid)
    (labels undefined rest : Bytes) (hl : labels.length = 64) (hu : undefined.length = 324)
    (hk : f.KX = 1 ∨ f.KX = -1) (hes : f.ES = 1) (hsf : f.SF = 2) :
    loadOasisMontajGrid inflate (f.bytes labels undefined ++ rest) = .error .UnboundLocalError := by
  rw [load_eq inflate f hf hl hu, checkOrdering, if_pos (by tauto), hes, hsf]
  rfl

/-- C49: colour grids and unknown sizes are rejected with NotImplementedError, whatever follows. -/
theorem C49_rejected (inflate : Bytes → Option Bytes) (f : Fields) (hf : f.Valid)
    (labels undefined rest : Bytes) (hl : labels.length = 64) (hu : undefined.length = 324)
    (h : f.SF = 3 ∨ f.ES ∉ ([1, 2, 4, 8, 1025, 1026, 1028, 1032] : List ℤ)) :
    loadOasisMontajGrid inflate (f.bytes labels undefined ++ rest) = .error .NotImplementedError := by
  by_cases hk : f.KX = 1 ∨ f.KX = -1
  · rw [load_eq inflate f hf hl hu, checkOrdering, if_pos (by tauto)]
    simp only [Py.bind_ok]
    rw [checkSignFlag]
    by_cases h3 : f.SF = 3
    · rw [if_pos h3]
      rfl
    · rw [if_neg h3, getDataType,
        if_pos (by simpa [validElementSizes] using h.resolve_left h3)]
      rfl
  · exact C48_ordering inflate f hf labels undefined rest hl hu (by tauto) (by tauto)

/-! ### C50 -/

/-- C50: the element `e` of the vector `v` of a loaded grid is NaN iff its raw value is a dummy of its
type (or was stored as NaN); any other finite value is divided by the factor and added to the base
value of the header. -/
theorem C50_values (inflate : Bytes → Option Bytes) (f : Fields) (hf : f.Valid)
    (labels undefined : Bytes) (hl : labels.length = 64) (hu : undefined.length = 324)
    {t : DataType} (ht : IsType f.ES f.SF t) (hk : f.KX = 1 ∨ f.KX = -1) (NE NV : ℕ)
    (hNE : f.NE = NE) (hNV : f.NV = NV) (chunks : List Bytes) (hc : ∀ c ∈ chunks, c.length = t.size)
    (hn : chunks.length = NV * NE) {factor base : ℝ} (hz : float64 f.ZMULT = .fin factor)
    (hz0 : factor ≠ 0) (hb : float64 f.ZBASE = .fin base) {g : DataArray}
    (h : loadOasisMontajGrid inflate (f.bytes labels undefined ++ chunks.flatten) = .ok g) :
    ∀ v < NV, ∀ e < NE, ∃ c x, chunks[v * NE + e]? = some c ∧
      entry g.values (nodeOf f.KX v e).1 (nodeOf f.KX v e).2 = some x ∧
      (x = .nan ↔ IsDummy t (t.value c) ∨ t.value c = .nan) ∧
      (∀ r, t.value c = .fin r → ¬ IsDummy t (t.value c) → x = .fin (r / factor + base)) := by
  obtain ⟨g', h1, -, -, -, h2⟩ := C48_values inflate f hf labels undefined hl hu ht hk NE NV hNE hNV
    chunks hc hn
  rw [h] at h1
  cases h1
  intro v hv e he
  have hlt : v * NE + e < chunks.length := by
    rw [hn]
    calc v * NE + e < v * NE + NE := by omega
      _ = (v + 1) * NE := by ring
      _ ≤ NV * NE := Nat.mul_le_mul_right _ hv
  refine ⟨chunks[v * NE + e], loadedValue t (.fin factor) (.fin base) chunks[v * NE + e],
    List.getElem?_eq_getElem hlt, ?_, ?_, ?_⟩
  · rw [h2 v hv e he, List.getElem?_eq_getElem hlt, hz, hb]
    rfl
  · unfold loadedValue
    by_cases hd : IsDummy t (t.value chunks[v * NE + e])
    · simp [hd]
    · rw [if_neg hd]
      generalize t.value chunks[v * NE + e] = r at hd ⊢
      cases r <;> simp [Num.div, Num.add, hz0, hd]
  · intro r hr hd
    rw [loadedValue, if_neg hd, hr]
    simp [Num.div, Num.add, hz0]

/-! ### C51 -/

theorem decompressGrid_blocks (inflate : Bytes → Option Bytes) {signature : Bytes}
    (hsig : signature.length = 8) {vectorsPerBlock : ℤ} (hvpb : IsInt32 vectorsPerBlock)
    (blocks : List (Bytes × Bytes × Bytes))
    (h16 : ∀ b ∈ blocks, b.1.length = 16) (hz : ∀ b ∈ blocks, inflate b.2.1 = some b.2.2)
    (hsize : ∀ b ∈ blocks, (b.1 ++ b.2.1).length < 2 ^ 31) (hn : blocks.length < 2 ^ 31)
    (htotal : (blockBytes (blocks.map fun b => (b.1, b.2.1))).length + 12 * blocks.length + 528 <
      2 ^ 63) :
    decompressGrid inflate
      (compressedBytes signature vectorsPerBlock (blocks.map fun b => (b.1, b.2.1))) =
      .ok (blocks.map fun b => b.2.2).flatten := by
  rw [decompressGrid_eq inflate hsig hvpb (blocks.map fun b => (b.1, b.2.1))
    (fun b hb => by obtain ⟨c, hc, rfl⟩ := List.mem_map.1 hb; exact h16 c hc)
    (fun b hb => by obtain ⟨c, hc, rfl⟩ := List.mem_map.1 hb; exact hsize c hc) (by simpa using hn)
    (by simpa using htotal), List.map_map]
  exact (inflateAll_ok inflate blocks hz []).trans (by simp)

/-- C51: for any codec, a compressed grid with any number of blocks of any sizes is decompressed to the
blocks in order. Each block is (16 bytes, compressed data, original data). -/
theorem C51_blocks (inflate : Bytes → Option Bytes) (signature : Bytes)
    (hsig : signature.length = 8) (vectorsPerBlock : ℤ) (hvpb : IsInt32 vectorsPerBlock)
    (blocks : List (Bytes × Bytes × Bytes))
    (h16 : ∀ b ∈ blocks, b.1.length = 16) (hz : ∀ b ∈ blocks, inflate b.2.1 = some b.2.2)
    (hsize : ∀ b ∈ blocks, (b.1 ++ b.2.1).length < 2 ^ 31) (hn : blocks.length < 2 ^ 31)
    (htotal : (blockBytes (blocks.map fun b => (b.1, b.2.1))).length + 12 * blocks.length + 528 <
      2 ^ 63) :
    decompressGrid inflate
      (compressedBytes signature vectorsPerBlock (blocks.map fun b => (b.1, b.2.1))) =
      .ok (blocks.map fun b => b.2.2).flatten :=
  decompressGrid_blocks inflate hsig hvpb blocks h16 hz hsize hn htotal

/-- What the user sees of a grid besides the header. -/
def DataArray.content (g : DataArray) : (String × String) × List (List Num) × Coords :=
  (g.dims, g.values, g.coords)

/-- C51: loading a compressed file gives the same grid (or the same exception) as loading the file
with the same data without compression. -/
theorem C51_load (inflate : Bytes → Option Bytes) (f : Fields) (hf : f.Valid)
    (labels undefined : Bytes) (hl : labels.length = 64) (hu : undefined.length = 324)
    {t : DataType} (ht : IsType f.ES f.SF t) (signature : Bytes)
    (hsig : signature.length = 8) (vectorsPerBlock : ℤ) (hvpb : IsInt32 vectorsPerBlock)
    (blocks : List (Bytes × Bytes × Bytes))
    (h16 : ∀ b ∈ blocks, b.1.length = 16) (hz : ∀ b ∈ blocks, inflate b.2.1 = some b.2.2)
    (hsize : ∀ b ∈ blocks, (b.1 ++ b.2.1).length < 2 ^ 31) (hn : blocks.length < 2 ^ 31)
    (htotal : (blockBytes (blocks.map fun b => (b.1, b.2.1))).length + 12 * blocks.length + 528 <
      2 ^ 63) :
    (loadOasisMontajGrid inflate (({ f with ES := 1024 + f.ES } : Fields).bytes labels undefined ++
      compressedBytes signature vectorsPerBlock (blocks.map fun b => (b.1, b.2.1)))).map
        DataArray.content =
    (loadOasisMontajGrid inflate (f.bytes labels undefined ++
      (blocks.map fun b => b.2.2).flatten)).map DataArray.content := by
  obtain ⟨h3, h3', hsf, hes⟩ := getDataType_of_isType ht
  have hv : ({ f with ES := 1024 + f.ES } : Fields).Valid := by
    refine ⟨fun z hz => ?_, hf.2⟩
    rcases List.mem_cons.1 hz with rfl | hz
    · unfold IsInt32
      show -2 ^ 31 ≤ 1024 + f.ES ∧ 1024 + f.ES < 2 ^ 31
      omega
    · exact hf.1 z (List.mem_cons_of_mem _ hz)
  rw [load_eq inflate _ hv hl hu, load_eq inflate f hf hl hu]
  rw [checkSignFlag, if_neg hsf]
  simp only [Py.bind_ok, h3, h3']
  cases checkOrdering f.KX with
  | error e => rfl
  | ok _ =>
    simp only [Py.bind_ok]
    rw [maybeDecompress, if_pos (by show 1024 + f.ES > 1024; omega), maybeDecompress,
      if_neg (by show ¬ f.ES > 1024; omega),
      decompressGrid_blocks inflate hsig hvpb blocks h16 hz hsize hn htotal]
    simp only [Py.bind_ok]
    generalize (blocks.map fun b => b.2.2).flatten = b
    unfold buildGrid
    cases arrayOf t b with
    | error e => rfl
    | ok a =>
      simp only [Py.bind_ok]
      have e1 : layoutOf ({ f with ES := 1024 + f.ES } : Fields).header = layoutOf f.header := rfl
      have e2 : gridCoords ({ f with ES := 1024 + f.ES } : Fields).header = gridCoords f.header := rfl
      have e3 : ({ f with ES := 1024 + f.ES } : Fields).header.data_factor = f.header.data_factor := rfl
      have e4 : ({ f with ES := 1024 + f.ES } : Fields).header.base_value = f.header.base_value := rfl
      rw [e1, e2, e3, e4]
      generalize layoutOf f.header = L
      obtain ⟨shape, spacing, c⟩ := L
      simp only
      split
      · rfl
      · split <;> rfl

/-- C51: if the codec rejects the data of some block, its error is raised: no grid is returned. -/
theorem C51_corrupt (inflate : Bytes → Option Bytes) (signature : Bytes)
    (hsig : signature.length = 8) (vectorsPerBlock : ℤ) (hvpb : IsInt32 vectorsPerBlock)
    (blocks : List (Bytes × Bytes)) (h16 : ∀ b ∈ blocks, b.1.length = 16)
    (hz : ∃ b ∈ blocks, inflate b.2 = none)
    (hsize : ∀ b ∈ blocks, (b.1 ++ b.2).length < 2 ^ 31) (hn : blocks.length < 2 ^ 31)
    (htotal : (blockBytes blocks).length + 12 * blocks.length + 528 < 2 ^ 63) :
    decompressGrid inflate (compressedBytes signature vectorsPerBlock blocks) = .error .ZlibError := by
  rw [decompressGrid_eq inflate hsig hvpb blocks h16 hsize hn htotal]
  obtain ⟨b, hb, h⟩ := hz
  exact inflateAll_error inflate _ ⟨b.2, List.mem_map_of_mem (f := fun b => b.2) hb, h⟩ _

/-! ### C52 -/

/-- Distance squared between two nodes of a grid. -/
def sqDist (p q : ℝ × ℝ) : ℝ := (p.1 - q.1) ^ 2 + (p.2 - q.2) ^ 2

/-- C52: the distance between any two nodes of a loaded grid is the one between their offsets without
rotation; the first node is at the origin of the header. -/
theorem C52_distances (inflate : Bytes → Option Bytes) (f : Fields) (hf : f.Valid)
    (labels undefined rest : Bytes) (hl : labels.length = 64) (hu : undefined.length = 324)
    {g : DataArray} (h : loadOasisMontajGrid inflate (f.bytes labels undefined ++ rest) = .ok g)
    (NE NV : ℕ) (hNE : f.NE = NE) (hNV : f.NV = NV) {DE DV X0 Y0 ROT : ℝ}
    (hDE : float64 f.DE = .fin DE) (hDV : float64 f.DV = .fin DV) (hX0 : float64 f.X0 = .fin X0)
    (hY0 : float64 f.Y0 = .fin Y0) (hROT : float64 f.ROT = .fin ROT) :
    (∀ v < NV, ∀ e < NE, ∀ v' < NV, ∀ e' < NE, ∃ p q : ℝ × ℝ,
      g.coords.at (nodeOf f.KX v e).1 (nodeOf f.KX v e).2 = some (.fin p.1, .fin p.2) ∧
      g.coords.at (nodeOf f.KX v' e').1 (nodeOf f.KX v' e').2 = some (.fin q.1, .fin q.2) ∧
      sqDist p q = sqDist (offsetOf f.KX DE DV v e) (offsetOf f.KX DE DV v' e')) ∧
    (0 < NV → 0 < NE → g.coords.at 0 0 = some (.fin X0, .fin Y0)) := by
  have key := C52_coordinates inflate f hf labels undefined rest hl hu h NE NV hNE hNV hDE hDV hX0
    hY0 hROT
  constructor
  · intro v hv e he v' hv' e' he'
    refine ⟨(_, _), (_, _), key v hv e he, key v' hv' e' he', ?_⟩
    simp only [sqDist]
    have := Real.cos_sq_add_sin_sq (ROT * Real.pi / 180)
    generalize offsetOf f.KX DE DV v e = a
    generalize offsetOf f.KX DE DV v' e' = b
    linear_combination ((a.1 - b.1) ^ 2 + (a.2 - b.2) ^ 2) * this
  · intro h1 h2
    have := key 0 h1 0 h2
    have n0 : nodeOf f.KX 0 0 = (0, 0) := by unfold nodeOf; split <;> rfl
    have o0 : offsetOf f.KX DE DV 0 0 = (0, 0) := by unfold offsetOf; split <;> simp
    rw [n0, o0] at this
    simpa using this

end Verif.Oasis
