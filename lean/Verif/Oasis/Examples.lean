import Verif.Oasis.PropsB

/-! Concrete cases that meet the hypotheses of C47-C52. -/

namespace Verif.Oasis

/-- 2 vectors of 3 signed shorts, as columns; spacings 2 and 0.5, origin (1, -2), rotation 2 degrees,
factor 2, base value 1. -/
def exF : Fields where
  ES := 2
  SF := 1
  NE := 3
  NV := 2
  KX := -1
  DE := 0x4000000000000000
  DV := 0x3FE0000000000000
  X0 := 0x3FF0000000000000
  Y0 := 0xC000000000000000
  ROT := 0x4000000000000000
  ZBASE := 0x3FF0000000000000
  ZMULT := 0x4000000000000000
  PROJ := 0
  UNITX := 0
  UNITY := 0
  UNITZ := 0
  NVPTS := -6
  IZMIN := 0x3F800000
  IZMAX := 0
  IZMED := 0
  IZMEA := 0
  ZVAR := 0
  PRCS := 7

theorem exF_valid : exF.Valid := by
  refine ⟨?_, ?_, ?_⟩ <;> simp [exF, IsInt32]

theorem two : float64 0x4000000000000000 = .fin 2 := by
  unfold float64 ieee
  norm_num

theorem one : float64 0x3FF0000000000000 = .fin 1 := by
  unfold float64 ieee
  norm_num

theorem half : float64 0x3FE0000000000000 = .fin (1 / 2) := by
  unfold float64 ieee
  norm_num

theorem minusTwo : float64 0xC000000000000000 = .fin (-2) := by
  unfold float64 ieee
  norm_num

/-- The values 1, -1, dummy, 4, 5, -32767 + 65536 - 65535. -/
def exChunks : List Bytes := [[1, 0], [255, 255], [1, 128], [4, 0], [5, 0], [0, 1]]

def exLabels : Bytes := List.replicate 64 32
def exUndefined : Bytes := List.replicate 324 0

theorem exLabels_length : exLabels.length = 64 := List.length_replicate
theorem exUndefined_length : exUndefined.length = 324 := List.length_replicate

/-- C47_roundtrip, C47_attrs -/
example : readHeader (exF.bytes exLabels exUndefined) = .ok exF.header :=
  C47_roundtrip exF exF_valid _ _ exLabels_length

example (inflate : Bytes → Option Bytes) :
    loadOasisMontajGrid inflate (List.replicate 100 0) = .error .ValueError :=
  C47_truncated inflate _ (by simp)

/-- C48_values: element 1 of the vector 1 (5) is in the row 1, column 1, as 5 / 2 + 1; C50: the third
element of the first vector is a dummy. -/
example (inflate : Bytes → Option Bytes) :
    ∃ g, loadOasisMontajGrid inflate (exF.bytes exLabels exUndefined ++ exChunks.flatten) = .ok g ∧
      entry g.values 1 1 = some (.fin (5 / 2 + 1)) ∧ entry g.values 2 0 = some .nan ∧
      g.coords.at 1 0 = some (.fin (1 + (Real.cos (2 * Real.pi / 180) * 0 - Real.sin (2 * Real.pi / 180) * 2)),
        .fin (-2 + (Real.sin (2 * Real.pi / 180) * 0 + Real.cos (2 * Real.pi / 180) * 2))) := by
  obtain ⟨g, h1, h2, h3, h4, h5⟩ :=
    C48_values inflate exF exF_valid exLabels exUndefined exLabels_length exUndefined_length
        (t := .h) .signedShort (Or.inr rfl) 3 2 rfl rfl exChunks (by simp [exChunks, DataType.size])
        (by simp [exChunks])
  refine ⟨g, h1, ?_, ?_, ?_⟩
  · have := h5 1 (by norm_num) 1 (by norm_num)
    simp only [nodeOf, exF, two, one] at this
    norm_num at this
    rw [this]
    simp [exChunks, loadedValue, DataType.value, IsDummy, ofLE, signed, Num.div, Num.add]
    norm_num
  · have := h5 0 (by norm_num) 2 (by norm_num)
    simp only [nodeOf, exF, two, one] at this
    norm_num at this
    rw [this]
    simp [exChunks, loadedValue, DataType.value, IsDummy, ofLE, signed]
  · have := C52_coordinates inflate exF exF_valid exLabels exUndefined _ exLabels_length
      exUndefined_length h1 3 2 rfl rfl two half one minusTwo two 0 (by norm_num) 1 (by norm_num)
    simp only [nodeOf, offsetOf, exF] at this
    norm_num at this ⊢
    exact this

/-- C50_values -/
example (inflate : Bytes → Option Bytes) {g : DataArray}
    (h : loadOasisMontajGrid inflate (exF.bytes exLabels exUndefined ++ exChunks.flatten) = .ok g) :=
  C50_values inflate exF exF_valid exLabels exUndefined exLabels_length exUndefined_length
    (t := .h) .signedShort (Or.inr rfl) 3 2 rfl rfl exChunks (by simp [exChunks, DataType.size])
    (by simp [exChunks]) two (by norm_num) one h

/-- C52_distances -/
example (inflate : Bytes → Option Bytes) {g : DataArray}
    (h : loadOasisMontajGrid inflate (exF.bytes exLabels exUndefined ++ exChunks.flatten) = .ok g) :=
  C52_distances inflate exF exF_valid exLabels exUndefined _ exLabels_length
    exUndefined_length h 3 2 rfl rfl two half one minusTwo two

/-- C48_coordinates: the same grid without rotation. -/
example (inflate : Bytes → Option Bytes) {g : DataArray}
    (h : loadOasisMontajGrid inflate (({ exF with ROT := 0 } : Fields).bytes exLabels exUndefined ++
      exChunks.flatten) = .ok g) :
    g.coords.at 2 1 = some (.fin (1 + 1 / 2), .fin (-2 + 4)) := by
  have := C48_coordinates inflate { exF with ROT := 0 } (by refine ⟨?_, ?_, ?_⟩ <;> simp [exF, IsInt32])
    exLabels exUndefined _ exLabels_length exUndefined_length h 3 2 rfl rfl two half one
    minusTwo (by show float64 0 = _; unfold float64 ieee; norm_num) 1 (by norm_num) 2 (by norm_num)
  simp only [nodeOf, offsetOf, exF] at this
  norm_num at this ⊢
  exact this

/-- C48_wrong_count, C48_incomplete_element, C48_ordering -/
example (inflate : Bytes → Option Bytes) :
    loadOasisMontajGrid inflate (exF.bytes exLabels exUndefined ++ (exChunks.drop 1).flatten) =
      .error .ValueError :=
  C48_wrong_count inflate exF exF_valid exLabels exUndefined exLabels_length
    exUndefined_length (t := .h) .signedShort (Or.inr rfl) _
    (by simp [exChunks, DataType.size]) (by simp [exF, exChunks])

example (inflate : Bytes → Option Bytes) :
    loadOasisMontajGrid inflate (exF.bytes exLabels exUndefined ++ [1, 2, 3]) = .error .ValueError :=
  C48_incomplete_element inflate exF exF_valid exLabels exUndefined exLabels_length
    exUndefined_length (t := .h) .signedShort (Or.inr rfl) _ (by simp [DataType.size])

example (inflate : Bytes → Option Bytes) (rest : Bytes) :
    loadOasisMontajGrid inflate (({ exF with KX := 2 } : Fields).bytes exLabels exUndefined ++ rest) =
      .error .NotImplementedError :=
  C48_ordering inflate _ (by refine ⟨?_, ?_, ?_⟩ <;> simp [exF, IsInt32]) _ _ _ exLabels_length
    exUndefined_length (by simp) (by simp)

/-- C49_supported, C49_unbound, C49_rejected -/
example : (checkSignFlag 2 >>= fun _ => getDataType 1028 2) = .ok .f :=
  C49_supported (Or.inr (by norm_num; exact .float))

example (inflate : Bytes → Option Bytes) (rest : Bytes) :
    loadOasisMontajGrid inflate
      (({ exF with ES := 1, SF := 2 } : Fields).bytes exLabels exUndefined ++ rest) =
      .error .UnboundLocalError :=
  C49_unbound inflate _ (by refine ⟨?_, ?_, ?_⟩ <;> simp [exF, IsInt32]) _ _ _ exLabels_length
    exUndefined_length (Or.inr rfl) rfl rfl

example (inflate : Bytes → Option Bytes) (rest : Bytes) :
    loadOasisMontajGrid inflate
      (({ exF with ES := 3 } : Fields).bytes exLabels exUndefined ++ rest) =
      .error .NotImplementedError :=
  C49_rejected inflate _ (by refine ⟨?_, ?_, ?_⟩ <;> simp [exF, IsInt32]) _ _ _ exLabels_length
    exUndefined_length (Or.inr (by simp))

/-- A codec: the data after one byte 120. -/
def exInflate : Bytes → Option Bytes
  | 120 :: rest => some rest
  | _ => none

/-- The values of the example in two blocks. -/
def exBlocks : List (Bytes × Bytes × Bytes) :=
  [(List.replicate 16 0, [120, 1, 0, 255, 255], [1, 0, 255, 255]),
   (List.replicate 16 0, [120, 1, 128, 4, 0, 5, 0, 0, 1], [1, 128, 4, 0, 5, 0, 0, 1])]

/-- C51_blocks, C51_load -/
example : decompressGrid exInflate
    (compressedBytes (List.replicate 8 1) 1 (exBlocks.map fun b => (b.1, b.2.1))) =
      .ok exChunks.flatten :=
  C51_blocks exInflate _ (by simp) 1 (by simp [IsInt32]) exBlocks (by simp [exBlocks])
    (by simp [exBlocks, exInflate]) (by simp [exBlocks]) (by simp [exBlocks])
    (by simp [exBlocks, blockBytes])

example :=
  C51_load exInflate exF exF_valid exLabels exUndefined exLabels_length exUndefined_length
    (t := .h) .signedShort (List.replicate 8 1) (by simp) 1 (by simp [IsInt32]) exBlocks
    (by simp [exBlocks]) (by simp [exBlocks, exInflate]) (by simp [exBlocks]) (by simp [exBlocks])
    (by simp [exBlocks, blockBytes])

example : decompressGrid exInflate (compressedBytes (List.replicate 8 1) 1
    [(List.replicate 16 0, [120, 1]), (List.replicate 16 0, [1, 2])]) = .error .ZlibError :=
  C51_corrupt exInflate _ (by simp) 1 (by simp [IsInt32]) _ (by simp)
    ⟨(List.replicate 16 0, [1, 2]), by simp, rfl⟩ (by simp) (by simp) (by simp [blockBytes])

/-- C47_doubles, C47_floats: -1.5, the smallest positive double, infinity and 0.15625 -/
example : float64 0xBFF8000000000000 = .fin (-1.5) := by
  have := C47_doubles true 1023 (2 ^ 51) (by norm_num) (by norm_num)
  norm_num at this ⊢
  exact this

example : float64 1 = .fin (1 / 2 ^ 52 * (2 ^ 1022)⁻¹) := by
  have := C47_doubles false 0 1 (by norm_num) (by norm_num)
  simpa using this

theorem float64_inf : float64 0x7FF0000000000000 = .inf false := by
  have := C47_doubles false 2047 0 (by norm_num) (by norm_num)
  simpa using this

example : float32 0x3E200000 = .fin 0.15625 := by
  have := C47_floats false 124 (2 ^ 21) (by norm_num) (by norm_num)
  rw [if_neg (by norm_num), if_neg (by norm_num)] at this
  norm_num at this
  rw [this]
  norm_num

/-- C48_elements -/
example : DataType.h.value [0xFE, 0xFF] = .fin (-2) := by
  have := C48_elements.2.2.2.2.1 (-2) (by norm_num) (by norm_num)
  simpa [leBytes] using this

/-- A double per row: infinity and -3; the factor is -2. -/
def infF : Fields := { exF with ES := 8, SF := 2, NE := 1, NV := 2, KX := 1, ZMULT := 0xC000000000000000 }

def infChunks : List Bytes := [leBytes 8 0x7FF0000000000000, leBytes 8 0xC008000000000000]

theorem infF_valid : infF.Valid := by refine ⟨?_, ?_, ?_⟩ <;> simp [infF, exF, IsInt32]

/-- C50_infinite -/
example (inflate : Bytes → Option Bytes) : ∃ g,
    loadOasisMontajGrid inflate (infF.bytes exLabels exUndefined ++ infChunks.flatten) = .ok g ∧
    entry g.values 0 0 = some (.inf true) := by
  obtain ⟨g, h1, -⟩ := C48_values inflate infF infF_valid exLabels exUndefined exLabels_length
    exUndefined_length (t := .d) (.double 2 (by norm_num)) (Or.inl rfl) 1 2 rfl rfl infChunks
    (by simp [infChunks, leBytes, DataType.size]) rfl
  refine ⟨g, h1, ?_⟩
  have h2 := C50_infinite inflate infF infF_valid exLabels exUndefined exLabels_length
    exUndefined_length (t := .d) (.double 2 (by norm_num)) (Or.inl rfl) 1 2 rfl rfl infChunks
    (by simp [infChunks, leBytes, DataType.size]) rfl minusTwo (by simp [infF]) (base := 1)
    one h1 0 (by norm_num) 0 (by norm_num) _ rfl
    (by rw [C48_elements.2.2.2.2.2.2.2 _ (by norm_num), float64_inf])
  simpa [nodeOf, infF] using h2

/-- C50_zero_factor: 5 with the factor zero -/
example (inflate : Bytes → Option Bytes) : ∃ g,
    loadOasisMontajGrid inflate (({ exF with NE := 1, NV := 1, KX := 1, ZMULT := 0 } : Fields).bytes
      exLabels exUndefined ++ [leBytes 2 5].flatten) = .ok g ∧
    entry g.values 0 0 = some (.inf false) := by
  obtain ⟨g, h1, -⟩ := C48_values inflate { exF with NE := 1, NV := 1, KX := 1, ZMULT := 0 }
    (by refine ⟨?_, ?_, ?_⟩ <;> simp [exF, IsInt32]) exLabels exUndefined exLabels_length
    exUndefined_length (t := .h) .signedShort (Or.inl rfl) 1 1 rfl rfl [leBytes 2 5]
    (by simp [leBytes, DataType.size]) rfl
  refine ⟨g, h1, ?_⟩
  have h2 := (C50_zero_factor inflate { exF with NE := 1, NV := 1, KX := 1, ZMULT := 0 }
    (by refine ⟨?_, ?_, ?_⟩ <;> simp [exF, IsInt32]) exLabels exUndefined exLabels_length
    exUndefined_length (t := .h) .signedShort (Or.inl rfl) 1 1 rfl rfl [leBytes 2 5]
    (by simp [leBytes, DataType.size]) rfl rfl (base := 1) one h1 0 (by norm_num) 0 (by norm_num) _
    5 rfl (by simpa [leBytes] using C48_elements.2.2.2.2.1 5 (by norm_num) (by norm_num))
    (by norm_num [IsDummy])).2.1 (by norm_num)
  simpa [nodeOf] using h2

/-- C52_dims -/
example (inflate : Bytes → Option Bytes) : ∃ g,
    loadOasisMontajGrid inflate (exF.bytes exLabels exUndefined ++ exChunks.flatten) = .ok g ∧
    g.dims = ("y", "x") := by
  obtain ⟨g, h1, -⟩ := C48_values inflate exF exF_valid exLabels exUndefined exLabels_length
    exUndefined_length (t := .h) .signedShort (Or.inr rfl) 3 2 rfl rfl exChunks
    (by simp [exChunks, DataType.size]) rfl
  exact ⟨g, h1, ((C52_dims inflate exF exF_valid exLabels exUndefined _ exLabels_length
    exUndefined_length h1).2
    (by rw [show exF.ROT = 0x4000000000000000 from rfl, two]; norm_num)).1⟩

end Verif.Oasis
