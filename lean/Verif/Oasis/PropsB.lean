import Verif.Oasis.Props

/-! C47-C52: the numbers in the bytes of a grid, and the names of the dimensions. -/

namespace Verif.Oasis

/-- C47: a double with the sign bit `s`, the exponent `e` and the mantissa `m` is the number of IEEE 754:
`±(1 + m/2⁵²) 2^(e - 1023)`, a subnormal number `±m/2⁵² 2⁻¹⁰²²` for `e = 0`, and infinities and NaN for
`e = 2047`. -/
theorem C47_doubles (s : Bool) (e m : ℕ) (he : e < 2048) (hm : m < 2 ^ 52) :
    float64 ((if s then 2 ^ 63 else 0) + e * 2 ^ 52 + m) =
      if e = 2047 then (if m = 0 then .inf s else .nan)
      else .fin ((if s then -1 else 1) *
        if e = 0 then (m : ℝ) / 2 ^ 52 * (2 ^ 1022)⁻¹
        else (1 + (m : ℝ) / 2 ^ 52) * ((2 : ℝ) ^ e / 2 ^ 1023)) := by
  have h1 : ((if s then 2 ^ 63 else 0) + e * 2 ^ 52 + m) % 2 ^ 52 = m := by
    cases s <;> simp <;> omega
  have h2 : ((if s then 2 ^ 63 else 0) + e * 2 ^ 52 + m) / 2 ^ 52 % 2 ^ 11 = e := by
    cases s <;> simp <;> omega
  have h3 : ((if s then 2 ^ 63 else 0) + e * 2 ^ 52 + m) / 2 ^ (11 + 52) % 2 = if s then 1 else 0 := by
    cases s <;> simp <;> omega
  unfold float64 ieee
  rw [h1, h2, h3]
  have hs : (decide ((if s then 1 else 0) = 1) : Bool) = s := by cases s <;> rfl
  simp only [hs]
  by_cases h4 : e = 2047
  · rw [if_pos (by rw [h4]; norm_num), if_pos h4]
  · rw [if_neg (by norm_num; exact h4), if_neg h4]
    by_cases h5 : e = 0
    · rw [if_pos h5, if_pos h5]
      congr 1
      rw [show (1 - (2 ^ (11 - 1) - 1) - ((52 : ℕ) : ℤ) : ℤ) = -(1074 : ℕ) by norm_num, zpow_neg, zpow_natCast,
        show (2 : ℝ) ^ 1074 = 2 ^ 52 * 2 ^ 1022 by rw [← pow_add]]
      rw [mul_inv]
      ring
    · rw [if_neg h5, if_neg h5]
      congr 1
      rw [show ((e : ℤ) - (2 ^ (11 - 1) - 1) - ((52 : ℕ) : ℤ) : ℤ) = (e : ℤ) - (1023 + 52 : ℕ) by norm_num; ring,
        zpow_sub₀ two_ne_zero, zpow_natCast, zpow_natCast, pow_add]
      field_simp

/-- C47: a float with the sign bit `s`, the exponent `e` and the mantissa `m`. -/
theorem C47_floats (s : Bool) (e m : ℕ) (he : e < 256) (hm : m < 2 ^ 23) :
    float32 ((if s then 2 ^ 31 else 0) + e * 2 ^ 23 + m) =
      if e = 255 then (if m = 0 then .inf s else .nan)
      else .fin ((if s then -1 else 1) *
        if e = 0 then (m : ℝ) / 2 ^ 23 * (2 ^ 126)⁻¹
        else (1 + (m : ℝ) / 2 ^ 23) * ((2 : ℝ) ^ e / 2 ^ 127)) := by
  have h1 : ((if s then 2 ^ 31 else 0) + e * 2 ^ 23 + m) % 2 ^ 23 = m := by
    cases s <;> simp <;> omega
  have h2 : ((if s then 2 ^ 31 else 0) + e * 2 ^ 23 + m) / 2 ^ 23 % 2 ^ 8 = e := by
    cases s <;> simp <;> omega
  have h3 : ((if s then 2 ^ 31 else 0) + e * 2 ^ 23 + m) / 2 ^ (8 + 23) % 2 = if s then 1 else 0 := by
    cases s <;> simp <;> omega
  unfold float32 ieee
  rw [h1, h2, h3]
  have hs : (decide ((if s then 1 else 0) = 1) : Bool) = s := by cases s <;> rfl
  simp only [hs]
  by_cases h4 : e = 255
  · rw [if_pos (by rw [h4]; norm_num), if_pos h4]
  · rw [if_neg (by norm_num; exact h4), if_neg h4]
    by_cases h5 : e = 0
    · rw [if_pos h5, if_pos h5]
      congr 1
      rw [show (1 - (2 ^ (8 - 1) - 1) - ((23 : ℕ) : ℤ) : ℤ) = -(149 : ℕ) by norm_num, zpow_neg, zpow_natCast,
        show (2 : ℝ) ^ 149 = 2 ^ 23 * 2 ^ 126 by rw [← pow_add]]
      rw [mul_inv]
      ring
    · rw [if_neg h5, if_neg h5]
      congr 1
      rw [show ((e : ℤ) - (2 ^ (8 - 1) - 1) - ((23 : ℕ) : ℤ) : ℤ) = (e : ℤ) - (127 + 23 : ℕ) by norm_num; ring,
        zpow_sub₀ two_ne_zero, zpow_natCast, zpow_natCast, pow_add]
      field_simp

/-- C48: the value of the bytes of an integer of each type, little endian and in two's complement if the
type has a sign, is the integer; the value of the bytes of a float or a double is the number with
those bits. -/
theorem C48_elements :
    (∀ n < 2 ^ 8, DataType.B.value (leBytes 1 n) = .fin n) ∧
    (∀ n < 2 ^ 16, DataType.H.value (leBytes 2 n) = .fin n) ∧
    (∀ n < 2 ^ 32, DataType.I.value (leBytes 4 n) = .fin n) ∧
    (∀ z : ℤ, -2 ^ 7 ≤ z → z < 2 ^ 7 → DataType.b.value (leBytes 1 (z % 2 ^ 8).toNat) = .fin z) ∧
    (∀ z : ℤ, -2 ^ 15 ≤ z → z < 2 ^ 15 → DataType.h.value (leBytes 2 (z % 2 ^ 16).toNat) = .fin z) ∧
    (∀ z : ℤ, -2 ^ 31 ≤ z → z < 2 ^ 31 → DataType.i.value (leBytes 4 (z % 2 ^ 32).toNat) = .fin z) ∧
    (∀ n < 2 ^ 32, DataType.f.value (leBytes 4 n) = float32 n) ∧
    (∀ n < 2 ^ 64, DataType.d.value (leBytes 8 n) = float64 n) := by
  have hs : ∀ (k : ℕ) (z : ℤ), (0 < k) → -(256 ^ k / 2) ≤ z → z < 256 ^ k / 2 →
      signed k (ofLE (leBytes k (z % 256 ^ k).toNat)) = z := by
    intro k z hk h1 h2
    rw [ofLE_leBytes]
    unfold signed
    obtain ⟨N, hN⟩ : ∃ N : ℕ, 256 ^ k = 2 * N := by
      obtain ⟨j, rfl⟩ := Nat.exists_eq_succ_of_ne_zero hk.ne'
      exact ⟨128 * 256 ^ j, by rw [Nat.succ_eq_add_one, pow_succ]; ring⟩
    have hN' : (256 : ℤ) ^ k = 2 * N := by exact_mod_cast hN
    rw [hN'] at h1 h2 ⊢
    rw [hN]
    have h3 : (z % (2 * N)).toNat % (2 * N) = (z % (2 * N)).toNat := Nat.mod_eq_of_lt (by
      have : z % (2 * N) < 2 * N := Int.emod_lt_of_pos _ (by omega)
      omega)
    rw [h3]
    have h4 : 0 ≤ z % (2 * N) := Int.emod_nonneg _ (by omega)
    by_cases hz : 0 ≤ z
    · have : z % (2 * N) = z := Int.emod_eq_of_lt hz (by omega)
      rw [this, if_pos (by omega)]
      omega
    · have : z % (2 * N) = z + 2 * N := by
        rw [← Int.add_emod_right]
        exact Int.emod_eq_of_lt (by omega) (by omega)
      rw [this, if_neg (by omega)]
      omega
  refine ⟨?_, ?_, ?_, ?_, ?_, ?_, ?_, ?_⟩
  · intro n hn
    rw [DataType.value, ofLE_leBytes, Nat.mod_eq_of_lt (by omega)]
  · intro n hn
    rw [DataType.value, ofLE_leBytes, Nat.mod_eq_of_lt (by omega)]
  · intro n hn
    rw [DataType.value, ofLE_leBytes, Nat.mod_eq_of_lt (by omega)]
  · intro z h1 h2
    have := hs 1 z (by norm_num) (by norm_num at *; omega) (by norm_num at *; omega)
    norm_num at this ⊢
    rw [DataType.value, this]
  · intro z h1 h2
    have := hs 2 z (by norm_num) (by norm_num at *; omega) (by norm_num at *; omega)
    norm_num at this ⊢
    rw [DataType.value, this]
  · intro z h1 h2
    have := hs 4 z (by norm_num) (by norm_num at *; omega) (by norm_num at *; omega)
    norm_num at this ⊢
    rw [DataType.value, this]
  · intro n hn
    rw [DataType.value, ofLE_leBytes, Nat.mod_eq_of_lt (by omega)]
  · intro n hn
    rw [DataType.value, ofLE_leBytes, Nat.mod_eq_of_lt (by omega)]

/-- C50: an infinite value stays infinite, with the sign of its product with the factor (negative zero,
which the model does not tell from zero, is left out). -/
theorem C50_infinite (inflate : Bytes → Option Bytes) (f : Fields) (hf : f.Valid)
    (labels undefined : Bytes) (hl : labels.length = 64) (hu : undefined.length = 324)
    {t : DataType} (ht : IsType f.ES f.SF t) (hk : f.KX = 1 ∨ f.KX = -1) (NE NV : ℕ)
    (hNE : f.NE = NE) (hNV : f.NV = NV) (chunks : List Bytes) (hc : ∀ c ∈ chunks, c.length = t.size)
    (hn : chunks.length = NV * NE) {factor base : ℝ} (hz : float64 f.ZMULT = .fin factor)
    (_ : f.ZMULT ≠ 2 ^ 63) (hb : float64 f.ZBASE = .fin base) {g : DataArray}
    (h : loadOasisMontajGrid inflate (f.bytes labels undefined ++ chunks.flatten) = .ok g) :
    ∀ v < NV, ∀ e < NE, ∀ c, chunks[v * NE + e]? = some c → t.value c = .inf false →
      entry g.values (nodeOf f.KX v e).1 (nodeOf f.KX v e).2 = some (.inf (decide (factor < 0))) := by
  obtain ⟨g', h1, -, -, -, h2⟩ := C48_values inflate f hf labels undefined hl hu ht hk NE NV hNE hNV
    chunks hc hn
  rw [h] at h1
  cases h1
  intro v hv e he c hc hi
  have hd : ¬ IsDummy t (t.value c) := by
    rw [hi]
    cases t <;> simp [IsDummy]
  rw [h2 v hv e he, hc, hz, hb, Option.map_some, loadedValue, if_neg hd, hi]
  simp [Num.div, Num.add]

/-- C50: with the factor zero the value zero becomes NaN, and other values infinities of their sign. -/
theorem C50_zero_factor (inflate : Bytes → Option Bytes) (f : Fields) (hf : f.Valid)
    (labels undefined : Bytes) (hl : labels.length = 64) (hu : undefined.length = 324)
    {t : DataType} (ht : IsType f.ES f.SF t) (hk : f.KX = 1 ∨ f.KX = -1) (NE NV : ℕ)
    (hNE : f.NE = NE) (hNV : f.NV = NV) (chunks : List Bytes) (hc : ∀ c ∈ chunks, c.length = t.size)
    (hn : chunks.length = NV * NE) {base : ℝ} (hz : f.ZMULT = 0) (hb : float64 f.ZBASE = .fin base)
    {g : DataArray}
    (h : loadOasisMontajGrid inflate (f.bytes labels undefined ++ chunks.flatten) = .ok g) :
    ∀ v < NV, ∀ e < NE, ∀ c x, chunks[v * NE + e]? = some c → t.value c = .fin x →
      ¬ IsDummy t (.fin x) →
      (x = 0 → entry g.values (nodeOf f.KX v e).1 (nodeOf f.KX v e).2 = some .nan) ∧
      (0 < x → entry g.values (nodeOf f.KX v e).1 (nodeOf f.KX v e).2 = some (.inf false)) ∧
      (x < 0 → entry g.values (nodeOf f.KX v e).1 (nodeOf f.KX v e).2 = some (.inf true)) := by
  obtain ⟨g', h1, -, -, -, h2⟩ := C48_values inflate f hf labels undefined hl hu ht hk NE NV hNE hNV
    chunks hc hn
  rw [h] at h1
  cases h1
  intro v hv e he c x hc hi hd
  have hz' : float64 f.ZMULT = .fin 0 := by
    have := C47_doubles false 0 0 (by norm_num) (by norm_num)
    simp only [Bool.false_eq_true, if_false, zero_mul, add_zero] at this
    rw [hz, this, if_neg (by norm_num)]
    simp
  rw [h2 v hv e he, hc, hz', hb, Option.map_some, loadedValue, hi, if_neg hd]
  refine ⟨fun hx => ?_, fun hx => ?_, fun hx => ?_⟩
  · simp [Num.div, Num.add, hx]
  · simp [Num.div, Num.add, hx.ne', hx.le]
  · simp [Num.div, Num.add, hx.ne, hx]

/-- C52: the dimensions of a grid without rotation are northing and easting, with these names for the
coordinates along them; a rotated grid has the dimensions y and x. -/
theorem C52_dims (inflate : Bytes → Option Bytes) (f : Fields) (hf : f.Valid)
    (labels undefined rest : Bytes) (hl : labels.length = 64) (hu : undefined.length = 324)
    {g : DataArray} (h : loadOasisMontajGrid inflate (f.bytes labels undefined ++ rest) = .ok g) :
    (float64 f.ROT = .fin 0 → g.dims = ("northing", "easting") ∧ ∃ e n, g.coords = .plain e n) ∧
    (float64 f.ROT ≠ .fin 0 → g.dims = ("y", "x") ∧ ∃ e n, g.coords = .rotated e n) := by
  rw [load_eq inflate f hf hl hu] at h
  cases h1 : checkOrdering f.KX with
  | error e => rw [h1] at h; cases h
  | ok _ =>
    cases h2 : checkSignFlag f.SF with
    | error e => rw [h1, h2] at h; cases h
    | ok _ =>
      cases h3 : getDataType f.ES f.SF with
      | error e => rw [h1, h2, h3] at h; cases h
      | ok t =>
        cases h4 : maybeDecompress inflate f.header rest with
        | error e => rw [h1, h2, h3, h4] at h; cases h
        | ok b =>
          rw [h1, h2, h3, h4] at h
          simp only [Py.bind_ok] at h
          unfold buildGrid at h
          cases h5 : arrayOf t b with
          | error e => rw [h5] at h; cases h
          | ok a =>
            rw [h5] at h
            simp only [Py.bind_ok] at h
            split at h
            · cases h
            · split at h
              · cases h
              · simp only [Py.pure_eq, Except.ok.injEq] at h
                rw [← h]
                constructor
                · intro hr
                  have : f.header.rotation.eq 0 = true := by
                    show (float64 f.ROT).eq 0 = true
                    rw [hr]; simp [Num.eq]
                  rw [gridCoords, if_pos this]
                  exact ⟨rfl, _, _, rfl⟩
                · intro hr
                  have : f.header.rotation.eq 0 = false := by
                    show (float64 f.ROT).eq 0 = false
                    cases hx : float64 f.ROT with
                    | fin x =>
                      rw [hx] at hr
                      simp only [Num.eq, decide_eq_false_iff_not]
                      intro e; exact hr (by rw [e])
                    | inf s => rfl
                    | nan => rfl
                  rw [gridCoords, if_neg (by rw [this]; exact Bool.false_ne_true)]
                  exact ⟨rfl, _, _, rfl⟩

end Verif.Oasis
