import Verif.Oasis.Spec

/-! Helper lemmas for C47-C52. -/

namespace Verif.Oasis

theorem leBytes_length (k n : ℕ) : (leBytes k n).length = k := by
  induction k generalizing n with
  | zero => rfl
  | succ k ih => simp [leBytes, ih]

theorem ofLE_leBytes (k n : ℕ) : ofLE (leBytes k n) = n % 256 ^ k := by
  induction k generalizing n with
  | zero => simp [leBytes, ofLE, Nat.mod_one]
  | succ k ih =>
    rw [leBytes, ofLE, ih]
    have : (UInt8.ofNat n).toNat = n % 256 := by simp
    rw [this, pow_succ, mul_comm (256 ^ k) 256, Nat.mod_mul]

theorem ofLE_lt (b : Bytes) : ofLE b < 256 ^ b.length := by
  induction b with
  | nil => simp [ofLE]
  | cons x t ih =>
    rw [ofLE, List.length_cons, pow_succ]
    have := x.toNat_lt
    omega

theorem int32_length (z : ℤ) : (int32 z).length = 4 := leBytes_length _ _
theorem int64_length (z : ℤ) : (int64 z).length = 8 := leBytes_length _ _

theorem signed_int32 {z : ℤ} (h : IsInt32 z) : signed 4 (ofLE (int32 z)) = z := by
  unfold IsInt32 at h
  rw [int32, ofLE_leBytes]
  unfold signed
  norm_num at h ⊢
  split <;> omega

theorem signed_int64 {z : ℤ} (h : IsInt64 z) : signed 8 (ofLE (int64 z)) = z := by
  unfold IsInt64 at h
  rw [int64, ofLE_leBytes]
  unfold signed
  norm_num at h ⊢
  split <;> omega

theorem drop_flatten {s : ℕ} : ∀ (cs : List Bytes), (∀ c ∈ cs, c.length = s) → ∀ i,
    cs.flatten.drop (i * s) = (cs.drop i).flatten
  | [], _, i => by simp
  | c :: cs, h, 0 => by simp
  | c :: cs, h, i + 1 => by
    rw [List.forall_mem_cons] at h
    rw [List.flatten_cons, Nat.succ_mul, Nat.add_comm, List.drop_append, List.drop_of_length_le,
      List.nil_append, List.drop_succ_cons, ← drop_flatten cs h.2 i]
    · congr 1
      omega
    · omega

theorem items_flatten {s : ℕ} (hs : 0 < s) (cs : List Bytes) (h : ∀ c ∈ cs, c.length = s) :
    items s cs.flatten = .ok cs := by
  have hlen : cs.flatten.length = cs.length * s := by
    rw [List.length_flatten, List.map_congr_left (g := fun _ => s) h]
    simp
  unfold items
  rw [hlen, if_neg (by simp), Nat.mul_div_cancel _ hs]
  congr 1
  refine List.ext_getElem (by simp) fun i h1 h2 => ?_
  rw [List.getElem_map, List.getElem_range, drop_flatten cs h]
  have hd : cs.drop i = cs[i] :: cs.drop (i + 1) := List.drop_eq_getElem_cons h2
  rw [hd, List.flatten_cons, List.take_append_of_le_length, List.take_of_length_le]
  · rw [h _ (List.getElem_mem h2)]
  · rw [h _ (List.getElem_mem h2)]

theorem slice_nat (b : Bytes) (s t : ℕ) :
    slice b (s : ℤ) (t : ℤ) = (b.take t).drop s := by
  unfold slice
  simp only [show ¬ ((s : ℤ) < 0) by omega, show ¬ ((t : ℤ) < 0) by omega, if_false,
    Int.toNat_natCast]
  rw [show b.take (min t b.length) = b.take t by
    rcases le_total t b.length with h | h
    · rw [min_eq_left h]
    · rw [min_eq_right h, List.take_length, List.take_of_length_le h]]
  rcases le_total s b.length with h | h
  · rw [min_eq_left h]
  · rw [min_eq_right h, List.drop_of_length_le, List.drop_of_length_le] <;>
      simp only [List.length_take] <;> omega

theorem slice_append {b p x q : Bytes} {s t : ℕ} (hb : b = p ++ (x ++ q)) (hp : p.length = s)
    (hx : s + x.length = t) : slice b (s : ℤ) (t : ℤ) = x := by
  subst hb
  rw [slice_nat, List.take_append, List.drop_append, hp, List.drop_of_length_le (by simp; omega)]
  rw [List.nil_append, List.length_take, hp, show s - min t s = 0 by omega, List.drop_zero,
    show t - s = x.length by omega, List.take_left]

theorem arrayI_flatten (zs : List ℤ) (h : ∀ z ∈ zs, IsInt32 z) :
    arrayI (zs.map int32).flatten = .ok zs := by
  unfold arrayI
  rw [items_flatten (by norm_num) _ (by simp [int32_length])]
  simp only [Except.map, List.map_map]
  congr 1
  conv_rhs => rw [← List.map_id zs]
  refine List.map_congr_left fun z hz => ?_
  simp only [Function.comp, id]
  rw [signed_int32 (h z hz)]

theorem arrayQ_flatten (zs : List ℤ) (h : ∀ z ∈ zs, IsInt64 z) :
    arrayQ (zs.map int64).flatten = .ok zs := by
  unfold arrayQ
  rw [items_flatten (by norm_num) _ (by simp [int64_length])]
  simp only [Except.map, List.map_map]
  congr 1
  conv_rhs => rw [← List.map_id zs]
  refine List.map_congr_left fun z hz => ?_
  simp only [Function.comp, id]
  rw [signed_int64 (h z hz)]

theorem arrayD_flatten (ns : List ℕ) (h : ∀ n ∈ ns, n < 2 ^ 64) :
    arrayD (ns.map (leBytes 8)).flatten = .ok (ns.map float64) := by
  unfold arrayD
  rw [items_flatten (by norm_num) _ (by simp [leBytes_length])]
  simp only [Except.map, List.map_map]
  congr 1
  refine List.map_congr_left fun n hn => ?_
  simp only [Function.comp, ofLE_leBytes, float64]
  rw [Nat.mod_eq_of_lt]
  have := h n hn
  norm_num at this ⊢
  exact this

theorem arrayF_flatten (ns : List ℕ) (h : ∀ n ∈ ns, n < 2 ^ 32) :
    arrayF (ns.map (leBytes 4)).flatten = .ok (ns.map float32) := by
  unfold arrayF
  rw [items_flatten (by norm_num) _ (by simp [leBytes_length])]
  simp only [Except.map, List.map_map]
  congr 1
  refine List.map_congr_left fun n hn => ?_
  simp only [Function.comp, ofLE_leBytes, float32]
  rw [Nat.mod_eq_of_lt]
  have := h n hn
  norm_num at this ⊢
  exact this

theorem bytes_length (f : Fields) {labels undefined : Bytes} (hl : labels.length = 64)
    (hu : undefined.length = 324) : (f.bytes labels undefined).length = 512 := by
  simp [Fields.bytes, int32_length, leBytes_length, hl, hu]

theorem readHeader_bytes (f : Fields) (hf : f.Valid) {labels undefined : Bytes}
    (hl : labels.length = 64) :
    readHeader (f.bytes labels undefined) = .ok f.header := by
  obtain ⟨h1, h2, h3⟩ := hf
  set A := ([f.ES, f.SF, f.NE, f.NV, f.KX].map int32).flatten with hA
  set B := ([f.DE, f.DV, f.X0, f.Y0, f.ROT].map (leBytes 8)).flatten with hB
  set C := ([f.ZBASE, f.ZMULT].map (leBytes 8)).flatten with hC
  set D := ([f.PROJ, f.UNITX, f.UNITY, f.UNITZ, f.NVPTS].map int32).flatten with hD
  set E := ([f.IZMIN, f.IZMAX, f.IZMED, f.IZMEA].map (leBytes 4)).flatten with hE
  set F := ([f.ZVAR].map (leBytes 8)).flatten with hF
  set G := ([f.PRCS].map int32).flatten with hG
  have lA : A.length = 20 := by simp [hA, int32_length]
  have lB : B.length = 40 := by simp [hB, leBytes_length]
  have lC : C.length = 16 := by simp [hC, leBytes_length]
  have lD : D.length = 20 := by simp [hD, int32_length]
  have lE : E.length = 16 := by simp [hE, leBytes_length]
  have lF : F.length = 8 := by simp [hF, leBytes_length]
  have lG : G.length = 4 := by simp [hG, int32_length]
  have hb : f.bytes labels undefined =
      A ++ (B ++ (C ++ (labels ++ (D ++ (E ++ (F ++ (G ++ undefined))))))) := by
    simp [Fields.bytes, hA, hB, hC, hD, hE, hF, hG]
  generalize f.bytes labels undefined = b at hb
  have s1 : slice b (0 : ℕ) (20 : ℕ) = A :=
    slice_append (p := []) hb rfl (by omega)
  have s2 : slice b (20 : ℕ) (60 : ℕ) = B :=
    slice_append (p := A) hb (by omega) (by omega)
  have s3 : slice b (60 : ℕ) (76 : ℕ) = C :=
    slice_append (p := A ++ B) (by rw [hb, List.append_assoc])
      (by rw [List.length_append]; omega) (by omega)
  have s4 : slice b (140 : ℕ) (160 : ℕ) = D :=
    slice_append (p := A ++ (B ++ (C ++ labels))) (q := E ++ (F ++ (G ++ undefined))) (by rw [hb]; simp only [List.append_assoc])
      (by simp only [List.length_append]; omega) (by omega)
  have s5 : slice b (160 : ℕ) (176 : ℕ) = E :=
    slice_append (p := A ++ (B ++ (C ++ (labels ++ D)))) (q := F ++ (G ++ undefined)) (by rw [hb]; simp only [List.append_assoc])
      (by simp only [List.length_append]; omega) (by omega)
  have s6 : slice b (176 : ℕ) (184 : ℕ) = F :=
    slice_append (p := A ++ (B ++ (C ++ (labels ++ (D ++ E))))) (q := G ++ undefined)
      (by rw [hb]; simp only [List.append_assoc])
      (by simp only [List.length_append]; omega) (by omega)
  have s7 : slice b (184 : ℕ) (188 : ℕ) = G :=
    slice_append (p := A ++ (B ++ (C ++ (labels ++ (D ++ (E ++ F)))))) (q := undefined)
      (by rw [hb]; simp only [List.append_assoc])
      (by simp only [List.length_append]; omega) (by omega)
  push_cast at s1 s2 s3 s4 s5 s6 s7
  have hi : ∀ zs : List ℤ, (∀ z ∈ zs, z ∈ [f.ES, f.SF, f.NE, f.NV, f.KX, f.PROJ, f.UNITX, f.UNITY,
      f.UNITZ, f.NVPTS, f.PRCS]) → arrayI (zs.map int32).flatten = .ok zs := fun zs h =>
    arrayI_flatten zs fun z hz => h1 z (h z hz)
  have hd : ∀ ns : List ℕ, (∀ n ∈ ns, n ∈ [f.DE, f.DV, f.X0, f.Y0, f.ROT, f.ZBASE, f.ZMULT,
      f.ZVAR]) → arrayD (ns.map (leBytes 8)).flatten = .ok (ns.map float64) := fun ns h =>
    arrayD_flatten ns fun n hn => h2 n (h n hn)
  have eA : arrayI A = .ok [f.ES, f.SF, f.NE, f.NV, f.KX] := hi _ (by simp)
  have eB : arrayD B = .ok ([f.DE, f.DV, f.X0, f.Y0, f.ROT].map float64) := hd _ (by simp)
  have eC : arrayD C = .ok ([f.ZBASE, f.ZMULT].map float64) := hd _ (by simp)
  have eD : arrayI D = .ok [f.PROJ, f.UNITX, f.UNITY, f.UNITZ, f.NVPTS] := hi _ (by simp)
  have eE : arrayF E = .ok ([f.IZMIN, f.IZMAX, f.IZMED, f.IZMEA].map float32) :=
    arrayF_flatten _ h3
  have eF : arrayD F = .ok ([f.ZVAR].map float64) := hd _ (by simp)
  have eG : arrayI G = .ok [f.PRCS] := hi _ (by simp)
  clear_value A B C D E F G
  unfold readHeader
  norm_num only
  simp only [s1, s2, s3, s4, s5, s6, s7, eA, eB, eC, eD, eE, eF, eG, Py.bind_ok, unpack5, unpack2,
    unpack4, unpack1, List.map_cons, List.map_nil, Py.pure_eq, Fields.header]

end Verif.Oasis
