import Verif.Igrf.Lemmas
import Verif.Engine.Lemmas

/-! Helper lemmas for C57, C58 and C01: the synthesis and the loops. -/

namespace Verif.Igrf

open Verif.Legendre Verif.Engine

noncomputable section

theorem cosSin_spec (lon : ℝ) (N : ℕ) (c0 s0 : ℕ → ℝ) (hN : 1 ≤ N) (m : ℕ) (hm : m ≤ N) :
    (cosSin lon N c0 s0).1 m = Real.cos (m * lon) ∧ (cosSin lon N c0 s0).2 m = Real.sin (m * lon) := by
  have key : ∀ m, m < N + 1 → (cosSin lon N c0 s0).1 m = Real.cos (m * lon) ∧
      (cosSin lon N c0 s0).2 m = Real.sin (m * lon) := by
    unfold cosSin
    refine forRange_inv _ (fun k (a : (ℕ → ℝ) × (ℕ → ℝ)) => ∀ m, m < k → a.1 m = Real.cos (m * lon) ∧
      a.2 m = Real.sin (m * lon)) 2 (N + 1) _ (by omega) ?_ ?_
    · intro m hm
      have : m = 0 ∨ m = 1 := by omega
      rcases this with rfl | rfl <;> simp
    · intro k a hk _ ha m hm
      obtain ⟨e, rfl⟩ : ∃ e, k = e + 2 := ⟨k - 2, by omega⟩
      by_cases h : m = e + 2
      · subst h
        simp only [if_true]
        rw [show e + 2 - 1 = e + 1 by omega, show e + 2 - 2 = e by omega]
        obtain ⟨c1, -⟩ := ha 1 (by omega)
        obtain ⟨ce, se⟩ := ha e (by omega)
        obtain ⟨cf, sf⟩ := ha (e + 1) (by omega)
        rw [c1, ce, se, cf, sf]
        have e2 : ((e + 2 : ℕ) : ℝ) * lon = ((e + 1 : ℕ) : ℝ) * lon + lon := by push_cast; ring
        have e0 : (e : ℝ) * lon = ((e + 1 : ℕ) : ℝ) * lon - lon := by push_cast; ring
        rw [e2, e0, Real.cos_add, Real.cos_sub, Real.sin_add, Real.sin_sub, Nat.cast_one, one_mul]
        constructor <;> ring
      · simp only [h, if_false]
        exact ha m (by omega)
  exact key m (by omega)

/-! ### sums -/

theorem list_sum_range (f : ℕ → ℝ) (k : ℕ) :
    ((List.range k).map f).sum = ∑ m ∈ Finset.range k, f m := by
  induction k with
  | zero => simp
  | succ k ih => rw [List.range_succ, List.map_append, List.sum_append, ih, Finset.sum_range_succ]; simp

theorem degreeLoop_sum (f : V3 → ℝ) (nr : ℝ) (g h p dp : Arr) (c s : ℕ → ℝ) (len a : ℕ) :
    ((degreeLoop nr g h p dp c s (nr ^ (a + 1)) (List.range' a len)).map f).sum =
      ∑ n ∈ Finset.Ico a (a + len), ∑ m ∈ Finset.range (n + 1), f (term (nr ^ (n + 2)) g h p dp c s n m) := by
  induction len generalizing a with
  | zero => simp [degreeLoop]
  | succ len ih =>
    rw [List.range'_succ, degreeLoop, List.map_append, List.sum_append, ← pow_succ, ih (a + 1),
      show a + 1 + len = a + (len + 1) by omega,
      Finset.sum_eq_sum_Ico_succ_bot (by omega : a < a + (len + 1))]
    congr 1
    rw [List.map_map]
    exact list_sum_range _ _

theorem synthesis_sum (f : V3 → ℝ) (nr : ℝ) (g h p dp : Arr) (c s : ℕ → ℝ) (a b : ℕ) :
    ((synthesis nr g h p dp c s a b).map f).sum =
      degreeSum a b fun n m => f (term (nr ^ (n + 2)) g h p dp c s n m) := by
  unfold synthesis degreeSum
  rw [degreeLoop_sum]
  congr 1
  ext n
  simp only [Finset.mem_Ico, Finset.mem_Icc]
  omega

theorem degreeLoop_length (nr : ℝ) (g h p dp : Arr) (c s : ℕ → ℝ) (b : ℕ) (ns : List ℕ)
    (hb : ∀ n ∈ ns, n ≤ b) : ∀ r, (degreeLoop nr g h p dp c s r ns).length ≤ ns.length * (b + 1) := by
  induction ns with
  | nil => intro r; simp [degreeLoop]
  | cons n ns ih =>
    intro r
    have h1 := ih (fun k hk => hb k (by simp [hk])) (r * nr)
    have h2 := hb n (by simp)
    simp only [degreeLoop, List.length_append, List.length_map, List.length_range, List.length_cons]
    nlinarith

theorem synthesis_length (nr : ℝ) (g h p dp : Arr) (c s : ℕ → ℝ) (a b : ℕ) :
    (synthesis nr g h p dp c s a b).length ≤ (b + 1) * (b + 1) := by
  unfold synthesis
  refine (degreeLoop_length nr g h p dp c s b _ ?_ _).trans ?_
  · intro n hn
    rw [List.mem_range'] at hn
    obtain ⟨i, hi, rfl⟩ := hn
    omega
  · rw [List.length_range']
    exact Nat.mul_le_mul_right _ (by omega)

theorem degreeSum_congr {a b : ℕ} {f f' : ℕ → ℕ → ℝ}
    (h : ∀ n m, a ≤ n → n ≤ b → m ≤ n → f n m = f' n m) : degreeSum a b f = degreeSum a b f' := by
  unfold degreeSum
  refine Finset.sum_congr rfl fun n hn => Finset.sum_congr rfl fun m hm => ?_
  rw [Finset.mem_Icc] at hn
  rw [Finset.mem_range] at hm
  exact h n m hn.1 hn.2 (by omega)

theorem mul_degreeSum (k : ℝ) (a b : ℕ) (f : ℕ → ℕ → ℝ) :
    k * degreeSum a b f = degreeSum a b fun n m => k * f n m := by
  unfold degreeSum
  simp only [Finset.mul_sum]

theorem degreeSum_split {a k b : ℕ} (h1 : a ≤ k + 1) (h2 : k ≤ b) (f : ℕ → ℕ → ℝ) :
    degreeSum a k f + degreeSum (k + 1) b f = degreeSum a b f := by
  unfold degreeSum
  rw [← Finset.sum_union]
  · congr 1
    ext n
    simp only [Finset.mem_union, Finset.mem_Icc]
    omega
  · rw [Finset.disjoint_left]
    intro n hn hn'
    simp only [Finset.mem_Icc] at hn hn'
    omega

/-! ### Legendre functions at a colatitude -/

theorem legendreAt_spec (θ : ℝ) (hθ : θ ∈ Set.Icc 0 Real.pi) (N : ℕ) (hN : 1 ≤ N) (p0 dp0 : Arr) :
    ∃ p dp, legendreAt θ N p0 dp0 = .ok (p, dp) ∧ ∀ n m, n ≤ N → m ≤ n →
      p n m = schmidtP n m θ ∧ dp n m = schmidtDeriv n m θ ∧
      HasDerivWithinAt (schmidtP n m) (dp n m) (Set.Icc 0 Real.pi) θ := by
  classical
  have hs := fun t => C61_schmidt (Real.cos t) ⟨Real.neg_one_le_cos t, Real.cos_le_one t⟩ N hN p0
  choose q0 hq0 hv0 using hs
  have hd : ∀ p dp, ∃ r, associatedLegendreSchmidtDerivative N p dp = .ok r := by
    intro p dp
    unfold associatedLegendreSchmidtDerivative
    rw [if_neg (by omega)]
    exact ⟨_, rfl⟩
  choose D hD using hd
  let q : ℕ → ℝ → Arr := fun k => Nat.rec q0 (fun _ f t => D (f t) dp0) k
  refine ⟨q 0 θ, q 1 θ, ?_, ?_⟩
  · unfold legendreAt
    rw [hq0 θ, Py.bind_ok]
    rw [show associatedLegendreSchmidtDerivative N (q0 θ) dp0 = .ok (D (q0 θ) dp0) from hD _ _]
    rfl
  · intro n m hn hm
    have h := C62_schmidt_derivative N hN q (fun _ => p0) (fun _ _ => dp0) (fun t => hq0 t)
      (fun k t => hD (q k t) dp0) 0 n m hn hm θ hθ
    rw [iteratedDerivWithin_zero] at h
    refine ⟨h.1, ?_, h.2⟩
    exact (h.2.derivWithin ((uniqueDiffOn_Icc Real.pi_pos) θ hθ)).symm

/-! ### one point -/

variable {K : Type} [DecidableEq K]

theorem runOps_accumAt (k : K) (vs : List V3) (mem : Fin 3 × K → ℝ) (r : ℝ) :
    let out := (runOps (vs.flatMap (accumAt k)) (mem, r)).1
    out (0, k) = mem (0, k) + (vs.map (·.1)).sum ∧ out (1, k) = mem (1, k) + (vs.map (·.2.1)).sum ∧
    out (2, k) = mem (2, k) + (vs.map (·.2.2)).sum := by
  induction vs generalizing mem r with
  | nil => simp [runOps]
  | cons v vs ih =>
    intro out
    have : out = (runOps (vs.flatMap (accumAt k)) (runOps (accumAt k v) (mem, r))).1 := by
      simp only [out, List.flatMap_cons, runOps_append]
    rw [this]
    obtain ⟨h0, h1, h2⟩ := ih (runOps (accumAt k v) (mem, r)).1 (runOps (accumAt k v) (mem, r)).2
    refine ⟨h0.trans ?_, h1.trans ?_, h2.trans ?_⟩ <;>
      simp [accumAt, accum, runOps, Op.exec, add_assoc]

/-- Accesses of one point. -/
def block (k : K) (vs : List V3) (sin : ℝ) : List (Op (Fin 3 × K) ℝ) := vs.flatMap (accumAt k) ++ finish k sin

omit [DecidableEq K] in
theorem block_cells (k : K) (vs : List V3) (sin : ℝ) (op : Op (Fin 3 × K) ℝ) (h : op ∈ block k vs sin) :
    op.cell.2 = k := by
  unfold block at h
  rw [List.mem_append] at h
  rcases h with h | h
  · simp only [List.mem_flatMap, accumAt, accum] at h
    obtain ⟨v, -, hv⟩ := h
    simp at hv
    rcases hv with rfl | rfl | rfl | rfl | rfl | rfl <;> rfl
  · unfold finish at h
    split at h
    · simp at h
      rw [h]; rfl
    · simp at h
      rcases h with rfl | rfl <;> rfl

omit [DecidableEq K] in
theorem block_length (k : K) (vs : List V3) (sin : ℝ) : (block k vs sin).length ≤ 6 * vs.length + 2 := by
  unfold block finish
  rw [List.length_append, List.length_flatMap]
  simp only [accumAt, accum]
  split <;> simp <;> omega

theorem runOps_block (k : K) (vs : List V3) (sin : ℝ) (mem : Fin 3 × K → ℝ) (r : ℝ) :
    let out := (runOps (block k vs sin) (mem, r)).1
    out (0, k) = (if |sin| < 1e-10 then 0 else (mem (0, k) + (vs.map (·.1)).sum) * (-1 / sin)) ∧
    out (1, k) = mem (1, k) + (vs.map (·.2.1)).sum ∧ out (2, k) = mem (2, k) + (vs.map (·.2.2)).sum := by
  intro out
  have : out = (runOps (finish k sin) (runOps (vs.flatMap (accumAt k)) (mem, r))).1 := by
    simp only [out, block, runOps_append]
  rw [this]
  obtain ⟨h0, h1, h2⟩ := runOps_accumAt k vs mem r
  generalize runOps (vs.flatMap (accumAt k)) (mem, r) = s at *
  unfold finish
  split
  · refine ⟨?_, ?_, ?_⟩ <;> simp_all [runOps, Op.exec]
  · refine ⟨?_, ?_, ?_⟩ <;> simp_all [runOps, Op.exec]

/-- What a point gets. -/
theorem point_value (lon θ nr : ℝ) (g h : Arr) (a N : ℕ) (p dp : Arr)
    (c s : ℕ → ℝ) (hp : ∀ n m, n ≤ N → m ≤ n → p n m = schmidtP n m θ ∧ dp n m = schmidtDeriv n m θ)
    (hc : ∀ m ≤ N, c m = Real.cos (m * lon) ∧ s m = Real.sin (m * lon))
    (k : K) (mem : Fin 3 × K → ℝ) (hm : ∀ i, mem (i, k) = 0) (r : ℝ) :
    let out := (runOps (block k (synthesis nr g h p dp c s a N) (Real.sin θ)) (mem, r)).1
    (out (0, k), out (1, k), out (2, k)) = field g h a N (lon, θ, nr) := by
  intro out
  obtain ⟨h0, h1, h2⟩ := runOps_block k (synthesis nr g h p dp c s a N) (Real.sin θ) mem r
  rw [hm, zero_add, synthesis_sum] at h0 h1 h2
  unfold field bEast bNorth bRadial
  refine Prod.ext ?_ (Prod.ext ?_ ?_)
  · refine h0.trans ?_
    split
    · rfl
    · dsimp only
      rw [mul_comm, neg_div]
      congr 1
      refine degreeSum_congr fun n m _ hn hmn => ?_
      simp only [term]
      rw [(hp n m hn hmn).1, (hc m (by omega)).1, (hc m (by omega)).2]
  · refine h1.trans (degreeSum_congr fun n m _ hn hmn => ?_)
    simp only [term]
    rw [(hp n m hn hmn).2, (hc m (by omega)).1, (hc m (by omega)).2]
  · refine h2.trans (degreeSum_congr fun n m _ hn hmn => ?_)
    simp only [term]
    rw [(hp n m hn hmn).1, (hc m (by omega)).1, (hc m (by omega)).2]

/-! ### the loop on points -/

theorem pointProgram_block (junk : Junk) (points : List (ℝ × ℝ × ℝ)) (g h : Arr) (a N : ℕ) (hN : 1 ≤ N)
    (i : ℕ) : ∃ vs, pointProgram junk points g h a N i =
      block i vs (Real.sin (points.getD i (0, 0, 0)).2.1) ∧ vs.length ≤ (N + 1) * (N + 1) := by
  unfold pointProgram
  have : ∃ p dp, legendreAt (points.getD i (0, 0, 0)).2.1 N (junk.p i) (junk.dp i) = .ok (p, dp) := by
    unfold legendreAt associatedLegendreSchmidt associatedLegendreSchmidtDerivative
    rw [if_neg (by omega), Py.bind_ok, if_neg (by omega), Py.bind_ok]
    exact ⟨_, _, rfl⟩
  obtain ⟨p, dp, hp⟩ := this
  simp only [hp]
  exact ⟨_, rfl, synthesis_length _ _ _ _ _ _ _ _ _⟩

theorem point_disjoint (junk : Junk) (points : List (ℝ × ℝ × ℝ)) (g h : Arr) (a N : ℕ) (hN : 1 ≤ N) :
    Engine.Disjoint (fun c : Fin 3 × ℕ => c.2) (pointProgram junk points g h a N) := by
  intro i op hop
  obtain ⟨vs, e, -⟩ := pointProgram_block junk points g h a N hN i
  rw [e] at hop
  exact block_cells i vs _ op hop

theorem magneticField_eq (mode : Mode) (junk : Junk) (points : List (ℝ × ℝ × ℝ)) (g h : Arr) (a N : ℕ)
    (hN : 1 ≤ N) (hm : mode.Full points.length (accesses N)) :
    magneticField mode junk points g h a N = magneticField .serial junk points g h a N := by
  unfold magneticField
  rw [if_neg (by omega), if_neg (by omega)]
  rw [run_eq_serial (fun c => c.2) points.length (accesses N) _ (point_disjoint junk points g h a N hN) 0 _
    mode hm (by
      intro i _
      obtain ⟨vs, e, hl⟩ := pointProgram_block junk points g h a N hN i
      rw [e]
      refine (block_length i vs _).trans ?_
      unfold accesses
      omega)]
  rfl

theorem magneticField_field (mode : Mode) (junk : Junk) (points : List (ℝ × ℝ × ℝ)) (g h : Arr) (a N : ℕ)
    (hN : 1 ≤ N) (hm : mode.Full points.length (accesses N))
    (hθ : ∀ x ∈ points, x.2.1 ∈ Set.Icc 0 Real.pi) :
    magneticField mode junk points g h a N = .ok (points.map (field g h a N)) := by
  rw [magneticField_eq mode junk points g h a N hN hm]
  unfold magneticField
  rw [if_neg (by omega)]
  refine congrArg Except.ok ?_
  apply List.ext_getElem
  · simp
  intro i h1 h2
  simp only [List.getElem_map, List.getElem_range]
  have hi : i < points.length := by simpa using h2
  have hx : points.getD i (0, 0, 0) = points[i] := by
    rw [List.getD_eq_getElem?_getD, List.getElem?_eq_getElem hi, Option.getD_some]
  simp only [run, runSerial_cell (fun c : Fin 3 × ℕ => c.2) points.length _
    (point_disjoint junk points g h a N hN), hi, if_true]
  obtain ⟨p, dp, hp, hv⟩ := legendreAt_spec points[i].2.1 (hθ _ (List.getElem_mem hi)) N hN (junk.p i)
    (junk.dp i)
  have e : pointProgram junk points g h a N i = block i (synthesis points[i].2.2 g h p dp
      (cosSin points[i].1 N (junk.c i) (junk.s i)).1 (cosSin points[i].1 N (junk.c i) (junk.s i)).2 a N)
      (Real.sin points[i].2.1) := by
    unfold pointProgram
    rw [hx]
    simp only [hp]
    rfl
  rw [e]
  exact point_value points[i].1 points[i].2.1 points[i].2.2 g h a N p dp _ _
    (fun n m hn hm => ⟨(hv n m hn hm).1, (hv n m hn hm).2.1⟩)
    (fun m hm => cosSin_spec _ N _ _ hN m hm) i _ (fun _ => rfl) 0

end

end Verif.Igrf
