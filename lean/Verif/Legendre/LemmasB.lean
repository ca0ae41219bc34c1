import Verif.Legendre.Lemmas

/-! Helper lemmas for C60 and C61: the loops. -/

namespace Verif.Legendre

noncomputable section

theorem forRange_inv {α : Type} (f : α → ℕ → α) (I : ℕ → α → Prop) (start stop : ℕ) (a : α)
    (hle : start ≤ stop) (h0 : I start a)
    (hs : ∀ k b, start ≤ k → k < stop → I k b → I (k + 1) (f b k)) :
    I stop (forRange start stop a f) := by
  obtain ⟨d, rfl⟩ := Nat.exists_eq_add_of_le hle
  unfold forRange
  rw [show start + d - start = d by omega]
  induction d generalizing start a with
  | zero => simpa using h0
  | succ d ih =>
    rw [List.range'_succ, List.foldl_cons]
    have := ih (start + 1) (f a start) (hs start a le_rfl (by omega) h0) (by omega)
      (fun k b h1 h2 hb => hs k b (by omega) (by omega) hb)
    rwa [show start + (d + 1) = start + 1 + d by omega]

/-- `p` has the values `v` where `set` says, and those of `p0` elsewhere. -/
def Filled (v p0 : Arr) (S : ℕ → ℕ → Prop) (p : Arr) : Prop :=
  ∀ i j, (S i j → p i j = v i j) ∧ (¬ S i j → p i j = p0 i j)

theorem Filled.upd {v p0 : Arr} {S T : ℕ → ℕ → Prop} {p : Arr} (h : Filled v p0 S p) {n m : ℕ} {x : ℝ}
    (hx : x = v n m) (hT : ∀ i j, T i j ↔ (S i j ∨ (i = n ∧ j = m))) : Filled v p0 T (upd p n m x) := by
  intro i j
  unfold Legendre.upd
  by_cases e : i = n ∧ j = m
  · rw [if_pos e]
    obtain ⟨rfl, rfl⟩ := e
    exact ⟨fun _ => hx, fun hn => absurd ((hT i j).2 (Or.inr ⟨rfl, rfl⟩)) hn⟩
  · rw [if_neg e]
    exact ⟨fun ht => (h i j).1 (((hT i j).1 ht).resolve_right e),
      fun hn => (h i j).2 (fun hS => hn ((hT i j).2 (Or.inl hS)))⟩

theorem Filled.start (v p0 : Arr) (S : ℕ → ℕ → Prop) (hS : ∀ i j, ¬ S i j) : Filled v p0 S p0 :=
  fun i j => ⟨fun h => absurd h (hS i j), fun _ => rfl⟩

theorem Filled.mono {v p0 : Arr} {S T : ℕ → ℕ → Prop} {p : Arr} (h : Filled v p0 S p)
    (hT : ∀ i j, T i j ↔ S i j) : Filled v p0 T p :=
  fun i j => ⟨fun t => (h i j).1 ((hT i j).1 t), fun t => (h i j).2 (fun s => t ((hT i j).2 s))⟩

/-- Values written by `associated_legendre`. -/
theorem associatedLegendre_filled (v p0 : Arr) (x : ℝ) (N : ℕ) (h00 : v 0 0 = 1)
    (hrec : ∀ n m : ℕ, m < n - 1 → v n m = (2 * (n : ℝ) - 1) / ((n : ℝ) - m) * x * v (n - 1) m +
      -((n : ℝ) + m - 1) / ((n : ℝ) - m) * v (n - 2) m)
    (hsub : ∀ n : ℕ, 1 ≤ n → v n (n - 1) = (2 * (n : ℝ) - 1) * x * v (n - 1) (n - 1))
    (hdiag : ∀ n : ℕ, 1 ≤ n → v n n = (2 * (n : ℝ) - 1) * √((1 - x) * (1 + x)) * v (n - 1) (n - 1)) :
    Filled v p0 (fun i j => i ≤ N ∧ j ≤ i) (associatedLegendre x N p0) := by
  unfold associatedLegendre
  have h := forRange_inv (fun (p : Arr) n =>
    let p := forRange 0 (n - 1) p fun p m =>
      let a := (2 * (n : ℝ) - 1) / ((n : ℝ) - m)
      let b := -((n : ℝ) + m - 1) / ((n : ℝ) - m)
      upd p n m (a * x * p (n - 1) m + b * p (n - 2) m)
    let c := 2 * (n : ℝ) - 1
    let p := upd p n (n - 1) (c * x * p (n - 1) (n - 1))
    let d := 2 * (n : ℝ) - 1
    upd p n n (d * √((1 - x) * (1 + x)) * p (n - 1) (n - 1)))
    (fun n p => Filled v p0 (fun i j => i < n ∧ j ≤ i) p) 1 (N + 1) (upd p0 0 0 1) (by omega) ?_ ?_
  · exact h.mono (fun i j => by simp only [Nat.lt_succ_iff])
  · exact (Filled.start v p0 (fun _ _ => False) (fun _ _ h => h)).upd h00.symm
      (fun i j => by simp only [false_or]; omega)
  · intro n p hn _ hp
    have inner := forRange_inv (fun (p : Arr) m =>
      let a := (2 * (n : ℝ) - 1) / ((n : ℝ) - m)
      let b := -((n : ℝ) + m - 1) / ((n : ℝ) - m)
      upd p n m (a * x * p (n - 1) m + b * p (n - 2) m))
      (fun m p => Filled v p0 (fun i j => (i < n ∧ j ≤ i) ∨ (i = n ∧ j < m)) p) 0 (n - 1) p (by omega)
      (hp.mono (fun i j => by omega)) (by
        intro m p _ hm hp
        refine hp.upd ?_ (fun i j => by omega)
        rw [(hp (n - 1) m).1 (by omega), (hp (n - 2) m).1 (by omega)]
        exact (hrec n m hm).symm)
    set q := forRange 0 (n - 1) p fun (p : Arr) m =>
      let a := (2 * (n : ℝ) - 1) / ((n : ℝ) - m)
      let b := -((n : ℝ) + m - 1) / ((n : ℝ) - m)
      upd p n m (a * x * p (n - 1) m + b * p (n - 2) m) with hq
    have h1 : Filled v p0 (fun i j => (i < n ∧ j ≤ i) ∨ (i = n ∧ j < n))
        (upd q n (n - 1) ((2 * (n : ℝ) - 1) * x * q (n - 1) (n - 1))) := by
      refine inner.upd ?_ (fun i j => by omega)
      rw [(inner (n - 1) (n - 1)).1 (by omega)]
      exact (hsub n hn).symm
    refine h1.upd ?_ (fun i j => by omega)
    rw [(h1 (n - 1) (n - 1)).1 (by omega)]
    exact (hdiag n hn).symm

/-- The rescaling. -/
theorem rescale_filled (v w p : Arr) (u : ℝ) (N : ℕ)
    (hp : ∀ i j, j ≤ i → i ≤ N → p i j = v i j)
    (hw : ∀ i j, j ≤ i → i ≤ N → w i j = v i j * (1e280 * u ^ j)) :
    Filled w p (fun i j => i ≤ N ∧ j ≤ i) (rescale u N p) := by
  unfold rescale
  have h := forRange_inv (fun (s : Arr × ℝ) m =>
    let r := if m > 0 then s.2 * u else s.2
    (forRange m (N + 1) s.1 fun p n => upd p n m (p n m * r), r))
    (fun m s => Filled w p (fun i j => i ≤ N ∧ j ≤ i ∧ j < m) s.1 ∧
      s.2 = 1e280 * u ^ (m - 1)) 0 (N + 1) (p, (1e280 : ℝ)) (by omega) ?_ ?_
  · exact h.1.mono (fun i j => by omega)
  · exact ⟨Filled.start w p _ (fun i j => by omega), by simp⟩
  · rintro m ⟨q, s⟩ _ hm ⟨hq, hs⟩
    simp only at hq hs ⊢
    have hr : (if m > 0 then s * u else s) = 1e280 * u ^ m := by
      split
      · rw [hs, mul_assoc, ← pow_succ, show m - 1 + 1 = m by omega]
      · rw [hs, show m - 1 = m by omega]
    rw [hr]
    refine ⟨?_, by simp⟩
    have inner := forRange_inv (fun (p : Arr) n => upd p n m (p n m * (1e280 * u ^ m)))
      (fun n p' => Filled w p (fun i j => (i ≤ N ∧ j ≤ i ∧ j < m) ∨ (j = m ∧ m ≤ i ∧ i < n)) p')
      m (N + 1) q (by omega) (hq.mono (fun i j => by omega)) (by
        intro n p' h1 h2 hp'
        refine hp'.upd ?_ (fun i j => by omega)
        rw [(hp' n m).2 (by omega), hp n m h1 (by omega), hw n m h1 (by omega)])
    exact inner.mono (fun i j => by omega)

/-- The loops of the two normalized functions, with their coefficients as parameters. -/
def scaled (x p10 : ℝ) (f11 : ℝ → ℝ) (a0 b0 : ℕ → ℝ) (a b : ℕ → ℕ → ℝ) (c d : ℕ → ℝ) (N : ℕ) (p : Arr) :
    Arr :=
  let p := upd p 0 0 (1 * 1e-280)
  let p := upd p 1 0 p10
  let p := upd p 1 1 (f11 (p 0 0))
  let p := forRange 2 (N + 1) p fun p n => upd p n 0 (a0 n * x * p (n - 1) 0 + b0 n * p (n - 2) 0)
  forRange 2 (N + 1) p fun p n =>
    let p := forRange 1 (n - 1) p fun p m => upd p n m (a n m * x * p (n - 1) m + b n m * p (n - 2) m)
    let p := upd p n (n - 1) (c n * x * p (n - 1) (n - 1))
    upd p n n (d n * p (n - 1) (n - 1))

theorem scaled_filled (v p0 : Arr) (x p10 : ℝ) (f11 : ℝ → ℝ) (a0 b0 : ℕ → ℝ) (a b : ℕ → ℕ → ℝ)
    (c d : ℕ → ℝ) (N : ℕ) (hN : 1 ≤ N) (h00 : v 0 0 = 1 * 1e-280) (h10 : v 1 0 = p10)
    (h11 : v 1 1 = f11 (v 0 0))
    (hz : ∀ n, 2 ≤ n → v n 0 = a0 n * x * v (n - 1) 0 + b0 n * v (n - 2) 0)
    (hrec : ∀ n m, 1 ≤ m → m < n - 1 → v n m = a n m * x * v (n - 1) m + b n m * v (n - 2) m)
    (hsub : ∀ n, 2 ≤ n → v n (n - 1) = c n * x * v (n - 1) (n - 1))
    (hdiag : ∀ n, 2 ≤ n → v n n = d n * v (n - 1) (n - 1)) :
    Filled v p0 (fun i j => i ≤ N ∧ j ≤ i) (scaled x p10 f11 a0 b0 a b c d N p0) := by
  unfold scaled
  have e1 : Filled v p0 (fun i j => i = 0 ∧ j = 0) (upd p0 0 0 (1 * 1e-280)) :=
    (Filled.start v p0 (fun _ _ => False) (fun _ _ h => h)).upd h00.symm (fun i j => by simp)
  have e2 : Filled v p0 (fun i j => i ≤ 1 ∧ j = 0) (upd (upd p0 0 0 (1 * 1e-280)) 1 0 p10) :=
    e1.upd h10.symm (fun i j => by omega)
  set q := upd (upd p0 0 0 (1 * 1e-280)) 1 0 p10 with hq
  have e3 : Filled v p0 (fun i j => i ≤ 1 ∧ j ≤ i) (upd q 1 1 (f11 (q 0 0))) := by
    refine e2.upd ?_ (fun i j => by omega)
    rw [(e2 0 0).1 (by omega), h11]
  have e4 := forRange_inv (fun (p : Arr) n => upd p n 0 (a0 n * x * p (n - 1) 0 + b0 n * p (n - 2) 0))
    (fun n p => Filled v p0 (fun i j => (i ≤ 1 ∧ j ≤ i) ∨ (i < n ∧ j = 0)) p) 2 (N + 1)
    (upd q 1 1 (f11 (q 0 0))) (by omega) (e3.mono (fun i j => by omega)) (by
      intro n p hn _ hp
      refine hp.upd ?_ (fun i j => by omega)
      rw [(hp (n - 1) 0).1 (by omega), (hp (n - 2) 0).1 (by omega)]
      exact (hz n hn).symm)
  set r := forRange 2 (N + 1) (upd q 1 1 (f11 (q 0 0))) fun (p : Arr) n =>
    upd p n 0 (a0 n * x * p (n - 1) 0 + b0 n * p (n - 2) 0) with hr
  have e5 := forRange_inv (fun (p : Arr) n =>
    let p := forRange 1 (n - 1) p fun p m => upd p n m (a n m * x * p (n - 1) m + b n m * p (n - 2) m)
    let p := upd p n (n - 1) (c n * x * p (n - 1) (n - 1))
    upd p n n (d n * p (n - 1) (n - 1)))
    (fun n p => Filled v p0 (fun i j => (i < n ∧ j ≤ i) ∨ (i ≤ N ∧ j = 0)) p) 2 (N + 1) r (by omega)
    (e4.mono (fun i j => by omega)) (by
      intro n p hn hnN hp
      have inner := forRange_inv (fun (p : Arr) m =>
        upd p n m (a n m * x * p (n - 1) m + b n m * p (n - 2) m))
        (fun m p => Filled v p0 (fun i j => (i < n ∧ j ≤ i) ∨ (i ≤ N ∧ j = 0) ∨ (i = n ∧ j < m)) p)
        1 (n - 1) p (by omega) (hp.mono (fun i j => by omega)) (by
          intro m p h1 hm hp
          refine hp.upd ?_ (fun i j => by omega)
          rw [(hp (n - 1) m).1 (by omega), (hp (n - 2) m).1 (by omega)]
          exact (hrec n m h1 hm).symm)
      set t := forRange 1 (n - 1) p fun (p : Arr) m =>
        upd p n m (a n m * x * p (n - 1) m + b n m * p (n - 2) m) with ht
      have h1 : Filled v p0 (fun i j => (i < n ∧ j ≤ i) ∨ (i ≤ N ∧ j = 0) ∨ (i = n ∧ j < n))
          (upd t n (n - 1) (c n * x * t (n - 1) (n - 1))) := by
        refine inner.upd ?_ (fun i j => by omega)
        rw [(inner (n - 1) (n - 1)).1 (by omega)]
        exact (hsub n hn).symm
      refine h1.upd ?_ (fun i j => by omega)
      rw [(h1 (n - 1) (n - 1)).1 (by omega)]
      exact (hdiag n hn).symm)
  exact e5.mono (fun i j => by omega)

/-- Values of the rows of derivatives. -/
def deriv3 (p00 p10 : ℝ) (p11 : ℝ) (a b1 c1 : ℕ → ℝ) (b c : ℕ → ℕ → ℝ) (d : ℕ → ℝ) (p : Arr) (n m : ℕ) : ℝ :=
  if n = 0 then p00
  else if n = 1 then (if m = 0 then p10 else p11)
  else if m = 0 then a n * p n 1
  else if m = n then d n * p n (n - 1)
  else if m = 1 then b1 n * p n 0 + c1 n * p n 2
  else b n m * p n (m - 1) + c n m * p n (m + 1)

theorem derivative3_filled (p dp0 : Arr) (N : ℕ) (hN : 1 ≤ N) (p00 p10 p11 : ℝ) (a b1 c1 : ℕ → ℝ)
    (b c : ℕ → ℕ → ℝ) (d : ℕ → ℝ) :
    Filled (deriv3 p00 p10 p11 a b1 c1 b c d p) dp0 (fun i j => i ≤ N ∧ j ≤ i)
      (forRange 2 (N + 1) (upd (upd (upd dp0 0 0 p00) 1 0 p10) 1 1 p11) fun dp n =>
        let dp := upd dp n 0 (a n * p n 1)
        let dp := upd dp n 1 (b1 n * p n 0 + c1 n * p n 2)
        let dp := forRange 2 n dp fun dp m => upd dp n m (b n m * p n (m - 1) + c n m * p n (m + 1))
        upd dp n n (d n * p n (n - 1))) := by
  set v := deriv3 p00 p10 p11 a b1 c1 b c d p with hv
  have e1 : Filled v dp0 (fun i j => i = 0 ∧ j = 0) (upd dp0 0 0 p00) :=
    (Filled.start v dp0 (fun _ _ => False) (fun _ _ h => h)).upd (by simp [hv, deriv3]) (fun i j => by simp)
  have e2 : Filled v dp0 (fun i j => i ≤ 1 ∧ j = 0) (upd (upd dp0 0 0 p00) 1 0 p10) :=
    e1.upd (by simp [hv, deriv3]) (fun i j => by omega)
  have e3 : Filled v dp0 (fun i j => i ≤ 1 ∧ j ≤ i) (upd (upd (upd dp0 0 0 p00) 1 0 p10) 1 1 p11) :=
    e2.upd (by simp [hv, deriv3]) (fun i j => by omega)
  have e4 := forRange_inv (fun (dp : Arr) n =>
        let dp := upd dp n 0 (a n * p n 1)
        let dp := upd dp n 1 (b1 n * p n 0 + c1 n * p n 2)
        let dp := forRange 2 n dp fun dp m => upd dp n m (b n m * p n (m - 1) + c n m * p n (m + 1))
        upd dp n n (d n * p n (n - 1)))
    (fun n q => Filled v dp0 (fun i j => i < n ∧ j ≤ i) q) 2 (N + 1) _ (by omega)
    (e3.mono (fun i j => by omega)) (by
      intro n q hn _ hq
      have s1 : Filled v dp0 (fun i j => (i < n ∧ j ≤ i) ∨ (i = n ∧ j < 1)) (upd q n 0 (a n * p n 1)) :=
        hq.upd (by simp only [hv, deriv3]; rw [if_neg (by omega), if_neg (by omega), if_pos trivial])
          (fun i j => by omega)
      have s2 : Filled v dp0 (fun i j => (i < n ∧ j ≤ i) ∨ (i = n ∧ j < 2))
          (upd (upd q n 0 (a n * p n 1)) n 1 (b1 n * p n 0 + c1 n * p n 2)) :=
        s1.upd (by
          simp only [hv, deriv3]
          rw [if_neg (by omega), if_neg (by omega), if_neg (by omega), if_neg (by omega), if_pos trivial])
          (fun i j => by omega)
      have s3 := forRange_inv (fun (dp : Arr) m => upd dp n m (b n m * p n (m - 1) + c n m * p n (m + 1)))
        (fun m q => Filled v dp0 (fun i j => (i < n ∧ j ≤ i) ∨ (i = n ∧ j < m)) q) 2 n _ hn s2 (by
          intro m q h1 h2 hq
          refine hq.upd ?_ (fun i j => by omega)
          simp only [hv, deriv3]
          rw [if_neg (by omega), if_neg (by omega), if_neg (by omega), if_neg (by omega), if_neg (by omega)])
      refine s3.upd ?_ (fun i j => by omega)
      simp only [hv, deriv3]
      rw [if_neg (by omega), if_neg (by omega), if_neg (by omega), if_pos trivial])
  exact e4.mono (fun i j => by omega)

/-- The rows of the derivatives without normalization. -/
def deriv1 (p : Arr) (n m : ℕ) : ℝ :=
  if n = 0 then 0
  else if m = 0 then -1 * p n 1
  else if m = n then (n : ℝ) * p n (n - 1)
  else 0.5 * ((n : ℝ) + m) * ((n : ℝ) - m + 1) * p n (m - 1) + -0.5 * p n (m + 1)

theorem derivative1_filled (p dp0 : Arr) (N : ℕ) :
    Filled (deriv1 p) dp0 (fun i j => i ≤ N ∧ j ≤ i) (associatedLegendreDerivative N p dp0) := by
  unfold associatedLegendreDerivative
  set v := deriv1 p with hv
  have e1 : Filled v dp0 (fun i j => i = 0 ∧ j = 0) (upd dp0 0 0 0) :=
    (Filled.start v dp0 (fun _ _ => False) (fun _ _ h => h)).upd (by simp [hv, deriv1]) (fun i j => by simp)
  have e4 := forRange_inv (fun (dp : Arr) n =>
    let a : ℝ := -1
    let dp := upd dp n 0 (a * p n 1)
    let dp := forRange 1 n dp fun dp m =>
      let b := 0.5 * ((n : ℝ) + m) * ((n : ℝ) - m + 1)
      let c : ℝ := -0.5
      upd dp n m (b * p n (m - 1) + c * p n (m + 1))
    let d := (n : ℝ)
    upd dp n n (d * p n (n - 1)))
    (fun n q => Filled v dp0 (fun i j => i < n ∧ j ≤ i) q) 1 (N + 1) _ (by omega)
    (e1.mono (fun i j => by omega)) (by
      intro n q hn _ hq
      have s1 : Filled v dp0 (fun i j => (i < n ∧ j ≤ i) ∨ (i = n ∧ j < 1)) (upd q n 0 (-1 * p n 1)) :=
        hq.upd (by simp only [hv, deriv1]; rw [if_neg (by omega), if_pos trivial])
          (fun i j => by omega)
      have s3 := forRange_inv (fun (dp : Arr) m =>
          let b := 0.5 * ((n : ℝ) + m) * ((n : ℝ) - m + 1)
          let c : ℝ := -0.5
          upd dp n m (b * p n (m - 1) + c * p n (m + 1)))
        (fun m q => Filled v dp0 (fun i j => (i < n ∧ j ≤ i) ∨ (i = n ∧ j < m)) q) 1 n _ hn s1 (by
          intro m q h1 h2 hq
          refine hq.upd ?_ (fun i j => by omega)
          simp only [hv, deriv1]
          rw [if_neg (by omega), if_neg (by omega), if_neg (by omega)])
      refine s3.upd ?_ (fun i j => by omega)
      simp only [hv, deriv1]
      rw [if_neg (by omega), if_neg (by omega), if_pos trivial])
  exact e4.mono (fun i j => by omega)

end

end Verif.Legendre
