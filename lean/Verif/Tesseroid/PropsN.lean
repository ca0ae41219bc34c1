import Verif.Tesseroid.PropsL

/-!
C148: `tesseroid_gravity` does not run out of memory for points that are not too near to the tesseroids.
-/

namespace Verif.Tesseroid
open Verif.Distance Verif.Forward Verif.Engine

/-! ### the specification -/

/-- The distance-size ratios of the documentation of `tesseroid_gravity`. -/
noncomputable def ratioOf (field : String) : ℝ := if field = "potential" then 1 else 2.5

/-- Halving the tesseroid `i` times in longitude, `j` times in latitude and `k` times in radius (only when the
radial discretization is enabled) makes its sides, measured on its top, as small as the distance `lo` divided by
the ratio `D`. -/
def Tess.Halvings (D lo : ℝ) (radial : Bool) (t : Tess) (i j k : ℕ) : Prop :=
  D * (t.top * radians (eastEnd t.w t.e - t.w)) ≤ 2 ^ i * lo ∧ D * (t.top * radians (t.n - t.s)) ≤ 2 ^ j * lo ∧
    (radial = true → D * (t.top - t.bottom) ≤ 2 ^ k * lo)

/-! ### the discretization -/

/-- a stack of tesseroids, each of them with the number of halvings that it may still need -/
def Budget (Q : ℕ → Tess → Prop) (K : ℕ) : List (ℕ × Tess) → Prop
  | [] => True
  | x :: rest => Q x.1 x.2 ∧ 3 * rest.length + 7 * x.1 ≤ 7 * K ∧ Budget Q K rest

theorem budget_append {Q : ℕ → Tess → Prop} {K n : ℕ} {rest : List (ℕ × Tess)} (h : Budget Q K rest) :
    ∀ ps : List Tess, (∀ p ∈ ps, Q n p) → 3 * (rest.length + (ps.length - 1)) + 7 * n ≤ 7 * K →
      Budget Q K (ps.map (Prod.mk n) ++ rest) := by
  intro ps
  induction ps with
  | nil => intro _ _; exact h
  | cons p ps ih =>
    intro hq hl
    simp only [List.length_cons] at hl
    refine ⟨hq p List.mem_cons_self, ?_, ih (fun x hx => hq x (List.mem_cons_of_mem _ hx)) (by omega)⟩
    show 3 * (ps.map (Prod.mk n) ++ rest).length + 7 * n ≤ 7 * K
    rw [List.length_append, List.length_map]
    omega

theorem adList_budget (P : AParams) (Q : ℕ → Tess → Prop) (K : ℕ)
    (hstep : ∀ n x, Q n x → ∃ a b c d, divisions P x = .ok (a, b, c) ∧ a * b * c = 2 ^ d ∧ d ≤ 3 ∧ d ≤ n ∧
      ∀ p ∈ splitPieces x a b c, Q (n - d) p)
    (hsmall : 2 ^ K ≤ P.smallSize) (hstack : 7 * K + 3 ≤ 3 * P.stackSize) :
    ∀ (fuel : ℕ) (stk : List (ℕ × Tess)) (out : List Tess) (r : Py (List Tess)), Budget Q K stk →
      (stk.map fun x => 2 ^ x.1).sum + out.length ≤ 2 ^ K →
      adList P fuel (stk.map (·.2)) out = some r → ∃ l, r = .ok l ∧ l.length ≤ 2 ^ K := by
  intro fuel
  induction fuel with
  | zero => intro stk out r _ _ h; simp [adList] at h
  | succ fuel ih =>
    intro stk out r hb hs h
    cases stk with
    | nil =>
      simp only [List.map_nil, adList, Option.some.injEq] at h
      exact ⟨out, h.symm, by simpa using hs⟩
    | cons x rest =>
      obtain ⟨n, x⟩ := x
      obtain ⟨hq, hl, hr⟩ := hb
      simp only at hq hl
      simp only [List.map_cons, List.sum_cons] at hs
      obtain ⟨a, b, c, d, hd, hm, hd3, hdn, hpc⟩ := hstep n x hq
      simp only [List.map_cons, adList, hd] at h
      by_cases hk : a * b * c > 1
      · rw [if_pos hk, hm] at h
        have hcost : 3 * 2 ^ d ≤ 7 * d + 3 := by
          interval_cases d <;> simp
        have hno : ¬ (rest.map (·.2)).length + 2 ^ d > P.stackSize := by
          simp only [List.length_map]; omega
        rw [if_neg hno] at h
        have hlen : (splitPieces x a b c).reverse.length = 2 ^ d := by
          rw [List.length_reverse, splitPieces_length, hm]
        have := ih (((splitPieces x a b c).reverse).map (Prod.mk (n - d)) ++ rest) out r
          (budget_append hr _ (fun p hp => hpc p (List.mem_reverse.1 hp)) (by
            have := Nat.one_le_two_pow (n := d)
            rw [hlen]; omega))
          (by
            rw [List.map_append, List.sum_append, List.map_map,
              show ((fun x : ℕ × Tess => 2 ^ x.1) ∘ Prod.mk (n - d)) = fun _ => 2 ^ (n - d) from rfl,
              List.map_const', List.sum_replicate, hlen, smul_eq_mul, ← pow_add,
              Nat.add_sub_cancel' hdn]
            exact hs)
          (by
            rw [List.map_append, List.map_map,
              show ((fun x : ℕ × Tess => x.2) ∘ Prod.mk (n - d)) = id from rfl, List.map_id]
            exact h)
        exact this
      · rw [if_neg hk] at h
        have h1 := Nat.one_le_two_pow (n := n)
        rw [if_neg (by omega)] at h
        refine ih rest (out ++ [x]) r hr ?_ h
        simp only [List.length_append, List.length_singleton]
        omega

/-- the property of the pieces: they are inside of the tesseroid and `n` halvings are enough -/
def Piece (D lo : ℝ) (radial : Bool) (t : Tess) (n : ℕ) (x : Tess) : Prop :=
  x.Proper ∧ Within t x ∧ ∃ i j k, i + j + k = n ∧ D * (t.top * radians (x.e - x.w)) ≤ 2 ^ i * lo ∧
    D * (t.top * radians (x.n - x.s)) ≤ 2 ^ j * lo ∧ (radial = true → D * (x.top - x.bottom) ≤ 2 ^ k * lo)

/-- one direction: if the side is halved, one of the halvings was available -/
theorem halving {D T x y lo d : ℝ} {i m : ℕ} (hlo : lo ≤ d) (h : D * (T * x) ≤ 2 ^ i * lo)
    (hm : m = 1 ∧ y = x ∨ m = 2 ∧ y = x / 2 ∧ d < D * (T * x)) :
    ∃ e ≤ i, m = 2 ^ e ∧ e ≤ 1 ∧ D * (T * y) ≤ 2 ^ (i - e) * lo := by
  rcases hm with ⟨rfl, rfl⟩ | ⟨rfl, rfl, hd⟩
  · exact ⟨0, Nat.zero_le _, rfl, by omega, by simpa using h⟩
  · rcases i with _ | i
    · simp only [pow_zero, one_mul] at h
      linarith
    · refine ⟨1, by omega, rfl, le_refl _, ?_⟩
      rw [Nat.add_sub_cancel]
      rw [pow_succ] at h
      linarith

theorem piece_side {a b : ℝ} {m : ℕ} (i : ℕ) :
    (a + (b - a) / m * (i + 1)) - (a + (b - a) / m * i) = (b - a) / m := by ring

theorem piece_step (P : AParams) (hD : 0 ≤ P.ratio) (t : Tess) (lo : ℝ)
    (hd : ∀ x y z, t.w ≤ x → x ≤ t.e → t.s ≤ y → y ≤ t.n → t.bottom ≤ z → z ≤ t.top →
      lo ≤ dist (sphPos P.point) (sphPos ⟨x, y, z⟩)) (n : ℕ) (x : Tess)
    (hx : Piece P.ratio lo P.radial t n x) :
    ∃ a b c d, divisions P x = .ok (a, b, c) ∧ a * b * c = 2 ^ d ∧ d ≤ 3 ∧ d ≤ n ∧
      ∀ p ∈ splitPieces x a b c, Piece P.ratio lo P.radial t (n - d) p := by
  obtain ⟨hp, hw, i, j, k, hn, h1, h2, h3⟩ := hx
  obtain ⟨-, w1, w2, w3, w4, w5, w6⟩ := hw
  have hlo : lo ≤ x.centreDistance P.point := by
    have := hp.we; have := hp.sn; have := hp.bt
    exact hd _ _ _ (by linarith) (by linarith) (by linarith) (by linarith) (by linarith) (by linarith)
  have s1 := sizeLon_pos hp
  have s2 := sizeLat_pos hp
  have s3 : 0 < x.sizeRad := by unfold Tess.sizeRad; linarith [hp.bt]
  have l1 : P.ratio * x.sizeLon ≤ P.ratio * (t.top * radians (x.e - x.w)) := by
    refine mul_le_mul_of_nonneg_left ((sizeLon_le hp).trans ?_) hD
    refine mul_le_mul_of_nonneg_right w6 ?_
    rw [radians_sub]; linarith [radians_lt.2 hp.we]
  have l2 : P.ratio * x.sizeLat ≤ P.ratio * (t.top * radians (x.n - x.s)) := by
    refine mul_le_mul_of_nonneg_left ?_ hD
    unfold Tess.sizeLat
    rw [radians_sub]
    refine mul_le_mul_of_nonneg_right w6 ?_
    linarith [radians_lt.2 hp.sn]
  have hdv := divisions_proper P hp
  classical
  set a : ℕ := if x.centreDistance P.point / x.sizeLon < P.ratio then 2 else 1 with ha
  set b : ℕ := if x.centreDistance P.point / x.sizeLat < P.ratio then 2 else 1 with hb
  set c : ℕ := if x.centreDistance P.point / x.sizeRad < P.ratio ∧ P.radial = true then 2 else 1 with hc
  obtain ⟨e1, k1, m1, g1, f1⟩ := halving (y := radians ((x.e - x.w) / a)) (m := a) hlo h1 (by
    by_cases h : x.centreDistance P.point / x.sizeLon < P.ratio
    · right
      rw [ha, if_pos h]
      rw [div_lt_iff₀ s1] at h
      refine ⟨rfl, ?_, by linarith⟩
      unfold radians; push_cast; ring
    · left
      rw [ha, if_neg h]
      exact ⟨rfl, by simp⟩)
  obtain ⟨e2, k2, m2, g2, f2⟩ := halving (y := radians ((x.n - x.s) / b)) (m := b) hlo h2 (by
    by_cases h : x.centreDistance P.point / x.sizeLat < P.ratio
    · right
      rw [hb, if_pos h]
      rw [div_lt_iff₀ s2] at h
      refine ⟨rfl, ?_, by linarith⟩
      unfold radians; push_cast; ring
    · left
      rw [hb, if_neg h]
      exact ⟨rfl, by simp⟩)
  obtain ⟨e3, k3, m3, g3, f3⟩ : ∃ e ≤ k, c = 2 ^ e ∧ e ≤ 1 ∧
      (P.radial = true → P.ratio * ((x.top - x.bottom) / c) ≤ 2 ^ (k - e) * lo) := by
    by_cases hr : P.radial = true
    · obtain ⟨e, q1, q2, q3, q4⟩ := halving (T := 1) (x := x.top - x.bottom) (y := (x.top - x.bottom) / c) (m := c)
        (D := P.ratio) hlo (by rw [one_mul]; exact h3 hr) (by
          by_cases h : x.centreDistance P.point / x.sizeRad < P.ratio
          · right
            rw [hc, if_pos ⟨h, hr⟩]
            rw [div_lt_iff₀ s3] at h
            refine ⟨rfl, by norm_num, ?_⟩
            rw [one_mul]
            exact h
          · left
            rw [hc, if_neg fun h' => h h'.1]
            exact ⟨rfl, by simp⟩)
      exact ⟨e, q1, q2, q3, fun _ => by rw [one_mul] at q4; exact q4⟩
    · refine ⟨0, Nat.zero_le _, ?_, by omega, fun h => absurd h hr⟩
      rw [hc, if_neg fun h' => hr h'.2]
      rfl
  refine ⟨a, b, c, e1 + e2 + e3, hdv, by rw [m1, m2, m3, pow_add, pow_add], by omega, by omega, ?_⟩
  intro p hpm
  refine ⟨splitPieces_proper hp hpm,
    Within.trans ⟨hp.ordered, w1, w2, w3, w4, w5, w6⟩ (splitPieces_within hp.ordered hpm),
    i - e1, j - e2, k - e3, by omega, ?_, ?_, ?_⟩
  · obtain ⟨u, v, w, -, -, -, rfl⟩ := splitPieces_mem hpm
    simp only [piece_side]
    exact f1
  · obtain ⟨u, v, w, -, -, -, rfl⟩ := splitPieces_mem hpm
    simp only [piece_side]
    exact f2
  · intro hr
    obtain ⟨u, v, w, -, -, -, rfl⟩ := splitPieces_mem hpm
    simp only [piece_side]
    exact f3 hr

theorem tessPieces_halvings (P : AParams) (hD : 0 ≤ P.ratio) (t : Tess) (ht : t.Proper) (lo : ℝ)
    (hd : ∀ x y z, t.w ≤ x → x ≤ t.e → t.s ≤ y → y ≤ t.n → t.bottom ≤ z → z ≤ t.top →
      lo ≤ dist (sphPos P.point) (sphPos ⟨x, y, z⟩)) (i j k : ℕ) (hh : t.Halvings P.ratio lo P.radial i j k)
    (hsmall : 2 ^ (i + j + k) ≤ P.smallSize) (hstack : 7 * (i + j + k) + 3 ≤ 3 * P.stackSize) :
    ∃ l, tessPieces P t = .ok l ∧ l.length ≤ 2 ^ (i + j + k) := by
  obtain ⟨h1, h2, h3⟩ := hh
  rw [eastEnd_of_le ht.we.le] at h1
  exact adList_budget P (Piece P.ratio lo P.radial t) (i + j + k) (piece_step P hD t lo hd) hsmall hstack
    (adaptiveFuel P.stackSize P.smallSize) [(i + j + k, t)] [] _
    ⟨⟨ht, Within.refl ht.ordered, i, j, k, rfl, h1, h2, h3⟩, by simp, trivial⟩ (by simp)
    (tessPieces_spec P (by omega) t)

/-! ### the property -/

/-- C148, the discretization: if every point of the tesseroid is at least at a distance `lo`, and `i`, `j` and `k`
halvings of the sides make them as small as that distance over the ratio, the discretization ends without an
OverflowError when the arrays are not smaller than `2 ^ (i + j + k)` tesseroids and a stack of
`7 (i + j + k) / 3 + 1`, and it returns no more than `2 ^ (i + j + k)` tesseroids. -/
theorem C148_pieces (P : AParams) (hD : 0 ≤ P.ratio) (stack0 small0 : ℕ → Tess) (t : Tess) (ht : t.Proper) (lo : ℝ)
    (hd : ∀ a, t.Body a → lo ≤ dist (sphPos P.point) (sphPos a)) (i j k : ℕ)
    (hh : t.Halvings P.ratio lo P.radial i j k)
    (hsmall : 2 ^ (i + j + k) ≤ P.smallSize) (hstack : 7 * (i + j + k) + 3 ≤ 3 * P.stackSize) :
    ∃ n small, n ≤ 2 ^ (i + j + k) ∧ ∀ fuel ≥ (P.smallSize + 1) * (P.stackSize + 2) + 1,
      adaptive P stack0 small0 fuel t = some (.ok n small) := by
  have hP : 1 ≤ P.stackSize := by omega
  obtain ⟨l, hl, hn⟩ := tessPieces_halvings P hD t ht lo (fun x y z a1 a2 a3 a4 a5 a6 =>
    hd ⟨x, y, z⟩ ⟨⟨0, by simpa using a1, by rw [eastEnd_of_le ht.we.le]; simpa using a2⟩, ⟨a3, a4⟩, a5, a6⟩)
    i j k hh hsmall hstack
  obtain ⟨h, hfuel⟩ := C16_terminates P hP stack0 small0 t
  rcases adaptive_cases P hP stack0 small0 t with ⟨n, small, h1, h2⟩ | ⟨e, h1, h2⟩
  · have e1 := hfuel (adaptiveFuel P.stackSize P.smallSize) (le_refl _)
    rw [h1] at e1
    rw [h2] at hl
    injection hl with hl
    refine ⟨n, small, ?_, fun fuel hf => by rw [hfuel fuel hf, ← Option.some.inj e1]⟩
    rw [← hl] at hn
    simpa [prefixList] using hn
  · rw [hl] at h2; simp at h2

/-- boundaries in order of a valid tesseroid of positive volume that is not a complete turn -/
theorem normLon_proper {t : Tess} (hr : t.ValidRange) (hl : t.ValidLon) (hturn : t.e - t.w ≠ 360)
    (h0 : nullTess (normLon t) = false) : (normLon t).Proper := by
  have hv := (normLon_valid_iff t).1 hl
  have hn := normLon_range t hr
  have : ¬ ((normLon t).w = (normLon t).e ∨ (normLon t).s = (normLon t).n ∨
      (normLon t).bottom = (normLon t).top) := by simpa [nullTess] using h0
  simp only [not_or] at this
  obtain ⟨n1, n2, n3⟩ := this
  refine ⟨lt_of_le_of_ne hv.1 n1, lt_of_le_of_ne hv.2 ?_, hn.lat_s.1, lt_of_le_of_ne hn.sn n2, hn.lat_n.2, hn.radii.1,
    lt_of_le_of_ne hn.bt n3⟩
  by_cases h : t.w ≤ t.e
  · rw [normLon_of_le h]; exact hturn
  · have hb := to180_rep t.w
    have hc := to180_rep t.e
    have : normLon t = { t with e := to180 t.e, w := to180 t.w } := by
      unfold normLon; rw [if_pos (not_le.1 h)]
    rw [this]
    simp only
    have := hb.1; have := hc.2.1
    intro h
    linarith

theorem checks_far {obs : List P3} {ts : List Tess} (hval : ∀ t ∈ ts, t.ValidRange ∧ t.ValidLon)
    (hd : ∀ q ∈ obs, ∀ t ∈ ts, ∀ a, t.Body a → sphPos q ≠ sphPos a) : ChecksPass false obs ts := by
  refine Or.inr ⟨hval, ?_⟩
  rintro ⟨q, hq, t, ht, hc⟩
  obtain ⟨t0, ht0, rfl⟩ := List.mem_map.1 ht
  rw [usedTess_false] at hc
  obtain ⟨v1, v2⟩ := hval t0 ht0
  have hn := normLon_range t0 v1
  rw [conflict_iff q _ hn.lon_w.1 hn.lon_e.2] at hc
  obtain ⟨⟨k, c1, c2⟩, ⟨c3, c4⟩, c5, c6⟩ := hc
  refine hd q hq t0 ht0 q ((normLon_body t0 v2 q).1 ⟨⟨k, c1.le, ?_⟩, ⟨c3.le, c4.le⟩, c5.le, c6.le⟩) rfl
  rw [eastEnd_of_le ((normLon_valid_iff t0).1 v2).1]
  exact c2.le

theorem normLon_halvings {D lo : ℝ} {radial : Bool} {t : Tess} {i j k : ℕ} (hl : t.ValidLon)
    (h : t.Halvings D lo radial i j k) : (normLon t).Halvings D lo radial i j k := by
  obtain ⟨e1, e2, e3, e4⟩ := normLon_same t
  unfold Tess.Halvings at h ⊢
  rw [eastEnd_of_le ((normLon_valid_iff t).1 hl).1, normLon_width t hl, e1, e2, e3, e4]
  exact h

theorem used_pieces {field : String} {radial : Bool} {q : P3} {t : Tess} (hr : t.ValidRange) (hl : t.ValidLon)
    (hturn : t.e - t.w ≠ 360) (h0 : nullTess (normLon t) = false) {lo : ℝ}
    (hd : ∀ a, t.Body a → lo ≤ dist (sphPos q) (sphPos a)) {i j k : ℕ} (hK : i + j + k ≤ 16)
    (hh : t.Halvings (ratioOf field) lo radial i j k) :
    ∃ p, tessPieces (tessParams field radial q) (normLon t) = .ok p := by
  have hp := normLon_proper hr hl hturn h0
  obtain ⟨p, hp, -⟩ := tessPieces_halvings (tessParams field radial q)
    (by show 0 ≤ distanceSizeRatio field; unfold distanceSizeRatio; split_ifs <;> norm_num)
    (normLon t) hp lo (fun x y z a1 a2 a3 a4 a5 a6 => hd ⟨x, y, z⟩ ((normLon_body t hl _).1
      ⟨⟨0, by simpa using a1, by rw [eastEnd_of_le hp.we.le]; simpa using a2⟩, ⟨a3, a4⟩, a5, a6⟩))
    i j k (normLon_halvings hl hh)
    (by
      show 2 ^ (i + j + k) ≤ MAX_DISCRETIZATIONS
      unfold MAX_DISCRETIZATIONS
      exact (Nat.pow_le_pow_right (by norm_num) hK).trans (by norm_num))
    (by
      show 7 * (i + j + k) + 3 ≤ 3 * STACK_SIZE
      unfold STACK_SIZE
      omega)
  exact ⟨p, hp⟩

/-- C148: `tesseroid_gravity` returns. The tesseroids are valid (as documented) and none is a complete turn; `lo` is a
lower bound, not zero, for the distance between the points and the tesseroid, and the sides of the tesseroid become
smaller than `lo` over the distance-size ratio after at most 16 halvings in total. Then there is neither an error
of the checks (ValueError) nor an OverflowError of the discretization. -/
theorem C148_returns (junk : Junk) (m : Mode) (M : Minimizer) (fuel : ℕ) (stack0 small0 : ℕ → Tess) (shape : List ℕ)
    (obs : List P3) (hshape : shape.prod = obs.length) (srcs : List (Tess × ℝ)) (field : String)
    (hf : field = "potential" ∨ field = "g_z") (radial : Bool)
    (hm : m.Full obs.length (2 * (100000 * srcs.length)))
    (hval : ∀ s ∈ srcs, s.1.ValidRange ∧ s.1.ValidLon) (hturn : ∀ s ∈ srcs, s.1.e - s.1.w ≠ 360)
    (lo : Tess → ℝ) (hlo : ∀ s ∈ srcs, 0 < lo s.1)
    (hd : ∀ q ∈ obs, ∀ s ∈ srcs, ∀ a, s.1.Body a → lo s.1 ≤ dist (sphPos q) (sphPos a))
    (hsize : ∀ s ∈ srcs, ∃ i j k, i + j + k ≤ 16 ∧ s.1.Halvings (ratioOf field) (lo s.1) radial i j k) :
    ∃ data, data.length = obs.length ∧
      tesseroidGravity junk m M fuel stack0 small0 (arrays shape obs) (srcs.map (·.1)) (.values (srcs.map (·.2)))
        field radial false = some (.ok ⟨shape, data⟩) := by
  obtain ⟨kc, htab⟩ : ∃ kc, tessFieldTable field = some kc := by
    rcases hf with rfl | rfl <;> simp [tessFieldTable]
  refine ⟨_, ?_, (tesseroidGravity_form field kc htab junk m M fuel stack0 small0 shape obs hshape srcs
    radial false hm).1 ⟨checks_far ?_ ?_, ?_⟩⟩
  · rw [List.length_map]
  · intro t ht
    obtain ⟨s, hs, rfl⟩ := List.mem_map.1 ht
    exact hval s hs
  · intro q hq t ht a ha heq
    obtain ⟨s, hs, rfl⟩ := List.mem_map.1 ht
    have := hd q hq s hs a ha
    rw [heq, dist_self] at this
    exact absurd this (not_le.2 (hlo s hs))
  · intro q hq s hs
    obtain ⟨hs, hkeep⟩ := List.mem_filter.1 hs
    obtain ⟨s, hs0, rfl⟩ := List.mem_map.1 hs
    have e : (usedSrc false s).1 = normLon s.1 := by unfold usedSrc; rw [usedTess_false]
    rw [e]
    obtain ⟨i, j, k, hK, hh⟩ := hsize s hs0
    refine used_pieces (hval s hs0).1 (hval s hs0).2 (hturn s hs0) ?_ (hd q hq s hs0) hK hh
    have : keepTess (usedSrc false s) = true := hkeep
    unfold keepTess at this
    rw [e] at this
    simp only [Bool.not_eq_true', Bool.or_eq_false_iff] at this
    exact this.1

/-- C148 for the default discretization, which does not divide the radius: it is enough that the distance is not
smaller than the ratio times the horizontal sides over 256. -/
theorem C148_horizontal (junk : Junk) (m : Mode) (M : Minimizer) (fuel : ℕ) (stack0 small0 : ℕ → Tess)
    (shape : List ℕ) (obs : List P3) (hshape : shape.prod = obs.length) (srcs : List (Tess × ℝ)) (field : String)
    (hf : field = "potential" ∨ field = "g_z")
    (hm : m.Full obs.length (2 * (100000 * srcs.length)))
    (hval : ∀ s ∈ srcs, s.1.ValidRange ∧ s.1.ValidLon) (hturn : ∀ s ∈ srcs, s.1.e - s.1.w ≠ 360)
    (lo : ℝ) (hlo : 0 < lo)
    (hd : ∀ q ∈ obs, ∀ s ∈ srcs, ∀ a, s.1.Body a → lo ≤ dist (sphPos q) (sphPos a))
    (hsize : ∀ s ∈ srcs, ratioOf field * (s.1.top * radians (eastEnd s.1.w s.1.e - s.1.w)) ≤ 256 * lo ∧
      ratioOf field * (s.1.top * radians (s.1.n - s.1.s)) ≤ 256 * lo) :
    ∃ data, data.length = obs.length ∧
      tesseroidGravity junk m M fuel stack0 small0 (arrays shape obs) (srcs.map (·.1)) (.values (srcs.map (·.2)))
        field false false = some (.ok ⟨shape, data⟩) := by
  refine C148_returns junk m M fuel stack0 small0 shape obs hshape srcs field hf false hm hval hturn (fun _ => lo)
    (fun _ _ => hlo) hd fun s hs => ⟨8, 8, 0, by norm_num, ?_, ?_, fun h => by simp at h⟩
  · have := (hsize s hs).1
    norm_num
    exact this
  · have := (hsize s hs).2
    norm_num
    exact this

/-- C148 with C144: the potential of concentric layers, each of them a global grid of `n × m` tesseroids (at least two
along the parallels) seen from above, without any assumption on the discretization. The call returns if the points are
not nearer to the top than the cells over 256, and the values are `G M / R` with an explicit error. -/
theorem C148_global (junk : Junk) (md : Mode) (Mz : Minimizer) (fuel : ℕ) (stack0 small0 : ℕ → Tess) (shape : List ℕ)
    (obs : List P3) (hshape : shape.prod = obs.length) (n m : ℕ) (hn : 2 ≤ n) (hm : 0 < m)
    (shells : List (ℝ × ℝ × ℝ)) (srcs : List (Tess × ℝ))
    (hsrcs : srcs = shells.flatMap fun s => globalGrid n m s.1 s.2.1 s.2.2)
    (hmd : md.Full obs.length (2 * (100000 * srcs.length)))
    (B τ : ℝ) (hB0 : 0 ≤ B) (hs : ∀ s ∈ shells, 0 ≤ s.1 ∧ s.1 ≤ s.2.1 ∧ s.2.1 ≤ B ∧ s.2.1 - s.1 ≤ τ)
    (h : ℝ) (hh : 0 < h) (hobs : ∀ q ∈ obs, B + h ≤ q.z)
    (hn' : B * (2 * Real.pi / n) ≤ 256 * h) (hm' : B * (Real.pi / m) ≤ 256 * h) :
    ∃ data, data.length = obs.length ∧
      tesseroidGravity junk md Mz fuel stack0 small0 (arrays shape obs) (srcs.map (·.1)) (.values (srcs.map (·.2)))
        "potential" false false = some (.ok ⟨shape, data⟩) ∧
      ∀ (i : ℕ) (q : P3), obs[i]? = some q → ∃ v, data[i]? = some v ∧
        |v - gravitationalConst * (shells.map fun s => s.2.2 * (4 / 3 * Real.pi * (s.2.1 ^ 3 - s.1 ^ 3))).sum / q.z| ≤
          gravitationalConst * (shells.map fun s => |s.2.2| * (4 / 3 * Real.pi * (s.2.1 ^ 3 - s.1 ^ 3))).sum *
            ((τ + B * Real.pi / m + B * (2 * Real.pi) / n) / (q.z - B) ^ 2 +
              (Real.pi / (2 * m)) ^ 4 / (150 * (q.z - B))) := by
  have hpi := Real.pi_pos
  have hn2 : (2 : ℝ) ≤ n := by exact_mod_cast hn
  have hm2 : (0 : ℝ) < m := by exact_mod_cast hm
  have hmem : ∀ s ∈ srcs, ∃ c ∈ shells, ∃ i < n, ∃ j < m, s.1 = cell n m i j c.1 c.2.1 := by
    intro s hs'
    rw [hsrcs] at hs'
    obtain ⟨c, hc, hs'⟩ := List.mem_flatMap.1 hs'
    rw [globalGrid_eq] at hs'
    obtain ⟨t, ht, rfl⟩ := List.mem_map.1 hs'
    obtain ⟨i, hi, j, hj, rfl⟩ := mem_gridCells.1 ht
    exact ⟨c, hc, i, hi, j, hj, rfl⟩
  obtain ⟨data, hl, hok⟩ := C148_horizontal junk md Mz fuel stack0 small0 shape obs hshape srcs "potential" (Or.inl rfl)
    hmd
    (fun s hs' => by
      obtain ⟨c, hc, i, hi, j, hj, e⟩ := hmem s hs'
      rw [e]
      exact cell_valid hi hj (hs c hc).1 (hs c hc).2.1)
    (fun s hs' => by
      obtain ⟨c, hc, i, hi, j, hj, e⟩ := hmem s hs'
      rw [e]
      simp only [cell]
      rw [show -180 + 360 * ((i : ℝ) + 1) / n - (-180 + 360 * (i : ℝ) / n) = 360 / n by ring]
      intro h360
      rw [div_eq_iff (by linarith)] at h360
      linarith)
    h hh
    (fun q hq s hs' a ha => by
      obtain ⟨c, hc, i, hi, j, hj, e⟩ := hmem s hs'
      obtain ⟨c1, c2, c3, c4⟩ := hs c hc
      have hz := hobs q hq
      rw [e] at ha
      obtain ⟨-, -, a5, a6⟩ := ha
      simp only [cell] at a5 a6
      have n1 := norm_sphPos a (c1.trans a5)
      have n2 := norm_sphPos q (by linarith)
      have t1 := norm_sub_norm_le (sphPos q) (sphPos a)
      rw [dist_eq_norm]
      linarith)
    (fun s hs' => by
      obtain ⟨c, hc, i, hi, j, hj, e⟩ := hmem s hs'
      obtain ⟨c1, c2, c3, c4⟩ := hs c hc
      rw [e, cell_east hi]
      simp only [cell]
      rw [show -180 + 360 * ((i : ℝ) + 1) / n - (-180 + 360 * (i : ℝ) / n) = 360 / n by ring,
        show -90 + 180 * ((j : ℝ) + 1) / m - (-90 + 180 * (j : ℝ) / m) = 180 / m by ring,
        show radians (360 / n) = 2 * Real.pi / n by unfold radians; ring,
        show radians (180 / m) = Real.pi / m by unfold radians; ring]
      unfold ratioOf
      rw [if_pos rfl, one_mul, one_mul]
      exact ⟨(mul_le_mul_of_nonneg_right c3 (by positivity)).trans hn',
        (mul_le_mul_of_nonneg_right c3 (by positivity)).trans hm'⟩)
  refine ⟨data, hl, hok, fun i q hq => ?_⟩
  have hz := hobs q (List.mem_of_getElem? hq)
  exact C144_global junk md Mz fuel stack0 small0 shape obs hshape n m (by omega) hm shells false srcs hsrcs hmd
    ⟨shape, data⟩ hok B τ hs i q hq hB0 (by linarith)

/-! ### density functions -/

theorem densityLoop_strict (M : Minimizer) (hM : M.InBounds) (nd : ℝ → ℝ) (size w e s n : ℝ) (fuel : ℕ) :
    ∀ pending out ts, densityLoop M nd size w e s n fuel pending out = some ts →
    (∀ p ∈ pending, p.bottom < p.top) → (∀ p ∈ out, p.bottom < p.top) → ∀ p ∈ ts, p.bottom < p.top := by
  induction fuel with
  | zero =>
    intro pending out ts h hp ho
    cases pending with
    | nil => simp only [densityLoop, Option.some.injEq] at h; subst h; exact ho
    | cons a l => simp [densityLoop] at h
  | succ fuel ih =>
    intro pending out ts h hp ho
    cases pending with
    | nil => simp only [densityLoop, Option.some.injEq] at h; subst h; exact ho
    | cons a l =>
      have h2 := hp a List.mem_cons_self
      simp only [densityLoop] at h
      split at h
      · rename_i hlarge
        obtain ⟨⟨g1, g2⟩, g3⟩ := hM
          (fun radius => -|nd radius - straightLine radius nd a.bottom a.top|) a.bottom a.top h2.le
        have g1' : a.bottom ≤ (maximumAbsoluteDiff M nd a.bottom a.top).1 := g1
        have g2' : (maximumAbsoluteDiff M nd a.bottom a.top).1 ≤ a.top := g2
        have g3' : (maximumAbsoluteDiff M nd a.bottom a.top).2 =
            |nd (maximumAbsoluteDiff M nd a.bottom a.top).1 -
              straightLine (maximumAbsoluteDiff M nd a.bottom a.top).1 nd a.bottom a.top| := by
          show -(M _ _ _).2 = _
          rw [g3, neg_neg]
          rfl
        have hne : a.top - a.bottom ≠ 0 := by linarith
        have hb : (maximumAbsoluteDiff M nd a.bottom a.top).1 ≠ a.bottom := by
          intro h
          rw [g3', h] at hlarge
          simp only [straightLine, sub_self, mul_zero, zero_add, abs_zero, zero_mul] at hlarge
          norm_num at hlarge
        have ht : (maximumAbsoluteDiff M nd a.bottom a.top).1 ≠ a.top := by
          intro h
          rw [g3', h] at hlarge
          have : nd a.top - straightLine a.top nd a.bottom a.top = 0 := by
            unfold straightLine
            field_simp
            ring
          rw [this] at hlarge
          simp only [abs_zero, zero_mul] at hlarge
          norm_num at hlarge
        refine ih _ _ _ h ?_ ho
        intro p hpm
        rw [List.mem_append] at hpm
        rcases hpm with hpm | hpm
        · exact hp p (List.mem_cons_of_mem _ hpm)
        · simp only [List.mem_cons, List.not_mem_nil, or_false] at hpm
          rcases hpm with rfl | rfl
          · exact lt_of_le_of_ne g2' ht
          · exact lt_of_le_of_ne g1' (Ne.symm hb)
      · refine ih _ _ _ h (fun p hp' => hp p (List.mem_cons_of_mem _ hp')) ?_
        intro p hp'
        rcases List.mem_append.1 hp' with hp' | hp'
        · exact ho p hp'
        · rw [List.mem_singleton.1 hp']
          exact h2

theorem densityDiscretization1_strict (M : Minimizer) (hM : M.InBounds) (f : ℝ → ℝ) (fuel : ℕ) (t : Tess)
    (ht : t.bottom < t.top) (ts : List Tess) (h : densityDiscretization1 M f fuel t = some ts) :
    ∀ p ∈ ts, p.bottom < p.top := by
  unfold densityDiscretization1 at h
  simp only at h
  split at h
  · simp only [Option.some.injEq] at h
    subst h
    simpa using ht
  · exact densityLoop_strict M hM _ _ _ _ _ _ fuel [t] [] ts h (by simpa using ht) (by simp)

theorem densityDiscretization_mem {M : Minimizer} {f : ℝ → ℝ} {fuel : ℕ} : ∀ (l ts' : List Tess),
    densityDiscretization M f fuel l = some ts' → ∀ p ∈ ts', ∃ t ∈ l, ∃ ls, densityDiscretization1 M f fuel t = some ls ∧
      p ∈ ls := by
  intro l
  induction l with
  | nil =>
    intro ts' h p hp
    simp only [densityDiscretization, Option.some.injEq] at h
    subst h
    simp at hp
  | cons t l ih =>
    intro ts' h p hp
    simp only [densityDiscretization] at h
    cases h1 : densityDiscretization1 M f fuel t with
    | none => rw [h1] at h; simp at h
    | some a =>
      cases h2 : densityDiscretization M f fuel l with
      | none => rw [h1, h2] at h; simp at h
      | some b =>
        rw [h1, h2] at h
        have h : a ++ b = ts' := by simpa using h
        subst h
        rcases List.mem_append.1 hp with hp | hp
        · exact ⟨t, List.mem_cons_self, a, h1, hp⟩
        · obtain ⟨t', ht', ls, q1, q2⟩ := ih b h2 p hp
          exact ⟨t', List.mem_cons_of_mem _ ht', ls, q1, q2⟩

theorem densityDiscretization_unique {M : Minimizer} {f : ℝ → ℝ} {fuel fuel' : ℕ} : ∀ {l ts ts' : List Tess},
    densityDiscretization M f fuel l = some ts → densityDiscretization M f fuel' l = some ts' → ts = ts' := by
  have one : ∀ {fuel fuel' : ℕ} {t : Tess} {a b : List Tess}, fuel ≤ fuel' →
      densityDiscretization1 M f fuel t = some a → densityDiscretization1 M f fuel' t = some b → a = b := by
    intro fuel fuel' t a b hle ha hb
    unfold densityDiscretization1 at ha hb
    simp only at ha hb
    split at ha
    · rename_i h
      rw [if_pos h] at hb
      rw [ha] at hb
      exact Option.some.inj hb
    · rename_i h
      rw [if_neg h] at hb
      obtain ⟨k, rfl⟩ := Nat.exists_eq_add_of_le hle
      rw [densityLoop_mono _ _ _ _ _ _ _ _ _ _ _ ha k] at hb
      exact Option.some.inj hb
  intro l
  induction l with
  | nil =>
    intro ts ts' h h'
    simp only [densityDiscretization, Option.some.injEq] at h h'
    rw [← h, ← h']
  | cons t l ih =>
    intro ts ts' h h'
    simp only [densityDiscretization] at h h'
    cases h1 : densityDiscretization1 M f fuel t with
    | none => rw [h1] at h; simp at h
    | some a =>
      cases h2 : densityDiscretization M f fuel l with
      | none => rw [h1, h2] at h; simp at h
      | some b =>
        cases h3 : densityDiscretization1 M f fuel' t with
        | none => rw [h3] at h'; simp at h'
        | some a' =>
          cases h4 : densityDiscretization M f fuel' l with
          | none => rw [h3, h4] at h'; simp at h'
          | some b' =>
            rw [h1, h2] at h
            rw [h3, h4] at h'
            have h : a ++ b = ts := by simpa using h
            have h' : a' ++ b' = ts' := by simpa using h'
            have e1 : a = a' := by
              rcases le_total fuel fuel' with hle | hle
              · exact one hle h1 h3
              · exact (one hle h3 h1).symm
            rw [← h, ← h', e1, ih h2 h4]

/-- the number of layers is bounded, whatever the number of turns -/
theorem densityDiscretization_bound (M : Minimizer) (f : ℝ → ℝ) (l : List Tess) :
    ∃ k, ∀ fuel ts', densityDiscretization M f fuel l = some ts' → 2 * (100000 * ts'.length) ≤ k := by
  by_cases h : ∃ fuel ts', densityDiscretization M f fuel l = some ts'
  · obtain ⟨fuel, ts', h⟩ := h
    exact ⟨2 * (100000 * ts'.length), fun fuel' ts'' h' => by rw [densityDiscretization_unique h h']⟩
  · exact ⟨0, fun fuel ts' h' => absurd ⟨fuel, ts', h'⟩ h⟩

/-- C148 for densities that are continuous functions of the radius: the call returns when it is given enough turns
of the loop that divides the tesseroids (which ends by C18), with the same conditions on the distance and with
tesseroids of positive volume (null ones raise an error, see C03). -/
theorem C148_returns_func (junk : Junk) (m : Mode) (M : Minimizer) (hM : M.InBounds) (stack0 small0 : ℕ → Tess)
    (shape : List ℕ) (obs : List P3) (hshape : shape.prod = obs.length) (ts : List Tess) (hts : ts ≠ [])
    (f : ℝ → ℝ) (hc : ContinuousOn f (Set.Ici 0)) (field : String)
    (hf : field = "potential" ∨ field = "g_z") (radial : Bool) (k : ℕ)
    (hk : ∀ fuel ts', densityDiscretization M f fuel (ts.map (usedTess false)) = some ts' →
      2 * (100000 * ts'.length) ≤ k) (hm : m.Full obs.length k)
    (hval : ∀ t ∈ ts, t.ValidRange ∧ t.ValidLon) (hturn : ∀ t ∈ ts, t.e - t.w ≠ 360)
    (hpos : ∀ t ∈ ts, t.w < eastEnd t.w t.e ∧ t.s < t.n ∧ t.bottom < t.top)
    (lo : Tess → ℝ) (hlo : ∀ t ∈ ts, 0 < lo t)
    (hd : ∀ q ∈ obs, ∀ t ∈ ts, ∀ a, t.Body a → lo t ≤ dist (sphPos q) (sphPos a))
    (hsize : ∀ t ∈ ts, ∃ i j k, i + j + k ≤ 16 ∧ t.Halvings (ratioOf field) (lo t) radial i j k) :
    ∃ fuel0 data, data.length = obs.length ∧ ∀ fuel ≥ fuel0,
      tesseroidGravity junk m M fuel stack0 small0 (arrays shape obs) ts (.func f)
        field radial false = some (.ok ⟨shape, data⟩) := by
  obtain ⟨kc, htab⟩ : ∃ kc, tessFieldTable field = some kc := by
    rcases hf with rfl | rfl <;> simp [tessFieldTable]
  obtain ⟨fuel0, r, hends⟩ := C18_tesseroid_gravity_ends junk m M hM stack0 small0 shape obs ts f hc field radial
  have hchk : ChecksPass false obs ts := checks_far hval fun q hq t ht a ha heq => by
    have := hd q hq t ht a ha
    rw [heq, dist_self] at this
    exact absurd this (not_le.2 (hlo t ht))
  have hnull : ∀ t ∈ ts, nullTess (normLon t) = false := by
    intro t ht
    obtain ⟨p1, p2, p3⟩ := hpos t ht
    obtain ⟨e1, e2, e3, e4⟩ := normLon_same t
    have hw := normLon_width t (hval t ht).2
    simp only [nullTess, e1, e2, e3, e4, decide_eq_false_iff_not, not_or]
    exact ⟨fun h => by rw [h] at hw; linarith, p2.ne, p3.ne⟩
  have hprop : ∀ t ∈ ts, (normLon t).Proper := fun t ht =>
    normLon_proper (hval t ht).1 (hval t ht).2 (hturn t ht) (hnull t ht)
  have e0 := hends fuel0 (le_refl _)
  cases hdd : densityDiscretization M f fuel0 (ts.map (usedTess false)) with
  | none =>
    rw [tesseroidGravity_func, htab] at e0
    simp only [if_pos hchk, hdd] at e0
    simp at e0
  | some ts' =>
    have hret : ReturnsFunc M f fuel0 field radial false obs ts ts' := by
      refine ⟨hchk, hdd, ?_, ?_⟩
      · intro h
        exfalso
        subst h
        cases ts with
        | nil => exact hts rfl
        | cons t ts =>
          simp only [List.map_cons, densityDiscretization] at hdd
          cases h1 : densityDiscretization1 M f fuel0 (usedTess false t) with
          | none => rw [h1] at hdd; simp at hdd
          | some a =>
            cases h2 : densityDiscretization M f fuel0 (ts.map (usedTess false)) with
            | none => rw [h1, h2] at hdd; simp at hdd
            | some b =>
              rw [h1, h2] at hdd
              have hdd : a = [] ∧ b = [] := by simpa using hdd
              rw [hdd.1, usedTess_false] at h1
              have hp := hprop t List.mem_cons_self
              have h3 := (C18_partition M hM f _ hp.ordered fuel0 _ h1).1 (normLon t).w (normLon t).s (normLon t).bottom
              have h4 : (normLon t).Mem (normLon t).w (normLon t).s (normLon t).bottom :=
                ⟨⟨le_refl _, hp.we⟩, ⟨le_refl _, hp.sn⟩, le_refl _, hp.bt⟩
              simp [h4] at h3
      · intro q hq p hp
        obtain ⟨t, ht, ls, h1, h2⟩ := densityDiscretization_mem _ _ hdd p hp
        obtain ⟨t, ht0, rfl⟩ := List.mem_map.1 ht
        rw [usedTess_false] at h1
        have hpr := hprop t ht0
        have hstrict := densityDiscretization1_strict M hM f fuel0 _ hpr.bt ls h1 p h2
        obtain ⟨f1, f2, f3, f4, f5, -, f7⟩ := (C18_partition M hM f _ hpr.ordered fuel0 _ h1).2.2 p h2
        have hpp : p.Proper := ⟨by rw [f1, f2]; exact hpr.we, by rw [f1, f2]; exact hpr.width,
          by rw [f3]; exact hpr.south, by rw [f3, f4]; exact hpr.sn, by rw [f4]; exact hpr.north,
          hpr.bottom.trans f5, hstrict⟩
        obtain ⟨i, j, k, hK, hh⟩ := hsize t ht0
        have hD : 0 ≤ ratioOf field := by unfold ratioOf; split_ifs <;> norm_num
        have hh' : p.Halvings (ratioOf field) (lo t) radial i j k := by
          obtain ⟨g1, g2, g3⟩ := normLon_halvings (hval t ht0).2 hh
          unfold Tess.Halvings
          rw [f1, f2, f3, f4]
          have k1 : 0 ≤ radians (eastEnd (normLon t).w (normLon t).e - (normLon t).w) := by
            rw [eastEnd_of_le hpr.we.le, radians_sub]
            linarith [radians_lt.2 hpr.we]
          have k2 : 0 ≤ radians ((normLon t).n - (normLon t).s) := by
            rw [radians_sub]
            linarith [radians_lt.2 hpr.sn]
          exact ⟨(mul_le_mul_of_nonneg_left (mul_le_mul_of_nonneg_right f7 k1) hD).trans g1,
            (mul_le_mul_of_nonneg_left (mul_le_mul_of_nonneg_right f7 k2) hD).trans g2,
            fun hr => (mul_le_mul_of_nonneg_left (by linarith) hD).trans (g3 hr)⟩
        obtain ⟨l, hl, -⟩ := tessPieces_halvings (tessParams field radial q) hD p hpp (lo t)
          (fun x y z a1 a2 a3 a4 a5 a6 => hd q hq t ht0 ⟨x, y, z⟩ ((normLon_body t (hval t ht0).2 _).1
            ⟨⟨0, by rw [f1] at a1; simpa using a1, by rw [eastEnd_of_le hpr.we.le, ← f2]; simpa using a2⟩,
              ⟨by rw [← f3]; exact a3, by rw [← f4]; exact a4⟩, f5.trans a5, a6.trans f7⟩))
          i j k hh'
          (by
            show 2 ^ (i + j + k) ≤ MAX_DISCRETIZATIONS
            unfold MAX_DISCRETIZATIONS
            exact (Nat.pow_le_pow_right (by norm_num) hK).trans (by norm_num))
          (by
            show 7 * (i + j + k) + 3 ≤ 3 * STACK_SIZE
            unfold STACK_SIZE
            omega)
        exact ⟨l, hl⟩
    have hok := tesseroidGravity_func_ok field kc htab junk m M fuel0 stack0 small0 shape obs hshape ts ts' f radial
      false k (hk _ _ hdd) hm hret
    rw [e0] at hok
    refine ⟨fuel0, _, ?_, fun fuel hf => by rw [hends fuel hf, hok]⟩
    rw [List.length_map]

/-! ### points on the tesseroid -/

theorem dist_lon_sizeLon {x : Tess} (hx : x.Proper) (hw : x.e - x.w ≤ 180) {l l' r : ℝ} (hr0 : 0 ≤ r) (hr : r ≤ x.top)
    (hl : |l - l'| ≤ radians (x.e - x.w)) :
    dist (rpos l (radians ((x.s + x.n) / 2)) r) (rpos l' (radians ((x.s + x.n) / 2)) r) ≤ x.sizeLon := by
  have htop : 0 ≤ x.top := hr0.trans hr
  have hpos := (sizeLon_pos hx).le
  refine abs_le_of_sq_le_sq' ?_ hpos |>.2
  unfold Tess.sizeLon InnerProductGeometry.angle
  rw [inner_unitPos]
  simp only [norm_unitPos, mul_one, div_one]
  rw [radians_sub] at hl
  set c := radians ((x.s + x.n) / 2)
  set d := radians x.e - radians x.w with hd
  have hd0 : 0 ≤ d := by rw [hd]; linarith [radians_lt.2 hx.we]
  have hdpi : d ≤ Real.pi := by
    rw [hd, ← radians_sub, show Real.pi = radians 180 by unfold radians; ring]
    exact radians_le.2 hw
  have hsc := Real.sin_sq_add_cos_sq c
  have hcd := Real.cos_le_one d
  have hcd' := Real.neg_one_le_cos d
  set y := Real.sin c * Real.sin c + Real.cos c * Real.cos c * Real.cos d with hy
  have hy1 : y ≤ 1 := by
    rw [hy]; nlinarith [sq_nonneg (Real.cos c)]
  have hy2 : -1 ≤ y := by
    rw [hy]; nlinarith [sq_nonneg (Real.cos c), sq_nonneg (Real.sin c)]
  have h1 := Real.one_sub_sq_div_two_le_cos (x := Real.arccos y)
  rw [Real.cos_arccos hy2 hy1] at h1
  have h2 : Real.cos d ≤ Real.cos (l - l') := by
    rw [← Real.cos_abs (l - l')]
    exact Real.cos_le_cos_of_nonneg_of_le_pi (abs_nonneg _) hdpi hl
  have h3 : dist (rpos l c r) (rpos l' c r) ^ 2 = r ^ 2 * (Real.cos c ^ 2 * (2 * (1 - Real.cos (l - l')))) := by
    rw [EuclideanSpace.dist_eq, Real.sq_sqrt (Finset.sum_nonneg fun _ _ => sq_nonneg _), Fin.sum_univ_three]
    simp only [rpos, Real.dist_eq, sq_abs, Real.cos_sub, Matrix.cons_val_zero, Matrix.cons_val_one, Matrix.cons_val]
    linear_combination r ^ 2 * Real.cos c ^ 2 * Real.sin_sq_add_cos_sq l +
      r ^ 2 * Real.cos c ^ 2 * Real.sin_sq_add_cos_sq l'
  have h4 : Real.cos c ^ 2 * (2 * (1 - Real.cos (l - l'))) ≤ Real.arccos y ^ 2 := by
    have : Real.cos c ^ 2 * (2 * (1 - Real.cos (l - l'))) ≤ Real.cos c ^ 2 * (2 * (1 - Real.cos d)) :=
      mul_le_mul_of_nonneg_left (by linarith) (sq_nonneg _)
    have e : Real.cos c ^ 2 * (2 * (1 - Real.cos d)) = 2 * (1 - y) := by
      rw [hy]; linear_combination 2 * hsc
    linarith
  rw [h3, mul_pow]
  exact mul_le_mul (pow_le_pow_left₀ hr0 hr 2) h4
    (mul_nonneg (sq_nonneg _) (by linarith [Real.cos_le_one (l - l')])) (sq_nonneg _)

/-- the distance from a point of the tesseroid to its centre -/
theorem centre_near {x : Tess} (hx : x.Proper) (hw : x.e - x.w ≤ 180) {q : P3} (hq : x.Body q) :
    x.centreDistance q ≤ x.sizeRad / 2 + x.sizeLat / 2 + x.sizeLon := by
  obtain ⟨l, l1, l2, hl⟩ := body_rpos hq
  obtain ⟨-, ⟨y1, y2⟩, z1, z2⟩ := hq
  rw [eastEnd_of_le hx.we.le] at l2
  have hbt := hx.bt
  have hb := hx.bottom
  unfold Tess.centreDistance
  rw [hl, rpos_radians]
  simp only
  set R := (x.bottom + x.top) / 2 with hR
  have hR0 : 0 ≤ R := by rw [hR]; linarith
  have hRt : R ≤ x.top := by rw [hR]; linarith
  set φ := radians ((x.s + x.n) / 2) with hφ
  set l' := radians ((x.w + x.e) / 2) with hl'
  have e1 : φ = (radians x.s + radians x.n) / 2 := by rw [hφ]; unfold radians; ring
  have e2 : l' = (radians x.w + radians x.e) / 2 := by rw [hl']; unfold radians; ring
  have t1 := dist_triangle (rpos l (radians q.y) q.z) (rpos l (radians q.y) R) (rpos l' φ R)
  have t2 := dist_triangle (rpos l (radians q.y) R) (rpos l φ R) (rpos l' φ R)
  have d1 := dist_rpos_rad l (radians q.y) q.z R
  have d2 := dist_rpos_lat l (radians q.y) φ hR0
  have y1 := radians_le.2 y1
  have y2 := radians_le.2 y2
  have d3 : dist (rpos l φ R) (rpos l' φ R) ≤ x.sizeLon := dist_lon_sizeLon hx hw hR0 hRt (by
    rw [radians_sub, e2, abs_le]
    constructor <;> linarith)
  have a1 : |q.z - R| ≤ x.sizeRad / 2 := by
    unfold Tess.sizeRad
    rw [hR, abs_le]; constructor <;> linarith
  have a2 : R * |radians q.y - φ| ≤ x.sizeLat / 2 := by
    have : |radians q.y - φ| ≤ (radians x.n - radians x.s) / 2 := by
      rw [e1, abs_le]; constructor <;> linarith
    have h := mul_le_mul hRt this (abs_nonneg _) (hR0.trans hRt)
    unfold Tess.sizeLat
    linarith
  linarith

theorem half_cover {a b x : ℝ} {m : ℕ} (hm : m = 1 ∨ m = 2) (h1 : a ≤ x) (h2 : x ≤ b) :
    ∃ i : ℕ, i < m ∧ a + (b - a) / m * i ≤ x ∧ x ≤ a + (b - a) / m * (i + 1) := by
  rcases hm with rfl | rfl
  · exact ⟨0, by norm_num, by simpa using h1, by simpa using h2⟩
  · rcases le_total x ((a + b) / 2) with h | h
    · exact ⟨0, by norm_num, by simpa using h1, by push_cast; linarith⟩
    · exact ⟨1, by norm_num, by push_cast; linarith, by push_cast; linarith⟩

/-- one of the pieces has the point -/
theorem piece_with {x : Tess} (hx : x.Proper) {q : P3} (hq : x.Body q) {a b c : ℕ} (ha : a = 1 ∨ a = 2)
    (hb : b = 1 ∨ b = 2) (hc : c = 1 ∨ c = 2) : ∃ p ∈ splitPieces x a b c, p.Body q := by
  obtain ⟨⟨k, k1, k2⟩, ⟨y1, y2⟩, z1, z2⟩ := hq
  rw [eastEnd_of_le hx.we.le] at k2
  obtain ⟨i, i1, i2, i3⟩ := half_cover ha k1 k2
  obtain ⟨j, j1, j2, j3⟩ := half_cover hb y1 y2
  obtain ⟨n, n1, n2, n3⟩ := half_cover hc z1 z2
  refine ⟨_, List.mem_flatMap.2 ⟨i, List.mem_range.2 i1, List.mem_flatMap.2 ⟨j, List.mem_range.2 j1,
    List.mem_map.2 ⟨n, List.mem_range.2 n1, rfl⟩⟩⟩, ⟨k, i2, ?_⟩, ⟨j2, j3⟩, n2, n3⟩
  rw [eastEnd_of_le (i2.trans i3)]
  exact i3

/-- while the stack has a piece with the point, the discretization does not end with a result -/
theorem adList_touching (P : AParams) (hr : P.radial = true) (hD : 2.5 ≤ P.ratio) :
    ∀ (fuel : ℕ) (stk out : List Tess) (r : Py (List Tess)), (∀ x ∈ stk, x.Proper ∧ x.e - x.w ≤ 180) →
      (∃ x ∈ stk, x.Body P.point) → adList P fuel stk out = some r → r = .error .OverflowError := by
  intro fuel
  induction fuel with
  | zero => intro stk out r _ _ h; simp [adList] at h
  | succ fuel ih =>
    intro stk out r hst hex h
    cases stk with
    | nil => obtain ⟨x, hx, -⟩ := hex; simp at hx
    | cons x rest =>
      obtain ⟨hp, hw⟩ := hst x List.mem_cons_self
      have hrest : ∀ y ∈ rest, y.Proper ∧ y.e - y.w ≤ 180 := fun y hy => hst y (List.mem_cons_of_mem _ hy)
      have hdv := divisions_proper P hp
      classical
      set a : ℕ := if x.centreDistance P.point / x.sizeLon < P.ratio then 2 else 1 with ha
      set b : ℕ := if x.centreDistance P.point / x.sizeLat < P.ratio then 2 else 1 with hb
      set c : ℕ := if x.centreDistance P.point / x.sizeRad < P.ratio ∧ P.radial = true then 2 else 1 with hc
      have ha' : a = 1 ∨ a = 2 := by rw [ha]; split_ifs <;> simp
      have hb' : b = 1 ∨ b = 2 := by rw [hb]; split_ifs <;> simp
      have hc' : c = 1 ∨ c = 2 := by rw [hc]; split_ifs <;> simp
      simp only [adList, hdv] at h
      by_cases hk : a * b * c > 1
      · rw [if_pos hk] at h
        by_cases ho : rest.length + a * b * c > P.stackSize
        · rw [if_pos ho] at h
          exact (Option.some.inj h).symm
        · rw [if_neg ho] at h
          refine ih _ _ _ ?_ ?_ h
          · intro y hy
            rcases List.mem_append.1 hy with hy | hy
            · have hy := List.mem_reverse.1 hy
              obtain ⟨-, w1, w2, -⟩ := splitPieces_within hp.ordered hy
              exact ⟨splitPieces_proper hp hy, by linarith⟩
            · exact hrest y hy
          · obtain ⟨y, hy, hq⟩ := hex
            rcases List.mem_cons.1 hy with rfl | hy
            · obtain ⟨p, hp', hpq⟩ := piece_with hp hq ha' hb' hc'
              exact ⟨p, List.mem_append_left _ (List.mem_reverse.2 hp'), hpq⟩
            · exact ⟨y, List.mem_append_right _ hy, hq⟩
      · rw [if_neg hk] at h
        by_cases ho : out.length + 1 > P.smallSize
        · rw [if_pos ho] at h
          exact (Option.some.inj h).symm
        · rw [if_neg ho] at h
          refine ih _ _ _ hrest ?_ h
          obtain ⟨y, hy, hq⟩ := hex
          rcases List.mem_cons.1 hy with rfl | hy
          · exfalso
            have s1 := sizeLon_pos hp
            have s2 := sizeLat_pos hp
            have s3 : 0 < y.sizeRad := by unfold Tess.sizeRad; linarith [hp.bt]
            have hone : a = 1 ∧ b = 1 ∧ c = 1 := by
              rcases ha' with h1 | h1 <;> rcases hb' with h2 | h2 <;> rcases hc' with h3 | h3 <;>
                rw [h1, h2, h3] at hk <;> simp_all
            obtain ⟨o1, o2, o3⟩ := hone
            have q1 : P.ratio * y.sizeLon ≤ y.centreDistance P.point := by
              by_contra hcon
              rw [ha, if_pos (by rw [div_lt_iff₀ s1]; exact not_le.1 hcon)] at o1
              omega
            have q2 : P.ratio * y.sizeLat ≤ y.centreDistance P.point := by
              by_contra hcon
              rw [hb, if_pos (by rw [div_lt_iff₀ s2]; exact not_le.1 hcon)] at o2
              omega
            have q3 : P.ratio * y.sizeRad ≤ y.centreDistance P.point := by
              by_contra hcon
              rw [hc, if_pos ⟨by rw [div_lt_iff₀ s3]; exact not_le.1 hcon, hr⟩] at o3
              omega
            have q0 := centre_near hp hw hq
            have r1 := mul_le_mul_of_nonneg_right hD s1.le
            have r2 := mul_le_mul_of_nonneg_right hD s2.le
            have r3 := mul_le_mul_of_nonneg_right hD s3.le
            linarith
          · exact ⟨y, hy, hq⟩

/-- C148, the condition on the distance cannot be dropped: with the radial discretization enabled, a point on a
tesseroid of positive volume (not wider than 180 degrees), on its surface for instance, makes the discretization for
`g_z` raise OverflowError, for every size of the arrays. -/
theorem C148_touching (P : AParams) (hP : 1 ≤ P.stackSize) (hr : P.radial = true) (hD : 2.5 ≤ P.ratio)
    (stack0 small0 : ℕ → Tess) (t : Tess) (ht : t.Proper) (hw : t.e - t.w ≤ 180) (hq : t.Body P.point) :
    ∀ fuel ≥ (P.smallSize + 1) * (P.stackSize + 2) + 1,
      adaptive P stack0 small0 fuel t = some (.raised .OverflowError) := by
  have hl := adList_touching P hr hD _ [t] [] _ (fun x hx => by rw [List.mem_singleton.1 hx]; exact ⟨ht, hw⟩) ⟨t, by simp, hq⟩ (tessPieces_spec P hP t)
  obtain ⟨h, hfuel⟩ := C16_terminates P hP stack0 small0 t
  intro fuel hf
  rw [hfuel fuel hf]
  have e1 := hfuel (adaptiveFuel P.stackSize P.smallSize) (le_refl _)
  rcases adaptive_cases P hP stack0 small0 t with ⟨n, small, h1, h2⟩ | ⟨e, h1, h2⟩
  · rw [hl] at h2; simp at h2
  · rw [hl] at h2
    rw [h1] at e1
    rw [← Option.some.inj e1]
    simp only [Except.error.injEq] at h2
    rw [h2]

/-- C148 at the API: `tesseroid_gravity` for `g_z` with the radial discretization does not return a value for a point
on one of the tesseroids with a density: it raises ValueError or OverflowError, with or without the checks. -/
theorem C148_touching_call (junk : Junk) (m : Mode) (M : Minimizer) (fuel : ℕ) (stack0 small0 : ℕ → Tess)
    (shape : List ℕ) (obs : List P3) (hshape : shape.prod = obs.length) (srcs : List (Tess × ℝ)) (dis : Bool)
    (hm : m.Full obs.length (2 * (100000 * srcs.length))) (hprop : ∀ s ∈ srcs, s.1.Proper)
    (q : P3) (hq : q ∈ obs) (s : Tess × ℝ) (hs : s ∈ srcs) (hρ : s.2 ≠ 0) (hw : s.1.e - s.1.w ≤ 180)
    (hb : s.1.Body q) :
    ∃ e, tesseroidGravity junk m M fuel stack0 small0 (arrays shape obs) (srcs.map (·.1)) (.values (srcs.map (·.2)))
      "g_z" true dis = some (.error e) ∧ (e = .ValueError ∨ e = .OverflowError) := by
  have hform := tesseroidGravity_form "g_z" (gravityUSpherical, -10 ^ 5) rfl junk m M fuel stack0 small0 shape obs
    hshape srcs true dis hm
  have hno : ¬ Returns "g_z" true dis obs srcs := by
    rintro ⟨-, h⟩
    have hp := hprop s hs
    have e : usedSrc dis s = s := by
      unfold usedSrc usedTess
      rw [normLon_of_le hp.we.le]
      cases dis <;> rfl
    obtain ⟨p, hp'⟩ := h q hq s (List.mem_filter.2 ⟨List.mem_map.2 ⟨s, hs, e⟩, by
      unfold keepTess nullTess
      have := hp.we.ne; have := hp.sn.ne; have := hp.bt.ne
      simp [*]⟩)
    have hl := adList_touching (tessParams "g_z" true q) rfl
      (by show 2.5 ≤ distanceSizeRatio "g_z"; unfold distanceSizeRatio; rw [if_neg (by decide)]) _ [s.1] [] _
      (fun x hx => by rw [List.mem_singleton.1 hx]; exact ⟨hp, hw⟩) ⟨s.1, by simp, hb⟩ (tessPieces_spec (tessParams "g_z" true q) stackSize_pos s.1)
    rw [hl] at hp'
    simp at hp'
  obtain ⟨e, he, -⟩ := hform.2 hno
  exact ⟨e, he, C16_tesseroid_gravity_errors_partial junk m M fuel stack0 small0 shape obs hshape srcs "g_z" true dis hm
    hprop e he⟩

/-! ### the hypotheses are met -/

/-- a point on the top of the tesseroid -/
example (junk : Junk) (M : Minimizer) (fuel : ℕ) (stack0 small0 : ℕ → Tess) :
    ∃ e, tesseroidGravity junk .serial M fuel stack0 small0 (arrays [1] [⟨0.25, 0.5, 2⟩])
      ([(⟨0, 1, 0, 1, 1, 2⟩, 1)].map (·.1)) (.values ([((⟨0, 1, 0, 1, 1, 2⟩ : Tess), 1)].map (·.2)))
      "g_z" true false = some (.error e) ∧ (e = .ValueError ∨ e = .OverflowError) := by
  have hp : (⟨0, 1, 0, 1, 1, 2⟩ : Tess).Proper :=
    ⟨by norm_num, by norm_num, by norm_num, by norm_num, by norm_num, by norm_num, by norm_num⟩
  refine C148_touching_call junk .serial M fuel stack0 small0 [1] [⟨0.25, 0.5, 2⟩] (by simp)
    [(⟨0, 1, 0, 1, 1, 2⟩, 1)] false trivial (by simpa using hp) ⟨0.25, 0.5, 2⟩ (by simp) (⟨0, 1, 0, 1, 1, 2⟩, 1)
    (by simp) (by norm_num) (by norm_num) ⟨⟨0, by norm_num, ?_⟩, by norm_num, by norm_num⟩
  rw [eastEnd_of_le (by norm_num)]
  norm_num

/-- a tesseroid of one by one degrees, one kilometre thick -/
noncomputable def square : Tess := ⟨10, 11, 45, 46, 6370000, 6371000⟩

theorem square_far (t : Tess) (ht : t = square) (q : P3) (hq : q.z = 6373000) (a : P3) (ha : t.Body a) :
    2000 ≤ dist (sphPos q) (sphPos a) := by
  subst ht
  obtain ⟨-, -, h1, h2⟩ := ha
  simp only [square] at h1 h2
  have h3 := norm_sub_norm_le (sphPos q) (sphPos a)
  rw [norm_sphPos q (by rw [hq]; norm_num), norm_sphPos a (by linarith), ← dist_eq_norm] at h3
  linarith

/-- C148: the tesseroid above, seen from two kilometres above it at its centre and at another longitude -/
example (junk : Junk) (M : Minimizer) (fuel : ℕ) (stack0 small0 : ℕ → Tess) (ρ : ℝ) :
    ∃ data, data.length = 2 ∧ tesseroidGravity junk .serial M fuel stack0 small0
      (arrays [2] [⟨10.5, 45.5, 6373000⟩, ⟨371, 45, 6373000⟩]) ([(square, ρ)].map (·.1))
      (.values ([(square, ρ)].map (·.2))) "g_z" false false = some (.ok ⟨[2], data⟩) := by
  have hπ := Real.pi_lt_d2
  refine C148_horizontal junk .serial M fuel stack0 small0 [2]
    [⟨10.5, 45.5, 6373000⟩, ⟨371, 45, 6373000⟩] (by simp) [(square, ρ)] "g_z" (Or.inr rfl) trivial
    ?_ ?_ 2000 (by norm_num) ?_ ?_
  · simp only [List.mem_singleton, forall_eq]
    exact ⟨⟨by norm_num [square], by norm_num [square], by norm_num [square], by norm_num [square],
      by norm_num [square], by norm_num [square], by norm_num [square]⟩, Or.inl (by norm_num [square])⟩
  · simp only [List.mem_singleton, forall_eq]
    norm_num [square]
  · intro q hq s hs a ha
    rw [List.mem_singleton.1 hs] at ha
    refine square_far square rfl q ?_ a ha
    simp only [List.mem_cons, List.not_mem_nil, or_false] at hq
    rcases hq with rfl | rfl <;> rfl
  · simp only [List.mem_singleton, forall_eq]
    rw [eastEnd_of_le (by norm_num [square])]
    unfold ratioOf radians
    rw [if_neg (by decide)]
    norm_num [square]
    linarith

/-- C148 with a density that depends on the radius, and with the radial discretization -/
example (junk : Junk) (M : Minimizer) (hM : M.InBounds) (stack0 small0 : ℕ → Tess) :
    ∃ fuel0 data, data.length = 1 ∧ ∀ fuel ≥ fuel0, tesseroidGravity junk .serial M fuel stack0 small0
      (arrays [1] [⟨10.5, 45.5, 6373000⟩]) [square] (.func fun r => 7000 - r / 1000) "potential" true false
        = some (.ok ⟨[1], data⟩) := by
  have hπ := Real.pi_lt_d2
  obtain ⟨k, hk⟩ := densityDiscretization_bound M (fun r => 7000 - r / 1000) ([square].map (usedTess false))
  refine C148_returns_func junk .serial M hM stack0 small0 [1] [⟨10.5, 45.5, 6373000⟩] (by simp) [square] (by simp)
    (fun r => 7000 - r / 1000) (by fun_prop) "potential" (Or.inl rfl) true k hk trivial
    ?_ ?_ ?_ (fun _ => 2000) (by norm_num) ?_ ?_
  · simp only [List.mem_singleton, forall_eq]
    exact ⟨⟨by norm_num [square], by norm_num [square], by norm_num [square], by norm_num [square],
      by norm_num [square], by norm_num [square], by norm_num [square]⟩, Or.inl (by norm_num [square])⟩
  · simp only [List.mem_singleton, forall_eq]
    norm_num [square]
  · simp only [List.mem_singleton, forall_eq]
    rw [eastEnd_of_le (by norm_num [square])]
    norm_num [square]
  · intro q hq t ht a ha
    rw [List.mem_singleton.1 ht] at ha
    refine square_far square rfl q ?_ a ha
    rw [List.mem_singleton.1 hq]
  · simp only [List.mem_singleton, forall_eq]
    refine ⟨7, 7, 0, by norm_num, ?_, ?_, fun _ => ?_⟩
    · rw [eastEnd_of_le (by norm_num [square])]
      unfold ratioOf radians
      rw [if_pos rfl]
      norm_num [square]
      linarith
    · unfold ratioOf radians
      rw [if_pos rfl]
      norm_num [square]
      linarith
    · unfold ratioOf
      rw [if_pos rfl]
      norm_num [square]

/-- a model of the Earth with two layers in cells of one degree, seen from two kilometres above it: the hypotheses of
`C148_global` on the distance are met -/
example : (6371000 : ℝ) * (2 * Real.pi / (360 : ℕ)) ≤ 256 * 2000 ∧ (6371000 : ℝ) * (Real.pi / (180 : ℕ)) ≤ 256 * 2000 ∧
    ∀ s ∈ [((0 : ℝ), (6336000 : ℝ), (5500 : ℝ)), (6336000, 6371000, 2800)], 0 ≤ s.1 ∧ s.1 ≤ s.2.1 ∧ s.2.1 ≤ 6371000 ∧
      s.2.1 - s.1 ≤ 6336000 := by
  have := Real.pi_lt_d2
  refine ⟨by norm_num; linarith, by norm_num; linarith, ?_⟩
  intro s hs
  simp only [List.mem_cons, List.not_mem_nil, or_false] at hs
  rcases hs with rfl | rfl <;> norm_num

end Verif.Tesseroid
