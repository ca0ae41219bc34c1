import Verif.Layers.PropsG

/-! C158: how errors of the tops, bottoms and densities of a layer change its gravity. -/

namespace Verif.Layers
open MeasureTheory Set Verif.Distance Verif.Engine
open Verif.Forward (Prism PrismKernels bodyKernels bodyKernels_newtonian)
open Verif.Ellipsoids (V3 newtonField newtonElement vec prismDensity prism_newton inv_sq_region pull abs_pull_le)

/-! ### Specification -/

/-- What two layers are made of at a node, surface, reference and density, is near: both have a NaN, or the surfaces,
references and densities differ at most by `δs`, `δr` and `δd`. `M` is the largest density, `H` the largest thickness. -/
def NearNodes (δs δr δd M H : ℝ) (S R D S' R' D' : Option ℝ) : Prop :=
  ((S = none ∨ R = none ∨ D = none) ∧ (S' = none ∨ R' = none ∨ D' = none)) ∨
    ∃ s r d s' r' d', (S = some s ∧ R = some r ∧ D = some d) ∧ (S' = some s' ∧ R' = some r' ∧ D' = some d') ∧
      |s - s'| ≤ δs ∧ |r - r'| ≤ δr ∧ |d - d'| ≤ δd ∧ |d| ≤ M ∧ |d'| ≤ M ∧ |s - r| ≤ H

/-- The array of a reference that is a number or one value for each node. -/
def IsReference (R : Arr) (nn ne : ℕ) (reference : ℕ → ℕ → Option ℝ) : Prop :=
  (∃ r, (∀ k j, reference k j = some r) ∧ R.shape = [] ∧ R.data = [some r]) ∨
    R = ⟨.float, [nn, ne], grid nn ne reference⟩

/-! ### Lemmas -/

theorem cube_region {S : Set V3} (hv : volume S < ⊤) (p : V3) {r : ℝ} (hr0 : 0 ≤ r) (hr : volume.real S ≤ r ^ 3) :
    IntegrableOn (fun x => (‖x - p‖ ^ 2)⁻¹) S ∧ ∫ x in S, (‖x - p‖ ^ 2)⁻¹ ≤ 25 * r := by
  refine ⟨(inv_sq_region hv p one_pos).1, ?_⟩
  rcases hr0.eq_or_lt with rfl | hrp
  · have h0 : volume S = 0 := by
      rw [zero_pow (by norm_num)] at hr
      have := le_antisymm hr measureReal_nonneg
      exact (measureReal_eq_zero_iff hv.ne).1 this
    rw [setIntegral_measure_zero _ h0, mul_zero]
  · refine (inv_sq_region hv p hrp).2.trans ?_
    have : volume.real S / r ^ 2 ≤ r := by
      rw [div_le_iff₀ (by positivity)]
      exact hr.trans (le_of_eq (by ring))
    linarith

/-- Densities, their regions and lengths of cubes of at least their volume. -/
theorem cube_sum (L : List (ℝ × Set V3 × ℝ)) (hL : ∀ t ∈ L, 0 ≤ t.1 ∧ MeasurableSet t.2.1 ∧ volume t.2.1 < ⊤ ∧
    0 ≤ t.2.2 ∧ volume.real t.2.1 ≤ t.2.2 ^ 3) (p : V3) :
    Integrable (fun x => (L.map fun t => t.2.1.indicator (fun _ => t.1) x).sum * (‖x - p‖ ^ 2)⁻¹) ∧
      ∫ x, (L.map fun t => t.2.1.indicator (fun _ => t.1) x).sum * (‖x - p‖ ^ 2)⁻¹ ≤
        25 * (L.map fun t => t.1 * t.2.2).sum := by
  induction L with
  | nil => simp
  | cons t L ih =>
    obtain ⟨i1, i2⟩ := ih fun t ht => hL t (by simp [ht])
    obtain ⟨t1, t2, t3, t4, t5⟩ := hL t (by simp)
    obtain ⟨j1, j2⟩ := cube_region t3 p t4 t5
    have e0 : (fun x => t.2.1.indicator (fun _ => t.1) x * (‖x - p‖ ^ 2)⁻¹) =
        t.2.1.indicator fun x => t.1 * (‖x - p‖ ^ 2)⁻¹ := by
      funext x
      by_cases hx : x ∈ t.2.1
      · rw [indicator_of_mem hx, indicator_of_mem hx]
      · rw [indicator_of_notMem hx, indicator_of_notMem hx, zero_mul]
    have k1 : Integrable fun x => t.2.1.indicator (fun _ => t.1) x * (‖x - p‖ ^ 2)⁻¹ := by
      rw [e0, integrable_indicator_iff t2]
      exact j1.const_mul _
    have k2 : ∫ x, t.2.1.indicator (fun _ => t.1) x * (‖x - p‖ ^ 2)⁻¹ ≤ t.1 * (25 * t.2.2) := by
      rw [e0, integral_indicator t2, integral_const_mul]
      exact mul_le_mul_of_nonneg_left j2 t1
    simp only [List.map_cons, List.sum_cons, add_mul]
    refine ⟨k1.add i1, ?_⟩
    rw [integral_add k1 i1]
    linarith

theorem newton_close_cubes {ρ ρ' : V3 → ℝ} {p : V3} {i : Fin 3} (h : Integrable (newtonElement ρ p i))
    (h' : Integrable (newtonElement ρ' p i)) {L : List (ℝ × Set V3 × ℝ)}
    (hL : ∀ t ∈ L, 0 ≤ t.1 ∧ MeasurableSet t.2.1 ∧ volume t.2.1 < ⊤ ∧ 0 ≤ t.2.2 ∧ volume.real t.2.1 ≤ t.2.2 ^ 3)
    (hρ : ∀ᵐ x, |ρ x - ρ' x| ≤ (L.map fun t => t.2.1.indicator (fun _ => t.1) x).sum) :
    |newtonField ρ p i - newtonField ρ' p i| ≤ 6.6743e-11 * (25 * (L.map fun t => t.1 * t.2.2).sum) := by
  obtain ⟨i1, i2⟩ := cube_sum L hL p
  unfold newtonField
  rw [← integral_sub h h', ← Real.norm_eq_abs]
  refine (norm_integral_le_of_norm_le (i1.const_mul 6.6743e-11) ?_).trans ?_
  · filter_upwards [hρ] with x hx
    have e1 : newtonElement ρ p i x - newtonElement ρ' p i x = 6.6743e-11 * ((ρ x - ρ' x) * pull i (x - p)) := by
      unfold newtonElement pull
      rw [Pi.sub_apply]
      ring
    rw [e1, Real.norm_eq_abs, abs_mul, abs_of_pos (show (0 : ℝ) < 6.6743e-11 by norm_num), abs_mul]
    refine mul_le_mul_of_nonneg_left ?_ (by norm_num)
    exact mul_le_mul hx (abs_pull_le i _) (abs_nonneg _) ((abs_nonneg _).trans hx)
  · rw [integral_const_mul]
    exact mul_le_mul_of_nonneg_left i2 (by norm_num)

section
variable {e0 se n0 sn : ℝ} {nn ne : ℕ}

/-- The slabs of the cells from `lo` to `hi`. -/
def slabs (e0 se n0 sn : ℝ) (nn ne : ℕ) (lo hi : ℕ → ℕ → ℝ) : Set V3 :=
  ⋃ c ∈ Finset.range nn ×ˢ Finset.range ne, columns (fun _ _ => lo c.1 c.2) (fun _ _ => hi c.1 c.2)
    (e0 + c.2 * se - se / 2) (e0 + c.2 * se + se / 2) (n0 + c.1 * sn - sn / 2) (n0 + c.1 * sn + sn / 2)

theorem slabs_volume (hse : 0 < se) (hsn : 0 < sn) {lo hi : ℕ → ℕ → ℝ} {h : ℝ} (hh : 0 ≤ h)
    (hlo : ∀ k < nn, ∀ j < ne, hi k j - lo k j ≤ h) :
    MeasurableSet (slabs e0 se n0 sn nn ne lo hi) ∧ volume (slabs e0 se n0 sn nn ne lo hi) < ⊤ ∧
      volume.real (slabs e0 se n0 sn nn ne lo hi) ≤ h * (ne * se * (nn * sn)) := by
  have hbox := fun (c : ℕ × ℕ) (hc : c ∈ Finset.range nn ×ˢ Finset.range ne) =>
    columns_volume (lo := fun _ _ => lo c.1 c.2) (hi := fun _ _ => hi c.1 c.2)
      measurable_const measurable_const (w := e0 + c.2 * se - se / 2) (e := e0 + c.2 * se + se / 2)
      (s := n0 + c.1 * sn - sn / 2) (n := n0 + c.1 * sn + sn / 2) (by linarith) (by linarith) hh
      (fun _ _ _ _ _ _ => by
        simp only [Finset.mem_product, Finset.mem_range] at hc
        exact hlo _ hc.1 _ hc.2)
  refine ⟨Finset.measurableSet_biUnion _ fun c hc => (hbox c hc).1, ?_, ?_⟩
  · exact (measure_biUnion_finset_le _ _).trans_lt (ENNReal.sum_lt_top.2 fun c hc => (hbox c hc).2.1)
  · refine (measureReal_biUnion_finset_le _ _).trans ((Finset.sum_le_card_nsmul _ _ _ fun c hc =>
      (hbox c hc).2.2.trans (le_of_eq (show _ = h * (se * sn) by ring))).trans (le_of_eq ?_))
    rw [nsmul_eq_mul, Finset.card_product, Finset.card_range, Finset.card_range]
    push_cast
    ring

theorem slabs_indicator {lo hi : ℕ → ℕ → ℝ} {m : ℝ} (hm : 0 ≤ m) {k j : ℕ} (hk : k < nn) (hj : j < ne) {x : V3}
    (hjx : |x 0 - (e0 + j * se)| < se / 2) (hky : |x 1 - (n0 + k * sn)| < sn / 2) :
    (if lo k j ≤ x 2 ∧ x 2 ≤ hi k j then m else 0) ≤ (slabs e0 se n0 sn nn ne lo hi).indicator (fun _ => m) x := by
  split_ifs with h
  · have hmem : x ∈ slabs e0 se n0 sn nn ne lo hi := by
      refine mem_biUnion (x := (k, j)) (by simp [hk, hj]) ?_
      have hjx' := abs_lt.1 hjx
      have hky' := abs_lt.1 hky
      refine mem_columns.2 ⟨⟨?_, ?_⟩, ⟨?_, ?_⟩, h.1, h.2⟩
      · simp only; linarith
      · simp only; linarith
      · simp only; linarith
      · simp only; linarith
    rw [indicator_of_mem hmem]
  · exact indicator_nonneg (fun _ _ => hm) x

/-- A number of a node, zero when it has a NaN. -/
def numberOf (S R D v : ℕ → ℕ → Option ℝ) (k j : ℕ) : ℝ :=
  match S k j, R k j, D k j with
  | some _, some _, some _ => (v k j).getD 0
  | _, _, _ => 0

/-- The prisms of the layer made of a surface, a reference and a density. -/
noncomputable def madePrisms (e0 se n0 sn : ℝ) (nn ne : ℕ) (S R D : ℕ → ℕ → Option ℝ) : List (Prism × ℝ) :=
  gravityElements (fun j => e0 + j * se) (fun k => n0 + k * sn) (fun k j => bottomSpec (S k j) (R k j))
    (fun k j => topSpec (S k j) (R k j)) D 0 nn ne

theorem column_missing {s r d : Option ℝ} (h : s = none ∨ r = none ∨ d = none) (z : ℝ) :
    columnDensity 0 d (bottomSpec s r) (topSpec s r) z = 0 := by
  cases s with
  | none => cases r <;> cases d <;> rfl
  | some s =>
    cases r with
    | none => cases d <;> rfl
    | some r =>
      cases d with
      | none => rfl
      | some d => simp at h

variable {S R D S' R' D' : ℕ → ℕ → Option ℝ}

theorem layers_diff (hse : 0 < se) (hsn : 0 < sn) {δs δr δd M H : ℝ} (hδd : 0 ≤ δd) (hM : 0 ≤ M)
    (h : ∀ k < nn, ∀ j < ne, NearNodes δs δr δd M H (S k j) (R k j) (D k j) (S' k j) (R' k j) (D' k j)) :
    ∀ᵐ x : V3, |prismDensity (madePrisms e0 se n0 sn nn ne S' R' D') x -
        prismDensity (madePrisms e0 se n0 sn nn ne S R D) x| ≤
      (slabs e0 se n0 sn nn ne (fun k j => numberOf S R D S k j - δs) (fun k j => numberOf S R D S k j + δs)).indicator
        (fun _ => M) x +
      (slabs e0 se n0 sn nn ne (fun k j => numberOf S R D R k j - δr) (fun k j => numberOf S R D R k j + δr)).indicator
        (fun _ => M) x +
      (slabs e0 se n0 sn nn ne (fun k j => min (numberOf S R D S k j) (numberOf S R D R k j))
        fun k j => max (numberOf S R D S k j) (numberOf S R D R k j)).indicator (fun _ => δd) x := by
  have b1 := layerBody_exists (e0 := e0) (n0 := n0) hse hsn nn ne (fun k j => bottomSpec (S' k j) (R' k j))
    (fun k j => topSpec (S' k j) (R' k j)) D' 0
  have b0 := layerBody_exists (e0 := e0) (n0 := n0) hse hsn nn ne (fun k j => bottomSpec (S k j) (R k j))
    (fun k j => topSpec (S k j) (R k j)) D 0
  filter_upwards [faces_null (w := e0 - se / 2) (se := se) (s := n0 - sn / 2) (sn := sn)] with x hx
  unfold prismDensity madePrisms
  rw [densityAt_elements, densityAt_elements]
  have nn1 := indicator_nonneg (s := slabs e0 se n0 sn nn ne (fun k j => numberOf S R D S k j - δs)
    (fun k j => numberOf S R D S k j + δs)) (f := fun _ => M) (fun _ _ => hM) x
  have nn2 := indicator_nonneg (s := slabs e0 se n0 sn nn ne (fun k j => numberOf S R D R k j - δr)
    (fun k j => numberOf S R D R k j + δr)) (f := fun _ => M) (fun _ _ => hM) x
  have nn3 := indicator_nonneg (s := slabs e0 se n0 sn nn ne
    (fun k j => min (numberOf S R D S k j) (numberOf S R D R k j))
    fun k j => max (numberOf S R D S k j) (numberOf S R D R k j)) (f := fun _ => δd) (fun _ _ => hδd) x
  rcases terrain_cell hse ne hx.1 with ⟨-, j, hj, hjx⟩ | ⟨-, h1'⟩
  · rcases terrain_cell hsn nn hx.2 with ⟨-, k, hk, hky⟩ | ⟨-, h2'⟩
    · rw [sub_add_cancel] at hjx hky
      rw [b1.inside k hk j hj _ _ _ hjx hky, b0.inside k hk j hj _ _ _ hjx hky]
      rcases h k hk j hj with ⟨h1, h2⟩ | ⟨s, r, d, s', r', d', ⟨e1, e2, e3⟩, ⟨f1, f2, f3⟩, hs, hr, hd, hm, hm', -⟩
      · rw [column_missing h1, column_missing h2, sub_zero, abs_zero]
        linarith
      · have i1 := slabs_indicator (lo := fun k j => numberOf S R D S k j - δs)
          (hi := fun k j => numberOf S R D S k j + δs) hM hk hj hjx hky
        have i2 := slabs_indicator (lo := fun k j => numberOf S R D R k j - δr)
          (hi := fun k j => numberOf S R D R k j + δr) hM hk hj hjx hky
        have i3 := slabs_indicator (lo := fun k j => min (numberOf S R D S k j) (numberOf S R D R k j))
          (hi := fun k j => max (numberOf S R D S k j) (numberOf S R D R k j)) hδd hk hj hjx hky
        have g1 : numberOf S R D S k j = s := by simp [numberOf, e1, e2, e3]
        have g2 : numberOf S R D R k j = r := by simp [numberOf, e1, e2, e3]
        simp only [g1, g2] at i1 i2 i3
        have key := column_diff (z := x 2) hs hr hd hm hm'
        rw [e1, e2, e3, f1, f2, f3]
        simp only [topSpec, bottomSpec, columnDensity, sub_nonneg, min_le_max, true_and]
        linarith
    · rw [sub_add_cancel] at h2'
      rw [b1.outside _ _ _ (.inr h2'), b0.outside _ _ _ (.inr h2'), sub_self, abs_zero]
      linarith
  · rw [sub_add_cancel] at h1'
    rw [b1.outside _ _ _ (.inl h1'), b0.outside _ _ _ (.inl h1'), sub_self, abs_zero]
    linarith

theorem made_close (hse : 0 < se) (hsn : 0 < sn) {δs δr δd M H : ℝ} (hδs : 0 ≤ δs) (hδr : 0 ≤ δr) (hδd : 0 ≤ δd)
    (hM : 0 ≤ M) (hH : 0 ≤ H)
    (h : ∀ k < nn, ∀ j < ne, NearNodes δs δr δd M H (S k j) (R k j) (D k j) (S' k j) (R' k j) (D' k j))
    {rs rr rh : ℝ} (hrs0 : 0 ≤ rs) (hrr0 : 0 ≤ rr) (hrh0 : 0 ≤ rh) (hrs : rs ^ 3 = 2 * δs * (ne * se * (nn * sn)))
    (hrr : rr ^ 3 = 2 * δr * (ne * se * (nn * sn))) (hrh : rh ^ 3 = H * (ne * se * (nn * sn))) (p : V3) (i : Fin 3) :
    |newtonField (prismDensity (madePrisms e0 se n0 sn nn ne S' R' D')) p i -
      newtonField (prismDensity (madePrisms e0 se n0 sn nn ne S R D)) p i| ≤
        25 * 6.6743e-11 * (M * rs + M * rr + δd * rh) := by
  have hv : vec ⟨p 0, p 1, p 2⟩ = p := by
    funext i
    fin_cases i <;> rfl
  have h1 := (prism_newton (madePrisms e0 se n0 sn nn ne S' R' D') ⟨p 0, p 1, p 2⟩ i).1
  have h2 := (prism_newton (madePrisms e0 se n0 sn nn ne S R D) ⟨p 0, p 1, p 2⟩ i).1
  rw [hv] at h1 h2
  obtain ⟨a1, a2, a3⟩ := slabs_volume (e0 := e0) (n0 := n0) (nn := nn) (ne := ne) hse hsn (h := 2 * δs) (by linarith)
    (lo := fun k j => numberOf S R D S k j - δs) (hi := fun k j => numberOf S R D S k j + δs)
    (fun k _ j _ => by linarith)
  obtain ⟨b1, b2, b3⟩ := slabs_volume (e0 := e0) (n0 := n0) (nn := nn) (ne := ne) hse hsn (h := 2 * δr) (by linarith)
    (lo := fun k j => numberOf S R D R k j - δr) (hi := fun k j => numberOf S R D R k j + δr)
    (fun k _ j _ => by linarith)
  obtain ⟨c1, c2, c3⟩ := slabs_volume (e0 := e0) (n0 := n0) (nn := nn) (ne := ne) hse hsn hH
    (lo := fun k j => min (numberOf S R D S k j) (numberOf S R D R k j))
    (hi := fun k j => max (numberOf S R D S k j) (numberOf S R D R k j)) (fun k hk j hj => by
      rw [max_sub_min_eq_abs, abs_sub_comm]
      rcases h k hk j hj with ⟨h1, -⟩ | ⟨s, r, d, -, -, -, ⟨e1, e2, e3⟩, -, -, -, -, -, -, hh⟩
      · have : ∀ v, numberOf S R D v k j = 0 := by
          intro v
          unfold numberOf
          split
          · next e1 e2 e3 => simp [e1, e2, e3] at h1
          · rfl
        rw [this, this, sub_zero, abs_zero]
        exact hH
      · simpa [numberOf, e1, e2, e3] using hh)
  have key := newton_close_cubes h1 h2 (L := [(M, _, rs), (M, _, rr), (δd, _, rh)]) (fun t ht => ?_) (by
    filter_upwards [layers_diff (e0 := e0) (n0 := n0) hse hsn hδd hM h] with x hx
    simp only [List.map_cons, List.map_nil, List.sum_cons, List.sum_nil, add_zero]
    rw [← add_assoc]
    exact hx)
  · refine key.trans (le_of_eq ?_)
    simp only [List.map_cons, List.map_nil, List.sum_cons, List.sum_nil, add_zero]
    ring
  · simp only [List.mem_cons, List.not_mem_nil, or_false] at ht
    rcases ht with rfl | rfl | rfl
    · exact ⟨hM, a1, a2, hrs0, a3.trans hrs.ge⟩
    · exact ⟨hM, b1, b2, hrr0, b3.trans hrr.ge⟩
    · exact ⟨hδd, c1, c2, hrh0, c3.trans hrh.ge⟩

end

theorem lookup_data {props : List (String × Arr)} {name : String} {A : Arr} (h : props.lookup name = some A) :
    (props.map fun p => (p.1, p.2.data)).lookup name = some A.data := by
  induction props with
  | nil => cases h
  | cons p l ih =>
    obtain ⟨pn, pa⟩ := p
    rw [List.map_cons]
    rw [List.lookup_cons] at h ⊢
    cases hn : name == pn with
    | true =>
      simp only [hn] at h ⊢
      cases h; rfl
    | false =>
      simp only [hn] at h ⊢
      exact ih h

/-- The layer that is made of a surface and a reference, with NaNs. -/
theorem made_layer (heap : Heap) (e0 se n0 sn : ℝ) {nn ne : ℕ} (hn : 2 ≤ nn) (he : 2 ≤ ne) (a b : ℕ)
    (S R : ℕ → ℕ → Option ℝ) (A : Arr) (hS : heap[a]? = some ⟨.float, [nn, ne], grid nn ne S⟩) (hA : heap[b]? = some A)
    (hR : IsReference A nn ne R) (props : List (String × Arr)) (hp : ∀ p ∈ props, p.2.shape = [nn, ne]) :
    ∃ heap', makeLayer false heap (axis e0 se ne) (axis n0 sn nn) a b props = .ok (heap',
      ⟨axis e0 se ne, axis n0 sn nn, grid nn ne fun k j => topSpec (S k j) (R k j),
        grid nn ne fun k j => bottomSpec (S k j) (R k j), props.map fun p => (p.1, p.2.data)⟩) := by
  have hsh : layerShape (axis e0 se ne) (axis n0 sn nn) = [nn, ne] := by simp [layerShape, axis]
  have hr' : A.shape = [] ∨ A.shape = [nn, ne] := by
    rcases hR with ⟨r, -, h, -⟩ | rfl
    · exact .inl h
    · exact .inr rfl
  have href : ∀ k < nn, ∀ j < ne, refAt A (k * ne + j) = some (R k j) := by
    intro k hk j hj
    unfold refAt
    rcases hR with ⟨r, h1, h2, h3⟩ | rfl
    · rw [if_pos h2, h3, h1]; rfl
    · rw [if_neg (by simp)]
      exact grid_get nn ne k j R hk hj
  have hreg := checkRegular_axis e0 se n0 sn he hn
  obtain ⟨heap', t, bt, R1, hu, -, -, -, hR1, ht, hb⟩ :=
    updateTopBottom_ok (layerShape (axis e0 se ne) (axis n0 sn nn)) heap a b _ A hS hA hsh.symm (by rw [hsh]; exact hr')
  obtain ⟨heap₂, t₂, bt₂, top, bottom, hu₂, ht₂, hb₂, hmake⟩ :=
    (makeLayer_eq false heap (axis e0 se ne) (axis n0 sn nn) a b props _ A hS hA hsh.symm (by rw [hsh]; exact hr')
      (by rw [hsh]; exact hp) hreg).2 (by simp)
  rw [hu] at hu₂; cases hu₂
  rw [ht] at ht₂; cases ht₂
  rw [hb] at hb₂; cases hb₂
  obtain ⟨heap₃, layer, hmake', -, -, -, -, hval⟩ := C19_layer_partial false heap (axis e0 se ne) (axis n0 sn nn) a b props
    _ A hS hA hsh.symm (by rw [hsh]; exact hr') (by rw [hsh]; simp [grid, cells_length]) (by simp)
    (by
      intro h1 h2
      rcases hR with ⟨r, -, h, -⟩ | rfl
      · exact absurd h h1
      · cases h2) (by rw [hsh]; exact hp) hreg (by simp)
  rw [hmake] at hmake'
  cases hmake'
  have hl1 : R1.data.length = nn * ne := by
    rw [hR1, hsh]
    rcases hR with ⟨r, -, h, -⟩ | rfl
    · rw [if_pos h]; simp
    · rw [if_neg (by simp)]; simp [grid, cells_length]
  have htop := grid_ext (nn := nn) (ne := ne) (f := fun k j => topSpec (S k j) (R k j))
    (l := (maskedCopy ⟨.float, [nn, ne], grid nn ne S⟩ R1 (List.zipWith nanLt (grid nn ne S) R1.data)).data)
    (by simp [maskedCopy, grid, cells_length, hl1])
    (fun k hk j hj => (hval _ _ _ (grid_get nn ne k j S hk hj) (href k hk j hj)).1)
  have hbot := grid_ext (nn := nn) (ne := ne) (f := fun k j => bottomSpec (S k j) (R k j))
    (l := (maskedCopy R1 ⟨.float, [nn, ne], grid nn ne S⟩ (List.zipWith nanLt (grid nn ne S) R1.data)).data)
    (by simp [maskedCopy, grid, cells_length, hl1])
    (fun k hk j hj => (hval _ _ _ (grid_get nn ne k j S hk hj) (href k hk j hj)).2)
  refine ⟨heap', hmake.trans ?_⟩
  rw [htop, hbot]

/-! ### C158 -/

/-- C158: two layers made with `prism_layer` on the same grid, with the NaNs at the same nodes, from surfaces, references
and densities that differ at most by `δs`, `δr` and `δd`: their gravity differs at any point, inside or outside, at most by
`25 G (M rs + M rr + δd rh)`. `M` is the largest density; `rs`, `rr` and `rh` are the sides of cubes with the volumes of
`2 δs`, `2 δr` and the largest thickness `H` over the area of the layer. -/
theorem C158_layers (heap heap' : Heap) {e0 se n0 sn : ℝ} (hse : 0 < se) (hsn : 0 < sn)
    {nn ne : ℕ} (hn : 2 ≤ nn) (he : 2 ≤ ne) (a b a' b' : ℕ) (S R D S' R' D' : ℕ → ℕ → Option ℝ) (A A' : Arr)
    (hS : heap[a]? = some ⟨.float, [nn, ne], grid nn ne S⟩) (hA : heap[b]? = some A) (hR : IsReference A nn ne R)
    (hS' : heap'[a']? = some ⟨.float, [nn, ne], grid nn ne S'⟩) (hA' : heap'[b']? = some A')
    (hR' : IsReference A' nn ne R') (props props' : List (String × Arr)) (hp : ∀ p ∈ props, p.2.shape = [nn, ne])
    (hp' : ∀ p ∈ props', p.2.shape = [nn, ne]) (name name' : String) (kind kind' : Utils.Kind)
    (hD : props.lookup name = some ⟨kind, [nn, ne], grid nn ne D⟩)
    (hD' : props'.lookup name' = some ⟨kind', [nn, ne], grid nn ne D'⟩) {δs δr δd M H : ℝ} (hδs : 0 ≤ δs)
    (hδr : 0 ≤ δr) (hδd : 0 ≤ δd) (hM : 0 ≤ M) (hH : 0 ≤ H)
    (h : ∀ k < nn, ∀ j < ne, NearNodes δs δr δd M H (S k j) (R k j) (D k j) (S' k j) (R' k j) (D' k j))
    {rs rr rh : ℝ} (hrs0 : 0 ≤ rs) (hrr0 : 0 ≤ rr) (hrh0 : 0 ≤ rh) (hrs : rs ^ 3 = 2 * δs * (ne * se * (nn * sn)))
    (hrr : rr ^ 3 = 2 * δr * (ne * se * (nn * sn))) (hrh : rh ^ 3 = H * (ne * se * (nn * sn))) :
    ∃ after layer after' layer',
      makeLayer false heap (axis e0 se ne) (axis n0 sn nn) a b props = .ok (after, layer) ∧
      makeLayer false heap' (axis e0 se ne) (axis n0 sn nn) a' b' props' = .ok (after', layer') ∧
      ∀ K : PrismKernels, K.Newtonian → ∃ field field' : V3 → V3, ReturnsLayer K layer (nn * ne) name field ∧
        ReturnsLayer K layer' (nn * ne) name' field' ∧
        ∀ p i, |field' p i - field p i| ≤ 25 * 6.6743e-11 * (M * rs + M * rr + δd * rh) := by
  obtain ⟨after, h1⟩ := made_layer heap e0 se n0 sn hn he a b S R A hS hA hR props hp
  obtain ⟨after', h2⟩ := made_layer heap' e0 se n0 sn hn he a' b' S' R' A' hS' hA' hR' props' hp'
  refine ⟨_, _, _, _, h1, h2, fun K hK => ⟨_, _, returns_above hK hse hsn hn he _ name (lookup_data hD) none (by simp),
    returns_above hK hse hsn hn he _ name' (lookup_data hD') none (by simp), fun p i => ?_⟩⟩
  exact made_close hse hsn hδs hδr hδd hM hH h hrs0 hrr0 hrh0 hrs hrr hrh p i

/-- An error of at most 5 cm of a surface with a NaN changes the gravity of the layer of 2 by 2 elements at most by
that of a cube of rock. -/
example (r : ℝ) (hr0 : 0 ≤ r) (hr : r ^ 3 = 0.4) (h0 : ℝ) (hh0 : 0 ≤ h0) (hh : h0 ^ 3 = 20) :
    ∃ after layer after' layer',
      makeLayer false [⟨.float, [2, 2], grid 2 2 thinTop⟩, ⟨.float, [], [some 0]⟩] (axis 0 1 2) (axis 0 1 2) 0 1
        [("density", ⟨.float, [2, 2], grid 2 2 fun _ _ => some 2670⟩)] = .ok (after, layer) ∧
      makeLayer false [⟨.float, [2, 2], grid 2 2 fun k j => (thinTop k j).map (· - 0.05)⟩, ⟨.float, [], [some 0]⟩]
        (axis 0 1 2) (axis 0 1 2) 0 1
        [("density", ⟨.float, [2, 2], grid 2 2 fun _ _ => some 2670⟩)] = .ok (after', layer') ∧
      ∃ field field' : V3 → V3, ReturnsLayer bodyKernels layer (2 * 2) "density" field ∧
        ReturnsLayer bodyKernels layer' (2 * 2) "density" field' ∧
        ∀ p i, |field' p i - field p i| ≤ 25 * 6.6743e-11 * (2670 * r) := by
  have hnear : ∀ k < 2, ∀ j < 2, NearNodes 0.05 0 0 2670 5 (thinTop k j) (some 0) (some 2670)
      ((thinTop k j).map (· - 0.05)) (some 0) (some 2670) := by
    intro k _ j _
    cases ht : thinTop k j with
    | none => exact .inl ⟨.inl rfl, .inl rfl⟩
    | some t =>
      refine .inr ⟨t, 0, 2670, t - 0.05, 0, 2670, ⟨rfl, rfl, rfl⟩, ⟨rfl, rfl, rfl⟩, ?_, ?_, ?_, ?_, ?_, ?_⟩
      · rw [sub_sub_cancel]; norm_num
      · simp
      · simp
      · norm_num
      · norm_num
      · rw [sub_zero]
        unfold thinTop at ht
        split_ifs at ht <;> cases ht <;> norm_num
  obtain ⟨after, layer, after', layer', h1, h2, h3⟩ := C158_layers
    [⟨.float, [2, 2], grid 2 2 thinTop⟩, ⟨.float, [], [some 0]⟩]
    [⟨.float, [2, 2], grid 2 2 fun k j => (thinTop k j).map (· - 0.05)⟩, ⟨.float, [], [some 0]⟩]
    (e0 := 0) (n0 := 0) one_pos one_pos (nn := 2) (ne := 2) le_rfl le_rfl 0 1 0 1 thinTop (fun _ _ => some 0)
    (fun _ _ => some 2670) _ (fun _ _ => some 0) (fun _ _ => some 2670) ⟨.float, [], [some 0]⟩ ⟨.float, [], [some 0]⟩
    rfl rfl (.inl ⟨0, fun _ _ => rfl, rfl, rfl⟩) rfl rfl (.inl ⟨0, fun _ _ => rfl, rfl, rfl⟩)
    [("density", ⟨.float, [2, 2], grid 2 2 fun _ _ => some 2670⟩)]
    [("density", ⟨.float, [2, 2], grid 2 2 fun _ _ => some 2670⟩)] (by simp) (by simp) "density" "density" .float .float
    rfl rfl (δs := 0.05) (δr := 0) (δd := 0) (M := 2670) (H := 5) (by norm_num) le_rfl le_rfl (by norm_num) (by norm_num)
    hnear hr0 le_rfl hh0 (by rw [hr]; norm_num) (by norm_num) (by rw [hh]; norm_num)
  obtain ⟨f, f', h4, h5, h6⟩ := h3 bodyKernels bodyKernels_newtonian
  exact ⟨after, layer, after', layer', h1, h2, f, f', h4, h5, by simpa using h6⟩

end Verif.Layers
