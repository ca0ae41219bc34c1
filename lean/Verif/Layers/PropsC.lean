import Verif.Layers.PropsB
import Verif.Forward.PropsG

/-! C115: the gravity of a layer of prisms is that of the body between its surface and its reference. -/

namespace Verif.Layers
open Verif.Forward Verif.Engine Verif.Distance Verif.Utils MeasureTheory Filter
open Finset (range)

/-! ### Specification -/

/-- Density of a column at height `z`: its density between its bottom and its top if these are numbers and the column
is not thinner than the threshold `h`; zero elsewhere. -/
noncomputable def columnDensity (h : ℝ) : Option ℝ → Option ℝ → Option ℝ → ℝ → ℝ
  | some d, some b, some t, z => if h ≤ t - b ∧ b ≤ z ∧ z ≤ t then d else 0
  | _, _, _, _ => 0

/-- `ρ` is the density of the body of a layer with `nn` by `ne` nodes: around each node it is the density of its
column, and zero outside the region of the layer. On the vertical faces between columns any value. -/
structure LayerBody (e0 se n0 sn : ℝ) (nn ne : ℕ) (B T D : ℕ → ℕ → Option ℝ) (h : ℝ) (ρ : ℝ × ℝ × ℝ → ℝ) : Prop where
  inside : ∀ k < nn, ∀ j < ne, ∀ x y z : ℝ, |x - (e0 + j * se)| < se / 2 → |y - (n0 + k * sn)| < sn / 2 →
    ρ (x, y, z) = columnDensity h (D k j) (B k j) (T k j) z
  outside : ∀ x y z : ℝ, (∀ j < ne, se / 2 < |x - (e0 + j * se)|) ∨ (∀ k < nn, sn / 2 < |y - (n0 + k * sn)|) →
    ρ (x, y, z) = 0

/-- The point is not in the body of the layer. -/
def OutsideLayer (e0 se n0 sn : ℝ) (nn ne : ℕ) (B T : ℕ → ℕ → Option ℝ) (q : P3) : Prop :=
  ∀ k < nn, ∀ j < ne, ∀ b ∈ B k j, ∀ t ∈ T k j,
    ¬ (|q.x - (e0 + j * se)| ≤ se / 2 ∧ |q.y - (n0 + k * sn)| ≤ sn / 2 ∧ b ≤ q.z ∧ q.z ≤ t)

/-! ### Lemmas -/

theorem sum_cells (nn ne : ℕ) (g : ℕ → ℕ → ℝ) :
    ((cells nn ne).map fun p => g p.1 p.2).sum = ∑ k ∈ range nn, ∑ j ∈ range ne, g k j := by
  have h1 : ∀ k, ((List.range ne).map fun j => g k j).sum = ∑ j ∈ range ne, g k j := by
    intro k
    induction ne with
    | zero => simp
    | succ n ih => rw [List.range_succ, List.map_append, List.sum_append, ih, Finset.sum_range_succ]; simp
  unfold cells
  induction nn with
  | zero => simp
  | succ n ih =>
    rw [List.range_succ, List.flatMap_append, List.map_append, List.sum_append, ih, Finset.sum_range_succ]
    simp [Function.comp_def, h1]

theorem abs_cell (x c s : ℝ) : |x - c| ≤ s / 2 ↔ c - s / 2 ≤ x ∧ x ≤ c + s / 2 := by
  rw [abs_le]
  constructor <;> rintro ⟨h1, h2⟩ <;> constructor <;> linarith

open Classical in
/-- density of one cell -/
noncomputable def cellDensity (e0 se n0 sn : ℝ) (B T D : ℕ → ℕ → Option ℝ) (h : ℝ) (k j : ℕ) (r : ℝ × ℝ × ℝ) : ℝ :=
  if |r.1 - (e0 + j * se)| ≤ se / 2 ∧ |r.2.1 - (n0 + k * sn)| ≤ sn / 2 then
    columnDensity h (D k j) (B k j) (T k j) r.2.2 else 0

theorem densityAt_elements (e0 se n0 sn : ℝ) (nn ne : ℕ) (B T D : ℕ → ℕ → Option ℝ) (h : ℝ) (r : ℝ × ℝ × ℝ) :
    densityAt (gravityElements (fun j => e0 + j * se) (fun k => n0 + k * sn) B T D h nn ne) r =
      ∑ k ∈ range nn, ∑ j ∈ range ne, cellDensity e0 se n0 sn B T D h k j r := by
  classical
  rw [← sum_cells]
  unfold densityAt gravityElements
  induction cells nn ne with
  | nil => rfl
  | cons p l ih =>
    rw [List.map_cons, List.sum_cons, ← ih, List.filterMap_cons]
    cases hd : D p.1 p.2 with
    | none => simp [cellDensity, columnDensity, hd]
    | some d =>
      cases hb : B p.1 p.2 with
      | none => simp [cellDensity, columnDensity, hd, hb]
      | some b =>
        cases ht : T p.1 p.2 with
        | none => simp [cellDensity, columnDensity, hd, hb, ht]
        | some t =>
          simp only [cellDensity, hd, hb, ht, columnDensity]
          by_cases hc : d ≠ 0 ∧ h ≤ t - b
          · simp only [if_pos hc, List.map_cons, List.sum_cons]
            congr 1
            simp only [Set.indicator_apply, Prism.body, Set.mem_prod, Set.mem_Icc, abs_cell, hc.2, true_and]
            push_cast
            simp only [zero_mul, add_zero, one_mul, add_sub_cancel_left]
            by_cases h1 : e0 + p.2 * se - se / 2 ≤ r.1 ∧ r.1 ≤ e0 + p.2 * se + se / 2 <;>
            by_cases h2 : n0 + p.1 * sn - sn / 2 ≤ r.2.1 ∧ r.2.1 ≤ n0 + p.1 * sn + sn / 2 <;>
            by_cases h3 : b ≤ r.2.2 ∧ r.2.2 ≤ t <;> simp [h1, h2, h3]
          · simp only [if_neg hc]
            refine (zero_add _).symm.trans (congrArg (· + _) ?_)
            rcases not_and_or.1 hc with h0 | h0
            · rw [not_not] at h0
              simp [h0]
            · simp [h0]

/-- Two different nodes are not both within half a spacing. -/
theorem cell_unique {c s x : ℝ} (hs : 0 < s) {i j : ℕ} (hi : |x - (c + i * s)| < s / 2) (hij : i ≠ j) :
    ¬ |x - (c + j * s)| ≤ s / 2 := by
  intro hj
  rw [abs_lt] at hi
  rw [abs_le] at hj
  rcases lt_or_gt_of_ne hij with h | h
  · have : (i : ℝ) + 1 ≤ j := by exact_mod_cast h
    nlinarith
  · have : (j : ℝ) + 1 ≤ i := by exact_mod_cast h
    nlinarith

theorem layerBody_density {e0 se n0 sn : ℝ} (hse : 0 < se) (hsn : 0 < sn) {nn ne : ℕ} {B T D : ℕ → ℕ → Option ℝ}
    {h : ℝ} {ρ : ℝ × ℝ × ℝ → ℝ} (hρ : LayerBody e0 se n0 sn nn ne B T D h ρ) :
    ∀ᵐ r, densityAt (gravityElements (fun j => e0 + j * se) (fun k => n0 + k * sn) B T D h nn ne) r = ρ r := by
  have hx : ∀ᵐ r : ℝ × ℝ × ℝ, ∀ j : ℕ, r.1 ≠ e0 + j * se - se / 2 ∧ r.1 ≠ e0 + j * se + se / 2 :=
    ae_all_iff.2 fun j => (plane_x _).and (plane_x _)
  have hy : ∀ᵐ r : ℝ × ℝ × ℝ, ∀ k : ℕ, r.2.1 ≠ n0 + k * sn - sn / 2 ∧ r.2.1 ≠ n0 + k * sn + sn / 2 :=
    ae_all_iff.2 fun k => (plane_y _).and (plane_y _)
  filter_upwards [hx, hy] with r hx hy
  obtain ⟨x, y, z⟩ := r
  simp only at hx hy
  have hx' : ∀ j : ℕ, |x - (e0 + j * se)| < se / 2 ∨ se / 2 < |x - (e0 + j * se)| := by
    intro j
    refine lt_or_gt_of_ne fun he => ?_
    rcases (abs_eq (by positivity)).1 he with he | he
    · exact (hx j).2 (by linarith)
    · exact (hx j).1 (by linarith)
  have hy' : ∀ k : ℕ, |y - (n0 + k * sn)| < sn / 2 ∨ sn / 2 < |y - (n0 + k * sn)| := by
    intro k
    refine lt_or_gt_of_ne fun he => ?_
    rcases (abs_eq (by positivity)).1 he with he | he
    · exact (hy k).2 (by linarith)
    · exact (hy k).1 (by linarith)
  rw [densityAt_elements]
  by_cases h1 : ∃ j < ne, |x - (e0 + j * se)| < se / 2
  · by_cases h2 : ∃ k < nn, |y - (n0 + k * sn)| < sn / 2
    · obtain ⟨j, hj, hjx⟩ := h1
      obtain ⟨k, hk, hky⟩ := h2
      rw [hρ.inside k hk j hj x y z hjx hky]
      refine (Finset.sum_eq_single k (fun k' _ hk' => Finset.sum_eq_zero fun j' _ =>
          if_neg fun hc => cell_unique hsn hky hk'.symm hc.2) (fun h => absurd (Finset.mem_range.2 hk) h)).trans ?_
      refine (Finset.sum_eq_single j (fun j' _ hj' => if_neg fun hc => cell_unique hse hjx hj'.symm hc.1)
          (fun h => absurd (Finset.mem_range.2 hj) h)).trans ?_
      exact if_pos ⟨hjx.le, hky.le⟩
    · push Not at h2
      have h2' : ∀ k < nn, sn / 2 < |y - (n0 + k * sn)| := fun k hk => (hy' k).resolve_left (not_lt.2 (h2 k hk))
      rw [hρ.outside x y z (Or.inr h2')]
      exact Finset.sum_eq_zero fun k hk => Finset.sum_eq_zero fun j _ => if_neg fun hc =>
        absurd hc.2 (not_le.2 (h2' k (Finset.mem_range.1 hk)))
  · push Not at h1
    have h1' : ∀ j < ne, se / 2 < |x - (e0 + j * se)| := fun j hj => (hx' j).resolve_left (not_lt.2 (h1 j hj))
    rw [hρ.outside x y z (Or.inl h1')]
    exact Finset.sum_eq_zero fun k _ => Finset.sum_eq_zero fun j hj => if_neg fun hc =>
      absurd hc.1 (not_le.2 (h1' j (Finset.mem_range.1 hj)))

theorem mem_elements {E N : ℕ → ℝ} {B T D : ℕ → ℕ → Option ℝ} {h : ℝ} {nn ne : ℕ} {s : Prism × ℝ}
    (hs : s ∈ gravityElements E N B T D h nn ne) :
    ∃ k < nn, ∃ j < ne, ∃ d b t, D k j = some d ∧ B k j = some b ∧ T k j = some t ∧ h ≤ t - b ∧
      s = (⟨E j - (E 1 - E 0) / 2, E j + (E 1 - E 0) / 2, N k - (N 1 - N 0) / 2, N k + (N 1 - N 0) / 2, b, t⟩, d) := by
  obtain ⟨p, hp, hf⟩ := List.mem_filterMap.1 hs
  obtain ⟨hk, hj⟩ := mem_cells.1 hp
  split at hf
  · next d b t hd hb ht =>
    split_ifs at hf with hc
    cases hf
    exact ⟨p.1, hk, p.2, hj, d, b, t, hd, hb, ht, hc.2, rfl⟩
  · cases hf

theorem elements_length (E N : ℕ → ℝ) (B T D : ℕ → ℕ → Option ℝ) (h : ℝ) (nn ne : ℕ) :
    (gravityElements E N B T D h nn ne).length ≤ nn * ne := by
  unfold gravityElements
  exact (List.length_filterMap_le _ _).trans (cells_length nn ne).le

/-- What the gravity of a layer is, in terms of the density of its elements. -/
theorem layerGravity_density (junk : Junk) (mode : Mode) {K : PrismKernels} (hK : K.Newtonian) (shape : List ℕ)
    (obs : List P3) (hshape : shape.prod = obs.length) {e0 se n0 sn : ℝ} (hse : 0 < se) (hsn : 0 < sn) {nn ne : ℕ}
    (hn : 2 ≤ nn) (he : 2 ≤ ne) (B T D : ℕ → ℕ → Option ℝ) (vars : List (String × List (Option ℝ))) (name : String)
    (hD : vars.lookup name = some (grid nn ne D)) (threshold : Option ℝ) (hth : ∀ t ∈ threshold, 0 ≤ t)
    (hm : mode.Full obs.length (2 * (nn * ne))) (field : String)
    (ho : field ∈ everywhere ∨ ∀ q ∈ obs, OutsideLayer e0 se n0 sn nn ne B T q) :
    let srcs := gravityElements (fun j => e0 + j * se) (fun k => n0 + k * sn) B T D (threshold.getD 0) nn ne
    (∀ s ∈ srcs, s.1.Ordered) ∧ (∀ q ∈ obs, Allowed field srcs q) ∧
    layerGravity junk mode K ⟨axis e0 se ne, axis n0 sn nn, grid nn ne T, grid nn ne B, vars⟩ (arrays shape obs) field
        name threshold =
      match prismFieldTable K field, pointFieldTable newtonKernels field with
      | some _, some (k0, factor) =>
        .ok ⟨shape, obs.map fun q => factor * ∫ r, densityAt srcs r * k0 q (pointAt r) 1⟩
      | _, _ => .error .ValueError := by
  intro srcs
  have h0 : 0 ≤ threshold.getD 0 := by
    cases threshold with
    | none => simp
    | some t => exact hth t rfl
  have hord : ∀ s ∈ srcs, s.1.Ordered := by
    intro s hs
    obtain ⟨k, -, j, -, d, b, t, -, -, -, hbt, rfl⟩ := mem_elements hs
    refine ⟨?_, ?_, ?_⟩ <;> push_cast <;> linarith
  have hall : ∀ q ∈ obs, Allowed field srcs q := by
    intro q hq
    refine ho.imp id fun h s hs hin => ?_
    obtain ⟨k, hk, j, hj, d, b, t, -, hb, ht, hbt, rfl⟩ := mem_elements hs
    refine h q hq k hk j hj b hb t ht ?_
    obtain ⟨⟨h1, h2⟩, ⟨h3, h4⟩, h5, h6⟩ := hin
    simp only [Verif.Forward.coords] at h1 h2 h3 h4 h5 h6
    push_cast at h1 h2 h3 h4
    rw [abs_cell, abs_cell]
    exact ⟨⟨by linarith, by linarith⟩, ⟨by linarith, by linarith⟩, h5, h6⟩
  refine ⟨hord, hall, ?_⟩
  rw [axis_eq_coords, axis_eq_coords,
    C21_layer_gravity junk mode .serial K shape obs hshape hn he (fun j : ℕ => e0 + j * se) (fun k : ℕ => n0 + k * sn)
      (checkRegular_axis e0 se n0 sn he hn) B T D vars name hD threshold false field
      (by push_cast; intro h; linarith) (by push_cast; intro h; linarith)
      (.inr ⟨by push_cast; linarith, by push_cast; linarith, hth⟩)
      (.inr fun k c hkc q hq s hs hbt => by
        obtain ⟨k0, a, hk0, ha, -, hk⟩ := hK.table hkc
        rw [hk q s.1 s.2 (hord s hs) ((hall q hq).imp (fun h => ha h) fun h => h s hs)]
        exact s.1.integral_null (hord s hs) (by unfold Prism.volume; rw [hbt]; ring) _) hm trivial]
  exact prismGravity_density junk .serial hK shape obs hshape srcs false hord trivial field hall

/-! ### C115 -/

/-- C115: the gravity of a layer of prisms is that of its body: with `ρ` the density of the body (`LayerBody`: the
density of the column around each node, between its bottom and its top), each value is the integral of `ρ` times the
field of a unit point mass; the components of the tensor, for points outside the body. -/
theorem C115_body (junk : Junk) (mode : Mode) {K : PrismKernels} (hK : K.Newtonian) (shape : List ℕ)
    (obs : List P3) (hshape : shape.prod = obs.length) {e0 se n0 sn : ℝ} (hse : 0 < se) (hsn : 0 < sn) {nn ne : ℕ}
    (hn : 2 ≤ nn) (he : 2 ≤ ne) (B T D : ℕ → ℕ → Option ℝ) (vars : List (String × List (Option ℝ))) (name : String)
    (hD : vars.lookup name = some (grid nn ne D)) (threshold : Option ℝ) (hth : ∀ t ∈ threshold, 0 ≤ t)
    (hm : mode.Full obs.length (2 * (nn * ne))) (field : String) (hf : field ∈ prismFieldNames)
    (ho : field ∈ everywhere ∨ ∀ q ∈ obs, OutsideLayer e0 se n0 sn nn ne B T q)
    (ρ : ℝ × ℝ × ℝ → ℝ) (hρ : LayerBody e0 se n0 sn nn ne B T D (threshold.getD 0) ρ) :
    ∃ k factor, pointFieldTable newtonKernels field = some (k, factor) ∧
      layerGravity junk mode K ⟨axis e0 se ne, axis n0 sn nn, grid nn ne T, grid nn ne B, vars⟩ (arrays shape obs) field
        name threshold =
        .ok ⟨shape, obs.map fun q => factor * ∫ r, ρ r * k q (pointAt r) 1⟩ := by
  obtain ⟨-, -, h⟩ := layerGravity_density junk mode hK shape obs hshape hse hsn hn he B T D vars name hD threshold hth
    hm field ho
  obtain ⟨k, factor, ht⟩ : ∃ k factor, prismFieldTable K field = some (k, factor) := by
    simp only [prismFieldNames, List.mem_cons, List.not_mem_nil, or_false] at hf
    rcases hf with rfl | rfl | rfl | rfl | rfl | rfl | rfl | rfl | rfl | rfl <;>
      exact ⟨_, _, by simp [prismFieldTable]; exact ⟨rfl, rfl⟩⟩
  obtain ⟨k0, a, -, -, ht', -⟩ := hK.table ht
  refine ⟨k0, factor, ht', h.trans ?_⟩
  rw [ht, ht']
  simp only
  congr 2
  apply List.map_congr_left
  intro q _
  congr 1
  apply integral_congr_ae
  filter_upwards [layerBody_density hse hsn hρ] with r hr
  rw [hr]

/-- C115: two layers, whatever their grids, that describe the same body have the same gravity. -/
theorem C115_same_body (junk junk' : Junk) (mode mode' : Mode) {K : PrismKernels} (hK : K.Newtonian) (shape : List ℕ)
    (obs : List P3) (hshape : shape.prod = obs.length)
    {e0 se n0 sn : ℝ} (hse : 0 < se) (hsn : 0 < sn) {nn ne : ℕ} (hn : 2 ≤ nn) (he : 2 ≤ ne)
    {e0' se' n0' sn' : ℝ} (hse' : 0 < se') (hsn' : 0 < sn') {nn' ne' : ℕ} (hn' : 2 ≤ nn') (he' : 2 ≤ ne')
    (B T D B' T' D' : ℕ → ℕ → Option ℝ) (vars vars' : List (String × List (Option ℝ))) (name name' : String)
    (hD : vars.lookup name = some (grid nn ne D)) (hD' : vars'.lookup name' = some (grid nn' ne' D'))
    (threshold threshold' : Option ℝ) (hth : ∀ t ∈ threshold, 0 ≤ t) (hth' : ∀ t ∈ threshold', 0 ≤ t)
    (hm : mode.Full obs.length (2 * (nn * ne))) (hm' : mode'.Full obs.length (2 * (nn' * ne'))) (field : String)
    (ho : field ∈ everywhere ∨
      ∀ q ∈ obs, OutsideLayer e0 se n0 sn nn ne B T q ∧ OutsideLayer e0' se' n0' sn' nn' ne' B' T' q)
    (ρ : ℝ × ℝ × ℝ → ℝ) (hρ : LayerBody e0 se n0 sn nn ne B T D (threshold.getD 0) ρ)
    (hρ' : LayerBody e0' se' n0' sn' nn' ne' B' T' D' (threshold'.getD 0) ρ) :
    layerGravity junk mode K ⟨axis e0 se ne, axis n0 sn nn, grid nn ne T, grid nn ne B, vars⟩ (arrays shape obs) field
      name threshold =
    layerGravity junk' mode' K ⟨axis e0' se' ne', axis n0' sn' nn', grid nn' ne' T', grid nn' ne' B', vars'⟩
      (arrays shape obs) field name' threshold' := by
  obtain ⟨-, -, h⟩ := layerGravity_density junk mode hK shape obs hshape hse hsn hn he B T D vars name hD threshold hth
    hm field (ho.imp id fun h q hq => (h q hq).1)
  obtain ⟨-, -, h'⟩ := layerGravity_density junk' mode' hK shape obs hshape hse' hsn' hn' he' B' T' D' vars' name' hD'
    threshold' hth' hm' field (ho.imp id fun h q hq => (h q hq).2)
  rw [h, h']
  cases prismFieldTable K field with
  | none => rfl
  | some _ =>
    cases pointFieldTable newtonKernels field with
    | none => rfl
    | some kf =>
      simp only
      congr 2
      apply List.map_congr_left
      intro q _
      congr 1
      apply integral_congr_ae
      filter_upwards [layerBody_density hse hsn hρ, layerBody_density hse' hsn' hρ'] with r hr hr'
      rw [hr, hr']

/-- C115: the gravity of a layer is the sum of the gravity of its parts under and over any surface between its
bottom and its top, with the same densities. -/
theorem C115_stack (junk : Junk) (mode : Mode) {K : PrismKernels} (hK : K.Newtonian) (shape : List ℕ)
    (obs : List P3) (hshape : shape.prod = obs.length) {e0 se n0 sn : ℝ} (hse : 0 < se) (hsn : 0 < sn) {nn ne : ℕ}
    (hn : 2 ≤ nn) (he : 2 ≤ ne) (b m t : ℕ → ℕ → ℝ) (hb : ∀ k j, b k j ≤ m k j) (ht : ∀ k j, m k j ≤ t k j)
    (D : ℕ → ℕ → Option ℝ) (vars : List (String × List (Option ℝ))) (name : String)
    (hD : vars.lookup name = some (grid nn ne D))
    (hm : mode.Full obs.length (2 * (nn * ne))) (field : String) (hf : field ∈ prismFieldNames)
    (ho : field ∈ everywhere ∨ ∀ q ∈ obs,
      OutsideLayer e0 se n0 sn nn ne (fun k j => some (b k j)) (fun k j => some (t k j)) q) :
    let layer (B T : ℕ → ℕ → ℝ) : Layer :=
      ⟨axis e0 se ne, axis n0 sn nn, grid nn ne fun k j => some (T k j), grid nn ne fun k j => some (B k j), vars⟩
    let call (B T : ℕ → ℕ → ℝ) := layerGravity junk mode K (layer B T) (arrays shape obs) field name none
    ∃ lower upper : P3 → ℝ, call b m = .ok ⟨shape, obs.map lower⟩ ∧ call m t = .ok ⟨shape, obs.map upper⟩ ∧
      call b t = .ok ⟨shape, obs.map fun q => lower q + upper q⟩ := by
  intro layer call
  have hth : ∀ t ∈ (none : Option ℝ), (0 : ℝ) ≤ t := by simp
  have ho1 : field ∈ everywhere ∨ ∀ q ∈ obs,
      OutsideLayer e0 se n0 sn nn ne (fun k j => some (b k j)) (fun k j => some (m k j)) q := by
    refine ho.imp id fun h q hq k hk j hj x hx y hy hc => ?_
    cases hx; cases hy
    exact h q hq k hk j hj _ rfl _ rfl ⟨hc.1, hc.2.1, hc.2.2.1, hc.2.2.2.trans (ht k j)⟩
  have ho2 : field ∈ everywhere ∨ ∀ q ∈ obs,
      OutsideLayer e0 se n0 sn nn ne (fun k j => some (m k j)) (fun k j => some (t k j)) q := by
    refine ho.imp id fun h q hq k hk j hj x hx y hy hc => ?_
    cases hx; cases hy
    exact h q hq k hk j hj _ rfl _ rfl ⟨hc.1, hc.2.1, (hb k j).trans hc.2.2.1, hc.2.2.2⟩
  obtain ⟨o1, a1, h1⟩ := layerGravity_density junk mode hK shape obs hshape hse hsn hn he _ _ D vars name hD none hth
    hm field ho1
  obtain ⟨o2, a2, h2⟩ := layerGravity_density junk mode hK shape obs hshape hse hsn hn he _ _ D vars name hD none hth
    hm field ho2
  obtain ⟨o3, a3, h3⟩ := layerGravity_density junk mode hK shape obs hshape hse hsn hn he _ _ D vars name hD none hth
    hm field ho
  obtain ⟨k, factor, htab⟩ : ∃ k factor, prismFieldTable K field = some (k, factor) := by
    simp only [prismFieldNames, List.mem_cons, List.not_mem_nil, or_false] at hf
    rcases hf with rfl | rfl | rfl | rfl | rfl | rfl | rfl | rfl | rfl | rfl <;>
      exact ⟨_, _, by simp [prismFieldTable]; exact ⟨rfl, rfl⟩⟩
  obtain ⟨k0, a, hk0, ha, ht', -⟩ := hK.table htab
  rw [htab, ht'] at h1 h2 h3
  refine ⟨_, _, h1, h2, h3.trans ?_⟩
  simp only
  congr 2
  apply List.map_congr_left
  intro q hq
  have i1 := (sum_integrals hk0 _ q ((a1 q hq).imp (fun h => ha h) id)).2
  have i2 := (sum_integrals hk0 _ q ((a2 q hq).imp (fun h => ha h) id)).2
  rw [← mul_add, ← integral_add i1 i2]
  congr 1
  apply integral_congr_ae
  have hz : ∀ᵐ r : ℝ × ℝ × ℝ, ∀ k j : ℕ, r.2.2 ≠ m k j := ae_all_iff.2 fun k => ae_all_iff.2 fun j => plane_z _
  filter_upwards [hz] with r hz
  rw [← add_mul, densityAt_elements, densityAt_elements, densityAt_elements, ← Finset.sum_add_distrib]
  congr 1
  refine Finset.sum_congr rfl fun k _ => ?_
  rw [← Finset.sum_add_distrib]
  refine Finset.sum_congr rfl fun j _ => ?_
  unfold cellDensity
  by_cases hc : |r.1 - (e0 + j * se)| ≤ se / 2 ∧ |r.2.1 - (n0 + k * sn)| ≤ sn / 2
  · simp only [if_pos hc]
    cases D k j with
    | none => simp [columnDensity]
    | some d =>
      have hb := hb k j
      have ht := ht k j
      have hz := hz k j
      simp only [columnDensity, Option.getD_none, sub_nonneg, hb, ht, hb.trans ht, true_and]
      rcases lt_or_gt_of_ne hz with h | h
      · rw [if_neg (fun hc => absurd hc.1 (not_le.2 h) : ¬ (m k j ≤ r.2.2 ∧ r.2.2 ≤ t k j)), add_zero]
        by_cases hb' : b k j ≤ r.2.2
        · rw [if_pos ⟨hb', h.le.trans ht⟩, if_pos ⟨hb', h.le⟩]
        · rw [if_neg (fun hc => hb' hc.1), if_neg (fun hc => hb' hc.1)]
      · rw [if_neg (fun hc => absurd hc.2 (not_le.2 h) : ¬ (b k j ≤ r.2.2 ∧ r.2.2 ≤ m k j)), zero_add]
        by_cases ht' : r.2.2 ≤ t k j
        · rw [if_pos ⟨hb.trans h.le, ht'⟩, if_pos ⟨h.le, ht'⟩]
        · rw [if_neg (fun hc => ht' hc.2), if_neg (fun hc => ht' hc.2)]
  · simp only [if_neg hc, add_zero]

theorem grid_ext {α : Type} {nn ne : ℕ} {f : ℕ → ℕ → α} {l : List α} (hl : l.length = nn * ne)
    (h : ∀ k < nn, ∀ j < ne, l[k * ne + j]? = some (f k j)) : l = grid nn ne f := by
  apply List.ext_getElem?
  intro i
  rcases lt_or_ge i (nn * ne) with hi | hi
  · have hne : 0 < ne := by
      rcases Nat.eq_zero_or_pos ne with h0 | h0
      · simp [h0] at hi
      · exact h0
    have hk : i / ne < nn := (Nat.div_lt_iff_lt_mul hne).2 hi
    have hj : i % ne < ne := Nat.mod_lt _ hne
    have hij : i / ne * ne + i % ne = i := Nat.div_add_mod' i ne
    have h1 := h _ hk _ hj
    have h2 := grid_get nn ne _ _ f hk hj
    rw [hij] at h1 h2
    rw [h1, h2]
  · rw [List.getElem?_eq_none (by omega), List.getElem?_eq_none (by simp [grid, cells_length]; omega)]

/-- C115: a layer made with `prism_layer` from a surface and a reference (a number or an array) has the gravity of the
body between them: `ρ` is zero outside the region of the layer, and around each node it is the density of the node
between the lower and the higher of surface and reference. -/
theorem C115_prism_layer (heap : Heap) {e0 se n0 sn : ℝ} (hse : 0 < se) (hsn : 0 < sn) {nn ne : ℕ}
    (hn : 2 ≤ nn) (he : 2 ≤ ne) (a b : ℕ) (surface reference : ℕ → ℕ → ℝ) (R : Arr)
    (hS : heap[a]? = some ⟨.float, [nn, ne], grid nn ne fun k j => some (surface k j)⟩) (hR : heap[b]? = some R)
    (hr : (∃ r, (∀ k j, reference k j = r) ∧ R.shape = [] ∧ R.data = [some r]) ∨
      R = ⟨.float, [nn, ne], grid nn ne fun k j => some (reference k j)⟩)
    (props : List (String × Arr)) (hp : ∀ p ∈ props, p.2.shape = [nn, ne]) (name : String) (density : ℕ → ℕ → ℝ)
    (kind : Kind) (hD : props.lookup name = some ⟨kind, [nn, ne], grid nn ne fun k j => some (density k j)⟩)
    (ρ : ℝ × ℝ × ℝ → ℝ)
    (hin : ∀ k < nn, ∀ j < ne, ∀ x y z : ℝ, |x - (e0 + j * se)| < se / 2 → |y - (n0 + k * sn)| < sn / 2 →
      (min (surface k j) (reference k j) ≤ z ∧ z ≤ max (surface k j) (reference k j) →
        ρ (x, y, z) = density k j) ∧
      (z < min (surface k j) (reference k j) ∨ max (surface k j) (reference k j) < z → ρ (x, y, z) = 0))
    (hout : ∀ x y z : ℝ, (∀ j < ne, se / 2 < |x - (e0 + j * se)|) ∨ (∀ k < nn, sn / 2 < |y - (n0 + k * sn)|) →
      ρ (x, y, z) = 0) :
    ∃ heap' layer, makeLayer false heap (axis e0 se ne) (axis n0 sn nn) a b props = .ok (heap', layer) ∧
      ∀ (junk : Junk) (mode : Mode) (K : PrismKernels), K.Newtonian → ∀ (shape : List ℕ) (obs : List P3),
        shape.prod = obs.length → mode.Full obs.length (2 * (nn * ne)) → ∀ field ∈ prismFieldNames,
        (field ∈ everywhere ∨ ∀ q ∈ obs, OutsideLayer e0 se n0 sn nn ne
          (fun k j => some (min (surface k j) (reference k j))) (fun k j => some (max (surface k j) (reference k j))) q) →
        ∃ k factor, pointFieldTable newtonKernels field = some (k, factor) ∧
          layerGravity junk mode K layer (arrays shape obs) field name none =
            .ok ⟨shape, obs.map fun q => factor * ∫ r, ρ r * k q (pointAt r) 1⟩ := by
  have hsh : layerShape (axis e0 se ne) (axis n0 sn nn) = [nn, ne] := by simp [layerShape, axis]
  have hr' : R.shape = [] ∨ R.shape = [nn, ne] := by
    rcases hr with ⟨r, -, h, -⟩ | rfl
    · exact .inl h
    · exact .inr rfl
  have href : ∀ k < nn, ∀ j < ne, refAt R (k * ne + j) = some (some (reference k j)) := by
    intro k hk j hj
    unfold refAt
    rcases hr with ⟨r, h1, h2, h3⟩ | rfl
    · rw [if_pos h2, h3, h1]; rfl
    · rw [if_neg (by simp)]
      exact grid_get nn ne k j (fun k j => some (reference k j)) hk hj
  have hreg := checkRegular_axis e0 se n0 sn he hn
  obtain ⟨heap', t, bt, R1, hu, -, -, -, hR1, ht, hb⟩ :=
    updateTopBottom_ok (layerShape (axis e0 se ne) (axis n0 sn nn)) heap a b _ R hS hR hsh.symm (by rw [hsh]; exact hr')
  obtain ⟨heap₂, t₂, bt₂, top, bottom, hu₂, ht₂, hb₂, hmake⟩ :=
    (makeLayer_eq false heap (axis e0 se ne) (axis n0 sn nn) a b props _ R hS hR hsh.symm (by rw [hsh]; exact hr')
      (by rw [hsh]; exact hp) hreg).2 (by simp)
  rw [hu] at hu₂; cases hu₂
  rw [ht] at ht₂; cases ht₂
  rw [hb] at hb₂; cases hb₂
  obtain ⟨heap₃, layer, hmake', -, -, -, -, hval⟩ := C19_layer_partial false heap (axis e0 se ne) (axis n0 sn nn) a b props
    _ R hS hR hsh.symm (by rw [hsh]; exact hr') (by rw [hsh]; simp [grid, cells_length]) (by simp)
    (by
      intro h1 h2
      rcases hr with ⟨r, -, h, -⟩ | rfl
      · exact absurd h h1
      · cases h2) (by rw [hsh]; exact hp) hreg (by simp)
  rw [hmake] at hmake'
  cases hmake'
  have hl1 : R1.data.length = nn * ne := by
    rw [hR1, hsh]
    rcases hr with ⟨r, -, h, -⟩ | rfl
    · rw [if_pos h]; simp
    · rw [if_neg (by simp)]; simp [grid, cells_length]
  have htop := grid_ext (nn := nn) (ne := ne) (f := fun k j => some (max (surface k j) (reference k j)))
    (l := (maskedCopy ⟨.float, [nn, ne], grid nn ne fun k j => some (surface k j)⟩ R1
      (List.zipWith nanLt (grid nn ne fun k j => some (surface k j)) R1.data)).data)
    (by simp [maskedCopy, grid, cells_length, hl1])
    (fun k hk j hj => (hval _ _ _ (grid_get nn ne k j (fun k j => some (surface k j)) hk hj) (href k hk j hj)).1)
  have hbot := grid_ext (nn := nn) (ne := ne) (f := fun k j => some (min (surface k j) (reference k j)))
    (l := (maskedCopy R1 ⟨.float, [nn, ne], grid nn ne fun k j => some (surface k j)⟩
      (List.zipWith nanLt (grid nn ne fun k j => some (surface k j)) R1.data)).data)
    (by simp [maskedCopy, grid, cells_length, hl1])
    (fun k hk j hj => (hval _ _ _ (grid_get nn ne k j (fun k j => some (surface k j)) hk hj) (href k hk j hj)).2)
  refine ⟨_, _, hmake, fun junk mode K hK shape obs hshape hm field hf ho => ?_⟩
  rw [htop, hbot]
  refine C115_body junk mode hK shape obs hshape hse hsn hn he _ _ (fun k j => some (density k j)) _ name ?_ none (by simp)
    hm field hf ho ρ ⟨fun k hk j hj x y z hx hy => ?_, hout⟩
  · clear hmake hval hp
    induction props with
    | nil => cases hD
    | cons p l ih =>
      obtain ⟨pn, pa⟩ := p
      rw [List.map_cons]
      rw [List.lookup_cons] at hD ⊢
      cases hn : name == pn with
      | true =>
        simp only [hn] at hD ⊢
        cases hD; rfl
      | false =>
        simp only [hn] at hD ⊢
        exact ih hD
  · obtain ⟨h1, h2⟩ := hin k hk j hj x y z hx hy
    have h0 : min (surface k j) (reference k j) ≤ max (surface k j) (reference k j) := min_le_max
    simp only [columnDensity, Option.getD_none, sub_nonneg, h0, true_and]
    split_ifs with hz
    · exact h1 hz
    · rcases not_and_or.1 hz with h | h
      · exact h2 (.inl (not_le.1 h))
      · exact h2 (.inr (not_le.1 h))

/-- every layer has a body -/
theorem layerBody_exists {e0 se n0 sn : ℝ} (hse : 0 < se) (hsn : 0 < sn) (nn ne : ℕ) (B T D : ℕ → ℕ → Option ℝ)
    (h : ℝ) : LayerBody e0 se n0 sn nn ne B T D h
      fun r => ∑ k ∈ range nn, ∑ j ∈ range ne, cellDensity e0 se n0 sn B T D h k j r := by
  constructor
  · intro k hk j hj x y z hjx hky
    refine (Finset.sum_eq_single k (fun k' _ hk' => Finset.sum_eq_zero fun j' _ =>
        if_neg fun hc => cell_unique hsn hky hk'.symm hc.2) (fun h => absurd (Finset.mem_range.2 hk) h)).trans ?_
    refine (Finset.sum_eq_single j (fun j' _ hj' => if_neg fun hc => cell_unique hse hjx hj'.symm hc.1)
        (fun h => absurd (Finset.mem_range.2 hj) h)).trans ?_
    exact if_pos ⟨hjx.le, hky.le⟩
  · intro x y z h
    refine Finset.sum_eq_zero fun k hk => Finset.sum_eq_zero fun j hj => if_neg fun hc => ?_
    rcases h with h | h
    · exact absurd hc.1 (not_le.2 (h j (Finset.mem_range.1 hj)))
    · exact absurd hc.2 (not_le.2 (h k (Finset.mem_range.1 hk)))

/-- A slab: 4 by 4 metres, one metre thick, density 5. -/
noncomputable def slab (r : ℝ × ℝ × ℝ) : ℝ :=
  open Classical in if (-1 < r.1 ∧ r.1 < 3) ∧ (-1 < r.2.1 ∧ r.2.1 < 3) ∧ 0 ≤ r.2.2 ∧ r.2.2 ≤ 1 then 5 else 0

theorem slab_coarse : LayerBody 0 2 0 2 2 2 (fun _ _ => some 0) (fun _ _ => some 1) (fun _ _ => some 5) 0 slab := by
  have hb : ∀ k < 2, ∀ x : ℝ, |x - (0 + (k : ℕ) * 2)| < 2 / 2 → -1 < x ∧ x < 3 := by
    intro k hk x hx
    rw [abs_lt] at hx
    interval_cases k <;> norm_num at hx <;> constructor <;> linarith [hx.1, hx.2]
  have ho : ∀ x : ℝ, (∀ k < 2, (2 : ℝ) / 2 < |x - (0 + (k : ℕ) * 2)|) → ¬ (-1 < x ∧ x < 3) := by
    intro x hx h
    have h0 := hx 0 (by norm_num)
    have h1 := hx 1 (by norm_num)
    norm_num [lt_abs] at h0 h1
    rcases h0 with h0 | h0 <;> rcases h1 with h1 | h1 <;> linarith [h.1, h.2]
  constructor
  · intro k hk j hj x y z hx hy
    simp [slab, columnDensity, hb j hj x hx, hb k hk y hy]
  · intro x y z h
    refine if_neg fun hc => ?_
    rcases h with h | h
    · exact ho x h hc.1
    · exact ho y h hc.2.1

theorem slab_fine : LayerBody (-1 / 2) 1 (-1 / 2) 1 4 4 (fun _ _ => some 0) (fun _ _ => some 1) (fun _ _ => some 5) 0
    slab := by
  have hb : ∀ k < 4, ∀ x : ℝ, |x - (-1 / 2 + (k : ℕ) * 1)| < 1 / 2 → -1 < x ∧ x < 3 := by
    intro k hk x hx
    rw [abs_lt] at hx
    interval_cases k <;> norm_num at hx <;> constructor <;> linarith [hx.1, hx.2]
  have ho : ∀ x : ℝ, (∀ k < 4, (1 : ℝ) / 2 < |x - (-1 / 2 + (k : ℕ) * 1)|) → ¬ (-1 < x ∧ x < 3) := by
    intro x hx h
    have h0 := hx 0 (by norm_num)
    have h1 := hx 1 (by norm_num)
    have h2 := hx 2 (by norm_num)
    have h3 := hx 3 (by norm_num)
    norm_num [lt_abs] at h0 h1 h2 h3
    rcases h0 with h0 | h0 <;> rcases h1 with h1 | h1 <;> rcases h2 with h2 | h2 <;> rcases h3 with h3 | h3 <;>
      linarith [h.1, h.2]
  constructor
  · intro k hk j hj x y z hx hy
    simp [slab, columnDensity, hb j hj x hx, hb k hk y hy]
  · intro x y z h
    refine if_neg fun hc => ?_
    rcases h with h | h
    · exact ho x h hc.1
    · exact ho y h hc.2.1

/-- the slab as a layer of 2 by 2 and as a layer of 4 by 4 prisms: the same gravity, also inside of it -/
example : layerGravity (fun _ _ => 0) .serial bodyKernels
      ⟨axis 0 2 2, axis 0 2 2, grid 2 2 fun _ _ => some 1, grid 2 2 fun _ _ => some 0,
        [("density", grid 2 2 fun _ _ => some 5)]⟩ (arrays [1] [⟨0, 0, 1 / 2⟩]) "g_z" "density" none =
    layerGravity (fun _ _ => 0) .serial bodyKernels
      ⟨axis (-1 / 2) 1 4, axis (-1 / 2) 1 4, grid 4 4 fun _ _ => some 1, grid 4 4 fun _ _ => some 0,
        [("rho", grid 4 4 fun _ _ => some 5)]⟩ (arrays [1] [⟨0, 0, 1 / 2⟩]) "g_z" "rho" none :=
  C115_same_body _ _ .serial .serial bodyKernels_newtonian [1] [⟨0, 0, 1 / 2⟩] (by simp) (by norm_num) (by norm_num)
    (by norm_num) (by norm_num) (by norm_num) (by norm_num) (by norm_num) (by norm_num) _ _ (fun _ _ => some 5) _ _
    (fun _ _ => some 5) _ _ "density" "rho" rfl rfl none none (by simp) (by simp) trivial trivial "g_z"
    (.inl (by simp [everywhere])) slab slab_coarse slab_fine

/-- the value over the slab -/
example : ∃ k factor, pointFieldTable newtonKernels "g_zz" = some (k, factor) ∧
    layerGravity (fun _ _ => 0) .serial bodyKernels
      ⟨axis 0 2 2, axis 0 2 2, grid 2 2 fun _ _ => some 1, grid 2 2 fun _ _ => some 0,
        [("density", grid 2 2 fun _ _ => some 5)]⟩ (arrays [1] [⟨0, 0, 2⟩]) "g_zz" "density" none =
      .ok ⟨[1], [factor * ∫ r, slab r * k ⟨0, 0, 2⟩ (pointAt r) 1]⟩ :=
  C115_body _ .serial bodyKernels_newtonian [1] [⟨0, 0, 2⟩] (by simp) (by norm_num) (by norm_num) (by norm_num)
    (by norm_num) _ _ (fun _ _ => some 5) _ "density" rfl none (by simp) trivial "g_zz" (by simp [prismFieldNames])
    (.inr (by
      intro q hq k _ j _ b _ t ht hc
      simp only [List.mem_singleton] at hq
      subst hq
      cases ht
      norm_num at hc)) slab slab_coarse

/-- the slab in two parts -/
example : ∃ lower upper : P3 → ℝ,
    layerGravity (fun _ _ => 0) .serial bodyKernels
      ⟨axis 0 2 2, axis 0 2 2, grid 2 2 fun _ _ => some 1, grid 2 2 fun _ _ => some 0,
        [("density", grid 2 2 fun _ _ => some 5)]⟩ (arrays [1] [⟨0, 0, 2⟩]) "g_z" "density" none =
      .ok ⟨[1], [lower ⟨0, 0, 2⟩ + upper ⟨0, 0, 2⟩]⟩ := by
  obtain ⟨lower, upper, -, -, h⟩ := C115_stack (fun _ _ => 0) .serial bodyKernels_newtonian [1] [⟨0, 0, 2⟩] (by simp)
    (e0 := 0) (se := 2) (n0 := 0) (sn := 2) (nn := 2) (ne := 2) (by norm_num) (by norm_num) (by norm_num) (by norm_num)
    (fun _ _ => 0) (fun _ j => if j = 0 then 1 / 2 else 1) (fun _ _ => 1)
    (by intro _ j; split_ifs <;> norm_num) (by intro _ j; split_ifs <;> norm_num)
    (fun _ _ => some 5) [("density", grid 2 2 fun _ _ => some 5)] "density" rfl trivial "g_z" (by simp [prismFieldNames])
    (.inl (by simp [everywhere]))
  exact ⟨lower, upper, h⟩

/-- the slab as a layer made from a surface at one metre and a reference of zero -/
example : ∃ heap' layer, makeLayer false
      [⟨.float, [2, 2], grid 2 2 fun _ _ => some 1⟩, ⟨.float, [], [some 0]⟩] (axis 0 2 2) (axis 0 2 2) 0 1
      [("density", ⟨.float, [2, 2], grid 2 2 fun _ _ => some 5⟩)] = .ok (heap', layer) ∧
    ∃ k factor, pointFieldTable newtonKernels "g_z" = some (k, factor) ∧
      layerGravity (fun _ _ => 0) .serial bodyKernels layer (arrays [1] [⟨0, 0, 2⟩]) "g_z" "density" none =
        .ok ⟨[1], [factor * ∫ r, slab r * k ⟨0, 0, 2⟩ (pointAt r) 1]⟩ := by
  obtain ⟨heap', layer, h, hg⟩ := C115_prism_layer
    [⟨.float, [2, 2], grid 2 2 fun _ _ => some 1⟩, ⟨.float, [], [some 0]⟩] (e0 := 0) (se := 2) (n0 := 0) (sn := 2)
    (nn := 2) (ne := 2) (by norm_num) (by norm_num) (by norm_num) (by norm_num) 0 1 (fun _ _ => 1) (fun _ _ => 0) _ rfl rfl
    (.inl ⟨0, fun _ _ => rfl, rfl, rfl⟩) [("density", ⟨.float, [2, 2], grid 2 2 fun _ _ => some 5⟩)] (by simp) "density"
    (fun _ _ => 5) .float rfl slab (fun k hk j hj x y z hx hy => by
      rw [slab_coarse.inside k hk j hj x y z hx hy]
      simp only [columnDensity]
      norm_num
      intro h1 h2
      rcases h1 with h1 | h1 <;> linarith) slab_coarse.outside
  exact ⟨heap', layer, h, hg _ .serial _ bodyKernels_newtonian [1] [⟨0, 0, 2⟩] (by simp) trivial "g_z"
    (by simp [prismFieldNames]) (.inl (by simp [everywhere]))⟩

end Verif.Layers
