import Verif.Ellipsoids.ModelB
import Verif.Ellipsoids.PropsG
import Mathlib.Analysis.SpecialFunctions.Trigonometric.Bounds

/-! C83: the points of `to_pyvista`, and how close those of `get_surface` are to each other. -/

namespace Verif.Ellipsoids
open Matrix

/-- The sum of the squares of the coordinates. -/
def squares (v : V3) : ℝ := v 0 ^ 2 + v 1 ^ 2 + v 2 ^ 2

theorem squares_dot (v : V3) : squares v = v ⬝ᵥ v := by
  simp [squares, dotProduct, Fin.sum_univ_three]; ring

theorem squares_rotate {R : M3} (h : ProperRotation R) (v : V3) : squares (R.mulVec v) = squares v := by
  rw [squares_dot, squares_dot, dotProduct_mulVec, ← mulVec_transpose, mulVec_mulVec, h.2.1, one_mulVec]

theorem quadric_scale {a b c : ℝ} (ha : a ≠ 0) (hb : b ≠ 0) (hc : c ≠ 0) (s : V3) :
    quadric a b c ![a * s 0, b * s 1, c * s 2] = squares s := by
  simp only [quadric, squares, Matrix.cons_val_zero, Matrix.cons_val_one, Matrix.cons_val]
  field_simp

/-- C83: the mesh of `to_pyvista` has one point for each point of the mesh of the unit sphere, all of them on
the surface of the body. -/
theorem C83_pyvista (e : Ellipsoid) (h : e.Valid) (sphere : List V3)
    (hs : ∀ s ∈ sphere, s 0 ^ 2 + s 1 ^ 2 + s 2 ^ 2 = 1) :
    (toPyvista sphere e).length = sphere.length ∧ ∀ p ∈ toPyvista sphere e, e.OnSurface p := by
  refine ⟨by simp [toPyvista], fun p hp => ?_⟩
  simp only [toPyvista, List.map_map, List.mem_map, Function.comp] at hp
  obtain ⟨s, hmem, rfl⟩ := hp
  exact ⟨_, rfl, (quadric_scale h.1.ne' h.2.1.ne' h.2.2.ne' s).trans (hs s hmem)⟩

/-- C83: a mesh of the whole unit sphere becomes the whole surface: every point of the surface is the image
of a point of the sphere. -/
theorem C83_pyvista_onto (e : Ellipsoid) (h : e.Valid) (p : V3) (hp : e.OnSurface p) :
    ∃ s : V3, s 0 ^ 2 + s 1 ^ 2 + s 2 ^ 2 = 1 ∧ ∀ before after,
      (toPyvista (before ++ s :: after) e)[before.length]? = some p := by
  obtain ⟨v, rfl, hv⟩ := hp
  have ha := h.1.ne'; have hb := h.2.1.ne'; have hc := h.2.2.ne'
  have hvs : ![e.a * (v 0 / e.a), e.b * (v 1 / e.b), e.c * (v 2 / e.c)] = v := by
    funext k
    fin_cases k
    · exact mul_div_cancel₀ _ ha
    · exact mul_div_cancel₀ _ hb
    · exact mul_div_cancel₀ _ hc
  refine ⟨![v 0 / e.a, v 1 / e.b, v 2 / e.c], ?_, fun before after => ?_⟩
  · simp only [Matrix.cons_val_zero, Matrix.cons_val_one, Matrix.cons_val, div_pow]
    exact hv
  · simp only [toPyvista, List.map_append, List.map_cons, Matrix.cons_val_zero, Matrix.cons_val_one,
      Matrix.cons_val, hvs]
    rw [List.getElem?_append_right (by simp)]
    simp

/-- C83: `to_pyvista` and `get_surface` show the same body: on the directions of the grid of `get_surface` the
points are the same. -/
theorem C83_pyvista_surface (e : Ellipsoid) (lon lat : ℝ) :
    toPyvista [![Real.cos lon * Real.cos lat, Real.sin lon * Real.cos lat, Real.sin lat]] e =
      [surfacePoint e lon lat] := by
  simp only [toPyvista, List.map_cons, List.map_nil, surfacePoint, Matrix.cons_val_zero,
    Matrix.cons_val_one, Matrix.cons_val, ← mul_assoc]

/-- Every point of the unit sphere has a longitude and a latitude. -/
theorem lonlat {s : V3} (hs : squares s = 1) : ∃ lon lat : ℝ, 0 ≤ lon ∧ lon ≤ 2 * Real.pi ∧
    -(Real.pi / 2) ≤ lat ∧ lat ≤ Real.pi / 2 ∧ s 0 = Real.cos lon * Real.cos lat ∧
    s 1 = Real.sin lon * Real.cos lat ∧ s 2 = Real.sin lat := by
  unfold squares at hs
  have h2 : |s 2| ≤ 1 := by
    rw [← sq_le_one_iff_abs_le_one]; nlinarith [sq_nonneg (s 0), sq_nonneg (s 1)]
  obtain ⟨h2a, h2b⟩ := abs_le.1 h2
  have hsin : Real.sin (Real.arcsin (s 2)) = s 2 := Real.sin_arcsin h2a h2b
  have hcos0 : 0 ≤ Real.cos (Real.arcsin (s 2)) := Real.cos_arcsin_nonneg _
  have hcos2 : Real.cos (Real.arcsin (s 2)) ^ 2 = s 0 ^ 2 + s 1 ^ 2 := by
    have := Real.sin_sq_add_cos_sq (Real.arcsin (s 2))
    rw [hsin] at this
    linarith
  set r := Real.cos (Real.arcsin (s 2)) with hr
  have key : ∃ lon : ℝ, 0 ≤ lon ∧ lon ≤ 2 * Real.pi ∧ s 0 = Real.cos lon * r ∧ s 1 = Real.sin lon * r := by
    have hpi := Real.pi_pos
    set z : ℂ := ⟨s 0, s 1⟩ with hz
    have hn : ‖z‖ = r := by
      have h3 : ‖z‖ ^ 2 = r ^ 2 := by
        rw [hcos2, Complex.sq_norm, Complex.normSq_apply, hz]; ring
      exact (sq_eq_sq₀ (norm_nonneg _) hcos0).1 h3
    have hc : s 0 = Real.cos z.arg * r := by
      have := Complex.norm_mul_cos_arg z
      rw [hn] at this
      rw [mul_comm, this]
    have hsn : s 1 = Real.sin z.arg * r := by
      have := Complex.norm_mul_sin_arg z
      rw [hn] at this
      rw [mul_comm, this]
    by_cases h0 : 0 ≤ z.arg
    · exact ⟨z.arg, h0, by linarith [Complex.arg_le_pi z], hc, hsn⟩
    · refine ⟨z.arg + 2 * Real.pi, by linarith [Complex.neg_pi_lt_arg z], by linarith, ?_, ?_⟩
      · rw [Real.cos_add_two_pi]; exact hc
      · rw [Real.sin_add_two_pi]; exact hsn
  obtain ⟨lon, h1, h2', h3, h4⟩ := key
  exact ⟨lon, Real.arcsin (s 2), h1, h2', Real.neg_pi_div_two_le_arcsin _, Real.arcsin_le_pi_div_two _, h3, h4,
    hsin.symm⟩

/-- The nearest node below of a uniform partition. -/
theorem node_below {x d : ℝ} {n : ℕ} (hn : 2 ≤ n) (h0 : 0 ≤ x) (h1 : x ≤ d) (hd : 0 < d) :
    ∃ j < n, |x - (j : ℝ) * (d / ((n : ℝ) - 1))| ≤ d / ((n : ℝ) - 1) := by
  have hn1 : (0 : ℝ) < (n : ℝ) - 1 := by
    have : (2 : ℝ) ≤ n := by exact_mod_cast hn
    linarith
  have hq : 0 < d / ((n : ℝ) - 1) := div_pos hd hn1
  set q := d / ((n : ℝ) - 1) with hqdef
  have hx : 0 ≤ x / q := div_nonneg h0 hq.le
  have hle : x / q ≤ (n : ℝ) - 1 := by
    rw [div_le_iff₀ hq, hqdef, mul_div_cancel₀ _ hn1.ne']; exact h1
  refine ⟨⌊x / q⌋₊, ?_, ?_⟩
  · have h2 : (⌊x / q⌋₊ : ℝ) ≤ (n : ℝ) - 1 := (Nat.floor_le hx).trans hle
    have h3 : (⌊x / q⌋₊ : ℝ) < n := by linarith
    exact_mod_cast h3
  · have h2 := Nat.floor_le hx
    have h3 := Nat.lt_floor_add_one (x / q)
    rw [le_div_iff₀ hq] at h2
    rw [div_lt_iff₀ hq, add_mul, one_mul] at h3
    rw [abs_le]
    constructor <;> linarith

/-- C83: the points of `get_surface` leave no holes: from every point of the surface to one of them there is at
most the length of the diagonal of the semiaxes times the sum of the steps in longitude and latitude. -/
theorem C83_dense (e : Ellipsoid) (h : e.Valid) {n m : ℕ} (hn : 2 ≤ n) (hm : 2 ≤ m) (p : V3)
    (hp : e.OnSurface p) :
    ∃ row ∈ getSurface e n m, ∃ q ∈ row,
      Real.sqrt ((p 0 - q 0) ^ 2 + (p 1 - q 1) ^ 2 + (p 2 - q 2) ^ 2) ≤
        Real.sqrt (e.a ^ 2 + e.b ^ 2 + e.c ^ 2) *
          (2 * Real.pi / ((n : ℝ) - 1) + Real.pi / ((m : ℝ) - 1)) := by
  obtain ⟨v, rfl, hv⟩ := hp
  have ha := h.1.ne'; have hb := h.2.1.ne'; have hc := h.2.2.ne'
  have hpi := Real.pi_pos
  have hs : squares ![v 0 / e.a, v 1 / e.b, v 2 / e.c] = 1 := by
    simp only [squares, Matrix.cons_val_zero, Matrix.cons_val_one, Matrix.cons_val, div_pow]
    exact hv
  obtain ⟨lon, lat, l0, l1, t0, t1, e0, e1, e2⟩ := lonlat hs
  simp only [Matrix.cons_val_zero, Matrix.cons_val_one, Matrix.cons_val] at e0 e1 e2
  rw [div_eq_iff ha] at e0
  rw [div_eq_iff hb] at e1
  rw [div_eq_iff hc] at e2
  obtain ⟨j, hj, hjd⟩ := node_below hn l0 l1 (by linarith)
  obtain ⟨i, hi, hid⟩ := node_below (x := lat + Real.pi / 2) (d := Real.pi) hm (by linarith) (by linarith) hpi
  set lon' := (j : ℝ) * (2 * Real.pi / ((n : ℝ) - 1)) with hlon'
  set lat' := -Real.pi / 2 + (i : ℝ) * (Real.pi / ((m : ℝ) - 1)) with hlat'
  have hget := getSurface_get e hi hj
  rw [← hlon', ← hlat'] at hget
  cases hrow : (getSurface e n m)[i]? with
  | none => rw [hrow] at hget; simp at hget
  | some row =>
    rw [hrow] at hget
    simp only [Option.bind_some] at hget
    refine ⟨row, List.mem_of_getElem? hrow, _, List.mem_of_getElem? hget, ?_⟩
    have hid' : |lat - lat'| ≤ Real.pi / ((m : ℝ) - 1) := by
      have : lat - lat' = lat + Real.pi / 2 - (i : ℝ) * (Real.pi / ((m : ℝ) - 1)) := by rw [hlat']; ring
      rw [this]; exact hid
    set δ := 2 * Real.pi / ((n : ℝ) - 1) + Real.pi / ((m : ℝ) - 1) with hδ
    have hsum : |lon - lon'| + |lat - lat'| ≤ δ := add_le_add hjd hid'
    have hδ0 : 0 ≤ δ := le_trans (add_nonneg (abs_nonneg _) (abs_nonneg _)) hsum
    have hcos : ∀ x y : ℝ, |Real.cos x - Real.cos y| ≤ |x - y| := Real.abs_cos_sub_cos_le
    have hsin : ∀ x y : ℝ, |Real.sin x - Real.sin y| ≤ |x - y| := Real.abs_sin_sub_sin_le
    have mix : ∀ f f' g g' : ℝ, |f| ≤ 1 → |g'| ≤ 1 → |f * g - f' * g'| ≤ |f - f'| + |g - g'| := by
      intro f f' g g' hf hg
      have : f * g - f' * g' = f * (g - g') + (f - f') * g' := by ring
      rw [this]
      refine (abs_add_le _ _).trans ?_
      rw [abs_mul, abs_mul]
      have h1 := mul_le_mul_of_nonneg_right hf (abs_nonneg (g - g'))
      have h2 := mul_le_mul_of_nonneg_left hg (abs_nonneg (f - f'))
      linarith
    have b0 : |Real.cos lon * Real.cos lat - Real.cos lon' * Real.cos lat'| ≤ δ :=
      (mix _ _ _ _ (Real.abs_cos_le_one _) (Real.abs_cos_le_one _)).trans
        ((add_le_add (hcos _ _) (hcos _ _)).trans hsum)
    have b1 : |Real.sin lon * Real.cos lat - Real.sin lon' * Real.cos lat'| ≤ δ :=
      (mix _ _ _ _ (Real.abs_sin_le_one _) (Real.abs_cos_le_one _)).trans
        ((add_le_add (hsin _ _) (hcos _ _)).trans hsum)
    have b2 : |Real.sin lat - Real.sin lat'| ≤ δ :=
      (hsin _ _).trans ((le_add_of_nonneg_left (abs_nonneg _)).trans hsum)
    set w : V3 := ![e.a * Real.cos lon' * Real.cos lat', e.b * Real.sin lon' * Real.cos lat',
      e.c * Real.sin lat'] with hw
    have hdiff : (e.rotationMatrix.mulVec v + e.center) - surfacePoint e lon' lat' =
        e.rotationMatrix.mulVec (v - w) := by
      rw [mulVec_sub]; unfold surfacePoint; rw [← hw]; abel
    have hsq : (((e.rotationMatrix.mulVec v + e.center) 0 - surfacePoint e lon' lat' 0) ^ 2 +
        ((e.rotationMatrix.mulVec v + e.center) 1 - surfacePoint e lon' lat' 1) ^ 2 +
        ((e.rotationMatrix.mulVec v + e.center) 2 - surfacePoint e lon' lat' 2) ^ 2) = squares (v - w) := by
      rw [← squares_rotate (R := e.rotationMatrix) (rotation_proper e.yaw e.pitch e.roll) (v - w), ← hdiff]; rfl
    rw [hsq]
    have hbound : squares (v - w) ≤ (e.a ^ 2 + e.b ^ 2 + e.c ^ 2) * δ ^ 2 := by
      have c0 : (v - w) 0 = e.a * (Real.cos lon * Real.cos lat - Real.cos lon' * Real.cos lat') := by
        simp only [Pi.sub_apply, hw, Matrix.cons_val_zero, e0]; ring
      have c1 : (v - w) 1 = e.b * (Real.sin lon * Real.cos lat - Real.sin lon' * Real.cos lat') := by
        simp only [Pi.sub_apply, hw, Matrix.cons_val_one, Matrix.cons_val_zero, e1]; ring
      have c2 : (v - w) 2 = e.c * (Real.sin lat - Real.sin lat') := by
        simp only [Pi.sub_apply, hw, Matrix.cons_val, e2]; ring
      unfold squares
      rw [c0, c1, c2, mul_pow, mul_pow, mul_pow]
      have s0 := sq_le_sq' (abs_le.1 b0).1 (abs_le.1 b0).2
      have s1 := sq_le_sq' (abs_le.1 b1).1 (abs_le.1 b1).2
      have s2 := sq_le_sq' (abs_le.1 b2).1 (abs_le.1 b2).2
      have m0 := mul_le_mul_of_nonneg_left s0 (sq_nonneg e.a)
      have m1 := mul_le_mul_of_nonneg_left s1 (sq_nonneg e.b)
      have m2 := mul_le_mul_of_nonneg_left s2 (sq_nonneg e.c)
      linarith
    calc Real.sqrt (squares (v - w)) ≤ Real.sqrt ((e.a ^ 2 + e.b ^ 2 + e.c ^ 2) * δ ^ 2) :=
          Real.sqrt_le_sqrt hbound
      _ = _ := by rw [Real.sqrt_mul (by positivity), Real.sqrt_sq hδ0]

/-! ### C129: the printed representation -/

/-- The texts of a printer tell the numbers of a set apart (the floats: Python prints as many digits as needed),
and texts of matrices from those of numbers (they begin with a bracket). -/
structure Printer.Faithful (P : Printer) (F : Set ℝ) : Prop where
  float : ∀ x ∈ F, ∀ y ∈ F, P.float x = P.float y → x = y
  tuple : ∀ u v : V3, (∀ k, u k ∈ F) → (∀ k, v k ∈ F) → P.tuple (u 0) (u 1) (u 2) = P.tuple (v 0) (v 1) (v 2) → u = v
  matrix : ∀ x t, P.float x ≠ P.matrix t

/-- The numbers that describe an ellipsoid are in a set. -/
structure Ellipsoid.NumbersIn (e : Ellipsoid) (F : Set ℝ) : Prop where
  axes : e.a ∈ F ∧ e.b ∈ F ∧ e.c ∈ F
  center : ∀ k, e.center k ∈ F
  angles : e.yaw ∈ F ∧ e.pitch ∈ F ∧ e.roll ∈ F
  density : ∀ x ∈ e.density, x ∈ F
  susceptibility : ∀ x, e.susceptibility = some (.scalar x) → x ∈ F

/-- Two optional arrays that print the same. -/
def SamePrint {α : Type} (f : α → String) : Option α → Option α → Prop
  | none, none => True
  | some x, some y => f x = f y
  | _, _ => False

/-- The numbers of a susceptibility are equal, the tensors print the same. -/
def SameSusceptibility (P : Printer) : Option Susceptibility → Option Susceptibility → Prop
  | none, none => True
  | some (.scalar x), some (.scalar y) => x = y
  | some (.tensor s), some (.tensor t) => P.matrix s = P.matrix t
  | _, _ => False

theorem name_inj (n s t : String) : n ++ s = n ++ t ↔ s = t := by
  constructor
  · intro h
    have := congrArg String.toList h
    rw [String.toList_append, String.toList_append] at this
    exact String.toList_inj.1 (List.append_cancel_left this)
  · rintro rfl; rfl

/-- Texts that begin with different names differ. -/
theorem name_ne {n n' : String} (h : n.toList.head? ≠ n'.toList.head?) (h1 : n.toList ≠ []) (h2 : n'.toList ≠ [])
    (s t : String) : n ++ s ≠ n' ++ t := by
  intro he
  have := congrArg (fun x => x.toList.head?) he
  simp only [String.toList_append] at this
  rw [List.head?_append_of_ne_nil _ h1, List.head?_append_of_ne_nil _ h2] at this
  exact h this

/-- C129: two ellipsoids have the same representation exactly if they have the same semiaxes, center, angles and
density, and susceptibilities and remanences that are both absent, equal numbers, or arrays that numpy prints
the same. -/
theorem C129_repr (P : Printer) (F : Set ℝ) (hP : P.Faithful F) (e e' : Ellipsoid) (he : e.NumbersIn F)
    (he' : e'.NumbersIn F) :
    reprAttrs P e = reprAttrs P e' ↔
      (e.a = e'.a ∧ e.b = e'.b ∧ e.c = e'.c) ∧ e.center = e'.center ∧
      (e.yaw = e'.yaw ∧ e.pitch = e'.pitch ∧ e.roll = e'.roll) ∧ e.density = e'.density ∧
      SameSusceptibility P e.susceptibility e'.susceptibility ∧
      SamePrint P.array e.remanent_mag e'.remanent_mag := by
  have fl : ∀ x ∈ F, ∀ y ∈ F, (P.float x = P.float y ↔ x = y) := fun x hx y hy =>
    ⟨hP.float x hx y hy, fun h => h ▸ rfl⟩
  have tu : P.tuple (e.center 0) (e.center 1) (e.center 2) = P.tuple (e'.center 0) (e'.center 1) (e'.center 2) ↔
      e.center = e'.center := ⟨hP.tuple _ _ he.center he'.center, fun h => by rw [h]⟩
  have fa := fl _ he.axes.1 _ he'.axes.1
  have fb := fl _ he.axes.2.1 _ he'.axes.2.1
  have fc := fl _ he.axes.2.2 _ he'.axes.2.2
  have fy := fl _ he.angles.1 _ he'.angles.1
  have fp := fl _ he.angles.2.1 _ he'.angles.2.1
  have fr := fl _ he.angles.2.2 _ he'.angles.2.2
  have hd := he.density
  have hd' := he'.density
  have hk := he.susceptibility
  have hk' := he'.susceptibility
  have ds : ∀ s t : String, "density=" ++ s ≠ "susceptibility=" ++ t := name_ne (by decide) (by decide) (by decide)
  have dr : ∀ s t : String, "density=" ++ s ≠ "remanent_mag=" ++ t := name_ne (by decide) (by decide) (by decide)
  have sr : ∀ s t : String, "susceptibility=" ++ s ≠ "remanent_mag=" ++ t :=
    name_ne (by decide) (by decide) (by decide)
  have hm := hP.matrix
  have hm' : ∀ x t, P.matrix t ≠ P.float x := fun x t h => hP.matrix x t h.symm
  unfold reprAttrs
  generalize e.density = d at hd ⊢
  generalize e'.density = d' at hd' ⊢
  generalize e.susceptibility = k at hk ⊢
  generalize e'.susceptibility = k' at hk' ⊢
  have fd : ∀ x y, d = some x → d' = some y → (P.float x = P.float y ↔ x = y) := fun x y h h' =>
    fl x (hd x h) y (hd' y h')
  have fk : ∀ x y, k = some (.scalar x) → k' = some (.scalar y) → (P.float x = P.float y ↔ x = y) :=
    fun x y h h' => fl x (hk x h) y (hk' y h')
  clear fl hd hd' hk hk' he he' hP
  cases d <;> cases d' <;> rcases k with _ | (_ | _) <;>
    rcases k' with _ | (_ | _) <;> cases e.remanent_mag <;> cases e'.remanent_mag <;>
    simp only [Option.some.injEq, Susceptibility.scalar.injEq, forall_eq', reduceCtorEq, false_imp_iff, imp_true_iff, forall_const] at fd fk <;>
    simp [name_inj, fa, fb, fc, fy, fp, fr, fd, fk, tu, ds, dr, sr, (ds _ _).symm, (dr _ _).symm, (sr _ _).symm, hm, hm',
      SameSusceptibility, SamePrint, and_assoc]

/-- A printer of natural numbers (as many strokes as the number says). -/
noncomputable def strokes : Printer where
  float x := String.ofList (List.replicate ⌊x⌋₊ '|')
  tuple x y z := String.ofList (List.replicate (Nat.pair ⌊x⌋₊ (Nat.pair ⌊y⌋₊ ⌊z⌋₊)) '|')
  matrix _ := "["
  array _ := "["

theorem strokes_inj {n m : ℕ} (h : String.ofList (List.replicate n '|') = String.ofList (List.replicate m '|')) :
    n = m := by
  have := congrArg (fun s => s.toList.length) h
  simpa using this

theorem strokes_faithful : strokes.Faithful (Set.range (Nat.cast : ℕ → ℝ)) := by
  refine ⟨?_, ?_, ?_⟩
  · rintro _ ⟨n, rfl⟩ _ ⟨m, rfl⟩ h
    have := strokes_inj h
    simp only [Nat.floor_natCast] at this
    rw [this]
  · intro u v hu hv h
    have := strokes_inj h
    rw [Nat.pair_eq_pair, Nat.pair_eq_pair] at this
    funext k
    obtain ⟨n, hn⟩ := hu k
    obtain ⟨m, hm⟩ := hv k
    have hk : ⌊u k⌋₊ = ⌊v k⌋₊ := by
      fin_cases k
      · exact this.1
      · exact this.2.1
      · exact this.2.2
    rw [← hn, ← hm, Nat.floor_natCast, Nat.floor_natCast] at hk
    rw [← hn, ← hm, hk]
  · intro x t h
    have := congrArg (fun s => s.toList) h
    simp only [strokes, String.toList_ofList] at this
    cases hn : ⌊x⌋₊ with
    | zero => rw [hn] at this; simp at this
    | succ n => rw [hn, List.replicate_succ] at this; simp at this

/-- C129_repr: a body with and without density have different representations. -/
example (d : Option ℝ) (hd : ∀ x ∈ d, x = 2670) (hr : ∀ e : Ellipsoid, e = ⟨3, 2, 1, 0, 0, 0, ![1, 2, 3], d, none, none⟩ →
    reprAttrs strokes e = reprAttrs strokes { e with density := some 2670 }) : d = some 2670 := by
  have num : ∀ n : ℕ, (n : ℝ) ∈ Set.range (Nat.cast : ℕ → ℝ) := fun n => ⟨n, rfl⟩
  have h0 : (0 : ℝ) ∈ Set.range (Nat.cast : ℕ → ℝ) := by simpa using num 0
  have h1 : (1 : ℝ) ∈ Set.range (Nat.cast : ℕ → ℝ) := by simpa using num 1
  have h2 : (2 : ℝ) ∈ Set.range (Nat.cast : ℕ → ℝ) := by simpa using num 2
  have h3 : (3 : ℝ) ∈ Set.range (Nat.cast : ℕ → ℝ) := by simpa using num 3
  have h4 : (2670 : ℝ) ∈ Set.range (Nat.cast : ℕ → ℝ) := by simpa using num 2670
  have := (C129_repr strokes _ strokes_faithful _ _
    ⟨⟨h3, h2, h1⟩, fun k => by fin_cases k <;> simp [-Set.mem_range, h1, h2, h3], ⟨h0, h0, h0⟩,
      fun x hx => by rw [hd x hx]; exact h4, fun x hx => by simp at hx⟩
    ⟨⟨h3, h2, h1⟩, fun k => by fin_cases k <;> simp [-Set.mem_range, h1, h2, h3], ⟨h0, h0, h0⟩,
      fun x hx => by simp at hx; rw [← hx]; exact h4, fun x hx => by simp at hx⟩).1 (hr _ rfl)
  exact this.2.2.2.1

/-- C83_pyvista: the ends of the axes of the unit sphere become ends of the semiaxes. -/
example (e : Ellipsoid) (h : e.Valid) : ∀ p ∈ toPyvista [![1, 0, 0], ![0, 1, 0], ![0, 0, 1]] e, e.OnSurface p :=
  (C83_pyvista e h _ (by simp)).2

end Verif.Ellipsoids
