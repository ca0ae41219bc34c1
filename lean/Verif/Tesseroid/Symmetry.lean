import Verif.Tesseroid.PropsB

/-! Lemmas: how the adaptive discretization and the quadrature change when the tesseroids and the
computation points are rotated about the polar axis, mirrored or scaled. -/

namespace Verif.Tesseroid
open Verif.Distance Verif.Forward Verif.Engine

/-- the loop commutes with a map of the tesseroids -/
theorem adList_map (P P' : AParams) (F : Tess → Tess) (hs : P'.stackSize = P.stackSize)
    (hm : P'.smallSize = P.smallSize) (hd : ∀ t, divisions P' (F t) = divisions P t)
    (hp : ∀ t a b c, 1 ≤ a → 1 ≤ b → 1 ≤ c → splitPieces (F t) a b c = (splitPieces t a b c).map F) :
    ∀ (fuel : ℕ) (stk out : List Tess), adList P' fuel (stk.map F) (out.map F) =
      (adList P fuel stk out).map fun r => r.map (List.map F) := by
  intro fuel
  induction fuel with
  | zero => intro stk out; rfl
  | succ fuel ih =>
    intro stk out
    cases stk with
    | nil => rfl
    | cons t rest =>
      simp only [List.map_cons, adList, hd]
      cases h : divisions P t with
      | error e => rfl
      | ok d =>
        obtain ⟨a, b, c⟩ := d
        obtain ⟨p1, p2, p3, -⟩ := divisions_ok_pos h
        simp only [List.length_map, hs, hm]
        split_ifs
        · rfl
        · rw [hp t a b c p1 p2 p3, ← List.map_reverse, ← List.map_append, ih]
        · rfl
        · rw [← ih]; simp

/-- sum over the pieces of a tesseroid, down to a given depth -/
noncomputable def leafSum (P : AParams) (G : Tess → ℝ) : ℕ → Tess → ℝ
  | 0, _ => 0
  | depth + 1, t =>
    match divisions P t with
    | .error _ => 0
    | .ok (a, b, c) =>
      if a * b * c > 1 then ((splitPieces t a b c).map (leafSum P G depth)).sum else G t

/-- the sum over the pieces found by the loop does not depend on the order of the stack -/
theorem adList_leafSum (P : AParams) (G : Tess → ℝ) :
    ∀ (fuel : ℕ) (stk out pieces : List Tess), adList P fuel stk out = some (.ok pieces) →
      ∃ N, (∀ t ∈ stk, ∀ n ≥ N, leafSum P G n t = leafSum P G N t) ∧
        (pieces.map G).sum = (out.map G).sum + (stk.map (leafSum P G N)).sum := by
  intro fuel
  induction fuel with
  | zero => intro stk out pieces h; simp [adList] at h
  | succ fuel ih =>
    intro stk out pieces h
    cases stk with
    | nil =>
      simp [adList] at h
      subst h
      exact ⟨0, by simp, by simp⟩
    | cons t rest =>
      simp only [adList] at h
      cases hd : divisions P t with
      | error e => simp [hd] at h
      | ok d =>
        obtain ⟨a, b, c⟩ := d
        simp only [hd] at h
        by_cases hk : a * b * c > 1
        · simp only [hk, if_true] at h
          split at h
          · simp at h
          obtain ⟨N, hN, hsum⟩ := ih _ _ _ h
          have hl : ∀ n, leafSum P G (n + 1) t = ((splitPieces t a b c).map (leafSum P G n)).sum := by
            intro n; simp only [leafSum, hd, hk, if_true]
          refine ⟨N + 1, ?_, ?_⟩
          · intro x hx n hn
            obtain ⟨m, rfl⟩ : ∃ m, n = m + 1 := ⟨n - 1, by omega⟩
            rcases List.mem_cons.1 hx with rfl | hx
            · rw [hl, hl]
              congr 1
              exact List.map_congr_left fun p hp => hN p (by simp [hp]) m (by omega)
            · rw [hN x (by simp [hx]) (m + 1) (by omega), hN x (by simp [hx]) (N + 1) (by omega)]
          · rw [hsum, List.map_cons, List.sum_cons, hl,
              List.map_congr_left fun x hx => hN x (by simp [hx]) (N + 1) (by omega)]
            simp
        · simp only [hk, if_false] at h
          split at h
          · simp at h
          obtain ⟨N, hN, hsum⟩ := ih _ _ _ h
          have hl : ∀ n, leafSum P G (n + 1) t = G t := by
            intro n; simp only [leafSum, hd, hk, if_false]
          refine ⟨N + 1, ?_, ?_⟩
          · intro x hx n hn
            obtain ⟨m, rfl⟩ : ∃ m, n = m + 1 := ⟨n - 1, by omega⟩
            rcases List.mem_cons.1 hx with rfl | hx
            · rw [hl, hl]
            · rw [hN x hx (m + 1) (by omega), hN x hx (N + 1) (by omega)]
          · rw [hsum, List.map_cons, List.sum_cons, hl,
              List.map_congr_left fun x hx => hN x hx (N + 1) (by omega)]
            simp
            ring

theorem leafSum_map (P P' : AParams) (F : Tess → Tess) (G G' : Tess → ℝ)
    (hd : ∀ t, divisions P' (F t) = divisions P t)
    (hp : ∀ t a b c, 1 ≤ a → a ≤ 2 → 1 ≤ b → b ≤ 2 → 1 ≤ c →
      (splitPieces (F t) a b c).Perm ((splitPieces t a b c).map F))
    (hG : ∀ t, G' (F t) = G t) : ∀ (n : ℕ) (t : Tess), leafSum P' G' n (F t) = leafSum P G n t := by
  intro n
  induction n with
  | zero => intro t; rfl
  | succ n ih =>
    intro t
    simp only [leafSum, hd]
    cases h : divisions P t with
    | error e => rfl
    | ok d =>
      obtain ⟨a, b, c⟩ := d
      obtain ⟨p1, p2, p3, p4, p5, -⟩ := divisions_ok_pos h
      simp only
      split_ifs
      · rw [((hp t a b c p1 p4 p2 p5 p3).map _).sum_eq, List.map_map]
        congr 1
        exact List.map_congr_left fun x _ => ih x
      · exact hG t

/-- equal numbers of divisions for sizes and distances in the same proportion -/
theorem divisions_congr (P P' : AParams) (t t' : Tess) (c : ℝ) (hc : 0 < c)
    (hr : P'.ratio = P.ratio) (hrad : P'.radial = P.radial)
    (h1 : (dimensions t').1 = c * (dimensions t).1) (h2 : (dimensions t').2.1 = c * (dimensions t).2.1)
    (h3 : (dimensions t').2.2 = c * (dimensions t).2.2)
    (hd : distanceTessPoint P'.point t' = c * distanceTessPoint P.point t) :
    divisions P' t' = divisions P t := by
  have key : ∀ a b r : ℝ, divLt (c * a) (c * b) r = divLt a b r := by
    intro a b r
    unfold divLt
    by_cases hb : b = 0
    · simp [hb]
    · rw [if_neg hb, if_neg (mul_ne_zero hc.ne' hb), mul_div_mul_left _ _ hc.ne']
  unfold divisions
  simp only [h1, h2, h3, hd, hr, hrad, key]

/-! ### rotation about the polar axis -/

/-- tesseroid moved towards the east -/
def Tess.shift (β : ℝ) (t : Tess) : Tess := { t with w := t.w + β, e := t.e + β }

/-- tesseroid mirrored in a meridian -/
def Tess.mirror (β : ℝ) (t : Tess) : Tess := { t with w := β - t.e, e := β - t.w }

/-- tesseroid mirrored in the equator -/
def Tess.flip (t : Tess) : Tess := { t with s := -t.n, n := -t.s }

/-- tesseroid scaled from the centre of the Earth -/
def Tess.scale (c : ℝ) (t : Tess) : Tess := { t with bottom := c * t.bottom, top := c * t.top }

theorem cos_turns (a b : ℝ) (k : ℤ) (h : a = b + 360 * k) : Real.cos (radians a) = Real.cos (radians b) := by
  have : radians a = radians b + k * (2 * Real.pi) := by
    rw [h]; unfold radians; ring
  rw [this, Real.cos_add_int_mul_two_pi]

theorem splitPieces_shift (β : ℝ) (t : Tess) (a b c : ℕ) :
    splitPieces (t.shift β) a b c = (splitPieces t a b c).map (Tess.shift β) := by
  unfold splitPieces Tess.shift
  simp only [List.map_flatMap, List.map_map]
  refine List.flatMap_congr fun i _ => List.flatMap_congr fun j _ => ?_
  apply List.map_congr_left
  intro k _
  simp only [Function.comp_apply, Tess.mk.injEq, and_true]
  constructor <;> ring

theorem splitPieces_scale (r : ℝ) (t : Tess) (a b c : ℕ) :
    splitPieces (t.scale r) a b c = (splitPieces t a b c).map (Tess.scale r) := by
  unfold splitPieces Tess.scale
  simp only [List.map_flatMap, List.map_map]
  refine List.flatMap_congr fun i _ => List.flatMap_congr fun j _ => ?_
  apply List.map_congr_left
  intro k _
  simp only [Function.comp_apply, Tess.mk.injEq, true_and]
  constructor <;> ring

theorem splitPieces_mirror (β : ℝ) (t : Tess) (a b c : ℕ) (h1 : 1 ≤ a) (h2 : a ≤ 2) :
    (splitPieces (t.mirror β) a b c).Perm ((splitPieces t a b c).map (Tess.mirror β)) := by
  unfold splitPieces Tess.mirror
  simp only [List.map_flatMap, List.map_map]
  interval_cases a
  · simp only [List.range_one, List.flatMap_singleton]
    apply List.Perm.of_eq
    refine List.flatMap_congr fun j _ => ?_
    apply List.map_congr_left
    intro k _
    simp only [Function.comp_apply, Tess.mk.injEq, and_true]
    constructor <;> norm_num
  · have h2 : List.range 2 = [0, 1] := rfl
    simp only [h2, List.flatMap_cons, List.flatMap_nil, List.append_nil]
    refine (List.perm_append_comm).trans (List.Perm.of_eq ?_)
    congr 1
    · refine List.flatMap_congr fun j _ => ?_
      apply List.map_congr_left
      intro k _
      simp only [Function.comp_apply, Tess.mk.injEq, and_true]
      constructor <;> (norm_num [-one_div]; try ring)
    · refine List.flatMap_congr fun j _ => ?_
      apply List.map_congr_left
      intro k _
      simp only [Function.comp_apply, Tess.mk.injEq, and_true]
      constructor <;> (norm_num [-one_div]; try ring)

theorem splitPieces_flip (t : Tess) (a b c : ℕ) (h1 : 1 ≤ b) (h2 : b ≤ 2) :
    (splitPieces t.flip a b c).Perm ((splitPieces t a b c).map Tess.flip) := by
  unfold splitPieces Tess.flip
  simp only [List.map_flatMap, List.map_map]
  apply List.Perm.flatMap_left
  intro i _
  interval_cases b
  · simp only [List.range_one, List.flatMap_singleton]
    apply List.Perm.of_eq
    apply List.map_congr_left
    intro k _
    simp only [Function.comp_apply, Tess.mk.injEq, and_true, true_and]
    constructor <;> norm_num
  · have h2 : List.range 2 = [0, 1] := rfl
    simp only [h2, List.flatMap_cons, List.flatMap_nil, List.append_nil]
    refine (List.perm_append_comm).trans (List.Perm.of_eq ?_)
    congr 1
    · apply List.map_congr_left
      intro k _
      simp only [Function.comp_apply, Tess.mk.injEq, and_true, true_and]
      constructor <;> (norm_num [-one_div]; try ring)
    · apply List.map_congr_left
      intro k _
      simp only [Function.comp_apply, Tess.mk.injEq, and_true, true_and]
      constructor <;> (norm_num [-one_div]; try ring)

/-! ### sizes and distances -/

theorem dimensions_shift (β : ℝ) (t : Tess) : dimensions (t.shift β) = dimensions t := by
  unfold dimensions Tess.shift
  simp only
  rw [show radians (t.e + β) - radians (t.w + β) = radians t.e - radians t.w by unfold radians; ring]

theorem dimensions_mirror (β : ℝ) (t : Tess) : dimensions (t.mirror β) = dimensions t := by
  unfold dimensions Tess.mirror
  simp only
  rw [show radians (β - t.w) - radians (β - t.e) = radians t.e - radians t.w by unfold radians; ring]

theorem radians_neg (a : ℝ) : radians (-a) = -radians a := by unfold radians; ring

theorem dimensions_flip (t : Tess) : dimensions t.flip = dimensions t := by
  unfold dimensions Tess.flip
  simp only [radians_neg]
  rw [show (-radians t.s + -radians t.n) / 2 = -((radians t.n + radians t.s) / 2) by ring]
  simp only [Real.sin_neg, Real.cos_neg, even_two, Even.neg_pow, mul_neg, neg_mul, neg_neg]
  rw [mul_comm (Real.sin (radians t.s)), mul_comm (Real.cos (radians t.s))]

theorem dimensions_scale (c : ℝ) (t : Tess) : (dimensions (t.scale c)).1 = c * (dimensions t).1 ∧
    (dimensions (t.scale c)).2.1 = c * (dimensions t).2.1 ∧
    (dimensions (t.scale c)).2.2 = c * (dimensions t).2.2 := by
  unfold dimensions Tess.scale
  refine ⟨?_, ?_, ?_⟩ <;> simp only <;> ring

/-- distance, cosine of the angle and cosine of the difference of longitudes, for two points -/
noncomputable def coreOf (q p : P3) : ℝ × ℝ × ℝ :=
  distanceSphericalCore (radians q.x) (Real.cos (radians q.y)) (Real.sin (radians q.y)) q.z
    (radians p.x) (Real.cos (radians p.y)) (Real.sin (radians p.y)) p.z

theorem cos_radians_sub (a b a' b' : ℝ) (k : ℤ)
    (h : a' - b' = a - b + 360 * k ∨ a' - b' = -(a - b) + 360 * k) :
    Real.cos (radians a' - radians b') = Real.cos (radians a - radians b) := by
  have e : ∀ x y : ℝ, radians x - radians y = radians (x - y) := by intro x y; unfold radians; ring
  rw [e, e]
  rcases h with h | h
  · exact cos_turns _ _ k h
  · rw [cos_turns _ _ k h, radians_neg, Real.cos_neg]

theorem coreOf_lon (q p q' p' : P3) (hy : q'.y = q.y) (hz : q'.z = q.z) (hy' : p'.y = p.y)
    (hz' : p'.z = p.z) (k : ℤ)
    (h : p'.x - q'.x = p.x - q.x + 360 * k ∨ p'.x - q'.x = -(p.x - q.x) + 360 * k) :
    coreOf q' p' = coreOf q p := by
  unfold coreOf distanceSphericalCore
  simp only [hy, hz, hy', hz', cos_radians_sub _ _ _ _ k h]

theorem coreOf_flip (q p : P3) : coreOf ⟨q.x, -q.y, q.z⟩ ⟨p.x, -p.y, p.z⟩ = coreOf q p := by
  unfold coreOf distanceSphericalCore
  simp only [radians_neg, Real.sin_neg, Real.cos_neg, mul_neg, neg_mul, neg_neg]

theorem coreOf_scale (c : ℝ) (hc : 0 < c) (q p : P3) :
    (coreOf ⟨q.x, q.y, c * q.z⟩ ⟨p.x, p.y, c * p.z⟩).1 = c * (coreOf q p).1 ∧
    (coreOf ⟨q.x, q.y, c * q.z⟩ ⟨p.x, p.y, c * p.z⟩).2 = (coreOf q p).2 := by
  unfold coreOf distanceSphericalCore
  refine ⟨?_, rfl⟩
  simp only
  rw [← Real.sqrt_sq hc.le, ← Real.sqrt_mul (by positivity), Real.sqrt_sq hc.le]
  congr 1
  ring

/-- the kernels see the points only through the radii, the distance and the angle -/
theorem eval_congr (field : String) (kc : SphKernel × ℝ) (htab : tessFieldTable field = some kc)
    (q p q' p' : P3) (hz : q'.z = q.z) (hz' : p'.z = p.z) (h : coreOf q' p' = coreOf q p) (m : ℝ) :
    (PointKernel.spherical kc.1).eval q' p' m = (PointKernel.spherical kc.1).eval q p m := by
  unfold coreOf at h
  unfold tessFieldTable at htab
  split_ifs at htab
  · simp at htab; subst htab
    simp only [PointKernel.eval, potentialSpherical, h]
  · simp at htab; subst htab
    simp only [PointKernel.eval, gravityUSpherical, h]
    rw [hz, hz']

/-- exponent of the scale in a field -/
noncomputable def scaleFactor (field : String) (c : ℝ) : ℝ := if field = "potential" then c ^ 2 else c

theorem eval_scale (field : String) (kc : SphKernel × ℝ) (htab : tessFieldTable field = some kc)
    (c : ℝ) (hc : 0 < c) (q p : P3) (m : ℝ) :
    (PointKernel.spherical kc.1).eval ⟨q.x, q.y, c * q.z⟩ ⟨p.x, p.y, c * p.z⟩ (c ^ 3 * m) =
      scaleFactor field c * (PointKernel.spherical kc.1).eval q p m := by
  obtain ⟨h1, h2⟩ := coreOf_scale c hc q p
  unfold coreOf at h1 h2
  unfold scaleFactor
  unfold tessFieldTable at htab
  split_ifs at htab with hf
  · simp at htab; subst htab
    simp only [PointKernel.eval, potentialSpherical, h1, hf, if_true]
    by_cases hd : (distanceSphericalCore (radians q.x) (Real.cos (radians q.y)) (Real.sin (radians q.y)) q.z
      (radians p.x) (Real.cos (radians p.y)) (Real.sin (radians p.y)) p.z).1 = 0
    · simp [hd]
    · field_simp
  · simp at htab; subst htab
    simp only [PointKernel.eval, gravityUSpherical, h1, h2, hf, if_false]
    by_cases hd : (distanceSphericalCore (radians q.x) (Real.cos (radians q.y)) (Real.sin (radians q.y)) q.z
      (radians p.x) (Real.cos (radians p.y)) (Real.sin (radians p.y)) p.z).1 = 0
    · simp [hd]
    · field_simp

/-! ### effect of one piece -/

/-- sum over the point masses of a piece -/
noncomputable def pieceEffect (kernel : SphKernel) (q : P3) (t : Tess) (ρ : ℝ → ℝ) : ℝ :=
  total (fun q m => (PointKernel.spherical kernel).eval q m.1 m.2) (pointMasses t ρ) q

theorem pieceEffect_shift (field : String) (kc : SphKernel × ℝ) (htab : tessFieldTable field = some kc)
    (q q' : P3) (hy : q'.y = q.y) (hz : q'.z = q.z) (β : ℝ) (k : ℤ) (hx : q'.x = q.x + β + 360 * k)
    (t : Tess) (ρ : ℝ → ℝ) : pieceEffect kc.1 q' (t.shift β) ρ = pieceEffect kc.1 q t ρ := by
  have hn : ∀ σ, gaussNode (t.shift β).w (t.shift β).e σ = gaussNode t.w t.e σ + β := by
    intro σ; unfold gaussNode Tess.shift; ring
  have hm : radians (t.shift β).e - radians (t.shift β).w = radians t.e - radians t.w := by
    unfold radians Tess.shift; ring
  have key : ∀ (x y z m : ℝ), (PointKernel.spherical kc.1).eval q' ⟨x + β, y, z⟩ m =
      (PointKernel.spherical kc.1).eval q ⟨x, y, z⟩ m := by
    intro x y z m
    refine eval_congr field kc htab q ⟨x, y, z⟩ q' ⟨x + β, y, z⟩ hz rfl
      (coreOf_lon _ _ _ _ hy hz rfl rfl (-k) (Or.inl ?_)) m
    simp only [hx]; push_cast; ring
  unfold pieceEffect total pointMasses
  simp only [List.flatMap_cons, List.flatMap_nil, List.map_cons, List.map_nil, List.append_nil,
    List.cons_append, List.nil_append, hn, hm, key]
  rfl

theorem pieceEffect_mirror (field : String) (kc : SphKernel × ℝ) (htab : tessFieldTable field = some kc)
    (q q' : P3) (hy : q'.y = q.y) (hz : q'.z = q.z) (β : ℝ) (k : ℤ) (hx : q'.x = β - q.x + 360 * k)
    (t : Tess) (ρ : ℝ → ℝ) : pieceEffect kc.1 q' (t.mirror β) ρ = pieceEffect kc.1 q t ρ := by
  have hn : ∀ σ, gaussNode (t.mirror β).w (t.mirror β).e σ = β - gaussNode t.w t.e (-σ) := by
    intro σ; unfold gaussNode Tess.mirror; ring
  have hm : radians (t.mirror β).e - radians (t.mirror β).w = radians t.e - radians t.w := by
    unfold radians Tess.mirror; ring
  have key : ∀ (x y z m : ℝ), (PointKernel.spherical kc.1).eval q' ⟨β - x, y, z⟩ m =
      (PointKernel.spherical kc.1).eval q ⟨x, y, z⟩ m := by
    intro x y z m
    refine eval_congr field kc htab q ⟨x, y, z⟩ q' ⟨β - x, y, z⟩ hz rfl
      (coreOf_lon _ _ _ _ hy hz rfl rfl (-k) (Or.inr ?_)) m
    simp only [hx]; push_cast; ring
  unfold pieceEffect total pointMasses
  simp only [List.flatMap_cons, List.flatMap_nil, List.map_cons, List.map_nil, List.append_nil,
    List.cons_append, List.nil_append, hn, hm, key, neg_neg, List.sum_cons, List.sum_nil]
  simp only [Tess.mirror]
  ring

theorem pieceEffect_flip (field : String) (kc : SphKernel × ℝ) (htab : tessFieldTable field = some kc)
    (q : P3) (t : Tess) (ρ : ℝ → ℝ) :
    pieceEffect kc.1 ⟨q.x, -q.y, q.z⟩ t.flip ρ = pieceEffect kc.1 q t ρ := by
  have hn : ∀ σ, gaussNode t.flip.s t.flip.n σ = - gaussNode t.s t.n (-σ) := by
    intro σ; unfold gaussNode Tess.flip; ring
  have hm : radians t.flip.n - radians t.flip.s = radians t.n - radians t.s := by
    unfold radians Tess.flip; ring
  have key : ∀ (x y z m : ℝ), (PointKernel.spherical kc.1).eval ⟨q.x, -q.y, q.z⟩ ⟨x, -y, z⟩ m =
      (PointKernel.spherical kc.1).eval q ⟨x, y, z⟩ m := by
    intro x y z m
    exact eval_congr field kc htab q ⟨x, y, z⟩ ⟨q.x, -q.y, q.z⟩ ⟨x, -y, z⟩ rfl rfl (coreOf_flip q ⟨x, y, z⟩) m
  unfold pieceEffect total pointMasses
  simp only [List.flatMap_cons, List.flatMap_nil, List.map_cons, List.map_nil, List.append_nil,
    List.cons_append, List.nil_append, hn, hm, key, neg_neg, List.sum_cons, List.sum_nil, radians_neg,
    Real.cos_neg]
  simp only [Tess.flip]
  ring

theorem pieceEffect_scale (field : String) (kc : SphKernel × ℝ) (htab : tessFieldTable field = some kc)
    (c : ℝ) (hc : 0 < c) (q : P3) (t : Tess) (ρ ρ' : ℝ → ℝ) (hρ : ∀ r, ρ' (c * r) = ρ r) :
    pieceEffect kc.1 ⟨q.x, q.y, c * q.z⟩ (t.scale c) ρ' = scaleFactor field c * pieceEffect kc.1 q t ρ := by
  have hn : ∀ σ, gaussNode (t.scale c).bottom (t.scale c).top σ = c * gaussNode t.bottom t.top σ := by
    intro σ; unfold gaussNode Tess.scale; ring
  have key : ∀ (x y z m : ℝ), (PointKernel.spherical kc.1).eval ⟨q.x, q.y, c * q.z⟩ ⟨x, y, c * z⟩
      (ρ' (c * z) * (c * z) ^ 2 * Real.cos (radians y) * ((c * t.top - c * t.bottom) * m) / 8) =
      scaleFactor field c * (PointKernel.spherical kc.1).eval q ⟨x, y, z⟩
        (ρ z * z ^ 2 * Real.cos (radians y) * ((t.top - t.bottom) * m) / 8) := by
    intro x y z m
    rw [← eval_scale field kc htab c hc q ⟨x, y, z⟩, hρ]
    congr 1
    ring
  unfold pieceEffect total pointMasses
  simp only [List.flatMap_cons, List.flatMap_nil, List.map_cons, List.map_nil, List.append_nil,
    List.cons_append, List.nil_append, hn, List.sum_cons, List.sum_nil]
  simp only [Tess.scale, mul_assoc] at key ⊢
  simp only [key]
  ring

/-! ### effect of one tesseroid -/

theorem tessEffect_eq (field : String) (radial : Bool) (kernel : SphKernel) (q : P3) (s : Tess × ℝ) :
    tessEffect field radial kernel q s =
      ((usedPieces field radial q s.1).map fun p => pieceEffect kernel q p fun _ => s.2).sum := rfl

theorem stackSize_pos : 1 ≤ STACK_SIZE := by unfold STACK_SIZE; omega

/-- when both are discretized, sums over the pieces agree -/
theorem pieces_sum (field : String) (radial : Bool) (q q' : P3) (F : Tess → Tess) (G G' : Tess → ℝ)
    (hd : ∀ t, divisions (tessParams field radial q') (F t) = divisions (tessParams field radial q) t)
    (hp : ∀ t a b c, 1 ≤ a → a ≤ 2 → 1 ≤ b → b ≤ 2 → 1 ≤ c →
      (splitPieces (F t) a b c).Perm ((splitPieces t a b c).map F))
    (hG : ∀ t, G' (F t) = G t) (t : Tess) (p p' : List Tess)
    (h : tessPieces (tessParams field radial q) t = .ok p)
    (h' : tessPieces (tessParams field radial q') (F t) = .ok p') :
    (p'.map G').sum = (p.map G).sum := by
  have e := tessPieces_spec (tessParams field radial q) stackSize_pos t
  have e' := tessPieces_spec (tessParams field radial q') stackSize_pos (F t)
  rw [h] at e
  rw [h'] at e'
  obtain ⟨N, a1, a2⟩ := adList_leafSum _ G _ _ _ _ e
  obtain ⟨N', b1, b2⟩ := adList_leafSum _ G' _ _ _ _ e'
  simp only [List.map_nil, List.sum_nil, zero_add, List.map_cons, add_zero, List.sum_cons] at a2 b2
  rw [a2, b2, ← a1 t (by simp) (max N N') (le_max_left _ _),
    ← b1 (F t) (by simp) (max N N') (le_max_right _ _)]
  exact leafSum_map _ _ F G G' hd hp hG _ t

/-- the discretization commutes with a map that keeps the order of the pieces -/
theorem pieces_map (field : String) (radial : Bool) (q q' : P3) (F : Tess → Tess)
    (hd : ∀ t, divisions (tessParams field radial q') (F t) = divisions (tessParams field radial q) t)
    (hp : ∀ t a b c, 1 ≤ a → 1 ≤ b → 1 ≤ c → splitPieces (F t) a b c = (splitPieces t a b c).map F)
    (t : Tess) (p : List Tess) (h : tessPieces (tessParams field radial q) t = .ok p) :
    tessPieces (tessParams field radial q') (F t) = .ok (p.map F) := by
  have e := tessPieces_spec (tessParams field radial q) stackSize_pos t
  have e' := tessPieces_spec (tessParams field radial q') stackSize_pos (F t)
  rw [h] at e
  have := adList_map (tessParams field radial q) (tessParams field radial q') F rfl rfl hd hp
    (adaptiveFuel (tessParams field radial q).stackSize (tessParams field radial q).smallSize) [t] []
  rw [e] at this
  simp only [List.map_cons, List.map_nil] at this
  exact Option.some.inj (e'.symm.trans this)

theorem divisions_shift (field : String) (radial : Bool) (q q' : P3) (hy : q'.y = q.y)
    (hz : q'.z = q.z) (β : ℝ) (k : ℤ) (hx : q'.x = q.x + β + 360 * k) (t : Tess) :
    divisions (tessParams field radial q') (t.shift β) = divisions (tessParams field radial q) t := by
  refine divisions_congr _ _ t _ 1 one_pos rfl rfl (by rw [dimensions_shift, one_mul])
    (by rw [dimensions_shift, one_mul]) (by rw [dimensions_shift, one_mul]) ?_
  rw [one_mul]
  have := coreOf_lon q ⟨(t.w + t.e) / 2, (t.s + t.n) / 2, (t.bottom + t.top) / 2⟩ q'
    ⟨((t.w + β) + (t.e + β)) / 2, (t.s + t.n) / 2, (t.bottom + t.top) / 2⟩ hy hz rfl rfl (-k)
    (Or.inl (by simp only [hx]; push_cast; ring))
  exact congrArg Prod.fst this

theorem divisions_mirror (field : String) (radial : Bool) (q q' : P3) (hy : q'.y = q.y)
    (hz : q'.z = q.z) (β : ℝ) (k : ℤ) (hx : q'.x = β - q.x + 360 * k) (t : Tess) :
    divisions (tessParams field radial q') (t.mirror β) = divisions (tessParams field radial q) t := by
  refine divisions_congr _ _ t _ 1 one_pos rfl rfl (by rw [dimensions_mirror, one_mul])
    (by rw [dimensions_mirror, one_mul]) (by rw [dimensions_mirror, one_mul]) ?_
  rw [one_mul]
  have := coreOf_lon q ⟨(t.w + t.e) / 2, (t.s + t.n) / 2, (t.bottom + t.top) / 2⟩ q'
    ⟨((β - t.e) + (β - t.w)) / 2, (t.s + t.n) / 2, (t.bottom + t.top) / 2⟩ hy hz rfl rfl (-k)
    (Or.inr (by simp only [hx]; push_cast; ring))
  exact congrArg Prod.fst this

theorem divisions_flip (field : String) (radial : Bool) (q : P3) (t : Tess) :
    divisions (tessParams field radial ⟨q.x, -q.y, q.z⟩) t.flip =
      divisions (tessParams field radial q) t := by
  refine divisions_congr _ _ t _ 1 one_pos rfl rfl (by rw [dimensions_flip, one_mul])
    (by rw [dimensions_flip, one_mul]) (by rw [dimensions_flip, one_mul]) ?_
  rw [one_mul]
  have := coreOf_flip q ⟨(t.w + t.e) / 2, (t.s + t.n) / 2, (t.bottom + t.top) / 2⟩
  simp only at this
  rw [show -((t.s + t.n) / 2) = (-t.n + -t.s) / 2 by ring] at this
  exact congrArg Prod.fst this

theorem divisions_scale (field : String) (radial : Bool) (c : ℝ) (hc : 0 < c) (q : P3) (t : Tess) :
    divisions (tessParams field radial ⟨q.x, q.y, c * q.z⟩) (t.scale c) =
      divisions (tessParams field radial q) t := by
  obtain ⟨h1, h2, h3⟩ := dimensions_scale c t
  refine divisions_congr _ _ t _ c hc rfl rfl h1 h2 h3 ?_
  have := (coreOf_scale c hc q ⟨(t.w + t.e) / 2, (t.s + t.n) / 2, (t.bottom + t.top) / 2⟩).1
  simp only at this
  rw [show c * ((t.bottom + t.top) / 2) = (c * t.bottom + c * t.top) / 2 by ring] at this
  exact this

theorem usedPieces_ok {field : String} {radial : Bool} {q : P3} {t : Tess} {p : List Tess}
    (h : tessPieces (tessParams field radial q) t = .ok p) : usedPieces field radial q t = p := by
  unfold usedPieces; rw [h]

/-! ### longitudes modulo 360 -/

theorem normLon_same (t : Tess) : (normLon t).s = t.s ∧ (normLon t).n = t.n ∧
    (normLon t).bottom = t.bottom ∧ (normLon t).top = t.top := by
  unfold normLon; split_ifs <;> simp

theorem normLon_turns (t : Tess) : ∃ k : ℤ, (normLon t).w = t.w + 360 * k := by
  unfold normLon
  split_ifs
  · obtain ⟨-, -, k, hk⟩ := to180_rep t.w
    exact ⟨k, hk⟩
  · exact ⟨0, by simp⟩

/-- the tesseroid that is used has the width of the arc that was asked for -/
theorem normLon_width (t : Tess) (h : t.ValidLon) :
    (normLon t).e - (normLon t).w = eastEnd t.w t.e - t.w := by
  by_cases hw : t.w ≤ t.e
  · rw [normLon_of_le hw, eastEnd_of_le hw]
  · push Not at hw
    have hv := (normLon_valid_iff t).1 h
    have hn : normLon t = { t with e := to180 t.e, w := to180 t.w } := by
      unfold normLon; rw [if_pos hw]
    rw [hn] at hv ⊢
    simp only at hv ⊢
    obtain ⟨w1, w2, k, hk⟩ := to180_rep t.w
    obtain ⟨e1, e2, l, hl⟩ := to180_rep t.e
    unfold eastEnd
    rw [if_neg (not_le.2 hw)]
    have c1 := Int.le_ceil ((t.w - t.e) / 360)
    have c2 := Int.ceil_lt_add_one ((t.w - t.e) / 360)
    have d1 : (-1 : ℝ) < ((l - k - ⌈(t.w - t.e) / 360⌉ : ℤ) : ℝ) := by
      push_cast; linarith [hv.1]
    have d2 : ((l - k - ⌈(t.w - t.e) / 360⌉ : ℤ) : ℝ) < 1 := by
      push_cast; linarith [hv.1]
    have d1' : (-1 : ℤ) < l - k - ⌈(t.w - t.e) / 360⌉ := by exact_mod_cast d1
    have d2' : l - k - ⌈(t.w - t.e) / 360⌉ < 1 := by exact_mod_cast d2
    have hz : l - k = ⌈(t.w - t.e) / 360⌉ := by omega
    rw [← hz, hk, hl]
    push_cast
    ring

/-! ### calls -/

theorem forall2_filter {α β : Type} (R : α → β → Prop) (p : α → Bool) (p' : β → Bool)
    (hp : ∀ a b, R a b → p' b = p a) {l : List α} {l' : List β} (h : List.Forall₂ R l l') :
    List.Forall₂ R (l.filter p) (l'.filter p') := by
  induction h with
  | nil => exact .nil
  | cons h0 _ ih =>
    rw [List.filter_cons, List.filter_cons, hp _ _ h0]
    split_ifs
    · exact .cons h0 ih
    · exact ih

theorem forall2_mem {α β : Type} {R : α → β → Prop} {l : List α} {l' : List β}
    (h : List.Forall₂ R l l') : ∀ b ∈ l', ∃ a ∈ l, R a b := by
  induction h with
  | nil => simp
  | cons h0 _ ih =>
    intro b hb
    rcases List.mem_cons.1 hb with rfl | hb
    · exact ⟨_, by simp, h0⟩
    · obtain ⟨a, ha, hr⟩ := ih b hb
      exact ⟨a, by simp [ha], hr⟩

theorem sym_total {S : Type} {R : S → S → Prop} (κ : ℝ) (f g : S → ℝ) {l l' : List S}
    (h : List.Forall₂ R l l') (P P' : S → Prop) (hl : ∀ s ∈ l, P s) (hl' : ∀ s ∈ l', P' s)
    (hf : ∀ s s', R s s' → P s → P' s' → g s' = κ * f s) :
    (l'.map g).sum = κ * (l.map f).sum := by
  induction h with
  | nil => simp
  | cons h0 _ ih =>
    simp only [List.map_cons, List.sum_cons]
    rw [ih (fun s hs => hl s (by simp [hs])) (fun s hs => hl' s (by simp [hs])),
      hf _ _ h0 (hl _ (by simp)) (hl' _ (by simp))]
    ring

/-- values of two calls whose points and tesseroids are related by a symmetry -/
theorem sym_values {Rq : P3 → P3 → Prop} {Rs : Tess × ℝ → Tess × ℝ → Prop} (κ c : ℝ)
    (field : String) (radial dis : Bool) (kernel : SphKernel) {obs obs' : List P3}
    {srcs srcs' : List (Tess × ℝ)} (hk : ∀ s s', Rs s s' → keepTess s' = keepTess s)
    (he : ∀ q q' s s' p p', Rq q q' → Rs s s' → tessPieces (tessParams field radial q) s.1 = .ok p →
      tessPieces (tessParams field radial q') s'.1 = .ok p' →
      tessEffect field radial kernel q' s' = κ * tessEffect field radial kernel q s)
    (hobs : List.Forall₂ Rq obs obs')
    (hsrc : List.Forall₂ Rs (srcs.map (usedSrc dis)) (srcs'.map (usedSrc dis)))
    (h : Returns field radial dis obs srcs) (h' : Returns field radial dis obs' srcs') :
    (obs'.map fun q => c * total (tessEffect field radial kernel)
        ((srcs'.map (usedSrc dis)).filter keepTess) q) =
      (obs.map fun q => c * total (tessEffect field radial kernel)
        ((srcs.map (usedSrc dis)).filter keepTess) q).map (κ * ·) := by
  have hf := forall2_filter Rs keepTess keepTess hk hsrc
  have h2 := h.2
  have h2' := h'.2
  clear h h' hsrc
  induction hobs with
  | nil => rfl
  | cons h0 _ ih =>
    simp only [List.map_cons]
    rw [ih (fun q hq => h2 q (by simp [hq])) (fun q hq => h2' q (by simp [hq]))]
    congr 1
    unfold total
    rw [sym_total κ _ _ hf _ _ (h2 _ List.mem_cons_self) (h2' _ List.mem_cons_self)
      (fun s s' hr ⟨p, hp⟩ ⟨p', hp'⟩ => he _ _ s s' p p' h0 hr hp hp')]
    ring

theorem sym_pieces {Rq : P3 → P3 → Prop} {Rs : Tess × ℝ → Tess × ℝ → Prop}
    (field : String) (radial dis : Bool) {obs obs' : List P3}
    {srcs srcs' : List (Tess × ℝ)} (hk : ∀ s s', Rs s s' → keepTess s' = keepTess s)
    (hp : ∀ q q' s s' p, Rq q q' → Rs s s' → tessPieces (tessParams field radial q) s.1 = .ok p →
      ∃ p', tessPieces (tessParams field radial q') s'.1 = .ok p')
    (hobs : List.Forall₂ Rq obs obs')
    (hsrc : List.Forall₂ Rs (srcs.map (usedSrc dis)) (srcs'.map (usedSrc dis)))
    (h : Returns field radial dis obs srcs) (hc : ChecksPass dis obs' (srcs'.map (·.1))) :
    Returns field radial dis obs' srcs' := by
  refine ⟨hc, fun q' hq' s' hs' => ?_⟩
  obtain ⟨q, hq, hr⟩ := forall2_mem hobs q' hq'
  obtain ⟨s, hs, hr'⟩ := forall2_mem (forall2_filter Rs keepTess keepTess hk hsrc) s' hs'
  obtain ⟨p, hp'⟩ := h.2 q hq s hs
  exact hp q q' s s' p hr hr' hp'

end Verif.Tesseroid
