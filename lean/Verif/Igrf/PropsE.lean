import Verif.Igrf.PropsD
import Verif.Forward.PropsE

/-!
C121: the field of degree one of the IGRF is the one of a dipole at the centre of the Earth.
C122: the field changes linearly with the date between two epochs and is a continuous function of it.
-/

namespace Verif.Igrf

open Verif.Legendre Verif.Engine Real

noncomputable section

/-! ### specification -/

/-- Geocentric Cartesian coordinates of a point (longitude, latitude, height): the x axis towards longitude
zero, the z axis towards the north pole. -/
def geocentric (e : Ellipsoid) (x : ℝ × ℝ × ℝ) : Distance.P3 :=
  ⟨e.radius x.2.1 x.2.2 * (Real.cos (radians (e.latitude x.2.1 x.2.2)) * Real.cos (radians x.1)),
   e.radius x.2.1 x.2.2 * (Real.cos (radians (e.latitude x.2.1 x.2.2)) * Real.sin (radians x.1)),
   e.radius x.2.1 x.2.2 * Real.sin (radians (e.latitude x.2.1 x.2.2))⟩

/-- East, north and up (normal to the ellipsoid) components, at a point, of a vector given by its geocentric
Cartesian components. -/
def localComponents (x : ℝ × ℝ × ℝ) (v : Distance.P3) : ℝ × ℝ × ℝ :=
  let lon := radians x.1
  let lat := radians x.2.1
  (-Real.sin lon * v.x + Real.cos lon * v.y,
   -Real.sin lat * Real.cos lon * v.x - Real.sin lat * Real.sin lon * v.y + Real.cos lat * v.z,
   Real.cos lat * Real.cos lon * v.x + Real.cos lat * Real.sin lon * v.y + Real.sin lat * v.z)

/-- The moment (A m²) of the dipole at the centre of the Earth with these coefficients of degree 1 (nT). -/
def geomagneticMoment (mu0 : ℝ) (g h : Arr) : Distance.P3 :=
  let f := 4 * Real.pi * 6371.2e3 ^ 3 / mu0 * 1e-9
  ⟨f * g 1 1, f * h 1 1, f * g 1 0⟩

/-! ### lemmas -/

theorem schmidtP_one_one {θ : ℝ} (h : θ ∈ Set.Icc 0 Real.pi) : schmidtP 1 1 θ = Real.sin θ := by
  unfold schmidtP
  rw [legendreNM_eq]
  have := (sv_one (Real.cos θ)).2.2
  unfold sv ev at this
  rw [mul_left_comm, this, mul_one, pow_one, ← Real.abs_sin_eq_sqrt_one_sub_cos_sq,
    abs_of_nonneg (Real.sin_nonneg_of_mem_Icc h)]

theorem schmidtDeriv_one_one {θ : ℝ} (h : θ ∈ Set.Icc 0 Real.pi) : schmidtDeriv 1 1 θ = Real.cos θ := by
  unfold schmidtDeriv
  rw [derivWithin_congr (fun x hx => schmidtP_one_one hx) (schmidtP_one_one h)]
  exact (Real.hasDerivAt_sin θ).hasDerivWithinAt.derivWithin ((uniqueDiffOn_Icc Real.pi_pos) θ h)

/-- The terms of degree 1. -/
theorem field_one (g h : Arr) (lon θ q : ℝ) (hθ : θ ∈ Set.Icc 0 Real.pi) (hs : 1e-10 ≤ Real.sin θ) :
    field g h 1 1 (lon, θ, q) =
      (q ^ 3 * (g 1 1 * Real.sin lon - h 1 1 * Real.cos lon),
       q ^ 3 * (-g 1 0 * Real.sin θ + (g 1 1 * Real.cos lon + h 1 1 * Real.sin lon) * Real.cos θ),
       2 * q ^ 3 * (g 1 0 * Real.cos θ + (g 1 1 * Real.cos lon + h 1 1 * Real.sin lon) * Real.sin θ)) := by
  have h0 : Real.sin θ ≠ 0 := by
    intro h
    rw [h] at hs
    norm_num at hs
  unfold field bEast bNorth bRadial
  rw [if_neg (not_lt.2 (hs.trans (le_abs_self _)))]
  simp only [degreeSum_one, schmidtP_one_zero, schmidtDeriv_one_zero hθ, schmidtP_one_one hθ,
    schmidtDeriv_one_one hθ]
  refine Prod.ext ?_ (Prod.ext ?_ ?_)
  · push_cast
    field_simp
    simp
    ring
  · push_cast
    simp
    ring
  · push_cast
    simp
    ring

theorem colat_mem {lat : ℝ} (h : lat ∈ Set.Icc (-90 : ℝ) 90) : radians (90 - lat) ∈ Set.Icc 0 Real.pi := by
  have hp := Real.pi_pos
  unfold radians
  constructor
  · have := h.2
    apply mul_nonneg (by linarith) (by positivity)
  · have := mul_le_mul_of_nonneg_right (show 90 - lat ≤ 180 by linarith [h.1]) (by positivity : (0 : ℝ) ≤ Real.pi / 180)
    linarith

theorem cos_colat (lat : ℝ) : Real.cos (radians (90 - lat)) = Real.sin (radians lat) := by
  have : radians (90 - lat) = Real.pi / 2 - radians lat := by unfold radians; ring
  rw [this, Real.cos_pi_div_two_sub]

theorem sin_colat (lat : ℝ) : Real.sin (radians (90 - lat)) = Real.cos (radians lat) := by
  have : radians (90 - lat) = Real.pi / 2 - radians lat := by unfold radians; ring
  rw [this, Real.sin_pi_div_two_sub]

theorem dipole_term {k f r R a b c X Y Z i T : ℝ} (hr : r ≠ 0) (hk : k * f * 10 ^ 9 = R ^ 3) :
    k * (3 * (f * a * (r * X) + f * b * (r * Y) + f * c * (r * Z)) * (r * T) / r ^ 5 - f * i / r ^ 3) * 10 ^ 9 =
      (R / r) ^ 3 * (3 * (a * X + b * Y + c * Z) * T - i) := by
  rw [div_pow, ← hk]
  field_simp

/-! ### C121 -/

/-- C121. With degree 1 only, `predict` returns the local components of the field that `dipole_magnetic`
gives, in geocentric Cartesian coordinates, for one dipole at the centre of the Earth with the moment of the
coefficients of degree 1 (away from the axis of the Earth). -/
theorem C121_dipole {mu0 : ℝ} (hmu : mu0 ≠ 0) {K : Forward.MagKernels Distance.P3} (hK : K.Dipole mu0)
    (mode mode' : Mode) (junk : Junk) (junk' : Forward.Junk) (load : Py Table) (self : Igrf) (cache : Cache)
    (hmin : self.min_degree = 1) (hmax : self.max_degree = 1) (c : Arr × Arr)
    (hc : (coefficients load self cache).1 = .ok c) (points : List (ℝ × ℝ × ℝ))
    (hm : mode.Full points.length (accesses 1)) (hm' : mode'.Full points.length 6)
    (hlat : ∀ x ∈ points, self.ellipsoid.latitude x.2.1 x.2.2 ∈ Set.Icc (-90) 90)
    (haxis : ∀ x ∈ points, 1e-10 ≤ Real.cos (radians (self.ellipsoid.latitude x.2.1 x.2.2)))
    (hrad : ∀ x ∈ points, 0 < self.ellipsoid.radius x.2.1 x.2.2) (dis : Bool) :
    let m := geomagneticMoment mu0 c.1 c.2
    ∃ B : ℝ × ℝ × ℝ → Distance.P3,
      Forward.dipoleMagnetic junk' mode' K
          (Forward.arrays [points.length] (points.map (geocentric self.ellipsoid)))
          (Forward.arrays [1] [⟨0, 0, 0⟩]) [[m.x], [m.y], [m.z]] "b" dis =
        .ok (.vector ⟨[points.length], points.map fun x => (B x).x⟩ ⟨[points.length], points.map fun x => (B x).y⟩
          ⟨[points.length], points.map fun x => (B x).z⟩) ∧
      (predict mode junk load self cache points).1 = .ok (points.map fun x => localComponents x (B x)) := by
  intro m
  refine ⟨fun x => ⟨K.e (geocentric self.ellipsoid x) ⟨0, 0, 0⟩ m * 10 ^ 9,
    K.n (geocentric self.ellipsoid x) ⟨0, 0, 0⟩ m * 10 ^ 9,
    K.u (geocentric self.ellipsoid x) ⟨0, 0, 0⟩ m * 10 ^ 9⟩, ?_, ?_⟩
  · have := Forward.C05_dipole_magnetic junk' mode' K [points.length] [1] (points.map (geocentric self.ellipsoid))
      (by simp) [(⟨0, 0, 0⟩, m)] (by simpa using hm') "b" dis
    simp only [List.map_cons, List.map_nil] at this
    rw [this]
    simp [Forward.magSpec, Forward.total, hK.field, Function.comp_def]
  · rw [predict_one mode junk hc, C57_predict mode junk self c points (by omega) (by rwa [hmax]) hlat]
    congr 1
    refine List.map_congr_left fun x hx => ?_
    have hθ := colat_mem (hlat x hx)
    have ha := haxis x hx
    have hr := hrad x hx
    rw [hmin, hmax, field_one _ _ _ _ _ hθ (by rw [sin_colat]; exact ha), sin_colat, cos_colat]
    obtain ⟨lon, lat, ht⟩ := x
    simp only at hr ha ⊢
    set r := self.ellipsoid.radius lat ht with hrd
    set ls := self.ellipsoid.latitude lat ht with hls
    have s1 := Real.sin_sq_add_cos_sq (radians lon)
    have s2 := Real.sin_sq_add_cos_sq (radians ls)
    have hgap : Forward.gap (geocentric self.ellipsoid (lon, lat, ht)) ⟨0, 0, 0⟩ = r := by
      unfold Forward.gap geocentric
      simp only [← hrd, ← hls, sub_zero]
      rw [show (r * (Real.cos (radians ls) * Real.cos (radians lon))) ^ 2 +
        (r * (Real.cos (radians ls) * Real.sin (radians lon))) ^ 2 + (r * Real.sin (radians ls)) ^ 2 = r ^ 2 by
          linear_combination r ^ 2 * Real.cos (radians ls) ^ 2 * s1 + r ^ 2 * s2]
      exact Real.sqrt_sq hr.le
    have hne : geocentric self.ellipsoid (lon, lat, ht) ≠ ⟨0, 0, 0⟩ := by
      intro h
      rw [h] at hgap
      simp [Forward.gap] at hgap
      linarith
    rw [hK.e _ _ _ hne, hK.n _ _ _ hne, hK.u _ _ _ hne, hgap]
    have hd : radians (ls - lat) = radians ls - radians lat := by unfold radians; ring
    unfold vectorSphericalToGeodetic localComponents
    simp only [hd, Real.cos_sub, Real.sin_sub, m, geomagneticMoment, geocentric, ← hrd, ← hls, sub_zero]
    generalize Real.sin (radians lon) = sl at *
    generalize Real.cos (radians lon) = cl at *
    generalize Real.sin (radians ls) = ss at *
    generalize Real.cos (radians ls) = cs at *
    generalize Real.sin (radians lat) = sp at *
    generalize Real.cos (radians lat) = cp at *
    have hk : mu0 / (4 * Real.pi) * (4 * Real.pi * 6371.2e3 ^ 3 / mu0 * 1e-9) * 10 ^ 9 = 6371.2e3 ^ 3 := by
      have hp := Real.pi_pos.ne'
      field_simp
      norm_num
    generalize 4 * Real.pi * 6371.2e3 ^ 3 / mu0 * 1e-9 = f at *
    simp only [dipole_term hr.ne' hk]
    generalize (6371.2e3 / r) ^ 3 = q at *
    generalize c.1 1 0 = g10
    generalize c.1 1 1 = g11
    generalize c.2 1 1 = h11
    refine Prod.ext ?_ (Prod.ext ?_ ?_) <;> simp only
    · ring
    · linear_combination 3 * q * sp * cs * (ss * g10 + cs * (g11 * cl + h11 * sl)) * s1 +
        q * (sp * (g11 * cl + h11 * sl) - cp * g10) * s2
    · linear_combination -3 * q * cp * cs * (ss * g10 + cs * (g11 * cl + h11 * sl)) * s1 -
        q * (cp * (g11 * cl + h11 * sl) + sp * g10) * s2

/-! ### linearity of the field in the coefficients -/

theorem degreeSum_lin (a b : ℕ) (f f' : ℕ → ℕ → ℝ) (t : ℝ) :
    degreeSum a b (fun n m => f n m + t * f' n m) = degreeSum a b f + t * degreeSum a b f' := by
  unfold degreeSum
  simp only [Finset.sum_add_distrib, Finset.mul_sum]

theorem field_lin (g h g' h' : Arr) (a b : ℕ) (t : ℝ) (x : ℝ × ℝ × ℝ) :
    field (fun n m => g n m + t * g' n m) (fun n m => h n m + t * h' n m) a b x =
      field g h a b x + t • field g' h' a b x := by
  unfold field bEast bNorth bRadial
  refine Prod.ext ?_ (Prod.ext ?_ ?_)
  · simp only [Prod.fst_add, Prod.smul_fst, smul_eq_mul]
    split_ifs
    · simp
    · rw [mul_left_comm, ← mul_add, ← degreeSum_lin]
      congr 2
      funext n m
      ring
  · simp only [Prod.fst_add, Prod.snd_add, Prod.smul_fst, Prod.smul_snd, smul_eq_mul]
    rw [← degreeSum_lin]
    congr 1
    funext n m
    ring
  · simp only [Prod.snd_add, Prod.smul_snd, smul_eq_mul]
    rw [← degreeSum_lin]
    congr 1
    funext n m
    ring

theorem toGeodetic_lin (lat ls t : ℝ) (v w : ℝ × ℝ × ℝ) :
    vectorSphericalToGeodetic lat ls (v + t • w) =
      vectorSphericalToGeodetic lat ls v + t • vectorSphericalToGeodetic lat ls w := by
  unfold vectorSphericalToGeodetic
  refine Prod.ext ?_ (Prod.ext ?_ ?_) <;> simp <;> ring

/-! ### C122 -/

variable {T : Table} {y0 : ℤ} {K : ℕ}

/-- C122. Between two epochs (and after the last), the field at each point changes at a constant rate: there
are two vectors per point such that `predict` returns the first plus the second times the time elapsed since
the epoch, for every date of it. -/
theorem C122_linear (hT : T.Regular y0 K) (i : ℕ) (hi : i < K) (e : Ellipsoid)
    (hlat : ∀ lat h, e.latitude lat h ∈ Set.Icc (-90) 90) (a N : ℕ) (hN : 1 ≤ N) (hN' : N ≤ 13) :
    ∃ B V : ℝ × ℝ × ℝ → ℝ × ℝ × ℝ, ∀ (mode : Mode) (junk : Junk) (date : Date) (points : List (ℝ × ℝ × ℝ)),
      date.Valid → date.aware = false → epochTime y0 i ≤ date.time → date.time < epochTime y0 (i + 1) →
      mode.Full points.length (accesses N) →
      (predict mode junk (.ok T) { date, min_degree := a, max_degree := N, ellipsoid := e } none points).1 =
        .ok (points.map fun x => B x + (date.time - epochTime y0 i) • V x) := by
  let z (A : Arr) : Arr := fun n m => if 1 ≤ n ∧ n ≤ N ∧ m ≤ n then A n m else 0
  let vg : Arr := fun n m => if i + 1 ≥ K then T.g_sv n m / yearSeconds
    else (T.g (i + 1) n m - T.g i n m) / (epochTime y0 (i + 1) - epochTime y0 i)
  let vh : Arr := fun n m => if i + 1 ≥ K then T.h_sv n m / yearSeconds
    else (T.h (i + 1) n m - T.h i n m) / (epochTime y0 (i + 1) - epochTime y0 i)
  let at' (g h : Arr) (x : ℝ × ℝ × ℝ) : ℝ × ℝ × ℝ := vectorSphericalToGeodetic x.2.1 (e.latitude x.2.1 x.2.2)
    (field g h a N (radians x.1, radians (90 - e.latitude x.2.1 x.2.2), 6371.2e3 / e.radius x.2.1 x.2.2))
  refine ⟨at' (z (T.g i)) (z (T.h i)), at' (z vg) (z vh), ?_⟩
  intro mode junk date points hd hz h0 h1 hm
  obtain ⟨G, H, hGH, hv⟩ := interpolate_spec hT date hd hz N hN' i hi h0 h1
  have hc : (coefficients (.ok T) { date, min_degree := a, max_degree := N, ellipsoid := e } none).1 =
      .ok (G, H) := by
    unfold coefficients
    simp only [Except.bind, hGH]
  have hG : G = fun n m => z (T.g i) n m + (date.time - epochTime y0 i) * z vg n m := by
    funext n m
    by_cases h : 1 ≤ n ∧ n ≤ N ∧ m ≤ n
    · simp only [z, if_pos h]
      exact ((hv n m).1 h.1 h.2.1 h.2.2).1
    · simp only [z, if_neg h]
      rw [((hv n m).2 h).1]
      ring
  have hH : H = fun n m => z (T.h i) n m + (date.time - epochTime y0 i) * z vh n m := by
    funext n m
    by_cases h : 1 ≤ n ∧ n ≤ N ∧ m ≤ n
    · simp only [z, if_pos h]
      exact ((hv n m).1 h.1 h.2.1 h.2.2).2
    · simp only [z, if_neg h]
      rw [((hv n m).2 h).2]
      ring
  rw [predict_one mode junk hc, C57_predict mode junk _ _ points hN hm (fun x _ => hlat _ _)]
  congr 1
  refine List.map_congr_left fun x _ => ?_
  simp only [hG, hH, at']
  rw [field_lin, toGeodetic_lin]

/-- C122. In the whole range of the table the field at each point is a continuous function of the date. -/
theorem C122_continuous (hT : T.Regular y0 K) (e : Ellipsoid)
    (hlat : ∀ lat h, e.latitude lat h ∈ Set.Icc (-90) 90) (a N : ℕ) (hN : 1 ≤ N) (hN' : N ≤ 13) :
    ∃ B : ℝ × ℝ × ℝ → ℝ → ℝ × ℝ × ℝ, (∀ x, Continuous (B x)) ∧
      ∀ (mode : Mode) (junk : Junk) (date : Date) (points : List (ℝ × ℝ × ℝ)),
        date.Valid → date.aware = false → epochTime y0 0 ≤ date.time → date.time < epochTime y0 K →
        mode.Full points.length (accesses N) →
        (predict mode junk (.ok T) { date, min_degree := a, max_degree := N, ellipsoid := e } none points).1 =
          .ok (points.map fun x => B x date.time) := by
  obtain ⟨G, H, hcont, hval⟩ := C56_continuous hT N hN'
  refine ⟨fun x t => vectorSphericalToGeodetic x.2.1 (e.latitude x.2.1 x.2.2)
    (field (fun n m => G n m t) (fun n m => H n m t) a N (radians x.1, radians (90 - e.latitude x.2.1 x.2.2),
      6371.2e3 / e.radius x.2.1 x.2.2)), ?_, ?_⟩
  · intro x
    have hG : ∀ n m, Continuous (G n m) := fun n m => (hcont n m).1
    have hH : ∀ n m, Continuous (H n m) := fun n m => (hcont n m).2
    have east : ∀ lon θ q, Continuous fun t => (field (fun n m => G n m t) (fun n m => H n m t) a N (lon, θ, q)).1 := by
      intro lon θ q
      by_cases h : |Real.sin θ| < 1e-10
      · simp only [field, if_pos h]
        fun_prop
      · simp only [field, if_neg h, bEast, degreeSum]
        fun_prop
    have north : ∀ lon θ q,
        Continuous fun t => (field (fun n m => G n m t) (fun n m => H n m t) a N (lon, θ, q)).2.1 := by
      intro lon θ q
      simp only [field, bNorth, degreeSum]
      fun_prop
    have up : ∀ lon θ q,
        Continuous fun t => (field (fun n m => G n m t) (fun n m => H n m t) a N (lon, θ, q)).2.2 := by
      intro lon θ q
      simp only [field, bRadial, degreeSum]
      fun_prop
    unfold vectorSphericalToGeodetic
    simp only
    exact (east _ _ _).prodMk (((north _ _ _).const_mul _ |>.add ((up _ _ _).const_mul _)).prodMk
      ((north _ _ _).const_mul _ |>.add ((up _ _ _).const_mul _)))
  · intro mode junk date points hd hz h0 h1 hm
    obtain ⟨G', H', hGH, hv⟩ := hval date hd hz h0 h1
    have hc : (coefficients (.ok T) { date, min_degree := a, max_degree := N, ellipsoid := e } none).1 =
        .ok (G', H') := by
      unfold coefficients
      simp only [Except.bind, hGH]
    rw [predict_one mode junk hc, C57_predict mode junk _ _ points hN hm (fun x _ => hlat _ _)]
    rw [show G' = fun n m => G n m date.time from funext fun n => funext fun m => (hv n m).1,
      show H' = fun n m => H n m date.time from funext fun n => funext fun m => (hv n m).2]

/-! ### C57: degrees -/

theorem field_split (g h : Arr) (a k b : ℕ) (h1 : a ≤ k + 1) (h2 : k ≤ b) (x : ℝ × ℝ × ℝ) :
    field g h a b x = field g h a k x + field g h (k + 1) b x := by
  unfold field bEast bNorth bRadial
  refine Prod.ext ?_ (Prod.ext ?_ ?_)
  · simp only [Prod.fst_add]
    split_ifs
    · simp
    · rw [← mul_add, degreeSum_split h1 h2]
  · simp only [Prod.fst_add, Prod.snd_add]
    exact (degreeSum_split h1 h2 _).symm
  · simp only [Prod.snd_add]
    exact (degreeSum_split h1 h2 _).symm

/-- C57, with `predict`. The field of the degrees a to b is the sum of the fields of the degrees a to k and k + 1 to b. -/
theorem C57_predict_degrees (hT : T.Regular y0 K) (e : Ellipsoid)
    (hlat : ∀ lat h, e.latitude lat h ∈ Set.Icc (-90) 90) (date : Date) (hd : date.Valid)
    (hz : date.aware = false) (h0 : epochTime y0 0 ≤ date.time) (h1 : date.time < epochTime y0 K)
    (a k b : ℕ) (hak : a ≤ k + 1) (hk : 1 ≤ k) (hkb : k ≤ b) (hb : b ≤ 13) (points : List (ℝ × ℝ × ℝ)) :
    ∃ B L U : ℝ × ℝ × ℝ → ℝ × ℝ × ℝ, (∀ x, B x = L x + U x) ∧
      ∀ (mode : Mode) (junk : Junk), mode.Full points.length (accesses b) → mode.Full points.length (accesses k) →
        (predict mode junk (.ok T) { date, min_degree := a, max_degree := b, ellipsoid := e } none points).1 =
          .ok (points.map B) ∧
        (predict mode junk (.ok T) { date, min_degree := a, max_degree := k, ellipsoid := e } none points).1 =
          .ok (points.map L) ∧
        (predict mode junk (.ok T) { date, min_degree := k + 1, max_degree := b, ellipsoid := e } none points).1 =
          .ok (points.map U) := by
  obtain ⟨i, hi, ha, hb'⟩ := exists_epoch hT.nonempty date h0 h1
  obtain ⟨G, H, hGH, hv⟩ := interpolate_spec hT date hd hz b hb i hi ha hb'
  obtain ⟨G', H', hGH', hv'⟩ := interpolate_spec hT date hd hz k (by omega) i hi ha hb'
  have hc : ∀ a', (coefficients (.ok T) { date, min_degree := a', max_degree := b, ellipsoid := e } none).1 =
      .ok (G, H) := by
    intro a'
    unfold coefficients
    simp only [Except.bind, hGH]
  have hc' : (coefficients (.ok T) { date, min_degree := a, max_degree := k, ellipsoid := e } none).1 =
      .ok (G', H') := by
    unfold coefficients
    simp only [Except.bind, hGH']
  have same : ∀ n m, a ≤ n → n ≤ k → m ≤ n → G' n m = G n m ∧ (1 ≤ m → H' n m = H n m) := by
    intro n m _ hn hm
    by_cases h : 1 ≤ n
    · have x := (hv n m).1 h (by omega) hm
      have y := (hv' n m).1 h hn hm
      exact ⟨y.1.trans x.1.symm, fun _ => y.2.trans x.2.symm⟩
    · have x := (hv n m).2 (by omega)
      have y := (hv' n m).2 (by omega)
      exact ⟨y.1.trans x.1.symm, fun _ => y.2.trans x.2.symm⟩
  let at' (a b : ℕ) (x : ℝ × ℝ × ℝ) : ℝ × ℝ × ℝ := vectorSphericalToGeodetic x.2.1 (e.latitude x.2.1 x.2.2)
    (field G H a b (radians x.1, radians (90 - e.latitude x.2.1 x.2.2), 6371.2e3 / e.radius x.2.1 x.2.2))
  refine ⟨at' a b, at' a k, at' (k + 1) b, ?_, ?_⟩
  · intro x
    simp only [at']
    rw [field_split G H a k b hak hkb]
    have := toGeodetic_lin x.2.1 (e.latitude x.2.1 x.2.2) 1
    simpa using this _ _
  · intro mode junk hm hm'
    refine ⟨?_, ?_, ?_⟩
    · rw [predict_one mode junk (hc a), C57_predict mode junk _ _ points (by simp; omega) hm (fun x _ => hlat _ _)]
    · rw [predict_one mode junk hc', C57_predict mode junk _ _ points hk hm' (fun x _ => hlat _ _)]
      congr 1
      refine List.map_congr_left fun x _ => ?_
      simp only [at']
      rw [field_congr same]
    · rw [predict_one mode junk (hc _), C57_predict mode junk _ _ points (by simp; omega) hm (fun x _ => hlat _ _)]

/-! ### examples -/

theorem noon_epoch : epochTime 1900 0 ≤ noon.time ∧ noon.time < epochTime 1900 (0 + 1) := by
  constructor <;> norm_num [epochTime, noon, Date.time, jan1, daysBefore]

/-- The hypotheses of C122 and C57, for any ellipsoid: noon of a day of 1903, and degrees 1 and 2 to 13. -/
example (a e2 : ℝ) (junk : Junk) : ∃ B V L U : ℝ × ℝ × ℝ → ℝ × ℝ × ℝ,
    (predict .serial junk (.ok small) ⟨noon, 1, 13, boule a e2⟩ none [(10, 60, 2000)]).1 =
      .ok [B (10, 60, 2000) + (noon.time - epochTime 1900 0) • V (10, 60, 2000)] ∧
    (predict .serial junk (.ok small) ⟨noon, 1, 13, boule a e2⟩ none [(10, 60, 2000)]).1 =
      .ok [L (10, 60, 2000) + U (10, 60, 2000)] := by
  obtain ⟨B, V, h⟩ := C122_linear small_regular 0 (by norm_num) (boule a e2) (fun _ _ => degrees_arcsin_mem _) 1 13
    (by norm_num) le_rfl
  obtain ⟨B', L, U, h1, h2⟩ := C57_predict_degrees small_regular (boule a e2) (fun _ _ => degrees_arcsin_mem _) noon
    noon_valid rfl noon_epoch.1 (noon_epoch.2.trans (epochTime_lt 1900 (by norm_num))) 1 1 13 (by norm_num) le_rfl
    (by norm_num) le_rfl [(10, 60, 2000)]
  refine ⟨B, V, L, U, h .serial junk noon _ noon_valid rfl noon_epoch.1 noon_epoch.2 trivial, ?_⟩
  rw [(h2 .serial junk trivial trivial).1]
  simp [h1]

/-- A point at 60° of latitude over a sphere, a table with two epochs, noon of a day of 1903: the hypotheses
of C121, with the documented kernels. -/
example (junk : Junk) (junk' : Forward.Junk) (dis : Bool) :
    let self : Igrf := { date := noon, min_degree := 1, max_degree := 1, ellipsoid := boule 6371000 0 }
    ∃ c B, (coefficients (.ok small) self none).1 = .ok c ∧
      (predict .serial junk (.ok small) self none [(10, 60, 2000)]).1 = .ok [localComponents (10, 60, 2000) B] ∧
      Forward.dipoleMagnetic junk' .serial (Forward.dipoleKernels (4e-7 * Real.pi))
        (Forward.arrays [1] [geocentric self.ellipsoid (10, 60, 2000)]) (Forward.arrays [1] [⟨0, 0, 0⟩])
        [[(geomagneticMoment (4e-7 * Real.pi) c.1 c.2).x], [(geomagneticMoment (4e-7 * Real.pi) c.1 c.2).y],
          [(geomagneticMoment (4e-7 * Real.pi) c.1 c.2).z]] "b" dis =
        .ok (.vector ⟨[1], [B.x]⟩ ⟨[1], [B.y]⟩ ⟨[1], [B.z]⟩) := by
  intro self
  have hsph := boule_sphere 6371000
  have hl : self.ellipsoid.latitude 60 2000 = 60 := hsph.latitude _ _ (by norm_num) (by norm_num) (by norm_num)
  have hr : self.ellipsoid.radius 60 2000 = 6371000 + 2000 :=
    hsph.radius _ _ (by norm_num) (by norm_num) (by norm_num)
  obtain ⟨G, H, s, hGH, -⟩ := C56_between small_regular noon noon_valid rfl 1 (by norm_num) 0 (by norm_num)
    noon_epoch.1 noon_epoch.2
  have hc : (coefficients (.ok small) self none).1 = .ok (G, H) := by
    unfold coefficients
    simp only [Except.bind, self, hGH]
  obtain ⟨B, h1, h2⟩ := C121_dipole (mu0 := 4e-7 * Real.pi) (by positivity)
    (Forward.dipoleKernels_dipole _) .serial .serial junk junk' (.ok small) self none rfl rfl (G, H) hc
    [(10, 60, 2000)] trivial trivial (by simp only [List.mem_singleton, forall_eq, hl]; constructor <;> norm_num)
    (by
      simp only [List.mem_singleton, forall_eq, hl]
      rw [show radians 60 = Real.pi / 3 by unfold radians; ring, Real.cos_pi_div_three]
      norm_num)
    (by simp only [List.mem_singleton, forall_eq, hr]; norm_num) dis
  exact ⟨_, B (10, 60, 2000), hc, h2, h1⟩

end

end Verif.Igrf
