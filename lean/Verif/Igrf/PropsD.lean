import Verif.Igrf.LemmasD
import Verif.Igrf.Examples

/-!
C119: grids without a shape and a spacing sample the field well enough to determine it.
C120: the dataset of a grid.
-/

namespace Verif.Igrf

open Verif.Legendre Verif.Engine Real

noncomputable section

/-! ### specification -/

/-- What `bd.grid_coordinates` is documented to return when the spacing divides the region: the nodes from the
south and the west to the north and the east, one every spacing, all of them at the given height. -/
def RegularNodes (gridCoordinates : GridArgs → ℝ → Py Grid) : Prop :=
  ∀ (args : GridArgs) (height dn de : ℝ) (kn ke : ℕ), args.shape = none → args.spacing = some (dn, de) →
    args.adjust = "spacing" ∨ args.adjust = "region" → 0 < dn → 0 < de → 1 ≤ kn → 1 ≤ ke →
    args.region.2.1 - args.region.1 = ke * de → args.region.2.2.2 - args.region.2.2.1 = kn * dn →
    ∃ x : Grid, gridCoordinates args height = .ok x ∧
      x.latitude = (List.range (kn + 1)).map (fun i : ℕ => args.region.2.2.1 + i * dn) ∧
      x.longitude = (List.range (ke + 1)).map (fun j : ℕ => args.region.1 + j * de) ∧
      ∀ i j, x.height i j = height

/-- The values of all variables at one node. -/
def GridDataset.at (d : GridDataset) (i j : ℕ) : List ℝ := d.vars.map fun v => v.values i j

/-- A sphere of radius a: nothing changes but the heights, which become radii. -/
structure Ellipsoid.IsSphere (e : Ellipsoid) (a : ℝ) : Prop where
  latitude : ∀ lat h, -90 ≤ lat → lat ≤ 90 → -a < h → e.latitude lat h = lat
  radius : ∀ lat h, -90 ≤ lat → lat ≤ 90 → -a < h → e.radius lat h = a + h

/-! ### lemmas -/

/-- A function that is a trigonometric polynomial of degree N. -/
def IsTrig (N : ℕ) (f : ℝ → ℝ) : Prop := ∃ a b, ∀ x, f x = trig N a b x

theorem IsTrig.zero (N : ℕ) : IsTrig N fun _ => 0 := ⟨fun _ => 0, fun _ => 0, fun x => by simp [trig]⟩

theorem IsTrig.add {N : ℕ} {f g : ℝ → ℝ} (hf : IsTrig N f) (hg : IsTrig N g) :
    IsTrig N fun x => f x + g x := by
  obtain ⟨a, b, h⟩ := hf
  obtain ⟨a', b', h'⟩ := hg
  refine ⟨fun m => a m + a' m, fun m => b m + b' m, fun x => ?_⟩
  beta_reduce
  rw [h, h', trig, trig, trig, ← Finset.sum_add_distrib]
  exact Finset.sum_congr rfl fun m _ => by ring

theorem IsTrig.mul {N : ℕ} {f : ℝ → ℝ} (hf : IsTrig N f) (c : ℝ) : IsTrig N fun x => c * f x := by
  obtain ⟨a, b, h⟩ := hf
  refine ⟨fun m => c * a m, fun m => c * b m, fun x => ?_⟩
  beta_reduce
  rw [h, trig, trig, Finset.mul_sum]
  exact Finset.sum_congr rfl fun m _ => by ring

theorem IsTrig.sum {N : ℕ} {ι : Type} (s : Finset ι) {f : ι → ℝ → ℝ} (hf : ∀ i ∈ s, IsTrig N (f i)) :
    IsTrig N fun x => ∑ i ∈ s, f i x := by
  classical
  induction s using Finset.induction_on with
  | empty => simpa using IsTrig.zero N
  | insert i s hi ih =>
    simp only [Finset.sum_insert hi]
    exact (hf i (by simp)).add (ih fun k hk => hf k (by simp [hk]))

theorem IsTrig.term {N m : ℕ} (hm : m ≤ N) (p q : ℝ) :
    IsTrig N fun x => p * cos (m * x) + q * sin (m * x) := by
  refine ⟨fun k => if k = m then p else 0, fun k => if k = m then q else 0, fun x => ?_⟩
  rw [trig, Finset.sum_eq_single m]
  · simp
  · intro k _ hk
    simp [hk]
  · intro h
    simp at h
    omega

theorem IsTrig.degreeSum {a N : ℕ} (p q : ℕ → ℕ → ℝ) :
    IsTrig N fun x => Igrf.degreeSum a N fun n m => p n m * cos (m * x) + q n m * sin (m * x) := by
  unfold Igrf.degreeSum
  refine IsTrig.sum _ fun n hn => IsTrig.sum _ fun m hm => IsTrig.term ?_ _ _
  simp at hn hm
  omega

theorem IsTrig.congr {N : ℕ} {f g : ℝ → ℝ} (hf : IsTrig N f) (h : ∀ x, g x = f x) : IsTrig N g := by
  obtain ⟨a, b, e⟩ := hf
  exact ⟨a, b, fun x => by rw [h, e]⟩

/-- The three components along a parallel. -/
theorem field_trig (g h : Arr) (a N : ℕ) (θ q : ℝ) :
    IsTrig N (fun x => (field g h a N (x, θ, q)).1) ∧ IsTrig N (fun x => (field g h a N (x, θ, q)).2.1) ∧
    IsTrig N (fun x => (field g h a N (x, θ, q)).2.2) := by
  refine ⟨?_, ?_, ?_⟩
  · simp only [field]
    split
    · exact IsTrig.zero N
    · refine ((IsTrig.degreeSum (a := a) (fun n m => q ^ (n + 2) * (m * h n m) * schmidtP n m θ)
        (fun n m => q ^ (n + 2) * (-(m : ℝ) * g n m) * schmidtP n m θ)).mul (-(1 / sin θ))).congr fun x => ?_
      unfold bEast
      congr 2
      funext n m
      ring
  · refine (IsTrig.degreeSum (a := a) (fun n m => q ^ (n + 2) * g n m * schmidtDeriv n m θ)
      (fun n m => q ^ (n + 2) * h n m * schmidtDeriv n m θ)).congr fun x => ?_
    simp only [field, bNorth]
    congr 1
    funext n m
    ring
  · refine (IsTrig.degreeSum (a := a) (fun n m => (n + 1) * q ^ (n + 2) * g n m * schmidtP n m θ)
      (fun n m => (n + 1) * q ^ (n + 2) * h n m * schmidtP n m θ)).congr fun x => ?_
    simp only [field, bRadial]
    congr 1
    funext n m
    ring

theorem geodetic_trig (g h : Arr) (a N : ℕ) (lat lat_s θ q : ℝ) :
    IsTrig N (fun x => (vectorSphericalToGeodetic lat lat_s (field g h a N (x, θ, q))).1) ∧
    IsTrig N (fun x => (vectorSphericalToGeodetic lat lat_s (field g h a N (x, θ, q))).2.1) ∧
    IsTrig N (fun x => (vectorSphericalToGeodetic lat lat_s (field g h a N (x, θ, q))).2.2) := by
  obtain ⟨h1, h2, h3⟩ := field_trig g h a N θ q
  refine ⟨h1, (h2.mul _).add (h3.mul _), (h2.mul _).add (h3.mul _)⟩

/-- Longitudes of the default spacing around the Earth are different directions. -/
theorem directions_inj (N : ℕ) (w : ℝ) :
    Set.InjOn (fun k : ℕ => Complex.exp (((radians (w + k * (180 / (2 * (N : ℝ) + 2))) : ℝ) : ℂ) * Complex.I))
      (Finset.range (4 * N + 4)) := by
  intro k hk k' hk' h
  simp only [Finset.coe_range, Set.mem_Iio] at hk hk'
  obtain ⟨z, hz⟩ := Complex.exp_eq_exp_iff_exists_int.1 h
  have h2 : radians (w + k * (180 / (2 * (N : ℝ) + 2))) =
      radians (w + k' * (180 / (2 * (N : ℝ) + 2))) + z * (2 * π) := by
    have := congrArg Complex.im hz
    simpa using this
  have hN : (2 * (N : ℝ) + 2) ≠ 0 := by positivity
  have h3 : (k : ℝ) = k' + z * (4 * N + 4) := by
    unfold radians at h2
    field_simp at h2
    have hp := pi_pos.ne'
    nlinarith [h2]
  have h4 : (k : ℤ) = k' + z * (4 * N + 4) := by exact_mod_cast h3
  have hz0 : z = 0 := by
    by_contra hz0
    rcases lt_or_gt_of_ne hz0 with h | h
    · have : z ≤ -1 := by omega
      nlinarith
    · have : 1 ≤ z := by omega
      nlinarith
  subst hz0
  simp at h4
  exact_mod_cast h4

/-- Two trigonometric polynomials that agree at those longitudes are the same. -/
theorem IsTrig.unique {N : ℕ} {f g : ℝ → ℝ} (hf : IsTrig N f) (hg : IsTrig N g) (w : ℝ)
    (h : ∀ k : ℕ, k < 4 * N + 4 → f (radians (w + k * (180 / (2 * (N : ℝ) + 2)))) =
      g (radians (w + k * (180 / (2 * (N : ℝ) + 2))))) (x : ℝ) : f x = g x := by
  obtain ⟨a, b, e⟩ := hf.add (hg.mul (-1))
  have := (trig_determined (N := N) (a := a) (b := b) (K := 4 * N + 4) (by omega) _ (directions_inj N w)
    (fun k hk => by rw [← e]; beta_reduce; rw [h k hk]; ring)).1 x
  rw [← e] at this
  linarith

theorem radians_lt (lat : ℝ) : radians (90 - lat) = π / 2 - radians lat := by
  unfold radians
  ring

/-- What a successful call has computed. -/
theorem gridCall_ok {H : Type} {gc : GridArgs → H → Py Grid} {names : Names} {mode mode' : Mode} {junk : Junk}
    {load : Py Table} {self : Igrf} {cache : Cache} {args : GridArgs} {height : H} {d : GridDataset}
    (h : (gridCall gc names mode mode' junk load self cache args height).1 = .ok d) :
    ∃ x c b, gc (args.complete self.max_degree) height = .ok x ∧ (coefficients load self cache).1 = .ok c ∧
      gridWith mode mode' junk self c x = .ok b ∧ d = makeDataset names self.date x b := by
  unfold gridCall at h
  cases hx : gc (args.complete self.max_degree) height with
  | error e => simp [hx] at h
  | ok x =>
    simp only [hx, grid] at h
    cases hc : (coefficients load self cache).1 with
    | error e => simp [hc, Except.bind, Except.map] at h
    | ok c =>
      simp only [hc, Except.bind] at h
      cases hb : gridWith mode mode' junk self c x with
      | error e => simp [hb, Except.map] at h
      | ok b =>
        simp only [hb, Except.map, Except.ok.injEq] at h
        exact ⟨x, c, b, rfl, rfl, hb, h.symm⟩

theorem predict_one (mode : Mode) (junk : Junk) {load : Py Table} {self : Igrf} {cache : Cache} {c : Arr × Arr}
    (hc : (coefficients load self cache).1 = .ok c) (points : List (ℝ × ℝ × ℝ)) :
    (predict mode junk load self cache points).1 = predictWith mode junk self c points := by
  unfold predict
  simp only [hc, Except.bind]

/-- The nodes of a default grid around the Earth. -/
theorem default_nodes {gc : GridArgs → ℝ → Py Grid} (hgc : RegularNodes gc) (N : ℕ) (w s n height : ℝ)
    (adjust : String) (ha : adjust = "spacing" ∨ adjust = "region") (k : ℕ) (hk : 1 ≤ k)
    (hsn : n - s = k * (180 / (2 * (N : ℝ) + 2))) {x : Grid}
    (hx : gc (GridArgs.complete { region := (w, w + 360, s, n), adjust } N) height = .ok x) :
    x.latitude = (List.range (k + 1)).map (fun i : ℕ => s + i * (180 / (2 * (N : ℝ) + 2))) ∧
    x.longitude = (List.range (4 * N + 5)).map (fun j : ℕ => w + j * (180 / (2 * (N : ℝ) + 2))) ∧
    ∀ i j, x.height i j = height := by
  have hpos : (0 : ℝ) < 2 * (N : ℝ) + 2 := by positivity
  have e : GridArgs.complete { region := (w, w + 360, s, n), adjust } N =
      { region := (w, w + 360, s, n), adjust, spacing := some (180 / (2 * (N : ℝ) + 2),
        180 / (2 * (N : ℝ) + 2)) } := by
    simp [GridArgs.complete, calculateIdealSpacing]
  rw [e] at hx
  obtain ⟨x', hx', h1, h2, h3⟩ := hgc ⟨(w, w + 360, s, n), none,
    some (180 / (2 * (N : ℝ) + 2), 180 / (2 * (N : ℝ) + 2)), adjust⟩ height _ _ k (4 * N + 4) rfl rfl ha
    (by positivity) (by positivity) hk (by omega) (by push_cast; field_simp; ring) hsn
  rw [hx] at hx'
  cases hx'
  exact ⟨h1, h2, h3⟩

/-- C119. Without a shape and a spacing, the spacing is 180° / (2 N + 2) in both directions, for the maximum
degree N of the model. Around the Earth, from pole to pole, this gives 2 N + 3 parallels and 4 N + 5 meridians
(the last one is the first one again). -/
theorem C119_nodes {gc : GridArgs → ℝ → Py Grid} (hgc : RegularNodes gc) (names : Names) (mode mode' : Mode)
    (junk : Junk) (load : Py Table) (self : Igrf) (cache : Cache) (height : ℝ) (adjust : String)
    (ha : adjust = "spacing" ∨ adjust = "region") :
    (∀ region, gridCall gc names mode mode' junk load self cache { region, adjust } height =
      gridCall gc names mode mode' junk load self cache
        { region, adjust, spacing := some (180 / (2 * (self.max_degree : ℝ) + 2),
          180 / (2 * (self.max_degree : ℝ) + 2)) } height) ∧
    ∀ w d, (gridCall gc names mode mode' junk load self cache { region := (w, w + 360, -90, 90), adjust }
        height).1 = .ok d →
      d.latitude.values = (List.range (2 * self.max_degree + 3)).map
        (fun i : ℕ => -90 + i * (180 / (2 * (self.max_degree : ℝ) + 2))) ∧
      d.longitude.values = (List.range (4 * self.max_degree + 5)).map
        (fun j : ℕ => w + j * (180 / (2 * (self.max_degree : ℝ) + 2))) ∧
      ∀ i j, d.height.values i j = height := by
  have hpos : (0 : ℝ) < 2 * (self.max_degree : ℝ) + 2 := by positivity
  refine ⟨fun region => ?_, fun w d hd => ?_⟩
  · simp [gridCall, GridArgs.complete, calculateIdealSpacing]
  · obtain ⟨x, c, b, hx, -, -, rfl⟩ := gridCall_ok hd
    exact default_nodes hgc _ w (-90) 90 height adjust ha (2 * self.max_degree + 2) (by omega)
      (by push_cast; field_simp; ring) hx

/-- C119. A shape or a spacing that is given is used: the nodes are those of `bd.grid_coordinates` for the
arguments of the call, which raises its errors. -/
theorem C119_given {H : Type} (gc : GridArgs → H → Py Grid) (names : Names) (mode mode' : Mode)
    (junk : Junk) (load : Py Table) (self : Igrf) (cache : Cache) (args : GridArgs) (height : H)
    (hg : args.shape ≠ none ∨ args.spacing ≠ none) :
    (∀ e, gc args height = .error e →
      (gridCall gc names mode mode' junk load self cache args height).1 = .error e) ∧
    ∀ x d, gc args height = .ok x → (gridCall gc names mode mode' junk load self cache args height).1 = .ok d →
      d.latitude.values = x.latitude ∧ d.longitude.values = x.longitude ∧ d.height.values = x.height := by
  have hc : args.complete self.max_degree = args := by
    unfold GridArgs.complete
    rw [if_neg]
    tauto
  refine ⟨fun e he => ?_, fun x d hx hd => ?_⟩
  · unfold gridCall
    rw [hc, he]
  · obtain ⟨x', c, b, hx', -, -, rfl⟩ := gridCall_ok hd
    rw [hc, hx] at hx'
    cases hx'
    exact ⟨rfl, rfl, rfl⟩

/-- A spacing of one degree in a region of ten by twenty degrees. -/
example (names : Names) (junk : Junk) (load : Py Table) (self : Igrf) (cache : Cache) :
    (gridCall (fun a (h : ℝ) => if a.spacing = some (1, 1) then .error .ValueError else .ok ⟨[], [], fun _ _ => h⟩) names
      .serial .serial junk load self cache { region := (0, 10, 0, 20), spacing := some (1, 1) } 0).1 =
      .error .ValueError :=
  (C119_given _ names .serial .serial junk load self cache _ _ (by simp)).1 _ (by simp)

/-- C119. The nodes of a default grid around the Earth determine the field along each of its parallels: when two
models (of any two dates) give the same values at the nodes of a parallel, `predict` gives the same values
at every longitude of this parallel. -/
theorem C119_parallel {gc : GridArgs → ℝ → Py Grid} (hgc : RegularNodes gc) (names names' : Names)
    (m1 m1' m2 m2' mode : Mode) (junk1 junk2 junk : Junk) (load1 load2 : Py Table) (self1 self2 : Igrf)
    (cache1 cache2 : Cache) (hmin : self1.min_degree = self2.min_degree)
    (hmax : self1.max_degree = self2.max_degree) (hell : self1.ellipsoid = self2.ellipsoid)
    (hN : 1 ≤ self1.max_degree) (hlat : ∀ lat h, self1.ellipsoid.latitude lat h ∈ Set.Icc (-90) 90)
    (w s n height : ℝ) (k : ℕ) (hk : 1 ≤ k) (hsn : n - s = k * (180 / (2 * (self1.max_degree : ℝ) + 2)))
    (hm1 : m1.Full (4 * self1.max_degree + 5) (2 * (self1.max_degree + 1)))
    (hm1' : m1'.Full (k + 1) ((4 * self1.max_degree + 5) * accesses self1.max_degree))
    (hm2 : m2.Full (4 * self1.max_degree + 5) (2 * (self1.max_degree + 1)))
    (hm2' : m2'.Full (k + 1) ((4 * self1.max_degree + 5) * accesses self1.max_degree))
    (hm : mode.Full 1 (accesses self1.max_degree)) (d1 d2 : GridDataset)
    (h1 : (gridCall gc names m1 m1' junk1 load1 self1 cache1 { region := (w, w + 360, s, n) } height).1 = .ok d1)
    (h2 : (gridCall gc names' m2 m2' junk2 load2 self2 cache2 { region := (w, w + 360, s, n) } height).1 = .ok d2)
    (i : ℕ) (hi : i ≤ k) (hagree : ∀ j < 4 * self1.max_degree + 4, d1.at i j = d2.at i j) (lon : ℝ) :
    ∃ v, (predict mode junk load1 self1 cache1
          [(lon, s + i * (180 / (2 * (self1.max_degree : ℝ) + 2)), height)]).1 = .ok v ∧
      (predict mode junk load2 self2 cache2
          [(lon, s + i * (180 / (2 * (self1.max_degree : ℝ) + 2)), height)]).1 = .ok v := by
  have hpos : (0 : ℝ) < 2 * (self1.max_degree : ℝ) + 2 := by positivity
  obtain ⟨x, c1, b1, hx, hc1, hb1, rfl⟩ := gridCall_ok h1
  obtain ⟨x2, c2, b2, hx2, hc2, hb2, rfl⟩ := gridCall_ok h2
  rw [← hmax, hx] at hx2
  cases hx2
  obtain ⟨e1, e2, e3⟩ := default_nodes hgc _ w s n height "spacing" (Or.inl rfl) k hk hsn hx
  have l1 : x.latitude.length = k + 1 := by rw [e1]; simp
  have l2 : x.longitude.length = 4 * self1.max_degree + 5 := by rw [e2]; simp
  set q := s + i * (180 / (2 * (self1.max_degree : ℝ) + 2)) with hq
  have hqi : x.latitude[i]? = some q := by
    rw [e1, List.getElem?_map, List.getElem?_range (by omega)]
    rfl
  have hj : ∀ j < 4 * self1.max_degree + 4,
      x.longitude[j]? = some (w + j * (180 / (2 * (self1.max_degree : ℝ) + 2))) := by
    intro j hj
    rw [e2, List.getElem?_map, List.getElem?_range (by omega)]
    rfl
  obtain ⟨b1', hb1', hv1⟩ := C58_grid_partial m1 m1' mode junk1 junk self1 c1 x hN (by rw [l2]; exact hm1)
    (by rw [l1, l2]; exact hm1') hm hlat (fun i j _ _ => by rw [e3, e3])
  obtain ⟨b2', hb2', hv2⟩ := C58_grid_partial m2 m2' mode junk2 junk self2 c2 x (hmax ▸ hN)
    (by rw [l2, ← hmax]; exact hm2) (by rw [l1, l2, ← hmax]; exact hm2') (hmax ▸ hm) (hell ▸ hlat)
    (fun i j _ _ => by rw [e3, e3])
  rw [hb1] at hb1'
  cases hb1'
  rw [hb2] at hb2'
  cases hb2'
  have p1 : ∀ lon, predictWith mode junk self1 c1 [(lon, q, height)] = _ := fun lon =>
    C57_predict mode junk self1 c1 [(lon, q, height)] hN (by simpa using hm) (fun y _ => hlat _ _)
  have p2 : ∀ lon, predictWith mode junk self2 c2 [(lon, q, height)] = _ := fun lon =>
    C57_predict mode junk self2 c2 [(lon, q, height)] (hmax ▸ hN) (by simpa using hmax ▸ hm)
      (fun y _ => hell ▸ hlat _ _)
  rw [← hell, ← hmin, ← hmax] at p2
  simp only [List.map_cons, List.map_nil] at p1 p2
  rw [predict_one mode junk hc1, predict_one mode junk hc2, p1, p2]
  refine ⟨_, rfl, ?_⟩
  congr 2
  have node : ∀ j < 4 * self1.max_degree + 4, b1 i j = b2 i j := by
    intro j hj'
    have := hagree j hj'
    simp only [GridDataset.at, makeDataset, List.map_cons, List.map_nil, List.cons.injEq, and_true] at this
    exact Prod.ext this.1 (Prod.ext this.2.1 this.2.2)
  have agree : ∀ j : ℕ, j < 4 * self1.max_degree + 4 → _ := fun j hj' => by
    have a1 := hv1 i j q _ hqi (hj j hj')
    have a2 := hv2 i j q _ hqi (hj j hj')
    rw [e3, p1, Except.ok.injEq, List.cons.injEq] at a1
    rw [e3, p2, Except.ok.injEq, List.cons.injEq] at a2
    exact a1.1.trans ((node j hj').trans a2.1.symm)
  obtain ⟨t1, t2, t3⟩ := geodetic_trig c1.1 c1.2 self1.min_degree self1.max_degree q
    (self1.ellipsoid.latitude q height) (radians (90 - self1.ellipsoid.latitude q height))
    (6371.2e3 / self1.ellipsoid.radius q height)
  obtain ⟨u1, u2, u3⟩ := geodetic_trig c2.1 c2.2 self1.min_degree self1.max_degree q
    (self1.ellipsoid.latitude q height) (radians (90 - self1.ellipsoid.latitude q height))
    (6371.2e3 / self1.ellipsoid.radius q height)
  refine (Prod.ext ?_ (Prod.ext ?_ ?_)).symm
  · exact t1.unique u1 w (fun j hj' => congrArg (·.1) (agree j hj')) _
  · exact t2.unique u2 w (fun j hj' => congrArg (·.2.1) (agree j hj')) _
  · exact t3.unique u3 w (fun j hj' => congrArg (·.2.2) (agree j hj')) _

/-- Sums on degrees and orders, by order. -/
theorem bRadial_trig (g h : Arr) (a N : ℕ) (x θ q : ℝ) :
    bRadial g h a N x θ q = trig N
      (fun m => ∑ i ∈ Finset.range (N + 1 - m),
        (if a ≤ i + m then ((i + m : ℕ) + 1) * q ^ (i + m + 2) * g (i + m) m else 0) * schmidtP (i + m) m θ)
      (fun m => ∑ i ∈ Finset.range (N + 1 - m),
        (if a ≤ i + m then ((i + m : ℕ) + 1) * q ^ (i + m + 2) * h (i + m) m else 0) * schmidtP (i + m) m θ)
      x := by
  have h1 : bRadial g h a N x θ q = ∑ n ∈ Finset.range (N + 1), ∑ m ∈ Finset.range (n + 1),
      if a ≤ n then ((n : ℝ) + 1) * q ^ (n + 2) * (g n m * cos (m * x) + h n m * sin (m * x)) * schmidtP n m θ
      else 0 := by
    unfold bRadial degreeSum
    rw [show Finset.Icc a N = (Finset.range (N + 1)).filter (fun n => a ≤ n) by ext; simp; omega,
      Finset.sum_filter]
    refine Finset.sum_congr rfl fun n _ => ?_
    split <;> simp
  rw [h1, trig]
  simp only [Finset.sum_mul, ← Finset.sum_add_distrib]
  rw [Finset.sum_sigma', Finset.sum_sigma']
  refine Finset.sum_bij' (fun p _ => ⟨p.2, p.1 - p.2⟩) (fun p _ => ⟨p.2 + p.1, p.1⟩) ?_ ?_ ?_ ?_ ?_
  · rintro ⟨n, m⟩ hp
    simp at hp ⊢
    omega
  · rintro ⟨m, i⟩ hp
    simp at hp ⊢
    omega
  · rintro ⟨n, m⟩ hp
    simp at hp ⊢
    omega
  · rintro ⟨m, i⟩ hp
    simp
  · rintro ⟨n, m⟩ hp
    simp at hp
    have e : n - m + m = n := by omega
    simp only [e]
    split <;> ring

/-- The field only depends on the coefficients of its degrees, and not on those of the sine of order zero. -/
theorem field_congr {g h g' h' : Arr} {a N : ℕ}
    (hg : ∀ n m, a ≤ n → n ≤ N → m ≤ n → g n m = g' n m ∧ (1 ≤ m → h n m = h' n m)) (x : ℝ × ℝ × ℝ) :
    field g h a N x = field g' h' a N x := by
  have key : ∀ f f' : ℕ → ℕ → ℝ, (∀ n m, a ≤ n → n ≤ N → m ≤ n → f n m = f' n m) →
      degreeSum a N f = degreeSum a N f' := by
    intro f f' hf
    unfold degreeSum
    refine Finset.sum_congr rfl fun n hn => Finset.sum_congr rfl fun m hm => ?_
    simp at hn hm
    exact hf n m hn.1 hn.2 (by omega)
  have hh : ∀ n m, a ≤ n → n ≤ N → m ≤ n → (m : ℝ) * h n m = m * h' n m ∧
      h n m * sin (m * x.1) = h' n m * sin (m * x.1) := by
    intro n m h1 h2 h3
    rcases Nat.eq_zero_or_pos m with rfl | hm
    · simp
    · rw [(hg n m h1 h2 h3).2 hm]
      exact ⟨rfl, rfl⟩
  unfold field bEast bNorth bRadial
  refine Prod.ext ?_ (Prod.ext ?_ ?_)
  · simp only
    congr 2
    refine key _ _ fun n m h1 h2 h3 => ?_
    rw [(hg n m h1 h2 h3).1, (hh n m h1 h2 h3).1]
  · refine key _ _ fun n m h1 h2 h3 => ?_
    rw [(hg n m h1 h2 h3).1, (hh n m h1 h2 h3).2]
  · refine key _ _ fun n m h1 h2 h3 => ?_
    rw [(hg n m h1 h2 h3).1, (hh n m h1 h2 h3).2]

/-- C119. On a spherical Earth, the nodes of a default grid of the whole Earth at one height determine the
model: when two models (of any two dates) give the same grid, `predict` gives the same field for both at
every point at any height. -/
theorem C119_determined {gc : GridArgs → ℝ → Py Grid} (hgc : RegularNodes gc) (names names' : Names)
    (m1 m1' m2 m2' : Mode) (junk1 junk2 : Junk) (load1 load2 : Py Table) (self1 self2 : Igrf)
    (cache1 cache2 : Cache) (hmin : self1.min_degree = self2.min_degree)
    (hmax : self1.max_degree = self2.max_degree) (hell : self1.ellipsoid = self2.ellipsoid)
    (hN : 1 ≤ self1.max_degree) (hlat : ∀ lat h, self1.ellipsoid.latitude lat h ∈ Set.Icc (-90) 90)
    (R : ℝ) (hsph : self1.ellipsoid.IsSphere R) (w height : ℝ) (hh : -R < height)
    (hm1 : m1.Full (4 * self1.max_degree + 5) (2 * (self1.max_degree + 1)))
    (hm1' : m1'.Full (2 * self1.max_degree + 3) ((4 * self1.max_degree + 5) * accesses self1.max_degree))
    (hm2 : m2.Full (4 * self1.max_degree + 5) (2 * (self1.max_degree + 1)))
    (hm2' : m2'.Full (2 * self1.max_degree + 3) ((4 * self1.max_degree + 5) * accesses self1.max_degree))
    (d1 d2 : GridDataset)
    (h1 : (gridCall gc names m1 m1' junk1 load1 self1 cache1 { region := (w, w + 360, -90, 90) } height).1 = .ok d1)
    (h2 : (gridCall gc names' m2 m2' junk2 load2 self2 cache2 { region := (w, w + 360, -90, 90) } height).1 = .ok d2)
    (hagree : ∀ i < 2 * self1.max_degree + 3, ∀ j < 4 * self1.max_degree + 5, d1.at i j = d2.at i j)
    (mode : Mode) (junk : Junk) (points : List (ℝ × ℝ × ℝ))
    (hm : mode.Full points.length (accesses self1.max_degree)) :
    ∃ v, (predict mode junk load1 self1 cache1 points).1 = .ok v ∧
      (predict mode junk load2 self2 cache2 points).1 = .ok v := by
  have hpos : (0 : ℝ) < 2 * (self1.max_degree : ℝ) + 2 := by positivity
  obtain ⟨x, c1, b1, hx, hc1, hb1, rfl⟩ := gridCall_ok h1
  obtain ⟨x2, c2, b2, hx2, hc2, hb2, rfl⟩ := gridCall_ok h2
  rw [← hmax, hx] at hx2
  cases hx2
  obtain ⟨e1, e2, e3⟩ := default_nodes hgc _ w (-90) 90 height "spacing" (Or.inl rfl)
    (2 * self1.max_degree + 2) (by omega) (by push_cast; field_simp; ring) hx
  have l1 : x.latitude.length = 2 * self1.max_degree + 3 := by rw [e1]; simp
  have l2 : x.longitude.length = 4 * self1.max_degree + 5 := by rw [e2]; simp
  set N := self1.max_degree with hNdef
  set lat : ℕ → ℝ := fun i => -90 + i * (180 / (2 * (N : ℝ) + 2)) with hlatdef
  set lon : ℕ → ℝ := fun j => w + j * (180 / (2 * (N : ℝ) + 2)) with hlondef
  have hqi : ∀ i < 2 * N + 3, x.latitude[i]? = some (lat i) := by
    intro i hi
    rw [e1, List.getElem?_map, List.getElem?_range (by omega)]
    rfl
  have hj : ∀ j < 4 * N + 5, x.longitude[j]? = some (lon j) := by
    intro j hj
    rw [e2, List.getElem?_map, List.getElem?_range (by omega)]
    rfl
  have hserial : (Mode.serial).Full 1 (accesses N) := trivial
  obtain ⟨b1', hb1', hv1⟩ := C58_grid_partial m1 m1' .serial junk1 junk self1 c1 x hN (by rw [l2]; exact hm1)
    (by rw [l1, l2]; exact hm1') trivial hlat (fun i j _ _ => by rw [e3, e3])
  obtain ⟨b2', hb2', hv2⟩ := C58_grid_partial m2 m2' .serial junk2 junk self2 c2 x (hmax ▸ hN)
    (by rw [l2, ← hmax]; exact hm2) (by rw [l1, l2, ← hmax]; exact hm2') trivial (hell ▸ hlat)
    (fun i j _ _ => by rw [e3, e3])
  rw [hb1] at hb1'
  cases hb1'
  rw [hb2] at hb2'
  cases hb2'
  have latr : ∀ i < 2 * N + 3, -90 ≤ lat i ∧ lat i ≤ 90 := by
    intro i hi
    have hi' : (i : ℝ) ≤ 2 * N + 2 := by exact_mod_cast (by omega : i ≤ 2 * N + 2)
    have h0 : (0 : ℝ) ≤ i * (180 / (2 * (N : ℝ) + 2)) := by positivity
    have h1 : (i : ℝ) * (180 / (2 * (N : ℝ) + 2)) ≤ 180 := by
      rw [← mul_div_assoc, div_le_iff₀ hpos]
      nlinarith
    constructor <;> simp only [hlatdef] <;> linarith
  have agree : ∀ i < 2 * N + 3, ∀ j < 4 * N + 5,
      field c1.1 c1.2 self1.min_degree N (radians (lon j), radians (90 - lat i), 6371.2e3 / (R + height)) =
      field c2.1 c2.2 self1.min_degree N (radians (lon j), radians (90 - lat i), 6371.2e3 / (R + height)) := by
    intro i hi j hj'
    have a1 := hv1 i j _ _ (hqi i hi) (hj j hj')
    have a2 := hv2 i j _ _ (hqi i hi) (hj j hj')
    rw [e3, C57_predict .serial junk self1 c1 _ hN trivial (fun y _ => hlat _ _)] at a1
    rw [e3, C57_predict .serial junk self2 c2 _ (hmax ▸ hN) trivial (fun y _ => hell ▸ hlat _ _), ← hell, ← hmin, ← hmax] at a2
    simp only [List.map_cons, List.map_nil, Except.ok.injEq, List.cons.injEq, and_true] at a1 a2
    obtain ⟨r1, r2⟩ := latr i hi
    rw [hsph.latitude _ _ r1 r2 hh, hsph.radius _ _ r1 r2 hh, C59_identity] at a1 a2
    rw [a1, a2]
    have := hagree i hi j hj'
    simp only [GridDataset.at, makeDataset, List.map_cons, List.map_nil, List.cons.injEq, and_true] at this
    exact Prod.ext this.1 (Prod.ext this.2.1 this.2.2)
  set q := 6371.2e3 / (R + height) with hq
  have hq0 : q ≠ 0 := by
    rw [hq]
    have : (0 : ℝ) < R + height := by linarith
    positivity
  have diff : ∀ i < 2 * N + 3, ∀ j < 4 * N + 4,
      bRadial (fun n m => c1.1 n m - c2.1 n m) (fun n m => c1.2 n m - c2.2 n m) self1.min_degree N
        (radians (lon j)) (radians (90 - lat i)) q = 0 := by
    intro i hi j hj'
    have := congrArg (fun v => v.2.2) (agree i hi j (by omega))
    simp only [field, bRadial, degreeSum] at this
    unfold bRadial degreeSum
    rw [← sub_eq_zero.2 this, ← Finset.sum_sub_distrib]
    refine Finset.sum_congr rfl fun n _ => ?_
    rw [← Finset.sum_sub_distrib]
    exact Finset.sum_congr rfl fun m _ => by ring
  have byOrder : ∀ i < 2 * N + 3, ∀ m ≤ N, _ := fun i hi m hm =>
    (trig_determined (N := N) (K := 4 * N + 4) (by omega) (fun j => radians (lon j)) (directions_inj N w)
      (fun j hj' => by rw [← bRadial_trig]; exact diff i hi j hj')).2 m hm
  have hθ : ∀ k < 2 * N + 1, radians (90 - lat (k + 1)) ∈ Set.Ioo 0 π := by
    intro k hk
    have e : radians (90 - lat (k + 1)) = π * ((2 * N + 2 - (k + 1)) / (2 * N + 2)) := by
      simp only [hlatdef, radians]
      push_cast
      field_simp
      ring
    have hk' : (k : ℝ) + 1 < 2 * N + 2 := by exact_mod_cast (by omega : k + 1 < 2 * N + 2)
    have hpi := pi_pos
    have h1 : 0 < (2 * (N : ℝ) + 2 - (k + 1)) / (2 * N + 2) := div_pos (by linarith) hpos
    have h2 : (2 * (N : ℝ) + 2 - (k + 1)) / (2 * N + 2) < 1 := by
      rw [div_lt_one hpos]
      have : (0 : ℝ) ≤ k := by positivity
      linarith
    rw [e]
    constructor
    · positivity
    · nlinarith
  have hinj : Set.InjOn (fun k => radians (90 - lat (k + 1))) (Finset.range (2 * N + 1)) := by
    intro k _ k' _ h
    simp only [hlatdef, radians] at h
    have hpi := pi_pos.ne'
    field_simp at h
    have : (k : ℝ) = k' := by
      push_cast at h
      linarith
    exact_mod_cast this
  have coefs : ∀ n m, self1.min_degree ≤ n → n ≤ N → m ≤ n →
      c1.1 n m = c2.1 n m ∧ (1 ≤ m → c1.2 n m = c2.2 n m) := by
    intro n m h1 h2 h3
    have g0 := legendre_determined (N := N) (m := m) _ (fun k => radians (90 - lat (k + 1))) (K := 2 * N + 1)
      (by omega) hθ hinj (fun k hk => (byOrder (k + 1) (by omega) m (by omega)).1) (n - m) (by omega)
    have e : n - m + m = n := by omega
    have hf : ((n : ℝ) + 1) * q ^ (n + 2) ≠ 0 := mul_ne_zero (by positivity) (pow_ne_zero _ hq0)
    simp only [e, if_pos h1] at g0
    refine ⟨?_, fun hm1 => ?_⟩
    · rcases mul_eq_zero.1 g0 with h | h
      · exact absurd h hf
      · linarith
    · have h0 := legendre_determined (N := N) (m := m) _ (fun k => radians (90 - lat (k + 1))) (K := 2 * N + 1)
        (by omega) hθ hinj (fun k hk => (byOrder (k + 1) (by omega) m (by omega)).2 hm1) (n - m) (by omega)
      simp only [e, if_pos h1] at h0
      rcases mul_eq_zero.1 h0 with h | h
      · exact absurd h hf
      · linarith
  rw [predict_one mode junk hc1, predict_one mode junk hc2,
    C57_predict mode junk self1 c1 points hN hm (fun y _ => hlat _ _),
    C57_predict mode junk self2 c2 points (hmax ▸ hN) (hmax ▸ hm) (fun y _ => hell ▸ hlat _ _)]
  refine ⟨_, rfl, ?_⟩
  rw [← hell, ← hmin, ← hmax]
  congr 2
  funext y
  rw [field_congr coefs]

/-! ### C120 -/

/-- The value of an attribute: the last one that was set. -/
def Attrs.get (a : Attrs) (key : String) : Option Attr := (a.reverse.find? fun p => p.1 = key).map (·.2)

/-- The variable of a name. -/
def GridDataset.get (d : GridDataset) (name : String) : Option (Var (ℕ → ℕ → ℝ)) :=
  d.vars.find? fun v => v.name = name

theorem foldl_min_least (l : List ℝ) (y : ℝ) : IsLeast {z | z = y ∨ z ∈ l} (l.foldl min y) := by
  induction l generalizing y with
  | nil => simp [IsLeast, lowerBounds]
  | cons a l ih =>
    obtain ⟨h1, h2⟩ := ih (min y a)
    rw [List.foldl_cons]
    refine ⟨?_, fun z hz => ?_⟩
    · rcases h1 with h1 | h1
      · rw [h1]
        rcases min_choice y a with e | e
        · rw [e]; exact Or.inl rfl
        · rw [e]; exact Or.inr (by simp)
      · exact Or.inr (by simp [h1])
    · have h0 : l.foldl min (min y a) ≤ min y a := h2 (Or.inl rfl)
      rcases hz with rfl | hz
      · exact h0.trans (min_le_left _ _)
      · rcases List.mem_cons.1 hz with rfl | hz
        · exact h0.trans (min_le_right _ _)
        · exact h2 (Or.inr hz)

theorem foldl_max_greatest (l : List ℝ) (y : ℝ) : IsGreatest {z | z = y ∨ z ∈ l} (l.foldl max y) := by
  induction l generalizing y with
  | nil => simp [IsGreatest, upperBounds]
  | cons a l ih =>
    obtain ⟨h1, h2⟩ := ih (max y a)
    rw [List.foldl_cons]
    refine ⟨?_, fun z hz => ?_⟩
    · rcases h1 with h1 | h1
      · rw [h1]
        rcases max_choice y a with e | e
        · rw [e]; exact Or.inl rfl
        · rw [e]; exact Or.inr (by simp)
      · exact Or.inr (by simp [h1])
    · have h0 : max y a ≤ l.foldl max (max y a) := h2 (Or.inl rfl)
      rcases hz with rfl | hz
      · exact (le_max_left _ _).trans h0
      · rcases List.mem_cons.1 hz with rfl | hz
        · exact (le_max_right _ _).trans h0
        · exact h2 (Or.inr hz)

theorem minimum_least {l : List ℝ} (hl : l ≠ []) : IsLeast {z | z ∈ l} (minimum l) := by
  obtain ⟨a, l, rfl⟩ := List.exists_cons_of_ne_nil hl
  have := foldl_min_least (a :: l) a
  simpa [minimum] using this

theorem maximum_greatest {l : List ℝ} (hl : l ≠ []) : IsGreatest {z | z ∈ l} (maximum l) := by
  obtain ⟨a, l, rfl⟩ := List.exists_cons_of_ne_nil hl
  have := foldl_max_greatest (a :: l) a
  simpa [maximum] using this

/-- C120. The dataset of a grid has the coordinates of its nodes, and its variables b_east, b_north and b_up,
on latitude and longitude, have at each node the three components that `predict` returns there (for heights
that are constant along each parallel, see C58). -/
theorem C120_values {H : Type} (gc : GridArgs → H → Py Grid) (names : Names) (mode mode' mode'' : Mode)
    (junk junk' : Junk) (load : Py Table) (self : Igrf) (cache : Cache) (args : GridArgs) (height : H) (x : Grid)
    (hx : gc (args.complete self.max_degree) height = .ok x) (hN : 1 ≤ self.max_degree)
    (hm : mode.Full x.longitude.length (2 * (self.max_degree + 1)))
    (hm' : mode'.Full x.latitude.length (x.longitude.length * accesses self.max_degree))
    (hm'' : mode''.Full 1 (accesses self.max_degree))
    (hlat : ∀ lat h, self.ellipsoid.latitude lat h ∈ Set.Icc (-90) 90)
    (hh : ∀ i j, i < x.latitude.length → j < x.longitude.length → x.height i j = x.height i 0) (d : GridDataset)
    (h : (gridCall gc names mode mode' junk load self cache args height).1 = .ok d) :
    d.latitude.values = x.latitude ∧ d.longitude.values = x.longitude ∧ d.height.values = x.height ∧
    ∃ e n u, d.get "b_east" = some e ∧ d.get "b_north" = some n ∧ d.get "b_up" = some u ∧
      (∀ v ∈ [e, n, u], v.dims = ["latitude", "longitude"]) ∧
      ∀ i j lat lon, x.latitude[i]? = some lat → x.longitude[j]? = some lon →
        (predict mode'' junk' load self cache [(lon, lat, x.height i j)]).1 =
          .ok [(e.values i j, n.values i j, u.values i j)] := by
  obtain ⟨x', c, b, hx', hc, hb, rfl⟩ := gridCall_ok h
  rw [hx] at hx'
  cases hx'
  obtain ⟨b', hb', hv⟩ := C58_grid_partial mode mode' mode'' junk junk' self c x hN hm hm' hm'' hlat hh
  rw [hb] at hb'
  cases hb'
  refine ⟨rfl, rfl, rfl, _, _, _, rfl, rfl, rfl, by simp, fun i j lat lon hi hj => ?_⟩
  rw [predict_one mode'' junk' hc, hv i j lat lon hi hj]

/-- C120. The attributes: units, directions, date and ellipsoid, and the ranges of the coordinates, which are
their least and greatest values. -/
theorem C120_attributes {H : Type} (gc : GridArgs → H → Py Grid) (names : Names) (mode mode' : Mode)
    (junk : Junk) (load : Py Table) (self : Igrf) (cache : Cache) (args : GridArgs) (height : H) (d : GridDataset)
    (h : (gridCall gc names mode mode' junk load self cache args height).1 = .ok d)
    (hlat : d.latitude.values ≠ []) (hlon : d.longitude.values ≠ []) :
    d.attrs.get "units" = some (.str "nT") ∧ d.attrs.get "date" = some (.str (names.isoformat self.date)) ∧
    d.attrs.get "crs" = some (.str names.ellipsoid) ∧
    (∀ p ∈ [("b_east", "Eastward"), ("b_north", "Northward"), ("b_up", "Upward")], ∃ v, d.get p.1 = some v ∧
      v.attrs.get "units" = some (.str "nT") ∧ v.attrs.get "long_name" = some (.str (p.2 ++ " component")) ∧
      v.attrs.get "description" = some (.str (p.2 ++ " component of the magnetic field vector calculated on " ++
        names.isoformat self.date))) ∧
    d.latitude.attrs.get "units" = some (.str "degrees_north") ∧
    d.longitude.attrs.get "units" = some (.str "degrees_east") ∧ d.height.attrs.get "units" = some (.str "m") ∧
    (∃ lo hi, d.latitude.attrs.get "actual_range" = some (.range lo hi) ∧
      IsLeast {y | y ∈ d.latitude.values} lo ∧ IsGreatest {y | y ∈ d.latitude.values} hi) ∧
    ∃ lo hi, d.longitude.attrs.get "actual_range" = some (.range lo hi) ∧
      IsLeast {y | y ∈ d.longitude.values} lo ∧ IsGreatest {y | y ∈ d.longitude.values} hi := by
  obtain ⟨x, c, b, -, -, -, rfl⟩ := gridCall_ok h
  refine ⟨rfl, rfl, rfl, ?_, rfl, rfl, rfl, ⟨_, _, rfl, minimum_least hlat, maximum_greatest hlat⟩,
    ⟨_, _, rfl, minimum_least hlon, maximum_greatest hlon⟩⟩
  intro p hp
  simp only [List.mem_cons, List.not_mem_nil, or_false] at hp
  rcases hp with rfl | rfl | rfl
  · exact ⟨_, rfl, rfl, rfl, rfl⟩
  · exact ⟨_, rfl, rfl, rfl, rfl⟩
  · exact ⟨_, rfl, rfl, rfl, rfl⟩

/-- C120. A call with a region, a shape or a spacing that is refused raises the error and does not read the
coefficients; otherwise the coefficients are kept for the next calls, as `predict` keeps them. -/
theorem C120_cache {H : Type} (gc : GridArgs → H → Py Grid) (names : Names) (mode mode' mode'' : Mode)
    (junk junk' : Junk) (load : Py Table) (self : Igrf) (cache : Cache) (args : GridArgs) (height : H)
    (points : List (ℝ × ℝ × ℝ)) :
    (∀ e, gc (args.complete self.max_degree) height = .error e →
      gridCall gc names mode mode' junk load self cache args height = (.error e, cache)) ∧
    ∀ x, gc (args.complete self.max_degree) height = .ok x →
      (gridCall gc names mode mode' junk load self cache args height).2 =
        (predict mode'' junk' load self cache points).2 := by
  refine ⟨fun e he => ?_, fun x hx => ?_⟩
  · simp [gridCall, he]
  · simp [gridCall, hx, grid, predict]

/-! ### examples -/

/-- Nodes of a region with a spacing: the number of intervals is rounded; then the region or the spacing is
adjusted. -/
def roundedNodes (args : GridArgs) (height : ℝ) : Py Grid :=
  match args.shape, args.spacing with
  | none, some (dn, de) =>
    let line := fun (start stop d : ℝ) =>
      let k := ⌊(stop - start) / d + 1 / 2⌋₊
      (List.range (k + 1)).map fun i : ℕ =>
        start + i * (if args.adjust = "spacing" then (stop - start) / k else d)
    .ok ⟨line args.region.1 args.region.2.1 de, line args.region.2.2.1 args.region.2.2.2 dn, fun _ _ => height⟩
  | _, _ => .error .ValueError

theorem roundedNodes_regular : RegularNodes roundedNodes := by
  intro args height dn de kn ke h1 h2 _ hdn hde hkn hke he hn
  have key : ∀ (k : ℕ) (d ext : ℝ), 0 < d → 1 ≤ k → ext = k * d → ⌊ext / d + 1 / 2⌋₊ = k ∧ ext / k = d := by
    rintro k d ext hd hk rfl
    have hk' : (0 : ℝ) < k := by exact_mod_cast hk
    refine ⟨?_, by field_simp⟩
    rw [mul_div_cancel_right₀ _ hd.ne', Nat.floor_eq_iff (by positivity)]
    constructor <;> linarith
  obtain ⟨a1, a2⟩ := key kn dn _ hdn hkn hn
  obtain ⟨b1, b2⟩ := key ke de _ hde hke he
  unfold roundedNodes
  rw [h1, h2]
  simp only [a1, b1, a2, b2, ite_self]
  exact ⟨_, rfl, rfl, rfl, fun _ _ => rfl⟩

/-- The formulas of boule with no eccentricity. -/
theorem boule_sphere (R : ℝ) : (boule R 0).IsSphere R := by
  have key : ∀ lat h, -R < h → √(((h + R) * cos (radians lat)) ^ 2 + ((h + R) * sin (radians lat)) ^ 2) = h + R := by
    intro lat h hh
    rw [show ((h + R) * cos (radians lat)) ^ 2 + ((h + R) * sin (radians lat)) ^ 2 = (h + R) ^ 2 by
      linear_combination (h + R) ^ 2 * sin_sq_add_cos_sq (radians lat)]
    exact sqrt_sq (by linarith)
  have hpi := pi_pos
  constructor
  · intro lat h h1 h2 hh
    have e := key lat h hh
    have h0 : h + R ≠ 0 := by linarith
    simp only [boule, zero_mul, sub_zero, sqrt_one, div_one, one_mul, e, mul_div_cancel_left₀ _ h0]
    rw [arcsin_sin (by unfold radians; nlinarith) (by unfold radians; nlinarith)]
    unfold degrees radians
    field_simp
  · intro lat h h1 h2 hh
    have e := key lat h hh
    simp only [boule, zero_mul, sub_zero, sqrt_one, div_one, one_mul, e]
    ring

/-- Two dates, a spherical Earth, the coefficients of degree 1 of both objects: the grids exist. -/
example (names : Names) (junk : Junk) (load : Py Table) (g h : Arr) (date : Date) :
    let self : Igrf := { date := date, min_degree := 1, max_degree := 1, ellipsoid := boule 6371000 0 }
    RegularNodes roundedNodes ∧ self.ellipsoid.IsSphere 6371000 ∧ (-6371000 : ℝ) < 0 ∧
    (∀ lat h, self.ellipsoid.latitude lat h ∈ Set.Icc (-90) 90) ∧
    ∃ d, (gridCall roundedNodes names .serial .serial junk load self (some (g, h))
      { region := (0, 0 + 360, -90, 90) } 0).1 = .ok d := by
  intro self
  have hlat : ∀ lat h, self.ellipsoid.latitude lat h ∈ Set.Icc (-90) 90 := fun lat h => degrees_arcsin_mem _
  refine ⟨roundedNodes_regular, boule_sphere _, by norm_num, hlat, ?_⟩
  obtain ⟨x, hx, h1, h2, h3⟩ := roundedNodes_regular (GridArgs.complete { region := (0, 0 + 360, -90, 90) } 1) 0
    (calculateIdealSpacing 1) (calculateIdealSpacing 1) 4 8 (by simp [GridArgs.complete])
    (by simp [GridArgs.complete]) (by simp [GridArgs.complete]) (by norm_num [calculateIdealSpacing])
    (by norm_num [calculateIdealSpacing]) (by norm_num) (by norm_num)
    (by norm_num [GridArgs.complete, calculateIdealSpacing])
    (by norm_num [GridArgs.complete, calculateIdealSpacing])
  obtain ⟨b, hb, -⟩ := C58_grid_partial .serial .serial .serial junk junk self (g, h) x le_rfl trivial trivial trivial
    hlat (fun i j _ _ => by rw [h3, h3])
  refine ⟨makeDataset names date x b, ?_⟩
  have hx' : roundedNodes (GridArgs.complete { region := (0, 0 + 360, -90, 90) } self.max_degree) 0 = .ok x := hx
  unfold gridCall
  simp only [hx', grid, coefficients, Except.bind, hb]
  rfl

end

end Verif.Igrf
