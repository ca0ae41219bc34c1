import Verif.Tesseroid.PropsC

/-! C02 and C04 for `tesseroid_gravity` with a density function, and C85: a constant function is the
same as a list of equal values. -/

namespace Verif.Tesseroid
open Verif.Distance Verif.Forward Verif.Engine

/-- conditions under which the call with a density function returns -/
def ReturnsFunc (M : Minimizer) (f : ℝ → ℝ) (fuel : ℕ) (field : String) (radial dis : Bool)
    (obs : List P3) (ts ts' : List Tess) : Prop :=
  ChecksPass dis obs ts ∧ densityDiscretization M f fuel (ts.map (usedTess dis)) = some ts' ∧
    (ts' = [] → obs = []) ∧
    ∀ q ∈ obs, ∀ t ∈ ts', ∃ p, tessPieces (tessParams field radial q) t = .ok p

/-- effect of one layer of a tesseroid -/
noncomputable def layerEffect (field : String) (radial : Bool) (kernel : SphKernel) (f : ℝ → ℝ)
    (q : P3) (t : Tess) : ℝ :=
  ((usedPieces field radial q t).map fun p =>
    total (fun q m => (PointKernel.spherical kernel).eval q m.1 m.2) (pointMasses p f) q).sum

theorem tesseroidGravity_func_ok (field : String) (kc : SphKernel × ℝ)
    (htab : tessFieldTable field = some kc)
    (junk : Junk) (mode : Mode) (M : Minimizer) (fuel : ℕ)
    (stack0 small0 : ℕ → Tess) (shape : List ℕ) (obs : List P3)
    (hshape : shape.prod = obs.length) (ts ts' : List Tess) (f : ℝ → ℝ)
    (radial dis : Bool) (k : ℕ) (hk : 2 * (100000 * ts'.length) ≤ k)
    (hm : mode.Full obs.length k) (hr : ReturnsFunc M f fuel field radial dis obs ts ts') :
    tesseroidGravity junk mode M fuel stack0 small0 (arrays shape obs) ts (.func f) field radial dis
      = some (.ok ⟨shape, obs.map fun q => kc.2 * total (layerEffect field radial kc.1 f) ts' q⟩) := by
  obtain ⟨hc, hd, hne, hp⟩ := hr
  rw [tesseroidGravity_func, htab]
  simp only [if_pos hc, hd]
  rw [if_neg (by
    rintro ⟨h1, h2⟩
    exact h2 (by rw [hne (List.length_eq_zero_iff.1 h1)]; rfl))]
  have := tessCompute_ok junk mode stack0 small0 obs shape hshape field radial ts' id k hk hm
    (fun lonr cosphi sinphi radius _ t => glqVariable lonr cosphi sinphi radius t f glq2 kc.1)
    (fun q _ p => total (fun q m => (PointKernel.spherical kc.1).eval q m.1 m.2) (pointMasses p f) q)
    (by intro q j hj t; rw [quad_masses kc])
    (usedPieces field radial) (by
      intro q hq t ht
      obtain ⟨p, hp⟩ := hp q hq t ht
      simp only [usedPieces, id, hp])
  rw [List.map_id] at this
  rw [this, scale_tess field kc htab, List.map_map]
  rfl

theorem returnsFunc_of_ok {field : String} {kc : SphKernel × ℝ}
    (htab : tessFieldTable field = some kc)
    {junk : Junk} {mode : Mode} {M : Minimizer} {fuel : ℕ}
    {stack0 small0 : ℕ → Tess} {shape : List ℕ} {obs : List P3}
    (hshape : shape.prod = obs.length) {ts : List Tess} {f : ℝ → ℝ}
    {radial dis : Bool} {k : ℕ}
    (hk : ∀ ts', densityDiscretization M f fuel (ts.map (usedTess dis)) = some ts' →
      2 * (100000 * ts'.length) ≤ k) (hm : mode.Full obs.length k) {r : NdArray}
    (h : tesseroidGravity junk mode M fuel stack0 small0 (arrays shape obs) ts (.func f) field
      radial dis = some (.ok r)) :
    ∃ ts', ReturnsFunc M f fuel field radial dis obs ts ts' ∧
      r = ⟨shape, obs.map fun q => kc.2 * total (layerEffect field radial kc.1 f) ts' q⟩ := by
  have h0 := h
  rw [tesseroidGravity_func, htab] at h
  simp only at h
  by_cases hc : ChecksPass dis obs ts
  · rw [if_pos hc] at h
    cases hd : densityDiscretization M f fuel (ts.map (usedTess dis)) with
    | none => rw [hd] at h; simp at h
    | some ts' =>
      rw [hd] at h
      simp only at h
      split at h
      · simp at h
      rename_i hne
      have hret : ReturnsFunc M f fuel field radial dis obs ts ts' := by
        refine ⟨hc, hd, ?_, ?_⟩
        · intro h1
          by_contra h2
          exact hne ⟨by rw [h1]; rfl, fun h3 => h2 (List.length_eq_zero_iff.1 h3)⟩
        · intro q hq t ht
          cases hh : tessPieces (tessParams field radial q) t with
          | ok p => exact ⟨p, rfl⟩
          | error e =>
            obtain ⟨-, -, -, -, e', -, h2⟩ := tessCompute_error junk mode stack0 small0 obs shape
              field radial ts' id _ hm
              (fun lonr cosphi sinphi radius _ t =>
                glqVariable lonr cosphi sinphi radius t f glq2 kc.1)
              q hq t ht e hh
            rw [List.map_id] at h2
            rw [h2] at h
            simp at h
      refine ⟨ts', hret, ?_⟩
      rw [tesseroidGravity_func_ok field kc htab junk mode M fuel stack0 small0 shape obs hshape ts
        ts' f radial dis k (hk ts' hd) hm hret] at h0
      simpa using h0.symm
  · rw [if_neg hc] at h
    simp at h

/-! ## C04 -/

/-- C04 for `tesseroid_gravity` with a density function: each value is the one of `point_gravity` in
spherical coordinates for point masses, whose density is the function at their radius, that replace
the pieces of a partition of layers of each tesseroid (C18 is about the layers). -/
theorem C04_tesseroid_gravity_func (junk : Junk) (mode : Mode) (M : Minimizer) (hM : M.InBounds)
    (fuel : ℕ) (stack0 small0 : ℕ → Tess) (shape : List ℕ) (obs : List P3)
    (hshape : shape.prod = obs.length) (ts : List Tess) (f : ℝ → ℝ) (field : String)
    (radial dis : Bool) (k : ℕ)
    (hk : ∀ l, densityDiscretization M f fuel ts = some l → 2 * (100000 * l.length) ≤ k)
    (hm : mode.Full obs.length k) (hord : ∀ t ∈ ts, t.Ordered) (r : NdArray)
    (h : tesseroidGravity junk mode M fuel stack0 small0 (arrays shape obs) ts
        (.func f) field radial dis = some (.ok r)) :
    ∃ (layers : Tess → List Tess) (pieces : P3 → Tess → List Tess),
      (∀ t ∈ ts, densityDiscretization1 M f fuel t = some (layers t)) ∧
      (∀ t ∈ ts, IsPartition (layers t) t) ∧
      (∀ q ∈ obs, ∀ t ∈ ts, ∀ l ∈ layers t, IsPartition (pieces q l) l) ∧
      r.shape = shape ∧ r.data.length = obs.length ∧
      ∀ i (hi : i < obs.length), ∀ K : PointKernels,
        pointGravity junk .serial K (arrays [1] [obs[i]])
          (arrays1 ((ts.flatMap fun t => (layers t).flatMap fun l => (pieces obs[i] l).flatMap
            fun p => pointMasses p f).map (·.1)))
          (array1 ((ts.flatMap fun t => (layers t).flatMap fun l => (pieces obs[i] l).flatMap
            fun p => pointMasses p f).map (·.2))) field "spherical" =
        .ok ⟨[1], [r.data.getD i 0]⟩ := by
  cases htab : tessFieldTable field with
  | none =>
    rw [tesseroidGravity_func, htab] at h
    simp at h
  | some kc =>
  have hu : ts.map (usedTess dis) = ts := by
    conv_rhs => rw [← List.map_id ts]
    apply List.map_congr_left
    intro t ht
    unfold usedTess
    rw [normLon_of_le (hord t ht).1]
    simp
  obtain ⟨ts', ⟨-, hd, -, hp⟩, rfl⟩ := returnsFunc_of_ok htab hshape (by rw [hu]; exact hk) hm h
  rw [hu] at hd
  clear h hk
  let layers : Tess → List Tess := fun t => (densityDiscretization1 M f fuel t).getD []
  have hlay : ∀ (l : List Tess) (l' : List Tess), densityDiscretization M f fuel l = some l' →
      (∀ t ∈ l, densityDiscretization1 M f fuel t = some (layers t)) ∧ l' = l.flatMap layers := by
    intro l
    induction l with
    | nil =>
      intro l' hl'
      unfold densityDiscretization at hl'
      simp at hl'
      simp [hl']
    | cons t l ih =>
      intro l' hl'
      unfold densityDiscretization at hl'
      cases h1 : densityDiscretization1 M f fuel t with
      | none => rw [h1] at hl'; simp at hl'
      | some a =>
        cases h2 : densityDiscretization M f fuel l with
        | none => rw [h1, h2] at hl'; simp at hl'
        | some b =>
          rw [h1, h2] at hl'
          simp at hl'
          obtain ⟨ih1, ih2⟩ := ih b h2
          have ha : layers t = a := by simp [layers, h1]
          refine ⟨?_, ?_⟩
          · intro t' ht'
            rcases List.mem_cons.1 ht' with rfl | ht'
            · rw [h1, ha]
            · exact ih1 t' ht'
          · rw [List.flatMap_cons, ha, ← ih2, hl']
  obtain ⟨hl1, hl2⟩ := hlay ts ts' hd
  subst hl2
  refine ⟨layers, usedPieces field radial, hl1, ?_, ?_, rfl, by simp, ?_⟩
  · intro t ht
    exact (C18_partition M hM f t (hord t ht) fuel _ (hl1 t ht)).1
  · intro q hq t ht l hl
    obtain ⟨p, hp⟩ := hp q hq l (List.mem_flatMap.2 ⟨t, ht, hl⟩)
    have hlo : l.Ordered := by
      obtain ⟨e1, e2, e3, e4, -, e6, -⟩ :=
        (C18_partition M hM f t (hord t ht) fuel _ (hl1 t ht)).2.2 l hl
      exact ⟨by rw [e1, e2]; exact (hord t ht).1, by rw [e3, e4]; exact (hord t ht).2.1, e6⟩
    have hP : 1 ≤ (tessParams field radial q).stackSize := by
      show 1 ≤ STACK_SIZE; unfold STACK_SIZE; omega
    rcases adaptive_cases (tessParams field radial q) hP stack0 small0 l with
      ⟨n, small, h1, h2⟩ | ⟨e, -, h2⟩
    · unfold usedPieces
      rw [h2]
      exact (C16_partition _ hP stack0 small0 _ l hlo n small h1).1
    · rw [hp] at h2; simp at h2
  · intro i hi K
    rw [arrays1, array1, C04_point_gravity_spherical junk .serial K [1] _ _ [obs[i]] (by simp) _
      trivial field]
    simp only [List.getD_eq_getElem?_getD, List.getElem?_map, List.getElem?_eq_getElem hi,
      Option.map_some, Option.getD_some]
    have hpot : ∀ (q p : P3) (m : ℝ),
        (PointKernel.spherical potentialSpherical).eval q p m = newtonPotential q p m := by
      intro q p m
      have := C10_distance_spherical q p
      unfold distanceSpherical at this
      simp only at this
      simp only [PointKernel.eval, potentialSpherical, newtonPotential_eq, this]
      ring
    have hsum : ∀ kernel : SphKernel, total (layerEffect field radial kernel f) (ts.flatMap layers)
        obs[i] = total (fun q m => (PointKernel.spherical kernel).eval q m.1 m.2)
          (ts.flatMap fun t => (layers t).flatMap fun l => (usedPieces field radial obs[i] l).flatMap
            fun p => pointMasses p f) obs[i] := by
      intro kernel
      unfold total layerEffect total
      simp only [map_flatMap', sum_flatMap]
    unfold tessFieldTable at htab
    split at htab
    · rename_i hf
      simp at htab; subst htab
      rw [if_pos hf, hsum]
      simp [hpot]
    · rename_i hf
      split at htab
      · rename_i hg
        simp at htab; subst htab
        rw [if_neg hf, if_pos hg, hsum]
        simp
      · simp at htab

/-! ## C02 -/

theorem densityDiscretization_append (M : Minimizer) (f : ℝ → ℝ) (fuel : ℕ) (a b a' b' : List Tess)
    (ha : densityDiscretization M f fuel a = some a')
    (hb : densityDiscretization M f fuel b = some b') :
    densityDiscretization M f fuel (a ++ b) = some (a' ++ b') := by
  induction a generalizing a' with
  | nil =>
    unfold densityDiscretization at ha
    simp at ha
    subst ha
    simpa using hb
  | cons t a ih =>
    unfold densityDiscretization at ha
    rw [List.cons_append]
    unfold densityDiscretization
    cases h1 : densityDiscretization1 M f fuel t with
    | none => rw [h1] at ha; simp at ha
    | some x =>
      cases h2 : densityDiscretization M f fuel a with
      | none => rw [h1, h2] at ha; simp at ha
      | some y =>
        rw [h1, h2] at ha
        simp at ha
        subst ha
        rw [ih y h2]
        simp

theorem densityDiscretization_perm (M : Minimizer) (f : ℝ → ℝ) (fuel : ℕ) {a b : List Tess}
    (hp : a.Perm b) : ∀ a', densityDiscretization M f fuel a = some a' →
    ∃ b', densityDiscretization M f fuel b = some b' ∧ a'.Perm b' := by
  induction hp with
  | nil => intro a' h; exact ⟨a', h, List.Perm.refl _⟩
  | cons t _ ih =>
    intro a' h
    unfold densityDiscretization at h ⊢
    cases h1 : densityDiscretization1 M f fuel t with
    | none => rw [h1] at h; simp at h
    | some x =>
      rename_i l1 l2 _
      cases h2 : densityDiscretization M f fuel l1 with
      | none => rw [h1, h2] at h; simp at h
      | some y =>
        rw [h1, h2] at h
        simp at h
        subst h
        obtain ⟨y', h3, h4⟩ := ih y h2
        exact ⟨x ++ y', by rw [h3]; simp, h4.append_left x⟩
  | swap t t' l =>
    intro a' h
    unfold densityDiscretization densityDiscretization at h ⊢
    cases h1 : densityDiscretization1 M f fuel t with
    | none => rw [h1] at h; simp at h
    | some x =>
      cases h1' : densityDiscretization1 M f fuel t' with
      | none => rw [h1, h1'] at h; simp at h
      | some x' =>
        cases h2 : densityDiscretization M f fuel l with
        | none => rw [h1, h1', h2] at h; simp at h
        | some y =>
          rw [h1, h1', h2] at h
          simp at h
          subst h
          refine ⟨x ++ (x' ++ y), by simp, ?_⟩
          rw [← List.append_assoc, ← List.append_assoc]
          exact List.Perm.append_right y List.perm_append_comm
  | trans _ _ ih1 ih2 =>
    intro a' h
    obtain ⟨b', h1, h2⟩ := ih1 a' h
    obtain ⟨c', h3, h4⟩ := ih2 b' h1
    exact ⟨c', h3, h2.trans h4⟩

/-- C02, `tesseroid_gravity` with a density function: union of two sets of tesseroids. -/
theorem C02_tesseroid_gravity_func_split (junk : Junk) (m m1 m2 : Mode) (M : Minimizer) (fuel : ℕ)
    (stack0 small0 : ℕ → Tess) (shape : List ℕ) (obs : List P3)
    (hshape : shape.prod = obs.length) (ts1 ts2 : List Tess) (f : ℝ → ℝ) (field : String)
    (radial dis : Bool) (k : ℕ)
    (hk : ∀ l, densityDiscretization M f fuel ((ts1 ++ ts2).map (usedTess dis)) = some l →
      2 * (100000 * l.length) ≤ k)
    (hm : m.Full obs.length k) (hm1 : m1.Full obs.length k) (hm2 : m2.Full obs.length k)
    (r1 r2 : NdArray)
    (h1 : tesseroidGravity junk m1 M fuel stack0 small0 (arrays shape obs) ts1 (.func f) field
      radial dis = some (.ok r1))
    (h2 : tesseroidGravity junk m2 M fuel stack0 small0 (arrays shape obs) ts2 (.func f) field
      radial dis = some (.ok r2)) :
    tesseroidGravity junk m M fuel stack0 small0 (arrays shape obs) (ts1 ++ ts2) (.func f) field
        radial dis = some (.ok ⟨shape, List.zipWith (· + ·) r1.data r2.data⟩) := by
  cases htab : tessFieldTable field with
  | none =>
    rw [tesseroidGravity_func, htab] at h1
    simp at h1
  | some kc =>
  -- both discretizations end, since both calls return
  have hend : ∀ ts mode r, tesseroidGravity junk mode M fuel stack0 small0 (arrays shape obs) ts
      (.func f) field radial dis = some (.ok r) →
      ∃ l, densityDiscretization M f fuel (ts.map (usedTess dis)) = some l := by
    intro ts mode r h
    rw [tesseroidGravity_func, htab] at h
    simp only at h
    split at h
    · cases hd : densityDiscretization M f fuel (ts.map (usedTess dis)) with
      | none => rw [hd] at h; simp at h
      | some l => exact ⟨l, rfl⟩
    · simp at h
  obtain ⟨l1, hl1⟩ := hend ts1 m1 r1 h1
  obtain ⟨l2, hl2⟩ := hend ts2 m2 r2 h2
  have hcat := densityDiscretization_append M f fuel _ _ _ _ hl1 hl2
  rw [← List.map_append] at hcat
  have hk' := hk _ hcat
  rw [List.length_append] at hk'
  obtain ⟨l1', ⟨c1, d1, e1, p1⟩, rfl⟩ := returnsFunc_of_ok htab hshape
    (k := k) (by intro l hl; rw [hl1] at hl; cases hl; omega) hm1 h1
  obtain ⟨l2', ⟨c2, d2, e2, p2⟩, rfl⟩ := returnsFunc_of_ok htab hshape
    (k := k) (by intro l hl; rw [hl2] at hl; cases hl; omega) hm2 h2
  rw [hl1] at d1
  rw [hl2] at d2
  cases d1
  cases d2
  rw [tesseroidGravity_func_ok field kc htab junk m M fuel stack0 small0 shape obs hshape _
    (l1 ++ l2) f radial dis k (by rw [List.length_append]; omega) hm]
  · simp only [List.zipWith_map, List.zipWith_self]
    congr 3
    apply List.map_congr_left
    intro q _
    rw [total_append, mul_add]
  · refine ⟨?_, hcat, fun h => e1 (List.append_eq_nil_iff.1 h).1, ?_⟩
    · unfold ChecksPass at c1 c2 ⊢
      rcases c1 with c1 | ⟨a1, b1⟩
      · exact Or.inl c1
      · rcases c2 with c2 | ⟨a2, b2⟩
        · exact Or.inl c2
        · refine Or.inr ⟨?_, ?_⟩
          · intro t ht
            rcases List.mem_append.1 ht with ht | ht
            · exact a1 t ht
            · exact a2 t ht
          · rintro ⟨q, hq, t, ht, hcf⟩
            rw [List.map_append, List.mem_append] at ht
            rcases ht with ht | ht
            · exact b1 ⟨q, hq, t, ht, hcf⟩
            · exact b2 ⟨q, hq, t, ht, hcf⟩
    · intro q hq t ht
      rcases List.mem_append.1 ht with ht | ht
      · exact p1 q hq t ht
      · exact p2 q hq t ht

/-- C02, `tesseroid_gravity` with a density function: the order of the tesseroids is irrelevant. -/
theorem C02_tesseroid_gravity_func_perm (junk : Junk) (m m' : Mode) (M : Minimizer) (fuel : ℕ)
    (stack0 small0 : ℕ → Tess) (shape : List ℕ) (obs : List P3)
    (hshape : shape.prod = obs.length) (ts ts' : List Tess) (hp : ts.Perm ts') (f : ℝ → ℝ)
    (field : String) (radial dis : Bool) (k : ℕ)
    (hk : ∀ l, densityDiscretization M f fuel (ts.map (usedTess dis)) = some l →
      2 * (100000 * l.length) ≤ k)
    (hm : m.Full obs.length k) (hm' : m'.Full obs.length k) (r : NdArray)
    (h : tesseroidGravity junk m M fuel stack0 small0 (arrays shape obs) ts (.func f) field
      radial dis = some (.ok r)) :
    tesseroidGravity junk m' M fuel stack0 small0 (arrays shape obs) ts' (.func f) field
      radial dis = some (.ok r) := by
  cases htab : tessFieldTable field with
  | none =>
    rw [tesseroidGravity_func, htab] at h
    simp at h
  | some kc =>
  obtain ⟨l, ⟨c1, d1, e1, p1⟩, rfl⟩ := returnsFunc_of_ok htab hshape hk hm h
  obtain ⟨l', d2, hpl⟩ := densityDiscretization_perm M f fuel (hp.map (usedTess dis)) l d1
  rw [tesseroidGravity_func_ok field kc htab junk m' M fuel stack0 small0 shape obs hshape ts' l' f
    radial dis k (by rw [← hpl.length_eq]; exact hk l d1) hm']
  · congr 3
    apply List.map_congr_left
    intro q _
    rw [total_perm _ _ _ hpl]
  · refine ⟨?_, d2, fun h => e1 (by rw [h] at hpl; exact hpl.eq_nil), fun q hq t ht =>
      p1 q hq t (hpl.mem_iff.2 ht)⟩
    rcases c1 with c1 | ⟨a1, b1⟩
    · exact Or.inl c1
    · refine Or.inr ⟨fun t ht => a1 t (hp.mem_iff.2 ht), ?_⟩
      rintro ⟨q, hq, t, ht, hcf⟩
      exact b1 ⟨q, hq, t, (hp.map _).mem_iff.2 ht, hcf⟩

/-! ## Linearity in the density function -/

/-- A minimiser that does not depend on the units of the function: scaling it by a positive number
scales the minimum and keeps the point (true of a search based on comparisons and on ratios of
differences). -/
def Minimizer.Homogeneous (M : Minimizer) : Prop :=
  ∀ (g : ℝ → ℝ) (a b t : ℝ), 0 < a → M (fun x => a * g x) b t = ((M g b t).1, a * (M g b t).2)

theorem densityMinmax_scale (M : Minimizer) (hM : M.Homogeneous) (f : ℝ → ℝ) (a b t : ℝ)
    (ha : a ≠ 0) :
    densityMinmax M (fun r => a * f r) b t =
      if 0 < a then (a * (densityMinmax M f b t).1, a * (densityMinmax M f b t).2)
      else (a * (densityMinmax M f b t).2, a * (densityMinmax M f b t).1) := by
  unfold densityMinmax
  simp only
  rcases lt_or_gt_of_ne ha with h | h
  · rw [if_neg (not_lt.2 h.le)]
    have e1 : (fun r => a * f r) = fun r => -a * -f r := by funext r; ring
    have e2 : (fun r => -(a * f r)) = fun r => -a * f r := by funext r; ring
    rw [e2, hM f (-a) b t (by linarith), e1, hM (fun r => -f r) (-a) b t (by linarith)]
    have mx : ∀ x y, a * max x y = min (a * x) (a * y) := by
      intro x y
      rcases le_total x y with h' | h'
      · rw [max_eq_right h', min_eq_right (mul_le_mul_of_nonpos_left h' h.le)]
      · rw [max_eq_left h', min_eq_left (mul_le_mul_of_nonpos_left h' h.le)]
    have mn : ∀ x y, a * min x y = max (a * x) (a * y) := by
      intro x y
      rcases le_total x y with h' | h'
      · rw [min_eq_left h', max_eq_left (mul_le_mul_of_nonpos_left h' h.le)]
      · rw [min_eq_right h', max_eq_right (mul_le_mul_of_nonpos_left h' h.le)]
    simp only [Prod.mk.injEq, mx, mn]
    refine ⟨?_, ?_⟩
    · congr 1; ring
    · congr 1; ring
  · rw [if_pos h]
    have e2 : (fun r => -(a * f r)) = fun r => a * -f r := by funext r; ring
    rw [e2, hM f a b t h, hM (fun r => -f r) a b t h]
    simp only [Prod.mk.injEq]
    rw [mul_max_of_nonneg _ _ h.le, mul_max_of_nonneg _ _ h.le, mul_min_of_nonneg _ _ h.le,
      mul_min_of_nonneg _ _ h.le]
    refine ⟨rfl, ?_⟩
    congr 1; ring

theorem densityLoop_congr (M : Minimizer) (nd nd' : ℝ → ℝ) (size w e s n : ℝ)
    (h : ∀ b t, maximumAbsoluteDiff M nd b t = maximumAbsoluteDiff M nd' b t) :
    ∀ (fuel : ℕ) (pending out : List Tess), densityLoop M nd size w e s n fuel pending out =
      densityLoop M nd' size w e s n fuel pending out := by
  intro fuel
  induction fuel with
  | zero =>
    intro pending out
    cases pending <;> simp [densityLoop]
  | succ fuel ih =>
    intro pending out
    cases pending with
    | nil => simp [densityLoop]
    | cons t pending => simp only [densityLoop, h, ih]

/-- The layers of a tesseroid do not depend on the units of the density, nor on its sign, as long as
`np.isclose` takes the density for constant in both cases or in none. -/
theorem densityDiscretization1_scale (M : Minimizer) (hM : M.Homogeneous) (f : ℝ → ℝ) (a : ℝ)
    (ha : a ≠ 0) (fuel : ℕ) (t : Tess)
    (hcl : isclose (densityMinmax M (fun r => a * f r) t.bottom t.top).1
        (densityMinmax M (fun r => a * f r) t.bottom t.top).2 ↔
      isclose (densityMinmax M f t.bottom t.top).1 (densityMinmax M f t.bottom t.top).2) :
    densityDiscretization1 M (fun r => a * f r) fuel t = densityDiscretization1 M f fuel t := by
  unfold densityDiscretization1
  simp only
  by_cases hc : isclose (densityMinmax M f t.bottom t.top).1 (densityMinmax M f t.bottom t.top).2
  · rw [if_pos hc, if_pos (hcl.2 hc)]
  · rw [if_neg hc, if_neg (fun h => hc (hcl.1 h))]
    have hne : (densityMinmax M f t.bottom t.top).2 - (densityMinmax M f t.bottom t.top).1 ≠ 0 := by
      intro h0
      apply hc
      rw [show (densityMinmax M f t.bottom t.top).2 = (densityMinmax M f t.bottom t.top).1 by linarith]
      exact isclose_refl _
    rw [densityMinmax_scale M hM f a _ _ ha]
    set lo := (densityMinmax M f t.bottom t.top).1
    set hi := (densityMinmax M f t.bottom t.top).2
    apply densityLoop_congr
    intro b u
    unfold maximumAbsoluteDiff
    have hfun : ∀ nd nd' : ℝ → ℝ, (nd = nd' ∨ ∀ r, nd r = 1 - nd' r) →
        (fun radius => -|nd radius - straightLine radius nd b u|) =
          fun radius => -|nd' radius - straightLine radius nd' b u| := by
      rintro nd nd' (rfl | h)
      · rfl
      · funext r
        have : nd r - straightLine r nd b u = -(nd' r - straightLine r nd' b u) := by
          unfold straightLine
          simp only [h]
          ring
        rw [this, abs_neg]
    rw [hfun _ (fun radius => (f radius - lo) / (hi - lo))]
    split_ifs with hpos
    · left
      funext r
      simp only
      rw [← mul_sub, ← mul_sub, mul_div_mul_left _ _ ha]
    · right
      intro r
      simp only
      rw [← mul_sub, ← mul_sub, mul_div_mul_left _ _ ha]
      have h' : lo - hi ≠ 0 := fun h => hne (by linarith)
      field_simp
      ring

/-- C02, `tesseroid_gravity` with a density function is homogeneous in the density, as long as
`np.isclose` (that has an absolute tolerance) takes the density of each tesseroid for constant before
and after the scaling, or in none of the cases, and the minimiser does not depend on the units. -/
theorem C02_tesseroid_gravity_func_scale_partial (junk : Junk) (m m' : Mode) (M : Minimizer)
    (hM : M.Homogeneous) (fuel : ℕ)
    (stack0 small0 : ℕ → Tess) (shape : List ℕ) (obs : List P3)
    (hshape : shape.prod = obs.length) (ts : List Tess) (f : ℝ → ℝ) (a : ℝ) (ha : a ≠ 0)
    (hcl : ∀ t ∈ ts, isclose (densityMinmax M (fun r => a * f r) t.bottom t.top).1
        (densityMinmax M (fun r => a * f r) t.bottom t.top).2 ↔
      isclose (densityMinmax M f t.bottom t.top).1 (densityMinmax M f t.bottom t.top).2)
    (field : String) (radial dis : Bool) (k : ℕ)
    (hk : ∀ l, densityDiscretization M f fuel (ts.map (usedTess dis)) = some l →
      2 * (100000 * l.length) ≤ k)
    (hm : m.Full obs.length k) (hm' : m'.Full obs.length k) (r : NdArray)
    (h : tesseroidGravity junk m M fuel stack0 small0 (arrays shape obs) ts (.func f) field
      radial dis = some (.ok r)) :
    tesseroidGravity junk m' M fuel stack0 small0 (arrays shape obs) ts (.func fun r => a * f r)
      field radial dis = some (.ok ⟨shape, r.data.map (a * ·)⟩) := by
  cases htab : tessFieldTable field with
  | none =>
    rw [tesseroidGravity_func, htab] at h
    simp at h
  | some kc =>
  obtain ⟨l, ⟨c1, d1, e1, p1⟩, rfl⟩ := returnsFunc_of_ok htab hshape hk hm h
  have hd : ∀ us : List Tess, (∀ u ∈ us, ∃ t ∈ ts, u.bottom = t.bottom ∧ u.top = t.top) →
      densityDiscretization M (fun r => a * f r) fuel us = densityDiscretization M f fuel us := by
    intro us
    induction us with
    | nil => intro _; rfl
    | cons u us ih =>
      intro hu
      unfold densityDiscretization
      obtain ⟨t, ht, h1, h2⟩ := hu u List.mem_cons_self
      rw [ih fun u hu' => hu u (List.mem_cons_of_mem _ hu'),
        densityDiscretization1_scale M hM f a ha fuel u (by rw [h1, h2]; exact hcl t ht)]
  have hd1 := hd (ts.map (usedTess dis)) (by
    intro u hu
    obtain ⟨t, ht, rfl⟩ := List.mem_map.1 hu
    refine ⟨t, ht, ?_⟩
    unfold usedTess
    split_ifs
    · exact ⟨rfl, rfl⟩
    · unfold normLon
      split_ifs <;> exact ⟨rfl, rfl⟩)
  rw [tesseroidGravity_func_ok field kc htab junk m' M fuel stack0 small0 shape obs hshape ts l _
    radial dis k (hk l d1) hm' ⟨c1, hd1.trans d1, e1, p1⟩]
  rw [List.map_map]
  congr 3
  apply List.map_congr_left
  intro q _
  simp only [Function.comp_apply]
  have hmass : ∀ p : Tess, pointMasses p (fun r => a * f r) =
      (pointMasses p f).map fun m => (m.1, a * m.2) := by
    intro p
    unfold pointMasses
    simp only [List.flatMap_cons, List.flatMap_nil, List.map_cons, List.map_nil, List.append_nil,
      List.cons_append, List.nil_append]
    simp only [mul_assoc, mul_div_assoc]
  have heff : ∀ t, layerEffect field radial kc.1 (fun r => a * f r) q t =
      a * layerEffect field radial kc.1 f q t := by
    intro t
    unfold layerEffect
    rw [← List.sum_map_mul_left]
    congr 1
    apply List.map_congr_left
    intro p _
    unfold total
    rw [hmass, ← List.sum_map_mul_left, List.map_map]
    congr 1
    apply List.map_congr_left
    intro m _
    simp only [Function.comp_apply, PointKernel.eval]
    ring
  have hsum : total (layerEffect field radial kc.1 fun r => a * f r) l q =
      a * total (layerEffect field radial kc.1 f) l q := by
    unfold total
    rw [← List.sum_map_mul_left]
    congr 1
    exact List.map_congr_left fun t _ => heff t
  rw [hsum]
  ring

/-! ## C85 -/

/-- C85: a constant density given as a function or as a list of values, the same result: the calls
return for the same inputs (tesseroids with volume, density not null), and the same array. -/
theorem C85_constant_function (junk : Junk) (m m' : Mode) (M M' : Minimizer) (hM : M.InBounds)
    (fuel fuel' : ℕ) (stack0 small0 stack1 small1 : ℕ → Tess) (shape : List ℕ) (obs : List P3)
    (hshape : shape.prod = obs.length) (ts : List Tess) (hts : ts ≠ []) (ρ : ℝ) (hρ : ρ ≠ 0)
    (hvol : ∀ t ∈ ts, t.w < t.e ∧ t.s < t.n ∧ t.bottom < t.top)
    (field : String) (radial dis : Bool)
    (hm : m.Full obs.length (2 * (100000 * ts.length)))
    (hm' : m'.Full obs.length (2 * (100000 * ts.length))) (r : NdArray) :
    tesseroidGravity junk m M fuel stack0 small0 (arrays shape obs) ts (.func fun _ => ρ) field
        radial dis = some (.ok r) ↔
      tesseroidGravity junk m' M' fuel' stack1 small1 (arrays shape obs) ts
        (.values (List.replicate ts.length ρ)) field radial dis = some (.ok r) := by
  cases htab : tessFieldTable field with
  | none =>
    have h1 : field ≠ "potential" := fun h => by subst h; simp [tessFieldTable] at htab
    have h2 : field ≠ "g_z" := fun h => by subst h; simp [tessFieldTable] at htab
    rw [C04_tesseroid_gravity_unknown_field (h1 := h1) (h2 := h2),
      C04_tesseroid_gravity_unknown_field (h1 := h1) (h2 := h2)]
  | some kc =>
  have hu : ts.map (usedTess dis) = ts := by
    conv_rhs => rw [← List.map_id ts]
    apply List.map_congr_left
    intro t ht
    unfold usedTess
    rw [normLon_of_le (hvol t ht).1.le]
    simp
  -- the discretization leaves every tesseroid as it is
  have hd : ∀ us : List Tess, (∀ u ∈ us, u.bottom ≤ u.top) →
      densityDiscretization M (fun _ => ρ) fuel us = some us := by
    intro us
    induction us with
    | nil => intro _; rfl
    | cons u us ih =>
      intro h
      unfold densityDiscretization densityDiscretization1
      have hmm : densityMinmax M (fun _ => ρ) u.bottom u.top = (ρ, ρ) := by
        unfold densityMinmax
        simp only
        rw [(hM (fun _ => ρ) _ _ (h u List.mem_cons_self)).2,
          (hM (fun _ => -ρ) _ _ (h u List.mem_cons_self)).2]
        simp
      have hcl : isclose (densityMinmax M (fun _ => ρ) u.bottom u.top).1
          (densityMinmax M (fun _ => ρ) u.bottom u.top).2 := by rw [hmm]; exact isclose_refl _
      simp only [if_pos hcl]
      rw [ih fun u hu => h u (List.mem_cons_of_mem _ hu)]
      rfl
  have hd1 := hd ts fun t ht => (hvol t ht).2.2.le
  have e1 : ts = (ts.map fun t => (t, ρ)).map (·.1) := by simp [Function.comp_def]
  have e2 : List.replicate ts.length ρ = (ts.map fun t => (t, ρ)).map (·.2) := by
    rw [List.map_map]
    exact List.map_const'.symm
  have hused : (ts.map fun t => (t, ρ)).map (usedSrc dis) = ts.map fun t => (t, ρ) := by
    rw [List.map_map]
    apply List.map_congr_left
    intro t ht
    simp only [Function.comp_apply, usedSrc, usedTess]
    rw [normLon_of_le (hvol t ht).1.le]
    simp
  have hkeep : (ts.map fun t => (t, ρ)).filter keepTess = ts.map fun t => (t, ρ) := by
    rw [List.filter_eq_self]
    intro s hs
    obtain ⟨t, ht, rfl⟩ := List.mem_map.1 hs
    obtain ⟨h1, h2, h3⟩ := hvol t ht
    simp [keepTess, nullTess, hρ, h1.ne, h2.ne, h3.ne]
  -- the values
  have hsum : ∀ q, total (layerEffect field radial kc.1 fun _ => ρ) ts q =
      total (tessEffect field radial kc.1) (ts.map fun t => (t, ρ)) q := by
    intro q
    unfold total
    rw [List.map_map]
    rfl
  have hret : ReturnsFunc M (fun _ => ρ) fuel field radial dis obs ts ts ↔
      Returns field radial dis obs (ts.map fun t => (t, ρ)) := by
    unfold ReturnsFunc Returns
    rw [hu, ← e1, hused, hkeep]
    constructor
    · rintro ⟨h1, -, -, h2⟩
      refine ⟨h1, fun q hq s hs => ?_⟩
      obtain ⟨t, ht, rfl⟩ := List.mem_map.1 hs
      exact h2 q hq t ht
    · rintro ⟨h1, h2⟩
      exact ⟨h1, hd1, fun h => absurd h hts, fun q hq t ht =>
        h2 q hq (t, ρ) (List.mem_map_of_mem (f := fun t => (t, ρ)) ht)⟩
  have hfuel : 2 * (100000 * (ts.map fun t => (t, ρ)).length) = 2 * (100000 * ts.length) := by simp
  rw [e2]
  constructor
  · intro h
    obtain ⟨l, hl, rfl⟩ := returnsFunc_of_ok htab hshape (k := 2 * (100000 * ts.length))
      (by rw [hu]; intro l hl; rw [hd1] at hl; cases hl; omega) hm h
    have : l = ts := by
      have := hl.2.1
      rw [hu, hd1] at this
      cases this; rfl
    subst this
    have ecall : tesseroidGravity junk m' M' fuel' stack1 small1 (arrays shape obs) l
        (.values ((l.map fun t => (t, ρ)).map (·.2))) field radial dis =
      tesseroidGravity junk m' M' fuel' stack1 small1 (arrays shape obs)
        ((l.map fun t => (t, ρ)).map (·.1))
        (.values ((l.map fun t => (t, ρ)).map (·.2))) field radial dis := by rw [← e1]
    rw [ecall, (tesseroidGravity_form field kc htab junk m' M' fuel' stack1 small1 shape obs hshape
      (l.map fun t => (t, ρ)) radial dis (by rw [hfuel]; exact hm')).1 (hret.1 hl), hused, hkeep]
    simp only [hsum]
  · intro h
    rw [show tesseroidGravity junk m' M' fuel' stack1 small1 (arrays shape obs) ts
        (.values ((ts.map fun t => (t, ρ)).map (·.2))) field radial dis =
      tesseroidGravity junk m' M' fuel' stack1 small1 (arrays shape obs)
        ((ts.map fun t => (t, ρ)).map (·.1))
        (.values ((ts.map fun t => (t, ρ)).map (·.2))) field radial dis by rw [← e1]] at h
    obtain ⟨hl, rfl⟩ := returns_of_ok htab hshape (by rw [hfuel]; exact hm') h
    rw [tesseroidGravity_func_ok field kc htab junk m M fuel stack0 small0 shape obs hshape ts ts _
      radial dis _ (le_refl _) hm (hret.2 hl), hused, hkeep]
    simp only [hsum]

/-! ## Cases that meet the hypotheses -/

/-- the minimiser of the examples: the middle of the interval -/
noncomputable def midpoint : Minimizer := fun f a b => ((a + b) / 2, f ((a + b) / 2))

theorem midpoint_inBounds : midpoint.InBounds :=
  fun f a b h => ⟨⟨by simp only [midpoint]; linarith, by simp only [midpoint]; linarith⟩, rfl⟩

theorem midpoint_homogeneous : midpoint.Homogeneous := fun _ _ _ _ _ => rfl

/-- a call with a constant function returns, by C85 -/
example (junk : Junk) (stack0 small0 : ℕ → Tess) :
    ∃ r, tesseroidGravity junk .serial midpoint 0 stack0 small0 (arrays [1] [⟨0, 0, 1000⟩])
      [⟨-1, 1, -1, 1, 1, 2⟩] (.func fun _ => 1) "g_z" true false = some (.ok r) := by
  obtain ⟨r, hr⟩ := far_call_returns junk midpoint stack0 small0
  refine ⟨r, (C85_constant_function junk .serial .serial midpoint midpoint midpoint_inBounds 0 0
    stack0 small0 stack0 small0 [1] _ (by simp) _ (by simp) 1 one_ne_zero ?_ "g_z" true false
    trivial trivial r).2 ?_⟩
  · simp only [List.mem_singleton, forall_eq]; norm_num
  · simpa using hr

/-- a linear density that is not taken for constant, in one layer: the call returns -/
theorem linear_call_returns (junk : Junk) (stack0 small0 : ℕ → Tess) :
    ∃ r, tesseroidGravity junk .serial midpoint 1 stack0 small0 (arrays [1] [⟨0, 0, 1000⟩])
      [⟨-1, 1, -1, 1, 1, 2⟩] (.func fun r => r) "g_z" true false = some (.ok r) := by
  obtain ⟨r, hr⟩ := far_call_returns junk midpoint stack0 small0
  obtain ⟨⟨hc, hp⟩, -⟩ := returns_of_ok (mode := .serial) (srcs := [(⟨-1, 1, -1, 1, 1, 2⟩, 1)])
    (show tessFieldTable "g_z" = some (gravityUSpherical, -10 ^ 5) from rfl) (by simp) trivial hr
  have hu : ([⟨-1, 1, -1, 1, 1, 2⟩] : List Tess).map (usedTess false) = [⟨-1, 1, -1, 1, 1, 2⟩] := by
    rw [usedTess_false]
    simp only [List.map_cons, List.map_nil]
    rw [normLon_of_le (by norm_num)]
  have hmm : densityMinmax midpoint (fun r => r) 1 2 = (1, 2) := by
    simp only [densityMinmax, midpoint]
    norm_num
  have hncl : ¬ isclose 1 2 := by unfold isclose; norm_num
  have hd : densityDiscretization midpoint (fun r => r) 1 [⟨-1, 1, -1, 1, 1, 2⟩] =
      some [⟨-1, 1, -1, 1, 1, 2⟩] := by
    unfold densityDiscretization densityDiscretization densityDiscretization1
    simp only
    rw [hmm, if_neg hncl]
    unfold densityLoop densityLoop
    have hmd : maximumAbsoluteDiff midpoint (fun radius => (radius - 1) / (2 - 1)) 1 2 =
        (3 / 2, 0) := by
      simp only [maximumAbsoluteDiff, midpoint, straightLine]
      norm_num
    simp only [hmd]
    rw [if_neg (by norm_num)]
    rfl
  refine ⟨_, tesseroidGravity_func_ok "g_z" (gravityUSpherical, -10 ^ 5) rfl junk .serial midpoint 1
    stack0 small0 [1] [⟨0, 0, 1000⟩] (by simp) [⟨-1, 1, -1, 1, 1, 2⟩] [⟨-1, 1, -1, 1, 1, 2⟩] _ true
    false _ (le_refl _) trivial ⟨hc, by rw [hu]; exact hd, by simp, ?_⟩⟩
  intro q hq t ht
  rw [List.mem_singleton] at ht
  subst ht
  refine hp q hq (⟨-1, 1, -1, 1, 1, 2⟩, 1) ?_
  have hs : usedSrc false ((⟨-1, 1, -1, 1, 1, 2⟩ : Tess), (1 : ℝ)) = (⟨-1, 1, -1, 1, 1, 2⟩, 1) := by
    unfold usedSrc
    rw [usedTess_false, normLon_of_le (by norm_num)]
  rw [List.mem_filter]
  refine ⟨by simp [hs], ?_⟩
  simp [keepTess, nullTess]
  norm_num

/-! ## C03 -/

/-- A tesseroid that has no volume or no density. -/
def NullBody (s : Tess × ℝ) : Prop :=
  s.1.w = s.1.e ∨ s.1.s = s.1.n ∨ s.1.bottom = s.1.top ∨ s.2 = 0

theorem keepTess_null (dis : Bool) {s : Tess × ℝ} (h : NullBody s) :
    keepTess (usedSrc dis s) = false := by
  have hu : usedTess dis s.1 = s.1 ∨ usedTess dis s.1 = normLon s.1 := by
    cases dis
    · exact .inr (by rw [usedTess_false])
    · exact .inl (by rw [usedTess_true]; rfl)
  have hs : (usedTess dis s.1).s = s.1.s ∧ (usedTess dis s.1).n = s.1.n ∧
      (usedTess dis s.1).bottom = s.1.bottom ∧ (usedTess dis s.1).top = s.1.top := by
    rcases hu with h | h <;> rw [h]
    · exact ⟨rfl, rfl, rfl, rfl⟩
    · unfold normLon; split <;> exact ⟨rfl, rfl, rfl, rfl⟩
  have hw : s.1.w = s.1.e → (usedTess dis s.1).w = (usedTess dis s.1).e := by
    intro h
    rcases hu with h' | h' <;> rw [h']
    · exact h
    · rw [normLon_of_le h.le]; exact h
  unfold keepTess nullTess usedSrc
  rcases h with h | h | h | h
  · simp [hw h]
  · simp [hs, h]
  · simp [hs, h]
  · simp [h]

theorem kept_filter (dis : Bool) (srcs : List (Tess × ℝ)) (p : Tess × ℝ → Bool)
    (hp : ∀ s ∈ srcs, p s = false → NullBody s) :
    ((srcs.filter p).map (usedSrc dis)).filter keepTess =
      (srcs.map (usedSrc dis)).filter keepTess := by
  rw [List.filter_map, List.filter_map, List.filter_filter]
  congr 1
  apply List.filter_congr
  intro s hs
  cases h : p s
  · simp [keepTess_null dis (hp s hs h)]
  · simp

/-- C03, `tesseroid_gravity` with density values: bodies without volume or density have no effect.
Leaving any of them out of the call, `p` being the ones that stay, gives the same array.
Missing: density functions, for which the claim is false (C03_null_tesseroid_with_function_raises). -/
theorem C03_tesseroid_gravity_no_loss_partial (field : String) (junk : Junk) (mode mode' : Mode)
    (M : Minimizer) (fuel : ℕ) (stack0 small0 : ℕ → Tess) (shape : List ℕ) (obs : List P3)
    (hshape : shape.prod = obs.length) (srcs : List (Tess × ℝ)) (p : Tess × ℝ → Bool)
    (hp : ∀ s ∈ srcs, p s = false → NullBody s) (radial dis : Bool)
    (hm : mode.Full obs.length (2 * (100000 * srcs.length)))
    (hm' : mode'.Full obs.length (2 * (100000 * (srcs.filter p).length))) (r : NdArray)
    (h : tesseroidGravity junk mode M fuel stack0 small0 (arrays shape obs) (srcs.map (·.1))
        (.values (srcs.map (·.2))) field radial dis = some (.ok r)) :
    tesseroidGravity junk mode' M fuel stack0 small0 (arrays shape obs)
        ((srcs.filter p).map (·.1)) (.values ((srcs.filter p).map (·.2))) field radial dis =
      some (.ok r) := by
  cases htab : tessFieldTable field with
  | none => rw [tesseroidGravity_values, htab] at h; simp at h
  | some kc =>
    obtain ⟨hr, rfl⟩ := returns_of_ok htab hshape hm h
    have hr' : Returns field radial dis obs (srcs.filter p) := by
      refine ⟨?_, ?_⟩
      · rcases hr.1 with h | ⟨h1, h2⟩
        · exact .inl h
        · refine .inr ⟨fun t ht => ?_, ?_⟩
          · obtain ⟨s, hs, rfl⟩ := List.mem_map.1 ht
            exact h1 _ (List.mem_map_of_mem (List.mem_filter.1 hs).1)
          · rintro ⟨q, hq, t, ht, hc⟩
            refine h2 ⟨q, hq, t, ?_, hc⟩
            rw [List.map_map] at ht ⊢
            obtain ⟨s, hs, rfl⟩ := List.mem_map.1 ht
            exact List.mem_map_of_mem (f := usedTess dis ∘ fun s : Tess × ℝ => s.1)
              (List.mem_filter.1 hs).1
      · rw [kept_filter dis srcs p hp]; exact hr.2
    rw [(tesseroidGravity_form field kc htab junk mode' M fuel stack0 small0 shape obs hshape
      (srcs.filter p) radial dis hm').1 hr', kept_filter dis srcs p hp]

/-- C03: with the checks disabled, null bodies cannot make the call fail either. -/
theorem C03_tesseroid_gravity_unchecked_partial (field : String) (junk : Junk) (mode mode' : Mode)
    (M : Minimizer) (fuel : ℕ) (stack0 small0 : ℕ → Tess) (shape : List ℕ) (obs : List P3)
    (hshape : shape.prod = obs.length) (srcs : List (Tess × ℝ)) (p : Tess × ℝ → Bool)
    (hp : ∀ s ∈ srcs, p s = false → NullBody s) (radial : Bool)
    (hm : mode.Full obs.length (2 * (100000 * srcs.length)))
    (hm' : mode'.Full obs.length (2 * (100000 * (srcs.filter p).length))) (r : NdArray) :
    tesseroidGravity junk mode M fuel stack0 small0 (arrays shape obs) (srcs.map (·.1))
        (.values (srcs.map (·.2))) field radial true = some (.ok r) ↔
      tesseroidGravity junk mode' M fuel stack0 small0 (arrays shape obs)
        ((srcs.filter p).map (·.1)) (.values ((srcs.filter p).map (·.2))) field radial true =
      some (.ok r) := by
  refine ⟨C03_tesseroid_gravity_no_loss_partial field junk mode mode' M fuel stack0 small0 shape obs
    hshape srcs p hp radial true hm hm' r, fun h => ?_⟩
  cases htab : tessFieldTable field with
  | none => rw [tesseroidGravity_values, htab] at h; simp at h
  | some kc =>
    obtain ⟨hr, rfl⟩ := returns_of_ok htab hshape hm' h
    have hr' : Returns field radial true obs srcs :=
      ⟨.inl rfl, by rw [← kept_filter true srcs p hp]; exact hr.2⟩
    rw [(tesseroidGravity_form field kc htab junk mode M fuel stack0 small0 shape obs hshape
      srcs radial true hm).1 hr', kept_filter true srcs p hp]

/-- a case for C03: a call with a flat body that returns -/
example (junk : Junk) (M : Minimizer) (stack0 small0 : ℕ → Tess) :
    let srcs : List (Tess × ℝ) := [(⟨-1, 1, -1, 1, 1, 2⟩, 1), (⟨-1, 1, -1, 1, 3, 3⟩, 5)]
    NullBody (⟨-1, 1, -1, 1, 3, 3⟩, 5) ∧
    ∃ r, tesseroidGravity junk .serial M 0 stack0 small0 (arrays [1] [⟨0, 0, 1000⟩])
      (srcs.map (·.1)) (.values (srcs.map (·.2))) "g_z" true false = some (.ok r) := by
  intro srcs
  refine ⟨by simp [NullBody], ?_⟩
  obtain ⟨r, hr⟩ := far_call_returns junk M stack0 small0
  obtain ⟨⟨hc, hp⟩, -⟩ := returns_of_ok (mode := .serial) (srcs := [(⟨-1, 1, -1, 1, 1, 2⟩, 1)])
    (show tessFieldTable "g_z" = some (gravityUSpherical, -10 ^ 5) from rfl) (by simp) trivial hr
  classical
  have hk := kept_filter false srcs (fun s => decide (s.2 = 1)) (by simp [srcs, NullBody])
  have hf : srcs.filter (fun s => decide (s.2 = 1)) = [(⟨-1, 1, -1, 1, 1, 2⟩, 1)] := by
    simp [srcs, List.filter]
  rw [hf] at hk
  refine ⟨_, (tesseroidGravity_form "g_z" (gravityUSpherical, -10 ^ 5) rfl junk .serial M 0 stack0
    small0 [1] [⟨0, 0, 1000⟩] (by simp) srcs true false trivial).1 ⟨.inr ⟨?_, ?_⟩, ?_⟩⟩
  · intro t ht
    simp only [srcs, List.map_cons, List.map_nil, List.mem_cons, List.not_mem_nil, or_false] at ht
    rcases ht with rfl | rfl <;>
      exact ⟨⟨by norm_num, by norm_num, by norm_num, by norm_num, by norm_num, by norm_num,
        by norm_num⟩, .inl ⟨by norm_num, by norm_num⟩⟩
  · rintro ⟨q, hq, t, ht, hcf⟩
    simp only [List.mem_singleton] at hq
    subst hq
    simp only [srcs, usedTess_false, List.map_cons, List.map_nil, List.mem_cons, List.not_mem_nil,
      or_false] at ht
    rcases ht with rfl | rfl <;> rw [normLon_of_le (by norm_num)] at hcf <;>
      (have := hcf.2.2; norm_num at this)
  · rw [← hk]; exact hp

end Verif.Tesseroid
