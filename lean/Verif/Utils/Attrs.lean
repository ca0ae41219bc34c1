import Verif.Utils.Props

/-!
The name and the attributes that `isostatic_moho_airy` writes (_isostasy.py 152-161), C92, and more
theorems on C43: values of single elements under broadcasting, and the exceptions.
-/

namespace Verif.Utils
open Verif.Forward

/-! ### Model -/

/-- Value of an attribute: a string, or a density as given. _isostasy.py 155-160. -/
inductive AttrVal where
  | str (s : String)
  | val (v : Val)

/-- A dictionary of attributes, keys in order of insertion. _isostasy.py 155-160. -/
abbrev Attrs := List (String × AttrVal)

/-- `attrs[key] = value`: replaces the value of a key that is there, in its place. _isostasy.py 155-160. -/
def Attrs.set : Attrs → String → AttrVal → Attrs
  | [], key, value => [(key, value)]
  | (k, v) :: rest, key, value =>
    if k = key then (k, value) :: rest else (k, v) :: Attrs.set rest key value

/-- The result of the function: a DataArray has a name and attributes, other results have not.
_isostasy.py 152-161. -/
structure Moho where
  value : Val
  info : Option (Option String × Attrs)

/-- _isostasy.py 152-161: write the name and the attributes of a DataArray. `strOf` is `str`; `layers` are the
items of the dictionary: name, thickness and density. -/
def writeAttrs (strOf : Val → String) (moho : Moho) (layers : Option (List (String × Val × Val)))
    (density_crust density_mantle : Val) : Moho :=
  match moho.info with
  | none => moho
  | some (_, attrs) =>
    let attrs := attrs.set "isostasy" (.str "Airy")
    let attrs := attrs.set "density_crust" (.str (strOf density_crust))
    let attrs := attrs.set "density_mantle" (.str (strOf density_mantle))
    let attrs := match layers with
      | none => attrs
      | some layers => layers.foldl (fun attrs l => attrs.set ("density_" ++ l.1) (.val l.2.2)) attrs
    { moho with info := some (some "moho_depth", attrs) }

/-- _isostasy.py 14-161 `isostatic_moho_airy` with its metadata: `wrap` is what xarray makes of the result of the
arithmetic (a DataArray when an operand was one, with the attributes that xarray keeps). -/
noncomputable def isostaticMohoAiryFull (strOf : Val → String) (wrap : Val → Moho) (basement : Val)
    (layers : Option (List (String × Val × Val))) (density_crust density_mantle reference_depth : Val) :
    Py Moho := do
  let moho ← isostaticMohoAiry basement (layers.map fun ls => ls.map (·.2)) density_crust density_mantle
    reference_depth
  return writeAttrs strOf (wrap moho) layers density_crust density_mantle

/-! ### C92 -/

theorem Attrs.lookup_set (a : Attrs) (key k : String) (v : AttrVal) :
    (a.set key v).lookup k = if k = key then some v else a.lookup k := by
  induction a with
  | nil =>
    by_cases h : k = key
    · simp [Attrs.set, h]
    · simp [Attrs.set, List.lookup, h, beq_eq_false_iff_ne.2 h]
  | cons x rest ih =>
    obtain ⟨k0, v0⟩ := x
    unfold Attrs.set
    by_cases h0 : k0 = key
    · rw [if_pos h0]
      subst h0
      by_cases h : k = k0
      · simp [List.lookup, h]
      · simp [List.lookup, h, beq_eq_false_iff_ne.2 h]
    · rw [if_neg h0]
      by_cases h : k = k0
      · subst h
        simp [List.lookup, h0]
      · simp only [List.lookup, beq_eq_false_iff_ne.2 h, ih]

theorem foldl_lookup (layers : List (String × Val × Val)) (hn : (layers.map (·.1)).Nodup) (a : Attrs)
    (k : String) :
    (layers.foldl (fun attrs l => attrs.set ("density_" ++ l.1) (.val l.2.2)) a).lookup k =
      match layers.find? (fun l => "density_" ++ l.1 = k) with
      | some l => some (.val l.2.2)
      | none => a.lookup k := by
  induction layers generalizing a with
  | nil => rfl
  | cons l rest ih =>
    simp only [List.map_cons, List.nodup_cons] at hn
    rw [List.foldl_cons, ih hn.2, Attrs.lookup_set, List.find?_cons]
    by_cases h : "density_" ++ l.1 = k
    · have : rest.find? (fun l => decide ("density_" ++ l.1 = k)) = none := by
        rw [List.find?_eq_none]
        intro l' hl' hk
        have hk' : "density_" ++ l'.1 = k := by simpa using hk
        rw [← h] at hk'
        have : l'.1 = l.1 := by simpa using hk'
        exact hn.1 (List.mem_map.2 ⟨l', hl', this⟩)
      rw [this]
      simp [h]
    · rw [decide_eq_false h]
      cases hf : rest.find? (fun l => decide ("density_" ++ l.1 = k)) with
      | none => simp [Ne.symm h]
      | some _ => rfl

/-- C92: the values are those of C43, and nothing is added to results that are not DataArrays. -/
theorem C92_values (strOf : Val → String) (wrap : Val → Moho) (hw : ∀ v, (wrap v).value = v) (basement : Val)
    (layers : Option (List (String × Val × Val))) (rho_c rho_m ref : Val) :
    (isostaticMohoAiryFull strOf wrap basement layers rho_c rho_m ref).map (·.value) =
      isostaticMohoAiry basement (layers.map fun ls => ls.map (·.2)) rho_c rho_m ref ∧
    ∀ m, isostaticMohoAiryFull strOf wrap basement layers rho_c rho_m ref = .ok m →
      (wrap m.value).info = none → m.info = none := by
  unfold isostaticMohoAiryFull
  cases h : isostaticMohoAiry basement (layers.map fun ls => ls.map (·.2)) rho_c rho_m ref with
  | error e => simp [Except.map]
  | ok v =>
    simp only [Py.bind_ok, Py.pure_eq, Except.map, Except.ok.injEq]
    have hv : (writeAttrs strOf (wrap v) layers rho_c rho_m).value = v := by
      unfold writeAttrs
      split
      · exact hw v
      · exact hw v
    refine ⟨hv, ?_⟩
    rintro m rfl hm
    rw [hv] at hm
    unfold writeAttrs
    rw [hm]
    simpa using hm

/-- C92: a DataArray is named `moho_depth`; it says that the isostasy is Airy's, and it has the density of
every layer under the name of the layer. (Names of layers are keys of a dictionary: all different.) -/
theorem C92_layers (strOf : Val → String) (wrap : Val → Moho) (hw : ∀ v, (wrap v).value = v) (basement : Val)
    (layers : Option (List (String × Val × Val))) (rho_c rho_m ref : Val)
    (hn : ∀ ls ∈ layers, (ls.map (·.1)).Nodup) (m : Moho)
    (h : isostaticMohoAiryFull strOf wrap basement layers rho_c rho_m ref = .ok m)
    (hm : (wrap m.value).info ≠ none) :
    ∃ attrs, m.info = some (some "moho_depth", attrs) ∧
      (∃ a, attrs.lookup "isostasy" = some (.str a) ∧ a = "Airy") ∧
      ∀ ls ∈ layers, ∀ l ∈ ls, attrs.lookup ("density_" ++ l.1) = some (.val l.2.2) := by
  unfold isostaticMohoAiryFull at h
  cases hv : isostaticMohoAiry basement (layers.map fun ls => ls.map (·.2)) rho_c rho_m ref with
  | error e => rw [hv] at h; cases h
  | ok v =>
    rw [hv] at h
    simp only [Py.bind_ok, Py.pure_eq, Except.ok.injEq] at h
    have hval : m.value = v := by
      rw [← h]; unfold writeAttrs; split <;> exact hw v
    rw [hval] at hm
    obtain ⟨⟨name, a0⟩, hx⟩ := Option.ne_none_iff_exists'.1 hm
    subst h
    unfold writeAttrs
    rw [hx]
    refine ⟨_, rfl, ⟨"Airy", ?_, rfl⟩, ?_⟩
    · cases layers with
      | none => simp [Attrs.lookup_set]
      | some ls =>
        simp only
        rw [foldl_lookup ls (hn ls rfl)]
        have : ls.find? (fun l => decide ("density_" ++ l.1 = "isostasy")) = none := by
          rw [List.find?_eq_none]
          intro l _ hl
          have hl' : "density_" ++ l.1 = "isostasy" := by simpa using hl
          have h2 := congrArg (fun s : String => s.toList.head?) hl'
          simp at h2
        rw [this]
        simp [Attrs.lookup_set]
    · intro ls hls l hl
      cases hls
      simp only
      rw [foldl_lookup ls (hn ls rfl)]
      have hf : ∃ l', ls.find? (fun x => decide ("density_" ++ x.1 = "density_" ++ l.1)) = some l' := by
        rw [← Option.isSome_iff_exists, List.find?_isSome]
        exact ⟨l, hl, by simp⟩
      obtain ⟨l', hl'⟩ := hf
      rw [hl']
      have h1 := List.mem_of_find?_eq_some hl'
      have h2 : l'.1 = l.1 := by simpa using List.find?_some hl'
      have : l' = l := List.inj_on_of_nodup_map (hn ls rfl) h1 hl h2
      rw [this]

/-- C92: every other attribute stays as it was. -/
theorem C92_other_attributes (strOf : Val → String) (wrap : Val → Moho) (hw : ∀ v, (wrap v).value = v)
    (basement : Val) (layers : Option (List (String × Val × Val))) (rho_c rho_m ref : Val)
    (hn : ∀ ls ∈ layers, (ls.map (·.1)).Nodup) (m : Moho)
    (h : isostaticMohoAiryFull strOf wrap basement layers rho_c rho_m ref = .ok m)
    (name name' : Option String) (before attrs : Attrs) (hb : (wrap m.value).info = some (name, before))
    (ha : m.info = some (name', attrs)) (key : String) (h1 : key ≠ "isostasy") (h2 : key ≠ "density_crust")
    (h3 : key ≠ "density_mantle") (h4 : ∀ ls ∈ layers, ∀ l ∈ ls, key ≠ "density_" ++ l.1) :
    attrs.lookup key = before.lookup key := by
  unfold isostaticMohoAiryFull at h
  cases hv : isostaticMohoAiry basement (layers.map fun ls => ls.map (·.2)) rho_c rho_m ref with
  | error e => rw [hv] at h; cases h
  | ok v =>
    rw [hv] at h
    simp only [Py.bind_ok, Py.pure_eq, Except.ok.injEq] at h
    have hval : m.value = v := by
      rw [← h]; unfold writeAttrs; split <;> exact hw v
    rw [hval] at hb
    subst h
    unfold writeAttrs at ha
    rw [hb] at ha
    simp only [Option.some.injEq, Prod.mk.injEq] at ha
    obtain ⟨-, rfl⟩ := ha
    cases layers with
    | none => simp [Attrs.lookup_set, h1, h2, h3]
    | some ls =>
      simp only
      rw [foldl_lookup ls (hn ls rfl)]
      have : ls.find? (fun l => decide ("density_" ++ l.1 = key)) = none := by
        rw [List.find?_eq_none]
        intro l hl hk
        exact h4 ls rfl l hl (by simpa using hk : "density_" ++ l.1 = key).symm
      rw [this]
      simp [Attrs.lookup_set, h1, h2, h3]

/-- The full claim on the densities of crust and mantle; false, see below. -/
def C92_full : Prop :=
  ∀ (strOf : Val → String) (wrap : Val → Moho), (∀ v, (wrap v).value = v) →
    ∀ (basement : Val) (layers : Option (List (String × Val × Val))) (rho_c rho_m ref : Val),
    (∀ ls ∈ layers, (ls.map (·.1)).Nodup) → ∀ m,
    isostaticMohoAiryFull strOf wrap basement layers rho_c rho_m ref = .ok m →
    ∀ name attrs, m.info = some (name, attrs) →
      attrs.lookup "density_crust" = some (.str (strOf rho_c)) ∧
      attrs.lookup "density_mantle" = some (.str (strOf rho_m))

/-- C92: the attributes have the densities of the crust and of the mantle as strings, when no layer is
named "crust" or "mantle". -/
theorem C92_crust_mantle_partial (strOf : Val → String) (wrap : Val → Moho) (basement : Val) (layers : Option (List (String × Val × Val))) (rho_c rho_m ref : Val)
    (hn : ∀ ls ∈ layers, (ls.map (·.1)).Nodup) (hname : ∀ ls ∈ layers, ∀ l ∈ ls, l.1 ≠ "crust" ∧ l.1 ≠ "mantle")
    (m : Moho) (h : isostaticMohoAiryFull strOf wrap basement layers rho_c rho_m ref = .ok m)
    (name : Option String) (attrs : Attrs) (hm : m.info = some (name, attrs)) :
    attrs.lookup "density_crust" = some (.str (strOf rho_c)) ∧
    attrs.lookup "density_mantle" = some (.str (strOf rho_m)) := by
  unfold isostaticMohoAiryFull at h
  cases hv : isostaticMohoAiry basement (layers.map fun ls => ls.map (·.2)) rho_c rho_m ref with
  | error e => rw [hv] at h; cases h
  | ok v =>
    rw [hv] at h
    simp only [Py.bind_ok, Py.pure_eq, Except.ok.injEq] at h
    subst h
    unfold writeAttrs at hm
    cases hx : (wrap v).info with
    | none => rw [hx] at hm; simp only at hm; rw [hx] at hm; cases hm
    | some x =>
      rw [hx] at hm
      simp only [Option.some.injEq, Prod.mk.injEq] at hm
      obtain ⟨-, rfl⟩ := hm
      cases layers with
      | none => simp [Attrs.lookup_set]
      | some ls =>
        simp only
        rw [foldl_lookup ls (hn ls rfl), foldl_lookup ls (hn ls rfl)]
        have h1 : ls.find? (fun l => decide ("density_" ++ l.1 = "density_crust")) = none := by
          rw [List.find?_eq_none]
          intro l hl hk
          have hk' : "density_" ++ l.1 = "density_" ++ "crust" := by simpa using hk
          exact (hname ls rfl l hl).1 ((String.append_right_inj "density_").1 hk')
        have h2 : ls.find? (fun l => decide ("density_" ++ l.1 = "density_mantle")) = none := by
          rw [List.find?_eq_none]
          intro l hl hk
          have hk' : "density_" ++ l.1 = "density_" ++ "mantle" := by simpa using hk
          exact (hname ls rfl l hl).2 ((String.append_right_inj "density_").1 hk')
        rw [h1, h2]
        simp [Attrs.lookup_set]

/-- C92: a layer named "crust" takes the place of the density of the crust. -/
theorem C92_layer_named_crust : ¬ C92_full := by
  intro h
  let wrap : Val → Moho := fun v => ⟨v, some (none, [])⟩
  let x : Val := ⟨.float, [], fun _ => 1000⟩
  have hex : ∃ v, isostaticMohoAiry x (some [(x, x)]) x x x = .ok v :=
    C43_returns_partial [] x (some [(x, x)]) x x x (Or.inl rfl)
      (by
        intro ls hls l hl
        cases hls
        rw [List.mem_singleton] at hl
        subst hl
        exact ⟨Or.inl rfl, Or.inl rfl, Or.inl ⟨rfl, rfl⟩⟩)
      (Or.inl rfl) (Or.inl rfl) (Or.inl rfl)
  obtain ⟨v, hv⟩ := hex
  have hm : isostaticMohoAiryFull (fun _ => "1000.0") wrap x (some [("crust", x, x)]) x x x =
      .ok (writeAttrs (fun _ => "1000.0") (wrap v) (some [("crust", x, x)]) x x) := by
    unfold isostaticMohoAiryFull
    have : (some [("crust", x, x)] : Option (List (String × Val × Val))).map
        (fun ls => ls.map (·.2)) = some [(x, x)] := rfl
    rw [this, hv]
    rfl
  have := (h (fun _ => "1000.0") wrap (fun _ => rfl) x (some [("crust", x, x)]) x x x
    (by intro ls hls; cases hls; simp) _ hm (some "moho_depth") _ rfl).1
  have hl := foldl_lookup [("crust", x, x)] (by simp)
    (((Attrs.set [] "isostasy" (.str "Airy")).set "density_crust" (.str "1000.0")).set
      "density_mantle" (.str "1000.0")) "density_crust"
  have hc := this.symm.trans hl
  have hf : List.find? (fun l : String × Val × Val => decide ("density_" ++ l.1 = "density_crust"))
      [("crust", x, x)] = some ("crust", x, x) := by
    simp
  rw [hf] at hc
  simp at hc

/-- An ocean column with layers of water and sediments, all DataArrays without attributes: the function returns,
and both names differ from "crust" and "mantle". -/
example : let x : Val := ⟨.float, [3], fun _ => 1000⟩
    let layers := [("water", x, x), ("sediments", x, x)]
    (∃ m, isostaticMohoAiryFull (fun _ => "1000.0") (fun v => ⟨v, some (none, [])⟩) x (some layers) x x x = .ok m ∧
      m.info ≠ none) ∧
    (layers.map (·.1)).Nodup ∧ ∀ l ∈ layers, l.1 ≠ "crust" ∧ l.1 ≠ "mantle" := by
  intro x layers
  obtain ⟨v, hv⟩ := C43_returns_partial [3] x (some [(x, x), (x, x)]) x x x (Or.inr rfl)
    (by
      intro ls hls l hl
      cases hls
      simp only [List.mem_cons, List.not_mem_nil, or_false, or_self] at hl
      subst hl
      exact ⟨Or.inr rfl, Or.inr rfl, Or.inr (Or.inl rfl)⟩)
    (Or.inr rfl) (Or.inr rfl) (Or.inr rfl)
  refine ⟨⟨writeAttrs (fun _ => "1000.0") ⟨v, some (none, [])⟩ (some layers) x x, ?_, ?_⟩,
    by simp [layers], by simp [layers]⟩
  · unfold isostaticMohoAiryFull
    have : (some layers : Option (List (String × Val × Val))).map
        (fun ls => ls.map (·.2)) = some [(x, x), (x, x)] := rfl
    rw [this, hv]
    rfl
  · simp [writeAttrs]

end Verif.Utils
