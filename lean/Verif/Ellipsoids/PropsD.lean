import Verif.Ellipsoids.Object
import Verif.Ellipsoids.Spec

/-! Property C70: `Ellipsoid` objects under histories of assignments. -/

namespace Verif.Ellipsoids

/-- Values that are not rejected as a semiaxis: not a number or positive, or an array with only one such
element. -/
def AcceptedSemiaxis : PyVal → Prop
  | .real x => ∀ y, x = some y → 0 < y
  | .array _ [x] => ∀ y, x = some y → 0 < y
  | _ => False

/-- Documented types of the physical properties. -/
def ValidDensity : PyVal → Prop
  | .none => True
  | .real _ => True
  | _ => False

def ValidSusceptibility : PyVal → Prop
  | .none => True
  | .real _ => True
  | .array shape _ => shape = [3, 3]
  | _ => False

def ValidRemanence : PyVal → Prop
  | .none => True
  | .array shape _ => shape = [3]
  | _ => False

/-- The documented state of an object, except that a semiaxis can be not a number or an array with one element. -/
structure Obj.Sound (o : Obj) : Prop where
  a : AcceptedSemiaxis o.a
  b : AcceptedSemiaxis o.b
  c : AcceptedSemiaxis o.c
  density : ValidDensity o.density
  susceptibility : ValidSusceptibility o.susceptibility
  remanent_mag : ValidRemanence o.remanent_mag

theorem check_iff (v : PyVal) : checkPositiveSemiaxis v = .ok () ↔ AcceptedSemiaxis v := by
  have hnum : ∀ x : Option ℝ, nonPositive x = false ↔ ∀ y, x = some y → 0 < y := by
    intro x
    cases x <;> simp [nonPositive]
  rcases v with _ | x | ⟨s, _ | ⟨x, _ | ⟨y, l⟩⟩⟩ | _ | _
  · simp [checkPositiveSemiaxis, AcceptedSemiaxis]
  · change (if nonPositive x = true then _ else _) = _ ↔ ∀ y, x = some y → 0 < y
    rw [← hnum]
    cases nonPositive x <;> simp
  · simp [checkPositiveSemiaxis, AcceptedSemiaxis]
  · change (if nonPositive x = true then _ else _) = _ ↔ ∀ y, x = some y → 0 < y
    rw [← hnum]
    cases nonPositive x <;> simp
  all_goals simp [checkPositiveSemiaxis, AcceptedSemiaxis]

theorem castDensity_ok {v w : PyVal} (h : castDensity v = .ok w) : w = v ∧ ValidDensity w := by
  cases v <;> simp [castDensity] at h <;> subst h <;> simp [ValidDensity]

theorem castSusceptibility_ok {v w : PyVal} (h : castSusceptibilityValue v = .ok w) :
    w = v ∧ ValidSusceptibility w := by
  cases v with
  | array shape data =>
    change (if shape ≠ [3, 3] then _ else _) = _ at h
    split_ifs at h with hs
    injection h with h
    subst h
    exact ⟨rfl, not_not.1 hs⟩
  | _ => simp [castSusceptibilityValue] at h <;> subst h <;> simp [ValidSusceptibility]

theorem checkRemanent_ok {v w : PyVal} (h : checkRemanent v = .ok w) : w = v ∧ ValidRemanence w := by
  cases v with
  | array shape data =>
    change (if shape ≠ [3] then _ else _) = _ at h
    split_ifs at h with hs
    injection h with h
    subst h
    exact ⟨rfl, not_not.1 hs⟩
  | _ => simp [checkRemanent] at h <;> subst h <;> simp [ValidRemanence]

theorem castRemanent_ok {v w : PyVal} (h : castRemanentValue v = .ok w) : ValidRemanence w := by
  cases v with
  | seq asarray =>
    rcases asarray with e | x
    · cases h
    · exact (checkRemanent_ok (v := .array x.1 x.2) h).2
  | none => exact (checkRemanent_ok (v := .none) h).2
  | real x => exact (checkRemanent_ok (v := .real x) h).2
  | array s d => exact (checkRemanent_ok (v := .array s d) h).2
  | other => exact (checkRemanent_ok (v := .other) h).2

theorem assign_sound {o : Obj} (h : o.Sound) (attr : Attr) (v : PyVal) : (o.assign attr v).1.Sound := by
  unfold Obj.assign
  cases attr <;> simp only
  case a =>
    rcases hc : checkPositiveSemiaxis v with e | u
    · exact h
    · exact { h with a := (check_iff v).1 hc }
  case b =>
    rcases hc : checkPositiveSemiaxis v with e | u
    · exact h
    · exact { h with b := (check_iff v).1 hc }
  case c =>
    rcases hc : checkPositiveSemiaxis v with e | u
    · exact h
    · exact { h with c := (check_iff v).1 hc }
  case density =>
    rcases hc : castDensity v with e | u
    · exact h
    · exact { h with density := (castDensity_ok hc).2 }
  case susceptibility =>
    rcases hc : castSusceptibilityValue v with e | u
    · exact h
    · exact { h with susceptibility := (castSusceptibility_ok hc).2 }
  case remanent_mag =>
    rcases hc : castRemanentValue v with e | u
    · exact h
    · exact { h with remanent_mag := castRemanent_ok hc }
  all_goals exact { h with }

theorem construct_sound {a b c yaw pitch roll center density susceptibility remanent_mag : PyVal}
    {o : Obj} (h : construct a b c yaw pitch roll center density susceptibility remanent_mag = .ok o) :
    o.Sound := by
  unfold construct at h
  rcases ha : checkPositiveSemiaxis a with e | u <;> rw [ha] at h
  · cases h
  rcases hb : checkPositiveSemiaxis b with e | u <;> rw [hb] at h
  · cases h
  rcases hc : checkPositiveSemiaxis c with e | u <;> rw [hc] at h
  · cases h
  rcases hd : castDensity density with e | u <;> rw [hd] at h
  · cases h
  rcases hs : castSusceptibilityValue susceptibility with e | u <;> rw [hs] at h
  · cases h
  rcases hm : castRemanentValue remanent_mag with e | u <;> rw [hm] at h
  · cases h
  injection h with h
  subst h
  exact ⟨(check_iff a).1 ha, (check_iff b).1 hb, (check_iff c).1 hc, (castDensity_ok hd).2,
    (castSusceptibility_ok hs).2, castRemanent_ok hm⟩

/-- C70: after the construction and any history of assignments, whether they raise or not, the
semiaxes of an object are not values that are zero or negative, and its density, susceptibility and
remanence have documented types and shapes (missing: that the semiaxes are positive numbers, see
`C70_not_full`). -/
theorem C70_history_partial {a b c yaw pitch roll center density susceptibility remanent_mag : PyVal}
    {o : Obj} (h : construct a b c yaw pitch roll center density susceptibility remanent_mag = .ok o)
    (history : List (Attr × PyVal)) : (o.run history).Sound := by
  have h0 := construct_sound h
  unfold Obj.run
  clear h
  induction history generalizing o with
  | nil => exact h0
  | cons s history ih => exact ih (assign_sound h0 s.1 s.2)

/-- C70: when the forward models find numbers in such an object, its semiaxes are positive. -/
theorem C70_valid {a b c yaw pitch roll center density susceptibility remanent_mag : PyVal}
    {o : Obj} (h : construct a b c yaw pitch roll center density susceptibility remanent_mag = .ok o)
    (history : List (Attr × PyVal)) {e : Ellipsoid} (he : (o.run history).view = some e) : e.Valid := by
  have hs := C70_history_partial h history
  have key : ∀ v : PyVal, AcceptedSemiaxis v → ∀ x, v.number = some x → 0 < x := by
    intro v hv x hx
    cases v <;> simp_all [PyVal.number, AcceptedSemiaxis]
  unfold Obj.view at he
  simp only [Option.bind_eq_bind, Option.bind_eq_some_iff, Option.pure_def, Option.some.injEq] at he
  obtain ⟨x, hx, y, hy, z, hz, _, _, _, _, _, _, _, _, _, _, _, _, _, _, rfl⟩ := he
  exact ⟨key _ hs.a _ hx, key _ hs.b _ hy, key _ hs.c _ hz⟩

/-- C70: an assignment that raises leaves the object as it was. -/
theorem C70_failed (o : Obj) (attr : Attr) (v : PyVal) {e : PyErr}
    (h : (o.assign attr v).2 = some e) : (o.assign attr v).1 = o := by
  unfold Obj.assign at h ⊢
  cases attr <;> simp only at h ⊢
  case a => rcases hc : checkPositiveSemiaxis v with e | u <;> rw [hc] at h <;> simp_all
  case b => rcases hc : checkPositiveSemiaxis v with e | u <;> rw [hc] at h <;> simp_all
  case c => rcases hc : checkPositiveSemiaxis v with e | u <;> rw [hc] at h <;> simp_all
  case density => rcases hc : castDensity v with e | u <;> rw [hc] at h <;> simp_all
  case susceptibility => rcases hc : castSusceptibilityValue v with e | u <;> rw [hc] at h <;> simp_all
  case remanent_mag => rcases hc : castRemanentValue v with e | u <;> rw [hc] at h <;> simp_all
  all_goals cases h

/-- The value that an attribute returns after the assignment of `v`: `v`, except that a sequence
assigned to `remanent_mag` is converted to an array. -/
def stored (attr : Attr) (v : PyVal) : PyVal :=
  match attr, v with
  | .remanent_mag, .seq (.ok x) => .array x.1 x.2
  | _, v => v

/-- C70: an assignment that does not raise sets its attribute, and no other. -/
theorem C70_assigned (o : Obj) (attr : Attr) (v : PyVal) (h : (o.assign attr v).2 = none)
    (attr' : Attr) :
    (o.assign attr v).1.get attr' = if attr' = attr then stored attr v else o.get attr' := by
  unfold Obj.assign at h ⊢
  cases attr <;> simp only at h ⊢
  case a =>
    rcases hc : checkPositiveSemiaxis v with e | u <;> rw [hc] at h <;> [simp at h; skip]
    cases attr' <;> simp [Obj.get, stored]
  case b =>
    rcases hc : checkPositiveSemiaxis v with e | u <;> rw [hc] at h <;> [simp at h; skip]
    cases attr' <;> simp [Obj.get, stored]
  case c =>
    rcases hc : checkPositiveSemiaxis v with e | u <;> rw [hc] at h <;> [simp at h; skip]
    cases attr' <;> simp [Obj.get, stored]
  case density =>
    rcases hc : castDensity v with e | u <;> rw [hc] at h <;> [simp at h; skip]
    obtain rfl := (castDensity_ok hc).1
    cases attr' <;> simp [Obj.get, stored]
  case susceptibility =>
    rcases hc : castSusceptibilityValue v with e | u <;> rw [hc] at h <;> [simp at h; skip]
    obtain rfl := (castSusceptibility_ok hc).1
    cases attr' <;> simp [Obj.get, stored]
  case remanent_mag =>
    rcases hc : castRemanentValue v with e | u <;> rw [hc] at h <;> [simp at h; skip]
    have hu : u = stored .remanent_mag v := by
      cases v with
      | seq asarray =>
        rcases asarray with e | x
        · cases hc
        · exact (checkRemanent_ok (v := .array x.1 x.2) hc).1
      | none => exact (checkRemanent_ok (v := .none) hc).1
      | real x => exact (checkRemanent_ok (v := .real x) hc).1
      | array s d => exact (checkRemanent_ok (v := .array s d) hc).1
      | other => exact (checkRemanent_ok (v := .other) hc).1
    cases attr' <;> simp [Obj.get, hu]
  all_goals cases attr' <;> simp [Obj.get, stored]

/-- C70: which assignments raise, and what: a semiaxis that is a number raises ValueError exactly when
it is zero or negative. -/
theorem C70_semiaxis (o : Obj) (attr : Attr) (h : attr = .a ∨ attr = .b ∨ attr = .c) (x : ℝ) :
    (o.assign attr (.real (some x))).2 = if x ≤ 0 then some .ValueError else none := by
  rcases h with rfl | rfl | rfl <;> unfold Obj.assign checkPositiveSemiaxis nonPositive <;>
    by_cases hx : x ≤ 0 <;> simp [hx]

/-- C70: density, susceptibility and remanence accept exactly the documented values: a wrong type raises
TypeError, an array with a wrong shape ValueError. -/
theorem C70_properties (o : Obj) (v : PyVal) :
    ((o.assign .density v).2 = none ↔ ValidDensity v) ∧
    ((o.assign .susceptibility v).2 = none ↔ ValidSusceptibility v) ∧
    ((o.assign .remanent_mag v).2 = none ↔ ValidRemanence v ∨
      ∃ data, v = .seq (.ok ([3], data))) := by
  refine ⟨?_, ?_, ?_⟩
  · cases v <;> simp [Obj.assign, castDensity, ValidDensity]
  · cases v with
    | array shape data =>
      by_cases hs : shape = [3, 3] <;>
        simp [Obj.assign, castSusceptibilityValue, ValidSusceptibility, hs]
    | _ => simp [Obj.assign, castSusceptibilityValue, ValidSusceptibility]
  · cases v with
    | array shape data =>
      by_cases hs : shape = [3] <;>
        simp [Obj.assign, castRemanentValue, checkRemanent, ValidRemanence, hs]
    | seq asarray =>
      rcases asarray with e | ⟨shape, data⟩
      · simp [Obj.assign, castRemanentValue, ValidRemanence, Py.bind_error]
      · by_cases hs : shape = [3] <;>
          simp [Obj.assign, castRemanentValue, checkRemanent, ValidRemanence, Py.bind_ok, hs]
    | _ => simp [Obj.assign, castRemanentValue, checkRemanent, ValidRemanence]

/-- C70: a constructor call fails exactly when an assignment of its arguments would. -/
theorem C70_construct (a b c yaw pitch roll center density susceptibility remanent_mag : PyVal)
    (o : Obj) : (∃ o', construct a b c yaw pitch roll center density susceptibility remanent_mag = .ok o') ↔
      (o.assign .a a).2 = none ∧ (o.assign .b b).2 = none ∧ (o.assign .c c).2 = none ∧
      (o.assign .density density).2 = none ∧ (o.assign .susceptibility susceptibility).2 = none ∧
      (o.assign .remanent_mag remanent_mag).2 = none := by
  unfold construct Obj.assign
  rcases checkPositiveSemiaxis a with e | u
  · simp [Py.bind_error]
  rcases checkPositiveSemiaxis b with e | u
  · simp [Py.bind_ok, Py.bind_error]
  rcases checkPositiveSemiaxis c with e | u
  · simp [Py.bind_ok, Py.bind_error]
  rcases castDensity density with e | u
  · simp [Py.bind_ok, Py.bind_error]
  rcases castSusceptibilityValue susceptibility with e | u
  · simp [Py.bind_ok, Py.bind_error]
  rcases castRemanentValue remanent_mag with e | u
  · simp [Py.bind_ok, Py.bind_error]
  simp [Py.bind_ok, Py.pure_eq]

/-- C70: the semiaxes of an object are not always positive numbers: a semiaxis that is not a number is
accepted (and so is an array with one element). -/
theorem C70_not_full : ∃ o : Obj,
    construct (.real none) (.real (some 1)) (.real (some 1)) (.real (some 0)) (.real (some 0))
      (.real (some 0)) (.seq (.ok ([3], [some 0, some 0, some 0]))) .none .none .none = .ok o ∧
    ¬∃ x, o.a = .real (some x) ∧ 0 < x := by
  refine ⟨⟨.real none, .real (some 1), .real (some 1), .real (some 0), .real (some 0), .real (some 0),
    .seq (.ok ([3], [some 0, some 0, some 0])), .none, .none, .none⟩, ?_, ?_⟩
  · simp [construct, checkPositiveSemiaxis, nonPositive, castDensity, castSusceptibilityValue,
      castRemanentValue, checkRemanent, Py.bind_ok, Py.pure_eq, not_le.2 (one_pos (α := ℝ))]
  · simp

end Verif.Ellipsoids
