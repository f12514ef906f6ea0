import Verif.Jsonld.Items
import Verif.Props.Data

/-!
# C122 (items and iteration of objects), C123 (transforms), C125 (attributes of property objects)
-/
namespace Verif.Props
open Verif Verif.Jsonld Verif.Jsonld.Items

/-! ### Specification -/

/-- A dictionary with exactly the given keys and, for each, the value `get` returns. -/
def IsTable (get : String → Outcome Val) (keys : List String) (d : PyDict String Val) : Prop :=
  d.WF ∧ ∀ k v, d.dget k = some v ↔ k ∈ keys ∧ get k = .ok v

/-! ### Items -/

theorem readAll_ok (get : String → Outcome Val) (ks : List String) (h : ∀ k ∈ ks, ∃ v, get k = .ok v) :
    ∃ l, readAll get (ks.map some) = .ok l ∧ l.map Prod.fst = ks ∧ ∀ p ∈ l, get p.1 = .ok p.2 := by
  induction ks with
  | nil => exact ⟨[], rfl, rfl, by simp⟩
  | cons k ks ih =>
    obtain ⟨l, hl, hk, hv⟩ := ih fun x hx => h x (List.mem_cons_of_mem _ hx)
    obtain ⟨v, hv'⟩ := h k List.mem_cons_self
    exact ⟨(k, v) :: l, by simp only [List.map_cons, readAll, hv', hl], by simp [hk], fun p hp => by
      rcases List.mem_cons.mp hp with rfl | hp
      · exact hv'
      · exact hv p hp⟩

theorem isTable_dictOf {get : String → Outcome Val} {ks : List String} {l : List (String × Val)} (hk : l.map Prod.fst = ks)
    (hv : ∀ p ∈ l, get p.1 = .ok p.2) : IsTable get ks (dictOf l) := by
  refine ⟨wf_dictOf l, fun k v => ?_⟩
  rw [dget_dictOf_iff fun _ _ _ h1 h2 => Except.ok.inj ((hv _ h1).symm.trans (hv _ h2))]
  subst hk
  constructor
  · intro h
    exact ⟨List.mem_map.mpr ⟨_, h, rfl⟩, hv _ h⟩
  · rintro ⟨h, hg⟩
    obtain ⟨⟨k', v'⟩, hp, rfl⟩ := List.mem_map.mp h
    have := hv _ hp
    rw [Except.ok.inj (hg.symm.trans this)]
    exact hp

theorem no_bad {props ks : List String} : (ks.map some).any (isBad props) = false ↔ ∀ k ∈ ks, k ∈ props := by
  simp [List.any_eq_false, isBad]

/-- **C122.** `obj[name]`, and `obj[names]` for a list or tuple of names of properties: the dictionary of their values. -/
theorem item_exact (props : List String) (get : String → Outcome Val) (ks : List String) (hp : ∀ k ∈ ks, k ∈ props)
    (hg : ∀ k ∈ ks, ∃ v, get k = .ok v) :
    ∃ d, getitem props get (.many (ks.map some)) = .ok d ∧ IsTable get ks d ∧
      ∀ k ∈ ks, getitem props get (.text k) = getitem props get (.many [some k]) := by
  obtain ⟨l, hl, hk, hv⟩ := readAll_ok get ks hg
  refine ⟨dictOf l, ?_, isTable_dictOf hk hv, fun k _ => ?_⟩
  · simp only [getitem, no_bad.mpr hp, Bool.false_eq_true, if_false, hl, asDict]
  · simp only [getitem, List.any_cons, List.any_nil, Bool.or_false]
    by_cases hb : isBad props (some k)
    · simp [hb]
    · simp [hb]

/-- **C122.** A name that is no property: KeyError, whatever else is asked for and whatever the getters would do. -/
theorem item_unknown (props : List String) (get : String → Outcome Val) (ks : List String) (k : String) (hk : k ∈ ks) (hn : k ∉ props) :
    getitem props get (.many (ks.map some)) = .error .keyError ∧ getitem props get (.text k) = .error .keyError := by
  have hb : (ks.map some).any (isBad props) = true := by
    rw [List.any_eq_true]
    exact ⟨some k, List.mem_map.mpr ⟨k, hk, rfl⟩, by simp [isBad, hn]⟩
  have hc : complain ((ks.map some).filter (isBad props)) = .keyError := by
    have : ((ks.map some).filter (isBad props)).any (·.isNone) = false := by
      rw [List.any_eq_false]
      intro x hx
      obtain ⟨y, _, rfl⟩ := List.mem_map.mp (List.mem_filter.mp hx).1
      simp
    simp [complain, this]
  constructor
  · simp only [getitem, hb, if_true, hc]
  · simp [getitem, isBad, hn, complain]

/-- **C122.** Running through an object gives every property once with its value; the dictionary of this is `obj[all names]`. -/
theorem iterate_exact (props : List String) (get : String → Outcome Val) (hn : props.Nodup) (hg : ∀ k ∈ props, ∃ v, get k = .ok v) :
    ∃ l, iterate props get = .ok l ∧ (l.map Prod.fst).Nodup ∧ (∀ k v, (k, v) ∈ l ↔ k ∈ props ∧ get k = .ok v) ∧
      getitem props get (.many (props.map some)) = .ok (dictOf l) := by
  obtain ⟨l, hl, hk, hv⟩ := readAll_ok get props hg
  refine ⟨l, hl, hk ▸ hn, fun k v => ?_, ?_⟩
  · constructor
    · intro h
      exact ⟨hk ▸ List.mem_map.mpr ⟨_, h, rfl⟩, hv _ h⟩
    · rintro ⟨h, hg⟩
      obtain ⟨⟨k', v'⟩, hp, rfl⟩ := List.mem_map.mp (hk ▸ h : k ∈ l.map Prod.fst)
      rw [Except.ok.inj (hg.symm.trans (hv _ hp))]
      exact hp
  · simp only [getitem, no_bad.mpr fun k h => h, Bool.false_eq_true, if_false, hl, asDict]

theorem leftAfterAny_none (test : Option String → Bool) (ks : List (Option String)) (h : ks.any test = false) : leftAfterAny test ks = [] := by
  induction ks with
  | nil => rfl
  | cons k ks ih =>
    simp only [List.any_cons, Bool.or_eq_false_iff] at h
    simp [leftAfterAny, h.1, ih h.2]

/-- **C122 (counterexample).** With an iterator or generator of names (the check uses it up) the answer is always the empty dictionary,
however many properties are asked for. -/
theorem item_iterator_counterexample (props : List String) (get : String → Outcome Val) (ks : List String) (hp : ∀ k ∈ ks, k ∈ props) :
    getitem props get (.once (ks.map some)) = .ok [] := by
  simp only [getitem, no_bad.mpr hp, Bool.false_eq_true, if_false, leftAfterAny_none _ _ (no_bad.mpr hp)]
  rfl

/-- **C122 (counterexample).** A key that is no text: TypeError instead of KeyError. -/
theorem item_type_counterexample (props : List String) (get : String → Outcome Val) (ks : List (Option String)) (h : none ∈ ks) :
    getitem props get (.many ks) = .error .typeError := by
  have hb : ks.any (isBad props) = true := List.any_eq_true.mpr ⟨none, h, rfl⟩
  have hc : (ks.filter (isBad props)).any (·.isNone) = true := List.any_eq_true.mpr ⟨none, List.mem_filter.mpr ⟨h, rfl⟩, rfl⟩
  simp only [getitem, hb, if_true, complain, hc]

/-- Non-vacuity of C122. -/
example : getitem ["id", "name"] (fun k => .ok (.str k)) (.many [some "name", some "id", some "name"]) =
    .ok [("name", .str "name"), ("id", .str "id")] := rfl
example : getitem ["id", "name"] (fun k => .ok (.str k)) (.once [some "name", some "id"]) = .ok [] := rfl

/-! ### Transforms -/

/-- A property is written after the function given for it was applied. -/
def Transformed (t : PyDict String (Val → Val)) (fs : List (String × Val)) (d : PyDict String Val) : Prop :=
  ∀ p f v, t.dget p = some f → (p, v) ∈ fs → d.dget p = some (handler (f v))

/-- **C123 (counterexample).** Whatever transforms are given to `data` or set on the class: the output is that without them, so that
every property whose function would change it is written unchanged. -/
theorem transforms_counterexample (defaults : PyDict String (Val → Val)) (t : PyDict String (Val → Val)) (a : DataArgs) (fs : List (String × Val)) :
    dataTransformed defaults (some t) a fs = data a fs ∧
      ∀ p f v, t.dget p = some f → (p, v) ∈ fs → DistinctProps fs → NoClash a fs → Selected a p v → OutName a p = p → handler (f v) ≠ handler v →
        ¬ Transformed t fs (dataTransformed defaults (some t) a fs) := by
  refine ⟨rfl, fun p f v hf hv hd hc hs ho hne ht => ?_⟩
  have h1 := ht p f v hf hv
  have h2 := (data_exact_partial a fs hd hc p (handler v)).mpr ⟨p, v, hv, hs, ho.symm, rfl⟩
  rw [show dataTransformed defaults (some t) a fs = data a fs from rfl, h2] at h1
  exact hne (Option.some.inj h1).symm

/-- **C123 (partial).** Without transforms the claim holds trivially, and transforms never do harm either: all of C56 to C58 holds with them. -/
theorem transforms_ignored_partial (defaults : PyDict String (Val → Val)) (t : Option (PyDict String (Val → Val))) (a : DataArgs) (fs : List (String × Val))
    (hd : DistinctProps fs) (hc : NoClash a fs) (k : String) (x : Val) :
    (dataTransformed defaults t a fs).dget k = some x ↔ ∃ p v, (p, v) ∈ fs ∧ Selected a p v ∧ k = OutName a p ∧ x = handler v :=
  data_exact_partial a fs hd hc k x

/-! ### Attributes of property objects -/

/-- **C125 (counterexample).** Asking a property object for an attribute it does not have raises ValueError, so `hasattr` and `getattr`
with a default raise too (and with them everything that probes objects, such as `copy.copy`). -/
theorem property_object_counterexample (found : String → Option Val) (name : String) (d : Val) (h : found name = none) :
    Items.hasattr (propGetattr found name) = .error .valueError ∧ getDefault d (propGetattr found name) = .error .valueError := by
  simp only [propGetattr, h, Items.hasattr, getDefault, and_self]

/-- **C125 (partial).** Attributes that exist are found as usual. -/
theorem property_object_partial (found : String → Option Val) (name : String) (d v : Val) (h : found name = some v) :
    propGetattr found name = .ok v ∧ Items.hasattr (propGetattr found name) = .ok true ∧ getDefault d (propGetattr found name) = .ok v := by
  simp only [propGetattr, h, Items.hasattr, getDefault, and_self]

/-- What C125 asks for, and what every object without a `__getattr__` of its own does: `hasattr` says no and `getattr` gives the default exactly when
looking the attribute up raises AttributeError; any other exception goes through. -/
theorem attribute_probe (r : Outcome Val) (d : Val) :
    (Items.hasattr r = .ok false ↔ r = .error .attributeError) ∧ (r = .error .attributeError → getDefault d r = .ok d) ∧
      (r ≠ .error .attributeError → getDefault d r = r) := by
  cases r with
  | ok v => simp [Items.hasattr, getDefault]
  | error e => cases e <;> simp [Items.hasattr, getDefault]

end Verif.Props
