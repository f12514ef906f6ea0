import Verif.AS.Property
import Verif.Props.Link
import Verif.Props.Validate

/-!
# Setters and getters of the ActivityStreams properties (C71, C79, C86)
-/
namespace Verif.Props
open Verif Verif.Jsonld Verif.AS

/-! ### Specification -/

/-- What a property that takes dates stores: None and datetimes as they are, strings as the datetime they are parsed to. -/
inductive DateFor (env : Env) : Val → Val → Prop where
  | none : DateFor env .none .none
  | date (v : Val) (h : "datetime" ∈ v.classes env.mro) : DateFor env v v
  | str (s : String) (t : DateTime) (h : parseDatetime (.str s.toList) = .ok (.dt t)) :
      DateFor env (.str s) (.other "datetime" (env.dateRepr t))

/-- What a property stores for a value: what `create_link` makes of it if it takes links, the parsed date if it takes dates, and
otherwise the value; tuples and sets become lists.  In any case the value was accepted by the validator. -/
inductive StoredFor (env : Env) (mk : Ctor) (r : PropRow) : Val → Val → Prop where
  | plain (v : Val) (h : r.fromStr = false) (h' : r.parse = false)
      (ha : Accepted env.mro r.allTypes r.functional (r.additional.map (Check.run env)) v) : StoredFor env mk r v (asLists v)
  | link (v u : Val) (h : r.fromStr = true) (hl : LinkedFrom mk v u)
      (ha : Accepted env.mro r.allTypes r.functional (r.additional.map (Check.run env)) u) : StoredFor env mk r v (asLists u)
  | date (v w : Val) (h : r.parse = true) (hd : DateFor env v w)
      (ha : Accepted env.mro r.allTypes r.functional (r.additional.map (Check.run env)) v) : StoredFor env mk r v w

/-- No string, no dictionary and no container. -/
def Atomic (v : Val) : Prop := items? v = none ∧ (∀ s, v ≠ .str s) ∧ ∀ kvs, v ≠ .dict kvs

/-! ### C71 -/

/-- No property's attribute is written by another property. -/
theorem slots_distinct : ∀ r ∈ propTable, ∀ r' ∈ propTable, r'.read = r.write → r' = r := by decide +kernel

/-- Property names are distinct. -/
theorem names_distinct : ∀ r ∈ propTable, ∀ r' ∈ propTable, r'.name = r.name → r' = r := by decide +kernel

/-- Getter and setter use the same attribute, except for `hreflang`. -/
theorem slots_agree : ∀ r ∈ propTable, r.name ≠ "hreflang" → r.read = r.write := by decide +kernel

/-- Properties that parse dates take no links and no lists. -/
theorem parse_rows : ∀ r ∈ propTable, r.parse = true →
    r.fromStr = false ∧ r.functional = true ∧ r.types = ["datetime", "str"] := by decide +kernel

theorem parseVal_spec {env : Env} {v w : Val} (h : parseVal env v = .ok w) : DateFor env v w := by
  cases v with
  | none => injection h with h; subst h; exact .none
  | str s =>
    unfold parseVal at h
    simp only at h
    rcases hp : parseDatetime (.str s.toList) with e | a
    · rw [hp] at h; cases h
    · rw [hp] at h
      cases a with
      | dt t => injection h with h; subst h; exact .str s t hp
      | none => cases h
      | str _ => cases h
  | _ =>
    unfold parseVal at h
    simp only at h
    split_ifs at h with hd
    injection h with h; subst h
    refine .date _ ?_
    unfold isDate Val.isinstance at hd
    rw [List.any_eq_true] at hd
    obtain ⟨c, hc, he⟩ := hd
    simp at he; subst he; exact hc

theorem stores_spec {env : Env} {mk : Ctor} {r : PropRow} {v w : Val}
    (hr : r.parse = true → r.fromStr = false ∧ r.functional = true ∧ r.types = ["datetime", "str"])
    (h : r.stores env mk v = .ok w) : StoredFor env mk r v w := by
  unfold PropRow.stores at h
  rcases hc : r.convert env mk v with e | u
  · rw [hc] at h; cases h
  rw [hc] at h; simp only at h
  rcases hk : r.check env u with e | x
  · rw [hk] at h; cases h
  rw [hk] at h; simp only at h
  obtain ⟨ha, rfl⟩ := (evaluate_spec _ _ _ _ _ _).1 hk
  unfold PropRow.convert at hc
  unfold PropRow.parsed at h
  by_cases hp : r.parse = true
  · obtain ⟨hf, hfun, ht⟩ := hr hp
    rw [hf] at hc
    injection hc with hc; subst hc
    rw [if_pos hp] at h
    have hleaf : items? v = none := by
      by_contra hi
      have hne : ∃ xs, items? v = some xs := by
        cases hx : items? v with
        | none => exact absurd hx hi
        | some xs => exact ⟨xs, rfl⟩
      obtain ⟨xs, hx⟩ := hne
      have hta : TypeAllowed env.mro r.allTypes r.functional v := by
        cases ha with
        | leaf _ h1 h2 _ => exact h2
        | items _ _ _ h2 _ => exact h2
      obtain ⟨c, hc, hor⟩ := hta
      have hnt : c ∈ r.allTypes := by
        rcases hor with hor | hor
        · exact hor
        · rw [hfun] at hor; cases hor.1
      have hall : r.allTypes = ["NoneType", "datetime", "str"] := by
        unfold PropRow.allTypes; rw [ht]; simp [resolveType]
      rw [hall] at hnt
      cases v <;> simp only [items?] at hx <;> first | (cases hx; done) | skip
      all_goals
        simp only [Val.classes, List.mem_cons, List.not_mem_nil, or_false] at hc hnt
        rcases hc with rfl | rfl <;> simp at hnt
    have hv : asLists v = v := onlyLists_asLists (.leaf v hleaf)
    rw [hv] at h
    exact .date v w hp (parseVal_spec h) ha
  · rw [if_neg hp] at h
    injection h with h; subst h
    by_cases hf : r.fromStr = true
    · rw [if_pos hf] at hc
      exact .link v u hf (createLink_spec env mk v u hc) ha
    · rw [if_neg hf] at hc
      injection hc with hc; subst hc
      exact .plain v (by simpa using hf) (by simpa using hp) ha

/-- C71 (all properties but `hreflang`): after a successful assignment the getter finds the assigned value, as described by `StoredFor`,
and every other property is as it was. -/
theorem set_get_partial {r : PropRow} (hr : r ∈ propTable) (hn : r.name ≠ "hreflang") (env : Env) (mk : Ctor) (s s' : Slots) (v : Val)
    (h : r.set env mk s v = (.ok (), s')) :
    ∃ w, StoredFor env mk r v w ∧ r.stored s' = .ok w ∧ ∀ r' ∈ propTable, r' ≠ r → r'.stored s' = r'.stored s := by
  unfold PropRow.set at h
  rcases hs : r.stores env mk v with e | w
  · rw [hs] at h; injection h with h _; cases h
  rw [hs] at h
  injection h with _ h; subst h
  refine ⟨w, stores_spec (parse_rows r hr) hs, ?_, fun r' hr' hne => ?_⟩
  · unfold PropRow.stored
    rw [PyDict.dget_dset, if_pos (slots_agree r hr hn)]
  · unfold PropRow.stored
    rw [PyDict.dget_dset, if_neg fun he => hne (slots_distinct r hr r' hr' he)]

/-- C71: a rejected assignment changes nothing (any property). -/
theorem set_rejected (r : PropRow) (env : Env) (mk : Ctor) (s s' : Slots) (v : Val) (e : PyErr)
    (h : r.set env mk s v = (.error e, s')) : s' = s := by
  unfold PropRow.set at h
  rcases hs : r.stores env mk v with e | w
  · rw [hs] at h; injection h with _ h; exact h.symm
  · rw [hs] at h; injection h with h _; cases h

theorem storedFor_atomic {env : Env} {mk : Ctor} {r : PropRow} {v w : Val} (ha : Atomic v) (h : StoredFor env mk r v w) : w = v := by
  have key : asLists v = v := onlyLists_asLists (.leaf v ha.1)
  cases h with
  | plain => exact key
  | link u _ hl =>
    cases hl with
    | str s => exact absurd rfl (ha.2.1 s)
    | url s => exact absurd rfl (ha.2.1 s)
    | list xs => cases ha.1
    | tuple xs => cases ha.1
    | set xs => cases ha.1
    | dict kvs => exact absurd rfl (ha.2.2 kvs)
    | dictLink kvs => exact absurd rfl (ha.2.2 kvs)
    | other => exact key
  | date _ _ hd =>
    cases hd with
    | none => rfl
    | date => rfl
    | str s => exact absurd rfl (ha.2.1 s)

/-- C71: None, numbers, objects and datetimes are read back unchanged. -/
theorem set_get_atomic {r : PropRow} (hr : r ∈ propTable) (hn : r.name ≠ "hreflang") (env : Env) (mk : Ctor) (s s' : Slots) (v : Val)
    (ha : Atomic v) (h : r.set env mk s v = (.ok (), s')) : r.stored s' = .ok v := by
  obtain ⟨w, h1, h2, -⟩ := set_get_partial hr hn env mk s s' v h
  rw [h2, storedFor_atomic ha h1]

/-- C71: in properties without links and dates, strings, dictionaries and lists are read back unchanged, too. -/
theorem set_get_plain {r : PropRow} (hr : r ∈ propTable) (hn : r.name ≠ "hreflang") (h1 : r.fromStr = false) (h2 : r.parse = false)
    (env : Env) (mk : Ctor) (s s' : Slots) (v : Val) (ho : OnlyLists v) (h : r.set env mk s v = (.ok (), s')) : r.stored s' = .ok v := by
  obtain ⟨w, hw, hs, -⟩ := set_get_partial hr hn env mk s s' v h
  rw [hs]
  cases hw with
  | plain => rw [onlyLists_asLists ho]
  | link _ h' => rw [h1] at h'; cases h'
  | date _ h' => rw [h2] at h'; cases h'

/-- C71: a property that was never set is None and asks nothing of the web; but for `height`, which raises AttributeError. -/
theorem get_unset {J : Type} (web : Web J) {r : PropRow} (hr : r ∈ propTable) (s : Slots) (h : s.dget r.read = none) :
    r.get web s = if r.name = "height" then (.error .attributeError, []) else (.ok .none, []) := by
  have hs : ∀ r ∈ propTable, r.strict = decide (r.name = "height") := by decide +kernel
  have hst := hs r hr
  unfold PropRow.get PropRow.stored
  rw [h]
  by_cases hn : r.name = "height"
  · rw [if_pos hn]; simp [hst, hn]
  · rw [if_neg hn]
    have : r.strict = false := by rw [hst]; simp [hn]
    simp only [this, Bool.false_eq_true, if_false]
    split_ifs
    · have : web.asks .none = false := rfl
      unfold Web.expand Web.get
      rw [this]
      rfl
    · rfl

/-- C71: what the getter returns: the stored value, or, for properties that expand links, the object it links to if that could be
loaded. -/
theorem get_result {J : Type} (web : Web J) (r : PropRow) (s : Slots) (v : Val) (h : r.stored s = .ok v) :
    (r.expand = false → r.get web s = (.ok v, [])) ∧
    ((r.get web s).1 = .ok v ∨ ∃ j f x, web.fetch (hrefOf v) = .ok j ∧ web.engine v = some f ∧ f j = .ok x ∧ (r.get web s).1 = .ok x) := by
  unfold PropRow.get
  rw [h]
  constructor
  · intro he; simp [he]
  · by_cases he : r.expand = true
    · simp only [he, if_true]
      rcases expand_spec web v with h1 | ⟨j, f, x, h1, h2, h3, -, h4⟩
      · left; rw [h1]
      · right; exact ⟨j, f, x, h1, h2, h3, by rw [h4]⟩
    · left; simp [he]

/-- C71 is false for `hreflang`: whatever is assigned, reading it gives what it gave before (None for a new object). -/
theorem hreflang_lost : ∃ r ∈ propTable, r.name = "hreflang" ∧
    (∀ env mk s v, r.stored (r.set env mk s v).2 = r.stored s) ∧
    ∀ (env : Env) mk s, (r.set env mk s (.str "en")).1 = .ok () := by
  refine ⟨⟨"HrefLang", 1016, "hreflang", "___hreflang___", false, false, .default, "_HrefLang__hrefLang", false, false, ["str"], true, []⟩,
    by decide +kernel, rfl, fun env mk s v => ?_, fun env mk s => rfl⟩
  unfold PropRow.set
  rcases hs : PropRow.stores env mk _ v with e | w
  · rfl
  · simp only
    unfold PropRow.stored
    rw [PyDict.dget_dset, if_neg (by decide)]

/-! ### C79 -/

/-- C79: the properties that say they take Objects but come after the class statement that rebinds the name `Object`. -/
theorem shadowed_properties :
    (propTable.filter fun r => decide (672 < r.line) && r.types.contains "Object").map (·.name) =
      ["preview", "result", "tag", "target", "to", "subject", "relationship", "describes", "formerType"] := by decide +kernel

theorem evaluate_leaf_error {mro : String → List String} {functional : Bool} {checks : List Validator} {types : List String} {v : Val}
    (hi : items? v = none) (h : ¬ TypeAllowed mro types functional v) : evaluate mro functional checks types v = .error .valueError := by
  have hn : v.isinstance mro (effTypes types functional) = false := by
    cases hb : v.isinstance mro (effTypes types functional) with
    | false => rfl
    | true => exact absurd ((isinstance_eff mro types functional v).1 hb) h
  cases v <;> first | (cases hi; done) | (unfold evaluate; rw [hn]; rfl)

/-- C79: these properties refuse every ActivityStreams object that is not a Link: the assignment raises ValueError. -/
theorem shadowed_reject {r : PropRow} (hr : r ∈ propTable) (h1 : 672 < r.line) (h2 : "Object" ∈ r.types) (env : Env) (mk : Ctor) (s : Slots)
    (c : String) (fs : List (String × Val))
    (hc : ∀ x ∈ env.mro c, x ∉ ["NoneType", "list", "Link", "str", "dict", "properties.Object"]) :
    r.set env mk s (.obj c fs) = (.error .valueError, s) := by
  have ht : ∀ r ∈ propTable, 672 < r.line → "Object" ∈ r.types → ∀ t ∈ r.allTypes, t ∈ ["NoneType", "list", "Link", "str", "dict", "properties.Object"] := by
    decide +kernel
  have hcv : r.convert env mk (.obj c fs) = .ok (.obj c fs) := by
    unfold PropRow.convert
    split_ifs
    · rw [createLink] <;> simp
    · rfl
  have hck : r.check env (.obj c fs) = .error .valueError := by
    unfold PropRow.check
    refine evaluate_leaf_error rfl ?_
    rintro ⟨x, hx, hor⟩
    have hx' := hc x hx
    rcases hor with hor | ⟨-, rfl⟩
    · exact hx' (ht r hr h1 h2 x hor)
    · simp at hx'
  unfold PropRow.set PropRow.stores
  rw [hcv]; simp only; rw [hck]

/-- C79: the properties before that statement accept every Object (or subclass of it) and store it. -/
theorem unshadowed_accept {r : PropRow} (hr : r ∈ propTable) (h1 : r.line ≤ 672) (h2 : "Object" ∈ r.types) (env : Env) (mk : Ctor) (s : Slots)
    (c : String) (fs : List (String × Val)) (hc : "Object" ∈ env.mro c) :
    r.set env mk s (.obj c fs) = (.ok (), s.dset r.write (.obj c fs)) := by
  have hadd : ∀ r ∈ propTable, "Object" ∈ r.types → r.additional = [] ∧ r.parse = false := by decide +kernel
  have hcv : r.convert env mk (.obj c fs) = .ok (.obj c fs) := by
    unfold PropRow.convert
    split_ifs
    · rw [createLink] <;> simp
    · rfl
  have hck : r.check env (.obj c fs) = .ok (.obj c fs) := by
    unfold PropRow.check
    refine (evaluate_spec _ _ _ _ _ _).2 ⟨.leaf _ rfl ⟨"Object", hc, .inl ?_⟩ ?_, rfl⟩
    · unfold PropRow.allTypes
      refine List.mem_cons_of_mem _ (List.mem_map.2 ⟨"Object", h2, ?_⟩)
      unfold resolveType
      rw [if_neg]; simp; omega
    · rw [(hadd r hr h2).1]; simp
  unfold PropRow.set PropRow.stores
  rw [hcv]; simp only; rw [hck]
  simp only [PropRow.parsed, (hadd r hr h2).2]; rfl

/-- An environment with the classes Note and Link. -/
def noteEnv : Env :=
  { linkEnv with mro := fun c => if c = "Note" then ["Note", "Object", "object"] else if c = "Link" then ["Link", "object"] else [c, "object"] }

/-- A row of the table, by name. -/
def rowOf (name : String) : PropRow := (propTable.find? fun r => r.name == name).getD ⟨"", 0, "", "", false, false, .default, "", false, false, [], false, []⟩

example : rowOf "target" ∈ propTable ∧ 672 < (rowOf "target").line ∧ "Object" ∈ (rowOf "target").types := by decide +kernel
example : rowOf "origin" ∈ propTable ∧ (rowOf "origin").line ≤ 672 ∧ "Object" ∈ (rowOf "origin").types := by decide +kernel
example : (rowOf "target").set noteEnv plainLink [] (.obj "Note" []) = (.error .valueError, []) := by rfl
example : (rowOf "origin").set noteEnv plainLink [] (.obj "Note" []) = (.ok (), [("___origin___", .obj "Note" [])]) := by rfl
example : (rowOf "target").set noteEnv plainLink [] (.str "http://x.org/a") =
    (.ok (), [("___target___", .obj "Link" [("href", .str "http://x.org/a")])]) := by rfl

/-! ### C86 -/

/-- C86: reading a property for JSON output never makes a request. -/
theorem json_no_requests {J : Type} {r : PropRow} (hr : r ∈ propTable) (env : Env) (web : Web J) (s : Slots) :
    (r.jsonValue env web s).2 = [] := by
  have ht : ∀ r ∈ propTable, r.expand = true → r.json ≠ .default := by decide +kernel
  have hx := ht r hr
  unfold PropRow.jsonValue
  cases hj : r.json with
  | default =>
    have he : r.expand = false := by
      by_contra h
      exact hx (by simpa using h) hj
    show (r.get web s).2 = []
    unfold PropRow.get
    cases r.stored s with
    | error e => rfl
    | ok v => simp [he]
  | href => simp only; cases r.stored s <;> rfl
  | date => simp only; cases r.stored s <;> rfl
  | delta => simp only; cases r.stored s <;> rfl
  | hrefDate => simp only; cases r.stored s <;> rfl

/-- C86: the JSON value of every property that can hold Links is its stored value with the Links replaced by their addresses. -/
theorem json_links {J : Type} {r : PropRow} (hr : r ∈ propTable) (hf : r.fromStr = true) (hn : r.name ≠ "closed") (env : Env) (web : Web J)
    (s : Slots) (v : Val) (hv : r.stored s = .ok v) : r.jsonValue env web s = (.ok (hrefOnly env v), []) := by
  have ht : ∀ r ∈ propTable, r.fromStr = true → r.name ≠ "closed" → r.json = .href := by decide +kernel
  unfold PropRow.jsonValue
  rw [ht r hr hf hn]
  simp only [hv]

/-- C86: dates become strings: no date property's JSON value is a datetime, if it holds a single one. -/
theorem json_dates {J : Type} {r : PropRow} (hr : r ∈ propTable) (hd : "datetime" ∈ r.types) (env : Env) (web : Web J)
    (s : Slots) (c x : String) (hc : "datetime" ∈ env.mro c) (hv : r.stored s = .ok (.other c x)) (t : DateTime) (hx : env.dateOf x = some t) :
    r.jsonValue env web s = (.ok (.str (String.ofList (datetimeStr t))), []) := by
  have ht : ∀ r ∈ propTable, "datetime" ∈ r.types → r.json = .date ∨ r.json = .hrefDate := by decide +kernel
  have hdf : dateForm env (.other c x) = .str (String.ofList (datetimeStr t)) := by
    unfold dateForm
    simp only
    rw [if_pos, hx]
    unfold isDate Val.isinstance
    rw [List.any_eq_true]
    exact ⟨"datetime", hc, by simp⟩
  unfold PropRow.jsonValue
  rcases ht r hr hd with h | h <;> rw [h] <;> simp only [hv] <;> rw [hdf]
  rfl

example : (rowOf "target").jsonValue noteEnv onePage [("___target___", .list [.obj "Link" [("href", .str "http://a")], .str "x"])] =
    (.ok (.list [.str "http://a", .str "x"]), []) := by rfl

end Verif.Props
