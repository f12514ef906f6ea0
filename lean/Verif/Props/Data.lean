import Verif.Jsonld.Data
import Mathlib.Data.List.Infix

/-!
# Output of objects as data (C56, C57, C58)
-/
namespace Verif.Props
open Verif Verif.Jsonld

/-! ### Lemmas -/

theorem dget_foldl_dset {K V : Type} [DecidableEq K] (kvs : List (K × V)) (d : PyDict K V) (k : K) :
    (kvs.foldl (fun d p => d.dset p.1 p.2) d).dget k = ((kvs.reverse.dget k).or (d.dget k)) := by
  induction kvs generalizing d with
  | nil => rfl
  | cons p kvs ih =>
    rw [List.foldl_cons, ih, PyDict.dget_dset]
    have happ : ∀ (l : PyDict K V) (q : K × V), (l ++ [q]).dget k = (l.dget k).or (if q.1 = k then some q.2 else none) := by
      intro l q
      induction l with
      | nil => simp [List.dget]
      | cons x l ihl => simp only [List.cons_append, List.dget]; split_ifs <;> simp_all
    rw [List.reverse_cons, happ]
    by_cases h : p.1 = k
    · subst h; cases hh : kvs.reverse.dget p.1 <;> simp
    · have h' : ¬ k = p.1 := fun e => h e.symm
      rw [if_neg h', if_neg h]
      cases hh : kvs.reverse.dget k <;> simp

theorem dget_dictOf {K V : Type} [DecidableEq K] (kvs : List (K × V)) (k : K) :
    (dictOf kvs).dget k = kvs.reverse.dget k := by
  unfold dictOf; rw [dget_foldl_dset]; simp [List.dget]

/-- If equal keys have equal values, a comprehension gives exactly its pairs. -/
theorem dget_dictOf_iff {K V : Type} [DecidableEq K] {kvs : List (K × V)}
    (h : ∀ k v w, (k, v) ∈ kvs → (k, w) ∈ kvs → v = w) (k : K) (v : V) :
    (dictOf kvs).dget k = some v ↔ (k, v) ∈ kvs := by
  rw [dget_dictOf]
  constructor
  · intro hh; exact List.mem_reverse.1 (PyDict.dget_mem hh)
  · intro hm
    cases hh : kvs.reverse.dget k with
    | none =>
      rw [PyDict.dget_eq_none] at hh
      exact absurd (List.mem_map.2 ⟨_, List.mem_reverse.2 hm, rfl⟩) hh
    | some w => rw [h k v w hm (List.mem_reverse.1 (PyDict.dget_mem hh))]

theorem wf_dictOf {K V : Type} [DecidableEq K] (kvs : List (K × V)) : (dictOf kvs).WF := by
  unfold dictOf
  suffices ∀ d : PyDict K V, d.WF → List.WF (kvs.foldl (fun d p => d.dset p.1 p.2) d) from this [] PyDict.wf_nil
  induction kvs with
  | nil => intro d hd; exact hd
  | cons p kvs ih => intro d hd; exact ih _ (PyDict.wf_dset hd _ _)

theorem mem_dictOf {K V : Type} [DecidableEq K] {kvs : List (K × V)} {p : K × V} (h : p ∈ dictOf kvs) : p ∈ kvs := by
  have := PyDict.dget_of_mem (wf_dictOf kvs) (k := p.1) (v := p.2) h
  rw [dget_dictOf] at this
  exact List.mem_reverse.1 (PyDict.dget_mem this)

theorem handler_isNone (v : Val) : (handler v).isNone = false := by
  cases v <;> simp [handler, Val.isNone]

theorem handlerAll_map (xs : List Val) : handlerAll xs = xs.map handler := by
  induction xs with
  | nil => rfl
  | cons x xs ih => rw [handlerAll, ih]; rfl

theorem handlerDict_map (kvs : List (Key × Val)) : handlerDict kvs = kvs.map fun kv => (kv.1, handler kv.2) := by
  induction kvs with
  | nil => rfl
  | cons x xs ih => obtain ⟨k, v⟩ := x; rw [handlerDict, ih]; rfl

theorem nestedPairs_map (fs : List (String × Val)) :
    nestedPairs fs = (fs.filter fun pv => nestedArgs.selects pv.1 pv.2).map fun pv => (Key.str (nestedArgs.newName pv.1), handler pv.2) := by
  induction fs with
  | nil => rfl
  | cons x xs ih =>
    obtain ⟨p, v⟩ := x
    rw [nestedPairs, ih, List.filter_cons]
    split_ifs <;> rfl

/-! ### Specification -/

/-- A contiguous part of a text. -/
def PartOf (p s : String) : Prop := ∃ a b : List Char, s.toList = a ++ p.toList ++ b

/-- The names a collection or a text stands for when tested with `in`. -/
def Named (n : Names) (p : String) : Prop :=
  match n with
  | .many l => p ∈ l
  | .text s => PartOf p s

/-- Nothing given: an empty collection or text. -/
def Nothing (n : Names) : Prop :=
  match n with
  | .many l => l = []
  | .text s => s = ""

/-- The property is to appear in the output: not None (unless asked for), included, not excluded and
not rejected. -/
def Selected (a : DataArgs) (p : String) (v : Val) : Prop :=
  (a.includeNone = true ∨ v ≠ .none) ∧ (Nothing a.include_ ∨ Named a.include_ p) ∧
    (Nothing a.exclude ∨ ¬ Named a.exclude p) ∧ a.rejected v = false

/-- The name under which a property appears: the caller's, else the JSON-LD keyword, else its own. -/
def OutName (a : DataArgs) (p : String) : String :=
  match a.rename.reverse.dget p with
  | some n => n
  | none => (jsonLdKeymap.dget p).getD p

theorem isSubstr_iff (p s : String) : isSubstr p s = true ↔ PartOf p s := by
  unfold isSubstr PartOf
  simp only [List.any_eq_true, List.mem_tails, List.isPrefixOf_iff_prefix]
  constructor
  · rintro ⟨t, ⟨a, ha⟩, ⟨b, hb⟩⟩; exact ⟨a, b, by rw [← ha, ← hb]; simp⟩
  · rintro ⟨a, b, h⟩; exact ⟨p.toList ++ b, ⟨a, by rw [h]; simp⟩, ⟨b, rfl⟩⟩

theorem has_iff (n : Names) (p : String) : n.has p = true ↔ Named n p := by
  cases n with
  | many l => simp [Names.has, Named]
  | text s => simp only [Names.has, Named, isSubstr_iff]

theorem truthy_iff (n : Names) : n.truthy = false ↔ Nothing n := by
  cases n with
  | many l => simp [Names.truthy, Nothing]
  | text s => simp [Names.truthy, Nothing]

theorem isNone_iff (v : Val) : v.isNone = true ↔ v = .none := by cases v <;> simp [Val.isNone]

theorem selects_iff (a : DataArgs) (p : String) (v : Val) : a.selects p v = true ↔ Selected a p v := by
  unfold DataArgs.selects Selected
  rw [← truthy_iff, ← truthy_iff, ← has_iff, ← has_iff, Ne, ← isNone_iff]
  cases a.includeNone <;> cases v.isNone <;> cases a.include_.truthy <;> cases a.include_.has p <;> cases a.exclude.truthy <;>
    cases a.exclude.has p <;> cases a.rejected v <;> simp

theorem newName_eq (a : DataArgs) (p : String) : a.newName p = OutName a p := by
  unfold DataArgs.newName OutName List.dmerge
  rw [dget_foldl_dset]
  cases a.rename.reverse.dget p <;> rfl

/-- Properties of an object are distinct (`__properties__` is made from a set, base.py:326). -/
def DistinctProps (fs : List (String × Val)) : Prop := List.WF fs

/-- Two selected properties never get the same output name. -/
def NoClash (a : DataArgs) (fs : List (String × Val)) : Prop :=
  ∀ p v q w, (p, v) ∈ fs → (q, w) ∈ fs → Selected a p v → Selected a q w → OutName a p = OutName a q → p = q

/-! ### C56 -/

theorem mem_dataPairs (a : DataArgs) (fs : List (String × Val)) (k : String) (x : Val) :
    (k, x) ∈ dataPairs a fs ↔ ∃ p v, (p, v) ∈ fs ∧ Selected a p v ∧ k = OutName a p ∧ x = handler v := by
  unfold dataPairs
  simp only [List.mem_map, List.mem_filter, Prod.exists, Prod.mk.injEq, selects_iff, newName_eq]
  constructor
  · rintro ⟨p, v, ⟨h1, h2⟩, rfl, rfl⟩; exact ⟨p, v, h1, h2, rfl, rfl⟩
  · rintro ⟨p, v, h1, h2, rfl, rfl⟩; exact ⟨p, v, ⟨h1, h2⟩, rfl, rfl⟩

theorem data_eq (a : DataArgs) (fs : List (String × Val)) : data a fs = dictOf (dataPairs a fs) := by
  unfold data
  rw [List.filter_eq_self]
  intro kv hkv
  obtain ⟨p, v, _, _, _, h⟩ := (mem_dataPairs a fs kv.1 kv.2).1 (mem_dictOf hkv)
  rw [h, handler_isNone]; simp

/-- **C56 (partial).** If no two selected properties get the same name, `data` contains exactly the
selected properties under their output names.  Missing: with clashing names one property is lost
(`data_clash_counterexample`), and with include_none a None is written as the text "None"
(`data_none_counterexample`). -/
theorem data_exact_partial (a : DataArgs) (fs : List (String × Val)) (hd : DistinctProps fs) (hc : NoClash a fs)
    (k : String) (x : Val) :
    (data a fs).dget k = some x ↔ ∃ p v, (p, v) ∈ fs ∧ Selected a p v ∧ k = OutName a p ∧ x = handler v := by
  rw [data_eq, dget_dictOf_iff, mem_dataPairs]
  intro k v w hv hw
  rw [mem_dataPairs] at hv hw
  obtain ⟨p, v', h1, h2, h3, rfl⟩ := hv
  obtain ⟨q, w', g1, g2, g3, rfl⟩ := hw
  have := hc p v' q w' h1 g1 h2 g2 (h3.symm.trans g3)
  subst this
  have e1 := PyDict.dget_of_mem hd h1
  have e2 := PyDict.dget_of_mem hd g1
  rw [e1] at e2
  injection e2 with e2
  rw [e2]

/-- **C56.** Whatever the names: nothing else is ever written, and every selected name appears. -/
theorem data_sound (a : DataArgs) (fs : List (String × Val)) :
    (∀ k x, (data a fs).dget k = some x → ∃ p v, (p, v) ∈ fs ∧ Selected a p v ∧ k = OutName a p ∧ x = handler v) ∧
    (∀ p v, (p, v) ∈ fs → Selected a p v → ∃ x, (data a fs).dget (OutName a p) = some x) := by
  rw [data_eq]
  constructor
  · intro k x h
    exact (mem_dataPairs a fs k x).1 (mem_dictOf (PyDict.dget_mem h))
  · intro p v h1 h2
    rw [dget_dictOf]
    cases hh : (dataPairs a fs).reverse.dget (OutName a p) with
    | some x => exact ⟨x, rfl⟩
    | none =>
      rw [PyDict.dget_eq_none] at hh
      refine absurd (List.mem_map.2 ⟨(OutName a p, handler v), List.mem_reverse.2 ?_, rfl⟩) hh
      exact (mem_dataPairs a fs _ _).2 ⟨p, v, h1, h2, rfl, rfl⟩

/-- Non-vacuity: renaming, exclusion, None. -/
example : data { exclude := .many ["b"], rename := [("c", "cc")] }
    [("a", .int 1), ("b", .int 2), ("c", .str "x"), ("d", .none), ("atype", .str "T")] =
    [("a", .int 1), ("cc", .str "x"), ("@type", .str "T")] := by rfl

/-- **C56 (counterexample).** A property that is renamed to the name of another one: only the one that
comes last in the (arbitrary) order of the properties is in the output. -/
theorem data_clash_counterexample :
    data { rename := [("a", "b")] } [("a", .int 1), ("b", .int 2)] = [("b", .int 2)] ∧
    data { rename := [("a", "b")] } [("b", .int 2), ("a", .int 1)] = [("b", .int 1)] := ⟨by rfl, by rfl⟩

/-- **C56 (counterexample).** With include_none every None property appears as the text "None". -/
theorem data_none_counterexample (fs : List (String × Val)) (hd : DistinctProps fs) (p : String) (h : (p, .none) ∈ fs)
    (hc : NoClash { includeNone := true } fs) :
    (data { includeNone := true } fs).dget (OutName { includeNone := true } p) = some (.str "None") := by
  rw [data_exact_partial _ fs hd hc]
  exact ⟨p, .none, h, ⟨.inl rfl, .inl rfl, .inl rfl, rfl⟩, rfl, by simp [handler]⟩

/-! ### C57 -/

/-- What `json.dumps` can write: text, numbers, lists and dictionaries with text keys. -/
inductive Json : Val → Prop where
  | str (s : String) : Json (.str s)
  | int (i : Int) : Json (.int i)
  | float (n : Bool) (r : String) : Json (.float n r)
  | list (xs : List Val) : (∀ x ∈ xs, Json x) → Json (.list xs)
  | dict (kvs : List (Key × Val)) : (∀ kv ∈ kvs, ∃ s, kv.1 = .str s) → (∀ kv ∈ kvs, Json kv.2) → Json (.dict kvs)

/-- Every dictionary in the value has text keys. -/
inductive TextKeys : Val → Prop where
  | none : TextKeys .none
  | bool (b : Bool) : TextKeys (.bool b)
  | int (i : Int) : TextKeys (.int i)
  | float (n : Bool) (r : String) : TextKeys (.float n r)
  | str (s : String) : TextKeys (.str s)
  | other (c r : String) : TextKeys (.other c r)
  | list (xs : List Val) : (∀ x ∈ xs, TextKeys x) → TextKeys (.list xs)
  | tuple (xs : List Val) : (∀ x ∈ xs, TextKeys x) → TextKeys (.tuple xs)
  | set (xs : List Val) : (∀ x ∈ xs, TextKeys x) → TextKeys (.set xs)
  | iter (c : String) (xs : List Val) : (∀ x ∈ xs, TextKeys x) → TextKeys (.iter c xs)
  | dict (kvs : List (Key × Val)) : (∀ kv ∈ kvs, ∃ s, kv.1 = .str s) → (∀ kv ∈ kvs, TextKeys kv.2) → TextKeys (.dict kvs)
  | obj (c : String) (fs : List (String × Val)) : (∀ pv ∈ fs, TextKeys pv.2) → TextKeys (.obj c fs)

/-- A value that is already plain data. -/
abbrev Plain := Json

theorem handler_list {xs : List Val} (h : ∀ x ∈ xs, Json (handler x)) : Json (.list (handlerAll xs)) := by
  rw [handlerAll_map]
  refine .list _ ?_
  intro x hx
  obtain ⟨y, hy, rfl⟩ := List.mem_map.1 hx
  exact h y hy

/-- The pairs of a nested object. -/
theorem handler_obj (c : String) (fs : List (String × Val)) :
    handler (.obj c fs) = .dict (dictOf (nestedPairs fs)) := by
  rw [handler]
  congr 1
  rw [List.filter_eq_self]
  intro kv hkv
  have := mem_dictOf hkv
  rw [nestedPairs_map] at this
  obtain ⟨pv, _, rfl⟩ := List.mem_map.1 this
  simp only [handler_isNone, Bool.not_false]

/-- **C57 (partial).** Whatever the value, what `data` writes for it is plain JSON data at every depth, provided
every dictionary in it has text keys.  Missing: other keys are kept as they are
(`data_keys_counterexample`). -/
theorem handler_json_partial (v : Val) (h : TextKeys v) : Json (handler v) := by
  induction h with
  | none => rw [handler]; exact .str _
  | bool b => rw [handler]; exact .str _
  | int i => rw [handler]; exact .int _
  | float n r => rw [handler]; exact .float _ _
  | str s => rw [handler]; exact .str _
  | other c r => rw [handler]; exact .str _
  | list xs _ ih => rw [handler]; exact handler_list ih
  | tuple xs _ ih => rw [handler]; exact handler_list ih
  | set xs _ ih => rw [handler]; exact handler_list ih
  | iter c xs _ ih => rw [handler]; exact handler_list ih
  | dict kvs hk _ ih =>
    rw [handler, handlerDict_map]
    refine .dict _ ?_ ?_
    · intro kv hkv
      obtain ⟨x, hx, rfl⟩ := List.mem_map.1 hkv
      exact hk x hx
    · intro kv hkv
      obtain ⟨x, hx, rfl⟩ := List.mem_map.1 hkv
      exact ih x hx
  | obj c fs _ ih =>
    rw [handler_obj]
    refine .dict _ ?_ ?_ <;> intro kv hkv <;> have hm := mem_dictOf hkv <;> rw [nestedPairs_map] at hm <;>
      obtain ⟨pv, hpv, rfl⟩ := List.mem_map.1 hm
    · exact ⟨_, rfl⟩
    · exact ih pv (List.mem_of_mem_filter hpv)

/-- **C57 (partial).** The same for the whole output of `data`. -/
theorem data_json_partial (a : DataArgs) (fs : List (String × Val)) (h : ∀ pv ∈ fs, TextKeys pv.2) (k : String) (x : Val)
    (hx : (data a fs).dget k = some x) : Json x := by
  obtain ⟨p, v, h1, _, _, rfl⟩ := (data_sound a fs).1 k x hx
  exact handler_json_partial v (h _ h1)

/-- **C57.** Text, numbers and lists and dictionaries of them are written unchanged. -/
theorem handler_plain (v : Val) (h : Plain v) : handler v = v := by
  induction h with
  | str s => rw [handler]
  | int i => rw [handler]
  | float n r => rw [handler]
  | list xs _ ih =>
    rw [handler, handlerAll_map]
    congr 1
    conv => rhs; rw [← List.map_id xs]
    exact List.map_congr_left fun x hx => ih x hx
  | dict kvs hk _ ih =>
    rw [handler, handlerDict_map]
    congr 1
    conv => rhs; rw [← List.map_id kvs]
    refine List.map_congr_left fun kv hkv => ?_
    rw [ih kv hkv]; rfl

/-- **C57.** Lists of any kind keep length and order, element by element. -/
theorem handler_lists (xs : List Val) (c : String) :
    handler (.list xs) = .list (xs.map handler) ∧ handler (.tuple xs) = .list (xs.map handler) ∧
    handler (.set xs) = .list (xs.map handler) ∧ handler (.iter c xs) = .list (xs.map handler) := by
  simp only [handler, handlerAll_map, and_self]

/-- **C57.** Output is a fixed point: writing data again changes nothing. -/
theorem handler_idempotent (v : Val) (h : TextKeys v) : handler (handler v) = handler v :=
  handler_plain _ (handler_json_partial v h)

/-- Non-vacuity: nested lists, an object, a date. -/
example : TextKeys (.list [.obj "Note" [("when", .other "datetime" "2020-01-01 00:00:00"), ("tags", .tuple [.str "a"])],
    .dict [(.str "k", .int 3)]]) := by
  refine .list _ ?_
  intro x hx
  simp only [List.mem_cons, List.not_mem_nil, or_false] at hx
  rcases hx with rfl | rfl
  · refine .obj _ _ ?_
    intro pv hpv
    simp only [List.mem_cons, List.not_mem_nil, or_false] at hpv
    rcases hpv with rfl | rfl
    · exact .other _ _
    · exact .tuple _ (by intro x hx; simp only [List.mem_cons, List.not_mem_nil, or_false] at hx; subst hx; exact .str _)
  · refine .dict _ ?_ ?_ <;> intro kv hkv <;> simp only [List.mem_cons, List.not_mem_nil, or_false] at hkv <;> subst hkv
    · exact ⟨_, rfl⟩
    · exact .int _

/-- **C57 (counterexample).** A dictionary with a key that is no text: the output is not plain JSON data
(`json.dumps` raises TypeError for keys such as tuples). -/
theorem data_keys_counterexample (r : String) (v : Val) : ¬ Json (handler (.dict [(.other r, v)])) := by
  intro h
  rw [handler, handlerDict_map] at h
  cases h with
  | dict _ hk _ =>
    obtain ⟨s, hs⟩ := hk (.other r, handler v) (by simp)
    cases hs

/-- **C57 (counterexample).** Booleans do not keep their value: they become the texts "True" and "False"; None
in a list becomes "None". -/
theorem data_bool_counterexample (b : Bool) :
    handler (.bool b) = .str (if b then "True" else "False") ∧ handler (.list [.none]) = .list [.str "None"] := by
  constructor
  · rw [handler]
  · rw [handler, handlerAll_map]; simp [handler]

/-! ### C58 -/

/-- A dictionary with the key "@context" somewhere in a value. -/
inductive HasContext : Val → Prop where
  | here (kvs : List (Key × Val)) (v : Val) : (Key.str "@context", v) ∈ kvs → HasContext (.dict kvs)
  | dict (kvs : List (Key × Val)) (kv : Key × Val) : kv ∈ kvs → HasContext kv.2 → HasContext (.dict kvs)
  | list (xs : List Val) (x : Val) : x ∈ xs → HasContext x → HasContext (.list xs)

/-- The input gives no "@context" of its own: no dictionary key and no property is called so. -/
inductive NoOwnContext : Val → Prop where
  | none : NoOwnContext .none
  | bool (b : Bool) : NoOwnContext (.bool b)
  | int (i : Int) : NoOwnContext (.int i)
  | float (n : Bool) (r : String) : NoOwnContext (.float n r)
  | str (s : String) : NoOwnContext (.str s)
  | other (c r : String) : NoOwnContext (.other c r)
  | list (xs : List Val) : (∀ x ∈ xs, NoOwnContext x) → NoOwnContext (.list xs)
  | tuple (xs : List Val) : (∀ x ∈ xs, NoOwnContext x) → NoOwnContext (.tuple xs)
  | set (xs : List Val) : (∀ x ∈ xs, NoOwnContext x) → NoOwnContext (.set xs)
  | iter (c : String) (xs : List Val) : (∀ x ∈ xs, NoOwnContext x) → NoOwnContext (.iter c xs)
  | dict (kvs : List (Key × Val)) : (∀ kv ∈ kvs, kv.1 ≠ .str "@context") → (∀ kv ∈ kvs, NoOwnContext kv.2) →
      NoOwnContext (.dict kvs)
  | obj (c : String) (fs : List (String × Val)) : (∀ pv ∈ fs, pv.1 ≠ "@context") → (∀ pv ∈ fs, NoOwnContext pv.2) →
      NoOwnContext (.obj c fs)

theorem selected_nested (p : String) (v : Val) : Selected nestedArgs p v ↔ v ≠ .none ∧ ¬ PartOf p "acontext" := by
  unfold Selected nestedArgs
  simp [Nothing, Named]

theorem outName_context {p : String} (h : OutName nestedArgs p = "@context") : p = "acontext" ∨ p = "@context" := by
  have e : OutName nestedArgs p = (jsonLdKeymap.dget p).getD p := rfl
  rw [e] at h
  cases hh : jsonLdKeymap.dget p with
  | none => rw [hh] at h; exact .inr h
  | some n =>
    rw [hh] at h
    simp only [Option.getD_some] at h
    subst h
    have := PyDict.dget_mem hh
    simp only [jsonLdKeymap, List.mem_cons, Prod.mk.injEq, List.not_mem_nil, or_false] at this
    simp at this
    exact .inl this

theorem partOf_refl (p : String) : PartOf p p := ⟨[], [], by simp⟩

theorem no_context_list {xs : List Val} (h : ∀ x ∈ xs, ¬ HasContext (handler x)) : ¬ HasContext (.list (handlerAll xs)) := by
  rw [handlerAll_map]
  intro hc
  cases hc with
  | list _ x hx hcx =>
    obtain ⟨y, hy, rfl⟩ := List.mem_map.1 hx
    exact h y hy hcx

/-- **C58.** Nested values never carry a context: "@context" does not appear inside any property's value. -/
theorem nested_no_context (v : Val) (h : NoOwnContext v) : ¬ HasContext (handler v) := by
  induction h with
  | none => rw [handler]; rintro ⟨⟩
  | bool b => rw [handler]; rintro ⟨⟩
  | int i => rw [handler]; rintro ⟨⟩
  | float n r => rw [handler]; rintro ⟨⟩
  | str s => rw [handler]; rintro ⟨⟩
  | other c r => rw [handler]; rintro ⟨⟩
  | list xs _ ih => rw [handler]; exact no_context_list ih
  | tuple xs _ ih => rw [handler]; exact no_context_list ih
  | set xs _ ih => rw [handler]; exact no_context_list ih
  | iter c xs _ ih => rw [handler]; exact no_context_list ih
  | dict kvs hk _ ih =>
    rw [handler, handlerDict_map]
    intro hc
    cases hc with
    | here _ v hm =>
      obtain ⟨x, hx, hxe⟩ := List.mem_map.1 hm
      simp only [Prod.mk.injEq] at hxe
      exact hk x hx hxe.1
    | dict _ kv hkv hc =>
      obtain ⟨x, hx, rfl⟩ := List.mem_map.1 hkv
      exact ih x hx hc
  | obj c fs hk _ ih =>
    rw [handler_obj]
    have hm' : ∀ kv ∈ dictOf (nestedPairs fs), ∃ pv ∈ fs, Selected nestedArgs pv.1 pv.2 ∧
        kv = (Key.str (OutName nestedArgs pv.1), handler pv.2) := by
      intro kv hkv
      have hm := mem_dictOf hkv
      rw [nestedPairs_map] at hm
      obtain ⟨pv, hpv, rfl⟩ := List.mem_map.1 hm
      exact ⟨pv, List.mem_of_mem_filter hpv, (selects_iff ..).1 (List.mem_filter.1 hpv).2, by rw [newName_eq]⟩
    intro hc
    cases hc with
    | here _ v hm =>
      obtain ⟨pv, h1, h2, h3⟩ := hm' _ hm
      simp only [Prod.mk.injEq, Key.str.injEq] at h3
      rcases outName_context h3.1.symm with h | h
      · rw [selected_nested, h] at h2
        exact h2.2 (partOf_refl _)
      · exact hk pv h1 h
    | dict _ kv hkv hc =>
      obtain ⟨pv, h1, _, rfl⟩ := hm' _ hkv
      exact ih pv h1 hc

/-- **C58 (partial).** A nested object keeps exactly the properties that have a value and whose name is
not part of the text "acontext" (provided its names do not clash).  Missing: properties such as
`context` are lost (`nested_context_counterexample`). -/
theorem nested_exact_partial (c : String) (fs : List (String × Val)) (hd : DistinctProps fs) (hc : NoClash nestedArgs fs) :
    ∃ kvs, handler (.obj c fs) = .dict kvs ∧ ∀ k x, kvs.dget k = some x ↔
      ∃ p v, (p, v) ∈ fs ∧ v ≠ .none ∧ ¬ PartOf p "acontext" ∧ k = Key.str (OutName nestedArgs p) ∧ x = handler v := by
  refine ⟨_, handler_obj c fs, ?_⟩
  have hmem : ∀ k x, (k, x) ∈ nestedPairs fs ↔ ∃ p v, (p, v) ∈ fs ∧ v ≠ .none ∧ ¬ PartOf p "acontext" ∧
      k = Key.str (OutName nestedArgs p) ∧ x = handler v := by
    intro k x
    rw [nestedPairs_map]
    simp only [List.mem_map, List.mem_filter, Prod.exists, Prod.mk.injEq, selects_iff, selected_nested, newName_eq]
    constructor
    · rintro ⟨p, v, ⟨h1, h2, h3⟩, rfl, rfl⟩; exact ⟨p, v, h1, h2, h3, rfl, rfl⟩
    · rintro ⟨p, v, h1, h2, h3, rfl, rfl⟩; exact ⟨p, v, ⟨h1, h2, h3⟩, rfl, rfl⟩
  intro k x
  rw [dget_dictOf_iff, hmem]
  intro k v w hv hw
  rw [hmem] at hv hw
  obtain ⟨p, v', h1, h2, h2', h3, rfl⟩ := hv
  obtain ⟨q, w', g1, g2, g2', g3, rfl⟩ := hw
  rw [h3] at g3
  injection g3 with g3
  have := hc p v' q w' h1 g1 ((selected_nested ..).2 ⟨h2, h2'⟩) ((selected_nested ..).2 ⟨g2, g2'⟩) g3
  subst this
  have e1 := PyDict.dget_of_mem hd h1
  rw [PyDict.dget_of_mem hd g1] at e1
  injection e1 with e1
  rw [e1]

/-- **C58 (counterexample).** A nested object always loses its ActivityStreams property `context`, whatever
its value. -/
theorem nested_context_counterexample (c : String) (v : Val) : handler (.obj c [("context", v)]) = .dict [] := by
  rw [handler_obj, nestedPairs_map]
  have : nestedArgs.selects "context" v = false := by
    rw [Bool.eq_false_iff, Ne, selects_iff, selected_nested]
    rintro ⟨_, h⟩
    exact h ⟨['a'], [], by decide⟩
  rw [List.filter_cons_of_neg (by simp [this])]
  rfl

/-- The outer object keeps it. -/
example : (data {} [("context", .str "x")]) = [("context", .str "x")] := by rfl

end Verif.Props
