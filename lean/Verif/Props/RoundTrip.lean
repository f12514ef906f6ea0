import Verif.AS.Output
import Verif.Props.Construct3
import Verif.Props.Data

/-!
# Writing an object and loading it again (C88)
-/
namespace Verif.Props
open Verif Verif.Jsonld Verif.AS

variable {J : Type}

/-! ### Specification -/

/-- Texts, numbers, and lists of these. -/
inductive Flat : Val → Prop where
  | str (s : String) : Flat (.str s)
  | int (i : Int) : Flat (.int i)
  | float (n : Bool) (r : String) : Flat (.float n r)
  | list (xs : List Val) (h : ∀ x ∈ xs, Flat x) : Flat (.list xs)

/-- The values that come back when they are written and loaded in the context `ctx`: as a value of a property (`some r`), or an object as a
document of its own (`none`).

* None;
* texts, numbers and lists of them, in properties that take neither links nor dates;
* datetimes without zone, of whole seconds and with a year of four digits, in properties that take dates;
* in properties that take links: texts that are no addresses, Links that are just what is made of their address, objects of the vocabulary
  whose own values come back, and lists of these.

An object comes back as a document if it has the context `ctx`, the type name of its class, and values that come back, None for the
properties that are never loaded (`lostOf`, C87), numbers for those that are never None. -/
inductive ComesBack (w : World J) (ctx : Tree) : Option PropRow → Val → Prop where
  | none (r : PropRow) : ComesBack w ctx (some r) .none
  | flat (r : PropRow) (v : Val) (hl : r.fromStr = false) (hp : r.parse = false) (hf : Flat v) (ha : Fits w.env r v) : ComesBack w ctx (some r) v
  | date (r : PropRow) (t : DateTime) (hp : r.parse = true) (hm : "datetime" ∈ w.env.mro "datetime")
      (ht : w.env.dateOf (w.env.dateRepr t) = some t) (hv : t.Valid) (hy : 1000 ≤ t.year) (hs : t.micro = 0) (hz : t.tz = Option.none) :
      ComesBack w ctx (some r) (.other "datetime" (w.env.dateRepr t))
  | text (r : PropRow) (s : String) (hl : r.fromStr = true) (hs : linkable w.env s = .ok false) (ha : Fits w.env r (.str s)) :
      ComesBack w ctx (some r) (.str s)
  | link (r : PropRow) (s c : String) (fs : List (String × Val)) (hl : r.fromStr = true) (hs : linkable w.env s = .ok true)
      (hm : w.link [("href", .str s)] = .ok (.obj c fs)) (hi : isLink w.env (.obj c fs) = true) (hh : hrefOf (.obj c fs) = .str s)
      (ha : Fits w.env r (.obj c fs)) : ComesBack w ctx (some r) (.obj c fs)
  | nested (r : PropRow) (c : String) (fs : List (String × Val)) (hl : r.fromStr = true) (hi : isLink w.env (.obj c fs) = false)
      (ho : ComesBack w ctx Option.none (.obj c fs)) (ha : Fits w.env r (.obj c fs)) : ComesBack w ctx (some r) (.obj c fs)
  | items (r : PropRow) (xs : List Val) (hl : r.fromStr = true) (hf : r.functional = false) (hn : ∀ x ∈ xs, x ≠ .none ∧ items? x = Option.none)
      (hx : ∀ x ∈ xs, ComesBack w ctx (some r) x) : ComesBack w ctx (some r) (.list xs)
  | object (c : String) (x : String → Val) (hc : c ∈ pkgClasses) (h1 : c ≠ "Object") (h2 : c ≠ "Link") (hctx : x "acontext" = ctx.toVal)
      (ht : x "type" = .str (typeName c)) (hl : ∀ q ∈ lostOf c, x q = .none)
      (hn : ∀ q ∈ propNames c, q = "totalItems" ∨ q = "startIndex" → ∃ n : Nat, x q = .int n)
      (ho : ∀ q, Ordinary c q → ComesBack w ctx (some (rowOf q)) (x q)) : ComesBack w ctx Option.none (objectOf c x)

/-- `expand` finds the types of the vocabulary in documents with the context `ctx`. -/
def Recognises (expand : Tree → Outcome Expansion) (ctx : Tree) : Prop :=
  ∀ c ∈ pkgClasses, ∀ kvs : List (String × Tree), kvs.dget "@context" = some ctx → kvs.dget "type" = some (.str (typeName c)) →
    ∃ ts, expand (.obj kvs) = .ok (.typed ((asNs ++ "#" ++ typeName c) :: ts))

/-! ### What is written -/

theorem jsonViews_map (env : Env) (xs : List Val) : jsonViews env xs = xs.map (jsonView env) := by
  induction xs with
  | nil => rfl
  | cons x xs ih => rw [jsonViews, ih]; rfl

theorem jsonViewFields_map (env : Env) (c : String) (fs : List (String × Val)) :
    jsonViewFields env c fs = fs.map fun f => (f.1, fieldForm env c f.1 (jsonView env f.2)) := by
  induction fs with
  | nil => rfl
  | cons x xs ih => obtain ⟨q, v⟩ := x; rw [jsonViewFields, ih]; rfl

theorem href_form (env : Env) (c : String) (v : Val) : fieldForm env c "href" v = v := by
  unfold fieldForm
  cases h : attrOf true c "href" with
  | prop r =>
    obtain ⟨h1, h2⟩ := attrOf_prop h
    have : ∀ r ∈ propTable, r.name = "href" → r.json = .default := by decide +kernel
    show r.form env v = v
    unfold PropRow.form
    rw [this r h1 h2]
  | const _ => rfl
  | plain => rfl

theorem isLink_view (env : Env) (v : Val) : isLink env (jsonView env v) = isLink env v := by
  cases v <;> (unfold jsonView; rfl)

theorem dget_map_fields (f : String → Val → Val) (fs : List (String × Val)) (q : String) :
    ((fs.map fun p => (p.1, f p.1 p.2)) : List (String × Val)).dget q = (fs.dget q).map (f q) := by
  induction fs with
  | nil => rfl
  | cons a l ih =>
    simp only [List.map_cons, List.dget]
    by_cases h : a.1 = q
    · simp [h]
    · simp [h, ih]

theorem hrefOf_view (env : Env) (v : Val) : hrefOf (jsonView env v) = jsonView env (hrefOf v) := by
  cases v with
  | obj c fs =>
    rw [show jsonView env (.obj c fs) = .obj c (jsonViewFields env c fs) by rw [jsonView]]
    show ((jsonViewFields env c fs).dget "href").getD .none = jsonView env ((fs.dget "href").getD .none)
    rw [jsonViewFields_map, dget_map_fields (fun q v => fieldForm env c q (jsonView env v))]
    cases fs.dget "href" with
    | none => rfl
    | some y => exact href_form env c _
  | _ => unfold jsonView; rfl

theorem hrefItem_view (env : Env) (v : Val) : hrefItem env (jsonView env v) = jsonView env (hrefItem env v) := by
  unfold hrefItem
  rw [isLink_view]
  split
  · exact hrefOf_view env v
  · rfl

theorem hrefOnly_view (env : Env) (v : Val) : hrefOnly env (jsonView env v) = jsonView env (hrefOnly env v) := by
  cases v with
  | list xs =>
    rw [show jsonView env (.list xs) = .list (jsonViews env xs) by rw [jsonView]]
    show (.list ((jsonViews env xs).map (hrefItem env)) : Val) = jsonView env (.list (xs.map (hrefItem env)))
    rw [jsonView, jsonViews_map, jsonViews_map, List.map_map, List.map_map]
    congr 1
    exact List.map_congr_left fun x _ => hrefItem_view env x
  | obj c fs => exact hrefItem_view env (.obj c fs)
  | _ => unfold jsonView; unfold hrefOnly hrefItem isLink; rfl

theorem dateForm_view (env : Env) (v : Val) : dateForm env (jsonView env v) = jsonView env (dateForm env v) := by
  cases v with
  | other c r => unfold jsonView dateForm; simp only; split <;> rfl
  | _ => simp only [jsonView, dateForm]

theorem deltaForm_view (env : Env) (v : Val) : deltaForm env (jsonView env v) = jsonView env (deltaForm env v) := by
  cases v with
  | other c r => unfold jsonView deltaForm; simp only; split <;> rfl
  | _ => simp only [jsonView, deltaForm]

/-- Taking the JSON form of a property and the JSON views of the objects inside commute. -/
theorem view_form (env : Env) (r : PropRow) (v : Val) : r.form env (jsonView env v) = jsonView env (r.form env v) := by
  unfold PropRow.form
  cases r.json with
  | default => rfl
  | href => exact hrefOnly_view env v
  | date => exact dateForm_view env v
  | delta => exact deltaForm_view env v
  | hrefDate => simp only; rw [dateForm_view, hrefOnly_view]

/-- Reading a property for JSON gives the JSON form of the stored value. -/
theorem json_form {r : PropRow} (hr : r ∈ propTable) (env : Env) (web : Web J) (s : Slots) (v : Val) (hv : r.stored s = .ok v) :
    (r.jsonValue env web s).1 = .ok (r.form env v) := by
  have ht : ∀ r ∈ propTable, r.expand = true → r.json ≠ .default := by decide +kernel
  unfold PropRow.jsonValue PropRow.form
  cases hj : r.json with
  | default =>
    have he : r.expand = false := by
      by_contra h
      exact ht r hr (by simpa using h) hj
    show (r.get web s).1 = _
    unfold PropRow.get
    rw [hv]; simp [he]
  | _ => simp only [hv]

theorem flat_json {v : Val} (h : Flat v) : Json v := by
  induction h with
  | str s => exact .str s
  | int i => exact .int i
  | float n r => exact .float n r
  | list xs _ ih => exact .list xs ih

theorem flat_view (env : Env) {v : Val} (h : Flat v) : jsonView env v = v := by
  induction h with
  | str s => rfl
  | int i => rfl
  | float n r => rfl
  | list xs _ ih =>
    rw [jsonView, jsonViews_map]
    congr 1
    conv => rhs; rw [← List.map_id xs]
    exact List.map_congr_left fun x hx => ih x hx

theorem flat_onlyLists {v : Val} (h : Flat v) : OnlyLists v := by
  induction h with
  | str s => exact .leaf _ rfl
  | int i => exact .leaf _ rfl
  | float n r => exact .leaf _ rfl
  | list xs _ ih => exact .list xs ih

theorem toTrees_map (xs : List Val) : toTrees xs = xs.map toTree := by
  induction xs with
  | nil => rfl
  | cons x xs ih => rw [toTrees, ih]; rfl

theorem unpack_list (E : Engine) (ctx : Tree) (xs : List Tree) (us : List Val) (h : xs.map (E.unpack ctx) = us.map .ok) :
    E.unpack ctx (.arr xs) = .ok (.list us) := by
  rw [Engine.unpack, unpackAll_eq, (sequence_ok _ _).2 h]

theorem flat_unpack (E : Engine) (ctx : Tree) {v : Val} (h : Flat v) : E.unpack ctx (toTree v) = .ok v := by
  induction h with
  | str s => rw [toTree, Engine.unpack]
  | int i => rw [toTree, Engine.unpack]
  | float n r => rw [toTree, Engine.unpack]
  | list xs _ ih =>
    rw [toTree, toTrees_map]
    refine unpack_list E ctx _ _ ?_
    rw [List.map_map]
    exact List.map_congr_left fun x hx => ih x hx

theorem dget_toTreeFields (d : List (String × Val)) (k : String) : (toTreeFields d).dget k = (d.dget k).map toTree := by
  induction d with
  | nil => rfl
  | cons a l ih =>
    obtain ⟨q, v⟩ := a
    rw [toTreeFields]
    simp only [List.dget]
    by_cases h : q = k
    · simp [h]
    · simp [h, ih]

theorem dget_toTreePairs (d : List (Key × Val)) (hd : ∀ p ∈ d, ∃ s, p.1 = Key.str s) (k : String) :
    (toTreePairs d).dget k = (d.dget (Key.str k)).map toTree := by
  induction d with
  | nil => rfl
  | cons a l ih =>
    obtain ⟨q, v⟩ := a
    obtain ⟨s, hs⟩ := hd _ (List.mem_cons_self ..)
    simp only at hs; subst hs
    have ih := ih fun p hp => hd p (List.mem_cons_of_mem _ hp)
    rw [toTreePairs]
    simp only [List.dget]
    by_cases h : s = k
    · simp [h]
    · simp [h, ih]

/-- What an object with the values `x` shows for a property. -/
def shown (env : Env) (c : String) (x : String → Val) (q : String) : Val := fieldForm env c q (jsonView env (x q))

theorem names_nodup : ∀ c ∈ pkgClasses, (propNames c).Nodup := by decide +kernel

theorem names_kept : ∀ c ∈ pkgClasses, ∀ q ∈ propNames c, q ≠ "acontext" → jsonLdKeymap.dget q = none ∧ isSubstr q "acontext" = false := by decide +kernel

theorem out_name {a : DataArgs} (ha : a.rename = []) {c : String} (hc : c ∈ pkgClasses) {q : String} (hq : q ∈ propNames c) :
    OutName a q = if q = "acontext" then "@context" else q := by
  unfold OutName
  rw [ha]
  show (jsonLdKeymap.dget q).getD q = _
  by_cases h : q = "acontext"
  · subst h; rfl
  · rw [(names_kept c hc q hq h).1, if_neg h]; rfl

theorem no_at_context : ∀ c ∈ pkgClasses, "@context" ∉ propNames c := by decide +kernel

theorem no_clash {a : DataArgs} (ha : a.rename = []) {c : String} (hc : c ∈ pkgClasses) (fs : List (String × Val)) (hfs : ∀ p ∈ fs, p.1 ∈ propNames c) :
    NoClash a fs := by
  intro p v q u hp hq _ _ h
  have h1 := hfs _ hp
  have h2 := hfs _ hq
  rw [out_name ha hc h1, out_name ha hc h2] at h
  by_cases e1 : p = "acontext" <;> by_cases e2 : q = "acontext"
  · rw [e1, e2]
  · rw [if_pos e1, if_neg e2] at h; rw [← h] at h2; exact absurd h2 (no_at_context c hc)
  · rw [if_neg e1, if_pos e2] at h; rw [h] at h1; exact absurd h1 (no_at_context c hc)
  · rw [if_neg e1, if_neg e2] at h; exact h

theorem wf_map_pairs (l : List String) (h : l.Nodup) (f : String → Val) : List.WF ((l.map fun q => (q, f q)) : List (String × Val)) := by
  unfold List.WF List.dkeys
  rw [List.map_map]
  simpa [Function.comp_def] using h

/-- The tree of a value if it is not None. -/
def treeOf (v : Val) : Option Tree := if v.isNone then none else some (toTree (handler v))

/-- What is written of an object inside another one. -/
theorem nested_tree (env : Env) {c : String} (hc : c ∈ pkgClasses) (x : String → Val) :
    ∃ kvs, toTree (handler (jsonView env (objectOf c x))) = .obj kvs ∧ kvs.dget "@context" = none ∧ kvs.dget "acontext" = none ∧
      kvs.dget "__namespace__" = none ∧
      ∀ q ∈ propNames c, q ≠ "acontext" → q ≠ "__namespace__" → kvs.dget q = treeOf (shown env c x q) := by
  have hv : jsonView env (objectOf c x) = .obj c (((propNames c).filter fun q => q != "__namespace__").map fun q => (q, shown env c x q)) := by
    unfold objectOf
    rw [jsonView, jsonViewFields_map, List.map_map]
    rfl
  rw [hv]
  generalize hfs : (((propNames c).filter fun q => q != "__namespace__").map fun q => (q, shown env c x q) : List (String × Val)) = fs
  have hmem : ∀ q v, (q, v) ∈ fs ↔ q ∈ propNames c ∧ q ≠ "__namespace__" ∧ v = shown env c x q := by
    intro q v
    rw [← hfs]
    simp only [List.mem_map, List.mem_filter, bne_iff_ne, Prod.mk.injEq]
    constructor
    · rintro ⟨_, ⟨h1, h2⟩, rfl, rfl⟩; exact ⟨h1, h2, rfl⟩
    · rintro ⟨h1, h2, rfl⟩; exact ⟨q, ⟨h1, h2⟩, rfl, rfl⟩
  have hwf : DistinctProps fs := by rw [← hfs]; exact wf_map_pairs _ ((names_nodup c hc).filter _) _
  obtain ⟨kvs, h1, h2⟩ := nested_exact_partial c fs hwf (no_clash rfl hc fs fun p hp => ((hmem p.1 p.2).1 hp).1)
  have hstr : ∀ p ∈ kvs, ∃ s, p.1 = Key.str s := by
    have he := handler_obj c fs
    rw [h1] at he
    injection he with he
    intro p hp
    rw [he] at hp
    have := mem_dictOf hp
    rw [nestedPairs_map] at this
    obtain ⟨pv, _, rfl⟩ := List.mem_map.1 this
    exact ⟨_, rfl⟩
  have hdg : ∀ k, (toTreePairs kvs).dget k = (kvs.dget (Key.str k)).map toTree := dget_toTreePairs kvs hstr
  have hnone : ∀ k, (∀ p ∈ propNames c, p ≠ "__namespace__" → p ≠ "acontext" → p ≠ k) → kvs.dget (Key.str k) = none := by
    intro k hk
    cases hd : kvs.dget (Key.str k) with
    | none => rfl
    | some y =>
      obtain ⟨p, v, g1, g2, g3, g4, -⟩ := (h2 _ _).1 hd
      obtain ⟨m1, m2, -⟩ := (hmem p v).1 g1
      have hpa : p ≠ "acontext" := by
        rintro rfl
        exact g3 (partOf_refl _)
      rw [out_name rfl hc m1, if_neg hpa] at g4
      injection g4 with g4
      exact absurd g4.symm (hk p m1 m2 hpa)
  refine ⟨toTreePairs kvs, by rw [h1, toTree], ?_, ?_, ?_, ?_⟩
  · rw [hdg, hnone]; · rfl
    rintro p hp _ _ rfl
    exact no_at_context c hc hp
  · rw [hdg, hnone]; · rfl
    exact fun p _ _ h => h
  · rw [hdg, hnone]; · rfl
    exact fun p _ h _ => h
  · intro q hq hne hns
    rw [hdg]
    unfold treeOf
    have hsub : ¬ PartOf q "acontext" := by
      rw [← isSubstr_iff, (names_kept c hc q hq hne).2]; decide
    cases hn : (shown env c x q).isNone with
    | true =>
      rw [if_pos rfl]
      cases hd : kvs.dget (Key.str q) with
      | none => rfl
      | some y =>
        obtain ⟨p, v, g1, g2, g3, g4, -⟩ := (h2 _ _).1 hd
        obtain ⟨m1, m2, rfl⟩ := (hmem p v).1 g1
        have hpa : p ≠ "acontext" := by
          rintro rfl
          exact g3 (partOf_refl _)
        rw [out_name rfl hc m1, if_neg hpa] at g4
        injection g4 with g4
        rw [← g4] at g2
        exact absurd ((isNone_iff _).1 hn) g2
    | false =>
      rw [if_neg (by decide)]
      have : kvs.dget (Key.str q) = some (handler (shown env c x q)) := by
        refine (h2 _ _).2 ⟨q, shown env c x q, (hmem _ _).2 ⟨hq, hns, rfl⟩, ?_, hsub, ?_, rfl⟩
        · intro h; rw [← isNone_iff, hn] at h; cases h
        · rw [out_name rfl hc hq, if_neg hne]
      rw [this]; rfl

/-- The properties of an object that holds `x`, as they are written. -/
theorem json_fields (w : World J) (c : String) (s : Slots) (x : String → Val)
    (h : ∀ q ∈ propNames c, q ≠ "__namespace__" → (attrOf true c q).held s q = .ok (x q)) :
    jsonFields w c s (propNames c) = .ok ((propNames c).map fun q => (q, if q = "__namespace__" then .none else shown w.env c x q)) := by
  generalize propNames c = l at h
  induction l with
  | nil => rfl
  | cons q l ih =>
    have ih := ih fun p hp => h p (List.mem_cons_of_mem _ hp)
    have ha : ∃ v, jsonAttr w c s q = .ok v ∧ jsonView w.env v = if q = "__namespace__" then .none else shown w.env c x q := by
      unfold jsonAttr
      by_cases hq : q = "__namespace__"
      · subst hq; exact ⟨.none, rfl, rfl⟩
      · rw [if_neg (by simpa using hq), if_neg hq]
        have hh := h q (List.mem_cons_self ..) hq
        unfold shown fieldForm
        cases hat : attrOf true c q with
        | prop r =>
          rw [hat] at hh
          refine ⟨_, json_form (attrOf_prop hat).1 w.env w.web s _ hh, ?_⟩
          simp only
          rw [view_form]
        | const v => rw [hat] at hh; exact ⟨_, hh, rfl⟩
        | plain => rw [hat] at hh; exact ⟨_, hh, rfl⟩
    obtain ⟨v, h1, h2⟩ := ha
    unfold jsonFields
    rw [h1]
    simp only
    rw [ih]
    simp only
    rw [h2, List.map_cons]

/-- What is written of an object as a document. -/
theorem output_tree (w : World J) {c : String} (hc : c ∈ pkgClasses) (s : Slots) (x : String → Val) (ctx : Tree) (hp : Plain ctx.toVal)
    (hctx : x "acontext" = ctx.toVal)
    (h : ∀ q ∈ propNames c, q ≠ "__namespace__" → (attrOf true c q).held s q = .ok (x q)) :
    ∃ d, output w c s = .ok d ∧ d.dget "@context" = some ctx.toVal ∧ d.dget "acontext" = none ∧ d.dget "__namespace__" = none ∧
      ∀ q ∈ propNames c, q ≠ "acontext" → q ≠ "__namespace__" → (toTreeFields d).dget q = treeOf (shown w.env c x q) := by
  have hf := json_fields w c s x h
  unfold output
  rw [hf]
  refine ⟨_, rfl, ?_⟩
  generalize hfs : ((propNames c).map fun q => (q, if q = "__namespace__" then .none else shown w.env c x q) : List (String × Val)) = fs
  have hmem : ∀ q v, (q, v) ∈ fs ↔ q ∈ propNames c ∧ v = if q = "__namespace__" then .none else shown w.env c x q := by
    intro q v
    rw [← hfs]
    simp only [List.mem_map, Prod.mk.injEq]
    constructor
    · rintro ⟨_, h1, rfl, rfl⟩; exact ⟨h1, rfl⟩
    · rintro ⟨h1, rfl⟩; exact ⟨q, h1, rfl, rfl⟩
  have hwf : DistinctProps fs := by rw [← hfs]; exact wf_map_pairs _ (names_nodup c hc) _
  have hex := data_exact_partial {} fs hwf (no_clash rfl hc fs fun p hp => ((hmem p.1 p.2).1 hp).1)
  have hsel : ∀ p v, Selected {} p v ↔ v ≠ .none := by
    intro p v
    unfold Selected
    simp [Nothing, Named]
  have hsc : shown w.env c x "acontext" = ctx.toVal := by
    unfold shown fieldForm
    rw [isPlain_eq (context_plain c hc), hctx]
    have : ∀ v, Json v → jsonView w.env v = v := by
      intro v hv
      induction hv with
      | str s => rfl
      | int i => rfl
      | float n r => rfl
      | list xs _ ih =>
        rw [jsonView, jsonViews_map]
        congr 1
        conv => rhs; rw [← List.map_id xs]
        exact List.map_congr_left fun x hx => ih x hx
      | dict kvs _ _ ih =>
        rw [jsonView]
        congr 1
        clear * - ih
        induction kvs with
        | nil => rfl
        | cons a l ihl =>
          obtain ⟨k, v⟩ := a
          rw [jsonViewPairs, ih (k, v) (List.mem_cons_self ..), ihl fun kv hkv => ih kv (List.mem_cons_of_mem _ hkv)]
    exact this _ hp
  have hacon : "acontext" ∈ propNames c := by unfold propNames; exact List.mem_cons_self ..
  have hctxne : ctx.toVal ≠ .none := by intro h; rw [h] at hp; cases hp
  refine ⟨?_, ?_, ?_, ?_⟩
  · refine (hex _ _).2 ⟨"acontext", ctx.toVal, (hmem _ _).2 ⟨hacon, ?_⟩, (hsel _ _).2 hctxne, ?_, ?_⟩
    · rw [if_neg (by decide), hsc]
    · rw [out_name rfl hc hacon, if_pos rfl]
    · exact (handler_plain _ hp).symm
  · cases hd : (data {} fs).dget "acontext" with
    | none => rfl
    | some y =>
      obtain ⟨p, v, g1, g2, g3, -⟩ := (hex _ _).1 hd
      rw [out_name rfl hc ((hmem p v).1 g1).1] at g3
      split_ifs at g3 with h'
      · exact absurd g3 (by decide)
      · exact absurd g3.symm h'
  · cases hd : (data {} fs).dget "__namespace__" with
    | none => rfl
    | some y =>
      obtain ⟨p, v, g1, g2, g3, -⟩ := (hex _ _).1 hd
      obtain ⟨m1, m2⟩ := (hmem p v).1 g1
      rw [out_name rfl hc m1] at g3
      split_ifs at g3 with h'
      · exact absurd g3 (by decide)
      · rw [if_pos g3.symm] at m2
        exact absurd m2 ((hsel _ _).1 g2)
  · intro q hq hne hns
    rw [dget_toTreeFields]
    unfold treeOf
    cases hn : (shown w.env c x q).isNone with
    | true =>
      rw [if_pos rfl]
      cases hd : (data {} fs).dget q with
      | none => rfl
      | some y =>
        obtain ⟨p, v, g1, g2, g3, -⟩ := (hex _ _).1 hd
        obtain ⟨m1, m2⟩ := (hmem p v).1 g1
        rw [out_name rfl hc m1] at g3
        split_ifs at g3 with h'
        · rw [g3] at hq; exact absurd hq (no_at_context c hc)
        · subst g3
          rw [if_neg hns] at m2
          rw [m2] at g2
          exact absurd ((isNone_iff _).1 hn) ((hsel _ _).1 g2)
    | false =>
      rw [if_neg (by decide)]
      have : (data {} fs).dget q = some (handler (shown w.env c x q)) := by
        refine (hex _ _).2 ⟨q, shown w.env c x q, (hmem _ _).2 ⟨hq, by rw [if_neg hns]⟩, (hsel _ _).2 ?_, ?_, rfl⟩
        · intro h; rw [← isNone_iff, hn] at h; cases h
        · rw [out_name rfl hc hq, if_neg hne]
      rw [this]; rfl

end Verif.Props
