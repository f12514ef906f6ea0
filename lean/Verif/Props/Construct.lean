import Verif.Props.Model

/-!
# The special constructor arguments (C69, C80): `type`, `items`, `totalItems`, `startIndex`
-/
namespace Verif.Props
open Verif Verif.Jsonld Verif.AS

variable {J : Type}

/-! ### Specification -/

/-- The type name of a class, as it is written in models.py. -/
def typeName (cls : String) : String := match classRow cls with | some r => r.type | none => ""

/-- Number of items as Python's `len` counts them; 0 for values without length. -/
def ItemCount (items : Val) (n : Nat) : Prop :=
  (∃ xs, (items = .list xs ∨ items = .tuple xs ∨ items = .set xs) ∧ n = xs.length) ∨
  (∃ s, items = .str s ∧ n = s.length) ∨ (∃ kvs, items = .dict kvs ∧ n = kvs.length) ∨
  (items? items = none ∧ (∀ s, items ≠ .str s) ∧ (∀ kvs, items ≠ .dict kvs) ∧ n = 0)

theorem itemCount_sizeOf (v : Val) : ItemCount v (AS.sizeOf v) := by
  cases v with
  | list xs => exact .inl ⟨xs, .inl rfl, rfl⟩
  | tuple xs => exact .inl ⟨xs, .inr (.inl rfl), rfl⟩
  | set xs => exact .inl ⟨xs, .inr (.inr rfl), rfl⟩
  | str s => exact .inr (.inl ⟨s, rfl, rfl⟩)
  | dict kvs => exact .inr (.inr (.inl ⟨kvs, rfl, rfl⟩))
  | _ => exact .inr (.inr (.inr ⟨rfl, by simp, by simp, rfl⟩))

/-- The classes of collections. -/
def collections : List String := ["Collection", "OrderedCollection", "CollectionPage", "OrderedCollectionPage"]

/-! ### `type` -/

/-- The constant that a name has in the class, as a value that can be compared. -/
def constOf (packaged : Bool) (cls attr : String) : Option String :=
  match attrOf packaged cls attr with
  | .const (.str s) => some s
  | _ => none

theorem type_const : ∀ c ∈ asClasses, constOf false c "type" = some (typeName c) ∧
    (c ∉ ["Object", "Link"] → constOf true c "type" = some (typeName c)) := by decide +kernel

theorem type_assigns : ∀ c ∈ asClasses, ∀ a ∈ classAssigns c, a.attr = "type" → a.how = .keepOr := by decide +kernel

/-- C80: the argument `type` is ignored: every object has the type name of its class, except packaged objects of class Object and Link. -/
theorem type_is_class (w : World J) (packaged : Bool) {cls : String} (hc : cls ∈ asClasses) (hp : packaged = true → cls ∉ ["Object", "Link"])
    (kw : List (String × Val)) (s : Slots) (h : construct w packaged cls kw = .ok s) :
    getAttr w packaged cls s "type" = .ok (.str (typeName cls)) := by
  have hconst : attrOf packaged cls "type" = .const (.str (typeName cls)) := by
    have : constOf packaged cls "type" = some (typeName cls) := by
      cases packaged with
      | false => exact (type_const cls hc).1
      | true => exact (type_const cls hc).2 (hp rfl)
    unfold constOf at this
    split at this
    · rename_i s' heq; injection this with this; subst this; exact heq
    · cases this
  have hslot : slotOf packaged cls "type" = "type" := by unfold slotOf; rw [hconst]
  have inv : s.dget "type" = none ∨ s.dget "type" = some (.str (typeName cls)) := by
    refine runAll_inv (P := fun s => s.dget "type" = none ∨ s.dget "type" = some (.str (typeName cls))) ?_ (.inl rfl) (construct_run h)
    intro a ha s1 s2 u h1 hr
    obtain ⟨v, x, hv, hx, rfl⟩ := run_ok hr
    rw [PyDict.dget_dset]
    by_cases hat : a.attr = "type"
    · rw [hat, hslot, if_pos rfl]
      right
      unfold Assign.value at hv
      rw [type_assigns cls hc a ha hat, hat] at hv
      unfold storesAt at hx
      rw [hat, hconst] at hx
      injection hx with hx; subst hx
      simp only at hv
      unfold getAttrOr getAttr at hv
      rw [hconst] at hv
      unfold Attr.get at hv
      simp only at hv
      injection hv with hv
      subst hv
      rcases h1 with h1 | h1 <;> rw [h1] <;> rfl
    · rw [if_neg]
      · exact h1
      · intro he
        rw [← hslot] at he
        exact hat (slotOf_inj (by decide +kernel) (assigns_public cls hc a ha) he).symm
  unfold getAttr
  rw [hconst]
  unfold Attr.get
  simp only
  rcases inv with h1 | h1 <;> rw [h1] <;> rfl

/-! ### Properties that keep being None -/

/-- The name means the property with this row. -/
def isRow (packaged : Bool) (cls attr : String) (r : PropRow) : Bool :=
  match attrOf packaged cls attr with
  | .prop r' => decide (r' = r)
  | _ => false

theorem isRow_eq {packaged : Bool} {cls attr : String} {r : PropRow} (h : isRow packaged cls attr r = true) : attrOf packaged cls attr = .prop r := by
  unfold isRow at h
  split at h
  · rename_i r' heq; simp at h; subst h; exact heq
  · cases h

theorem expand_none (web : Web J) : web.expand .none = (.none, []) := by
  have ha : web.asks .none = false := by unfold Web.asks; rfl
  unfold Web.expand Web.get
  rw [ha]; rfl

theorem get_none {r : PropRow} {s : Slots} (web : Web J) (h : r.stored s = .ok .none) : r.get web s = (.ok .none, []) := by
  unfold PropRow.get
  rw [h]
  simp only [expand_none]
  split <;> rfl

theorem getAttr_none {w : World J} {cls attr : String} {r : PropRow} {s : Slots} (hrow : attrOf true cls attr = .prop r) (h : r.stored s = .ok .none) :
    getAttr w true cls s attr = .ok .none := by
  unfold getAttr
  rw [hrow]
  show (r.get w.web s).1 = _
  rw [get_none w.web h]

theorem stores_none {r : PropRow} (hr : r ∈ propTable) (env : Env) (mk : Ctor) {x : Val} (h : r.stores env mk .none = .ok x) : x = .none :=
  storedFor_atomic ⟨rfl, by simp, by simp⟩ (stores_spec (parse_rows r hr) h)

/-- A property that is only assigned by `self.x = getattr(self, 'x', x)` stays None. -/
theorem stays_none (w : World J) {cls attr : String} (hc : cls ∈ asClasses) {r : PropRow} (hr : r ∈ propTable) (hrow : attrOf true cls attr = .prop r)
    (hne : r.name ≠ "hreflang") (hk : ∀ a ∈ classAssigns cls, a.attr = attr → a.how = .keepOr)
    (hname : attr.toList.head? ≠ some '_')
    (kw : List (String × Val)) (l : List Assign) (hl : ∀ a ∈ l, a ∈ classAssigns cls) (s t : Slots) (h0 : r.stored s = .ok .none)
    (h : runAll w true cls kw l s = .ok t) : r.stored t = .ok .none := by
  refine runAll_inv (P := fun s => r.stored s = .ok .none) ?_ h0 h
  intro a ha s1 s2 u h1 hrn
  obtain ⟨v, x, hv, hx, rfl⟩ := run_ok hrn
  have hrw := slots_agree r hr hne
  have hslot : slotOf true cls attr = r.write := by unfold slotOf; rw [hrow]
  by_cases hat : a.attr = attr
  · have hv' : v = .none := by
      unfold Assign.value at hv
      rw [hk a (hl a ha) hat, hat] at hv
      simp only at hv
      unfold getAttrOr at hv
      rw [getAttr_none hrow h1] at hv
      injection hv with hv; exact hv.symm
    subst hv'
    unfold storesAt at hx
    rw [hat, hrow] at hx
    have := stores_none hr _ _ hx
    subst this
    unfold PropRow.stored
    rw [hat, hslot, hrw, PyDict.dget_dset, if_pos rfl]
  · unfold PropRow.stored at h1 ⊢
    rw [PyDict.dget_dset, if_neg]
    · exact h1
    · rw [hrw, ← hslot]
      intro he
      exact hat (slotOf_inj hname (assigns_public cls (by exact hc) a (hl a ha)) he).symm

/-- The rows of `type` and `items`. -/
theorem type_row : rowOf "type" ∈ propTable ∧ (∀ c ∈ ["Object", "Link"], isRow true c "type" (rowOf "type") = true) ∧
    (rowOf "type").name ≠ "hreflang" := by decide +kernel

theorem items_row : rowOf "items" ∈ propTable ∧ (∀ c ∈ collections, isRow true c "items" (rowOf "items") = true) ∧
    (rowOf "items").name ≠ "hreflang" := by decide +kernel

theorem items_assigns : ∀ c ∈ collections, c ∈ asClasses ∧ ∀ a ∈ classAssigns c, a.attr = "items" → a.how = .keepOr := by decide +kernel

/-- C80 is false for `type`: packaged objects of class Object and Link have no type, whatever argument is given. -/
theorem packaged_type_none (w : World J) {cls : String} (hc : cls ∈ ["Object", "Link"]) (kw : List (String × Val)) (s : Slots)
    (h : construct w true cls kw = .ok s) : getAttr w true cls s "type" = .ok .none := by
  obtain ⟨h1, h2, h3⟩ := type_row
  have hrow := isRow_eq (h2 cls hc)
  have hc' : cls ∈ asClasses := by
    have : ∀ c ∈ ["Object", "Link"], c ∈ asClasses := by decide +kernel
    exact this cls hc
  have hst := stays_none w hc' h1 hrow h3 (type_assigns cls hc') (by decide +kernel) kw (classAssigns cls) (fun a ha => ha) [] s
    (by rfl) (construct_run h)
  exact getAttr_none hrow hst

/-- C69, C80 are false for `items`: packaged collections lose their items. -/
theorem packaged_items_lost (w : World J) {cls : String} (hc : cls ∈ collections) (kw : List (String × Val)) (s : Slots)
    (h : construct w true cls kw = .ok s) : getAttr w true cls s "items" = .ok .none := by
  obtain ⟨h1, h2, h3⟩ := items_row
  have hrow := isRow_eq (h2 cls hc)
  obtain ⟨hc', hk⟩ := items_assigns cls hc
  have hst := stays_none w hc' h1 hrow h3 hk (by decide +kernel) kw (classAssigns cls) (fun a ha => ha) [] s
    (by rfl) (construct_run h)
  exact getAttr_none hrow hst

/-! ### `items` and `totalItems` of objects that are not packaged -/

/-- The name means nothing in the class. -/
def isPlain (packaged : Bool) (cls attr : String) : Bool := match attrOf packaged cls attr with | .plain => true | _ => false

theorem isPlain_eq {packaged : Bool} {cls attr : String} (h : isPlain packaged cls attr = true) : attrOf packaged cls attr = .plain := by
  unfold isPlain at h
  split at h
  · assumption
  · cases h

theorem plain_facts : ∀ c ∈ collections, isPlain false c "items" = true ∧ isPlain false c "totalItems" = true := by decide +kernel

theorem collection_assigns : ∀ c ∈ ["Collection", "OrderedCollection", "CollectionPage"],
    (∀ a ∈ classAssigns c, a.attr = "items" → a = ⟨"items", .keepOr, .param "items"⟩) ∧
    lastOf (classAssigns c) "items" = some ⟨"items", .keepOr, .param "items"⟩ := by decide +kernel

theorem page_assigns : (∀ a ∈ classAssigns "OrderedCollectionPage", a.attr = "items" → a = ⟨"items", .keepOr, .absent "items"⟩) ∧
    lastOf (classAssigns "OrderedCollectionPage") "items" = some ⟨"items", .keepOr, .absent "items"⟩ := by decide +kernel

theorem total_assigns : ∀ c ∈ collections, lastOf (classAssigns c) "totalItems" = some ⟨"totalItems", .total "items", .param "totalItems"⟩ := by
  decide +kernel

theorem plain_slot {packaged : Bool} {cls attr : String} (h : attrOf packaged cls attr = .plain) : slotOf packaged cls attr = attr := by
  unfold slotOf; rw [h]

theorem plain_stores {w : World J} {packaged : Bool} {cls attr : String} (h : attrOf packaged cls attr = .plain) (v : Val) :
    storesAt w packaged cls attr v = .ok v := by
  unfold storesAt; rw [h]

/-- An attribute that is only assigned by `self.x = getattr(self, 'x', v)`, always with the same `v`, is `v` once it is there. -/
theorem keepOr_inv (w : World J) {cls attr : String} (hc : cls ∈ asClasses) (hpl : attrOf false cls attr = .plain)
    (hname : attr.toList.head? ≠ some '_') (kw : List (String × Val)) (src : Src)
    (hk : ∀ a ∈ classAssigns cls, a.attr = attr → a = ⟨attr, .keepOr, src⟩) :
    ∀ a ∈ classAssigns cls, ∀ s s' u, (s.dget attr = none ∨ s.dget attr = some (src.value kw)) →
      a.run w false cls kw s = (.ok u, s') → (s'.dget attr = none ∨ s'.dget attr = some (src.value kw)) := by
  intro a ha s1 s2 u h1 hr
  obtain ⟨v, x, hv, hx, rfl⟩ := run_ok hr
  rw [PyDict.dget_dset]
  by_cases hat : a.attr = attr
  · rw [hat, plain_slot hpl, if_pos rfl]
    right
    rw [hat, plain_stores hpl] at hx
    injection hx with hx; subst hx
    rw [hk a ha hat] at hv
    unfold Assign.value at hv
    simp only at hv
    unfold getAttrOr getAttr at hv
    rw [hpl] at hv
    unfold Attr.get at hv
    simp only at hv
    rcases h1 with h1 | h1
    · rw [h1] at hv; simp only at hv; injection hv with hv; rw [← hv]
    · rw [h1] at hv; simp only at hv; injection hv with hv; rw [← hv]
  · rw [if_neg]
    · exact h1
    · intro he
      refine hat (slotOf_inj (packaged := false) (cls := cls) hname (assigns_public cls hc a ha) ?_).symm
      rw [plain_slot hpl]; exact he

/-- What a collection that is not packaged has as items: those it was given, or None for OrderedCollectionPages. -/
theorem items_source : ∀ c ∈ collections, ∃ src, (src = if c = "OrderedCollectionPage" then Src.absent "items" else .param "items") ∧
    (∀ a ∈ classAssigns c, a.attr = "items" → a = ⟨"items", .keepOr, src⟩) ∧ lastOf (classAssigns c) "items" = some ⟨"items", .keepOr, src⟩ := by
  intro c hc
  by_cases hp : c = "OrderedCollectionPage"
  · subst hp; exact ⟨_, rfl, page_assigns⟩
  · refine ⟨_, rfl, ?_⟩
    rw [if_neg hp]
    refine collection_assigns c ?_
    simp only [collections, List.mem_cons, List.not_mem_nil, or_false] at hc
    rcases hc with rfl | rfl | rfl | rfl
    · decide
    · decide
    · decide
    · exact absurd rfl hp

/-- C69, C80: a new collection that is not packaged has the items it was given (OrderedCollectionPages lose them), and `totalItems` is
the number given or, if that is None or 0, the number of items. -/
theorem unpackaged_collection (w : World J) {cls : String} (hc : cls ∈ collections) (kw : List (String × Val)) (s : Slots)
    (h : construct w false cls kw = .ok s) :
    ∃ items, items = (if cls = "OrderedCollectionPage" then Val.none else argOf kw "items") ∧
      getAttr w false cls s "items" = .ok items ∧
      (AS.truthy (argOf kw "totalItems") = true → getAttr w false cls s "totalItems" = .ok (argOf kw "totalItems")) ∧
      (AS.truthy (argOf kw "totalItems") = false → ∃ n : Nat, ItemCount items n ∧ getAttr w false cls s "totalItems" = .ok (.int n)) := by
  obtain ⟨hcc, -⟩ := items_assigns cls hc
  have hpi := isPlain_eq (plain_facts cls hc).1
  have hpt := isPlain_eq (plain_facts cls hc).2
  obtain ⟨src, hsrc, hk, hlast⟩ := items_source cls hc
  have hval : src.value kw = if cls = "OrderedCollectionPage" then Val.none else argOf kw "items" := by
    rw [hsrc]
    split_ifs
    · rfl
    · exact value_argOf kw "items"
  have inv := keepOr_inv w hcc hpi (by decide +kernel) kw src hk
  have hrun := construct_run h
  refine ⟨_, rfl, ?_⟩
  rw [← hval]
  have hgi : ∀ t : Slots, (t.dget "items" = none ∨ t.dget "items" = some (src.value kw)) → ∀ v, getAttr w false cls t "items" = .ok v → v = src.value kw := by
    intro t ht v hv
    unfold getAttr at hv
    rw [hpi] at hv
    unfold Attr.get at hv
    simp only at hv
    rcases ht with ht | ht <;> rw [ht] at hv
    · cases hv
    · injection hv with hv; exact hv.symm
  obtain ⟨s0, v, x, hP, hv, hx, hd⟩ := runAll_last inv (.inl rfl) (assigns_public cls hcc) hlast hrun
  rw [plain_stores hpi] at hx
  injection hx with hx; subst hx
  rw [plain_slot hpi] at hd
  have hfinal := runAll_inv (P := fun s => s.dget "items" = none ∨ s.dget "items" = some (src.value kw)) inv (.inl rfl) hrun
  have hget : getAttr w false cls s "items" = .ok (src.value kw) := by
    unfold getAttr
    rw [hpi]
    unfold Attr.get
    simp only
    rcases hfinal with hf | hf
    · rw [hf] at hd; cases hd
    · rw [hf]
  refine ⟨hget, ?_⟩
  obtain ⟨s1, v1, x1, hP1, hv1, hx1, hd1⟩ := runAll_last inv (.inl rfl) (assigns_public cls hcc) (total_assigns cls hc) hrun
  rw [plain_stores hpt] at hx1
  injection hx1 with hx1; subst hx1
  rw [plain_slot hpt] at hd1
  have htot : getAttr w false cls s "totalItems" = .ok v1 := by
    unfold getAttr
    rw [hpt]
    unfold Attr.get
    simp only [hd1]
  unfold Assign.value at hv1
  simp only [value_argOf] at hv1
  constructor
  · intro ht
    rw [if_pos ht] at hv1
    injection hv1 with hv1
    rw [htot, ← hv1]
  · intro ht
    rw [if_neg (by simp [ht])] at hv1
    rcases hg : getAttr w false cls s1 "items" with e | v2
    · rw [hg] at hv1; cases hv1
    · rw [hg] at hv1
      simp only at hv1
      injection hv1 with hv1
      have := hgi s1 hP1 v2 hg
      subst this
      exact ⟨_, itemCount_sizeOf _, by rw [htot, ← hv1]⟩

/-! ### Packaged objects -/

/-- Assigning a name changes the value of a property only if it is the name of the property. -/
theorem setAttr_stored (w : World J) (packaged : Bool) (cls : String) {r : PropRow} (hr : r ∈ propTable) (hne : r.name ≠ "hreflang") (s : Slots)
    (q : String) (hq : q.toList.head? ≠ some '_') (v : Val) :
    r.stored (setAttr w packaged cls s q v).2 = r.stored s ∨
    (q = r.name ∧ ∃ x, r.stores w.env w.link v = .ok x ∧ r.stored (setAttr w packaged cls s q v).2 = .ok x) := by
  rw [setAttr_eq]
  have hrw := slots_agree r hr hne
  unfold storesAt slotOf
  cases ha : attrOf packaged cls q with
  | prop r' =>
    obtain ⟨hr', hn'⟩ := attrOf_prop ha
    simp only
    rcases hs : r'.stores w.env w.link v with e | x
    · exact .inl rfl
    · by_cases he : r' = r
      · subst he
        refine .inr ⟨hn'.symm, x, hs, ?_⟩
        unfold PropRow.stored
        rw [PyDict.dget_dset, if_pos hrw]
      · left
        unfold PropRow.stored
        rw [PyDict.dget_dset, if_neg]
        exact fun h => he (slots_distinct r' hr' r hr h).symm
  | const c =>
    left
    unfold PropRow.stored
    simp only
    rw [PyDict.dget_dset, if_neg]
    exact fun h => hq (h ▸ (slots_private r hr).2)
  | plain =>
    left
    unfold PropRow.stored
    simp only
    rw [PyDict.dget_dset, if_neg]
    exact fun h => hq (h ▸ (slots_private r hr).2)

/-- Assignments from outside, one after the other; failed ones raise and are caught. -/
def assignAll (w : World J) (packaged : Bool) (cls : String) (hist : List (String × Val)) (s : Slots) : Slots :=
  hist.foldl (fun s p => (setAttr w packaged cls s p.1 p.2).2) s

/-- Something that holds for every value a property accepts holds for its value after any construction and any assignments (of names
without leading underscore). -/
theorem stored_inv (w : World J) {cls : String} (hc : cls ∈ asClasses) {r : PropRow} (hr : r ∈ propTable) (hne : r.name ≠ "hreflang")
    (hstrict : r.strict = false)
    {P : Val → Prop} (hnone : P .none) (hP : ∀ v x, r.stores w.env w.link v = .ok x → P x) (kw : List (String × Val)) (s : Slots)
    (h : construct w true cls kw = .ok s) (hist : List (String × Val)) (hh : ∀ p ∈ hist, p.1.toList.head? ≠ some '_') :
    ∃ v, r.stored (assignAll w true cls hist s) = .ok v ∧ P v := by
  have h0 : ∃ v, r.stored [] = .ok v ∧ P v := ⟨.none, by unfold PropRow.stored; rw [show ([] : Slots).dget r.read = none from rfl]; simp [hstrict], hnone⟩
  have h1 : ∃ v, r.stored s = .ok v ∧ P v := by
    refine runAll_inv (P := fun s => ∃ v, r.stored s = .ok v ∧ P v) ?_ h0 (construct_run h)
    intro a ha s1 s2 u hs1 hrun
    unfold Assign.run at hrun
    rcases hv : a.value w true cls kw s1 with e | v
    · rw [hv] at hrun; injection hrun with hrun _; cases hrun
    · rw [hv] at hrun
      simp only at hrun
      have := setAttr_stored w true cls hr hne s1 a.attr (assigns_public cls hc a ha) v
      rw [hrun] at this
      rcases this with h2 | ⟨-, x, hx, h2⟩
      · simp only at h2; rw [h2]; exact hs1
      · exact ⟨x, h2, hP v x hx⟩
  unfold assignAll
  clear h
  induction hist generalizing s with
  | nil => exact h1
  | cons p hist ih =>
    rw [List.foldl_cons]
    refine ih _ (fun q hq => hh q (List.mem_cons_of_mem _ hq)) ?_
    rcases setAttr_stored w true cls hr hne s p.1 (hh p (List.mem_cons_self ..)) p.2 with h2 | ⟨-, x, hx, h2⟩
    · rw [h2]; exact h1
    · exact ⟨x, h2, hP _ x hx⟩

/-- C69: the numbers that must not be negative (`totalItems`, `startIndex`, `height`, ...) never are, on any packaged object, after any
construction and any history of assignments. -/
theorem packaged_nonnegative (w : World J) {cls : String} (hc : cls ∈ asClasses) {r : PropRow} (hr : r ∈ propTable)
    (hn : Check.nonnegative ∈ r.additional) (kw : List (String × Val)) (s : Slots) (h : construct w true cls kw = .ok s)
    (hist : List (String × Val)) (hh : ∀ p ∈ hist, p.1.toList.head? ≠ some '_') (v : Val)
    (hv : r.stored (assignAll w true cls hist s) = .ok v) : NonNegative v := by
  have hfacts : ∀ r ∈ propTable, Check.nonnegative ∈ r.additional → r.name ≠ "hreflang" ∧ r.fromStr = false ∧ r.parse = false := by decide +kernel
  obtain ⟨h1, h2, h3⟩ := hfacts r hr hn
  have hP : ∀ v x, r.stores w.env w.link v = .ok x → NonNegative x := by
    intro v x hx
    have := stores_spec (parse_rows r hr) hx
    cases this with
    | plain _ _ ha => exact nonneg_accepted (List.mem_map.2 ⟨Check.nonnegative, hn, rfl⟩) ha
    | link _ hf => rw [h2] at hf; cases hf
    | date _ hf => rw [h3] at hf; cases hf
  by_cases hs : r.strict = false
  · obtain ⟨v', hv', hp⟩ := stored_inv w hc hr h1 hs (P := NonNegative) (.leaf _ rfl (by simp) (by simp)) hP kw s h hist hh
    rw [hv] at hv'; injection hv' with hv'; rw [hv']; exact hp
  · -- Height: missing is an error, so look at the attribute
    have key : ∀ s : Slots, (∀ v, r.stored s = .ok v → NonNegative v) → ∀ q v', q.toList.head? ≠ some '_' →
        ∀ x, r.stored (setAttr w true cls s q v').2 = .ok x → NonNegative x := by
      intro s0 hs0 q v' hq x hx
      rcases setAttr_stored w true cls hr h1 s0 q hq v' with h2 | ⟨-, y, hy, h2⟩
      · rw [h2] at hx; exact hs0 x hx
      · rw [h2] at hx; injection hx with hx; subst hx; exact hP _ _ hy
    have hbase : ∀ v, r.stored s = .ok v → NonNegative v := by
      refine runAll_inv (P := fun s => ∀ v, r.stored s = .ok v → NonNegative v) ?_ ?_ (construct_run h)
      · intro a ha s1 s2 u hs1 hrun
        unfold Assign.run at hrun
        rcases hval : a.value w true cls kw s1 with e | v0
        · rw [hval] at hrun; injection hrun with hrun _; cases hrun
        · rw [hval] at hrun
          simp only at hrun
          have := key s1 hs1 a.attr v0 (assigns_public cls hc a ha)
          rw [hrun] at this
          exact this
      · intro v0 h0
        unfold PropRow.stored at h0
        rw [show ([] : Slots).dget r.read = none from rfl] at h0
        simp [hs] at h0
    clear h
    unfold assignAll at hv
    induction hist generalizing s with
    | nil => exact hbase v hv
    | cons p hist ih =>
      rw [List.foldl_cons] at hv
      exact ih _ (fun q hq => hh q (List.mem_cons_of_mem _ hq)) hv (key s hbase p.1 p.2 (hh p (List.mem_cons_self ..)))

theorem nonnegative_rows : (propTable.filter fun r => r.additional.contains .nonnegative).map (·.name) =
    ["height", "radius", "startIndex", "totalItems", "width"] := by decide +kernel

theorem total_row : rowOf "totalItems" ∈ propTable ∧ (∀ c ∈ collections, isRow true c "totalItems" (rowOf "totalItems") = true) ∧
    (rowOf "totalItems").name ≠ "hreflang" ∧ (rowOf "totalItems").fromStr = false ∧ (rowOf "totalItems").parse = false := by decide +kernel

/-- C69: a new packaged collection has the `totalItems` it was given, or 0 (it has no items, see `packaged_items_lost`). -/
theorem packaged_total (w : World J) {cls : String} (hc : cls ∈ collections) (kw : List (String × Val)) (s : Slots)
    (h : construct w true cls kw = .ok s) :
    getAttr w true cls s "totalItems" = .ok (asLists (if AS.truthy (argOf kw "totalItems") then argOf kw "totalItems" else .int 0)) := by
  obtain ⟨hcc, hk⟩ := items_assigns cls hc
  obtain ⟨h1, h2, h3⟩ := items_row
  have hrow := isRow_eq (h2 cls hc)
  obtain ⟨t1, t2, t3, t4, t5⟩ := total_row
  have htrow := isRow_eq (t2 cls hc)
  obtain ⟨s0, v, x, hP, hv, hx, hd⟩ := runAll_last (P := fun s => (rowOf "items").stored s = .ok .none)
    (fun a ha s1 s2 u hs1 hr => stays_none w hcc h1 hrow h3 hk (by decide +kernel) kw [a] (by simpa using ha) s1 s2 hs1
      (by unfold runAll; rw [hr]; rfl)) (by rfl)
    (assigns_public cls hcc) (total_assigns cls hc) (construct_run h)
  have hv' : v = if AS.truthy (argOf kw "totalItems") then argOf kw "totalItems" else .int 0 := by
    unfold Assign.value at hv
    simp only [value_argOf] at hv
    split_ifs at hv ⊢ with ht
    · injection hv with hv; exact hv.symm
    · rw [getAttr_none hrow hP] at hv
      injection hv with hv; exact hv.symm
  rw [← hv']
  unfold storesAt at hx
  unfold slotOf at hd
  rw [htrow] at hx hd
  simp only at hx hd
  have hxs : x = asLists v := by
    have := stores_spec (parse_rows _ t1) hx
    cases this with
    | plain => rfl
    | link _ hf => rw [t4] at hf; cases hf
    | date _ hf => rw [t5] at hf; cases hf
  unfold getAttr
  rw [htrow]
  show ((rowOf "totalItems").get w.web s).1 = _
  have hst : (rowOf "totalItems").stored s = .ok (asLists v) := by
    unfold PropRow.stored
    rw [slots_agree _ t1 t3, hd, hxs]
  rw [(get_result w.web _ s _ hst).1 (by decide +kernel)]

/-- A collection that is not packaged takes any number: C69 is false for it. -/
theorem unpackaged_negative (w : World J) : ∃ s, construct w false "Collection" [("totalItems", .int (-1))] = .ok s ∧
    getAttr w false "Collection" s "totalItems" = .ok (.int (-1)) := ⟨_, rfl, rfl⟩

/-- C69 is false for later assignments: assigning items does not change `totalItems`. -/
theorem total_not_updated (w : World J) : ∃ s s', construct w false "Collection" [("items", .list [.int 1, .int 2])] = .ok s ∧
    setAttr w false "Collection" s "items" (.list []) = (.ok (), s') ∧
    getAttr w false "Collection" s "totalItems" = .ok (.int 2) ∧ getAttr w false "Collection" s' "totalItems" = .ok (.int 2) ∧
    getAttr w false "Collection" s' "items" = .ok (.list []) := ⟨_, _, rfl, rfl, rfl, rfl, rfl⟩

/-- C69 is false for a string as only item: its characters are counted. -/
theorem total_counts_characters (w : World J) : ∃ s, construct w false "Collection" [("items", .str "http://x.org")] = .ok s ∧
    getAttr w false "Collection" s "totalItems" = .ok (.int 12) := ⟨_, rfl, rfl⟩

end Verif.Props
