import Verif.Props.AsEngine
import Verif.Props.Construct2

/-!
# What is kept of a document of the vocabulary (C87)
-/
namespace Verif.Props
open Verif Verif.Jsonld Verif.AS

variable {J : Type}

/-! ### Specification -/

/-- The properties that a loaded object never has, although its class has them. -/
def lostOf (c : String) : List String :=
  if c = "Collection" ∨ c = "CollectionPage" then ["items", "orderedItems", "unorderedItems"]
  else if c = "OrderedCollection" ∨ c = "OrderedCollectionPage" then ["items", "unorderedItems"]
  else if c = "Tombstone" then ["formerType"]
  else if c = "Mention" then ["id", "hreflang"]
  else []

/-- `x`, or 0 if it is None, 0 or empty. -/
def orZero (x : Val) : Val := if AS.truthy x then x else .int 0

/-- What a loaded object of class `c` has as property `q`, where `value` is the unpacked value of the document (None if it has none). -/
inductive KeptAs (w : World J) (c : String) (ctx : Tree) (value : String → Val) (q : String) : Val → Prop where
  | context (h : q = "acontext") : KeptAs w c ctx value q ctx.toVal
  | type (h : q = "type") : KeptAs w c ctx value q (.str (typeName c))
  | lost (h : q ∈ lostOf c) : KeptAs w c ctx value q .none
  | number (h : q = "totalItems" ∨ q = "startIndex") : KeptAs w c ctx value q (asLists (orZero (value q)))
  | kept (r : PropRow) (x : Val) (hr : r ∈ propTable) (hn : r.name = q) (hs : StoredFor w.env w.link r (value q) x)
      (h1 : q ∉ lostOf c) (h2 : q ∉ ["acontext", "type", "totalItems", "startIndex"]) : KeptAs w c ctx value q x

/-! ### Proofs -/

theorem dget_map_pair {β : Type} (l : List String) (f : String → β) {q : String} (h : q ∈ l) :
    (((l.map fun q => (q, f q)) : PyDict String β)).dget q = some (f q) := by
  induction l with
  | nil => cases h
  | cons a l ih =>
    simp only [List.map_cons, List.dget]
    by_cases ha : a = q
    · rw [if_pos ha, ha]
    · rw [if_neg ha]
      exact ih ((List.mem_cons.1 h).resolve_left fun h => ha h.symm)

theorem dget_map_pair_none {β : Type} (l : List String) (f : String → β) {q : String} (h : q ∉ l) :
    (((l.map fun q => (q, f q)) : PyDict String β)).dget q = none := by
  refine PyDict.dget_eq_none.2 ?_
  unfold List.dkeys
  rw [List.map_map]
  simpa using h

/-- The fields of an object. -/
theorem objVal_field (c : String) (s : Slots) (q : String) :
    ∃ fields, objVal c s = .obj c fields ∧ (q ∉ propNames c → fields.dget q = none) ∧
      ∀ v, q ∈ propNames c → (attrOf true c q).held s q = .ok v → fields.dget q = some v := by
  refine ⟨_, rfl, ?_, ?_⟩
  · intro hq
    refine PyDict.dget_eq_none.2 ?_
    intro hm
    obtain ⟨⟨a, b⟩, hab, rfl⟩ := List.mem_map.1 hm
    obtain ⟨n, hn, hv⟩ := List.mem_filterMap.1 hab
    split at hv
    · injection hv with hv; injection hv with hv _; rw [← hv] at hq; exact hq hn
    · cases hv
  · intro v
    generalize propNames c = l
    intro hq hv
    induction l with
    | nil => cases hq
    | cons a l ih =>
      rw [List.filterMap_cons]
      by_cases ha : a = q
      · subst ha; rw [hv]; simp [List.dget]
      · have := ih ((List.mem_cons.1 hq).resolve_left fun h => ha h.symm)
        cases hh : (attrOf true c a).held s a with
        | error e => exact this
        | ok y => simp only [List.dget, if_neg ha]; exact this

theorem objVal_fields (c : String) (s : Slots) : ∃ fields, objVal c s = .obj c fields ∧ ∀ q, (q ∉ propNames c → fields.dget q = none) ∧
      ∀ v, q ∈ propNames c → (attrOf true c q).held s q = .ok v → fields.dget q = some v := by
  refine ⟨_, rfl, fun q => ?_⟩
  obtain ⟨f, hf, h⟩ := objVal_field c s q
  injection hf with _ hf
  rw [hf]; exact h

/-- The arguments a class is called with. -/
def loadArgs (c : String) (ctx : Tree) (value : String → Val) : PyDict String Val :=
  (((propNames c).map fun q => (q, value q)) : PyDict String Val).dset "acontext" ctx.toVal

theorem argOf_load (c : String) (ctx : Tree) (value : String → Val) {q : String} (hq : q ∈ propNames c) (hne : q ≠ "acontext") :
    argOf (loadArgs c ctx value) q = value q := by
  unfold argOf loadArgs
  rw [PyDict.dget_dset, if_neg hne, dget_map_pair _ _ hq]; rfl

theorem argOf_context (c : String) (ctx : Tree) (value : String → Val) : argOf (loadArgs c ctx value) "acontext" = ctx.toVal := by
  unfold argOf loadArgs
  rw [PyDict.dget_dset, if_pos rfl]; rfl

/-- Every property is a parameter, except those that are lost. -/
theorem properties_classified : ∀ c ∈ pkgClasses, c ∉ ["Object", "Link"] → ∀ q ∈ propNames c, q ≠ "__namespace__" →
    q ∈ lostOf c ∨ q = "type" ∨ (q ∈ paramList c ∧ q ≠ "items" ∧ q ≠ "hreflang") := by decide +kernel

/-- The lost ones are never assigned, or only by `getattr`, or `hreflang`. -/
theorem lost_facts : ∀ c ∈ pkgClasses, ∀ q ∈ lostOf c, q ∈ propNames c ∧ isRow true c q (rowOf q) = true ∧ rowOf q ∈ propTable ∧
    (rowOf q).name = q ∧ (rowOf q).strict = false ∧ q.toList.head? ≠ some '_' ∧
    (q ≠ "hreflang" → ∀ a ∈ classAssigns c, a.attr = q → a.how = .keepOr) := by decide +kernel

theorem mem_asClasses : ∀ c ∈ pkgClasses, c ∈ asClasses := by decide +kernel

theorem kept_rows : ∀ c ∈ pkgClasses, ∀ q ∈ propNames c, q = "acontext" ∨ q = "__namespace__" ∨
    ((q = "type" ∧ c ∉ ["Object", "Link"]) ∨ isRow true c q (rowOf q) = true) := by decide +kernel

theorem context_plain : ∀ c ∈ pkgClasses, isPlain true c "acontext" = true := by decide +kernel

theorem hreflang_facts : (rowOf "hreflang").strict = false ∧ (∀ r ∈ propTable, r.write ≠ (rowOf "hreflang").read) ∧
    (rowOf "hreflang").read.toList.head? = some '_' := by decide +kernel

theorem startIndex_facts : ∀ c ∈ pkgClasses, "startIndex" ∈ propNames c → c = "OrderedCollectionPage" := by decide +kernel

theorem totalItems_facts : ∀ c ∈ pkgClasses, "totalItems" ∈ propNames c → c ∈ collections := by decide +kernel

theorem number_facts : (∀ c ∈ collections, isRow true c "totalItems" (rowOf "totalItems") = true) ∧
    isRow true "OrderedCollectionPage" "startIndex" (rowOf "startIndex") = true ∧ (rowOf "totalItems").expand = false ∧
    (rowOf "startIndex").fromStr = false ∧ (rowOf "startIndex").parse = false := by decide +kernel

/-- Nothing ever writes the attribute `hreflang` reads. -/
theorem hreflang_none (w : World J) {c : String} (hc : c ∈ asClasses) (kw : List (String × Val)) (s : Slots) (h : construct w true c kw = .ok s) :
    (rowOf "hreflang").stored s = .ok .none := by
  obtain ⟨h1, h2, h3⟩ := hreflang_facts
  have : s.dget (rowOf "hreflang").read = none := by
    refine runAll_inv (P := fun s => s.dget (rowOf "hreflang").read = none) ?_ rfl (construct_run h)
    intro a ha s1 s2 u hs1 hr
    obtain ⟨v, x, -, -, rfl⟩ := run_ok hr
    rw [PyDict.dget_dset, if_neg, hs1]
    unfold slotOf
    intro he
    cases hat : attrOf true c a.attr with
    | prop r => rw [hat] at he; exact h2 r (attrOf_prop hat).1 he.symm
    | const v => rw [hat] at he; simp only at he; exact assigns_public c hc a ha (he ▸ h3)
    | plain => rw [hat] at he; simp only at he; exact assigns_public c hc a ha (he ▸ h3)
  unfold PropRow.stored
  rw [this, h1]; rfl

/-- What a new object has under its names, whatever it was called with. -/
theorem held_given (w : World J) {c : String} (hc : c ∈ pkgClasses) (hno : c ∉ ["Object", "Link"]) (ctx : Tree) (value : String → Val)
    (kw : List (String × Val)) (hcon : argOf kw "acontext" = ctx.toVal) (hval : ∀ q ∈ propNames c, q ≠ "acontext" → argOf kw q = value q) (s : Slots)
    (h : construct w true c kw = .ok s) {q : String} (hq : q ∈ propNames c) (hns : q ≠ "__namespace__") :
    ∃ x, KeptAs w c ctx value q x ∧ (attrOf true c q).held s q = .ok x := by
  have hcc := mem_asClasses c hc
  by_cases hctx : q = "acontext"
  · subst hctx
    have hpl := isPlain_eq (context_plain c hc)
    refine ⟨_, .context rfl, ?_⟩
    rcases properties_classified c hc hno _ hq hns with hl | hl | ⟨hp, -⟩
    · exfalso
      have : ∀ c ∈ pkgClasses, "acontext" ∉ lostOf c := by decide +kernel
      exact this c hc hl
    · exact absurd hl (by decide)
    · have := arguments_kept_partial w true hcc _ s h hp (by decide) (by decide)
      unfold Holds at this
      rw [hpl] at this ⊢
      simp only [hcon] at this
      unfold Attr.held
      simp only
      rw [this]
  by_cases hlost : q ∈ lostOf c
  · obtain ⟨-, g1, g2, g3, g4, g5, g6⟩ := lost_facts c hc q hlost
    refine ⟨.none, .lost hlost, ?_⟩
    rw [isRow_eq g1]
    show (rowOf q).stored s = _
    by_cases hh : q = "hreflang"
    · subst hh; exact hreflang_none w hcc _ s h
    · refine stays_none w hcc g2 (isRow_eq g1) (by rw [g3]; exact hh) (g6 hh) g5 _ _ (fun a ha => ha) [] s ?_ (construct_run h)
      unfold PropRow.stored
      rw [show ([] : Slots).dget _ = none from rfl, g4]; rfl
  by_cases hty : q = "type"
  · subst hty
    refine ⟨_, .type rfl, ?_⟩
    have hconst : constOf true c "type" = some (typeName c) := (type_const c hcc).2 hno
    have hg := type_is_class w true hcc (fun _ => hno) _ s h
    unfold getAttr at hg
    unfold constOf at hconst
    split at hconst
    · rename_i s' heq
      rw [heq] at hg ⊢
      exact hg
    · cases hconst
  have hrow := isRow_eq (((kept_rows c hc q hq).resolve_left hctx).resolve_left hns |>.resolve_left fun h => hty h.1)
  obtain ⟨hr, hrn⟩ := attrOf_prop hrow
  obtain ⟨hp, hni, hnh⟩ := ((properties_classified c hc hno q hq hns).resolve_left hlost).resolve_left hty
  rw [hrow]
  by_cases ht : q = "totalItems"
  · subst ht
    refine ⟨_, .number (.inl rfl), ?_⟩
    have hg := packaged_total w (totalItems_facts c hc hq) _ s h
    rw [hval _ hq (by decide)] at hg
    unfold getAttr at hg
    rw [hrow] at hg
    have hg : ((rowOf "totalItems").get w.web s).1 = .ok (asLists (orZero (value "totalItems"))) := hg
    show (rowOf "totalItems").stored s = _
    unfold PropRow.get at hg
    rcases hst : (rowOf "totalItems").stored s with e | y
    · rw [hst] at hg; exact hg
    · rw [hst] at hg
      simp only [number_facts.2.2.1] at hg
      exact hg
  by_cases hsi : q = "startIndex"
  · subst hsi
    cases startIndex_facts c hc hq
    refine ⟨_, .number (.inr rfl), ?_⟩
    have hh := start_index w true _ s h
    rw [hval _ hq (by decide)] at hh
    unfold Holds at hh
    rw [hrow] at hh
    obtain ⟨x, hx, hst⟩ := hh
    show (rowOf "startIndex").stored s = _
    rw [hst]
    cases hx with
    | plain => rfl
    | link _ hf => rw [number_facts.2.2.2.1] at hf; cases hf
    | date _ hf => rw [number_facts.2.2.2.2] at hf; cases hf
  have hh := arguments_kept_partial w true hcc _ s h hp (by simp [hty, hni, ht, hsi]) (fun _ => hnh)
  rw [hval _ hq hctx] at hh
  unfold Holds at hh
  rw [hrow] at hh
  obtain ⟨x, hx, hst⟩ := hh
  exact ⟨x, .kept _ x hr hrn hx hlost (by simp [hctx, hty, ht, hsi]), hst⟩

/-- What a loaded object has under its names. -/
theorem held_after (w : World J) {c : String} (hc : c ∈ pkgClasses) (hno : c ∉ ["Object", "Link"]) (ctx : Tree) (value : String → Val) (s : Slots)
    (h : construct w true c (loadArgs c ctx value) = .ok s) {q : String} (hq : q ∈ propNames c) (hns : q ≠ "__namespace__") :
    ∃ x, KeptAs w c ctx value q x ∧ (attrOf true c q).held s q = .ok x :=
  held_given w hc hno ctx value _ (argOf_context c ctx value) (fun _ hq hne => argOf_load c ctx value hq hne) s h hq hns

/-- C87: loading a document of a type the engine knows gives an object of the class of that type, which has every property of the class,
with the unpacked value of the document, except the lost ones (which are None whatever the document says), `type` (the type name of the
class), and `totalItems` and `startIndex` (0 instead of None); and it has nothing else of the document. -/
theorem loaded_properties_partial (repr : Nat → String) (hrepr : ∀ i, (repr i).toList.head? = some '<') :
    ∃ p e, createPackage = .ok p ∧ createEngine repr = .ok e ∧ ∀ (w : World J) (expand : Tree → Outcome Expansion) (c : String) (row : ClassRow),
      c ∈ pkgClasses → classRow c = some row → c ≠ "Object" → c ≠ "Link" → ∀ kvs ts,
      expand (.obj (normalized kvs)) = .ok (.typed ((asNs ++ "#" ++ row.type) :: ts)) → ∀ v,
      (asEngine w expand (registryOf p e)).fromJson kvs = .ok v → ∃ (value : String → Val) (fields : List (String × Val)),
        v = .obj c fields ∧
        (∀ q ∈ propNames c, ∀ y, kvs.dget q = some y → Unpacks (asEngine w expand (registryOf p e)) (contextOf kvs) y (value q)) ∧
        (∀ q ∈ propNames c, kvs.dget q = none → value q = .none) ∧
        (∀ q ∈ propNames c, q ≠ "__namespace__" → ∃ x, KeptAs w c (contextOf kvs) value q x ∧ fields.dget q = some x) ∧
        ∀ q, q ∉ propNames c → fields.dget q = none := by
  obtain ⟨p, e, hp, he, h⟩ := known_types_loaded_partial (J := J) repr hrepr
  refine ⟨p, e, hp, he, fun w expand c row hc hrow h1 h2 kvs ts hx v hv => ?_⟩
  obtain ⟨value, g1, g2, s, hs, rfl⟩ := (h w expand c row hc hrow h1 h2 kvs ts hx v).1 hv
  obtain ⟨fields, hf, hfields⟩ := objVal_fields c s
  refine ⟨value, fields, hf, g1, g2, fun q hq hns => ?_, fun q hq => (hfields q).1 hq⟩
  obtain ⟨x, hk, hx⟩ := held_after w hc (by simp [h1, h2]) (contextOf kvs) value s hs hq hns
  exact ⟨x, hk, (hfields q).2 x hq hx⟩

/-- C87 is false of the code: whatever document of type Collection is loaded, its items are lost; and so are the other properties of
`lostOf`. -/
theorem loaded_items_lost (repr : Nat → String) (hrepr : ∀ i, (repr i).toList.head? = some '<') :
    ∃ p e, createPackage = .ok p ∧ createEngine repr = .ok e ∧ ∀ (w : World J) (expand : Tree → Outcome Expansion) (c : String) (row : ClassRow),
      c ∈ pkgClasses → classRow c = some row → ∀ kvs ts,
      expand (.obj (normalized kvs)) = .ok (.typed ((asNs ++ "#" ++ row.type) :: ts)) → ∀ v,
      (asEngine w expand (registryOf p e)).fromJson kvs = .ok v → ∀ q ∈ lostOf c, ∃ fields, v = .obj c fields ∧ fields.dget q = some .none := by
  obtain ⟨p, e, hp, he, h⟩ := loaded_properties_partial (J := J) repr hrepr
  refine ⟨p, e, hp, he, fun w expand c row hc hrow kvs ts hx v hv q hq => ?_⟩
  have hne : ∀ c ∈ pkgClasses, lostOf c ≠ [] → c ≠ "Object" ∧ c ≠ "Link" := by decide +kernel
  have hl : lostOf c ≠ [] := fun h => by rw [h] at hq; cases hq
  obtain ⟨h1, h2⟩ := hne c hc hl
  obtain ⟨value, fields, hf, -, -, hk, -⟩ := h w expand c row hc hrow h1 h2 kvs ts hx v hv
  have hfacts : ∀ c ∈ pkgClasses, ∀ q ∈ lostOf c, q ∈ propNames c ∧ q ≠ "__namespace__" ∧ q ≠ "acontext" ∧ q ≠ "type" ∧ q ≠ "totalItems" ∧ q ≠ "startIndex" := by
    decide +kernel
  obtain ⟨f1, f2, f3, f4, f5, f6⟩ := hfacts c hc q hq
  obtain ⟨x, hx', hd⟩ := hk q f1 f2
  refine ⟨fields, hf, ?_⟩
  cases hx' with
  | context h => exact absurd h f3
  | type h => exact absurd h f4
  | lost => exact hd
  | number h => rcases h with h | h
                · exact absurd h f5
                · exact absurd h f6
  | kept _ _ _ _ _ hnl => exact absurd hq hnl

/-- C87 is false of the code: `context` (the property of that name of the vocabulary, not `@context`) is never loaded, for any class. -/
theorem context_never_loaded : (∃ r ∈ propTable, r.name = "context") ∧ ∀ c ∈ pkgClasses, "context" ∉ propNames c := by decide +kernel

/-- Such documents are loaded: here a Collection with two items and a name, with all properties but the items. -/
example : ∃ p e fields, createPackage = .ok p ∧ createEngine (fun _ => "<property object at 0x7f>") = .ok e ∧
    (asEngine exWorld (fun _ => .ok (.typed [asNs ++ "#" ++ "Collection"])) (registryOf p e)).fromJson
      [("name", .str "two"), ("items", .arr [.str "http://x.org/1", .str "http://x.org/2"])] = .ok (.obj "Collection" fields) ∧
    fields.dget "name" = some (.str "two") ∧ fields.dget "items" = some .none := by
  obtain ⟨p, e, hp, he, h⟩ := known_types_loaded_partial (J := Nat) (fun _ => "<property object at 0x7f>")
    (fun _ => by show "<property object at 0x7f>".toList.head? = _; decide +kernel)
  have hrow : (classRow "Collection").map (·.type) = some "Collection" ∧ "Collection" ∈ pkgClasses := by decide +kernel
  obtain ⟨r1, m1⟩ := hrow
  obtain ⟨row, g1, e1⟩ := Option.map_eq_some_iff.1 r1
  have := h exWorld (fun _ => .ok (.typed [asNs ++ "#" ++ "Collection"])) "Collection" row m1 g1 (by decide) (by decide)
    [("name", .str "two"), ("items", .arr [.str "http://x.org/1", .str "http://x.org/2"])] [] (by rw [e1])
  let value : String → Val := fun q => if q = "name" then .str "two" else
    if q = "items" then .list [.str "http://x.org/1", .str "http://x.org/2"] else .none
  have hret : returned (construct exWorld true "Collection" (loadArgs "Collection" defaultContext value)) = true := by decide +kernel
  have hctx : contextOf [("name", .str "two"), ("items", .arr [.str "http://x.org/1", .str "http://x.org/2"])] = defaultContext := by rfl
  rcases hs : construct exWorld true "Collection" (loadArgs "Collection" defaultContext value) with x | s
  · rw [hs] at hret; cases hret
  obtain ⟨fields, hf, hfields⟩ := objVal_fields "Collection" s
  refine ⟨p, e, fields, hp, he, ?_, ?_, ?_⟩
  · refine (this _).2 ⟨value, ?_, ?_, s, ?_, hf.symm⟩
    · intro q hq y hy
      simp only [List.dget] at hy
      split_ifs at hy with h1 h2
      · cases hy; subst h1; exact .str _ _
      · cases hy; subst h2
        refine .arr _ _ _ rfl ?_
        intro i x v hx hv
        match i with
        | 0 => cases hx; cases hv; exact .str _ _
        | 1 => cases hx; cases hv; exact .str _ _
        | n + 2 => simp at hx
    · intro q _ hq
      simp only [List.dget] at hq
      split_ifs at hq with h1 h2
      show (if q = "name" then _ else if q = "items" then _ else _) = _
      rw [if_neg fun h => h1 h.symm, if_neg fun h => h2 h.symm]
    · rw [hctx]; exact hs
  · have hq : "name" ∈ propNames "Collection" := by decide +kernel
    obtain ⟨x, hx, hh⟩ := held_after exWorld m1 (by decide) defaultContext value s hs hq (by decide)
    rw [(hfields "name").2 x hq hh]
    cases hx with
    | context h => exact absurd h (by decide)
    | type h => exact absurd h (by decide)
    | lost h => exact absurd h (by decide +kernel)
    | number h => exact absurd h (by decide)
    | kept r x hr hn hs =>
      have hf : ∀ r ∈ propTable, r.name = "name" → r.fromStr = false ∧ r.parse = false := by decide +kernel
      obtain ⟨f1, f2⟩ := hf r hr hn
      cases hs with
      | plain => rfl
      | link _ hf => rw [f1] at hf; cases hf
      | date _ hf => rw [f2] at hf; cases hf
  · have hq : "items" ∈ propNames "Collection" := by decide +kernel
    obtain ⟨x, hx, hh⟩ := held_after exWorld m1 (by decide) defaultContext value s hs hq (by decide)
    rw [(hfields "items").2 x hq hh]
    cases hx with
    | context h => exact absurd h (by decide)
    | type h => exact absurd h (by decide)
    | lost h => rfl
    | number h => exact absurd h (by decide)
    | kept _ _ _ _ _ h => exact absurd (show "items" ∈ lostOf "Collection" by decide) h

end Verif.Props
