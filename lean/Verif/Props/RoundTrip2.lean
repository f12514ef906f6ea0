import Verif.Props.RoundTrip

/-!
# Writing an object and loading it again (C88): the theorem
-/
namespace Verif.Props
open Verif Verif.Jsonld Verif.AS

variable {J : Type}

/-- The classes of the vocabulary are registered under their types. -/
def KnowsTypes (reg : PyDict String String) : Prop :=
  ∀ c ∈ pkgClasses, c ≠ "Object" → c ≠ "Link" → reg.dget (asNs ++ "#" ++ typeName c) = some c

theorem as_no_context (w : World J) (expand : Tree → Outcome Expansion) (reg : PyDict String String) : NoContextProperty (asEngine w expand reg) := by
  intro cls hcon
  have : "@context" ∈ propNames cls := hcon
  have hr : ∀ row ∈ propTable, row.name ≠ "@context" := by decide +kernel
  simp only [propNames, List.mem_cons, List.mem_map] at this
  rcases this with h | h | ⟨row, hrow, hn⟩
  · exact absurd h (by decide)
  · exact absurd h (by decide)
  · obtain ⟨a, ha, hrow⟩ := List.mem_flatMap.1 hrow
    obtain ⟨q, -, hq⟩ := List.mem_filterMap.1 hrow
    exact hr row (List.mem_of_find?_eq_some hq) hn

theorem stores_leaf {env : Env} {mk : Ctor} {r : PropRow} {u v : Val} (hl : r.fromStr = true) (hp : r.parse = false) (hc : createLink env mk u = .ok v)
    (ha : Fits env r v) (ho : OnlyLists v) : r.stores env mk u = .ok v := by
  rw [stores_fits (v := v) (by unfold PropRow.convert; rw [hl]; exact hc) ha hp, onlyLists_asLists ho]

/-- Properties that take links parse no dates and show the addresses of links. -/
theorem link_rows : ∀ r ∈ propTable, r.fromStr = true → r.parse = false ∧ (r.json = .href ∨ r.json = .hrefDate) := by decide +kernel

theorem plain_rows : ∀ r ∈ propTable, r.fromStr = false → r.parse = false → r.json = .default ∨ r.json = .delta ∨ r.json = .date := by decide +kernel

theorem date_rows : ∀ r ∈ propTable, r.parse = true → r.json = .date := by decide +kernel

theorem link_form {r : PropRow} (hr : r ∈ propTable) (hl : r.fromStr = true) (env : Env) {v : Val} (hv : ∀ c x, v ≠ .other c x) :
    r.form env v = hrefOnly env v := by
  unfold PropRow.form
  rcases (link_rows r hr hl).2 with h | h <;> rw [h]
  have : dateForm env v = v := by
    cases v with
    | other c x => exact absurd rfl (hv c x)
    | _ => rfl
  simp only [this]

theorem hrefOnly_leaf (env : Env) {v : Val} (hv : items? v = none) : hrefOnly env v = hrefItem env v := by
  cases v with
  | list xs => cases hv
  | _ => rfl

/-- What is shown by induction: what is written of a value is loaded as that value. -/
def Returns (w : World J) (E : Engine) (ctx : Tree) : Option PropRow → Val → Prop
  | none, v => E.unpack ctx (toTree (handler (jsonView w.env v))) = .ok v
  | some r, v => r ∈ propTable →
      (v = .none ∨ ((jsonView w.env (r.form w.env v)).isNone = false ∧ ∃ u,
        E.unpack ctx (toTree (handler (jsonView w.env (r.form w.env v)))) = .ok u ∧ r.stores w.env w.link u = .ok v)) ∧
      (r.fromStr = true → items? v = none → v ≠ .none → Fits w.env r v ∧ (∀ c x, v ≠ .other c x) ∧ ∃ u,
        E.unpack ctx (toTree (handler (jsonView w.env (hrefItem w.env v)))) = .ok u ∧ createLink w.env w.link u = .ok v)

theorem returns_leaf {w : World J} {E : Engine} {ctx : Tree} {r : PropRow} {v u : Val} (hl : r.fromStr = true)
    (hi : items? v = none) (ho : ∀ c x, v ≠ .other c x) (hn : (jsonView w.env (hrefItem w.env v)).isNone = false) (ha : Fits w.env r v)
    (hu : E.unpack ctx (toTree (handler (jsonView w.env (hrefItem w.env v)))) = .ok u) (hc : createLink w.env w.link u = .ok v) :
    Returns w E ctx (some r) v := by
  intro hr
  refine ⟨.inr ?_, fun _ _ _ => ⟨ha, ho, u, hu, hc⟩⟩
  rw [link_form hr hl w.env ho, hrefOnly_leaf w.env hi]
  exact ⟨hn, u, hu, stores_leaf hl (link_rows r hr hl).1 hc ha (.leaf v hi)⟩

theorem ordinary_row {c : String} (hc : c ∈ pkgClasses) {q : String} (hq : Ordinary c q) : attrOf true c q = .prop (rowOf q) := by
  obtain ⟨h1, h2, h3⟩ := hq
  simp only [List.mem_cons, List.not_mem_nil, or_false, not_or] at h3
  obtain ⟨n1, n2, n3, -, -⟩ := h3
  exact isRow_eq (((kept_rows c hc q h1).resolve_left n1).resolve_left n2 |>.resolve_left fun h => n3 h.1)

/-- A document with what is written of an object is loaded as that object. -/
theorem loads_back (w : World J) (expand : Tree → Outcome Expansion) (reg : PyDict String String) (ctx : Tree) (hreg : KnowsTypes reg)
    (hrec : Recognises expand ctx) (htr : ctx.truthy = true) {c : String} (hc : c ∈ pkgClasses) (h1 : c ≠ "Object") (h2 : c ≠ "Link") (x : String → Val)
    (hctx : x "acontext" = ctx.toVal) (ht : x "type" = .str (typeName c)) (hl : ∀ q ∈ lostOf c, x q = .none)
    (hn : ∀ q ∈ propNames c, q = "totalItems" ∨ q = "startIndex" → ∃ n : Nat, x q = .int n)
    (ho : ∀ q, Ordinary c q → Returns w (asEngine w expand reg) ctx (some (rowOf q)) (x q)) (kvs : List (String × Tree))
    (k1 : kvs.dget "@context" = some ctx) (k2 : kvs.dget "acontext" = none) (k3 : kvs.dget "__namespace__" = none)
    (k4 : ∀ q ∈ propNames c, q ≠ "acontext" → q ≠ "__namespace__" → kvs.dget q = treeOf (shown w.env c x q)) :
    Loads (asEngine w expand reg) kvs (objectOf c x) := by
  have hno : c ∉ ["Object", "Link"] := by simp [h1, h2]
  have hE := as_no_context w expand reg
  have hnorm : normalized kvs = kvs := by
    unfold normalized
    rw [k1]
    show (if ctx.truthy = true then kvs else _) = kvs
    rw [if_pos htr]
  have hcon : contextOf kvs = ctx := by unfold contextOf; rw [k1]; rfl
  have htyp : "type" ∈ propNames c := by
    have : ∀ c ∈ pkgClasses, "type" ∈ propNames c := by decide +kernel
    exact this c hc
  have htree : ∀ v, v.isNone = false → treeOf v = some (toTree (handler v)) := fun v hv => by unfold treeOf; rw [hv]; rfl
  have hst : shown w.env c x "type" = .str (typeName c) := by
    unfold shown fieldForm
    rw [type_attr hc hno, ht]; rfl
  have hktype : kvs.dget "type" = some (.str (typeName c)) := by
    rw [k4 _ htyp (by decide) (by decide), hst, htree _ rfl]
    rfl
  obtain ⟨ts, hx⟩ := hrec c hc kvs k1 hktype
  -- the unpacked values
  have hval : ∀ q ∈ propNames c, ∃ u, (∀ y, kvs.dget q = some y → Unpacks (asEngine w expand reg) ctx y u) ∧ (kvs.dget q = none → u = .none) ∧
      (Ordinary c q → (rowOf q).stores w.env w.link u = .ok (x q)) ∧ (q ∈ lostOf c → u = .none) ∧
      (q = "totalItems" ∨ q = "startIndex" → u = x q) := by
    intro q hq
    by_cases ha : q = "acontext"
    · subst ha
      refine ⟨.none, fun y hy => (by rw [k2] at hy; cases hy), fun _ => rfl, fun h => ?_, fun _ => rfl, fun h => ?_⟩
      · exact absurd h.2.2 (by decide)
      · exact absurd h (by decide)
    by_cases hns : q = "__namespace__"
    · subst hns
      refine ⟨.none, fun y hy => (by rw [k3] at hy; cases hy), fun _ => rfl, fun h => ?_, fun _ => rfl, fun h => ?_⟩
      · exact absurd h.2.2 (by decide)
      · exact absurd h (by decide)
    have hk := k4 q hq ha hns
    by_cases hlo : q ∈ lostOf c
    · have hrow := isRow_eq (lost_facts c hc q hlo).2.1
      have hsh : shown w.env c x q = .none := by
        unfold shown fieldForm
        rw [hrow, hl q hlo]
        show (rowOf q).form w.env .none = .none
        unfold PropRow.form
        cases (rowOf q).json <;> rfl
      rw [hsh] at hk
      have hk : kvs.dget q = none := hk
      refine ⟨.none, fun y hy => (by rw [hk] at hy; cases hy), fun _ => rfl, fun h => absurd hlo h.2.1, fun _ => rfl, fun h => (hl q hlo).symm⟩
    by_cases hnum : q = "totalItems" ∨ q = "startIndex"
    · obtain ⟨n, hxn⟩ := hn q hq hnum
      have hsh : shown w.env c x q = .int n := by
        unfold shown fieldForm
        rw [hxn]
        cases hat : attrOf true c q with
        | prop r =>
          obtain ⟨r1, r2⟩ := attrOf_prop hat
          have : ∀ r ∈ propTable, r.name = "totalItems" ∨ r.name = "startIndex" → r.json = .default := by decide +kernel
          show r.form w.env _ = _
          unfold PropRow.form
          rw [this r r1 (by rw [r2]; exact hnum)]; rfl
        | const _ => rfl
        | plain => rfl
      rw [hsh, htree _ rfl] at hk
      refine ⟨.int n, fun y hy => ?_, fun h => (by rw [hk] at h; cases h), fun h => ?_, fun h => absurd h hlo, fun _ => hxn.symm⟩
      · rw [hk] at hy; injection hy with hy; subst hy
        exact .int _ _
      · have := h.2.2
        rcases hnum with rfl | rfl <;> exact absurd (by decide) this
    by_cases hty : q = "type"
    · subst hty
      refine ⟨.str (typeName c), fun y hy => ?_, fun h => (by rw [hktype] at h; cases h), fun h => absurd h.2.2 (by decide), fun h => absurd h hlo, fun h => ht.symm⟩
      rw [hktype] at hy; injection hy with hy; subst hy
      exact .str _ _
    have hor : Ordinary c q := ⟨hq, hlo, by simp only [List.mem_cons, List.not_mem_nil, or_false, not_or]; exact ⟨ha, hns, hty, not_or.1 hnum⟩⟩
    have hrow := ordinary_row hc hor
    have hsh : shown w.env c x q = jsonView w.env ((rowOf q).form w.env (x q)) := by
      unfold shown fieldForm
      rw [hrow]
      exact view_form _ _ _
    rcases ((ho q hor) (attrOf_prop hrow).1).1 with hv | ⟨hv, u, hu, hs⟩
    · have : treeOf (shown w.env c x q) = none := by
        rw [hsh, hv]
        have : jsonView w.env ((rowOf q).form w.env .none) = .none := by
          unfold PropRow.form
          cases (rowOf q).json <;> rfl
        rw [this]; rfl
      rw [this] at hk
      refine ⟨.none, fun y hy => (by rw [hk] at hy; cases hy), fun _ => rfl, fun _ => ?_, fun h => rfl, fun h => absurd h hnum⟩
      rw [hv]; exact stores_none_ok _ _ _
    · rw [hsh, htree _ hv] at hk
      refine ⟨u, fun y hy => ?_, fun h => (by rw [hk] at h; cases h), fun _ => hs, fun h => absurd h hlo, fun h => absurd h hnum⟩
      rw [hk] at hy; injection hy with hy; subst hy
      exact (unpack_iff hE _ _ _).1 hu
  have : Nonempty Val := ⟨.none⟩
  choose! value hval using hval
  obtain ⟨s, hs, hobj⟩ := construct_back w hc hno ctx value x hctx ht (fun q hq => ⟨hl q hq, (hval q (lost_facts c hc q hq).1).2.2.2.1 hq⟩)
    (fun q hq h => by
      obtain ⟨n, hxn⟩ := hn q hq h
      exact ⟨n, hxn, by rw [(hval q hq).2.2.2.2 h, hxn]⟩) (fun q hq => (hval q hq.1).2.2.1 hq)
  refine .mk kvs _ (asNs ++ "#" ++ typeName c) c value _ (by rw [hnorm]; exact hx) (.typed _ ts) (.inl (hreg c hc h1 h2)) ?_ ?_ ?_
  · intro q hq y hy
    rw [hcon]
    exact (hval q hq).1 y hy
  · intro q hq hd
    exact (hval q hq).2.1 hd
  · rw [hcon]
    show (match construct w true c (loadArgs c ctx value) with | .error e => (.error e : Outcome Val) | .ok s => .ok (objVal c s)) = _
    rw [hs]
    simp only
    rw [hobj]

theorem comes_back_returns (w : World J) (expand : Tree → Outcome Expansion) (reg : PyDict String String) (ctx : Tree) (hreg : KnowsTypes reg)
    (hrec : Recognises expand ctx) (htr : ctx.truthy = true) {o : Option PropRow} {v : Val} (h : ComesBack w ctx o v) :
    Returns w (asEngine w expand reg) ctx o v := by
  induction h with
  | none r => exact fun _ => ⟨.inl rfl, fun _ _ h => absurd rfl h⟩
  | flat r v hl hp hf ha =>
    intro hr
    refine ⟨.inr ?_, fun h => by rw [hl] at h; cases h⟩
    have hform : r.form w.env v = v := by
      unfold PropRow.form
      rcases plain_rows r hr hl hp with h | h | h <;> rw [h]
      · cases hf <;> rfl
      · cases hf <;> rfl
    rw [hform, flat_view w.env hf, handler_plain v (flat_json hf)]
    refine ⟨?_, v, flat_unpack _ ctx hf, ?_⟩
    · cases hf <;> rfl
    · rw [stores_fits (v := v) (by unfold PropRow.convert; rw [hl]; rfl) ha hp, onlyLists_asLists (flat_onlyLists hf)]
  | date r t hp hm ht hv hy hs hz =>
    intro hr
    refine ⟨.inr ?_, fun h => by rw [(parse_rows r hr hp).1] at h; cases h⟩
    have hform : r.form w.env (.other "datetime" (w.env.dateRepr t)) = .str (String.ofList (datetimeStr t)) := by
      unfold PropRow.form
      rw [date_rows r hr hp]
      simp only
      unfold dateForm
      simp only
      rw [if_pos, ht]
      unfold isDate Val.isinstance
      rw [List.any_eq_true]
      exact ⟨"datetime", hm, by simp⟩
    rw [hform]
    refine ⟨rfl, .str (String.ofList (datetimeStr t)), ?_, stores_date hr hp hv hy hs hz⟩
    exact flat_unpack _ ctx (.str _)
  | text r s hl hs ha =>
    have hh : hrefItem w.env (.str s) = .str s := by unfold hrefItem; rw [if_neg]; simp [isLink]
    refine returns_leaf (u := .str s) hl rfl (by simp) (by rw [hh]; rfl) ha ?_ ?_
    · rw [hh]; exact flat_unpack _ ctx (.str _)
    · rw [createLink, hs]
  | link r s c fs hl hs hm hi hh ha =>
    have hh : hrefItem w.env (.obj c fs) = .str s := by unfold hrefItem; rw [if_pos hi, hh]
    refine returns_leaf (u := .str s) hl rfl (by simp) (by rw [hh]; rfl) ha ?_ ?_
    · rw [hh]; exact flat_unpack _ ctx (.str _)
    · rw [createLink, hs]; exact hm
  | nested r c fs hl hi _ ha ih =>
    have hh : hrefItem w.env (.obj c fs) = .obj c fs := by unfold hrefItem; rw [if_neg]; simp [hi]
    refine returns_leaf (u := .obj c fs) hl rfl (by simp) (by rw [hh, jsonView]; rfl) ha ?_ ?_
    · rw [hh]; exact ih
    · rw [createLink] <;> simp
  | items r xs hl hf hn hx ih =>
    intro hr
    have hfits : Fits w.env r (.list xs) :=
      .items _ xs rfl ⟨"list", by simp [Val.classes], .inr ⟨hf, rfl⟩⟩ fun x hx => ((ih x hx hr).2 hl (hn x hx).2 (hn x hx).1).1
    refine ⟨.inr ?_, fun _ h => by cases h⟩
    rw [link_form hr hl w.env (by simp)]
    have hus : ∀ x ∈ xs, ∃ u, (asEngine w expand reg).unpack ctx (toTree (handler (jsonView w.env (hrefItem w.env x)))) = .ok u ∧
        createLink w.env w.link u = .ok x := fun x hx => ((ih x hx hr).2 hl (hn x hx).2 (hn x hx).1).2.2
    have : Nonempty Val := ⟨.none⟩
    choose! u hu hcl using hus
    refine ⟨rfl, .list (xs.map u), ?_, ?_⟩
    · show (asEngine w expand reg).unpack ctx (toTree (handler (jsonView w.env (.list (xs.map (hrefItem w.env)))))) = _
      rw [jsonView, handler, toTree, jsonViews_map, handlerAll_map, toTrees_map]
      refine unpack_list _ ctx _ _ ?_
      simp only [List.map_map]
      exact List.map_congr_left fun x hx => hu x hx
    · refine stores_leaf hl (link_rows r hr hl).1 ?_ hfits (.list xs fun x hx => .leaf x (hn x hx).2)
      rw [createLink]
      have : createLinks w.env w.link (xs.map u) = .ok xs := by
        clear * - hcl
        induction xs with
        | nil => rw [List.map_nil, createLinks]
        | cons x xs ih =>
          rw [List.map_cons, createLinks, hcl x (List.mem_cons_self ..)]
          simp only
          rw [ih fun y hy => hcl y (List.mem_cons_of_mem _ hy)]
      rw [this]
  | object c x hc h1 h2 hctx ht hl hn _ ih =>
    show (asEngine w expand reg).unpack ctx (toTree (handler (jsonView w.env (objectOf c x)))) = .ok (objectOf c x)
    obtain ⟨kvs, hk, k1, k2, k3, k4⟩ := nested_tree w.env hc x
    rw [hk, unpack_iff (as_no_context w expand reg)]
    have hd : ∀ q, q ≠ "@context" → (withContext ctx kvs).dget q = kvs.dget q := fun q hq => dget_withContext ctx kvs hq
    have hc1 : (withContext ctx kvs).dget "@context" = some ctx := by
      unfold withContext
      rw [k1]; rfl
    have htyp : "type" ∈ propNames c := by
      have : ∀ c ∈ pkgClasses, "type" ∈ propNames c := by decide +kernel
      exact this c hc
    have hktype : kvs.dget "type" = some (.str (typeName c)) := by
      have hst : shown w.env c x "type" = .str (typeName c) := by
        unfold shown fieldForm
        rw [type_attr hc (by simp [h1, h2]), ht]; rfl
      rw [k4 _ htyp (by decide) (by decide), hst]
      rfl
    obtain ⟨ts, hx⟩ := hrec c hc (withContext ctx kvs) hc1 (by rw [hd _ (by decide)]; exact hktype)
    refine .typed ctx kvs _ _ ts c hx (.inl (hreg c hc h1 h2)) ?_
    refine loads_back w expand reg ctx hreg hrec htr hc h1 h2 x hctx ht hl hn ih _ hc1 ?_ ?_ ?_
    · rw [hd _ (by decide)]; exact k2
    · rw [hd _ (by decide)]; exact k3
    · intro q hq g1 g2
      rw [hd q (by rintro rfl; exact no_at_context c hc hq)]
      exact k4 q hq g1 g2

theorem objVal_objectOf {c c' : String} {s : Slots} {x : String → Val} (h : objVal c s = objectOf c' x) (hnd : (propNames c').Nodup) :
    c = c' ∧ ∀ q ∈ propNames c', q ≠ "__namespace__" → (attrOf true c' q).held s q = .ok (x q) := by
  unfold objVal objectOf at h
  injection h with h1 h2
  subst h1
  refine ⟨rfl, fun q hq hns => ?_⟩
  have hm : (q, x q) ∈ (((propNames c).filter fun q => q != "__namespace__").map fun q => (q, x q) : List (String × Val)) :=
    List.mem_map.2 ⟨q, List.mem_filter.2 ⟨hq, by simpa using hns⟩, rfl⟩
  rw [← h2] at hm
  obtain ⟨n, hn, hv⟩ := List.mem_filterMap.1 hm
  split at hv
  · rename_i v heq
    injection hv with hv; injection hv with e1 e2
    rw [← e1]; rw [← e1] at e2; rw [heq, e2]
  · cases hv

theorem toTree_toVal (t : Tree) : toTree t.toVal = t := by
  have key : ∀ t : Tree, toTree t.toVal = t := by
    refine fun t => Tree.rec (motive_1 := fun t => toTree t.toVal = t) (motive_2 := fun xs => toTrees (toVals xs) = xs)
      (motive_3 := fun kvs => toTreePairs (toPairs kvs) = kvs) (motive_4 := fun p => toTree p.2.toVal = p.2)
      ?_ ?_ ?_ ?_ ?_ ?_ ?_ ?_ ?_ ?_ ?_ ?_ t
    · rfl
    · intro b; rfl
    · intro i; rfl
    · intro n r; rfl
    · intro s; rfl
    · intro xs ih; rw [Tree.toVal, toTree, ih]
    · intro kvs ih; rw [Tree.toVal, toTree, ih]
    · rfl
    · intro x xs h1 h2; rw [toVals, toTrees, h1, h2]
    · rfl
    · rintro ⟨k, x⟩ kvs h1 h2; rw [toPairs, toTreePairs, h2]; simp only at h1; rw [h1]
    · intro k x h; exact h
  exact key t

/-- C88: an object whose values come back (`ComesBack`) is written by `data()` without error, and loading what was written gives an object
that is equal: of the same class, with the same value for every property. -/
theorem round_trip_partial (repr : Nat → String) (hrepr : ∀ i, (repr i).toList.head? = some '<') :
    ∃ p e, createPackage = .ok p ∧ createEngine repr = .ok e ∧ ∀ (w : World J) (expand : Tree → Outcome Expansion) (ctx : Tree),
      Plain ctx.toVal → ctx.truthy = true → Recognises expand ctx → ∀ c s, ComesBack w ctx none (objVal c s) →
      ∃ d, output w c s = .ok d ∧ (asEngine w expand (registryOf p e)).fromJson (toTreeFields d) = .ok (objVal c s) := by
  obtain ⟨p, e, hp, he, -, hcls⟩ := engine_classes repr hrepr
  refine ⟨p, e, hp, he, fun w expand ctx hplain htr hrec c s h => ?_⟩
  have hreg : KnowsTypes (registryOf p e) := by
    intro c hc h1 h2
    have : ∀ c ∈ pkgClasses, (classRow c).isSome = true := by decide +kernel
    obtain ⟨row, hrow⟩ := Option.isSome_iff_exists.1 (this c hc)
    have := hcls c hc row hrow
    rw [if_neg (not_or.2 ⟨h1, h2⟩)] at this
    rw [← this]
    unfold typeName
    rw [hrow]
  generalize hv : objVal c s = v at h
  cases h with
  | object c' x hc h1 h2 hctx ht hl hn ho =>
    obtain ⟨rfl, hheld⟩ := objVal_objectOf hv (names_nodup _ hc)
    obtain ⟨d, hd, d1, d2, d3, d4⟩ := output_tree w hc s x ctx hplain hctx hheld
    refine ⟨d, hd, ?_⟩
    rw [from_json_builds (as_no_context w expand _)]
    refine loads_back w expand _ ctx hreg hrec htr hc h1 h2 x hctx ht hl hn
      (fun q hq => comes_back_returns w expand _ ctx hreg hrec htr (ho q hq)) _ ?_ ?_ ?_ d4
    · rw [dget_toTreeFields, d1, Option.map_some, toTree_toVal ctx]
    · rw [dget_toTreeFields, d2]; rfl
    · rw [dget_toTreeFields, d3]; rfl

end Verif.Props
