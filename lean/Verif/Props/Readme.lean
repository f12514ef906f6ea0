import Verif.Props.Walk
import Verif.Props.Ranges

/-!
# C138: the walk of the README, from the documents to the date
-/
namespace Verif.Props.Readme
open Verif Verif.Jsonld Verif.AS Verif.Props Verif.Spec Verif.Props.Reads Verif.Props.Walk

variable {J : Type}

theorem no_context (w : World J) (expand : Tree → Outcome Expansion) (reg : PyDict String String) : NoContextProperty (asEngine w expand reg) := by
  intro cls hcon
  have : "@context" ∈ propNames cls := hcon
  have hr : ∀ row ∈ propTable, row.name ≠ "@context" := by decide +kernel
  simp only [propNames, List.mem_cons, List.mem_map] at this
  rcases this with h | h | ⟨row, hrow, hn⟩
  · exact absurd h (by decide)
  · exact absurd h (by decide)
  · obtain ⟨a, ha, hrow⟩ := List.mem_flatMap.1 hrow
    obtain ⟨q, -, hq⟩ := List.mem_filterMap.1 hrow
    exact hr row (List.mem_of_find?_eq_some hq) hn

theorem row_unique : ∀ r ∈ propTable, rowOf r.name = r := by decide +kernel

/-- The properties that an object of a class gets from its document. -/
def Kept (c q : String) : Prop := q ∈ propNames c ∧ q ∉ lostOf c ∧ q ∉ ["acontext", "__namespace__", "type", "totalItems", "startIndex"]

instance (c q : String) : Decidable (Kept c q) := by unfold Kept; infer_instance

/-- What the object of a document has under such a name. -/
theorem doc_field (w : World J) (expand : Tree → Outcome Expansion) (reg : PyDict String String) {c : String} (hc : c ∈ pkgClasses)
    (hno : c ∉ ["Object", "Link"]) {kvs : List (String × Tree)} {t : String} {ts : List String} (hreg : reg.dget t = some c)
    (hx : expand (.obj (normalized kvs)) = .ok (.typed (t :: ts))) {v : Val} (hv : (asEngine w expand reg).fromJson kvs = .ok v) :
    ∃ fields, v = .obj c fields ∧ ∀ q, Kept c q → ∀ y, kvs.dget q = some y →
      ∃ val x, Unpacks (asEngine w expand reg) (contextOf kvs) y val ∧ StoredFor w.env w.link (rowOf q) val x ∧ fields.dget q = some x := by
  obtain ⟨_, x, t', cls, value, _, hx', ht, hcl, hs, hn, hcon⟩ := (from_json_builds (no_context w expand reg) kvs v).1 hv
  have : (asEngine w expand reg).expand (.obj (normalized kvs)) = .ok (.typed (t :: ts)) := hx
  rw [this] at hx'
  cases Except.ok.inj hx'
  cases ht
  have hcls : cls = c := by
    rcases hcl with hcl | ⟨hcl, -⟩
    · have : reg.dget t = some cls := hcl
      rw [hreg] at this
      exact (Option.some.inj this).symm
    · have : reg.dget t = none := hcl
      rw [hreg] at this; cases this
  subst hcls
  have hcon : (match construct w true cls (loadArgs cls (contextOf kvs) value) with
      | .error e => (.error e : Outcome Val)
      | .ok s => .ok (objVal cls s)) = .ok v := hcon
  cases hs' : construct w true cls (loadArgs cls (contextOf kvs) value) with
  | error e => rw [hs'] at hcon; cases hcon
  | ok s =>
    rw [hs'] at hcon
    obtain ⟨fields, hf, hfields⟩ := objVal_fields cls s
    refine ⟨fields, (Except.ok.inj hcon).symm.trans hf, ?_⟩
    rintro q ⟨hq, hl, hsp⟩ y hy
    simp only [List.mem_cons, List.not_mem_nil, or_false, not_or] at hsp
    obtain ⟨x, hk, hh⟩ := held_after w hc hno (contextOf kvs) value s hs' hq hsp.2.1
    refine ⟨value q, x, hs q hq y hy, ?_, (hfields q).2 x hq hh⟩
    cases hk with
    | context h => exact absurd h hsp.1
    | type h => exact absurd h hsp.2.2.1
    | lost h => exact absurd h hl
    | number h => rcases h with h | h
                  · exact absurd h hsp.2.2.2.1
                  · exact absurd h hsp.2.2.2.2
    | kept r _ hr hn' hst =>
      subst hn'
      rw [row_unique r hr]
      exact hst

section
variable {w : World J} {expand : Tree → Outcome Expansion} {reg : PyDict String String}

theorem unpack_str {ctx : Tree} {s : String} {val : Val} (h : Unpacks (asEngine w expand reg) ctx (.str s) val) : val = .str s := by
  cases h; rfl

theorem unpack_arr {ctx : Tree} {xs : List Tree} {val : Val} (h : Unpacks (asEngine w expand reg) ctx (.arr xs) val) :
    ∃ vs, val = .list vs ∧ ∀ (i : Nat) (x : Tree), xs[i]? = some x → ∃ v, vs[i]? = some v ∧ Unpacks (asEngine w expand reg) ctx x v := by
  cases h with
  | arr _ _ vs hlen h =>
    refine ⟨vs, rfl, fun i x hx => ?_⟩
    have hi : i < vs.length := by rw [hlen]; exact (List.getElem?_eq_some_iff.1 hx).1
    exact ⟨vs[i], List.getElem?_eq_getElem hi, h i x _ hx (List.getElem?_eq_getElem hi)⟩

theorem unpack_typed {ctx : Tree} {kvs : List (String × Tree)} {val : Val} {t c : String} {ts : List String}
    (hx : expand (.obj (withContext ctx kvs)) = .ok (.typed (t :: ts))) (hreg : reg.dget t = some c)
    (h : Unpacks (asEngine w expand reg) ctx (.obj kvs) val) : (asEngine w expand reg).fromJson (withContext ctx kvs) = .ok val := by
  have hx : (asEngine w expand reg).expand (.obj (withContext ctx kvs)) = .ok (.typed (t :: ts)) := hx
  cases h with
  | plain _ _ d x hx' ht _ _ => rw [hx] at hx'; exact absurd (Except.ok.inj hx').symm (ht _)
  | unknown _ _ t' ts' hx' hno =>
    rw [hx] at hx'
    cases Except.ok.inj hx'
    have : reg.dget t = none := hno.1
    rw [hreg] at this; cases this
  | typed _ _ _ _ _ _ _ _ h => exact (from_json_builds (no_context w expand reg) _ _).2 h

end

/-- An object that a property with Links is given stays as it is. -/
theorem stored_obj {env : Env} {mk : Ctor} {r : PropRow} (hf : r.fromStr = true) {c : String} {fs : List (String × Val)} {x : Val} (hp : r.parse = false)
    (h : StoredFor env mk r (.obj c fs) x) : x = .obj c fs := by
  cases h with
  | plain h => rw [hf] at h; cases h
  | link u _ hl => cases hl with | other => rfl
  | date _ h => rw [hp] at h; cases h

theorem asListsAll_get : ∀ (xs : List Val) (i : Nat), (asListsAll xs)[i]? = (xs[i]?).map asLists
  | [], i => by simp [asListsAll]
  | x :: xs, 0 => by simp [asListsAll]
  | x :: xs, i + 1 => by simp [asListsAll, asListsAll_get xs i]

/-- Objects in a list that a property with Links is given stay as they are, at their positions. -/
theorem stored_list {env : Env} {mk : Ctor} {r : PropRow} (hf : r.fromStr = true) (hp : r.parse = false) {vs : List Val} {x : Val}
    (h : StoredFor env mk r (.list vs) x) : ∃ us, x = .list us ∧ ∀ (i : Nat) c fs, vs[i]? = some (.obj c fs) → us[i]? = some (.obj c fs) := by
  cases h with
  | plain h => rw [hf] at h; cases h
  | date _ h => rw [hp] at h; cases h
  | link u _ hl =>
    cases hl with
    | list _ ys h =>
      refine ⟨asListsAll ys, by rw [asLists], fun i c fs hi => ?_⟩
      rw [asListsAll_get]
      clear * - h hi
      induction h generalizing i with
      | nil => simp at hi
      | cons h1 h2 ih =>
        cases i with
        | zero =>
          cases Option.some.inj hi
          cases h1 with
          | other => rfl
        | succ i => exact ih i hi
    | other _ _ _ hl => exact absurd rfl (hl vs)

/-- A Link to an address, with nothing but what Links have. -/
def PlainLink (v : Val) (a : String) : Prop :=
  ∃ fs, v = .obj "Link" fs ∧ fs.dget "href" = some (.str a) ∧ ∀ q, q ∉ propNames "Link" → fs.dget q = none

theorem PlainLink.to {v : Val} {a : String} (h : PlainLink v a) (ha : a ≠ "") : LinkTo v (.str a) := by
  obtain ⟨fs, rfl, hd, -⟩ := h
  exact ⟨fs, rfl, hd, by simpa [AS.truthy] using ha⟩

theorem linkCtor_plain {env : Env} {web : Web J} {n : Nat} {a : String} {u : Val} (h : linkCtor env web (n + 1) [("href", .str a)] = .ok u) :
    PlainLink u a := by
  obtain ⟨s, hs, hd⟩ : ∃ s, linkCtor env web (n + 1) [("href", .str a)] = .ok (objVal "Link" s) ∧ hrefOf (objVal "Link" s) = .str a := ⟨_, rfl, rfl⟩
  cases Except.ok.inj (h.symm.trans hs)
  obtain ⟨fs, hf, hfs⟩ := objVal_fields "Link" s
  rw [hf] at hd ⊢
  refine ⟨fs, rfl, ?_, fun q hq => (hfs q).1 hq⟩
  have hd : (fs.dget "href").getD .none = .str a := hd
  cases hx : fs.dget "href" with
  | none => rw [hx] at hd; cases hd
  | some y => rw [hx] at hd; exact congrArg some hd

/-- Text is not accepted where only Links and objects are. -/
theorem text_refused {env : Env} {types : List String} {functional : Bool} {checks : List Validator} (hs : "str" ∉ types ∧ "object" ∉ types) {a : String}
    (ha : Accepted env.mro types functional checks (.str a)) : False := by
  have ht : TypeAllowed env.mro types functional (.str a) := by cases ha <;> assumption
  obtain ⟨c, hc, h | ⟨-, h⟩⟩ := ht
  · have hc : c ∈ ["str", "object"] := hc
    simp only [List.mem_cons, List.not_mem_nil, or_false] at hc
    rcases hc with rfl | rfl
    · exact hs.1 h
    · exact hs.2 h
  · have hc : c ∈ ["str", "object"] := hc
    rw [h] at hc
    exact absurd hc (by decide)

/-- An address that a property with Links is given becomes a Link to it, unless the property takes text. -/
theorem stored_address {env : Env} {web : Web J} {n : Nat} {r : PropRow} (hf : r.fromStr = true) (hp : r.parse = false)
    (hs : "str" ∉ r.allTypes ∧ "object" ∉ r.allTypes) {a : String} {x : Val}
    (h : StoredFor env (linkCtor env web (n + 1)) r (.str a) x) : PlainLink x a := by
  cases h with
  | plain h => rw [hf] at h; cases h
  | date _ h => rw [hp] at h; cases h
  | link u _ hl ha =>
    cases hl with
    | str => exact (text_refused hs ha).elim
    | url =>
      rename_i hl
      have hp := linkCtor_plain hl
      obtain ⟨fs, rfl, -⟩ := id hp
      exact hp
    | other => rename_i h _ _ _ _; exact absurd rfl (h a)

/-- The same for addresses in a list. -/
theorem stored_addresses {env : Env} {web : Web J} {n : Nat} {r : PropRow} (hf : r.fromStr = true) (hp : r.parse = false)
    (hs : "str" ∉ r.allTypes ∧ "object" ∉ r.allTypes) {vs : List Val} {x : Val} (h : StoredFor env (linkCtor env web (n + 1)) r (.list vs) x) :
    ∃ us, x = .list us ∧ ∀ (i : Nat) a, vs[i]? = some (.str a) → ∃ l, us[i]? = some l ∧ PlainLink l a := by
  cases h with
  | plain h => rw [hf] at h; cases h
  | date _ h => rw [hp] at h; cases h
  | link u _ hl ha =>
    cases hl with
    | list _ ys h =>
      have hacc : ∀ y ∈ ys, Accepted env.mro r.allTypes r.functional (r.additional.map (Check.run env)) y := by
        cases ha with
        | leaf => rename_i hi _ _; cases hi
        | items xs => rename_i hx hi _; cases hi; exact hx
      refine ⟨asListsAll ys, by rw [asLists], fun i a hi => ?_⟩
      rw [asListsAll_get]
      clear ha
      induction h generalizing i with
      | nil => simp at hi
      | cons h1 h2 ih =>
        cases i with
        | zero =>
          cases Option.some.inj hi
          cases h1 with
          | str => exact (text_refused hs (hacc _ (List.mem_cons_self ..))).elim
          | url =>
            rename_i hl
            have hp := linkCtor_plain hl
            obtain ⟨fs, rfl, -⟩ := id hp
            exact ⟨_, rfl, hp⟩
          | other => rename_i h _ _ _ _; exact absurd rfl (h a)
        | succ i => exact ih (fun y hy => hacc y (List.mem_cons_of_mem _ hy)) i hi
    | other _ _ _ hl => exact absurd rfl (hl vs)

/-- A date that a property with dates is given is parsed. -/
theorem stored_date {env : Env} {mk : Ctor} {r : PropRow} (hf : r.fromStr = false) (hp : r.parse = true) {d : String} {x : Val}
    (h : StoredFor env mk r (.str d) x) : ∃ t, parseDatetime (.str d.toList) = .ok (.dt t) ∧ x = .other "datetime" (env.dateRepr t) := by
  cases h with
  | plain _ h => rw [hp] at h; cases h
  | link _ h => rw [hf] at h; cases h
  | date _ _ hd =>
    cases hd with
    | date =>
      rename_i h
      have h : "datetime" ∈ ["str", "object"] := h
      exact absurd h (by decide)
    | str _ t ht => exact ⟨t, ht, rfl⟩

theorem kept_facts : ∀ c ∈ pkgClasses, ("first" ∈ propNames c → Kept c "first") ∧ ("object" ∈ propNames c → Kept c "object") ∧
    ("published" ∈ propNames c → Kept c "published") ∧ (c ∈ ["OrderedCollection", "OrderedCollectionPage"] → Kept c "orderedItems") := by decide +kernel

theorem row_facts : ((rowOf "first").fromStr = true ∧ (rowOf "first").parse = false ∧ "str" ∉ (rowOf "first").allTypes ∧ "object" ∉ (rowOf "first").allTypes) ∧
    ((rowOf "orderedItems").fromStr = true ∧ (rowOf "orderedItems").parse = false) ∧ ((rowOf "object").fromStr = true ∧ (rowOf "object").parse = false) ∧
    ((rowOf "published").fromStr = false ∧ (rowOf "published").parse = true) ∧ Linked "first" ∧ ¬ Linked "published" := by decide +kernel

/-- The surroundings of the example: what the network has, what JSON-LD expansion and JSON parsing do, and the registry of the engine; the
objects of the engine use `web` to open Links (it does not matter for loading, see `load_web`). -/
structure Setting (J : Type) where
  repr : String → String
  env : Env
  depth : Nat
  web : Web J
  expand : Tree → Outcome Expansion
  reg : PyDict String String
  loads : String → Outcome Tree
  fetch : Val → Outcome Tree

namespace Setting
variable (S : Setting J)

/-- The engine. -/
def engine : Engine := asEngine ⟨S.env, linkCtor S.env S.web (S.depth + 1), S.web⟩ S.expand S.reg

/-- What objects of the engine use to open Links. -/
def graph : Web Tree := asWeb S.repr (fromData S.engine S.loads) S.fetch

/-- A document (or part of one, with its context) is of a class of the engine. -/
def IsA (kvs : List (String × Tree)) (c : String) : Prop :=
  c ∈ pkgClasses ∧ c ∉ ["Object", "Link"] ∧ ∃ t ts, S.reg.dget t = some c ∧ S.expand (.obj (normalized kvs)) = .ok (.typed (t :: ts)) ∧
    S.expand (.obj kvs) = .ok (.typed (t :: ts))

end Setting

/-- **C138.** `outbox.first.orderedItems[i].object.published` of a loaded document whose `first` is the address of a document of ordered
items, of which the one at position `i` is an activity with an object that is written out and has a date: it is that date, as a datetime,
and exactly one request is made, for that address. -/
theorem readme_walk_partial (S : Setting J) (hr : GoodRepr S.repr) {c1 c2 c3 c4 : String} {outbox page act note : List (String × Tree)} {a d : String}
    {items : List Tree} {i : Nat} {v pg : Val}
    (h1 : S.IsA outbox c1) (f1 : "first" ∈ propNames c1) (d1 : outbox.dget "first" = some (.str a)) (ha : a ≠ "")
    (h2 : S.IsA page c2) (f2 : c2 ∈ ["OrderedCollection", "OrderedCollectionPage"]) (d2 : page.dget "orderedItems" = some (.arr items))
    (hi : items[i]? = some (.obj act))
    (h3 : S.IsA (withContext (contextOf page) act) c3) (f3 : "object" ∈ propNames c3)
    (d3 : (withContext (contextOf page) act).dget "object" = some (.obj note))
    (h4 : S.IsA (withContext (contextOf (withContext (contextOf page) act)) note) c4) (f4 : "published" ∈ propNames c4)
    (d4 : (withContext (contextOf (withContext (contextOf page) act)) note).dget "published" = some (.str d))
    (hv : S.engine.fromJson outbox = .ok v) (hfetch : S.fetch (.str a) = .ok (.obj page)) (hp : S.engine.fromJson page = .ok pg) :
    ∃ t, parseDatetime (.str d.toList) = .ok (.dt t) ∧
      walk S.graph v [.attr "first", .attr "orderedItems", .item i, .attr "object", .attr "published"] =
        (.ok (.other "datetime" (S.env.dateRepr t)), [.str a]) := by
  obtain ⟨r1, r2, r3, r4, l1, l4⟩ := row_facts
  obtain ⟨m1, n1, t1, ts1, g1, x1, -⟩ := h1
  obtain ⟨m2, n2, t2, ts2, g2, x2, -⟩ := h2
  obtain ⟨m3, n3, t3, ts3, g3, x3, y3⟩ := h3
  obtain ⟨m4, n4, t4, ts4, g4, x4, y4⟩ := h4
  obtain ⟨fs1, rfl, k1⟩ := doc_field _ S.expand S.reg m1 n1 g1 x1 hv
  obtain ⟨fs2, rfl, k2⟩ := doc_field _ S.expand S.reg m2 n2 g2 x2 hp
  obtain ⟨v1, s1, u1, w1, e1⟩ := k1 "first" ((kept_facts c1 m1).1 f1) _ d1
  cases unpack_str u1
  have hl := stored_address (n := S.depth) (web := S.web) r1.1 r1.2.1 r1.2.2 w1
  obtain ⟨v2, s2, u2, w2, e2⟩ := k2 "orderedItems" ((kept_facts c2 m2).2.2.2 f2) _ d2
  obtain ⟨vs, rfl, hvs⟩ := unpack_arr u2
  obtain ⟨v3, hv3, u3⟩ := hvs i _ hi
  obtain ⟨fs3, rfl, k3⟩ := doc_field _ S.expand S.reg m3 n3 g3 x3 (unpack_typed y3 g3 u3)
  obtain ⟨us, rfl, hus⟩ := stored_list r2.1 r2.2 w2
  obtain ⟨v4, s4, u4, w4, e4⟩ := k3 "object" ((kept_facts c3 m3).2.1 f3) _ d3
  obtain ⟨fs4, rfl, k4⟩ := doc_field _ S.expand S.reg m4 n4 g4 x4 (unpack_typed y4 g4 u4)
  cases stored_obj r3.1 r3.2 w4
  obtain ⟨v5, s5, u5, w5, e5⟩ := k4 "published" ((kept_facts c4 m4).2.2.1 f4) _ d4
  cases unpack_str u5
  obtain ⟨t, ht, rfl⟩ := stored_date r4.1 r4.2 w5
  refine ⟨t, ht, ?_⟩
  refine (walk_leads hr _ S.fetch (load_truthy _ S.expand S.reg S.loads) _ _ _ _).2 ?_
  refine .opened c1 fs1 "first" s1 (.str a) (.obj c2 fs2) _ _ [] e1 ⟨f1, l1⟩ (hl.to ha) ?_ ?_
  · unfold foundBy
    rw [hfetch]
    have : fromData S.engine S.loads (.obj page) = .ok (.obj c2 fs2) := hp
    unfold Setting.engine at this
    simp only [this]
  · refine .held c2 fs2 "orderedItems" (.list us) _ _ [] e2 (fun h => ?_) ?_
    · obtain ⟨-, b, fs, hb, -⟩ := h; cases hb
    · refine .item _ i (.obj c3 fs3) _ _ _ (.list us i _ (hus i c3 fs3 hv3)) ?_
      refine .held c3 fs3 "object" (.obj c4 fs4) _ _ [] e4 (fun h => ?_) ?_
      · obtain ⟨-, b, fs, hb, -⟩ := h
        exact n4 (by rw [(Val.obj.inj hb).1]; decide)
      · exact .held c4 fs4 "published" _ _ _ [] e5 (fun h => l4 h.1.2) (.here _)

theorem row_facts2 : "str" ∉ (rowOf "orderedItems").allTypes ∧ "object" ∉ (rowOf "orderedItems").allTypes ∧
    "object" ∉ propNames "Link" ∧ "orderedItems" ∉ propNames "Link" := by decide +kernel

/-- **The README is wrong for items that are addresses:** they become Links, which are not opened, so that the walk raises AttributeError, although
the document at the address may well be an activity with an object. -/
theorem readme_addresses_counterexample (S : Setting J) (hr : GoodRepr S.repr) {c1 c2 : String} {outbox page : List (String × Tree)} {a b : String}
    {items : List Tree} {i : Nat} {v pg : Val}
    (h1 : S.IsA outbox c1) (f1 : "first" ∈ propNames c1) (d1 : outbox.dget "first" = some (.str a)) (ha : a ≠ "")
    (h2 : S.IsA page c2) (f2 : c2 ∈ ["OrderedCollection", "OrderedCollectionPage"]) (d2 : page.dget "orderedItems" = some (.arr items))
    (hi : items[i]? = some (.str b))
    (hv : S.engine.fromJson outbox = .ok v) (hfetch : S.fetch (.str a) = .ok (.obj page)) (hp : S.engine.fromJson page = .ok pg) :
    ∃ l, PlainLink l b ∧ walk S.graph v [.attr "first", .attr "orderedItems", .item i] = (.ok l, [.str a]) ∧
      walk S.graph v [.attr "first", .attr "orderedItems", .item i, .attr "object", .attr "published"] = (.error .attributeError, [.str a]) := by
  obtain ⟨r1, r2, r3, r4, l1, l4⟩ := row_facts
  obtain ⟨q1, q2, q3, -⟩ := row_facts2
  obtain ⟨m1, n1, t1, ts1, g1, x1, -⟩ := h1
  obtain ⟨m2, n2, t2, ts2, g2, x2, -⟩ := h2
  obtain ⟨fs1, rfl, k1⟩ := doc_field _ S.expand S.reg m1 n1 g1 x1 hv
  obtain ⟨fs2, rfl, k2⟩ := doc_field _ S.expand S.reg m2 n2 g2 x2 hp
  obtain ⟨v1, s1, u1, w1, e1⟩ := k1 "first" ((kept_facts c1 m1).1 f1) _ d1
  cases unpack_str u1
  have hl := stored_address (n := S.depth) (web := S.web) r1.1 r1.2.1 r1.2.2 w1
  obtain ⟨v2, s2, u2, w2, e2⟩ := k2 "orderedItems" ((kept_facts c2 m2).2.2.2 f2) _ d2
  obtain ⟨vs, rfl, hvs⟩ := unpack_arr u2
  obtain ⟨v3, hv3, u3⟩ := hvs i _ hi
  cases unpack_str u3
  obtain ⟨us, rfl, hus⟩ := stored_addresses (n := S.depth) (web := S.web) r2.1 r2.2 ⟨q1, q2⟩ w2
  obtain ⟨l, hl1, hl2⟩ := hus i b hv3
  have hleads : Leads (foundBy (fromData S.engine S.loads) S.fetch) (.obj c1 fs1) [.attr "first", .attr "orderedItems", .item i] l [.str a] := by
    refine .opened c1 fs1 "first" s1 (.str a) (.obj c2 fs2) _ _ [] e1 ⟨f1, l1⟩ (hl.to ha) ?_ ?_
    · unfold foundBy
      rw [hfetch]
      have : fromData S.engine S.loads (.obj page) = .ok (.obj c2 fs2) := hp
      simp only [this]
    · refine .held c2 fs2 "orderedItems" (.list us) _ _ [] e2 (fun h => ?_) (.item _ i l _ _ _ (.list us i _ hl1) (.here _))
      obtain ⟨-, b, fs, hb, -⟩ := h; cases hb
  refine ⟨l, hl2, (walk_leads hr _ S.fetch (load_truthy _ S.expand S.reg S.loads) _ _ _ _).2 hleads, ?_⟩
  refine (walk_fails hr _ S.fetch (load_truthy _ S.expand S.reg S.loads) _ _ _ _).2
    ⟨[.attr "first", .attr "orderedItems", .item i], .attr "object", [.attr "published"], l, rfl, hleads, ?_⟩
  obtain ⟨fs, rfl, -, hno⟩ := hl2
  exact .missing _ _ _ (hno _ q3)

/-- Without the page the Link itself is presented, and walking on from it raises AttributeError. -/
theorem readme_offline (S : Setting J) (hr : GoodRepr S.repr) {c1 : String} {outbox : List (String × Tree)} {a : String} {v : Val}
    (h1 : S.IsA outbox c1) (f1 : "first" ∈ propNames c1) (d1 : outbox.dget "first" = some (.str a)) (ha : a ≠ "")
    (hv : S.engine.fromJson outbox = .ok v) (hnone : foundBy (fromData S.engine S.loads) S.fetch (.str a) = none) :
    ∃ l, PlainLink l a ∧ walk S.graph v [.attr "first"] = (.ok l, [.str a]) ∧
      ∀ p, walk S.graph v (.attr "first" :: .attr "orderedItems" :: p) = (.error .attributeError, [.str a]) := by
  obtain ⟨r1, -, -, -, l1, -⟩ := row_facts
  obtain ⟨m1, n1, t1, ts1, g1, x1, -⟩ := h1
  obtain ⟨fs1, rfl, k1⟩ := doc_field _ S.expand S.reg m1 n1 g1 x1 hv
  obtain ⟨v1, s1, u1, w1, e1⟩ := k1 "first" ((kept_facts c1 m1).1 f1) _ d1
  cases unpack_str u1
  have hl := stored_address (n := S.depth) (web := S.web) r1.1 r1.2.1 r1.2.2 w1
  have hleads : Leads (foundBy (fromData S.engine S.loads) S.fetch) (.obj c1 fs1) [.attr "first"] s1 [.str a] :=
    .closed c1 fs1 "first" s1 (.str a) _ _ [] e1 ⟨f1, l1⟩ (hl.to ha) hnone (.here _)
  refine ⟨s1, hl, (walk_leads hr _ S.fetch (load_truthy _ S.expand S.reg S.loads) _ _ _ _).2 hleads, fun p => ?_⟩
  refine (walk_fails hr _ S.fetch (load_truthy _ S.expand S.reg S.loads) _ _ _ _).2 ⟨[.attr "first"], .attr "orderedItems", p, s1, rfl, hleads, ?_⟩
  obtain ⟨fs, rfl, -, hno⟩ := hl
  exact .missing _ _ _ (hno _ row_facts2.2.2.2)

/-! ## Such documents exist -/

/-- A setting with two documents. -/
def exSetting : Setting Nat where
  repr := fun c => "<property object at 0x7f, type of " ++ c
  env := pkgEnv
  depth := 0
  web := onePage
  expand := fun t => match t with
    | .obj kvs => match kvs.dget "type" with
      | some (.str s) => .ok (.typed [asNs ++ "#" ++ s])
      | _ => .ok .untyped
    | _ => .ok .empty
  reg := (pkgClasses.filter fun c => c ≠ "Object" && c ≠ "Link").map fun c => (asNs ++ "#" ++ c, c)
  loads := fun _ => .error .valueError
  fetch := fun a => match a with
    | .str s => if s = "https://x.org/outbox?page=1" then .ok (.obj [("type", .str "OrderedCollectionPage"),
        ("orderedItems", .arr [.obj [("type", .str "Create"), ("object", .obj [("type", .str "Note"), ("published", .str "2024-01-02T03:04:05Z")])], .str "https://x.org/2"])])
      else .error .ioError
    | _ => .error .ioError

def exOutbox : List (String × Tree) := [("type", .str "OrderedCollection"), ("first", .str "https://x.org/outbox?page=1")]

theorem ex_walk : (match exSetting.engine.fromJson exOutbox with
    | .ok v => (match (walk exSetting.graph v [.attr "first", .attr "orderedItems", .item 0, .attr "object", .attr "published"]) with
      | (.ok (.other c r), [.str a]) => some (c, r, a)
      | _ => none)
    | .error _ => none) = some ("datetime", "", "https://x.org/outbox?page=1") := by decide +kernel

theorem ex_repr : GoodRepr exSetting.repr := by
  refine ⟨fun c => ?_, fun c h => ?_⟩
  · show ("<property object at 0x7f, type of " ++ c).toList.head? = _
    simp
  · have h : "<property object at 0x7f, type of " ++ c = "<property object at 0x7f, type of " ++ "Link" := h
    have := congrArg String.toList h
    exact String.toList_inj.1 (by simpa using this)

/-- The documents of the example are as the theorems above assume. -/
example : exSetting.IsA exOutbox "OrderedCollection" ∧ "first" ∈ propNames "OrderedCollection" ∧
    exOutbox.dget "first" = some (.str "https://x.org/outbox?page=1") ∧
    (∃ page items act note, exSetting.fetch (.str "https://x.org/outbox?page=1") = .ok (.obj page) ∧ exSetting.IsA page "OrderedCollectionPage" ∧
      page.dget "orderedItems" = some (.arr items) ∧ items[0]? = some (.obj act) ∧ items[1]? = some (.str "https://x.org/2") ∧
      exSetting.IsA (withContext (contextOf page) act) "Create" ∧ "object" ∈ propNames "Create" ∧
      (withContext (contextOf page) act).dget "object" = some (.obj note) ∧
      exSetting.IsA (withContext (contextOf (withContext (contextOf page) act)) note) "Note" ∧ "published" ∈ propNames "Note" ∧
      (withContext (contextOf (withContext (contextOf page) act)) note).dget "published" = some (.str "2024-01-02T03:04:05Z")) := by
  have f : "first" ∈ propNames "OrderedCollection" ∧ "object" ∈ propNames "Create" ∧ "published" ∈ propNames "Note" := by decide +kernel
  have g : ∀ c ∈ ["OrderedCollection", "OrderedCollectionPage", "Create", "Note"], c ∈ pkgClasses ∧ c ∉ ["Object", "Link"] ∧
    exSetting.reg.dget (asNs ++ "#" ++ c) = some c := by decide +kernel
  obtain ⟨a1, a2, a3⟩ := g "OrderedCollection" (by decide)
  obtain ⟨b1, b2, b3⟩ := g "OrderedCollectionPage" (by decide)
  obtain ⟨c1, c2, c3⟩ := g "Create" (by decide)
  obtain ⟨d1, d2, d3⟩ := g "Note" (by decide)
  exact ⟨⟨a1, a2, _, [], a3, rfl, rfl⟩, f.1, rfl, _, _, _, _, rfl, ⟨b1, b2, _, [], b3, rfl, rfl⟩, rfl, rfl, rfl, ⟨c1, c2, _, [], c3, rfl, rfl⟩, f.2.1, rfl,
    ⟨d1, d2, _, [], d3, rfl, rfl⟩, f.2.2, rfl⟩

end Verif.Props.Readme
