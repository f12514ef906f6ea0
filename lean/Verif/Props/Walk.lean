import Verif.AS.Walk
import Verif.Props.Reads
import Verif.Props.AsLoad

/-!
# C137: walking through the social graph
-/
namespace Verif.Props.Walk
open Verif Verif.Jsonld Verif.AS Verif.Props Verif.Spec Verif.Props.Reads

variable {J J' : Type}

/-! ## Loading makes no requests -/

/-- The names a constructor reads for an assignment. -/
def readsOf (a : AS.Assign) : List String := match a.how with
  | .set => []
  | .keepOr => [a.attr]
  | .orZero => []
  | .total i => [i]

theorem reads_rows : ∀ c ∈ hierTable.dkeys, ∀ a ∈ classAssigns c, ∀ n ∈ readsOf a,
    (n = "type" ∧ c ∈ asClasses) ∨ (n = "items" ∧ c ∈ collections) := by decide +kernel

theorem reads_known {c : String} {a : AS.Assign} (ha : a ∈ classAssigns c) {n : String} (hn : n ∈ readsOf a) :
    (n = "type" ∧ c ∈ asClasses) ∨ (n = "items" ∧ c ∈ collections) := by
  by_cases hc : c ∈ hierTable.dkeys
  · exact reads_rows c hc a ha n hn
  · exfalso
    have h1 : mroOf c = [c] := by unfold mroOf; rw [PyDict.dget_eq_none.2 hc]
    have h2 : classRow c = none := by
      have : ∀ r ∈ classTable, r.cls ∈ hierTable.dkeys := by decide +kernel
      unfold classRow
      rw [List.find?_eq_none]
      intro r hr he
      exact hc ((by simpa using he) ▸ this r hr)
    have h3 : classAssigns c = [⟨"acontext", .set, .param "acontext"⟩] := by
      unfold classAssigns
      rw [h1]
      simp only [List.length_singleton, assigns, firstInit, initOf, h2]
      rfl
    rw [h3] at ha
    cases List.mem_singleton.1 ha
    exact absurd hn (by simp [readsOf])

theorem type_get (packaged : Bool) {c : String} (w : World J) (w' : World J') (s : Slots) :
    getAttr w packaged c s "type" = getAttr w' packaged c s "type" ∧ (attrOf packaged c "type").asked w s = [] := by
  unfold getAttr
  cases ha : attrOf packaged c "type" with
  | prop r =>
    obtain ⟨hr, hn⟩ := attrOf_prop ha
    have hl : ¬ Linked r.name := by rw [hn]; decide +kernel
    refine ⟨?_, ?_⟩
    · show (r.get w.web s).1 = (r.get w'.web s).1
      rw [read_plain w.web hr hl, read_plain w'.web hr hl]
    · show (r.get w.web s).2 = _
      rw [read_plain w.web hr hl]
  | const v => exact ⟨rfl, rfl⟩
  | plain => exact ⟨rfl, rfl⟩

/-- What holds while a collection is constructed: it has no items yet (or is not packaged). -/
def NoItems (packaged : Bool) (c : String) (s : Slots) : Prop := packaged = true → c ∈ collections → (rowOf "items").stored s = .ok .none

theorem attr_unpackaged (c n : String) (r : PropRow) : attrOf false c n ≠ .prop r := by
  unfold attrOf
  intro h
  cases hf : (mroOf c).findSome? (fun c => attrIn false c n) with
  | none => rw [hf] at h; cases h
  | some x =>
    rw [hf] at h
    obtain ⟨a, -, hx⟩ := List.exists_of_findSome?_eq_some hf
    unfold attrIn at hx
    simp only [Bool.false_eq_true, if_false, List.find?_nil] at hx
    simp only [Option.getD_some] at h
    subst h
    split_ifs at hx
    obtain ⟨y, -, hy⟩ := Option.map_eq_some_iff.1 hx
    cases hy

theorem items_get (packaged : Bool) {c : String} (hc : c ∈ collections) (w : World J) (w' : World J') (s : Slots) (hs : NoItems packaged c s) :
    getAttr w packaged c s "items" = getAttr w' packaged c s "items" ∧ (attrOf packaged c "items").asked w s = [] := by
  cases packaged with
  | true =>
    have hrow := isRow_eq (items_row.2.1 c hc)
    have hst := hs rfl hc
    rw [getAttr_none hrow hst, getAttr_none hrow hst, hrow]
    refine ⟨rfl, ?_⟩
    show ((rowOf "items").get w.web s).2 = _
    rw [get_none w.web hst]
  | false =>
    unfold getAttr
    cases ha : attrOf false c "items" with
    | prop r => exact absurd ha (attr_unpackaged _ _ _)
    | const v => exact ⟨rfl, rfl⟩
    | plain => exact ⟨rfl, rfl⟩

theorem reads_same (packaged : Bool) {c : String} {a : AS.Assign} (ha : a ∈ classAssigns c) {n : String} (hn : n ∈ readsOf a)
    (w : World J) (w' : World J') (s : Slots) (hs : NoItems packaged c s) :
    getAttr w packaged c s n = getAttr w' packaged c s n ∧ (attrOf packaged c n).asked w s = [] := by
  rcases reads_known ha hn with ⟨rfl, -⟩ | ⟨rfl, hc⟩
  · exact type_get packaged w w' s
  · exact items_get packaged hc w w' s hs

theorem value_same (packaged : Bool) {c : String} {a : AS.Assign} (ha : a ∈ classAssigns c) (kw : List (String × Val))
    (w : World J) (w' : World J') (s : Slots) (hs : NoItems packaged c s) :
    a.value w packaged c kw s = a.value w' packaged c kw s ∧ a.asked w packaged c kw s = [] := by
  have key := fun n (hn : n ∈ readsOf a) => reads_same packaged ha hn w w' s hs
  unfold readsOf at key
  unfold Assign.value Assign.asked
  cases hh : a.how with
  | set => exact ⟨rfl, rfl⟩
  | orZero => exact ⟨rfl, rfl⟩
  | keepOr =>
    rw [hh] at key
    obtain ⟨k1, k2⟩ := key a.attr (by simp)
    refine ⟨?_, k2⟩
    simp only [getAttrOr, k1]
  | total i =>
    rw [hh] at key
    obtain ⟨k1, k2⟩ := key i (by simp)
    refine ⟨by simp only [k1], ?_⟩
    simp only [k2]
    split <;> rfl

theorem run_keeps (packaged : Bool) {c : String} {a : AS.Assign} (ha : a ∈ classAssigns c) (kw : List (String × Val)) (w : World J) (s s' : Slots)
    (hs : NoItems packaged c s) (h : a.run w packaged c kw s = (.ok (), s')) : NoItems packaged c s' := by
  rintro rfl hc
  have hs := hs rfl hc
  obtain ⟨hcc, hk⟩ := items_assigns c hc
  obtain ⟨h1, h2, h3⟩ := items_row
  exact stays_none w hcc h1 (isRow_eq (h2 c hc)) h3 hk (by decide +kernel) kw [a] (by simpa using ha) s s' hs
    (by unfold runAll; rw [h]; rfl)

theorem runAll_same (packaged : Bool) {c : String} (kw : List (String × Val)) (w : World J) (w' : World J') (he : w.env = w'.env) (hl : w.link = w'.link) :
    ∀ (as : List AS.Assign), (∀ a ∈ as, a ∈ classAssigns c) → ∀ s, NoItems packaged c s →
      runAll w packaged c kw as s = runAll w' packaged c kw as s ∧ askedAll w packaged c kw as s = [] := by
  intro as
  induction as with
  | nil => intro _ s _; exact ⟨rfl, rfl⟩
  | cons a as ih =>
    intro ha s hs
    have ha' := ha a (List.mem_cons_self ..)
    obtain ⟨v1, v2⟩ := value_same packaged ha' kw w w' s hs
    have hrun : a.run w packaged c kw s = a.run w' packaged c kw s := by
      unfold Assign.run
      rw [v1]
      cases a.value w' packaged c kw s with
      | error e => rfl
      | ok v =>
        show (attrOf packaged c a.attr).set w s a.attr v = (attrOf packaged c a.attr).set w' s a.attr v
        cases attrOf packaged c a.attr with
        | prop r => show r.set w.env w.link s v = r.set w'.env w'.link s v; rw [he, hl]
        | const v => rfl
        | plain => rfl
    unfold runAll askedAll
    rw [v2, List.nil_append, hrun]
    cases hr : a.run w' packaged c kw s with
    | mk o s' =>
      cases o with
      | error e => exact ⟨rfl, rfl⟩
      | ok u =>
        exact ih (fun b hb => ha b (List.mem_cons_of_mem _ hb)) s' (run_keeps packaged ha' kw w s s' hs (hrun.trans hr))

/-- **C137 (a).** Constructors make no requests, for every class and all arguments, packaged or not ... -/
theorem construct_asks_nothing (w : World J) (packaged : Bool) (c : String) (kw : List (String × Val)) : constructAsked w packaged c kw = [] := by
  unfold constructAsked
  split
  · refine (runAll_same packaged kw w w rfl rfl _ (fun _ h => h) [] ?_).2
    intro _ _; rfl
  · rfl

/-- ... so what they make does not depend on the network. -/
theorem construct_web (w : World J) (w' : World J') (he : w.env = w'.env) (hl : w.link = w'.link) (packaged : Bool) (c : String)
    (kw : List (String × Val)) : construct w packaged c kw = construct w' packaged c kw := by
  unfold construct
  split
  · refine (runAll_same packaged kw w w' he hl _ (fun _ h => h) [] ?_).1
    intro _ _; rfl
  · rfl

theorem linkCtor_web (env : Env) (web : Web J) (web' : Web J') : ∀ n, linkCtor env web n = linkCtor env web' n
  | 0 => rfl
  | n + 1 => by
    funext kw
    rw [linkCtor, linkCtor, linkCtor_web env web web' n,
      construct_web ⟨env, linkCtor env web' n, web⟩ ⟨env, linkCtor env web' n, web'⟩ rfl rfl true "Link" kw]

/-- **C137 (b).** Loading a document does not depend on the network: it gives the same with any network (so no Link is opened). -/
theorem load_web (env : Env) (web : Web J) (web' : Web J') (n : Nat) (expand : Tree → Outcome Expansion) (reg : PyDict String String)
    (loads : String → Outcome Tree) (d : Tree) :
    fromData (asEngine ⟨env, linkCtor env web n, web⟩ expand reg) loads d = fromData (asEngine ⟨env, linkCtor env web' n, web'⟩ expand reg) loads d := by
  have : asEngine ⟨env, linkCtor env web n, web⟩ expand reg = asEngine ⟨env, linkCtor env web' n, web'⟩ expand reg := by
    unfold asEngine
    congr 1
    funext c kw
    rw [linkCtor_web env web web' n, construct_web ⟨env, linkCtor env web' n, web⟩ ⟨env, linkCtor env web' n, web'⟩ rfl rfl true c kw]
  rw [this]

/-! ## Specification of walks -/

/-- The item of a list, or the character of a text, at a position. -/
inductive ItemAt : Val → Nat → Val → Prop
  | list (xs : List Val) (i : Nat) (x : Val) (h : xs[i]? = some x) : ItemAt (.list xs) i x
  | tuple (xs : List Val) (i : Nat) (x : Val) (h : xs[i]? = some x) : ItemAt (.tuple xs) i x
  | char (s : String) (i : Nat) (c : Char) (h : s.toList[i]? = some c) : ItemAt (.str s) i (.str (String.ofList [c]))

/-- `v` is a Link with address `a`. -/
def LinkTo (v a : Val) : Prop := ∃ fs, v = .obj "Link" fs ∧ fs.dget "href" = some a ∧ AS.truthy a = true

/-- Property `n` of class `c` opens Links. -/
def Opens (c n : String) : Prop := n ∈ propNames c ∧ Linked n

/-- Where a walk leads and which addresses are asked for on the way; `found a` is the object at address `a`, if there is one.  Reading a
property gives what the object has, but a Link is replaced by the object at its address if the property opens Links and there is an object
at that address.  An item of a list is that item. -/
inductive Leads (found : Val → Option Val) : Val → List Step → Val → List Val → Prop
  | here (v : Val) : Leads found v [] v []
  | item (v : Val) (i : Nat) (x : Val) (p : List Step) (u : Val) (rs : List Val) (h : ItemAt v i x) (t : Leads found x p u rs) :
      Leads found v (.item i :: p) u rs
  | held (c : String) (fs : List (String × Val)) (n : String) (x : Val) (p : List Step) (u : Val) (rs : List Val) (h : fs.dget n = some x)
      (hl : ¬ (Opens c n ∧ ∃ a, LinkTo x a)) (t : Leads found x p u rs) : Leads found (.obj c fs) (.attr n :: p) u rs
  | opened (c : String) (fs : List (String × Val)) (n : String) (l a x : Val) (p : List Step) (u : Val) (rs : List Val)
      (h : fs.dget n = some l) (ho : Opens c n) (hl : LinkTo l a) (hf : found a = some x) (t : Leads found x p u rs) :
      Leads found (.obj c fs) (.attr n :: p) u (a :: rs)
  | closed (c : String) (fs : List (String × Val)) (n : String) (l a : Val) (p : List Step) (u : Val) (rs : List Val)
      (h : fs.dget n = some l) (ho : Opens c n) (hl : LinkTo l a) (hf : found a = none) (t : Leads found l p u rs) :
      Leads found (.obj c fs) (.attr n :: p) u (a :: rs)

/-- A step that cannot be made, and the exception. -/
inductive Fails : Val → Step → PyErr → Prop
  | missing (c : String) (fs : List (String × Val)) (n : String) (h : fs.dget n = none) : Fails (.obj c fs) (.attr n) .attributeError
  | noObject (v : Val) (n : String) (h : ∀ c fs, v ≠ .obj c fs) : Fails v (.attr n) .attributeError
  | listEnd (xs : List Val) (i : Nat) (h : xs.length ≤ i) : Fails (.list xs) (.item i) .indexError
  | tupleEnd (xs : List Val) (i : Nat) (h : xs.length ≤ i) : Fails (.tuple xs) (.item i) .indexError
  | textEnd (s : String) (i : Nat) (h : s.toList.length ≤ i) : Fails (.str s) (.item i) .indexError
  | dict (kvs : List (Key × Val)) (i : Nat) : Fails (.dict kvs) (.item i) .keyError
  | noItems (v : Val) (i : Nat) (hl : ∀ xs, v ≠ .list xs) (ht : ∀ xs, v ≠ .tuple xs) (hs : ∀ s, v ≠ .str s) (hd : ∀ kvs, v ≠ .dict kvs) :
      Fails v (.item i) .typeError

/-! ## Walks -/

/-- The object at an address: what the engine makes of the document there. -/
def foundBy (load : Tree → Outcome Val) (fetch : Val → Outcome Tree) (a : Val) : Option Val := match fetch a with
  | .error _ => none
  | .ok d => match load d with
    | .error _ => none
    | .ok v => some v

/-- Texts of property objects: they begin with "<", and those of the two classes that have their own `type` property differ. -/
def GoodRepr (repr : String → String) : Prop :=
  (∀ c, (repr c).toList.head? = some '<') ∧ ∀ c, repr c = repr "Link" → c = "Link"

theorem type_rows : ∀ e ∈ pkgMapping, (linkedRows e.1).any (fun r => r.name == "type") = true ↔ e.1 = "Object" ∨ e.1 = "Link" := by decide +kernel

theorem type_linked_iff (c : String) : (linkedRows c).any (fun r => r.name == "type") = true ↔ c = "Object" ∨ c = "Link" := by
  by_cases h : c ∈ pkgMapping.dkeys
  · obtain ⟨e, he, rfl⟩ := List.mem_map.1 h
    exact type_rows e he
  · have h1 : linkedRows c = [] := by unfold linkedRows; rw [PyDict.dget_eq_none.2 h]; rfl
    have h2 : "Object" ∈ pkgMapping.dkeys ∧ "Link" ∈ pkgMapping.dkeys := by decide +kernel
    rw [h1]
    constructor
    · intro hx; simp at hx
    · rintro (rfl | rfl)
      · exact absurd h2.1 h
      · exact absurd h2.2 h

theorem ns_link {repr : String → String} (hr : GoodRepr repr) (c : String) : packagedNs repr c = some (asNs ++ "#" ++ repr "Link") ↔ c = "Link" := by
  unfold packagedNs
  constructor
  · intro h
    split at h
    · have h := Option.some.inj h
      exact hr.2 c (String.toList_inj.1 (by simpa using congrArg String.toList h))
    · exfalso
      unfold classNs at h
      obtain ⟨row, hrow, h⟩ := Option.map_eq_some_iff.1 h
      have h : row.type = repr "Link" := String.toList_inj.1 (by simpa using congrArg String.toList h)
      have hfact : ∀ r ∈ classTable, r.type.toList.head? ≠ some '<' := by decide +kernel
      exact hfact row (List.mem_of_find?_eq_some hrow) (h ▸ hr.1 "Link")
  · rintro rfl
    rw [if_pos ((type_linked_iff "Link").2 (.inr rfl))]

theorem opens_iff (c n : String) : Opens c n ↔ ∃ r, attrOf true c n = .prop r ∧ r.expand = true := by
  constructor
  · rintro ⟨hn, hl⟩
    have hne : n ≠ "acontext" ∧ n ≠ "__namespace__" ∧ n ≠ "type" := by
      have : ¬ Linked "acontext" ∧ ¬ Linked "__namespace__" ∧ ¬ Linked "type" := by decide +kernel
      exact ⟨fun h => this.1 (h ▸ hl), fun h => this.2.1 (h ▸ hl), fun h => this.2.2 (h ▸ hl)⟩
    simp only [propNames, List.mem_cons, hne.1, hne.2.1, false_or] at hn
    obtain ⟨r0, hr0, rfl⟩ := List.mem_map.1 hn
    obtain ⟨a, ha, hra⟩ := List.mem_flatMap.1 hr0
    have hsome : ((mroOf c).findSome? fun c => attrIn true c r0.name).isSome := by
      rw [List.findSome?_isSome_iff]
      refine ⟨a, ha, ?_⟩
      unfold attrIn
      have : ((linkedRows a).find? fun r => r.name == r0.name).isSome := by
        rw [List.find?_isSome]
        exact ⟨r0, hra, by simp⟩
      obtain ⟨r1, h1⟩ := Option.isSome_iff_exists.1 this
      simp only [if_true, h1]
      rfl
    obtain ⟨x, hx⟩ := Option.isSome_iff_exists.1 hsome
    obtain ⟨b, -, hb⟩ := List.exists_of_findSome?_eq_some hx
    have hat : attrOf true c r0.name = x := by unfold attrOf; rw [hx]; rfl
    unfold attrIn at hb
    split at hb
    · rename_i r1 h1
      cases Option.some.inj hb
      refine ⟨r1, hat, (expand_iff r1 (attrOf_prop hat).1).2 ?_⟩
      rw [(attrOf_prop hat).2]; exact hl
    · rw [if_neg (by simp [hne.2.2])] at hb
      cases hb
  · rintro ⟨r, hr, he⟩
    obtain ⟨hm, hn⟩ := attrOf_prop hr
    refine ⟨?_, hn ▸ (expand_iff r hm).1 he⟩
    unfold attrOf at hr
    cases hf : (mroOf c).findSome? (fun c => attrIn true c n) with
    | none => rw [hf] at hr; cases hr
    | some x =>
      rw [hf] at hr
      simp only [Option.getD_some] at hr
      obtain ⟨a, ha, hx⟩ := List.exists_of_findSome?_eq_some hf
      subst hr
      unfold attrIn at hx
      split at hx
      · rename_i r1 h1
        cases hx
        refine List.mem_cons_of_mem _ (List.mem_cons_of_mem _ (List.mem_map.2 ⟨r, List.mem_flatMap.2 ⟨a, ha, ?_⟩, hn⟩))
        exact List.mem_of_find?_eq_some h1
      · split_ifs at hx
        obtain ⟨y, -, hy⟩ := Option.map_eq_some_iff.1 hx
        cases hy

section
variable {repr : String → String} (hr : GoodRepr repr) (load : Tree → Outcome Val) (fetch : Val → Outcome Tree)
  (hload : ∀ d v, load d = .ok v → AS.truthy v = true)

theorem linkTo_href {v a : Val} (h : LinkTo v a) : hrefOf v = a := by
  obtain ⟨fs, rfl, h, -⟩ := h
  show (fs.dget "href").getD .none = a
  rw [h]; rfl

include hr in
theorem asks_iff (v : Val) : (asWeb repr load fetch).asks v = true ↔ ∃ a, LinkTo v a := by
  unfold Web.asks
  constructor
  · intro h
    simp only [Bool.and_eq_true] at h
    obtain ⟨⟨⟨-, h2⟩, -⟩, h4⟩ := h
    cases v with
    | obj c fs =>
      have hc : c = "Link" := (ns_link hr c).1 (beq_iff_eq.1 h2)
      subst hc
      cases hd : fs.dget "href" with
      | none =>
        have : hrefOf (.obj "Link" fs) = .none := by show (fs.dget "href").getD .none = _; rw [hd]; rfl
        rw [this] at h4; cases h4
      | some a =>
        have : hrefOf (.obj "Link" fs) = a := by show (fs.dget "href").getD .none = _; rw [hd]; rfl
        exact ⟨a, fs, rfl, hd, this ▸ h4⟩
    | _ => simp [asWeb] at h2
  · rintro ⟨a, hl⟩
    have hh := linkTo_href hl
    obtain ⟨fs, rfl, hd, ht⟩ := hl
    rw [hh, ht]
    have hn : (asWeb repr load fetch).nsOf (.obj "Link" fs) = some (asWeb repr load fetch).linkNs := (ns_link hr "Link").2 rfl
    rw [hn]
    simp [AS.truthy, asWeb]

include hr hload in
theorem expand_spec (v : Val) :
    (∀ a, LinkTo v a → ∀ x, foundBy load fetch a = some x → (asWeb repr load fetch).expand v = (x, [a])) ∧
    (∀ a, LinkTo v a → foundBy load fetch a = none → (asWeb repr load fetch).expand v = (v, [a])) ∧
    ((¬ ∃ a, LinkTo v a) → (asWeb repr load fetch).expand v = (v, [])) := by
  have hgen : ∀ a, LinkTo v a → (asWeb repr load fetch).expand v =
      (match foundBy load fetch a with | some x => x | none => v, [a]) := by
    intro a hl
    have hask := (asks_iff hr load fetch v).2 ⟨a, hl⟩
    have hh := linkTo_href hl
    obtain ⟨fs, rfl, -, -⟩ := hl
    unfold Web.expand Web.get
    rw [if_pos hask, hh]
    have hfe : (asWeb repr load fetch).fetch a = fetch a := rfl
    rw [hfe]
    unfold foundBy
    cases fetch a with
    | error e => rfl
    | ok d =>
      have hm : (asWeb repr load fetch).make (.obj "Link" fs) d = (match load d with | .error _ => none | .ok v => some v) := by
        unfold Web.make
        have he : (asWeb repr load fetch).engine (.obj "Link" fs) = some load := rfl
        rw [he]
        simp only
        cases load d <;> rfl
      simp only [hm]
      cases hd : load d with
      | error e => rfl
      | ok x => simp only [hload d x hd, if_true]
  refine ⟨fun a hl x hx => ?_, fun a hl hx => ?_, fun hn => ?_⟩
  · rw [hgen a hl, hx]
  · rw [hgen a hl, hx]
  · have : (asWeb repr load fetch).asks v = false := by
      cases h : (asWeb repr load fetch).asks v with
      | false => rfl
      | true => exact absurd ((asks_iff hr load fetch v).1 h) hn
    unfold Web.expand Web.get
    rw [this]
    rfl

theorem readAttr_opens {web : Web J} {c : String} {fs : List (String × Val)} {n : String} {v : Val} (h : fs.dget n = some v) (ho : Opens c n) :
    readAttr web c fs n = (.ok (web.expand v).1, (web.expand v).2) := by
  obtain ⟨r, hr, he⟩ := (opens_iff c n).1 ho
  unfold readAttr
  rw [h, hr]
  simp [he]

theorem readAttr_plain {web : Web J} {c : String} {fs : List (String × Val)} {n : String} {v : Val} (h : fs.dget n = some v) (ho : ¬ Opens c n) :
    readAttr web c fs n = (.ok v, []) := by
  unfold readAttr
  rw [h]
  simp only
  cases ha : attrOf true c n with
  | prop r =>
    have : r.expand = false := by
      cases hx : r.expand with
      | false => rfl
      | true => exact absurd ((opens_iff c n).2 ⟨r, ha, hx⟩) ho
    simp [this]
  | const v => rfl
  | plain => rfl

theorem itemOf_ok (v : Val) (i : Nat) (x : Val) : itemOf v i = .ok x ↔ ItemAt v i x := by
  have hn : ∀ (xs : List Val), nth xs i = .ok x ↔ xs[i]? = some x := by
    intro xs
    unfold nth
    cases xs[i]? with
    | none => simp
    | some y => simp
  constructor
  · intro h
    cases v with
    | list xs => exact .list xs i x ((hn xs).1 h)
    | tuple xs => exact .tuple xs i x ((hn xs).1 h)
    | str s =>
      have := (hn _).1 h
      rw [List.getElem?_map] at this
      obtain ⟨c, hc, rfl⟩ := Option.map_eq_some_iff.1 this
      exact .char s i c hc
    | _ => cases h
  · intro h
    cases h with
    | list xs _ _ h => exact (hn xs).2 h
    | tuple xs _ _ h => exact (hn xs).2 h
    | char s _ c h =>
      refine (hn _).2 ?_
      rw [List.getElem?_map, h]; rfl

theorem itemOf_error (v : Val) (i : Nat) (e : PyErr) : itemOf v i = .error e ↔ Fails v (.item i) e := by
  have hn : ∀ (xs : List Val), nth xs i = .error e ↔ xs.length ≤ i ∧ e = .indexError := by
    intro xs
    unfold nth
    cases h : xs[i]? with
    | none => simp only [Except.error.injEq, List.getElem?_eq_none_iff.1 h, true_and, eq_comm]
    | some y =>
      have := (List.getElem?_eq_some_iff.1 h).1
      simp only [reduceCtorEq, false_iff, not_and]
      omega
  constructor
  · intro h
    cases v with
    | list xs => obtain ⟨h1, rfl⟩ := (hn xs).1 h; exact .listEnd xs i h1
    | tuple xs => obtain ⟨h1, rfl⟩ := (hn xs).1 h; exact .tupleEnd xs i h1
    | str s =>
      obtain ⟨h1, rfl⟩ := (hn _).1 h
      exact .textEnd s i (by simpa using h1)
    | dict kvs => cases h; exact .dict kvs i
    | _ => cases h; exact .noItems _ i (by simp) (by simp) (by simp) (by simp)
  · intro h
    cases h with
    | listEnd xs _ h => exact (hn xs).2 ⟨h, rfl⟩
    | tupleEnd xs _ h => exact (hn xs).2 ⟨h, rfl⟩
    | textEnd s _ h => exact (hn _).2 ⟨by simpa using h, rfl⟩
    | dict => rfl
    | noItems _ _ hl ht hs hd =>
      cases v with
      | list xs => exact absurd rfl (hl xs)
      | tuple xs => exact absurd rfl (ht xs)
      | str xs => exact absurd rfl (hs xs)
      | dict xs => exact absurd rfl (hd xs)
      | _ => rfl

include hr hload in
/-- A step from an object that can be made. -/
theorem attr_cases (c : String) (fs : List (String × Val)) (n : String) (x : Val) (h : fs.dget n = some x) :
    (Opens c n ∧ (∃ a, LinkTo x a ∧ ((∃ y, foundBy load fetch a = some y ∧ readAttr (asWeb repr load fetch) c fs n = (.ok y, [a])) ∨
      (foundBy load fetch a = none ∧ readAttr (asWeb repr load fetch) c fs n = (.ok x, [a]))))) ∨
    (¬ (Opens c n ∧ ∃ a, LinkTo x a) ∧ readAttr (asWeb repr load fetch) c fs n = (.ok x, [])) := by
  obtain ⟨e1, e2, e3⟩ := expand_spec hr load fetch hload x
  by_cases ho : Opens c n
  · by_cases hl : ∃ a, LinkTo x a
    · obtain ⟨a, hl⟩ := hl
      refine .inl ⟨ho, a, hl, ?_⟩
      rw [readAttr_opens h ho]
      cases hf : foundBy load fetch a with
      | none => exact .inr ⟨rfl, by rw [e2 a hl hf]⟩
      | some y => exact .inl ⟨y, rfl, by rw [e1 a hl y hf]⟩
    · refine .inr ⟨fun h => hl h.2, ?_⟩
      rw [readAttr_opens h ho, e3 hl]
  · exact .inr ⟨fun h => ho h.1, readAttr_plain h ho⟩

theorem run_item (web : Web J) (v : Val) (i : Nat) : Step.run web v (.item i) = (itemOf v i, []) := rfl

theorem linkTo_unique {v a b : Val} (h : LinkTo v a) (h' : LinkTo v b) : a = b := (linkTo_href h).symm.trans (linkTo_href h')

theorem walk_cons_ok {web : Web J} {v : Val} {st : Step} {p : List Step} {u : Val} {rs : List Val} (h : st.run web v = (.ok u, rs)) :
    walk web v (st :: p) = ((walk web u p).1, rs ++ (walk web u p).2) := by
  rw [walk, h]

theorem walk_cons_error {web : Web J} {v : Val} {st : Step} {p : List Step} {e : PyErr} {rs : List Val} (h : st.run web v = (.error e, rs)) :
    walk web v (st :: p) = (.error e, rs) := by
  rw [walk, h]

include hr hload in
/-- **C137 (c).** A walk that succeeds leads where it should and asks for the addresses it should, in this order; and every walk that can
be made succeeds. -/
theorem walk_leads (p : List Step) : ∀ (v u : Val) (rs : List Val),
    walk (asWeb repr load fetch) v p = (.ok u, rs) ↔ Leads (foundBy load fetch) v p u rs := by
  induction p with
  | nil =>
    intro v u rs
    constructor
    · intro h
      obtain ⟨h1, h2⟩ := Prod.mk.inj h
      cases Except.ok.inj h1
      cases h2
      exact .here v
    · intro h; cases h; rfl
  | cons st p ih =>
    intro v u rs
    have step : ∀ x rs0, st.run (asWeb repr load fetch) v = (.ok x, rs0) → walk (asWeb repr load fetch) v (st :: p) = (.ok u, rs) →
        ∃ rs', rs = rs0 ++ rs' ∧ Leads (foundBy load fetch) x p u rs' := by
      intro x rs0 hx hw
      rw [walk_cons_ok hx] at hw
      obtain ⟨h1, h2⟩ := Prod.mk.inj hw
      exact ⟨_, h2.symm, (ih x u _).1 (Prod.ext h1 rfl)⟩
    have back : ∀ x rs0 rs', st.run (asWeb repr load fetch) v = (.ok x, rs0) → Leads (foundBy load fetch) x p u rs' →
        walk (asWeb repr load fetch) v (st :: p) = (.ok u, rs0 ++ rs') := by
      intro x rs0 rs' hx hl
      rw [walk_cons_ok hx, (ih x u rs').2 hl]
    cases st with
    | item i =>
      constructor
      · intro h
        cases hi : itemOf v i with
        | error e =>
          rw [walk_cons_error (e := e) (rs := []) (show Step.run _ v (.item i) = _ by rw [run_item, hi])] at h
          cases (Prod.mk.inj h).1
        | ok x =>
          obtain ⟨rs', rfl, hl⟩ := step x [] (by rw [run_item, hi]) h
          exact .item v i x p u _ ((itemOf_ok v i x).1 hi) hl
      · intro h
        cases h with
        | item _ _ x _ _ _ hi hl => exact back x [] rs (by rw [run_item, (itemOf_ok v i x).2 hi]) hl
    | attr n =>
      constructor
      · intro h
        cases v with
        | obj c fs =>
          cases hd : fs.dget n with
          | none =>
            rw [walk_cons_error (e := .attributeError) (rs := []) (show Step.run (asWeb repr load fetch) (.obj c fs) (.attr n) = _ by show readAttr _ c fs n = _; unfold readAttr; rw [hd])] at h
            cases (Prod.mk.inj h).1
          | some x =>
            rcases attr_cases hr load fetch hload c fs n x hd with ⟨ho, a, hl, ⟨y, hf, hx⟩ | ⟨hf, hx⟩⟩ | ⟨ho, hx⟩
            · obtain ⟨rs', rfl, ht⟩ := step y [a] hx h
              exact .opened c fs n x a y p u rs' hd ho hl hf ht
            · obtain ⟨rs', rfl, ht⟩ := step x [a] hx h
              exact .closed c fs n x a p u rs' hd ho hl hf ht
            · obtain ⟨rs', rfl, ht⟩ := step x [] hx h
              exact .held c fs n x p u _ hd ho ht
        | _ =>
          rw [walk_cons_error (e := .attributeError) (rs := []) rfl] at h
          cases (Prod.mk.inj h).1
      · intro h
        cases h with
        | held c fs _ x _ _ _ hd ho ht =>
          rcases attr_cases hr load fetch hload c fs n x hd with ⟨ho', a, hl, -⟩ | ⟨-, hx⟩
          · exact absurd ⟨ho', a, hl⟩ ho
          · exact back x [] rs hx ht
        | opened c fs _ l a x _ _ rs' hd ho hl hf ht =>
          rcases attr_cases hr load fetch hload c fs n l hd with ⟨-, b, hl', ⟨y, hf', hx⟩ | ⟨hf', hx⟩⟩ | ⟨ho', -⟩
          · cases linkTo_unique hl hl'
            cases Option.some.inj (hf.symm.trans hf')
            exact back x [a] rs' hx ht
          · cases linkTo_unique hl hl'
            rw [hf] at hf'; cases hf'
          · exact absurd ⟨ho, a, hl⟩ ho'
        | closed c fs _ l a _ _ rs' hd ho hl hf ht =>
          rcases attr_cases hr load fetch hload c fs n l hd with ⟨-, b, hl', ⟨y, hf', hx⟩ | ⟨hf', hx⟩⟩ | ⟨ho', -⟩
          · cases linkTo_unique hl hl'
            rw [hf] at hf'; cases hf'
          · cases linkTo_unique hl hl'
            exact back l [a] rs' hx ht
          · exact absurd ⟨ho, a, hl⟩ ho'

include hr hload in
/-- **C137 (d).** A walk fails at the first step that cannot be made, with the exception for that step, after the requests made until
then. -/
theorem walk_fails (p : List Step) : ∀ (v : Val) (e : PyErr) (rs : List Val),
    walk (asWeb repr load fetch) v p = (.error e, rs) ↔
      ∃ q st p' u, p = q ++ st :: p' ∧ Leads (foundBy load fetch) v q u rs ∧ Fails u st e := by
  have fails_iff : ∀ v st e, Fails v st e → st.run (asWeb repr load fetch) v = (.error e, []) := by
    intro v st e h
    cases st with
    | item i => rw [run_item, (itemOf_error v i e).2 h]
    | attr n =>
      cases h with
      | missing c fs _ hd => show readAttr _ c fs n = _; unfold readAttr; rw [hd]
      | noObject _ _ hn =>
        cases v with
        | obj c fs => exact absurd rfl (hn c fs)
        | _ => rfl
  have run_error : ∀ v st e rs, st.run (asWeb repr load fetch) v = (.error e, rs) → Fails v st e ∧ rs = [] := by
    intro v st e rs h
    cases st with
    | item i =>
      obtain ⟨h1, h2⟩ := Prod.mk.inj h
      exact ⟨(itemOf_error v i e).1 h1, h2.symm⟩
    | attr n =>
      cases v with
      | obj c fs =>
        cases hd : fs.dget n with
        | none =>
          have : readAttr (asWeb repr load fetch) c fs n = (.error .attributeError, []) := by unfold readAttr; rw [hd]
          obtain ⟨h1, h2⟩ := Prod.mk.inj (this.symm.trans h)
          cases Except.error.inj h1
          exact ⟨.missing c fs n hd, h2.symm⟩
        | some x =>
          have h : readAttr (asWeb repr load fetch) c fs n = (.error e, rs) := h
          rcases attr_cases hr load fetch hload c fs n x hd with ⟨ho, a, hl, ⟨y, hf, hx⟩ | ⟨hf, hx⟩⟩ | ⟨ho, hx⟩
          all_goals rw [hx] at h; cases (Prod.mk.inj h).1
      | _ =>
        obtain ⟨h1, h2⟩ := Prod.mk.inj h
        cases Except.error.inj h1
        exact ⟨.noObject _ n (by simp), h2.symm⟩
  have append : ∀ (q : List Step) (v u : Val) (rs : List Val) (st : Step) (p' : List Step) (e : PyErr),
      walk (asWeb repr load fetch) v q = (.ok u, rs) → st.run (asWeb repr load fetch) u = (.error e, []) →
      walk (asWeb repr load fetch) v (q ++ st :: p') = (.error e, rs) := by
    intro q
    induction q with
    | nil =>
      intro v u rs st p' e h1 h2
      obtain ⟨g1, g2⟩ := Prod.mk.inj h1
      cases Except.ok.inj g1
      cases g2
      exact walk_cons_error h2
    | cons s q ih =>
      intro v u rs st p' e h1 h2
      rw [List.cons_append]
      cases hs : s.run (asWeb repr load fetch) v with
      | mk o rs0 =>
        cases o with
        | error e' => rw [walk_cons_error hs] at h1; cases (Prod.mk.inj h1).1
        | ok x =>
          rw [walk_cons_ok hs] at h1 ⊢
          obtain ⟨g1, g2⟩ := Prod.mk.inj h1
          rw [ih x u _ st p' e (Prod.ext g1 rfl) h2, ← g2]
  induction p with
  | nil =>
    intro v e rs
    constructor
    · intro h; cases (Prod.mk.inj h).1
    · rintro ⟨q, st, p', u, hp, -⟩; cases q <;> simp at hp
  | cons st p ih =>
    intro v e rs
    constructor
    · intro h
      cases hs : st.run (asWeb repr load fetch) v with
      | mk o rs0 =>
        cases o with
        | error e' =>
          rw [walk_cons_error hs] at h
          obtain ⟨g1, g2⟩ := Prod.mk.inj h
          cases Except.error.inj g1
          obtain ⟨hf, rfl⟩ := run_error v st _ _ hs
          subst g2
          exact ⟨[], st, p, v, rfl, .here v, hf⟩
        | ok x =>
          rw [walk_cons_ok hs] at h
          obtain ⟨g1, g2⟩ := Prod.mk.inj h
          obtain ⟨q, st', p', u, rfl, hl, hf⟩ := (ih x e _).1 (Prod.ext g1 rfl)
          refine ⟨st :: q, st', p', u, rfl, ?_, hf⟩
          rw [← walk_leads hr load fetch hload, walk_cons_ok hs, (walk_leads hr load fetch hload q x u _).2 hl, ← g2]
    · rintro ⟨q, st', p', u, hp, hl, hf⟩
      rw [hp]
      exact append q v u rs st' p' e ((walk_leads hr load fetch hload q v u rs).2 hl) (fails_iff u st' e hf)

end

/-! ## What follows for walks -/

/-- Steps that read a property. -/
def reads : List Step → List String
  | [] => []
  | .attr n :: p => n :: reads p
  | .item _ :: p => reads p

/-- **C137 (e).** At most one request for each property that opens Links. -/
theorem leads_requests {found : Val → Option Val} {v u : Val} {p : List Step} {rs : List Val} (h : Leads found v p u rs) :
    rs.length ≤ ((reads p).filter fun n => decide (Linked n)).length := by
  induction h with
  | here => exact Nat.zero_le _
  | item _ _ _ _ _ _ _ _ ih => exact ih
  | held c fs n x p u rs h hl t ih =>
    refine ih.trans ?_
    rw [reads, List.filter_cons]
    split
    · exact Nat.le_succ _
    · exact Nat.le_refl _
  | opened c fs n l a x p u rs h ho hl hf t ih =>
    rw [reads, List.filter_cons, if_pos (by simpa using ho.2)]
    exact Nat.succ_le_succ ih
  | closed c fs n l a p u rs h ho hl hf t ih =>
    rw [reads, List.filter_cons, if_pos (by simpa using ho.2)]
    exact Nat.succ_le_succ ih

/-- A value in another one. -/
inductive Inside : Val → Val → Prop
  | refl (v : Val) : Inside v v
  | field (c : String) (fs : List (String × Val)) (n : String) (x u : Val) (h : fs.dget n = some x) (t : Inside x u) : Inside (.obj c fs) u
  | item (v : Val) (i : Nat) (x u : Val) (h : ItemAt v i x) (t : Inside x u) : Inside v u

/-- **C137 (f).** What a walk reaches is part of what it starts from, or of an object found at one of the addresses that were asked for. -/
theorem leads_inside {found : Val → Option Val} {v u : Val} {p : List Step} {rs : List Val} (h : Leads found v p u rs) :
    Inside v u ∨ ∃ a ∈ rs, ∃ x, found a = some x ∧ Inside x u := by
  induction h with
  | here v => exact .inl (.refl v)
  | item v i x p u rs h t ih => exact ih.imp (.item v i x u h) id
  | held c fs n x p u rs h hl t ih => exact ih.imp (.field c fs n x u h) id
  | opened c fs n l a x p u rs h ho hl hf t ih =>
    right
    rcases ih with ih | ⟨b, hb, y, hy, hi⟩
    · exact ⟨a, List.mem_cons_self .., x, hf, ih⟩
    · exact ⟨b, List.mem_cons_of_mem _ hb, y, hy, hi⟩
  | closed c fs n l a p u rs h ho hl hf t ih =>
    rcases ih with ih | ⟨b, hb, y, hy, hi⟩
    · exact .inl (.field c fs n l u h ih)
    · exact .inr ⟨b, List.mem_cons_of_mem _ hb, y, hy, hi⟩

/-- **C137 (g).** The addresses asked for are those of Links in the start or in objects found before. -/
theorem leads_asked {found : Val → Option Val} {v u : Val} {p : List Step} {rs : List Val} (h : Leads found v p u rs) :
    ∀ (i : Nat) (a : Val), rs[i]? = some a → ∃ l, LinkTo l a ∧ (Inside v l ∨ ∃ j b x, j < i ∧ rs[j]? = some b ∧ found b = some x ∧ Inside x l) := by
  induction h with
  | here v => intro i a hi; simp at hi
  | item v k x p u rs h t ih =>
    intro i a hi
    obtain ⟨l, hl, h1 | h1⟩ := ih i a hi
    · exact ⟨l, hl, .inl (.item v k x l h h1)⟩
    · exact ⟨l, hl, .inr h1⟩
  | held c fs n x p u rs h hl t ih =>
    intro i a hi
    obtain ⟨l, hl, h1 | h1⟩ := ih i a hi
    · exact ⟨l, hl, .inl (.field c fs n x l h h1)⟩
    · exact ⟨l, hl, .inr h1⟩
  | opened c fs n l a x p u rs h ho hl hf t ih =>
    intro i b hi
    cases i with
    | zero => cases Option.some.inj hi; exact ⟨l, hl, .inl (.field c fs n l l h (.refl l))⟩
    | succ i =>
      obtain ⟨l', hl', h1 | ⟨j, b', y, hj, hb', hy, h1⟩⟩ := ih i b hi
      · exact ⟨l', hl', .inr ⟨0, a, x, Nat.succ_pos i, rfl, hf, h1⟩⟩
      · exact ⟨l', hl', .inr ⟨j + 1, b', y, Nat.succ_lt_succ hj, hb', hy, h1⟩⟩
  | closed c fs n l a p u rs h ho hl hf t ih =>
    intro i b hi
    cases i with
    | zero => cases Option.some.inj hi; exact ⟨l, hl, .inl (.field c fs n l l h (.refl l))⟩
    | succ i =>
      obtain ⟨l', hl', h1 | ⟨j, b', y, hj, hb', hy, h1⟩⟩ := ih i b hi
      · exact ⟨l', hl', .inl (.field c fs n l l' h h1)⟩
      · exact ⟨l', hl', .inr ⟨j + 1, b', y, Nat.succ_lt_succ hj, hb', hy, h1⟩⟩

/-- **C137 is false of Links in lists:** an item of a list that is a Link is not opened, whatever the network has: walking on from it raises
AttributeError for every name that is not one of its own. -/
theorem list_links_not_opened {repr : String → String} (hr : GoodRepr repr) (load : Tree → Outcome Val) (fetch : Val → Outcome Tree)
    (hload : ∀ d v, load d = .ok v → AS.truthy v = true) (xs : List Val) (i : Nat) (fs : List (String × Val)) (h : xs[i]? = some (.obj "Link" fs))
    (n : String) (hn : fs.dget n = none) :
    walk (asWeb repr load fetch) (.list xs) [.item i] = (.ok (.obj "Link" fs), []) ∧
    walk (asWeb repr load fetch) (.list xs) [.item i, .attr n] = (.error .attributeError, []) :=
  ⟨(walk_leads hr load fetch hload _ _ _ _).2 (.item _ i _ _ _ _ (.list xs i _ h) (.here _)),
    (walk_fails hr load fetch hload _ _ _ _).2 ⟨[.item i], .attr n, [], _, rfl, .item _ i _ _ _ _ (.list xs i _ h) (.here _), .missing _ _ _ hn⟩⟩

/-! ## The engine and its objects -/

/-- What an engine makes is an object. -/
theorem load_object (w : World J) (expand : Tree → Outcome Expansion) (reg : PyDict String String) (loads : String → Outcome Tree) (d : Tree) (v : Val)
    (h : fromData (asEngine w expand reg) loads d = .ok v) : ∃ c s, v = objVal c s := by
  have key : ∀ kvs, (asEngine w expand reg).fromJson kvs = .ok v → ∃ c s, v = objVal c s := by
    intro kvs h
    unfold Engine.fromJson Engine.finish at h
    cases hg : (asEngine w expand reg).getObjectClass (normalized kvs) with
    | error x => rw [hg] at h; cases h
    | ok o =>
      rw [hg] at h
      cases o with
      | none => cases h
      | some c =>
        simp only at h
        split at h
        · cases h
        · rename_i kw _
          have h : (match construct w true c (kw.dset "acontext" (contextOf kvs).toVal) with
            | .error e => (.error e : Outcome Val)
            | .ok s => .ok (objVal c s)) = .ok v := h
          cases hs : construct w true c (kw.dset "acontext" (contextOf kvs).toVal) with
          | error e => rw [hs] at h; cases h
          | ok s => rw [hs] at h; exact ⟨c, s, (Except.ok.inj h).symm⟩
  unfold fromData at h
  split at h
  · exact key _ h
  · split at h
    · cases h
    · exact key _ h
    · cases h
  · cases h

theorem load_truthy (w : World J) (expand : Tree → Outcome Expansion) (reg : PyDict String String) (loads : String → Outcome Tree) (d : Tree) (v : Val)
    (h : fromData (asEngine w expand reg) loads d = .ok v) : AS.truthy v = true := by
  obtain ⟨c, s, rfl⟩ := load_object w expand reg loads d v h
  rfl

/-- Reading a property of an object as a value is reading it from its attributes. -/
theorem readAttr_getAttr (w : World J) (c : String) (s : Slots) (n : String) (hn : n ∈ propNames c) (hns : n ≠ "__namespace__") :
    ∃ fs, objVal c s = .obj c fs ∧ readAttr w.web c fs n = (getAttr w true c s n, (attrOf true c n).asked w s) := by
  obtain ⟨fs, hf, -, h2⟩ := objVal_field c s n
  refine ⟨fs, hf, ?_⟩
  have hmiss : ∀ e, (attrOf true c n).held s n = .error e → fs.dget n = none ∧ e = .attributeError := by
    intro e he
    constructor
    · refine PyDict.dget_eq_none.2 ?_
      intro hm
      have hf' : fs = (propNames c).filterMap fun n => match (attrOf true c n).held s n with | .ok v => some (n, v) | .error _ => none := by
        have : objVal c s = .obj c ((propNames c).filterMap fun n => match (attrOf true c n).held s n with | .ok v => some (n, v) | .error _ => none) := rfl
        exact (Val.obj.inj (hf.symm.trans this)).2
      obtain ⟨⟨a, b⟩, hab, hab1⟩ := List.mem_map.1 hm
      rw [hf'] at hab
      obtain ⟨m, -, hv⟩ := List.mem_filterMap.1 hab
      cases hh : (attrOf true c m).held s m with
      | error e' => rw [hh] at hv; cases hv
      | ok y =>
        rw [hh] at hv
        cases Option.some.inj hv
        cases hab1
        rw [he] at hh; cases hh
    · cases ha : attrOf true c n with
      | prop r =>
        rw [ha] at he
        have he : r.stored s = .error e := he
        unfold PropRow.stored at he
        split at he
        · cases he
        · split at he
          · exact (Except.error.inj he).symm
          · cases he
      | const v => rw [ha] at he; cases he
      | plain =>
        rw [ha] at he
        unfold Attr.held at he
        simp only at he
        split at he
        · cases he
        · exact (Except.error.inj he).symm
  unfold readAttr getAttr
  cases hh : (attrOf true c n).held s n with
  | error e =>
    obtain ⟨h1, rfl⟩ := hmiss e hh
    rw [h1]
    cases ha : attrOf true c n with
    | prop r =>
      rw [ha] at hh
      have hh : r.stored s = .error .attributeError := hh
      have : r.get w.web s = (.error .attributeError, []) := by unfold PropRow.get; rw [hh]
      simp only [Attr.get, Attr.asked, this]
    | const v => rw [ha] at hh; cases hh
    | plain =>
      rw [ha] at hh
      have hh : Attr.held s n .plain = .error .attributeError := hh
      show _ = (Attr.held s n .plain, [])
      rw [hh]
  | ok v =>
    rw [h2 v hn hh]
    cases ha : attrOf true c n with
    | prop r =>
      rw [ha] at hh
      have hh : r.stored s = .ok v := hh
      simp only [Attr.get, Attr.asked, PropRow.get, hh]
    | const x =>
      rw [ha] at hh
      show _ = (Attr.held s n (.const x), [])
      rw [hh]
    | plain =>
      rw [ha] at hh
      show _ = (Attr.held s n .plain, [])
      rw [hh]

end Verif.Props.Walk
