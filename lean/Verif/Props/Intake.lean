import Verif.Jsonld.Intake
import Mathlib.Data.List.Basic

/-!
# Loading JSON (C60)
-/
namespace Verif.Props
open Verif Verif.Jsonld

/-! ### Specification -/

/-- The class for a type name: the registered one, or the default class for a type nobody registered. -/
def ClassOf (e : Engine) (t cls : String) : Prop :=
  e.registry.dget t = some cls ∨ (e.registry.dget t = none ∧ e.registry.dget "default" = some cls)

/-- No class is found for a type name. -/
def NoClass (e : Engine) (t : String) : Prop :=
  e.registry.dget t = none ∧ e.registry.dget "default" = none

/-- The type name of an expanded document (the empty string if it has none). -/
inductive TypeName : Expansion → String → Prop
  | empty : TypeName .empty ""
  | untyped : TypeName .untyped ""
  | typed (t : String) (ts : List String) : TypeName (.typed (t :: ts)) t

mutual
/-- What a value inside a document becomes: plain values stay, lists go item by item, a dictionary
without a type keeps its keys, a dictionary with a type becomes the object it describes (in the
context of the document unless it brings its own), or None if its type has no class. -/
inductive Unpacks (e : Engine) : Tree → Tree → Val → Prop
  | null (ctx : Tree) : Unpacks e ctx .null .none
  | bool (ctx : Tree) (b : Bool) : Unpacks e ctx (.bool b) (.bool b)
  | int (ctx : Tree) (i : Int) : Unpacks e ctx (.int i) (.int i)
  | float (ctx : Tree) (n : Bool) (r : String) : Unpacks e ctx (.float n r) (.float n r)
  | str (ctx : Tree) (s : String) : Unpacks e ctx (.str s) (.str s)
  | arr (ctx : Tree) (xs : List Tree) (vs : List Val) (hlen : vs.length = xs.length)
      (h : ∀ (i : Nat) (x : Tree) (v : Val), xs[i]? = some x → vs[i]? = some v → Unpacks e ctx x v) :
      Unpacks e ctx (.arr xs) (.list vs)
  | plain (ctx : Tree) (kvs : List (String × Tree)) (d : List (Key × Val)) (x : Expansion)
      (hx : e.expand (.obj (withContext ctx kvs)) = .ok x) (ht : ∀ ts, x ≠ .typed ts)
      (hkeys : d.map Prod.fst = kvs.map fun p => Key.str p.1)
      (h : ∀ (i : Nat) (p : String × Tree) (q : Key × Val), kvs[i]? = some p → d[i]? = some q → Unpacks e ctx p.2 q.2) :
      Unpacks e ctx (.obj kvs) (.dict d)
  | unknown (ctx : Tree) (kvs : List (String × Tree)) (t : String) (ts : List String)
      (hx : e.expand (.obj (withContext ctx kvs)) = .ok (.typed (t :: ts))) (hc : NoClass e t) :
      Unpacks e ctx (.obj kvs) .none
  | typed (ctx : Tree) (kvs : List (String × Tree)) (v : Val) (t : String) (ts : List String) (cls : String)
      (hx : e.expand (.obj (withContext ctx kvs)) = .ok (.typed (t :: ts))) (hc : ClassOf e t cls)
      (h : Loads e (withContext ctx kvs) v) :
      Unpacks e ctx (.obj kvs) v
/-- What a document becomes: the class of its type is called with all properties of the class,
each with the unpacked value the document has under that key or None, and with the context. -/
inductive Loads (e : Engine) : List (String × Tree) → Val → Prop
  | mk (kvs : List (String × Tree)) (x : Expansion) (t cls : String) (value : String → Val) (v : Val)
      (hx : e.expand (.obj (normalized kvs)) = .ok x) (ht : TypeName x t) (hc : ClassOf e t cls)
      (hsome : ∀ p ∈ e.props cls, ∀ y, kvs.dget p = some y → Unpacks e (contextOf kvs) y (value p))
      (hnone : ∀ p ∈ e.props cls, kvs.dget p = none → value p = .none)
      (hv : e.construct cls ((((e.props cls).map fun p => (p, value p)) : PyDict String Val).dset "acontext"
        (contextOf kvs).toVal) = .ok v) :
      Loads e kvs v
end

/-- No property of a class is called "@context". -/
def NoContextProperty (e : Engine) : Prop := ∀ cls, "@context" ∉ e.props cls

/-! ### Lemmas -/

theorem sequence_ok (os : List (Outcome Val)) (vs : List Val) : sequence os = .ok vs ↔ os = vs.map .ok := by
  induction os generalizing vs with
  | nil => cases vs <;> simp [sequence]
  | cons o os ih =>
    cases o with
    | error x => cases vs <;> simp [sequence]
    | ok v =>
      cases h : sequence os with
      | error x =>
        simp only [sequence, h]
        cases vs with
        | nil => simp
        | cons w ws =>
          have := ih ws
          rw [h] at this
          simp only [List.map_cons, List.cons.injEq, ← this]
          simp
      | ok us =>
        simp only [sequence, h]
        cases vs with
        | nil => simp
        | cons w ws =>
          have := ih ws
          rw [h] at this
          simp only [List.map_cons, List.cons.injEq, ← this]
          simp

theorem sequenceDict_ok (os : PyDict String (Outcome Val)) (d : List (Key × Val)) :
    sequenceDict os = .ok d ↔ ∃ d' : List (String × Val), os = d'.map (fun p => (p.1, .ok p.2)) ∧
      d = d'.map (fun p => (.str p.1, p.2)) := by
  induction os generalizing d with
  | nil =>
    simp only [sequenceDict, Except.ok.injEq]
    constructor
    · rintro rfl; exact ⟨[], rfl, rfl⟩
    · rintro ⟨d', h1, h2⟩
      cases d' with
      | nil => exact h2.symm
      | cons => simp at h1
  | cons o os ih =>
    obtain ⟨k, o⟩ := o
    cases o with
    | error x =>
      simp only [sequenceDict, reduceCtorEq, false_iff]
      rintro ⟨d', h1, -⟩
      cases d' <;> simp at h1
    | ok v =>
      cases h : sequenceDict os with
      | error x =>
        simp only [sequenceDict, h, reduceCtorEq, false_iff]
        rintro ⟨d', h1, -⟩
        cases d' with
        | nil => simp at h1
        | cons w ws =>
          simp only [List.map_cons, List.cons.injEq] at h1
          have := (ih _).2 ⟨ws, h1.2, rfl⟩
          rw [h] at this; cases this
      | ok us =>
        simp only [sequenceDict, h, Except.ok.injEq]
        constructor
        · rintro rfl
          obtain ⟨d', h1, h2⟩ := (ih _).1 h
          exact ⟨(k, v) :: d', by simp [h1], by simp [h2]⟩
        · rintro ⟨d', h1, h2⟩
          cases d' with
          | nil => simp at h1
          | cons w ws =>
            simp only [List.map_cons, List.cons.injEq, Prod.mk.injEq, Except.ok.injEq] at h1
            have := (ih _).2 ⟨ws, h1.2, rfl⟩
            rw [h] at this
            injection this with this
            rw [h2, this, List.map_cons, h1.1.1, h1.1.2]

theorem unpackAll_eq (e : Engine) (ctx : Tree) (xs : List Tree) :
    e.unpackAll ctx xs = xs.map (e.unpack ctx) := by
  induction xs with
  | nil => simp [Engine.unpackAll]
  | cons x xs ih => simp [Engine.unpackAll, ih]

theorem unpackPairs_eq (e : Engine) (ctx : Tree) (kvs : List (String × Tree)) :
    e.unpackPairs ctx kvs = kvs.map fun p => (p.1, e.unpack ctx p.2) := by
  induction kvs with
  | nil => simp [Engine.unpackPairs]
  | cons x xs ih => obtain ⟨k, x⟩ := x; simp [Engine.unpackPairs, ih]

theorem dget_map_snd {V W : Type} (f : V → W) (d : PyDict String V) (k : String) :
    (d.map fun p => (p.1, f p.2) : PyDict String W).dget k = (d.dget k).map f := by
  induction d with
  | nil => rfl
  | cons p d ih => simp only [List.map_cons, List.dget, ih]; split_ifs <;> rfl

theorem collectProps_ok (ps : List String) (pairs : PyDict String (Outcome Val)) (kw : PyDict String Val) :
    collect ps pairs = .ok kw ↔ ∃ f : String → Val, kw = ps.map (fun p => (p, f p)) ∧
      ∀ p ∈ ps, (pairs.dget p).getD (.ok .none) = .ok (f p) := by
  induction ps generalizing kw with
  | nil =>
    simp only [collect, Except.ok.injEq, List.map_nil, List.not_mem_nil, false_implies, implies_true, and_true]
    exact ⟨fun h => ⟨fun _ => .none, h.symm⟩, fun ⟨_, h⟩ => h.symm⟩
  | cons p ps ih =>
    simp only [collect]
    cases hp : (pairs.dget p).getD (.ok .none) with
    | error x =>
      simp only [reduceCtorEq, false_iff]
      rintro ⟨f, -, h⟩
      have := h p List.mem_cons_self
      rw [hp] at this; cases this
    | ok v =>
      simp only []
      cases hc : collect ps pairs with
      | error x =>
        simp only [reduceCtorEq, false_iff]
        rintro ⟨f, -, h⟩
        have := (ih _).2 ⟨f, rfl, fun q hq => h q (List.mem_cons_of_mem _ hq)⟩
        rw [hc] at this; cases this
      | ok kw' =>
        simp only [Except.ok.injEq]
        constructor
        · rintro rfl
          obtain ⟨f, h1, h2⟩ := (ih _).1 hc
          refine ⟨fun q => if q = p then v else f q, ?_, ?_⟩
          · simp only [List.map_cons, if_true]
            rw [h1]; congr 1
            refine List.map_congr_left fun q hq => ?_
            by_cases hqp : q = p
            · subst hqp
              have := h2 q hq
              rw [hp] at this; injection this with this
              simp [this]
            · simp [hqp]
          · intro q hq
            by_cases hqp : q = p
            · subst hqp; simp [hp]
            · simp only [if_neg hqp]
              exact h2 q ((List.mem_cons.1 hq).resolve_left hqp)
        · rintro ⟨f, h1, h2⟩
          have e1 := h2 p List.mem_cons_self
          rw [hp] at e1; injection e1 with e1
          have := (ih _).2 ⟨f, rfl, fun q hq => h2 q (List.mem_cons_of_mem _ hq)⟩
          rw [hc] at this; injection this with this
          rw [h1, this, e1]; rfl

theorem dget_ddel_ne {V : Type} (d : PyDict String V) {k x : String} (h : x ≠ k) :
    (d.ddel k).dget x = d.dget x := by
  induction d with
  | nil => rfl
  | cons p d ih =>
    obtain ⟨a, w⟩ := p
    simp only [List.ddel, List.dget]
    by_cases ha : a = k
    · subst ha; rw [if_pos rfl, if_neg fun h' => h h'.symm]
    · rw [if_neg ha]; simp only [List.dget, ih]

theorem dget_withContext (ctx : Tree) (kvs : List (String × Tree)) {p : String} (h : p ≠ "@context") :
    (withContext ctx kvs).dget p = kvs.dget p := by
  simp only [withContext, List.dget]
  rw [if_neg fun h' => h h'.symm, dget_ddel_ne _ h]

/-- C60: a nested document is read in its own context if it brings one, else in the one around it; everything else in it is as given. -/
theorem nested_context (ctx : Tree) (kvs : List (String × Tree)) :
    (∀ own, kvs.dget "@context" = some own → (withContext ctx kvs).dget "@context" = some own) ∧
    (kvs.dget "@context" = none → (withContext ctx kvs).dget "@context" = some ctx) ∧
    ∀ p, p ≠ "@context" → (withContext ctx kvs).dget p = kvs.dget p := by
  refine ⟨fun own h => ?_, fun h => ?_, fun p h => dget_withContext ctx kvs h⟩
  · simp [withContext, List.dget, h]
  · simp [withContext, List.dget, h]

/-- C60: a document is read in its own context if it brings one that is not empty, else in the ActivityStreams context; everything else in it
is as given.  The object is told the context the document brings, or the ActivityStreams context if it brings none. -/
theorem document_context (kvs : List (String × Tree)) :
    (∀ own, kvs.dget "@context" = some own → own.truthy = true → (normalized kvs).dget "@context" = some own) ∧
    ((∀ own, kvs.dget "@context" = some own → own.truthy = false) →
      (normalized kvs).dget "@context" = some (.str "http://www.w3.org/ns/activitystreams#")) ∧
    (∀ p, p ≠ "@context" → (normalized kvs).dget p = kvs.dget p) ∧
    (∀ own, kvs.dget "@context" = some own → contextOf kvs = own) ∧
    (kvs.dget "@context" = none → contextOf kvs = .str "http://www.w3.org/ns/activitystreams#") := by
  unfold normalized contextOf
  refine ⟨fun own h ht => ?_, fun h => ?_, fun p hp => ?_, fun own h => by rw [h]; rfl, fun h => by rw [h]; rfl⟩
  · rw [h, Option.getD_some, if_pos ht, h]
  · rw [if_neg, PyDict.dget_dset, if_pos rfl]; rfl
    cases hk : kvs.dget "@context" with
    | none => simp [Tree.truthy]
    | some own => simp [h own hk]
  · split_ifs
    · rfl
    · rw [PyDict.dget_dset, if_neg hp]

theorem classFor_some {e : Engine} {t cls : String} : e.classFor t = some cls ↔ ClassOf e t cls := by
  unfold Engine.classFor ClassOf
  by_cases h : t ∈ e.registry.dkeys
  · rw [if_pos h]
    have := PyDict.dget_ne_none.2 h
    constructor
    · exact fun h' => Or.inl h'
    · rintro (h' | h')
      · exact h'
      · exact absurd h'.1 this
  · rw [if_neg h]
    have := PyDict.dget_eq_none.2 h
    rw [this]; simp

theorem classFor_none {e : Engine} {t : String} : e.classFor t = none ↔ NoClass e t := by
  unfold Engine.classFor NoClass
  by_cases h : t ∈ e.registry.dkeys
  · rw [if_pos h]
    have := PyDict.dget_ne_none.2 h
    exact ⟨fun h' => absurd h' this, fun h' => absurd h'.1 this⟩
  · rw [if_neg h, PyDict.dget_eq_none.2 h]; simp

theorem getObjectClass_ok {e : Engine} {kvs : List (String × Tree)} {o : Option String} :
    e.getObjectClass kvs = .ok o ↔ ∃ x t, e.expand (.obj kvs) = .ok x ∧ TypeName x t ∧ e.classFor t = o := by
  unfold Engine.getObjectClass
  cases hx : e.expand (.obj kvs) with
  | error y => simp
  | ok x =>
    cases x with
    | empty =>
      simp only [Except.ok.injEq]
      exact ⟨fun h => ⟨_, _, rfl, .empty, h⟩, by rintro ⟨_, t, rfl, ht, h⟩; cases ht; exact h⟩
    | untyped =>
      simp only [Except.ok.injEq]
      exact ⟨fun h => ⟨_, _, rfl, .untyped, h⟩, by rintro ⟨_, t, rfl, ht, h⟩; cases ht; exact h⟩
    | typed ts =>
      cases ts with
      | nil =>
        simp only [reduceCtorEq, false_iff]
        rintro ⟨x, t, h, ht, -⟩; injection h with h; subst h; cases ht
      | cons t ts =>
        simp only [Except.ok.injEq]
        exact ⟨fun h => ⟨_, _, rfl, .typed t ts, h⟩, by rintro ⟨_, t', rfl, ht, h⟩; cases ht; exact h⟩

/-- The end of `from_json`, given that the values of the properties unpack as specified. -/
theorem finish_ok {e : Engine} {kvs : List (String × Tree)} {pairs : PyDict String (Outcome Val)} {v : Val}
    (hp : ∀ cls, ∀ p ∈ e.props cls, ∀ w, (pairs.dget p).getD (.ok .none) = .ok w ↔
      (∀ y, kvs.dget p = some y → Unpacks e (contextOf kvs) y w) ∧ (kvs.dget p = none → w = .none)) :
    e.finish kvs pairs = .ok v ↔ Loads e kvs v := by
  constructor
  · intro h
    unfold Engine.finish at h
    cases hc : e.getObjectClass (normalized kvs) with
    | error x => rw [hc] at h; cases h
    | ok o =>
      cases o with
      | none => rw [hc] at h; cases h
      | some cls =>
        rw [hc] at h
        simp only [] at h
        cases hk : collect (e.props cls) pairs with
        | error x => rw [hk] at h; cases h
        | ok kw =>
          rw [hk] at h
          simp only [] at h
          obtain ⟨f, hf1, hf2⟩ := (collectProps_ok _ _ _).1 hk
          obtain ⟨x, t, hx, ht, hcl⟩ := getObjectClass_ok.1 hc
          subst hf1
          refine .mk kvs x t cls f v hx ht (classFor_some.1 hcl) ?_ ?_ h
          · intro p hm y hy; exact ((hp cls p hm _).1 (hf2 p hm)).1 y hy
          · intro p hm hn; exact ((hp cls p hm _).1 (hf2 p hm)).2 hn
  · rintro ⟨_, x, t, cls, f, _, hx, ht, hc, hs, hn, hv⟩
    unfold Engine.finish
    have h1 : e.getObjectClass (normalized kvs) = .ok (some cls) :=
      getObjectClass_ok.2 ⟨x, t, hx, ht, classFor_some.2 hc⟩
    rw [h1]
    have h2 : collect (e.props cls) pairs = .ok ((e.props cls).map fun p => (p, f p)) :=
      (collectProps_ok _ _ _).2 ⟨f, rfl, fun p hm => (hp cls p hm _).2 ⟨fun y hy => hs p hm y hy, fun hh => hn p hm hh⟩⟩
    simp only [h2]
    exact hv

/-- The values of the properties of a document unpack as specified. -/
theorem pairs_ok {e : Engine} {kvs full : List (String × Tree)} {ctx : Tree}
    (hfull : ∀ cls, ∀ p ∈ e.props cls, full.dget p = kvs.dget p)
    (ih : ∀ p ∈ kvs, ∀ ctx v, e.unpack ctx p.2 = .ok v ↔ Unpacks e ctx p.2 v) :
    ∀ cls, ∀ p ∈ e.props cls, ∀ w, ((e.unpackPairs ctx kvs).dget p).getD (.ok .none) = .ok w ↔
      (∀ y, full.dget p = some y → Unpacks e ctx y w) ∧ (full.dget p = none → w = .none) := by
  intro cls p hm w
  rw [hfull cls p hm, unpackPairs_eq, dget_map_snd]
  cases hd : kvs.dget p with
  | none => simp [eq_comm]
  | some y =>
    simp only [Option.map_some, Option.getD_some, Option.some.injEq, reduceCtorEq, false_implies, and_true,
      forall_eq']
    exact ih _ (PyDict.dget_mem hd) _ _

theorem unpackObj_ok {e : Engine} (he : NoContextProperty e) {kvs : List (String × Tree)} {ctx : Tree} {v : Val}
    (ih : ∀ p ∈ kvs, ∀ ctx v, e.unpack ctx p.2 = .ok v ↔ Unpacks e ctx p.2 v) :
    e.unpack ctx (.obj kvs) = .ok v ↔ Unpacks e ctx (.obj kvs) v := by
  have hfull : ∀ cls, ∀ p ∈ e.props cls, (withContext ctx kvs).dget p = kvs.dget p := fun cls p hm =>
    dget_withContext ctx kvs fun h => he cls (h ▸ hm)
  have hfin := finish_ok (v := v) (pairs_ok (ctx := contextOf (withContext ctx kvs)) hfull ih)
  rw [Engine.unpack]
  unfold Engine.unpackObj
  cases hx : e.expand (.obj (withContext ctx kvs)) with
  | error y =>
    simp only [reduceCtorEq, false_iff]
    intro h; cases h <;> simp_all
  | ok x =>
    have hplain : (∀ ts, x ≠ .typed ts) → (∀ v, (match sequenceDict (e.unpackPairs ctx kvs) with
          | .error x => .error x
          | .ok d => .ok (.dict d)) = (.ok v : Outcome Val) ↔ Unpacks e ctx (.obj kvs) v) := by
      intro ht v
      constructor
      · intro h
        cases hs : sequenceDict (e.unpackPairs ctx kvs) with
        | error y => rw [hs] at h; cases h
        | ok d =>
          rw [hs] at h; injection h with h; subst h
          obtain ⟨d', h1, h2⟩ := (sequenceDict_ok _ _).1 hs
          rw [unpackPairs_eq] at h1
          refine .plain ctx kvs d x hx ht ?_ ?_
          · have := congrArg (List.map Prod.fst) h1
            simp only [List.map_map, Function.comp_def] at this
            rw [h2]
            simp only [List.map_map, Function.comp_def]
            have h3 := congrArg (List.map Key.str) this
            simpa [List.map_map, Function.comp_def] using h3.symm
          · intro i p q hp hq
            have := congrArg (·[i]?) h1
            simp only [List.getElem?_map, hp, Option.map_some] at this
            rw [h2, List.getElem?_map] at hq
            cases hdi : d'[i]? with
            | none => rw [hdi] at hq; cases hq
            | some r =>
              rw [hdi] at hq this
              simp only [Option.map_some, Option.some.injEq, Prod.mk.injEq] at hq this
              rw [← hq]
              exact (ih p (List.mem_of_getElem? hp) _ _).1 this.2
      · intro h
        cases h with
        | plain _ _ d x' hx' ht' hkeys h =>
          have hs : sequenceDict (e.unpackPairs ctx kvs) = .ok d := by
            rw [sequenceDict_ok]
            refine ⟨List.zipWith (fun p q => (p.1, q.2)) kvs d, ?_, ?_⟩
            · rw [unpackPairs_eq]
              have hl : d.length = kvs.length := by simpa using congrArg List.length hkeys
              apply List.ext_getElem?
              intro i
              rw [List.getElem?_map, List.getElem?_map, List.getElem?_zipWith]
              cases hk : kvs[i]? with
              | none => rfl
              | some p =>
                have : i < d.length := by rw [hl]; exact (List.getElem?_eq_some_iff.1 hk).1
                rw [List.getElem?_eq_getElem this]
                simp only [Option.map_some]
                rw [(ih p (List.mem_of_getElem? hk) _ _).2 (h i p _ hk (List.getElem?_eq_getElem this))]
            · have hl : d.length = kvs.length := by simpa using congrArg List.length hkeys
              apply List.ext_getElem?
              intro i
              rw [List.getElem?_map, List.getElem?_zipWith]
              cases hk : kvs[i]? with
              | none =>
                have : d.length ≤ i := by rw [hl]; exact List.getElem?_eq_none_iff.1 hk
                rw [List.getElem?_eq_none this]; rfl
              | some p =>
                have : i < d.length := by rw [hl]; exact (List.getElem?_eq_some_iff.1 hk).1
                rw [List.getElem?_eq_getElem this]
                simp only [Option.map_some, Option.some.injEq]
                have h3 := congrArg (·[i]?) hkeys
                simp only [List.getElem?_map, hk, List.getElem?_eq_getElem this, Option.map_some, Option.some.injEq] at h3
                exact Prod.ext h3 rfl
          rw [hs]
        | unknown _ _ t ts hx' hc => rw [hx] at hx'; injection hx' with hx'; exact absurd hx' (ht _)
        | typed _ _ _ t ts cls hx' hc h => rw [hx] at hx'; injection hx' with hx'; exact absurd hx' (ht _)
    cases x with
    | empty => simp only []; exact hplain (fun _ h => by cases h) v
    | untyped => simp only []; exact hplain (fun _ h => by cases h) v
    | typed ts =>
      simp only []
      cases hg : e.getObjectClass (withContext ctx kvs) with
      | error y =>
        simp only [reduceCtorEq, false_iff]
        intro h
        cases h with
        | plain _ _ d x' hx' ht' hkeys h => rw [hx] at hx'; injection hx' with hx'; exact absurd hx'.symm (ht' _)
        | unknown _ _ t ts hx' hc =>
          have := getObjectClass_ok.2 ⟨_, t, hx', .typed t ts, rfl⟩
          rw [hg] at this; cases this
        | typed _ _ _ t ts cls hx' hc h =>
          have := getObjectClass_ok.2 ⟨_, t, hx', .typed t ts, rfl⟩
          rw [hg] at this; cases this
      | ok o =>
        obtain ⟨x, t, hx1, ht1, hc1⟩ := getObjectClass_ok.1 hg
        rw [hx] at hx1; injection hx1 with hx1; subst hx1
        cases ht1 with
        | typed _ ts =>
        cases o with
        | none =>
          simp only [Except.ok.injEq]
          constructor
          · rintro rfl; exact .unknown ctx kvs t ts hx (classFor_none.1 hc1)
          · intro h
            cases h with
            | plain _ _ d x' hx' ht' hkeys h => rw [hx] at hx'; injection hx' with hx'; exact absurd hx'.symm (ht' _)
            | unknown => rfl
            | typed _ _ _ t' ts' cls hx' hc h =>
              rw [hx] at hx'; injection hx' with hx'; injection hx' with hx'; injection hx' with h1 h2; subst h1
              rw [← classFor_some, hc1] at hc; cases hc
        | some cls =>
          simp only []
          rw [hfin]
          constructor
          · intro h; exact .typed ctx kvs v t ts cls hx (classFor_some.1 hc1) h
          · intro h
            cases h with
            | plain _ _ d x' hx' ht' hkeys h => rw [hx] at hx'; injection hx' with hx'; exact absurd hx'.symm (ht' _)
            | unknown _ _ t' ts' hx' hc =>
              rw [hx] at hx'; injection hx' with hx'; injection hx' with hx'; injection hx' with h1 h2; subst h1
              rw [← classFor_none, hc1] at hc; cases hc
            | typed _ _ _ t' ts' cls hx' hc h => exact h

mutual
theorem unpack_iff {e : Engine} (he : NoContextProperty e) : (t : Tree) → ∀ ctx v,
    e.unpack ctx t = .ok v ↔ Unpacks e ctx t v
  | .null => by
    intro ctx v; rw [Engine.unpack, Except.ok.injEq]
    exact ⟨by rintro rfl; exact .null _, by intro h; cases h; rfl⟩
  | .bool b => by
    intro ctx v; rw [Engine.unpack, Except.ok.injEq]
    exact ⟨by rintro rfl; exact .bool _ _, by intro h; cases h; rfl⟩
  | .int b => by
    intro ctx v; rw [Engine.unpack, Except.ok.injEq]
    exact ⟨by rintro rfl; exact .int _ _, by intro h; cases h; rfl⟩
  | .float b r => by
    intro ctx v; rw [Engine.unpack, Except.ok.injEq]
    exact ⟨by rintro rfl; exact .float _ _ _, by intro h; cases h; rfl⟩
  | .str b => by
    intro ctx v; rw [Engine.unpack, Except.ok.injEq]
    exact ⟨by rintro rfl; exact .str _ _, by intro h; cases h; rfl⟩
  | .arr xs => by
    intro ctx v
    have ih := unpackAll_iff he xs
    rw [Engine.unpack, unpackAll_eq]
    constructor
    · intro h
      cases hs : sequence (xs.map (e.unpack ctx)) with
      | error y => rw [hs] at h; cases h
      | ok vs =>
        rw [hs] at h; injection h with h; subst h
        have h1 := (sequence_ok _ _).1 hs
        refine .arr ctx xs vs (by simpa using (congrArg List.length h1).symm) ?_
        intro i x v hx hv
        have := congrArg (·[i]?) h1
        simp only [List.getElem?_map, hx, hv, Option.map_some, Option.some.injEq] at this
        exact (ih x (List.mem_of_getElem? hx) _ _).1 this
    · intro h
      cases h with
      | arr _ _ vs hlen h =>
        have hs : sequence (xs.map (e.unpack ctx)) = .ok vs := by
          rw [sequence_ok]
          apply List.ext_getElem?
          intro i
          rw [List.getElem?_map, List.getElem?_map]
          cases hk : xs[i]? with
          | none =>
            have : vs.length ≤ i := by rw [hlen]; exact List.getElem?_eq_none_iff.1 hk
            rw [List.getElem?_eq_none this]; rfl
          | some x =>
            have : i < vs.length := by rw [hlen]; exact (List.getElem?_eq_some_iff.1 hk).1
            rw [List.getElem?_eq_getElem this]
            simp only [Option.map_some, Option.some.injEq]
            exact (ih x (List.mem_of_getElem? hk) _ _).2 (h i x _ hk (List.getElem?_eq_getElem this))
        rw [hs]
  | .obj kvs => by
    intro ctx v
    exact unpackObj_ok he (unpackPairs_iff he kvs)
theorem unpackAll_iff {e : Engine} (he : NoContextProperty e) : (xs : List Tree) → ∀ x ∈ xs, ∀ ctx v,
    e.unpack ctx x = .ok v ↔ Unpacks e ctx x v
  | [] => by simp
  | y :: ys => by
    intro x hx
    rcases List.mem_cons.1 hx with h | h
    · rw [h]; exact unpack_iff he y
    · exact unpackAll_iff he ys x h
theorem unpackPairs_iff {e : Engine} (he : NoContextProperty e) : (kvs : List (String × Tree)) → ∀ p ∈ kvs, ∀ ctx v,
    e.unpack ctx p.2 = .ok v ↔ Unpacks e ctx p.2 v
  | [] => by simp
  | (k, y) :: ys => by
    intro p hp
    rcases List.mem_cons.1 hp with h | h
    · rw [h]; exact unpack_iff he y
    · exact unpackPairs_iff he ys p h
end

/-! ### C60 -/

/-- C60: `from_json` returns exactly what the specification says: it builds `v` iff the document loads as `v`. -/
theorem from_json_builds {e : Engine} (he : NoContextProperty e) (kvs : List (String × Tree)) (v : Val) :
    e.fromJson kvs = .ok v ↔ Loads e kvs v :=
  finish_ok (pairs_ok (fun _ _ _ => rfl) (unpackPairs_iff he kvs))

/-- C60: so do nested values. -/
theorem nested_values {e : Engine} (he : NoContextProperty e) (ctx t : Tree) (v : Val) :
    e.unpack ctx t = .ok v ↔ Unpacks e ctx t v := unpack_iff he t ctx v

/-- C60: a document is loaded in one way only. -/
theorem loads_unique {e : Engine} (he : NoContextProperty e) {kvs : List (String × Tree)} {v w : Val}
    (h : Loads e kvs v) (h' : Loads e kvs w) : v = w := by
  rw [← from_json_builds he] at h h'
  rw [h] at h'; injection h'

/-- C60 (false in part): a document whose type has no class, in an engine without a default class, raises
AttributeError, not ValueError. -/
theorem unknown_type_attribute_error (e : Engine) (kvs : List (String × Tree)) (x : Expansion) (t : String)
    (hx : e.expand (.obj (normalized kvs)) = .ok x) (ht : TypeName x t) (hc : NoClass e t) :
    e.fromJson kvs = .error .attributeError := by
  unfold Engine.fromJson Engine.finish
  rw [getObjectClass_ok.2 ⟨x, t, hx, ht, classFor_none.2 hc⟩]

/-- C60 (false in part): a nested object whose type has no class is replaced by None, whatever it contains. -/
theorem nested_unknown_lost (e : Engine) (ctx : Tree) (kvs : List (String × Tree)) (t : String) (ts : List String)
    (hx : e.expand (.obj (withContext ctx kvs)) = .ok (.typed (t :: ts))) (hc : NoClass e t) :
    e.unpack ctx (.obj kvs) = .ok .none := by
  rw [Engine.unpack]; unfold Engine.unpackObj
  rw [hx, getObjectClass_ok.2 ⟨_, t, hx, .typed t ts, classFor_none.2 hc⟩]

mutual
/-- Whether a dictionary with a type is anywhere in a value. -/
inductive HasTyped (e : Engine) : Tree → Tree → Prop
  | here (ctx : Tree) (kvs : List (String × Tree)) (ts : List String)
      (hx : e.expand (.obj (withContext ctx kvs)) = .ok (.typed ts)) : HasTyped e ctx (.obj kvs)
  | arr (ctx : Tree) (xs : List Tree) (x : Tree) (hm : x ∈ xs) (h : HasTyped e ctx x) : HasTyped e ctx (.arr xs)
  | obj (ctx : Tree) (kvs : List (String × Tree)) (p : String × Tree) (hm : p ∈ kvs) (h : HasTyped e ctx p.2) :
      HasTyped e ctx (.obj kvs)
end

mutual
theorem plain_unchanged' (e : Engine) : (t : Tree) → ∀ ctx, (∀ s, ∃ x, e.expand s = .ok x) → ¬ HasTyped e ctx t →
    e.unpack ctx t = .ok t.toVal
  | .null => by intros; rw [Engine.unpack, Tree.toVal]
  | .bool b => by intros; rw [Engine.unpack, Tree.toVal]
  | .int i => by intros; rw [Engine.unpack, Tree.toVal]
  | .float n r => by intros; rw [Engine.unpack, Tree.toVal]
  | .str s => by intros; rw [Engine.unpack, Tree.toVal]
  | .arr xs => by
    intro ctx hex h
    have := plain_all e xs ctx hex fun x hx hh => h (.arr ctx xs x hx hh)
    rw [Engine.unpack, this, Tree.toVal]
  | .obj kvs => by
    intro ctx hex h
    have := plain_pairs e kvs ctx hex fun p hp hh => h (.obj ctx kvs p hp hh)
    rw [Engine.unpack, Tree.toVal]
    unfold Engine.unpackObj
    obtain ⟨x, hx⟩ := hex (.obj (withContext ctx kvs))
    rw [hx]
    cases x with
    | typed ts => exact absurd (.here ctx kvs ts hx) h
    | empty => simp only [this]
    | untyped => simp only [this]
theorem plain_all (e : Engine) : (xs : List Tree) → ∀ ctx, (∀ s, ∃ x, e.expand s = .ok x) →
    (∀ x ∈ xs, ¬ HasTyped e ctx x) → sequence (e.unpackAll ctx xs) = .ok (toVals xs)
  | [] => by intros; simp [Engine.unpackAll, sequence, toVals]
  | y :: ys => by
    intro ctx hex h
    have h1 := plain_unchanged' e y ctx hex (h y List.mem_cons_self)
    have h2 := plain_all e ys ctx hex fun x hx => h x (List.mem_cons_of_mem _ hx)
    simp only [Engine.unpackAll, h1, sequence, h2, toVals]
theorem plain_pairs (e : Engine) : (kvs : List (String × Tree)) → ∀ ctx, (∀ s, ∃ x, e.expand s = .ok x) →
    (∀ p ∈ kvs, ¬ HasTyped e ctx p.2) → sequenceDict (e.unpackPairs ctx kvs) = .ok (toPairs kvs)
  | [] => by intros; simp [Engine.unpackPairs, sequenceDict, toPairs]
  | (k, y) :: ys => by
    intro ctx hex h
    have h1 := plain_unchanged' e y ctx hex (h (k, y) List.mem_cons_self)
    have h2 := plain_pairs e ys ctx hex fun x hx => h x (List.mem_cons_of_mem _ hx)
    simp only [Engine.unpackPairs, h1, sequenceDict, h2, toPairs]
end

/-- C60: a value without any typed dictionary in it, of whatever depth, arrives unchanged. -/
theorem plain_unchanged (e : Engine) (hex : ∀ s, ∃ x, e.expand s = .ok x) (ctx t : Tree)
    (h : ¬ HasTyped e ctx t) : e.unpack ctx t = .ok t.toVal := plain_unchanged' e t ctx hex h

/-! ### Non-vacuity -/

/-- An engine whose `expand` looks for a string under "type" and whose only class is Note. -/
def noteEngine : Engine where
  expand t := match t with
    | .obj kvs => match kvs.dget "type" with
      | some (.str s) => .ok (.typed ["ns#" ++ s])
      | _ => .ok .untyped
    | _ => .ok .empty
  registry := [("ns#Note", "Note")]
  props _ := ["content", "tag"]
  construct cls kw := .ok (.obj cls kw)

theorem noteEngine_ok : NoContextProperty noteEngine := by
  intro cls; show "@context" ∉ ["content", "tag"]; decide

/-- A note with a nested note, a nested unknown object, a plain dictionary and an undeclared key. -/
def sampleNote : List (String × Tree) :=
  [("type", .str "Note"), ("extra", .int 1),
   ("tag", .arr [.obj [("type", .str "Note"), ("content", .str "in")], .obj [("type", .str "Odd")],
     .obj [("a", .arr [.int 1])], .int 3])]

example : noteEngine.fromJson sampleNote = .ok (.obj "Note" [("content", .none),
    ("tag", .list [.obj "Note" [("content", .str "in"), ("tag", .none),
        ("acontext", .str "http://www.w3.org/ns/activitystreams#")],
      .none, .dict [(.str "a", .list [.int 1])], .int 3]),
    ("acontext", .str "http://www.w3.org/ns/activitystreams#")]) := by rfl

example : noteEngine.fromJson [("type", .str "Odd")] = .error .attributeError := by rfl

end Verif.Props
