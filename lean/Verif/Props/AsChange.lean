import Verif.AS.Change
import Verif.Props.Change
import Verif.Props.AsLoad

/-!
# Objects that are not packaged, read through packaged classes (C66, C82)
-/
namespace Verif.Props
open Verif Verif.Jsonld Verif.AS

variable {J : Type}

/-! ### Specification -/

/-- What an object that is not packaged has for a name (None if nothing). -/
def RawHas (w : World J) (c : String) (s : Slots) (q : String) (v : Val) : Prop :=
  getAttr w false c s q = .ok v ∨ (getAttr w false c s q = .error .attributeError ∧ v = .none)

/-- The namespace of a class of the vocabulary: the one of ActivityStreams, with the type of the class. -/
def vocabNs (c : String) (n : Val) : Prop := ∃ row, classRow c = some row ∧ n = .str (asNs ++ "#" ++ row.type)

/-- The first class that was read of those a class descends from (itself included). -/
def nearestRead (read : List String) (c : String) : Option String := (mroOf c).find? fun a => decide (a ∈ read)

/-! ### The object (C66) -/

theorem lang_getattr (w : World J) (h : Change.Heap Kind) {n : String} (hn : n ≠ "__namespace__") :
    Change.getattr (asLang w) h n = getAttr w h.cls.1 h.cls.2 h.attrs n := by
  unfold Change.getattr getAttr
  rw [if_neg hn]
  show (match (match attrOf h.cls.1 h.cls.2 n with
    | .prop r => some (.prop ⟨fun s => (r.get w.web s).1, some fun s v => r.set w.env w.link s v⟩)
    | .const v => some (.const v)
    | .plain => none : Option Change.Member) with
    | some (.prop p) => p.get h.attrs
    | some (.const v) => .ok ((h.attrs.dget n).getD v)
    | none => match h.attrs.dget n with
      | some v => .ok v
      | none => .error .attributeError) = _
  cases attrOf h.cls.1 h.cls.2 n <;> rfl

theorem lang_setattr (w : World J) (sw : Bool) (h : Change.Heap Kind) {n : String} (hn : n ≠ "__namespace__") (v : Val) :
    Change.setattr (asLang w) sw h n v = ((setAttr w h.cls.1 h.cls.2 h.attrs n v).1, { h with attrs := (setAttr w h.cls.1 h.cls.2 h.attrs n v).2 }) := by
  unfold Change.setattr setAttr
  rw [if_neg hn]
  show (match (match attrOf h.cls.1 h.cls.2 n with
    | .prop r => some (.prop ⟨fun s => (r.get w.web s).1, some fun s v => r.set w.env w.link s v⟩)
    | .const v => some (.const v)
    | .plain => none : Option Change.Member) with
    | some (.prop p) => match p.set with
      | none => ((.error .attributeError : Outcome Unit), h)
      | some f => ((f h.attrs v).1, { h with attrs := (f h.attrs v).2 })
    | _ => (.ok (), { h with attrs := h.attrs.dset n v })) = _
  cases attrOf h.cls.1 h.cls.2 n <;> rfl

theorem names_public : ∀ c ∈ pkgClasses, ∀ q ∈ propNames c, q = "__namespace__" ∨ q.toList.head? ≠ some '_' := by decide +kernel

theorem readObject_eq (w : World J) (ns : Kind → Option (Change.NsDef Kind)) {c : String} (hc : c ∈ pkgClasses) (s : Slots) :
    readObject w ns c s = Change.changeClass (asLang w) true (rawObject ns c s) (true, c) := by
  have e : objectRef (rawObject ns c s).cls = some (true, c) := by
    show (if pkgClasses.contains c = true then some (true, c) else none : Option Kind) = _
    rw [if_pos (by simpa using hc)]
  unfold readObject Change.wrapReturn
  rw [e]

/-- A class that is not packaged has no properties. -/
theorem raw_no_prop (c q : String) (r : PropRow) : attrOf false c q ≠ .prop r := by
  intro ha
  unfold attrOf at ha
  cases hf : (mroOf c).findSome? fun c => attrIn false c q with
  | none => rw [hf] at ha; cases ha
  | some y =>
    rw [hf] at ha; simp only [Option.getD_some] at ha; subst ha
    obtain ⟨c, -, hc'⟩ := List.exists_of_findSome?_eq_some hf
    unfold attrIn at hc'
    simp only [Bool.false_eq_true, if_false, List.find?_nil] at hc'
    split_ifs at hc'
    cases hcr : classRow c with
    | none => rw [hcr] at hc'; cases hc'
    | some z => rw [hcr] at hc'; simp at hc'

theorem raw_listed (w : World J) (ns : Kind → Option (Change.NsDef Kind)) {c : String} (s : Slots) {q : String} :
    (q ∈ (asLang w).listed (true, c) ∨ q ∈ (rawObject ns c s).props) ↔ q ∈ propNames c := by
  show (q ∈ propNames c ∨ q ∈ ["acontext", "__namespace__"]) ↔ _
  constructor
  · rintro (h | h)
    · exact h
    · simp only [List.mem_cons, List.not_mem_nil, or_false] at h
      rcases h with rfl | rfl <;> simp [propNames]
  · exact fun h => .inl h

theorem raw_had (w : World J) (ns : Kind → Option (Change.NsDef Kind)) {c : String} (s : Slots) {q : String} (hq : q ≠ "__namespace__") (v : Val) :
    HadValue (asLang w) (rawObject ns c s) q v ↔ RawHas w c s q v := by
  unfold HadValue RawHas
  rw [lang_getattr w _ hq]
  rfl

/-- C66 (partial): if reading an object that is not packaged succeeds, it is an object of the packaged class afterwards, and every property
of that class but `hreflang` has the value the object had under that name (links and dates converted), unless assigning that value raises
AttributeError. -/
theorem read_keeps_partial (w : World J) (ns : Kind → Option (Change.NsDef Kind)) {c : String} (hc : c ∈ pkgClasses) (s : Slots)
    (h' : Change.Heap Kind) (h : readObject w ns c s = (.ok (), h')) : h'.cls = (true, c) ∧ ∀ q ∈ propNames c, q ≠ "__namespace__" → q ≠ "hreflang" →
      ∃ v, RawHas w c s q v ∧ (Holds w true c h'.attrs q v ∨ (setAttr w true c h'.attrs q v).1 = .error .attributeError) := by
  rw [readObject_eq w ns hc] at h
  obtain ⟨h1, h2⟩ := change_keeps_obs _ _ _ _ _ h
  refine ⟨h1, fun q hq hqn hqh => ?_⟩
  have hpub := (names_public c hc q hq).resolve_left hqn
  obtain ⟨v, hv, h3⟩ := h2 q ((raw_listed w ns s).2 hq)
  refine ⟨v, (raw_had w ns s hqn v).1 hv, ?_⟩
  by_cases hae : storesAt w true c q v = .error .attributeError
  · right; rw [setAttr_eq, hae]
  left
  have hset : ∀ (x : Change.Heap Kind) (n : String) (v : Val), n ≠ "__namespace__" → x.cls = (true, c) →
      Change.setattr (asLang w) true x n v = ((setAttr w true c x.attrs n v).1, { x with attrs := (setAttr w true c x.attrs n v).2 }) := by
    intro x n v hn hx
    rw [lang_setattr w true x hn, hx]
  have hk : KeepsObs (asLang w) true (true, c) ((asLang w).listed (true, c) ++ (rawObject ns c s).props) q v
      (fun x => ∃ y, storesAt w true c q v = .ok y ∧ x.attrs.dget (slotOf true c q) = some y) := by
    refine ⟨?_, ?_, ?_⟩
    · intro x hx he
      rw [hset x q v hqn hx, setAttr_eq] at he
      rcases hst : storesAt w true c q v with e | y
      · rw [hst] at he hae
        simp only at he
        injection he with he; exact hae (congrArg _ he)
      · rw [hst] at he; cases he
    · intro x u hx hok
      rw [hset x q v hqn hx, setAttr_eq] at hok ⊢
      rcases hst : storesAt w true c q v with e | y
      · rw [hst] at hok; cases hok
      · exact ⟨y, rfl, by simp [PyDict.dget_dset]⟩
    · rintro x m v' hx hm hne ⟨y, hy, hslot⟩
      refine ⟨y, hy, ?_⟩
      by_cases hmn : m = "__namespace__"
      · subst hmn
        unfold Change.setattr
        rw [if_pos rfl]
        exact hslot
      · have hm' : m ∈ propNames c := (raw_listed w ns s).1 (List.mem_append.1 hm)
        have hmp := (names_public c hc m hm').resolve_left hmn
        rw [hset x m v' hmn hx, setAttr_eq]
        rcases storesAt w true c m v' with e | z
        · exact hslot
        · simp only
          rw [PyDict.dget_dset, if_neg, hslot]
          intro he
          exact hne (slotOf_inj hmp hpub he.symm)
  obtain ⟨y, hy, hslot⟩ := h3 _ hk
  unfold Holds
  unfold storesAt at hy
  unfold slotOf at hslot
  cases ha : attrOf true c q with
  | prop r =>
    obtain ⟨hr, hn⟩ := attrOf_prop ha
    rw [ha] at hy hslot
    simp only at hy hslot ⊢
    refine ⟨y, stores_spec (parse_rows r hr) hy, ?_⟩
    unfold PropRow.stored
    rw [slots_agree r hr (by rw [hn]; exact hqh), hslot]
  | const v => rw [ha] at hy hslot; simp only at hy hslot ⊢; injection hy with hy; rw [hslot, hy]
  | plain => rw [ha] at hy hslot; simp only at hy hslot ⊢; injection hy with hy; rw [hslot, hy]

/-- If it raises, the object is already one of the packaged class, and some property refuses the value the object had. -/
theorem read_raises (w : World J) (ns : Kind → Option (Change.NsDef Kind)) {c : String} (hc : c ∈ pkgClasses) (s : Slots) (e : PyErr)
    (h' : Change.Heap Kind) (h : readObject w ns c s = (.error e, h')) : h'.cls = (true, c) ∧ e ≠ .attributeError ∧
      ∃ q ∈ propNames c, ∃ v, RawHas w c s q v ∧ (setAttr w true c h'.attrs q v).1 = .error e := by
  rw [readObject_eq w ns hc] at h
  rcases change_raises _ _ _ _ _ _ h with ⟨-, hne, q, hq, hg⟩ | ⟨h1, h2, q, v, x, hq, hv, hx, hs⟩
  · exfalso
    by_cases hn : q = "__namespace__"
    · rw [hn] at hg; cases hg
    · rw [lang_getattr w _ hn] at hg
      change getAttr w false c s q = _ at hg
      unfold getAttr at hg
      cases ha : attrOf false c q with
      | prop r => exact raw_no_prop c q r ha
      | const v => rw [ha] at hg; cases hg
      | plain =>
        rw [ha] at hg
        unfold Attr.get at hg
        simp only at hg
        cases hd : s.dget q with
        | some v => rw [hd] at hg; cases hg
        | none => rw [hd] at hg; injection hg with hg; exact hne hg.symm
  · refine ⟨h1, h2, q, (raw_listed w ns s).1 hq, v, ?_⟩
    by_cases hn : q = "__namespace__"
    · subst hn
      unfold Change.setattr at hs
      rw [if_pos rfl, if_pos rfl] at hs
      cases hs
    · refine ⟨(raw_had w ns s hn v).1 hv, ?_⟩
      rw [lang_setattr w true x hn, hx] at hs
      change (setAttr w true c x.attrs q v).1 = _ at hs
      rw [setAttr_eq] at hs ⊢
      rcases hst : storesAt w true c q v with e' | y
      · rw [hst] at hs; exact hs
      · rw [hst] at hs; exact hs

/-! ### Namespaces (C82) -/

theorem raw_mro_def : ∀ c ∈ pkgClasses, ((mroOf c).find? fun a => a == "Object" || a == "Link" || a == "NamespacedObject") = some "Object" ∨
    ((mroOf c).find? fun a => a == "Object" || a == "Link" || a == "NamespacedObject") = some "Link" := by decide +kernel

/-- The packaged classes of an mro end with Object or Link, which occur only there. -/
theorem pkg_mro_def : ∀ c ∈ pkgClasses, ((mroOf c).filter fun a => pkgClasses.contains a).getLast? = some "Object" ∨
    ((mroOf c).filter fun a => pkgClasses.contains a).getLast? = some "Link" := by decide +kernel

theorem pkg_mro_only : ∀ c ∈ pkgClasses, ∀ a ∈ ((mroOf c).filter fun a => pkgClasses.contains a).dropLast, a ≠ "Object" ∧ a ≠ "Link" := by
  decide +kernel

/-- The namespaces of the classes once objects of the classes `read` were read. -/
def nsRead (repr : String → String) (read : List String) : Kind → Option (Change.NsDef Kind) := fun k =>
  if k.1 = true ∧ k.2 ∈ read then some (.const (.str ((classNs k.2).getD ""))) else nsDefs repr k

theorem classNs_some {c : String} (hc : c ∈ pkgClasses) : classNs c = some ((classNs c).getD "") := by
  have h : ∀ c ∈ pkgClasses, (classNs c).isSome = true := by decide +kernel
  have := h c hc
  revert this
  cases classNs c <;> simp

theorem raw_ns (repr : String → String) (read : List String) {c : String} (hc : c ∈ pkgClasses) :
    Change.nsOf kindMro (nsRead repr read) (false, c) = .str ((classNs c).getD "") := by
  have hf : ((mroOf c).map fun a => ((false, a) : Kind)).findSome? (nsRead repr read) = some (.method (typeNs repr)) := by
    rw [List.findSome?_map]
    have e : ∀ a, (nsRead repr read ∘ fun a => (false, a)) a = nsDefs repr (false, a) := by intro a; simp [nsRead]
    have key : ∀ l : List String, (l.find? (fun a => a == "Object" || a == "Link" || a == "NamespacedObject") = some "Object" ∨
        l.find? (fun a => a == "Object" || a == "Link" || a == "NamespacedObject") = some "Link") →
        l.findSome? (nsRead repr read ∘ fun a => (false, a)) = some (.method (typeNs repr)) := by
      intro l
      induction l with
      | nil => intro h; rcases h with h | h <;> cases h
      | cons a l ih =>
        intro h
        rw [List.findSome?_cons, e]
        rw [List.find?_cons] at h
        by_cases h1 : a = "Object"
        · subst h1; simp [nsDefs]
        by_cases h2 : a = "Link"
        · subst h2; simp [nsDefs]
        by_cases h3 : a = "NamespacedObject"
        · subst h3; simp at h
        · have hno : nsDefs repr (false, a) = none := by simp [nsDefs, h1, h2, h3]
          rw [hno]
          simp only [beq_eq_false_iff_ne.2 h1, beq_eq_false_iff_ne.2 h2, beq_eq_false_iff_ne.2 h3, Bool.or_self] at h
          exact ih h
    exact key _ (raw_mro_def c hc)
  unfold Change.nsOf
  rw [show kindMro (false, c) = (mroOf c).map fun a => ((false, a) : Kind) from rfl, hf]
  have e : typeNs repr (false, c) = match classNs c with | some n => .str n | none => .none := rfl
  show typeNs repr (false, c) = _
  rw [e, classNs_some hc]
  rfl

theorem pkg_ns (repr : String → String) (read : List String) (hr : ∀ a ∈ read, a ∈ pkgClasses) {c : String} (hc : c ∈ pkgClasses) :
    Change.nsOf kindMro (nsRead repr read) (true, c) = match nearestRead read c with
      | some a => .str ((classNs a).getD "")
      | none => typeNs repr (true, c) := by
  have key : ∀ l : List String, (l.getLast? = some "Object" ∨ l.getLast? = some "Link") → (∀ a ∈ l.dropLast, a ≠ "Object" ∧ a ≠ "Link") →
      (l.map fun a => ((true, a) : Kind)).findSome? (nsRead repr read) = match l.find? (fun a => decide (a ∈ read)) with
        | some a => some (.const (.str ((classNs a).getD "")))
        | none => some (.method (typeNs repr)) := by
    intro l
    induction l with
    | nil => intro h; rcases h with h | h <;> cases h
    | cons a l ih =>
      intro h1 h2
      rw [List.map_cons, List.findSome?_cons, List.find?_cons]
      by_cases ha : a ∈ read
      · simp [nsRead, ha]
      · have e : nsRead repr read (true, a) = nsDefs repr (true, a) := by simp [nsRead, ha]
        rw [e]
        simp only [ha, decide_false]
        cases l with
        | nil =>
          have ha' : a = "Object" ∨ a = "Link" := by simpa using h1
          rcases ha' with rfl | rfl <;> simp [nsDefs]
        | cons b l =>
          have h3 := h2 a (by simp)
          have hno : nsDefs repr (true, a) = none := by simp [nsDefs, h3.1, h3.2]
          rw [hno]
          refine ih ?_ ?_
          · simpa using h1
          · intro d hd; exact h2 d (by simpa using Or.inr hd)
  have hk := key _ (pkg_mro_def c hc) (pkg_mro_only c hc)
  have hfind : ((mroOf c).filter fun a => pkgClasses.contains a).find? (fun a => decide (a ∈ read)) = nearestRead read c := by
    unfold nearestRead
    rw [List.find?_filter]
    congr 1
    funext a
    by_cases ha : a ∈ read
    · simp [ha, hr a ha]
    · simp [ha]
  rw [hfind] at hk
  unfold Change.nsOf
  rw [show kindMro (true, c) = (((mroOf c).filter fun a => pkgClasses.contains a).map fun a => ((true, a) : Kind)) ++
    (mroOf c).map fun a => ((false, a) : Kind) from rfl, List.findSome?_append, hk]
  cases nearestRead read c <;> rfl

theorem namespace_listed (w : World J) (c : String) : "__namespace__" ∈ (asLang w).listed (true, c) := by
  show "__namespace__" ∈ propNames c
  simp [propNames]

theorem readAll_ns (w : World J) (repr : String → String) (l : List (String × Slots)) (hl : ∀ x ∈ l, x.1 ∈ pkgClasses) (read : List String)
    (ns : Kind → Option (Change.NsDef Kind)) (h : readAll w l (nsRead repr read) = .ok ns) :
    ns = nsRead repr (read ++ l.map (·.1)) := by
  induction l generalizing read with
  | nil => injection h with h; rw [← h]; simp
  | cons x l ih =>
    obtain ⟨c, s⟩ := x
    have hc : c ∈ pkgClasses := hl _ (List.mem_cons_self ..)
    unfold readAll at h
    rcases hr : readObject w (nsRead repr read) c s with ⟨e | u, h'⟩
    · rw [hr] at h; cases h
    rw [hr] at h
    simp only at h
    rw [readObject_eq w _ hc] at hr
    have hns := change_sets_ns (asLang w) _ _ _ (.inl (namespace_listed w c)) hr
    have e : h'.ns = nsRead repr (read ++ [c]) := by
      rw [hns]
      show Change.putNs (nsRead repr read) (true, c) (Change.nsOf kindMro (nsRead repr read) (false, c)) = _
      rw [raw_ns repr read hc]
      funext k
      obtain ⟨b, d⟩ := k
      unfold Change.putNs nsRead
      by_cases hb : b = true
      · subst hb
        by_cases hd : d = c
        · subst hd; simp
        · simp [hd]
      · simp [hb]
    rw [e] at h
    have := ih (fun x hx => hl x (List.mem_cons_of_mem _ hx)) _ h
    rw [this]
    simp

theorem nsRead_nil (repr : String → String) : nsRead repr [] = nsDefs repr := by
  funext k; simp [nsRead]

/-- C82: after any number of objects that are not packaged were read through packaged ones, the namespace of a packaged class is the one of
the nearest class it descends from of which an object was read; if there is none, it is unchanged.  (That it can change at all means
that C82 is false of the code.)  The namespaces of the original classes are unchanged. -/
theorem namespaces_after_reads (w : World J) (repr : String → String) (l : List (String × Slots)) (hl : ∀ x ∈ l, x.1 ∈ pkgClasses)
    (ns : Kind → Option (Change.NsDef Kind)) (h : readAll w l (nsDefs repr) = .ok ns) (c : String) (hc : c ∈ pkgClasses) :
    (match nearestRead (l.map (·.1)) c with
      | some a => vocabNs a (Change.nsOf kindMro ns (true, c))
      | none => Change.nsOf kindMro ns (true, c) = Change.nsOf kindMro (nsDefs repr) (true, c)) ∧
    vocabNs c (Change.nsOf kindMro ns (false, c)) := by
  have voc : ∀ a ∈ pkgClasses, vocabNs a (.str ((classNs a).getD "")) := by
    intro a ha
    have hs := class_rows a ha
    obtain ⟨row, hrow⟩ := Option.isSome_iff_exists.1 hs
    refine ⟨row, hrow, ?_⟩
    unfold classNs
    rw [hrow]; rfl
  rw [← nsRead_nil] at h
  have := readAll_ns w repr l hl [] ns h
  rw [List.nil_append] at this
  subst this
  have hr : ∀ a ∈ l.map (·.1), a ∈ pkgClasses := by
    intro a ha
    obtain ⟨x, hx, rfl⟩ := List.mem_map.1 ha
    exact hl x hx
  refine ⟨?_, by rw [raw_ns repr _ hc]; exact voc c hc⟩
  rw [pkg_ns repr _ hr hc]
  cases hn : nearestRead (l.map (·.1)) c with
  | some a =>
    have ha : a ∈ l.map (·.1) := by
      have := List.find?_some hn
      simpa using this
    exact voc a (hr a ha)
  | none =>
    simp only
    rw [← nsRead_nil, pkg_ns repr [] (fun a ha => by cases ha) hc]
    have : nearestRead [] c = none := by simp [nearestRead]
    rw [this]

theorem find_head {c : String} {l read : List String} (h : l.head? = some c) (hc : c ∈ read) :
    l.find? (fun a => decide (a ∈ read)) = some c := by
  cases l with
  | nil => cases h
  | cons a l =>
    injection h with h
    subst h
    simp [hc]

theorem exists_first {cs : List Cls} {n : Option String} (h : ∃ (j : Nat) (k : Cls), cs[j]? = some k ∧ k.ns = n) : ∃ i, IsFirst cs n i := by
  classical
  have h' : ∃ j, ∃ k : Cls, cs[j]? = some k ∧ k.ns = n := h
  refine ⟨Nat.find h', Nat.find_spec h', fun j d hj hd he => ?_⟩
  exact Nat.find_min h' hj ⟨d, hd, he⟩

theorem type_inj : ∀ c ∈ pkgClasses, ∀ d ∈ pkgClasses, (classRow c).map (·.type) = (classRow d).map (·.type) → c = d := by decide +kernel

theorem typeNs_packaged (repr : String → String) : ∀ c ∈ pkgClasses, typeNs repr (true, c) =
    if c = "Object" ∨ c = "Link" then .str (asNs ++ "#" ++ repr c) else .str ((classNs c).getD "") := by
  intro c hc
  have h : ∀ c ∈ pkgClasses, ((linkedRows c).any (fun r => r.name == "type") = true) ↔ (c = "Object" ∨ c = "Link") := by decide +kernel
  have e : typeNs repr (true, c) = if (true && (linkedRows c).any (fun r => r.name == "type")) = true then .str (asNs ++ "#" ++ repr c)
    else match classNs c with | some n => .str n | none => .none := rfl
  rw [e, Bool.true_and]
  by_cases hh : c = "Object" ∨ c = "Link"
  · rw [if_pos hh, if_pos ((h c hc).2 hh)]
  · rw [if_neg hh, if_neg (fun x => hh ((h c hc).1 x)), classNs_some hc]; rfl

/-- C82: what an engine knows that is made after such objects were read: the type of a class is known exactly if an object of this very
class was read, or if none was read of any class it descends from (and it is not Object or Link). -/
theorem types_known_after_reads (w : World J) (repr : String → String) (hrepr : ∀ c, (repr c).toList.head? = some '<')
    (l : List (String × Slots)) (hl : ∀ x ∈ l, x.1 ∈ pkgClasses) (ns : Kind → Option (Change.NsDef Kind))
    (h : readAll w l (nsDefs repr) = .ok ns) : ∃ p e, createPackage = .ok p ∧ EngineObj.new (.pkg (withNs ns p)) = .ok e ∧
      ∀ c ∈ pkgClasses, ∀ row, classRow c = some row →
        ((∃ i, e.registry.dget (some (asNs ++ "#" ++ row.type)) = some i) ↔
          c ∈ l.map (·.1) ∨ (nearestRead (l.map (·.1)) c = none ∧ c ≠ "Object" ∧ c ≠ "Link")) := by
  obtain ⟨p, hp, hnobj, hlen, -, hcls⟩ := create_package_loads
  obtain ⟨e, hee⟩ : ∃ e, EngineObj.new (.pkg (withNs ns p)) = .ok e := ⟨_, rfl⟩
  refine ⟨p, e, hp, hee, fun c hc row hrow => ?_⟩
  rw [← nsRead_nil] at h
  have hns := readAll_ns w repr l hl [] ns h
  rw [List.nil_append] at hns
  have hr : ∀ a ∈ l.map (·.1), a ∈ pkgClasses := by
    intro a ha
    obtain ⟨x, hx, rfl⟩ := List.mem_map.1 ha
    exact hl x hx
  generalize l.map (·.1) = read at hns hr
  have hnsc : ∀ d ∈ pkgClasses, Change.nsOf kindMro ns (true, d) = match nearestRead read d with
      | some a => .str ((classNs a).getD "")
      | none => typeNs repr (true, d) := by
    intro d hd; rw [hns]; exact pkg_ns repr read hr hd
  have hn : (classNs c).getD "" = asNs ++ "#" ++ row.type := by unfold classNs; rw [hrow]; rfl
  -- classes with the namespace of c
  have hwho : ∀ d ∈ pkgClasses, Change.nsOf kindMro ns (true, d) = .str (asNs ++ "#" ++ row.type) ↔
      (nearestRead read d = some c ∨ (nearestRead read d = none ∧ d = c ∧ c ≠ "Object" ∧ c ≠ "Link")) := by
    intro d hd
    have same : ∀ a ∈ pkgClasses, (classNs a).getD "" = asNs ++ "#" ++ row.type → a = c := by
      intro a ha he
      obtain ⟨ra, hra⟩ := Option.isSome_iff_exists.1 (class_rows a ha)
      unfold classNs at he
      rw [hra] at he
      have := append_inj_left (show asNs ++ "#" ++ ra.type = asNs ++ "#" ++ row.type from he)
      exact type_inj a ha c hc (by rw [hra, hrow]; simp [this])
    rw [hnsc d hd]
    cases hnr : nearestRead read d with
    | some a =>
      have ha : a ∈ read := by
        have := List.find?_some hnr
        simpa using this
      simp only [Val.str.injEq, Option.some.injEq, reduceCtorEq, false_and, or_false]
      constructor
      · exact same a (hr a ha)
      · rintro rfl; exact hn
    | none =>
      simp only [reduceCtorEq, true_and, false_or]
      rw [typeNs_packaged repr d hd]
      by_cases ho : d = "Object" ∨ d = "Link"
      · rw [if_pos ho]
        constructor
        · intro he
          injection he with he
          have he := append_inj_left he
          exfalso
          have h1 := hrepr d
          rw [he] at h1
          have h2 : ∀ c ∈ pkgClasses, ((classRow c).all fun r => r.type.toList.head? != some '<') = true := by decide +kernel
          have h3 := h2 c hc
          rw [hrow] at h3
          simp [h1] at h3
        · rintro ⟨rfl, h1, h2⟩
          rcases ho with h | h
          · exact absurd h h1
          · exact absurd h h2
      · rw [if_neg ho]
        simp only [Val.str.injEq]
        constructor
        · intro he
          have := same d hd he
          subst this
          exact ⟨rfl, fun h => ho (.inl h), fun h => ho (.inr h)⟩
        · rintro ⟨rfl, -, -⟩; exact hn
  -- the objects of the package
  have hobj : ∀ (j : Nat) (k' : Cls), (withNs ns p).objects[j]? = some k' ↔ ∃ d ∈ pkgClasses, asOrder[j]? = some (false, d) ∧ ∃ k : Cls, p.classes[j]? = some k ∧
      k' = { k with ns := nsText (Change.nsOf kindMro ns (true, d)) } := by
    intro j k'
    unfold Package.objects withNs
    simp only [hnobj]
    rw [List.getElem?_take, List.getElem?_map]
    constructor
    · intro hh
      by_cases hj : j < pkgClasses.length
      · rw [if_pos hj, Option.map_eq_some_iff] at hh
        obtain ⟨k, hk, rfl⟩ := hh
        have hjo : j < asOrder.length := by rw [← hlen]; exact (List.getElem?_eq_some_iff.1 hk).1
        have hno : asOrder[j]? = some asOrder[j] := List.getElem?_eq_getElem hjo
        generalize hgn : asOrder[j] = n at hno
        obtain ⟨k', hk', k2, k3, k4, -⟩ := hcls j n hno
        cases (Option.some.inj (hk.symm.trans hk'))
        have hb := (asOrder_objects j n hno).1 hj
        obtain ⟨b, d⟩ := n
        simp only at hb; subst hb
        have hd : d ∈ pkgClasses := (mem_allNames _ _).1 ((mem_asOrder _).1 (List.mem_of_getElem? hno))
        have hpn : k.prop.isNone = true := by rw [Option.isNone_iff_eq_none, ← Option.not_isSome_iff_eq_none, k4]; simp
        refine ⟨d, hd, hno, k, hk, ?_⟩
        rw [if_pos hpn, k3]
      · rw [if_neg hj] at hh; cases hh
    · rintro ⟨d, hd, hno, k, hk, rfl⟩
      have hj := (asOrder_objects j _ hno).2 rfl
      rw [if_pos hj, hk]
      obtain ⟨k', hk', k2, k3, k4, -⟩ := hcls j _ hno
      cases (Option.some.inj (hk.symm.trans hk'))
      have hpn : k.prop.isNone = true := by rw [Option.isNone_iff_eq_none, ← Option.not_isSome_iff_eq_none, k4]; simp
      rw [Option.map_some, if_pos hpn, k3]
  have hval : ∀ v : Val, nsText v = some (asNs ++ "#" ++ row.type) ↔
      v = .str (asNs ++ "#" ++ row.type) := by
    intro v; cases v <;> simp [nsText]
  have step : (∃ i, e.registry.dget (some (asNs ++ "#" ++ row.type)) = some i) ↔
      ∃ d ∈ pkgClasses, Change.nsOf kindMro ns (true, d) = .str (asNs ++ "#" ++ row.type) := by
    constructor
    · rintro ⟨i, hi⟩
      obtain ⟨⟨k', hk', hkn⟩, -⟩ := (engine_registry _ _ hee _ _).1 hi
      obtain ⟨d, hd, -, k, -, rfl⟩ := (hobj _ _).1 hk'
      exact ⟨d, hd, (hval _).1 hkn⟩
    · rintro ⟨d, hd, hv⟩
      obtain ⟨j, hj, hjo⟩ := List.getElem_of_mem ((mem_asOrder (false, d)).2 ((mem_allNames false d).2 hd))
      have hjo' : asOrder[j]? = some (false, d) := by rw [List.getElem?_eq_getElem hj, hjo]
      obtain ⟨k, hk, -⟩ := hcls j _ hjo'
      obtain ⟨i, hi⟩ := exists_first (cs := (withNs ns p).objects) (n := some (asNs ++ "#" ++ row.type))
        ⟨j, _, (hobj j _).2 ⟨d, hd, hjo', k, hk, rfl⟩, (hval _).2 hv⟩
      exact ⟨i, (engine_registry _ _ hee _ _).2 hi⟩
  rw [step]
  constructor
  · rintro ⟨d, hd, hv⟩
    rcases (hwho d hd).1 hv with h1 | ⟨h1, rfl, h2, h3⟩
    · left
      have := List.find?_some h1
      simpa using this
    · exact .inr ⟨h1, h2, h3⟩
  · rintro (h1 | ⟨h1, h2, h3⟩)
    · refine ⟨c, hc, (hwho c hc).2 (.inl ?_)⟩
      have hm : ∀ c ∈ pkgClasses, (mroOf c).head? = some c := by decide +kernel
      exact find_head (hm c hc) h1
    · exact ⟨c, hc, (hwho c hc).2 (.inr ⟨h1, rfl, h2, h3⟩)⟩

/-! ### Examples -/

/-- Non-vacuity: an object that is not packaged is made and read. -/
example : ∃ s h', construct exWorld false "Note" [("id", .str "http://x.org/1"), ("name", .str "x")] = .ok s ∧
    readObject exWorld (nsDefs fun _ => "<x>") "Note" s = (.ok (), h') ∧
    getAttr exWorld true "Note" h'.attrs "name" = .ok (.str "x") := ⟨_, _, rfl, rfl, rfl⟩

/-- C66 is false of the code: a value whose conversion raises AttributeError is lost without notice. -/
theorem reading_loses : ∃ h', readObject exWorld (nsDefs fun _ => "<x>") "Note" [("attachment", .dict [(.str "href", .int 5)])] = (.ok (), h') ∧
    getAttr exWorld false "Note" [("attachment", .dict [(.str "href", .int 5)])] "attachment" = .ok (.dict [(.str "href", .int 5)]) ∧
    getAttr exWorld true "Note" h'.attrs "attachment" = .ok .none := ⟨_, rfl, rfl, rfl⟩

/-- C66 is false of the code: if a property refuses the value, reading raises but the object is already of the packaged class. -/
theorem reading_half_done : ∃ h', readObject exWorld (nsDefs fun _ => "<x>") "Note" [("name", .int 5)] = (.error .valueError, h') ∧
    h'.cls = (true, "Note") ∧ getAttr exWorld true "Note" h'.attrs "name" = .ok .none := by
  refine ⟨(readObject exWorld (nsDefs fun _ => "<x>") "Note" [("name", .int 5)]).2, ?_, ?_, ?_⟩
  · rfl
  · rfl
  · rfl

/-- C82 is false of the code: once a plain Object was read, new engines know no type below Object. -/
theorem reading_forgets_types :
    ∃ s h' p e, construct exWorld false "Object" [] = .ok s ∧ readObject exWorld (nsDefs fun _ => "<x>") "Object" s = (.ok (), h') ∧
      createPackage = .ok p ∧ EngineObj.new (.pkg (withNs h'.ns p)) = .ok e ∧
      ∀ c ∈ pkgClasses, "Object" ∈ mroOf c → c ≠ "Object" → ∀ row, classRow c = some row →
        e.registry.dget (some (asNs ++ "#" ++ row.type)) = none := by
  obtain ⟨s, h', hs, hh⟩ : ∃ s h', construct exWorld false "Object" [] = .ok s ∧
    readObject exWorld (nsDefs fun _ => "<x>") "Object" s = (.ok (), h') := ⟨_, _, rfl, rfl⟩
  have hall : readAll exWorld [("Object", s)] (nsDefs fun _ => "<x>") = .ok h'.ns := by
    unfold readAll
    rw [hh]
    rfl
  obtain ⟨p, e, hp, he, h⟩ := types_known_after_reads exWorld (fun _ => "<x>") (fun _ => rfl) [("Object", s)] (by
    intro x hx
    rw [List.mem_singleton] at hx
    subst hx
    show "Object" ∈ pkgClasses
    decide +kernel) _ hall
  refine ⟨s, h', p, e, hs, hh, hp, he, fun c hc hm hne row hrow => ?_⟩
  cases hd : e.registry.dget (some (asNs ++ "#" ++ row.type)) with
  | none => rfl
  | some i =>
    exfalso
    rcases (h c hc row hrow).1 ⟨i, hd⟩ with h1 | ⟨h1, -⟩
    · simp only [List.map_cons, List.map_nil, List.mem_singleton] at h1
      exact hne h1
    · have := List.find?_eq_none.1 h1 "Object" hm
      simp at this

end Verif.Props
