import Verif.Storage.Container
import Verif.Lemmas.GroupCalls

namespace Verif.Storage
open Verif.Spec
variable {V : Type}

/-! ### Groups: what never changes by map calls -/

/-- Limits and flags of the collections of a group. -/
def CGroup.flags (g : CGroup V) : List (Nat × Bool) :=
  g.collections.map fun c => (c.maxSize, c.strict)

theorem CGroup.call_flags (g : CGroup V) (op : CollCall V) : (g.call op).2.flags = g.flags := by
  have hset : ∀ (i : Nat) (c c' : Collection V), g.collections[i]? = some c →
      (c'.maxSize, c'.strict) = (c.maxSize, c.strict) →
      (g.collections.set i c').map (fun c => (c.maxSize, c.strict)) =
        g.collections.map fun c => (c.maxSize, c.strict) := by
    intro i c c' hc hm
    rw [List.map_set, hm]
    obtain ⟨hl, he⟩ := List.getElem?_eq_some_iff.1 hc
    have : (c.maxSize, c.strict) =
        (g.collections.map fun c => (c.maxSize, c.strict))[i]'(by simpa using hl) := by
      rw [List.getElem_map, he]
    rw [this]; exact List.set_getElem_self _
  have hroute : ∀ {α : Type} (k : String) (o : CollCall V)
      (fn : Collection V → Outcome α × Collection V) (ret : α → Ret V),
      (∀ c, c.call o = ((fn c).1.map ret, (fn c).2)) →
      (g.route k fn).2.flags = g.flags := by
    intro α k o fn ret hfn
    unfold CGroup.route
    split
    · rfl
    · split
      · rfl
      · rename_i c hc
        refine hset _ c _ hc ?_
        have := Collection.call_fixed c o
        rw [hfn c] at this; rw [this.1, this.2.1]
  cases op with
  | insert k v =>
    simp only [CGroup.call, CGroup.insert]
    split
    · rfl
    · split_ifs
      · rfl
      · exact hroute k (.insert k v) _ .num fun c => rfl
  | update d =>
    simp only [CGroup.call, CGroup.update]
    split_ifs
    · rfl
    · rfl
    · unfold CGroup.flags
      apply List.ext_getElem?
      intro j
      rw [List.getElem?_map, List.getElem?_map]
      cases hj : (CGroup.updateLoop g.collections.length d 0 g.collections).2[j]? with
      | none =>
        have hl := List.getElem?_eq_none_iff.1 hj
        rw [updateLoop_length] at hl
        rw [List.getElem?_eq_none_iff.2 hl]
      | some c' =>
        obtain ⟨c, hc, h | h⟩ := updateLoop_getElem _ _ _ _ j c' hj
        · rw [hc, h]
        · rw [hc, h]
          have := Collection.call_fixed c (.update (share g.collections.length d (0 + j)))
          simp only [Collection.call] at this
          rw [Option.map_some, Option.map_some, this.1, this.2.1]
  | pop k d => exact hroute k (.pop k d) _ .val fun c => rfl
  | popitem =>
    simp only [CGroup.call, CGroup.popitem]
    split
    · rfl
    · rename_i k _
      have := hroute k (.pop k none) (fun c => c.pop k none) .val fun c => rfl
      split
      · rename_i h; rw [← this]; unfold CGroup.pop at h; rw [h]
      · rename_i h; rw [← this]; unfold CGroup.pop at h; rw [h]
  | setdefault k v => exact hroute k (.setdefault k v) _ .val fun c => rfl
  | clear => simp [CGroup.call, CGroup.clear, Collection.clear, CGroup.flags, Function.comp_def]

/-- No collection is strict. -/
def CGroup.NonStrict (g : CGroup V) : Prop := ∀ c ∈ g.collections, c.strict = false

theorem CGroup.nonStrict_flags {g : CGroup V} : g.NonStrict ↔ ∀ f ∈ g.flags, f.2 = false := by
  simp [CGroup.NonStrict, CGroup.flags]

theorem CGroup.strict_flags (g : CGroup V) : g.strict = (g.flags.map Prod.snd).all id := by
  simp [CGroup.strict, CGroup.flags, List.all_map, Function.comp_def]

theorem CGroup.maxSize_flags (g : CGroup V) : g.maxSize = (g.flags.map Prod.fst).sum := by
  simp [CGroup.maxSize, CGroup.flags, Function.comp_def]

theorem CGroup.insert_flags (g : CGroup V) (k : String) (v : V) : (g.insert k v).2.flags = g.flags :=
  g.call_flags (.insert k v)
theorem CGroup.pop_flags (g : CGroup V) (k : String) (d : Option V) : (g.pop k d).2.flags = g.flags :=
  g.call_flags (.pop k d)
theorem CGroup.update_flags (g : CGroup V) (d : List (String × V)) : (g.update d).2.flags = g.flags :=
  g.call_flags (.update d)

theorem CGroup.pop_hit {g : CGroup V} (hi : g.Inv) {k : String} {v : V} (h : g.view k = some v) :
    (g.pop k none).1 = .ok v ∧ (g.pop k none).2.Inv ∧
      (g.pop k none).2.view = Map.remove g.view k := by
  obtain ⟨h1, h2⟩ := CGroup.pop_step hi k none
  generalize hr : (g.pop k none).1.map Ret.val = r at h2
  generalize (g.pop k none).2.view = m at h2 ⊢
  cases h2 with
  | popHit hm =>
    rw [h] at hm; injection hm with hm; subst hm
    refine ⟨?_, h1, rfl⟩
    cases hp : (g.pop k none).1 with
    | error e => rw [hp] at hr; simp [Except.map] at hr
    | ok w => rw [hp] at hr; simp [Except.map] at hr; rw [hr]
  | popMiss hm => rw [h] at hm; simp at hm

theorem CGroup.pop_miss {g : CGroup V} (hi : g.Inv) {k : String} (h : g.view k = none) :
    (g.pop k none).1 = .error .keyError ∧ (g.pop k none).2.Inv ∧ (g.pop k none).2.view = g.view := by
  obtain ⟨h1, h2⟩ := CGroup.pop_step hi k none
  generalize hr : (g.pop k none).1.map Ret.val = r at h2
  generalize (g.pop k none).2.view = m at h2 ⊢
  cases h2 with
  | popHit hm => rw [h] at hm; simp at hm
  | popMiss hm =>
    refine ⟨?_, h1, rfl⟩
    cases hp : (g.pop k none).1 with
    | error e => rw [hp] at hr; simp [Except.map] at hr; rw [hr]
    | ok w => rw [hp] at hr; simp [Except.map] at hr

/-- What a successful insert does. -/
theorem CGroup.insert_ok {g : CGroup V} (hi : g.Inv) {k : String} {v : V} {n : Nat}
    (h : (g.insert k v).1 = .ok n) :
    (g.insert k v).2.Inv ∧
      ((g.view k = none ∧ n = 1 ∧ (g.insert k v).2.view = Map.set g.view k v) ∨
       (g.view k ≠ none ∧ n = 0 ∧ (g.insert k v).2.view = g.view)) := by
  obtain ⟨h1, h2⟩ := CGroup.insert_step hi k v
  refine ⟨h1, ?_⟩
  rcases h2 with h2 | h2
  · rcases h2.1 with h3 | h3 <;> rw [h] at h3 <;> simp at h3
  · rw [h] at h2
    generalize hr : (Except.ok n : Outcome Nat).map Ret.num = r at h2
    generalize (g.insert k v).2.view = m at h2 ⊢
    cases h2 with
    | insertNew hm => simp [Except.map] at hr; exact .inl ⟨hm, hr, rfl⟩
    | insertOld hm => simp [Except.map] at hr; exact .inr ⟨by rw [hm]; simp, hr, rfl⟩

/-- A failing insert changes nothing and needs a strict collection. -/
theorem CGroup.insert_error {g : CGroup V} (hi : g.Inv) {k : String} {v : V} {e : PyErr}
    (h : (g.insert k v).1 = .error e) :
    (e = .groupCapacity ∨ e = .collectionCapacity) ∧ (g.insert k v).2 = g ∧ ¬ g.NonStrict := by
  obtain ⟨h1, h2⟩ := CGroup.insert_step hi k v
  rcases h2 with ⟨h3, h4, c, hc, hs⟩ | h2
  · refine ⟨?_, h4, fun hn => by rw [hn c hc] at hs; simp at hs⟩
    rcases h3 with h3 | h3 <;> rw [h] at h3 <;> injection h3 with h3
    · exact .inl h3
    · exact .inr h3
  · rw [h] at h2
    generalize hr : (Except.error e : Outcome Nat).map Ret.num = r at h2
    generalize (g.insert k v).2.view = m at h2
    cases h2 <;> simp [Except.map] at hr

theorem CGroup.insert_nonstrict {g : CGroup V} (hi : g.Inv) (hn : g.NonStrict) (k : String) (v : V) :
    ∃ n, (g.insert k v).1 = .ok n := by
  cases h : (g.insert k v).1 with
  | ok n => exact ⟨n, rfl⟩
  | error e => exact absurd hn (CGroup.insert_error hi h).2.2

/-! ### Containers -/

/-- The map shown by the group at an address. -/
abbrev Container.view (c : Container V) (a : Nat) : Map V := (c.heap a).view

/-- The object under `id` in the first group (in order) that has one. -/
def Container.first (c : Container V) (id : String) : Option V :=
  c.groups.findSome? fun a => c.view a id

/-- Invariant of containers. -/
structure Container.Inv (c : Container V) : Prop where
  inv : ∀ a ∈ c.groups, (c.heap a).Inv
  pinv : (c.heap c.primary).Inv
  fresh : ∀ a ∈ c.groups, a < c.next
  pfresh : c.primary < c.next
  nodup : c.groups.Nodup

theorem Container.hasLoop_eq (c : Container V) (id : String) (as : List Nat)
    (h : ∀ a ∈ as, (c.heap a).Inv) :
    c.hasLoop id as = .ok (as.countP fun a => (c.view a id).isSome) := by
  induction as with
  | nil => rfl
  | cons a as ih =>
    unfold Container.hasLoop
    rw [CGroup.hasKey_view (h a List.mem_cons_self).ne, ih fun b hb => h b (List.mem_cons_of_mem _ hb)]
    simp only [List.countP_cons]
    rw [Nat.add_comm]

theorem Container.has_eq {c : Container V} (hi : c.Inv) (id : String) :
    c.has id = .ok (c.groups.countP fun a => (c.view a id).isSome) :=
  c.hasLoop_eq id _ hi.inv

theorem Container.readLoop_eq [Truthy V] (c : Container V) (id : String) (as : List Nat)
    (h : ∀ a ∈ as, (c.heap a).Inv) :
    c.readLoop id as = .ok (as.findSome? fun a => (c.view a id).filter truthy) := by
  induction as with
  | nil => rfl
  | cons a as ih =>
    have ih := ih fun b hb => h b (List.mem_cons_of_mem _ hb)
    unfold Container.readLoop
    rw [CGroup.get_view (h a List.mem_cons_self).ne, ih, List.findSome?_cons]
    cases hv : (c.heap a).view id with
    | none => simp [Container.view, hv]
    | some v =>
      by_cases ht : truthy v = true <;> simp [Container.view, hv, ht, Option.filter]

theorem Container.read_eq [Truthy V] {c : Container V} (hi : c.Inv) (id : String) :
    c.read id = .ok (c.groups.findSome? fun a => (c.view a id).filter truthy) :=
  c.readLoop_eq id _ hi.inv

theorem Container.first_eq_none {c : Container V} {id : String} :
    c.first id = none ↔ ∀ a ∈ c.groups, c.view a id = none := by
  unfold Container.first
  rw [List.findSome?_eq_none_iff]

theorem Container.has_pos {c : Container V} (hi : c.Inv) (id : String) :
    ∃ n, c.has id = .ok n ∧ (0 < n ↔ c.first id ≠ none) := by
  refine ⟨_, Container.has_eq hi id, ?_⟩
  rw [List.countP_pos_iff, Ne, Container.first_eq_none]
  constructor
  · rintro ⟨a, ha, hs⟩ h
    rw [h a ha] at hs; simp at hs
  · intro h
    by_contra hc
    refine h fun a ha => ?_
    by_contra hn
    exact hc ⟨a, ha, Option.isSome_iff_ne_none.2 hn⟩

/-- If no stored object is falsy, `read` gives the first copy. -/
theorem Container.read_first [Truthy V] {c : Container V} (hi : c.Inv) (id : String)
    (ht : ∀ a ∈ c.groups, ∀ v, c.view a id = some v → truthy v = true) :
    c.read id = .ok (c.first id) := by
  rw [Container.read_eq hi]
  unfold Container.first
  congr 1
  have hl : ∀ l : List Nat, (∀ a ∈ l, a ∈ c.groups) →
      l.findSome? (fun a => (c.view a id).filter truthy) = l.findSome? fun a => c.view a id := by
    intro l
    induction l with
    | nil => intro _; rfl
    | cons a l ih =>
      intro hm
      rw [List.findSome?_cons, List.findSome?_cons, ih fun b hb => hm b (List.mem_cons_of_mem _ hb)]
      cases hv : c.view a id with
      | none => rfl
      | some v =>
        have : truthy v = true := ht a (hm a List.mem_cons_self) v hv
        simp [this, Option.filter]
  exact hl _ fun a h => h

theorem Container.heap_put_self (c : Container V) (a : Nat) (g : CGroup V) : (c.put a g).heap a = g := by
  simp [Container.put]
theorem Container.heap_put_ne (c : Container V) {a b : Nat} (g : CGroup V) (h : b ≠ a) :
    (c.put a g).heap b = c.heap b := by
  simp [Container.put, h]
theorem Container.put_same (c : Container V) (a : Nat) : c.put a (c.heap a) = c := by
  simp [Container.put]

/-! ### moving one key -/

/-- Effect of a successful `moveKey`. -/
structure Moved (transfer : Bool) (a : Nat) (k : String) (v : V) (c c' : Container V) : Prop where
  groups : c'.groups = c.groups
  primary : c'.primary = c.primary
  next : c'.next = c.next
  inv : ∀ b, (c.heap b).Inv → (c'.heap b).Inv
  flags : ∀ b, (c'.heap b).flags = (c.heap b).flags
  other : ∀ b, b ≠ a → b ≠ c.primary → c'.heap b = c.heap b
  kept : transfer = false → c'.heap a = c.heap a
  source : c'.view a = if transfer then Map.remove (c.view a) k else c.view a
  target : c'.view c.primary = if c.view c.primary k = none then Map.set (c.view c.primary) k v
    else c.view c.primary

theorem Container.insertPrimary_ok {c c' : Container V} {k : String} {v : V} {u : Unit}
    (hp : (c.heap c.primary).Inv) (h : c.insertPrimary k v = (.ok u, c')) :
    c'.groups = c.groups ∧ c'.primary = c.primary ∧ c'.next = c.next ∧
    (c'.heap c.primary).Inv ∧ (c'.heap c.primary).flags = (c.heap c.primary).flags ∧
    (∀ b, b ≠ c.primary → c'.heap b = c.heap b) ∧
    c'.view c.primary = if c.view c.primary k = none then Map.set (c.view c.primary) k v
      else c.view c.primary := by
  unfold Container.insertPrimary at h
  injection h with h1 h2
  cases hr : ((c.heap c.primary).insert k v).1 with
  | error e => rw [hr] at h1; simp [Except.map] at h1
  | ok n =>
    obtain ⟨hi, hv⟩ := CGroup.insert_ok hp hr
    subst h2
    refine ⟨rfl, rfl, rfl, ?_, ?_, fun b hb => Container.heap_put_ne _ _ hb, ?_⟩
    · rw [Container.heap_put_self]; exact hi
    · rw [Container.heap_put_self]; exact CGroup.insert_flags _ _ _
    · unfold Container.view
      rw [Container.heap_put_self]
      rcases hv with ⟨h1, _, h3⟩ | ⟨h1, _, h3⟩
      · rw [if_pos h1, h3]
      · rw [if_neg h1, h3]

theorem Container.moveKey_ok {transfer : Bool} {a : Nat} {k : String} {v : V} {c c' : Container V}
    {u : Unit} (ha : (c.heap a).Inv) (hp : (c.heap c.primary).Inv) (hne : a ≠ c.primary)
    (hv : c.view a k = some v) (h : Container.moveKey transfer a k c = (.ok u, c')) :
    Moved transfer a k v c c' := by
  unfold Container.moveKey at h
  cases transfer with
  | true =>
    simp only [if_true] at h
    obtain ⟨h1, h2, h3⟩ := CGroup.pop_hit ha hv
    rcases hpop : (c.heap a).pop k none with ⟨r, g⟩
    rw [hpop] at h h1 h2 h3
    simp only at h1 h2 h3; subst h1
    simp only at h
    have hpe : (c.put a g).heap (c.put a g).primary = c.heap c.primary :=
      Container.heap_put_ne _ _ (Ne.symm hne)
    obtain ⟨e1, e2, e3, e4, e5, e6, e7⟩ := Container.insertPrimary_ok (by rw [hpe]; exact hp) h
    have hfl : g.flags = (c.heap a).flags := by
      have := CGroup.pop_flags (c.heap a) k none
      rw [hpop] at this; exact this
    have hpr : (c.put a g).primary = c.primary := rfl
    rw [hpr] at e2 e4 e5 e6 e7
    refine ⟨e1, e2, e3, ?_, ?_, ?_, ?_, ?_, ?_⟩
    · intro b hb
      by_cases hbp : b = c.primary
      · rw [hbp]; exact e4
      · rw [e6 b hbp]
        by_cases hba : b = a
        · rw [hba, Container.heap_put_self]; exact h2
        · rw [Container.heap_put_ne _ _ hba]; exact hb
    · intro b
      by_cases hbp : b = c.primary
      · rw [hbp, e5, Container.heap_put_ne _ _ (Ne.symm hne)]
      · rw [e6 b hbp]
        by_cases hba : b = a
        · rw [hba, Container.heap_put_self]; exact hfl
        · rw [Container.heap_put_ne _ _ hba]
    · intro b hba hbp
      rw [e6 b hbp, Container.heap_put_ne _ _ hba]
    · intro h; simp at h
    · unfold Container.view
      rw [e6 a hne, Container.heap_put_self]; exact h3
    · rw [e7]; unfold Container.view
      rw [Container.heap_put_ne _ _ (Ne.symm hne)]
  | false =>
    simp only [Bool.false_eq_true, if_false] at h
    rw [CGroup.get_view ha.ne] at h
    have hv' : (c.heap a).view k = some v := hv
    rw [hv'] at h
    simp only at h
    obtain ⟨e1, e2, e3, e4, e5, e6, e7⟩ := Container.insertPrimary_ok hp h
    refine ⟨e1, e2, e3, ?_, ?_, ?_, fun _ => e6 a hne, ?_, e7⟩
    · intro b hb
      by_cases hbp : b = c.primary
      · rw [hbp]; exact e4
      · rw [e6 b hbp]; exact hb
    · intro b
      by_cases hbp : b = c.primary
      · rw [hbp]; exact e5
      · rw [e6 b hbp]
    · intro b _ hbp; exact e6 b hbp
    · unfold Container.view; rw [e6 a hne]; rfl

theorem Container.insertPrimary_error {c c' : Container V} {k : String} {v : V} {e : PyErr}
    (hp : (c.heap c.primary).Inv) (h : c.insertPrimary k v = (.error e, c')) :
    (e = .groupCapacity ∨ e = .collectionCapacity) ∧ c' = c ∧ ¬ (c.heap c.primary).NonStrict := by
  unfold Container.insertPrimary at h
  injection h with h1 h2
  cases hr : ((c.heap c.primary).insert k v).1 with
  | ok n => rw [hr] at h1; simp [Except.map] at h1
  | error e' =>
    rw [hr] at h1; simp only [Except.map, Except.error.injEq] at h1; subst h1
    obtain ⟨h3, h4, h5⟩ := CGroup.insert_error hp hr
    refine ⟨h3, ?_, h5⟩
    rw [← h2, h4, Container.put_same]

/-- A failing `moveKey`: the primary group is strict; without `transfer` nothing changes,
with `transfer` the key is gone from the source group. -/
theorem Container.moveKey_error {transfer : Bool} {a : Nat} {k : String} {v : V} {c c' : Container V}
    {e : PyErr} (ha : (c.heap a).Inv) (hp : (c.heap c.primary).Inv) (hne : a ≠ c.primary)
    (hv : c.view a k = some v) (h : Container.moveKey transfer a k c = (.error e, c')) :
    (e = .groupCapacity ∨ e = .collectionCapacity) ∧ ¬ (c.heap c.primary).NonStrict ∧
      c' = if transfer then c.put a ((c.heap a).pop k none).2 else c := by
  unfold Container.moveKey at h
  cases transfer with
  | true =>
    simp only [if_true] at h
    obtain ⟨h1, h2, h3⟩ := CGroup.pop_hit ha hv
    rcases hpop : (c.heap a).pop k none with ⟨r, g⟩
    rw [hpop] at h h1 h2 h3
    simp only at h1 h2 h3; subst h1
    simp only at h
    have hpe : (c.put a g).heap (c.put a g).primary = c.heap c.primary :=
      Container.heap_put_ne _ _ (Ne.symm hne)
    obtain ⟨e1, e2, e3⟩ := Container.insertPrimary_error (by rw [hpe]; exact hp) h
    rw [hpe] at e3
    exact ⟨e1, e3, by simpa using e2⟩
  | false =>
    simp only [Bool.false_eq_true, if_false] at h
    rw [CGroup.get_view ha.ne] at h
    have hv' : (c.heap a).view k = some v := hv
    rw [hv'] at h
    simp only at h
    obtain ⟨e1, e2, e3⟩ := Container.insertPrimary_error hp h
    exact ⟨e1, e3, e2⟩

/-! ### condensing -/

/-- State of a container during `condense`, seen from its start `c0`: the sources in
`done` are finished, those in `rest` are still to come. -/
structure Condensing (transfer : Bool) (c0 c : Container V) (done rest : List Nat) : Prop where
  groups : c.groups = c0.groups
  split : c.groups = c.primary :: (done ++ rest)
  primary : c.primary = c0.primary
  next : c.next = c0.next
  inv : ∀ a ∈ c.groups, (c.heap a).Inv
  outside : ∀ a, a ∉ c.groups → c.heap a = c0.heap a
  flags : ∀ a, (c.heap a).flags = (c0.heap a).flags
  first : ∀ id, c.first id = c0.first id
  done_sub : ∀ a ∈ done, ∀ k, c.view a k ≠ none → c.view c.primary k ≠ none
  emptied : transfer = true → ∀ a ∈ done, ∀ k, c.view a k = none
  kept : transfer = false → ∀ a ∈ done ++ rest, c.heap a = c0.heap a
  untouched : ∀ a ∈ rest.tail, c.heap a = c0.heap a

/-- first copy in a list of groups -/
theorem findSome_congr {α β : Type} (l : List α) (f g : α → Option β) (h : ∀ a ∈ l, f a = g a) :
    l.findSome? f = l.findSome? g := by
  induction l with
  | nil => rfl
  | cons a l ih =>
    rw [List.findSome?_cons, List.findSome?_cons, h a List.mem_cons_self,
      ih fun b hb => h b (List.mem_cons_of_mem _ hb)]

/-- One moved key keeps `Condensing`, for the source being processed. -/
theorem Condensing.step {transfer : Bool} {c0 c c' : Container V} {done : List Nat} {a : Nat}
    {rest : List Nat} (hnd : c.groups.Nodup) (hc : Condensing transfer c0 c done (a :: rest))
    {k : String} {v : V} (hv : c.view a k = some v) (hm : Moved transfer a k v c c') :
    Condensing transfer c0 c' done (a :: rest) := by
  have hsp := hc.split
  rw [hsp] at hnd
  have hpd : c.primary ∉ done ++ a :: rest := (List.nodup_cons.1 hnd).1
  have hnd2 := (List.nodup_cons.1 hnd).2
  have hap : a ≠ c.primary := by rintro rfl; exact hpd (by simp)
  have had : a ∉ done := by
    intro h
    exact (List.disjoint_of_nodup_append hnd2) h (by simp)
  have har : a ∉ rest := by
    have := (List.nodup_append.1 hnd2).2.1
    exact (List.nodup_cons.1 this).1
  have hdone : ∀ b ∈ done, c'.heap b = c.heap b := by
    intro b hb
    refine hm.other b ?_ ?_
    · rintro rfl; exact had hb
    · rintro rfl; exact hpd (List.mem_append_left _ hb)
  have hrest : ∀ b ∈ rest, c'.heap b = c.heap b := by
    intro b hb
    refine hm.other b ?_ ?_
    · rintro rfl; exact har hb
    · rintro rfl; exact hpd (by simp [hb])
  -- target of the primary
  have htgt : ∀ x, c'.view c.primary x =
      if x = k then (c.view c.primary k).or (some v) else c.view c.primary x := by
    intro x
    rw [hm.target]
    by_cases hx : x = k
    · subst hx
      rw [if_pos rfl]
      by_cases hn : c.view c.primary x = none
      · rw [if_pos hn, hn]; simp [Map.set]
      · rw [if_neg hn]
        obtain ⟨w, hw⟩ := Option.ne_none_iff_exists'.1 hn
        rw [hw]; rfl
    · rw [if_neg hx]
      by_cases hn : c.view c.primary k = none
      · rw [if_pos hn]; simp [Map.set, hx]
      · rw [if_neg hn]
  have hsrc : ∀ x, x ≠ k → c'.view a x = c.view a x := by
    intro x hx
    rw [hm.source]; cases transfer <;> simp [Map.remove, hx]
  have hgr := hm.groups
  refine ⟨hgr.trans hc.groups, ?_, hm.primary.trans hc.primary, hm.next.trans hc.next, ?_, ?_, ?_,
    ?_, ?_, ?_, ?_, ?_⟩
  · rw [hgr, hm.primary]; exact hsp
  · intro b hb; rw [hgr] at hb; exact hm.inv b (hc.inv b hb)
  · intro b hb
    rw [hgr] at hb
    rw [hm.other b ?_ ?_, hc.outside b hb]
    · rintro rfl; apply hb; rw [hsp]; simp
    · rintro rfl; apply hb; rw [hsp]; simp
  · intro b; rw [hm.flags, hc.flags]
  · -- first copies
    intro id
    rw [← hc.first id]
    unfold Container.first
    rw [hgr, hsp, List.findSome?_cons, List.findSome?_cons, htgt id]
    by_cases hid : id = k
    · subst hid
      rw [if_pos rfl]
      cases hp : c.view c.primary id with
      | some w => rfl
      | none =>
        show some v = _
        simp only
        rw [List.findSome?_append]
        have : done.findSome? (fun b => c.view b id) = none := by
          rw [List.findSome?_eq_none_iff]
          intro b hb
          by_contra hn
          exact hc.done_sub b hb id hn hp
        rw [this, List.findSome?_cons, hv]; rfl
    · rw [if_neg hid]
      rw [findSome_congr (done ++ a :: rest) (fun b => c'.view b id) (fun b => c.view b id)]
      intro b hb
      rcases List.mem_append.1 hb with hb | hb
      · unfold Container.view; rw [hdone b hb]
      · rcases List.mem_cons.1 hb with rfl | hb
        · exact hsrc id hid
        · unfold Container.view; rw [hrest b hb]
  · intro b hb x hx
    rw [hm.primary]
    unfold Container.view at hx; rw [hdone b hb] at hx
    have := hc.done_sub b hb x hx
    rw [htgt]
    split_ifs with h
    · cases c.view c.primary k <;> simp
    · exact this
  · intro ht b hb x
    unfold Container.view; rw [hdone b hb]; exact hc.emptied ht b hb x
  · intro ht b hb
    have := hc.kept ht b hb
    rw [← this]
    rcases List.mem_append.1 hb with hb | hb
    · exact hdone b hb
    · rcases List.mem_cons.1 hb with rfl | hb
      · exact hm.kept ht
      · exact hrest b hb
  · intro b hb
    have := hc.untouched b hb
    rw [← this]; exact hrest b hb

/-- `Condensing` inside the loop over the keys of source `a`; `ks` are still to come. -/
structure Moving (transfer : Bool) (c0 c : Container V) (done : List Nat) (a : Nat)
    (rest : List Nat) (ks : List String) : Prop where
  cond : Condensing transfer c0 c done (a :: rest)
  nodup : ks.Nodup
  has : ∀ k ∈ ks, c.view a k ≠ none
  remaining : ∀ k, c.view a k ≠ none → k ∈ ks ∨ (transfer = false ∧ c.view c.primary k ≠ none)

theorem Moving.start {transfer : Bool} {c0 c : Container V} {done : List Nat} {a : Nat}
    {rest : List Nat} (hc : Condensing transfer c0 c done (a :: rest)) :
    Moving transfer c0 c done a rest (c.heap a).keys := by
  have hi := hc.inv a (by rw [hc.split]; simp)
  exact ⟨hc, CGroup.keys_nodup hi, fun k hk => (CGroup.mem_keys hi k).1 hk,
    fun k hk => .inl ((CGroup.mem_keys hi k).2 hk)⟩

theorem Moving.ne {transfer : Bool} {c0 c : Container V} {done : List Nat} {a : Nat}
    {rest : List Nat} {ks : List String} (hnd : c0.groups.Nodup)
    (h : Moving transfer c0 c done a rest ks) : a ≠ c.primary := by
  have := h.cond.split
  rw [h.cond.groups] at this
  rw [this] at hnd
  rintro rfl
  exact (List.nodup_cons.1 hnd).1 (by simp)

theorem Moving.step {transfer : Bool} {c0 c c' : Container V} {done : List Nat} {a : Nat}
    {rest : List Nat} {k : String} {ks : List String} {u : Unit} (hnd : c0.groups.Nodup)
    (h : Moving transfer c0 c done a rest (k :: ks))
    (hm : Container.moveKey transfer a k c = (.ok u, c')) : Moving transfer c0 c' done a rest ks := by
  obtain ⟨v, hv⟩ := Option.ne_none_iff_exists'.1 (h.has k List.mem_cons_self)
  have hne := h.ne hnd
  have hmv := Container.moveKey_ok (h.cond.inv a (by rw [h.cond.split]; simp))
    (h.cond.inv c.primary (by rw [h.cond.split]; simp)) hne hv hm
  have hc' := h.cond.step (h.cond.groups ▸ hnd) hv hmv
  obtain ⟨hk, hnd'⟩ := List.nodup_cons.1 h.nodup
  refine ⟨hc', hnd', ?_, ?_⟩
  · intro x hx
    have hxk : x ≠ k := by rintro rfl; exact hk hx
    rw [hmv.source]
    have := h.has x (List.mem_cons_of_mem _ hx)
    cases transfer <;> simpa [Map.remove, hxk] using this
  · intro x hx
    have htgt : c.view c.primary x ≠ none → c'.view c'.primary x ≠ none := by
      intro hn
      rw [hmv.primary, hmv.target]
      split_ifs
      · by_cases hxk : x = k <;> simp [Map.set, hxk] ; simpa using hn
      · exact hn
    rw [hmv.source] at hx
    cases transfer with
    | true =>
      simp only [if_true, Map.remove] at hx
      by_cases hxk : x = k
      · simp [hxk] at hx
      · simp only [hxk, if_false] at hx
        rcases h.remaining x hx with h1 | h1
        · rcases List.mem_cons.1 h1 with h1 | h1
          · exact absurd h1 hxk
          · exact .inl h1
        · exact absurd h1.1 (by simp)
    | false =>
      simp only [Bool.false_eq_true, if_false] at hx
      rcases h.remaining x hx with h1 | h1
      · rcases List.mem_cons.1 h1 with h1 | h1
        · right
          refine ⟨rfl, ?_⟩
          rw [hmv.primary, hmv.target, h1]
          split_ifs with h2
          · simp [Map.set]
          · exact h2
        · exact .inl h1
      · exact .inr ⟨rfl, htgt h1.2⟩

theorem Moving.finish {transfer : Bool} {c0 c : Container V} {done : List Nat} {a : Nat}
    {rest : List Nat} (h : Moving transfer c0 c done a rest []) :
    Condensing transfer c0 c (done ++ [a]) rest := by
  obtain ⟨hc, _, _, hr⟩ := h
  refine ⟨hc.groups, ?_, hc.primary, hc.next, hc.inv, hc.outside, hc.flags, hc.first, ?_, ?_, ?_, ?_⟩
  · rw [hc.split]; simp
  · intro b hb k hk
    rcases List.mem_append.1 hb with hb | hb
    · exact hc.done_sub b hb k hk
    · rw [List.mem_singleton] at hb; subst hb
      rcases hr k hk with h | h
      · simp at h
      · exact h.2
  · intro ht b hb k
    rcases List.mem_append.1 hb with hb | hb
    · exact hc.emptied ht b hb k
    · rw [List.mem_singleton] at hb; subst hb
      by_contra hn
      rcases hr k hn with h | h
      · simp at h
      · rw [ht] at h; simp at h
  · intro ht b hb
    exact hc.kept ht b (by simpa using hb)
  · intro b hb
    exact hc.untouched b (List.mem_of_mem_tail hb)

/-- An error during condensing: `c` is the state just before the failing move. -/
structure CondError (transfer : Bool) (c0 c' : Container V) (e : PyErr) (c : Container V)
    (done : List Nat) (a : Nat) (rest : List Nat) (k : String) (v : V) : Prop where
  cond : Condensing transfer c0 c done (a :: rest)
  val : c.view a k = some v
  err : e = .groupCapacity ∨ e = .collectionCapacity
  strict : ¬ (c0.heap c0.primary).NonStrict
  state : c' = if transfer then c.put a ((c.heap a).pop k none).2 else c

theorem Condensing.nonStrict {transfer : Bool} {c0 c : Container V} {done rest : List Nat}
    (h : Condensing transfer c0 c done rest) :
    (c.heap c.primary).NonStrict ↔ (c0.heap c0.primary).NonStrict := by
  rw [CGroup.nonStrict_flags, CGroup.nonStrict_flags, h.flags, h.primary]

theorem Moving.error {transfer : Bool} {c0 c c' : Container V} {done : List Nat} {a : Nat}
    {rest : List Nat} {k : String} {ks : List String} {e : PyErr} (hnd : c0.groups.Nodup)
    (h : Moving transfer c0 c done a rest (k :: ks))
    (hm : Container.moveKey transfer a k c = (.error e, c')) :
    ∃ v, CondError transfer c0 c' e c done a rest k v := by
  obtain ⟨v, hv⟩ := Option.ne_none_iff_exists'.1 (h.has k List.mem_cons_self)
  obtain ⟨h1, h2, h3⟩ := Container.moveKey_error (h.cond.inv a (by rw [h.cond.split]; simp))
    (h.cond.inv c.primary (by rw [h.cond.split]; simp)) (h.ne hnd) hv hm
  exact ⟨v, h.cond, hv, h1, fun hn => h2 (h.cond.nonStrict.2 hn), h3⟩

theorem Container.moveKeys_spec {transfer : Bool} {c0 : Container V} {done : List Nat} {a : Nat}
    {rest : List Nat} (hnd : c0.groups.Nodup) (ks : List String) :
    ∀ c, Moving transfer c0 c done a rest ks →
    (∃ c', Container.moveKeys transfer a ks c = (.ok (), c') ∧
      Condensing transfer c0 c' (done ++ [a]) rest) ∨
    (∃ e c', Container.moveKeys transfer a ks c = (.error e, c') ∧
      ∃ c1 k v, CondError transfer c0 c' e c1 done a rest k v) := by
  induction ks with
  | nil => intro c h; exact .inl ⟨c, rfl, h.finish⟩
  | cons k ks ih =>
    intro c h
    unfold Container.moveKeys
    rcases hm : Container.moveKey transfer a k c with ⟨r, c'⟩
    cases r with
    | error e => exact .inr ⟨e, c', rfl, c, k, h.error hnd hm⟩
    | ok u => exact ih c' (h.step hnd hm)

theorem Container.moveGroups_spec {transfer : Bool} {c0 : Container V} (hnd : c0.groups.Nodup)
    (post rest : List Nat) : ∀ c done, Condensing transfer c0 c done (rest ++ post) →
    (∃ c', Container.moveGroups transfer rest c = (.ok (), c') ∧
      Condensing transfer c0 c' (done ++ rest) post) ∨
    (∃ e c', Container.moveGroups transfer rest c = (.error e, c') ∧
      ∃ c1 done a rest k v, CondError transfer c0 c' e c1 done a rest k v) := by
  induction rest with
  | nil => intro c done h; exact .inl ⟨c, rfl, by simpa using h⟩
  | cons a rest ih =>
    intro c done h
    unfold Container.moveGroups
    rcases Container.moveKeys_spec hnd _ c (Moving.start h) with ⟨c', h1, h2⟩ | ⟨e, c', h1, h2⟩
    · rw [h1]
      rcases ih c' (done ++ [a]) h2 with ⟨c'', h3, h4⟩ | h3
      · exact .inl ⟨c'', h3, by simpa using h4⟩
      · exact .inr h3
    · rw [h1]
      obtain ⟨c1, k, v, h2⟩ := h2
      exact .inr ⟨e, c', rfl, c1, done, a, rest ++ post, k, v, h2⟩

/-- A container whose primary group is the first of its groups. -/
def Container.HeadPrimary (c : Container V) : Prop := c.groups.head? = some c.primary

theorem Container.HeadPrimary.eq {c : Container V} (h : c.HeadPrimary) :
    c.groups = c.primary :: c.groups.tail := by
  unfold Container.HeadPrimary at h
  cases hg : c.groups with
  | nil => rw [hg] at h; simp at h
  | cons a as => rw [hg] at h; simp at h; subst h; rfl

theorem Condensing.init {transfer : Bool} {c : Container V} (hi : c.Inv) (hh : c.HeadPrimary) :
    Condensing transfer c c [] c.groups.tail :=
  ⟨rfl, by simpa using hh.eq, rfl, rfl, hi.inv, fun _ _ => rfl, fun _ => rfl, fun _ => rfl,
    by simp, by simp, fun _ _ _ => rfl, fun _ _ => rfl⟩

/-! ### the same loop with a transaction manager -/

/-- A state that `condense` may put on disk. -/
def Reorganising (transfer : Bool) (c0 c : Container V) : Prop :=
  ∃ done rest, Condensing transfer c0 c done rest

theorem Session.moveKeys_spec {transfer : Bool} (eff : Nat → Bool) {c0 : Container V}
    {done : List Nat} {a : Nat} {rest : List Nat} (hnd : c0.groups.Nodup) (ks : List String) :
    ∀ s : Session V, Moving transfer c0 s.work done a rest ks →
      Reorganising transfer c0 s.committed → (∀ x ∈ s.log, Reorganising transfer c0 x) →
      let r := Session.moveKeys eff transfer a ks s
      (∀ x ∈ r.2.log, Reorganising transfer c0 x) ∧ Reorganising transfer c0 r.2.committed ∧
      ((r.1 = .ok () ∧ Condensing transfer c0 r.2.work (done ++ [a]) rest) ∨
       (∃ e, r.1 = .error e ∧ ∃ c1 k v, CondError transfer c0 r.2.work e c1 done a rest k v)) := by
  induction ks with
  | nil => intro s h h1 h2; exact ⟨h2, h1, .inl ⟨rfl, h.finish⟩⟩
  | cons k ks ih =>
    intro s h h1 h2
    unfold Session.moveKeys
    rcases hm : Container.moveKey transfer a k s.work with ⟨r, c'⟩
    cases r with
    | error e =>
      exact ⟨h2, h1, .inr ⟨e, rfl, s.work, k, h.error hnd hm⟩⟩
    | ok u =>
      have hst := h.step hnd hm
      refine ih _ ?_ ?_ ?_
      · unfold Session.commit; split_ifs
        · exact hst
        · exact hst
      · unfold Session.commit; split_ifs
        · exact ⟨_, _, hst.cond⟩
        · exact h1
      · unfold Session.commit; split_ifs
        · intro x hx
          simp only [Session.store, List.mem_cons] at hx
          rcases hx with rfl | hx
          · exact ⟨_, _, hst.cond⟩
          · exact h2 x hx
        · exact h2

theorem Session.moveGroups_spec {transfer : Bool} (eff : Nat → Bool) {c0 : Container V}
    (hnd : c0.groups.Nodup) (post rest : List Nat) :
    ∀ (s : Session V) (done : List Nat), Condensing transfer c0 s.work done (rest ++ post) →
      Reorganising transfer c0 s.committed → (∀ x ∈ s.log, Reorganising transfer c0 x) →
      let r := Session.moveGroups eff transfer rest s
      (∀ x ∈ r.2.log, Reorganising transfer c0 x) ∧ Reorganising transfer c0 r.2.committed ∧
      ((r.1 = .ok () ∧ Condensing transfer c0 r.2.work (done ++ rest) post) ∨
       (∃ e, r.1 = .error e ∧ ∃ c1 done a rest k v, CondError transfer c0 r.2.work e c1 done a rest k v)) := by
  induction rest with
  | nil => intro s done h h1 h2; exact ⟨h2, h1, .inl ⟨rfl, by simpa [Session.moveGroups] using h⟩⟩
  | cons a rest ih =>
    intro s done h h1 h2
    unfold Session.moveGroups
    have hk := Session.moveKeys_spec eff hnd _ s (Moving.start h) h1 h2
    rcases hr : Session.moveKeys eff transfer a (s.work.heap a).keys s with ⟨r, s'⟩
    rw [hr] at hk
    obtain ⟨k1, k2, k3⟩ := hk
    cases r with
    | error e =>
      rcases k3 with ⟨h3, _⟩ | ⟨e', h3, c1, k, v, h4⟩
      · simp at h3
      · exact ⟨k1, k2, .inr ⟨e', h3, c1, done, a, rest ++ post, k, v, h4⟩⟩
    | ok u =>
      rcases k3 with ⟨_, h4⟩ | ⟨e', h3, _⟩
      · have := ih s' (done ++ [a]) h4 k2 k1
        simpa using this
      · simp at h3

end Verif.Storage
