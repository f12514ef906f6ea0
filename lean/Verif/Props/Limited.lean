import Verif.Spec.Limited
import Verif.Props.DurableMap

/-!
# A database with strict mode is a transactional map with limits (C155)
-/
namespace Verif.Props.Limited
open Verif Verif.Storage Verif.Spec Verif.Db Verif.Props
variable {V : Type}

/-- What a session shows and answers is what the transactional map with limits says: now, and after a crash. -/
structure Shows [Truthy V] (l : Limits) (c : Conn V) (s : Spec.Limited V) : Prop where
  read : ∀ id, c.read id = .ok (s.mem.map id)
  strict : c.tm.work.strict = s.mem.strict
  reopened : ∀ a id, (c.step (.crash a)).read id = .ok (s.disk.map id)
  strictReopened : ∀ a, (c.step (.crash a)).tm.work.strict = s.disk.strict
  answers : ∀ op ok, (c.call op ok).1 = s.answer l op ok

/-! ### Counting -/

theorem atLeast_iff {m : Map V} {P : String → Prop} {ks : List String} (hn : ks.Nodup) (hk : ∀ k, k ∈ ks ↔ m k ≠ none ∧ P k) (n : Nat) :
    m.AtLeast P n ↔ n ≤ ks.length := by
  constructor
  · rintro ⟨ids, h1, h2, h3⟩
    rw [← h2]
    exact (h1.subperm fun x hx => (hk x).2 (h3 x hx)).length_le
  · intro h
    exact ⟨ks.take n, hn.sublist (List.take_sublist _ _), by simpa using h, fun x hx => (hk x).1 (List.mem_of_mem_take hx)⟩

theorem all_iff {g : CGroup V} (hi : g.Inv) (n : Nat) : g.view.AtLeast (fun _ => True) n ↔ n ≤ g.size := by
  rw [CGroup.size_keys]
  exact atLeast_iff (CGroup.keys_nodup hi) (fun k => by rw [CGroup.mem_keys hi]; simp) n

theorem slot_iff {g : CGroup V} (hi : g.Inv) {id : String} {c : Collection V}
    (hc : g.collections[hashId id % g.collections.length]? = some c) (n : Nat) :
    g.view.AtLeast (fun x => hashId x % g.collections.length = hashId id % g.collections.length) n ↔ n ≤ c.size := by
  have hs : c.Sorted := hi.sorted c (List.mem_of_getElem? hc)
  have hsz : c.size = c.keys.length := by simp [Collection.size, Collection.keys, Tree.keys]
  rw [hsz]
  refine atLeast_iff (ks := c.keys) hs.nodup_keys (fun k => ?_) n
  have hck : k ∈ c.keys ↔ c.get k ≠ none := by
    show k ∈ Tree.keys c.tree ↔ Tree.get c.tree k ≠ none
    rw [ne_eq, Tree.get_eq_none_iff, not_not]
  rw [hck]
  constructor
  · intro h
    have he := hi.routed _ c hc k h
    rw [← he] at hc
    exact ⟨by rw [CGroup.view_eq hc]; exact h, he⟩
  · rintro ⟨h, he⟩
    rw [← he] at hc
    rw [CGroup.view_eq hc] at h; exact h

/-! ### Groups -/

/-- A group of `n` collections of the same limit and flag, with these contents. -/
structure GHolds (n room : Nat) (g : CGroup V) (b : Box V) : Prop where
  inv : g.Inv
  flags : g.flags = List.replicate n (room, b.strict)
  view : g.view = b.map

def limits (n room : Nat) : Limits := { slot := fun id => hashId id % n, room := room, total := n * room }

theorem GHolds.len {n room : Nat} {g : CGroup V} {b : Box V} (h : GHolds n room g b) : g.collections.length = n := by
  have := congrArg List.length h.flags
  simpa [CGroup.flags] using this

theorem GHolds.coll {n room : Nat} {g : CGroup V} {b : Box V} (h : GHolds n room g b) {c : Collection V} (hc : c ∈ g.collections) :
    c.maxSize = room ∧ c.strict = b.strict := by
  have : (c.maxSize, c.strict) ∈ g.flags := List.mem_map.2 ⟨c, hc, rfl⟩
  rw [h.flags] at this
  have := List.eq_of_mem_replicate this
  simpa using this

theorem GHolds.max {n room : Nat} {g : CGroup V} {b : Box V} (h : GHolds n room g b) : g.maxSize = n * room := by
  rw [CGroup.maxSize_flags, h.flags]; simp

theorem GHolds.strict {n room : Nat} {g : CGroup V} {b : Box V} (h : GHolds n room g b) : g.strict = b.strict := by
  have hn : n ≠ 0 := by
    rintro rfl
    exact h.inv.ne (List.length_eq_zero_iff.1 h.len)
  rw [CGroup.strict_flags, h.flags]
  cases b.strict <;> simp [hn]

theorem GHolds.full {n room : Nat} {g : CGroup V} {b : Box V} (h : GHolds n room g b) {id : String} {c : Collection V}
    (hc : g.collections[hashId id % g.collections.length]? = some c) : b.SlotFull (limits n room) id ↔ room ≤ c.size := by
  have := slot_iff h.inv hc room
  rw [h.view, h.len] at this
  exact this

theorem GHolds.all {n room : Nat} {g : CGroup V} {b : Box V} (h : GHolds n room g b) (k : Nat) : b.map.AtLeast (fun _ => True) k ↔ k ≤ g.size := by
  rw [← h.view]; exact all_iff h.inv k

/-- Inserting. -/
theorem GHolds.insert {n room : Nat} {g : CGroup V} {b : Box V} (h : GHolds n room g b) (id : String) (v : V) :
    (b.map id = none → (g.insert id v).1 = match b.refusal (limits n room) id with | some e => .error e | none => .ok 1) ∧
    (b.map id ≠ none → (b.SlotFull (limits n room) id ∧ b.strict = true → (g.insert id v).1 = .error .collectionCapacity) ∧
      (¬ (b.SlotFull (limits n room) id ∧ b.strict = true) → (g.insert id v).1 = .ok 0)) := by
  obtain ⟨c, hc⟩ := CGroup.coll_exists h.inv.ne id
  have hidx : groupIndex id g.collections.length = .ok (hashId id % g.collections.length) := by
    unfold groupIndex; rw [if_neg]; intro h0; exact h.inv.ne (List.length_eq_zero_iff.1 h0)
  obtain ⟨hm, hs⟩ := h.coll (List.mem_of_getElem? hc)
  have hget : c.get id = b.map id := by rw [← CGroup.view_eq hc, h.view]
  have hkey : id ∈ g.keys ↔ b.map id ≠ none := by rw [CGroup.mem_keys h.inv, h.view]
  have hins : ∀ (hno : ¬ (g.size ≥ g.maxSize ∧ id ∉ g.keys ∧ g.strict = true)), (g.insert id v).1 = (c.insert id v).1 := by
    intro hno
    unfold CGroup.insert
    rw [hidx]
    simp only
    rw [if_neg hno, CGroup.route_eq hc]
  have hcol : (c.insert id v).1 = if room ≤ c.size ∧ b.strict = true then .error .collectionCapacity else .ok (if b.map id = none then 1 else 0) := by
    unfold Collection.insert
    simp only [hm, hs, ge_iff_le]
    split_ifs with h1 h2
    · rfl
    · have : c.tree.get id = none := by rw [← h2]; exact hget
      simp [Tree.insert, Tree.has, this]
    · have : c.tree.get id ≠ none := by
        have e : c.tree.get id = b.map id := hget
        rw [e]; exact h2
      have h3 : c.tree.has id = true := Option.isSome_iff_ne_none.2 this
      simp [Tree.insert, h3]
  constructor
  · intro hnone
    unfold Box.refusal
    cases hst : b.strict with
    | false =>
      simp only [if_true]
      rw [hins (by rw [h.strict, hst]; simp), hcol, hst]
      simp [hnone]
    | true =>
      simp only [Bool.true_eq_false, if_false]
      rw [if_pos hnone]
      have hall := h.all (limits n room).total
      have hfull := h.full hc
      by_cases h1 : b.map.AtLeast (fun _ => True) (limits n room).total
      · rw [if_pos h1]
        have h2 : g.size ≥ g.maxSize := by rw [h.max]; exact hall.1 h1
        simp only
        unfold CGroup.insert
        rw [hidx]
        simp only
        rw [if_pos ⟨h2, fun hk => hkey.1 hk hnone, by rw [h.strict, hst]⟩]
      · rw [if_neg h1]
        have h2 : ¬ g.size ≥ g.maxSize := by rw [h.max]; exact fun hh => h1 (hall.2 hh)
        rw [hins (fun hh => h2 hh.1), hcol, hst]
        by_cases h3 : b.SlotFull (limits n room) id
        · rw [if_pos h3, if_pos ⟨hfull.1 h3, rfl⟩]
        · rw [if_neg h3, if_neg (fun hh => h3 (hfull.2 hh.1)), if_pos hnone]
  · intro hsome
    have hno : ¬ (g.size ≥ g.maxSize ∧ id ∉ g.keys ∧ g.strict = true) := fun hh => hh.2.1 (hkey.2 hsome)
    rw [hins hno, hcol]
    have hfull := h.full hc
    constructor
    · rintro ⟨h1, h2⟩
      rw [if_pos ⟨hfull.1 h1, h2⟩]
    · intro hh
      rw [if_neg (fun h3 => hh ⟨hfull.2 h3.1, h3.2⟩), if_neg hsome]

theorem GHolds.update {n room : Nat} {g : CGroup V} {b : Box V} (h : GHolds n room g b) (id : String) (v : V) (hid : b.map id ≠ none) :
    (g.update [(id, v)]).1 = .error .groupCapacity ↔ b.strict = true ∧ b.map.AtLeast (fun _ => True) (n * room + 1) := by
  have hkey : id ∈ g.keys := by rw [CGroup.mem_keys h.inv, h.view]; exact hid
  have hl : g.collections.length ≠ 0 := fun h0 => h.inv.ne (List.length_eq_zero_iff.1 h0)
  rw [h.all]
  unfold CGroup.update
  have hnew : (([(id, v)] : List (String × V)).map Prod.fst).filter (fun k => k ∉ g.keys) = [] := by simp [hkey]
  simp only
  rw [hnew, h.max, h.strict]
  simp only [List.length_nil, Nat.zero_add]
  split_ifs with h1 h2
  · exact ⟨fun _ => ⟨h1.2, h1.1⟩, fun _ => rfl⟩
  · exact absurd h2.1 hl
  · constructor
    · intro he
      exfalso
      simp only at he
      exact absurd (updateLoop_error _ _ _ _ he).1 (by decide)
    · rintro ⟨h3, h4⟩
      exact absurd ⟨h4, h3⟩ h1

/-! ### Containers -/

/-- A container whose only group holds this. -/
structure Holds (n room : Nat) (c : Container V) (b : Box V) : Prop where
  inv : c.Inv
  groups : c.groups = [c.primary]
  group : GHolds n room (c.heap c.primary) b

theorem Holds.first {n room : Nat} {c : Container V} {b : Box V} (h : Holds n room c b) (id : String) : c.first id = b.map id := by
  unfold Container.first
  rw [h.groups, List.findSome?_cons]
  have : c.view c.primary id = b.map id := congrFun h.group.view id
  rw [this]
  cases b.map id <;> rfl

theorem Holds.strict {n room : Nat} {c : Container V} {b : Box V} (h : Holds n room c b) : c.strict = b.strict := h.group.strict

theorem Holds.read [Truthy V] (hV : AllTruthy V) {n room : Nat} {c : Container V} {b : Box V} (h : Holds n room c b) (id : String) :
    c.read id = .ok (b.map id) := by
  rw [Container.read_first h.inv id fun _ _ v _ => hV v, h.first]

theorem Holds.put {n room : Nat} {c : Container V} {b b' : Box V} (h : Holds n room c b) {g : CGroup V} (hg : GHolds n room g b') :
    Holds n room (c.put c.primary g) b' :=
  ⟨(SameShape.put hg.inv).keep h.inv, h.groups, by
    show GHolds n room ((c.put c.primary g).heap c.primary) b'
    rw [Container.heap_put_self]; exact hg⟩

/-- Writing. -/
theorem Holds.write {n room : Nat} {c : Container V} {b : Box V} (h : Holds n room c b) (id : String) (v : V) :
    (∀ e, b.refusal (limits n room) id = some e → c.write id v = (.error e, c)) ∧
    (b.refusal (limits n room) id = none → (c.write id v).1 = .ok (if b.map id = none then some 1 else none) ∧
      Holds n room (c.write id v).2 { b with map := b.map.set id v }) := by
  have hview : c.view c.primary = b.map := h.group.view
  obtain ⟨hi1, hi2⟩ := h.group.insert id v
  -- which of the two outcomes
  have hkey : (∀ e, b.refusal (limits n room) id = some e → (c.write id v).1 = .error e) ∧
      (b.refusal (limits n room) id = none → ∃ r, (c.write id v).1 = .ok r) := by
    rcases hins : (c.heap c.primary).insert id v with ⟨r, g⟩
    rw [hins] at hi1 hi2
    simp only at hi1 hi2
    by_cases hid : b.map id = none
    · have hr := hi1 hid
      unfold Container.write
      rw [hins]
      cases href : b.refusal (limits n room) id with
      | some e =>
        rw [href] at hr; simp only at hr; subst hr
        exact ⟨fun e' he => by cases he; rfl, by simp⟩
      | none =>
        rw [href] at hr; simp only at hr; subst hr
        exact ⟨by simp, fun _ => ⟨_, rfl⟩⟩
    · obtain ⟨h1, h2⟩ := hi2 hid
      have hg : r = .ok 0 → g = c.heap c.primary := by
        intro hr
        have := (CGroup.rewrite_spec h.group.inv (k := id) (v := v) (by rw [hins]; exact hr)).1
        rw [hins] at this; exact this
      have hrew : r = .ok 0 → (∃ u, ((c.heap c.primary).update [(id, v)]).1 = .ok u) ∨
          ((c.heap c.primary).update [(id, v)]).1 = .error .groupCapacity := by
        intro hr
        rcases (CGroup.rewrite_spec h.group.inv (k := id) (v := v) (by rw [hins]; exact hr)).2 with ⟨u, hu, -⟩ | ⟨hu, -⟩
        · exact .inl ⟨u, hu⟩
        · exact .inr (by rw [hu])
      have hupd := h.group.update id v hid
      unfold Container.write
      rw [hins]
      unfold Box.refusal
      cases hst : b.strict with
      | false =>
        simp only [if_true]
        have hr := h2 (by rw [hst]; simp)
        subst hr
        rw [hg rfl]
        refine ⟨by simp, fun _ => ?_⟩
        rcases hrew rfl with ⟨u, hu⟩ | hu
        · rcases hx : (c.heap c.primary).update [(id, v)] with ⟨ru, gu⟩
          rw [hx] at hu; simp only at hu; subst hu
          exact ⟨none, by simp only [hx]⟩
        · exact absurd (hupd.1 hu).1 (by rw [hst]; simp)
      | true =>
        simp only [Bool.true_eq_false, if_false]
        rw [if_neg hid]
        by_cases hf : b.SlotFull (limits n room) id
        · rw [if_pos hf]
          have hr := h1 ⟨hf, hst⟩
          subst hr
          exact ⟨fun e he => by cases he; rfl, by simp⟩
        · rw [if_neg hf]
          have hr := h2 (fun hh => hf hh.1)
          subst hr
          rw [hg rfl]
          by_cases ht : b.map.AtLeast (fun _ => True) ((limits n room).total + 1)
          · rw [if_pos ht]
            have hu := hupd.2 ⟨hst, ht⟩
            rcases hx : (c.heap c.primary).update [(id, v)] with ⟨ru, gu⟩
            rw [hx] at hu; simp only at hu; subst hu
            exact ⟨fun e he => by cases he; simp only [hx], by simp⟩
          · rw [if_neg ht]
            refine ⟨by simp, fun _ => ?_⟩
            rcases hrew rfl with ⟨u, hu⟩ | hu
            · rcases hx : (c.heap c.primary).update [(id, v)] with ⟨ru, gu⟩
              rw [hx] at hu; simp only at hu; subst hu
              exact ⟨none, by simp only [hx]⟩
            · exact absurd (hupd.1 hu).2 ht
  rcases Container.write_spec h.inv.pinv id v with ⟨e, h1, -, -⟩ | ⟨g, h1, h2, h3, h4⟩
  · constructor
    · intro e' he
      have := hkey.1 e' he
      rw [h1] at this
      simp only [Except.error.injEq] at this
      rw [h1, this]
    · intro hn
      obtain ⟨r, hr⟩ := hkey.2 hn
      rw [h1] at hr; simp at hr
  · rw [hview] at h1 h4
    constructor
    · intro e he
      have := hkey.1 e he
      rw [h1] at this; simp at this
    · intro _
      rw [h1]
      exact ⟨rfl, h.put ⟨h2, h3.trans h.group.flags, h4⟩⟩

theorem Holds.delete {n room : Nat} {c : Container V} {b : Box V} (h : Holds n room c b) (id : String) :
    (c.delete id).1 = .ok (b.map id).toList ∧ Holds n room (c.delete id).2 { b with map := b.map.remove id } := by
  obtain ⟨hr, hd⟩ := Container.delete_spec h.inv id
  rcases hd with ⟨-, h2, h3⟩ | ⟨h1, -⟩
  · have hview : c.view c.primary = b.map := h.group.view
    refine ⟨h2.trans ?_, ⟨Container.delete_inv h.inv id, by rw [hr.groups, hr.primary, h.groups], ?_, ?_, ?_⟩⟩
    · rw [h.groups]
      simp only [List.filterMap_cons, hview, List.filterMap_nil]
      cases b.map id <;> rfl
    · rw [hr.primary]; exact hr.inv _ h.group.inv
    · rw [hr.primary, hr.flags]; exact h.group.flags
    · rw [hr.primary]
      funext x
      by_cases hx : x = id
      · subst hx
        have := h3 c.primary (by rw [h.groups]; simp)
        rw [show ((c.delete x).2.heap c.primary).view x = (c.delete x).2.view c.primary x from rfl, this]
        simp [Map.remove]
      · have := hr.frame c.primary h.group.inv x hx
        rw [show ((c.delete id).2.heap c.primary).view x = (c.delete id).2.view c.primary x from rfl, this, hview]
        simp [Map.remove, hx]
  · exact absurd (by unfold Container.HoldersFirst; rw [h.groups]; exact List.pairwise_singleton _ _) h1

theorem Holds.setStrict {n room : Nat} {c : Container V} {b : Box V} (h : Holds n room c b) (v : Bool) :
    Holds n room (c.setStrict (some v)).2 { b with strict := v } := by
  obtain ⟨h1, h2⟩ := CGroup.setStrict_view h.group.inv (some v)
  refine h.put ⟨h1, ?_, h2.trans h.group.view⟩
  have : ((c.heap c.primary).setStrict (some v)).2.flags = (c.heap c.primary).flags.map fun x => (x.1, v) := by
    simp [CGroup.setStrict, CGroup.flags, Function.comp_def]
  rw [this, h.group.flags]
  simp

/-- A call is the call on the map with limits. -/
theorem Holds.fn [Truthy V] (hV : AllTruthy V) {n room : Nat} {c : Container V} {b : Box V} (h : Holds n room c b) (op : DbOp V) :
    (op.fn c).1 = b.answer (limits n room) op ∧ Holds n room (effect c op) ((b.apply (limits n room) op).getD b) ∧
      (b.apply (limits n room) op = none ↔ ∃ e, (op.fn c).1 = .error e) := by
  obtain ⟨k, hk, hk0⟩ := Container.has_pos h.inv (id := "")
  cases op with
  | create id obj =>
    obtain ⟨k, hk, hk0⟩ := Container.has_pos h.inv id
    rw [h.first] at hk0
    obtain ⟨w1, w2⟩ := h.write id obj
    show (createFn id obj c).1 = _ ∧ Holds n room (createFn id obj c).2 _ ∧ (_ ↔ ∃ e, (createFn id obj c).1 = .error e)
    by_cases hid : b.map id = none
    · have hk1 : k = 0 := by
        rcases Nat.eq_zero_or_pos k with h0 | h0
        · exact h0
        · exact absurd hid (hk0.1 h0)
      subst hk1
      have hc : createFn id obj c = ((c.write id obj).1.map .count, (c.write id obj).2) := by unfold createFn; rw [hk]
      rw [hc]
      cases href : b.refusal (limits n room) id with
      | some e =>
        have hw := w1 e href
        rw [hw]
        refine ⟨?_, ?_, ?_⟩
        · simp [Box.answer, Box.reply, hid, href, Except.map]
        · simp only [Box.apply, href]; simpa using h
        · simp [Box.apply, href, Except.map]
      | none =>
        obtain ⟨r1, r2⟩ := w2 href
        rw [r1]
        refine ⟨?_, ?_, ?_⟩
        · simp [Box.answer, Box.reply, hid, href, Except.map]
        · simpa [Box.apply, href, hid] using r2
        · simp [Box.apply, href, hid, Except.map]
    · obtain ⟨k', rfl⟩ := Nat.exists_eq_succ_of_ne_zero (Nat.pos_iff_ne_zero.1 (hk0.2 hid))
      have hc : createFn id obj c = (.error .objectOverwrite, c) := by unfold createFn; rw [hk]
      rw [hc]
      refine ⟨?_, ?_, ?_⟩
      · simp [Box.answer, hid]
      · simpa [Box.apply, hid] using h
      · simp [Box.apply, hid]
  | update id obj =>
    obtain ⟨w1, w2⟩ := h.write id obj
    have hc : updateFn id obj c = ((c.write id obj).1.map fun _ => .prev (b.map id), (c.write id obj).2) := by
      unfold updateFn; rw [h.read hV]
    show (updateFn id obj c).1 = _ ∧ Holds n room (updateFn id obj c).2 _ ∧ (_ ↔ ∃ e, (updateFn id obj c).1 = .error e)
    rw [hc]
    cases href : b.refusal (limits n room) id with
    | some e =>
      have hw := w1 e href
      rw [hw]
      refine ⟨?_, ?_, ?_⟩
      · simp [Box.answer, Box.reply, href, Except.map]
      · simpa [Box.apply, href] using h
      · simp [Box.apply, href, Except.map]
    | none =>
      obtain ⟨r1, r2⟩ := w2 href
      rw [r1]
      refine ⟨?_, ?_, ?_⟩
      · simp [Box.answer, Box.reply, href, Except.map]
      · simpa [Box.apply, href] using r2
      · simp [Box.apply, href, Except.map]
  | delete id =>
    obtain ⟨h1, h3⟩ := h.delete id
    have h4 : (deleteFn id c).1 = .ok (.objs (b.map id).toList) := by unfold deleteFn; simp only; rw [h1]; rfl
    refine ⟨h4, h3, ?_⟩
    show _ ↔ ∃ e, (deleteFn id c).1 = .error e
    rw [h4]; simp [Box.apply]
  | strict value =>
    cases value with
    | none => exact ⟨rfl, h, by simp [Box.apply, DbOp.fn, strictFn]⟩
    | some v =>
      refine ⟨rfl, h.setStrict v, ?_⟩
      simp [Box.apply, DbOp.fn, strictFn, Container.setStrict, Except.map]

/-! ### Sessions -/

/-- The session and the transactional map hold the same. -/
structure Same (n room : Nat) (c : Conn V) (s : Spec.Limited V) : Prop where
  work : Holds n room c.tm.work s.mem
  committed : Holds n room c.tm.committed s.disk
  auto : c.tm.autocommit = s.auto
  broken : c.tm.failed = s.broken

variable [Truthy V]

theorem Same.call (hV : AllTruthy V) {n room : Nat} {c : Conn V} {s : Spec.Limited V} (h : Same n room c s) (op : DbOp V) (ok : Bool) :
    Same n room (c.call op ok).2 (s.call (limits n room) op ok) ∧ (c.call op ok).1 = s.answer (limits n room) op ok := by
  obtain ⟨h1, h2, h3, h4⟩ := h
  by_cases hd : isWrite op = true ∧ c.tm.autocommit = true
  · obtain ⟨k1, k2, k3⟩ := call_on c hd.2 op hd.1 ok
    obtain ⟨f1, f2, f3⟩ := h2.fn hV op
    have hc : s.auto ∧ isWrite op := ⟨h3 ▸ hd.2, hd.1⟩
    unfold Spec.Limited.call Spec.Limited.answer
    rw [if_pos hc, if_pos hc]
    rcases hf : (op.fn c.tm.committed).1 with e | v
    · have hn := f3.2 ⟨e, hf⟩
      rw [k1 e hf, if_pos hn, if_neg (by simp [hn])]
      exact ⟨⟨h2, h2, h3, rfl⟩, by rw [← hf]; exact f1⟩
    · have hn : s.disk.apply (limits n room) op ≠ none := fun hn => by
        obtain ⟨e, he⟩ := f3.1 hn
        rw [he] at hf; cases hf
      rw [if_neg hn]
      cases ok with
      | true =>
        rw [k2 v hf rfl, if_pos rfl, if_neg (by simp)]
        exact ⟨⟨f2, f2, h3, rfl⟩, by rw [← hf]; exact f1⟩
      | false =>
        rw [k3 v hf rfl, if_neg (by simp), if_pos ⟨hn, rfl⟩]
        exact ⟨⟨h2, h2, rfl, rfl⟩, rfl⟩
  · have hoff : c.tm.autocommit = false ∨ isWrite op = false := by
      rcases ha : c.tm.autocommit with _ | _
      · exact .inl rfl
      · rcases hb : isWrite op with _ | _
        · exact .inr rfl
        · exact absurd ⟨hb, ha⟩ hd
    have hc : ¬ (s.auto ∧ isWrite op) := by rw [← h3]; exact fun hc => hd ⟨hc.2, hc.1⟩
    unfold Spec.Limited.call Spec.Limited.answer
    rw [if_neg hc, if_neg hc]
    cases hb : s.broken with
    | true =>
      rw [call_failed c op hoff (by rw [h4, hb])]
      exact ⟨⟨h1, h2, h3, by rw [if_pos rfl]; exact h4⟩, by rw [if_pos rfl]⟩
    | false =>
      rw [call_off c op hoff (by rw [h4, hb])]
      obtain ⟨f1, f2, -⟩ := h1.fn hV op
      exact ⟨⟨f2, h2, h3, h4.trans hb⟩, f1⟩

omit [Truthy V] in
theorem Same.commit {n room : Nat} {c : Conn V} {s : Spec.Limited V} (h : Same n room c s) (ok : Bool) (f : Bool) :
    Same n room { tm := (c.tm.commit ok).2, flag := f } (s.commit ok) := by
  obtain ⟨h1, h2, h3, h4⟩ := h
  unfold Tm.commit Spec.Limited.commit
  rw [h4]
  cases hb : s.broken with
  | true => rw [if_pos rfl, if_pos rfl]; exact ⟨h1, h2, h3, h4⟩
  | false =>
    cases ok with
    | true => exact ⟨h1, h1, h3, rfl⟩
    | false => exact ⟨h2, h2, h3, rfl⟩

theorem Same.step (hV : AllTruthy V) {n room : Nat} {c : Conn V} {s : Spec.Limited V} (h : Same n room c s) (e : Event V) :
    Same n room (c.step e) (s.step (limits n room) e) := by
  cases e with
  | call op ok => exact (h.call hV op ok).1
  | setAutocommit value =>
    cases value with
    | none => exact ⟨h.work, h.committed, h.auto, h.broken⟩
    | some b => exact ⟨h.work, h.committed, rfl, h.broken⟩
  | enter => exact ⟨h.committed, h.committed, rfl, rfl⟩
  | exit raised ok =>
    cases raised with
    | true => exact ⟨h.committed, h.committed, rfl, rfl⟩
    | false =>
      have hc := Same.commit (c := { c with tm := { c.tm with autocommit := true } }) (s := { s with auto := true })
        ⟨h.work, h.committed, rfl, h.broken⟩ ok true
      show Same n room (c.exit false ok).2 _
      unfold Conn.exit Tm.exit
      simp only [Bool.false_eq_true, if_false]
      have hs : ({ (s.commit ok) with auto := true } : Spec.Limited V) = ({ s with auto := true } : Spec.Limited V).commit ok := by
        unfold Spec.Limited.commit
        cases hb : s.broken <;> cases ok <;> simp [hb]
      show Same n room _ ({ (s.commit ok) with auto := true } : Spec.Limited V)
      rw [hs]
      have hau : (({ s with auto := true } : Spec.Limited V).commit ok).auto = true := by
        unfold Spec.Limited.commit
        cases hb : s.broken <;> cases ok <;> simp
      rcases hr : Tm.commit { c.tm with autocommit := true } ok with ⟨r, t'⟩
      rw [hr] at hc
      cases r with
      | error e => exact hc
      | ok u => exact ⟨hc.work, hc.committed, hau.symm, hc.broken⟩
  | commit ok => exact h.commit ok c.flag
  | abort => exact ⟨h.committed, h.committed, h.auto, rfl⟩
  | crash a => exact ⟨h.committed, h.committed, rfl, rfl⟩

theorem Same.steps (hV : AllTruthy V) {n room : Nat} (es : List (Event V)) : ∀ {c : Conn V} {s : Spec.Limited V}, Same n room c s →
    Same n room (c.steps es) (s.steps (limits n room) es) := by
  induction es with
  | nil => intro c s h; exact h
  | cons e es ih => intro c s h; exact ih (h.step hV e)

theorem Same.shows (hV : AllTruthy V) {n room : Nat} {c : Conn V} {s : Spec.Limited V} (h : Same n room c s) : Shows (limits n room) c s :=
  ⟨fun id => h.work.read hV id, h.work.strict, fun _ id => h.committed.read hV id, fun _ => h.committed.strict, fun op ok => (h.call hV op ok).2⟩

/-- **C155.** A session on a database with one group behaves, after every history of calls (assignments to `strict` included), blocks, commits
(accepted or refused by the storage), aborts, autocommit switches and crashes, exactly like a transactional map with limits. -/
theorem session_is_limited (hV : AllTruthy V) {n room : Nat} {c0 : Container V} {b : Box V} (h0 : Holds n room c0 b) (a : Bool) {conn : Conn V}
    (hc : Conn.init (some c0) a = .ok conn) (es : List (Event V)) :
    Shows (limits n room) (conn.steps es) (Spec.Limited.steps (limits n room) ⟨b, b, true, false⟩ es) := by
  unfold Conn.init at hc
  injection hc with hc
  subst hc
  have hs : Same (V := V) n room { tm := { work := c0, committed := c0 }, flag := a } ⟨b, b, true, false⟩ := ⟨h0, h0, rfl, rfl⟩
  exact (hs.steps hV es).shows hV

omit [Truthy V] in
theorem new_holds (capacity mc : Nat) (s : Bool) (hc : 1 ≤ capacity) (hm : 1 ≤ mc) : ∃ (c0 : Container V) (n : Nat),
    Container.new capacity mc s = .ok c0 ∧ numberOfCollections capacity mc = .ok n ∧ Holds n (min (n * capacity) mc) c0 ⟨Map.empty, s⟩ := by
  obtain ⟨n, h1, h2, h3, h4⟩ := numberOfCollections_correct capacity mc hm
  have hn : 1 ≤ n := by
    rcases Nat.eq_zero_or_pos n with h | h
    · subst h; omega
    · exact h
  set room := if n * capacity < mc then n * capacity else mc with hroom
  have hmin : min (n * capacity) mc = room := by rw [hroom]; split_ifs <;> omega
  have hrpos : 1 ≤ room := by
    rw [hroom]; split_ifs
    · exact Nat.mul_pos hn hc
    · exact hm
  obtain ⟨g, hg1, hg2, hg3, hg4⟩ := (group_new (V := V) 0 (some n) (room : Int) s).2 n rfl (by omega) (by omega)
  have hmk : Container.makeGroup capacity mc s = .ok g := by
    unfold Container.makeGroup
    rw [h1]
    simp only
    rw [← hroom]; exact hg1
  have hview : g.view = Map.empty := by
    funext k
    obtain ⟨c, hcx⟩ := CGroup.coll_exists hg3.inv.ne k
    rw [CGroup.view_eq hcx]
    unfold Collection.get
    rw [(hg4 c (List.mem_of_getElem? hcx)).2]; rfl
  let base : Container V := { heap := fun _ => g, next := 1, primary := 0, groups := [0] }
  have hnew : Container.new capacity mc s = .ok (base.setStrict (some s)).2 := by
    unfold Container.new
    rw [hmk]
    simp only [Container.init, Container.setStrict, List.not_mem_nil, if_false]
    rfl
  refine ⟨_, n, hnew, h1, ?_⟩
  rw [hmin]
  have hbase : base.Inv := ⟨fun _ _ => hg3.inv, hg3.inv, fun a ha => by simp only [base, List.mem_singleton] at ha; subst ha; exact Nat.one_pos,
    Nat.one_pos, List.nodup_singleton _⟩
  obtain ⟨v1, v2⟩ := CGroup.setStrict_view hg3.inv (some s)
  refine ⟨Container.setStrict_inv hbase (some s), rfl, ?_⟩
  show GHolds n room ((base.put 0 (g.setStrict (some s)).2).heap 0) _
  rw [Container.heap_put_self]
  refine ⟨v1, ?_, v2.trans hview⟩
  have : (g.setStrict (some s)).2.flags = g.collections.map fun x => (x.maxSize, s) := by
    simp [CGroup.setStrict, CGroup.flags, Function.comp_def]
  rw [this, List.eq_replicate_iff]
  refine ⟨by simpa using hg2, fun x hx => ?_⟩
  obtain ⟨c, hc, rfl⟩ := List.mem_map.1 hx
  have := (hg4 c hc).1
  simp only [Prod.mk.injEq, and_true]
  exact_mod_cast this

omit [Truthy V] in
/-- A session with a database made by `ContainerDb.new`. -/
theorem new_same (d : Disk V) (capacity : Nat) (hcap : 1 ≤ capacity) (create strict a : Bool) :
    ∃ conn n, numberOfCollections capacity defaultCollectionSize = .ok n ∧
      (newDb d capacity create strict).1.result = .ok () ∧
      connect ((newDb d capacity create strict).1.final (newDb d capacity create strict).2) a = .ok conn ∧
      Same n (min (n * capacity) defaultCollectionSize) conn ⟨⟨Map.empty, false⟩, ⟨Map.empty, false⟩, true, false⟩ ∧ conn.flag = a := by
  obtain ⟨c0, h0, h1, h2⟩ := createDb_spec (V := V) d capacity create strict hcap
  obtain ⟨c1, n, k1, k2, k3⟩ := new_holds (V := V) capacity defaultCollectionSize false hcap (by decide)
  have : c1 = c0 := Except.ok.inj (k1.symm.trans h0)
  subst this
  have hnew : newDb d capacity create strict = loadAfter (createDb d capacity create strict) := rfl
  unfold loadAfter at hnew
  rw [h1] at hnew
  simp only at hnew
  unfold Opened.final at h2
  have hop := openDb_some (V := V) { container := some c1, others := if create then [] else (d.map Root.others).getD [] }
  rw [← h2] at hop
  rw [hop] at hnew
  simp only [List.append_nil] at hnew
  obtain ⟨conn, hconn, hsame, hflag⟩ : ∃ conn, Conn.init (some c1) a = .ok conn ∧
      Same n (min (n * capacity) defaultCollectionSize) conn ⟨⟨Map.empty, false⟩, ⟨Map.empty, false⟩, true, false⟩ ∧ conn.flag = a :=
    ⟨_, rfl, ⟨k3, k3, rfl, rfl⟩, rfl⟩
  refine ⟨conn, n, k2, by rw [hnew], ?_, hsame, hflag⟩
  rw [hnew]
  unfold Opened.final
  rw [h2]
  exact hconn

/-- **C155, from the start.** A database made by `ContainerDb.new` with a positive capacity, whatever was in the file: it has the number of slots of C01,
slots of the default size (but a single slot has the size of the capacity if that is smaller), and starts empty and without strict mode. -/
theorem database_is_limited (hV : AllTruthy V) (d : Disk V) (capacity : Nat) (hcap : 1 ≤ capacity) (create strict a : Bool) (es : List (Event V)) :
    ∃ conn n, numberOfCollections capacity defaultCollectionSize = .ok n ∧
      (newDb d capacity create strict).1.result = .ok () ∧
      connect ((newDb d capacity create strict).1.final (newDb d capacity create strict).2) a = .ok conn ∧
      Shows (limits n (min (n * capacity) defaultCollectionSize)) (conn.steps es)
        (Spec.Limited.steps (limits n (min (n * capacity) defaultCollectionSize)) ⟨⟨Map.empty, false⟩, ⟨Map.empty, false⟩, true, false⟩ es) := by
  obtain ⟨conn, n, h1, h2, h3, h4, -⟩ := new_same (V := V) d capacity hcap create strict a
  exact ⟨conn, n, h1, h2, h3, (h4.steps hV es).shows hV⟩

/-! ### Concrete cases -/

/-- One slot for two ids that is full: a new id is refused with one error, an id in use with the other; without `strict` nothing is. -/
example : let b : Box Nat := ⟨(Map.empty.set "a" 1).set "b" 2, true⟩
    b.refusal (limits 1 2) "c" = some .groupCapacity ∧ b.refusal (limits 1 2) "a" = some .collectionCapacity ∧
    ({ b with strict := false } : Box Nat).refusal (limits 1 2) "c" = none := by
  intro b
  have h : ∀ P : String → Prop, P "a" → P "b" → b.map.AtLeast P 2 := fun P ha hb => ⟨["a", "b"], by decide, rfl, by
    intro id hid
    simp only [List.mem_cons, List.not_mem_nil, or_false] at hid
    rcases hid with rfl | rfl
    · exact ⟨by decide, ha⟩
    · exact ⟨by decide, hb⟩⟩
  have hslot : ∀ x y, (limits 1 2).slot x = (limits 1 2).slot y := fun x y => by simp [limits, Nat.mod_one]
  refine ⟨?_, ?_, rfl⟩
  · unfold Box.refusal
    rw [if_neg (by simp [b]), if_pos (show b.map "c" = none by decide),
      if_pos (show b.map.AtLeast (fun _ => True) (limits 1 2).total from h _ trivial trivial)]
  · unfold Box.refusal
    rw [if_neg (by simp [b]), if_neg (show b.map "a" ≠ none by decide),
      if_pos (show b.SlotFull (limits 1 2) "a" from h _ (hslot _ _) (hslot _ _))]

local instance : Truthy Bool := ⟨fun _ => true⟩

/-- A real database: strict mode is turned on in a block, the third id is refused, and nothing has changed after a crash. -/
example : let c := (Container.setStrict ⟨fun _ => ⟨[Collection.new 0 (some 2) false]⟩, 1, [0], 0⟩ (some false)).2
    let conn : Conn Bool := { tm := { work := c, committed := c }, flag := true }
    let s := conn.steps [.enter, .call (.strict (some true)) true, .exit false true, .call (.create "a" true) true, .call (.create "b" true) true]
    Holds 1 2 c (⟨Map.empty, false⟩ : Box Bool) ∧ s.tm.work.strict = true ∧
    (s.call (.create "c" true) true).1.toOption.isNone = true ∧ (s.call (.update "a" true) true).1.toOption.isNone = true ∧
    (s.call (.delete "a") true).1.toOption.isNone = false := by
  intro c conn s
  have hg : (⟨[Collection.new 0 (some 2) false]⟩ : CGroup Bool).Inv := by
    refine ⟨by simp, fun x hx => ?_, fun i x hx k hk => ?_⟩
    · rw [List.mem_singleton.1 hx]; exact List.Pairwise.nil
    · cases i with
      | zero => simp [Nat.mod_one]
      | succ i => simp at hx
  have hi : Container.Inv (⟨fun _ => ⟨[Collection.new 0 (some 2) false]⟩, 1, [0], 0⟩ : Container Bool) :=
    ⟨fun _ _ => hg, hg, by simp, Nat.one_pos, by simp⟩
  refine ⟨⟨Container.setStrict_inv hi (some false), rfl, (CGroup.setStrict_view hg (some false)).1, rfl, ?_⟩, by decide +kernel, by decide +kernel,
    by decide +kernel, by decide +kernel⟩
  rw [show ((c.heap c.primary).view) = _ from (CGroup.setStrict_view hg (some false)).2]
  funext k
  obtain ⟨x, hx⟩ := CGroup.coll_exists hg.ne k
  rw [CGroup.view_eq hx, List.mem_singleton.1 (List.mem_of_getElem? hx)]
  rfl

end Verif.Props.Limited
