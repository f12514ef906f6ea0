import Verif.Props.Container

/-!
# Histories of a container (C09, C12, C21, C22, C32)
-/
namespace Verif.Props
open Verif.Storage Verif.Spec
variable {V : Type}

/-! ### C22 -/

/-- What a successful call does to the map of the latest objects: reorganising the groups
does nothing. -/
def applyCall (m : Map V) : ContCall V → Map V
  | .write k v => m.set k v
  | .delete k => m.remove k
  | .resize .. => m
  | .condense _ => m
  | .setStrict _ => m

/-- Did the call return? -/
def Returned {α : Type} : Outcome α → Bool
  | .ok _ => true
  | .error _ => false

/-- The map of the latest objects after a history, given the outcomes of its calls. -/
def latest : Map V → List (ContCall V) → List (Outcome (ContRet V)) → Map V
  | m, op :: ops, out :: outs => latest (if Returned out then applyCall m op else m) ops outs
  | m, _, _ => m

/-- State during a history: the primary group comes first, contains all ids, and shows `m`. -/
structure Hist (c : Container V) (m : Map V) : Prop where
  reach : ContReach c
  head : c.HeadPrimary
  chain : c.groups.Pairwise fun a b => ∀ k, c.view b k ≠ none → c.view a k ≠ none
  shows : c.view c.primary = m

theorem Hist.first {c : Container V} {m : Map V} (h : Hist c m) (id : String) : c.first id = m id := by
  rw [first_head h.head, h.shows]
  cases hm : m id with
  | some v => rfl
  | none =>
    show (c.groups.tail.findSome? fun a => c.view a id) = none
    rw [List.findSome?_eq_none_iff]
    intro a ha
    have hc := h.chain
    rw [h.head.eq, List.pairwise_cons] at hc
    by_contra hn
    exact hc.1 a ha id hn (by rw [h.shows]; exact hm)

theorem Hist.tail_ne {c : Container V} {m : Map V} (h : Hist c m) {a : Nat} (ha : a ∈ c.groups.tail) :
    a ≠ c.primary := by
  have hnd := h.reach.inv.nodup
  rw [h.head.eq, List.nodup_cons] at hnd
  rintro rfl
  exact hnd.1 ha

/-- A change of the primary group only, which keeps its ids or adds some. -/
theorem Hist.put {c : Container V} {m m' : Map V} (h : Hist c m) {g : CGroup V}
    (hr : ContReach (c.put c.primary g)) (hv : g.view = m') (hsup : ∀ k, m k ≠ none → m' k ≠ none) :
    Hist (c.put c.primary g) m' := by
  refine ⟨hr, h.head, ?_, ?_⟩
  · have hc := h.chain
    show c.groups.Pairwise _
    rw [h.head.eq, List.pairwise_cons] at hc ⊢
    refine ⟨?_, ?_⟩
    · intro b hb k hk
      unfold Container.view at hk ⊢
      rw [Container.heap_put_ne _ _ (h.tail_ne hb)] at hk
      rw [Container.heap_put_self, hv]
      refine hsup k ?_
      rw [← h.shows]
      exact hc.1 b hb k hk
    · refine hc.2.imp_of_mem ?_
      intro a b ha hb hab k hk
      unfold Container.view at hk ⊢
      rw [Container.heap_put_ne _ _ (h.tail_ne hb)] at hk
      rw [Container.heap_put_ne _ _ (h.tail_ne ha)]
      exact hab k hk
  · unfold Container.view
    show ((c.put c.primary g).heap c.primary).view = m'
    rw [Container.heap_put_self, hv]

/-- A new list of groups: a primary group with all ids first, then some of the old groups,
unchanged. -/
theorem Hist.regroup {c c' : Container V} {m : Map V} (h : Hist c m) (hr : ContReach c')
    (hh : c'.HeadPrimary) (hsub : c'.groups.tail.Sublist c.groups)
    (hheap : ∀ a ∈ c'.groups.tail, c'.heap a = c.heap a) (hv : c'.view c'.primary = m) : Hist c' m := by
  refine ⟨hr, hh, ?_, hv⟩
  rw [hh.eq, List.pairwise_cons]
  refine ⟨?_, ?_⟩
  · intro b hb k hk
    rw [hv]
    unfold Container.view at hk
    rw [hheap b hb] at hk
    intro hm
    have := h.first k
    rw [hm, Container.first_eq_none] at this
    exact hk (this b (hsub.subset hb))
  · refine (h.chain.sublist hsub).imp_of_mem ?_
    intro a b ha hb hab k hk
    unfold Container.view at hk ⊢
    rw [hheap b hb] at hk
    rw [hheap a ha]
    exact hab k hk

theorem Hist.step {c : Container V} {m : Map V} (h : Hist c m) (op : ContCall V)
    (hop : ∀ t, op = .condense t → (c.heap c.primary).NonStrict) :
    Hist (c.call op).2 (if Returned (c.call op).1 then applyCall m op else m) := by
  have hr' : ContReach (c.call op).2 := .call c op h.reach
  have hi := h.reach.inv
  cases op with
  | write k v =>
    rcases Container.write_spec hi.pinv k v with ⟨e, h1, _⟩ | ⟨g, h1, h2, h3, h4⟩
    · simp only [Container.call, h1]; exact h
    · simp only [Container.call, h1] at hr' ⊢
      refine h.put hr' (by rw [h4, h.shows]; rfl) ?_
      intro x hx
      show Map.set m k v x ≠ none
      unfold Map.set; split_ifs
      · simp
      · exact hx
  | delete k =>
    have hf : c.groups.Pairwise fun a b => c.view b k ≠ none → c.view a k ≠ none :=
      h.chain.imp fun hab => hab k
    obtain ⟨h1, h2⟩ := Container.delete_spec hi k
    rcases h2 with ⟨_, h3, h4⟩ | ⟨h3, _⟩
    · have hret : Returned (c.call (.delete k)).1 = true := by
        simp only [Container.call, h3]; rfl
      rw [if_pos hret]
      have hview : ∀ a ∈ c.groups, ∀ x, (c.delete k).2.view a x = if x = k then none else c.view a x := by
        intro a ha x
        split_ifs with hx
        · rw [hx]; exact h4 a ha
        · exact h1.frame a (hi.inv a ha) x hx
      have hpm : c.primary ∈ c.groups := by rw [h.head.eq]; simp
      refine ⟨hr', ?_, ?_, ?_⟩
      · show (c.delete k).2.HeadPrimary
        unfold Container.HeadPrimary; rw [h1.groups, h1.primary]; exact h.head
      · show (c.delete k).2.groups.Pairwise fun a b => ∀ x, (c.delete k).2.view b x ≠ none →
          (c.delete k).2.view a x ≠ none
        rw [h1.groups]
        refine h.chain.imp_of_mem ?_
        intro a b ha hb hab x hx
        rw [hview b hb] at hx
        rw [hview a ha]
        split_ifs at hx ⊢ with hxk
        · exact absurd rfl hx
        · exact hab x hx
      · show (c.delete k).2.view (c.delete k).2.primary = Map.remove m k
        rw [h1.primary]
        funext x
        rw [hview _ hpm, h.shows]; rfl
    · exact absurd hf h3
  | resize n mc cd t =>
    have happ : (if Returned (c.call (.resize n mc cd t)).1 then applyCall m (.resize n mc cd t) else m) = m := by
      split_ifs <;> rfl
    rw [happ]
    show Hist (c.resize n mc cd t).2 m
    by_cases hz : n = 0 ∨ mc = 0
    · obtain ⟨e, he⟩ := (container_resize c h.reach n mc cd t).2.1 hz
      rw [he]; exact h
    · obtain ⟨_, r2, r3, r4, _, _, r7, r8, r9⟩ := resize_spec hi n mc cd t (by omega) (by omega)
      refine h.regroup hr' r3 ?_ r9 ?_
      · show (c.resize n mc cd t).2.groups.tail.Sublist c.groups
        rw [r7]
        simp only [List.tail_cons]
        split_ifs
        · exact List.nil_sublist _
        · exact List.Sublist.refl _
        · exact List.tail_sublist _
        · exact List.Sublist.refl _
      · funext id
        have h1 : c.primary ∈ (if cd then c.groups else c.groups.take 1) := by
          split_ifs
          · rw [h.head.eq]; simp
          · rw [h.head.eq]; simp
        show (c.resize n mc cd t).2.view (c.resize n mc cd t).2.primary id = m id
        have hfirst := r4 id
        rw [h.first id, first_head r3] at hfirst
        cases hp : (c.resize n mc cd t).2.view (c.resize n mc cd t).2.primary id with
        | some v => rw [hp] at hfirst; exact hfirst
        | none =>
          by_contra hne
          refine r8 id c.primary h1 ?_ hp
          rw [h.shows]; exact fun h => hne h.symm
  | condense t =>
    have happ : (if Returned (c.call (.condense t)).1 then applyCall m (.condense t) else m) = m := by
      split_ifs <;> rfl
    rw [happ]
    have hn := hop t rfl
    cases t with
    | true =>
      obtain ⟨_, h2, h3, h4, _⟩ := container_condense_partial c h.reach h.head hn
      refine h.regroup hr' ?_ ?_ ?_ ?_
      · show (c.condense true).2.HeadPrimary
        unfold Container.HeadPrimary; rw [h2, h3]; rfl
      · show (c.condense true).2.groups.tail.Sublist c.groups
        rw [h2]; simp
      · intro a ha
        have ha : a ∈ (c.condense true).2.groups.tail := ha
        rw [h2] at ha; simp at ha
      · show (c.condense true).2.view (c.condense true).2.primary = m
        rw [h3]; funext id; rw [h4, h.first]
    | false =>
      obtain ⟨_, h2, h3, h4, _, h6⟩ := container_condense_copy_partial c h.reach h.head hn
      refine h.regroup hr' ?_ ?_ ?_ ?_
      · show (c.condense false).2.HeadPrimary
        unfold Container.HeadPrimary; rw [h2, h3]; exact h.head
      · show (c.condense false).2.groups.tail.Sublist c.groups
        rw [h2]; exact List.tail_sublist _
      · intro a ha
        have ha : a ∈ (c.condense false).2.groups.tail := ha
        rw [h2] at ha; exact h6 a ha
      · show (c.condense false).2.view (c.condense false).2.primary = m
        rw [h3]; funext id; rw [h4, h.first]
  | setStrict b =>
    cases b with
    | none => exact h
    | some b =>
      refine h.put hr' ?_ fun _ h => h
      rw [(CGroup.setStrict_view hi.pinv (some b)).2]; exact h.shows

/-- In a non-strict container writing, deleting and condensing never raise, and no call but
`strict = True` makes it strict. -/
theorem Hist.nonstrict {c : Container V} {m : Map V} (h : Hist c m)
    (hn : (c.heap c.primary).NonStrict) (op : ContCall V) (hop : op ≠ .setStrict (some true)) :
    ((c.call op).2.heap (c.call op).2.primary).NonStrict ∧
    (Returned (c.call op).1 = true ∨ (∃ n mc cd t, op = .resize n mc cd t ∧ (n = 0 ∨ mc = 0)) ∨
      op = .setStrict none) := by
  have hi := h.reach.inv
  cases op with
  | write k v =>
    rcases Container.write_spec hi.pinv k v with ⟨e, _, _, h3⟩ | ⟨g, h1, h2, h3, h4⟩
    · exact absurd hn h3
    · simp only [Container.call, h1]
      refine ⟨?_, .inl rfl⟩
      show ((c.put c.primary g).heap c.primary).NonStrict
      rw [Container.heap_put_self, CGroup.nonStrict_flags, h3, ← CGroup.nonStrict_flags]; exact hn
  | delete k =>
    have hf : c.groups.Pairwise fun a b => c.view b k ≠ none → c.view a k ≠ none :=
      h.chain.imp fun hab => hab k
    obtain ⟨h1, h2⟩ := Container.delete_spec hi k
    rcases h2 with ⟨_, h3, h4⟩ | ⟨h3, _⟩
    · refine ⟨?_, .inl (by simp only [Container.call, h3]; rfl)⟩
      show ((c.delete k).2.heap (c.delete k).2.primary).NonStrict
      rw [CGroup.nonStrict_flags, h1.flags, h1.primary, ← CGroup.nonStrict_flags]; exact hn
    · exact absurd hf h3
  | resize n mc cd t =>
    by_cases hz : n = 0 ∨ mc = 0
    · obtain ⟨e, he⟩ := (container_resize c h.reach n mc cd t).2.1 hz
      refine ⟨?_, .inr (.inl ⟨n, mc, cd, t, rfl, hz⟩)⟩
      show ((c.resize n mc cd t).2.heap (c.resize n mc cd t).2.primary).NonStrict
      rw [he]; exact hn
    · obtain ⟨⟨r, r1⟩, _, _, _, r5, _⟩ := resize_spec hi n mc cd t (by omega) (by omega)
      exact ⟨r5, .inl (by simp only [Container.call, r1]; rfl)⟩
  | condense t =>
    rcases Container.condense_spec hi h.head t with ⟨c1, h1, h2⟩ | ⟨e, c2, _, _, _, _, _, _, _, h3⟩
    · have hfl : (c1.heap c1.primary).NonStrict := h1.nonStrict.2 hn
      cases t with
      | true =>
        simp only [Container.call, h2]
        exact ⟨hfl, .inl rfl⟩
      | false =>
        simp only [Container.call, h2]
        exact ⟨hfl, .inl rfl⟩
    · exact absurd hn h3.strict
  | setStrict b =>
    cases b with
    | none => exact ⟨hn, .inr (.inr rfl)⟩
    | some b =>
      have hb : b = false := by
        cases b with
        | false => rfl
        | true => exact absurd rfl hop
      subst hb
      refine ⟨?_, .inl rfl⟩
      show ((c.put c.primary ((c.heap c.primary).setStrict (some false)).2).heap c.primary).NonStrict
      rw [Container.heap_put_self]
      intro x hx
      obtain ⟨d, _, rfl⟩ := List.mem_map.1 hx; rfl

theorem Hist.new {capacity m : Nat} {s : Bool} {c : Container V}
    (h : Container.new capacity m s = .ok c) : Hist c Map.empty := by
  have hr := new_reach h
  by_cases hz : capacity = 0 ∨ m = 0
  · obtain ⟨e, he⟩ := (container_new_errors (V := V) capacity m s).2 hz
    rw [he] at h; simp at h
  · obtain ⟨c', h1, h2, _, h4, _⟩ := container_new (V := V) capacity m s (by omega) (by omega)
    rw [h1] at h; injection h with h; subst h
    have hh : c'.HeadPrimary := by unfold Container.HeadPrimary; rw [h2]; rfl
    refine ⟨hr, hh, ?_, ?_⟩
    · rw [h2]; exact List.pairwise_singleton _ _
    · funext id
      have := Container.first_eq_none.1 (h4 id) c'.primary (by rw [h2]; simp)
      rw [this]; rfl

/-- A call other than `condense`. -/
def ContCall.notCondense : ContCall V → Prop
  | .condense _ => False
  | _ => True

/-- **C22 (partial: truthy objects).** Non-strict container made by `Container.new`, any
history of writes, deletes, resizes (all flags), condenses: `read` gives the object last
written and not deleted since, `has` is positive exactly then; no write, delete or
condense ever raises.  Missing: falsy objects (C25), containers built from other groups
(C24, C26 counterexamples). -/
theorem container_history_partial [Truthy V] (hV : AllTruthy V) (capacity mc : Nat) (c0 : Container V)
    (h0 : Container.new capacity mc false = .ok c0) (ops : List (ContCall V))
    (hops : ∀ op ∈ ops, op ≠ .setStrict (some true)) :
    let r := c0.run ops
    (∀ id, r.2.read id = .ok (latest Map.empty ops r.1 id)) ∧
    (∀ id, r.2.has id = .ok 0 ↔ latest Map.empty ops r.1 id = none) ∧
    (∀ p ∈ ops.zip r.1, Returned p.2 = true ∨
      (∃ n m cd t, p.1 = .resize n m cd t ∧ (n = 0 ∨ m = 0)) ∨ p.1 = .setStrict none) := by
  intro r
  have key : ∀ (ops : List (ContCall V)) (c : Container V) (m : Map V), Hist c m →
      (c.heap c.primary).NonStrict → (∀ op ∈ ops, op ≠ .setStrict (some true)) →
      Hist (c.run ops).2 (latest m ops (c.run ops).1) ∧
      (∀ p ∈ ops.zip (c.run ops).1, Returned p.2 = true ∨
        (∃ n m cd t, p.1 = .resize n m cd t ∧ (n = 0 ∨ m = 0)) ∨ p.1 = .setStrict none) := by
    intro ops
    induction ops with
    | nil => intro c m h _ _; exact ⟨h, by simp⟩
    | cons op ops ih =>
      intro c m h hn hall
      have hop := hall op List.mem_cons_self
      obtain ⟨h1, h2⟩ := h.nonstrict hn op hop
      obtain ⟨i1, i2⟩ := ih _ _ (h.step op fun _ _ => hn) h1 fun o ho => hall o (List.mem_cons_of_mem _ ho)
      refine ⟨i1, ?_⟩
      intro p hp
      have hp : p ∈ (op, (c.call op).1) :: ops.zip ((c.call op).2.run ops).1 := hp
      rcases List.mem_cons.1 hp with rfl | hp
      · exact h2
      · exact i2 p hp
  have hn0 : (c0.heap c0.primary).NonStrict := by
    by_cases hz : capacity = 0 ∨ mc = 0
    · obtain ⟨e, he⟩ := (container_new_errors (V := V) capacity mc false).2 hz
      rw [he] at h0; simp at h0
    · unfold Container.new at h0
      cases hg : Container.makeGroup (V := V) capacity mc false with
      | error e => rw [hg] at h0; simp at h0
      | ok g =>
        rw [hg] at h0
        simp only [Container.init, Container.setStrict, List.not_mem_nil, if_false] at h0
        injection h0 with h0
        subst h0
        intro x hx
        simp only [Container.put, Function.update_self] at hx
        obtain ⟨d, _, rfl⟩ := List.mem_map.1 hx; rfl
  obtain ⟨k1, k2⟩ := key ops c0 Map.empty (Hist.new h0) hn0 hops
  refine ⟨?_, ?_, k2⟩
  · intro id
    rw [(container_read_partial hV _ k1.reach id).1, k1.first]
  · intro id
    rw [← (container_read_partial hV _ k1.reach id).2.2, k1.first]

/-- C22 in any mode (strict from the start or switched at any time), histories without
`condense`: `read` gives the object last *successfully* written. -/
theorem container_history_strict_partial [Truthy V] (hV : AllTruthy V) (capacity mc : Nat) (s : Bool)
    (c0 : Container V) (h0 : Container.new capacity mc s = .ok c0) (ops : List (ContCall V))
    (hops : ∀ op ∈ ops, ContCall.notCondense op) :
    let r := c0.run ops
    (∀ id, r.2.read id = .ok (latest Map.empty ops r.1 id)) ∧
    (∀ id, r.2.has id = .ok 0 ↔ latest Map.empty ops r.1 id = none) := by
  intro r
  have key : ∀ (ops : List (ContCall V)) (c : Container V) (m : Map V), Hist c m →
      (∀ op ∈ ops, ContCall.notCondense op) →
      Hist (c.run ops).2 (latest m ops (c.run ops).1) := by
    intro ops
    induction ops with
    | nil => intro c m h _; exact h
    | cons op ops ih =>
      intro c m h hall
      refine ih _ _ (h.step op fun t ht => ?_) fun o ho => hall o (List.mem_cons_of_mem _ ho)
      have := hall op List.mem_cons_self
      rw [ht] at this; exact this.elim
  have k1 := key ops c0 Map.empty (Hist.new h0) hops
  refine ⟨?_, ?_⟩
  · intro id
    rw [(container_read_partial hV _ k1.reach id).1, k1.first]
  · intro id
    rw [← (container_read_partial hV _ k1.reach id).2.2, k1.first]

/-- Non-vacuity: the map of latest objects of a history with rewrites and deletes. -/
example : latest (V := Nat) Map.empty
    [.write "a" 1, .write "b" 2, .resize 7 2 false false, .write "a" 3, .delete "b", .condense true]
    [.ok (.count (some 1)), .ok (.count (some 1)), .ok (.groups []), .ok (.count none), .ok (.objs [2, 2]),
      .ok (.groups [])] "a" = some 3 := by decide

/-! ### C12 -/

/-- **C12 (containers).** `size` and `max_size` are the sums over the groups of the number
of ids held resp. of the limits; `used` and `capacity` are those of the primary group. -/
theorem container_sizes (c : Container V) (hr : ContReach c) :
    (∀ a ∈ c.groups, Map.Card (c.view a) (c.heap a).size) ∧
    c.size = (c.groups.map fun a => (c.heap a).size).sum ∧
    Map.Card (c.view c.primary) c.used ∧
    c.maxSize = (c.groups.map fun a => ((c.heap a).collections.map Collection.maxSize).sum).sum ∧
    c.capacity = ((c.heap c.primary).collections.map Collection.maxSize).sum :=
  ⟨fun a ha => CGroup.card (hr.inv.inv a ha), rfl, CGroup.card hr.inv.pinv, rfl, rfl⟩

/-- C12: when the container has one group (always so for `new` followed by transferring
reorganisations), `size` is the number of ids stored. -/
theorem container_size_single (c : Container V) (hr : ContReach c) (h : c.groups = [c.primary]) :
    Map.Card c.first c.size := by
  have hf : c.first = c.view c.primary := by
    funext id
    unfold Container.first
    rw [h, List.findSome?_cons]
    cases c.view c.primary id <;> rfl
  have hs : c.size = c.used := by
    unfold Container.size Container.used; rw [h]; simp
  rw [hf, hs]; exact CGroup.card hr.inv.pinv

example : (twoGroups 0 false).size = 2 ∧ (twoGroups 0 false).maxSize = 20 ∧
    (twoGroups 0 false).used = 1 ∧ (twoGroups 0 false).capacity = 10 := by decide +kernel

/-! ### C21 -/

/-- **C21 (containers).** `container.strict = v` for a boolean is what `strict` reads
afterwards and changes no stored object in any group; other values raise TypeError and
change nothing. -/
theorem container_setStrict (c : Container V) (hr : ContReach c) (b : Bool) :
    (c.setStrict (some b)).1 = .ok () ∧ (c.setStrict (some b)).2.strict = b ∧
    (∀ a ∈ c.groups, (c.setStrict (some b)).2.view a = c.view a) ∧
    (c.setStrict (some b)).2.groups = c.groups ∧
    c.setStrict none = (.error .typeError, c) := by
  have hi := hr.inv
  refine ⟨rfl, ?_, ?_, rfl, rfl⟩
  · show ((c.put c.primary ((c.heap c.primary).setStrict (some b)).2).heap c.primary).strict = b
    rw [Container.heap_put_self]
    unfold CGroup.strict CGroup.setStrict
    simp only [List.all_map]
    cases hc : (c.heap c.primary).collections with
    | nil => exact absurd hc hi.pinv.ne
    | cons x xs => cases b <;> simp
  · intro a ha
    show ((c.put c.primary ((c.heap c.primary).setStrict (some b)).2).heap a).view = _
    by_cases h : a = c.primary
    · rw [h, Container.heap_put_self]; exact (CGroup.setStrict_view hi.pinv (some b)).2
    · rw [Container.heap_put_ne _ _ h]

/-! ### C09, C32 -/

/-- The strict container with one collection of size 1, holding "a". -/
def fullContainer : Container Nat :=
  (Container.setStrict ⟨fun _ => ((⟨[Collection.new 0 (some 1) false]⟩ : CGroup Nat).run
      [.map (.insert "a" 1)]).2, 1, [0], 0⟩ (some true)).2

theorem fullContainer_reach : ContReach fullContainer := by
  refine .init (fun _ => ((⟨[Collection.new 0 (some 1) false]⟩ : CGroup Nat).run
      [.map (.insert "a" 1)]).2) 1 0 [0] (some true) _ ?_ (by decide) rfl
  intro a ha
  refine ⟨⟨[Collection.new 0 (some 1) true], false, ⟨[Collection.new 0 (some 1) false]⟩,
    [.map (.insert "a" 1)], by simp, by simp [Collection.new], by rfl, rfl⟩, ?_⟩
  simp only [List.mem_cons, List.not_mem_nil, or_false, or_self] at ha
  omega

/-- **C09 (counterexample, container).** Re-writing a stored id in a full strict container
raises. -/
theorem container_rewrite_counterexample :
    ∃ c : Container Nat, ContReach c ∧ c.read "a" = .ok (some 1) ∧
      c.write "a" 2 = (.error .collectionCapacity, c) := by
  refine ⟨fullContainer, fullContainer_reach, by decide +kernel, ?_⟩
  rcases Container.write_spec fullContainer_reach.inv.pinv "a" 2 with ⟨e, h1, _⟩ | ⟨g, h1, _⟩
  · have h2 : (fullContainer.write "a" 2).1 = .error .collectionCapacity := by decide +kernel
    rw [h1] at h2 ⊢
    simp only at h2; rw [h2]
  · have h2 : (fullContainer.write "a" 2).1 = .error .collectionCapacity := by decide +kernel
    rw [h1] at h2; simp at h2

/-- **C09 (partial, container).** Re-writing an id stored in the primary group succeeds if
the collection of the id has room, or is not strict, and the group is not over its limit. -/
theorem container_rewrite_partial (c : Container V) (hr : ContReach c) (id : String) (obj : V)
    (hid : c.view c.primary id ≠ none) (hsz : c.used ≤ c.capacity)
    (hroom : ∀ x, (c.heap c.primary).collections[hashId id % (c.heap c.primary).collections.length]? = some x →
      x.size < x.maxSize ∨ x.strict = false) :
    (c.write id obj).1 = .ok none ∧ (c.write id obj).2.view c.primary id = some obj := by
  have hi := hr.inv
  obtain ⟨x, hx⟩ := CGroup.coll_exists hi.pinv.ne id
  have hmem : id ∈ (c.heap c.primary).keys := (CGroup.mem_keys hi.pinv id).2 hid
  have hidx : groupIndex id (c.heap c.primary).collections.length =
      .ok (hashId id % (c.heap c.primary).collections.length) := by
    unfold groupIndex; rw [if_neg]; intro h; exact hi.pinv.ne (List.length_eq_zero_iff.1 h)
  have hnf : ¬ (x.size ≥ x.maxSize ∧ x.strict = true) := by
    rintro ⟨h1, h2⟩
    rcases hroom x hx with h | h
    · omega
    · rw [h] at h2; simp at h2
  have hins : ((c.heap c.primary).insert id obj).1 = .ok 0 := by
    have hcap : ∃ n, ((c.heap c.primary).insert id obj).1 = .ok n := by
      unfold CGroup.insert
      rw [hidx]
      simp only [hmem, not_true_eq_false, false_and, and_false, if_false]
      rw [CGroup.route_eq hx]
      unfold Collection.insert
      rw [if_neg hnf]
      exact ⟨_, rfl⟩
    obtain ⟨n, hn⟩ := hcap
    rcases (CGroup.insert_ok hi.pinv hn).2 with h | h
    · exact absurd h.1 hid
    · rw [hn, h.2.1]
  rcases CGroup.rewrite_spec hi.pinv hins with ⟨hsame, ⟨u, h1, h2⟩ | ⟨h1, h2⟩⟩
  · unfold Container.write
    rcases hr1 : (c.heap c.primary).insert id obj with ⟨r, g⟩
    rw [hr1] at hins hsame
    simp only at hins hsame
    subst hins hsame
    simp only
    rcases hu : (c.heap c.primary).update [(id, obj)] with ⟨r', g'⟩
    rw [hu] at h1 h2
    simp only at h1 h2; subst h1
    refine ⟨rfl, ?_⟩
    unfold Container.view
    show ((c.put c.primary g').heap c.primary).view id = _
    rw [Container.heap_put_self, h2]; simp [Map.set]
  · exfalso
    have : (c.heap c.primary).size > (c.heap c.primary).maxSize := by
      unfold CGroup.update at h1
      by_contra hle
      have hnk : (List.map Prod.fst [(id, obj)]).filter (fun k => decide (k ∉ (c.heap c.primary).keys)) = [] := by
        simp [hmem]
      simp only [hnk, List.length_nil, Nat.zero_add] at h1
      rw [if_neg (fun h => hle h.1)] at h1
      have hl0 : (c.heap c.primary).collections.length ≠ 0 := by
        intro h; exact hi.pinv.ne (List.length_eq_zero_iff.1 h)
      simp only [hl0, false_and, if_false] at h1
      have h3 := congrArg Prod.fst h1
      simp only at h3
      have := (updateLoop_error _ _ _ _ h3).1
      simp at this
    unfold Container.used Container.capacity at hsz
    omega

/-- A write or delete call. -/
def ContCall.writeOrDelete : ContCall V → Prop
  | .write _ _ => True
  | .delete _ => True
  | _ => False

/-- **C32.** A container created strict and used through `write` and `delete` never holds
more ids than its capacity (nor any collection more than its limit), after any history;
a write that raises changes nothing, and a new id is refused when the container is full. -/
theorem container_strict_limit (capacity mc : Nat) (c0 : Container V)
    (h0 : Container.new capacity mc true = .ok c0) (ops : List (ContCall V))
    (hops : ∀ op ∈ ops, ContCall.writeOrDelete op) :
    let c := (c0.run ops).2
    c.used ≤ c.capacity ∧ c.capacity = c0.capacity ∧ c.strict = true ∧
    (∀ x ∈ (c.heap c.primary).collections, x.size ≤ x.maxSize) ∧
    (∀ id obj e, (c.write id obj).1 = .error e → (c.write id obj).2 = c) ∧
    (∀ id obj, c.first id = none → c.used = c.capacity → ∃ e, (c.write id obj).1 = .error e) := by
  intro c
  -- invariant: single group, within limits, same limits
  have key : ∀ (ops : List (ContCall V)) (c : Container V), ContReach c → c.groups = [c.primary] →
      WithinLimits (c.heap c.primary) → (∀ op ∈ ops, ContCall.writeOrDelete op) →
      ContReach (c.run ops).2 ∧ (c.run ops).2.groups = [(c.run ops).2.primary] ∧
      WithinLimits ((c.run ops).2.heap (c.run ops).2.primary) ∧
      (c.run ops).2.capacity = c.capacity := by
    intro ops
    induction ops with
    | nil => intro c hr hg hl _; exact ⟨hr, hg, hl, rfl⟩
    | cons op ops ih =>
      intro c hr hg hl hall
      have hop := hall op List.mem_cons_self
      have hi := hr.inv
      let Good : Container V → Prop := fun c' => c'.groups = [c'.primary] ∧
        WithinLimits (c'.heap c'.primary) ∧ c'.capacity = c.capacity
      have hstep : Good (c.call op).2 := by
        have hput : ∀ g : CGroup V, g.Inv → g.flags = (c.heap c.primary).flags → WithinLimits g →
            Good (c.put c.primary g) := by
          intro g _ hf hlg
          refine ⟨hg, ?_, ?_⟩
          · show WithinLimits ((c.put c.primary g).heap c.primary)
            rw [Container.heap_put_self]; exact hlg
          · show ((c.put c.primary g).heap c.primary).maxSize = (c.heap c.primary).maxSize
            rw [Container.heap_put_self, CGroup.maxSize_flags, hf, ← CGroup.maxSize_flags]
        cases op with
        | write k v =>
          show Good (c.write k v).2
          unfold Container.write
          have hl1 := gcall_limits hi.pinv hl (.map (.insert k v)) trivial
          have hi1 := (CGroup.insert_step hi.pinv k v).1
          have hf1 := CGroup.insert_flags (c.heap c.primary) k v
          simp only [CGroup.gcall, CGroup.call] at hl1
          rcases hr1 : (c.heap c.primary).insert k v with ⟨r, g⟩
          rw [hr1] at hl1 hi1 hf1
          simp only at hl1 hi1 hf1
          cases r with
          | error e => exact hput g hi1 hf1 hl1
          | ok n =>
            cases n with
            | succ n => exact hput g hi1 hf1 hl1
            | zero =>
              simp only
              have hl2 := gcall_limits hi1 hl1 (.map (.update [(k, v)])) trivial
              have hi2 := CGroup.update_inv hi1 [(k, v)]
              have hf2 := CGroup.update_flags g [(k, v)]
              simp only [CGroup.gcall, CGroup.call] at hl2
              rcases hu : g.update [(k, v)] with ⟨r', g'⟩
              rw [hu] at hl2 hi2 hf2
              simp only at hl2 hi2 hf2
              cases r' with
              | error e => exact hput g' hi2 (hf2.trans hf1) hl2
              | ok u => exact hput g' hi2 (hf2.trans hf1) hl2
        | delete k =>
          show Good (c.delete k).2
          unfold Container.delete
          rw [hg]
          unfold Container.deleteLoop
          rw [Container.has_eq hi]
          cases c.groups.countP fun a => (c.view a k).isSome with
          | zero => exact ⟨hg, hl, rfl⟩
          | succ n =>
            simp only
            have hl1 := gcall_limits hi.pinv hl (.map (.pop k none)) trivial
            have hi1 := (CGroup.pop_step hi.pinv k none).1
            have hf1 := CGroup.pop_flags (c.heap c.primary) k none
            simp only [CGroup.gcall, CGroup.call] at hl1
            rcases hr1 : (c.heap c.primary).pop k none with ⟨r, g⟩
            rw [hr1] at hl1 hi1 hf1
            simp only at hl1 hi1 hf1
            cases r with
            | error e => exact hput g hi1 hf1 hl1
            | ok v => exact hput g hi1 hf1 hl1
        | resize n m cd t => exact hop.elim
        | condense t => exact hop.elim
        | setStrict b => exact hop.elim
      obtain ⟨s1, s2, s3⟩ := hstep
      obtain ⟨i1, i2, i3, i4⟩ := ih _ (.call c op hr) s1 s2 fun o ho => hall o (List.mem_cons_of_mem _ ho)
      exact ⟨i1, i2, i3, i4.trans s3⟩
  have hz : ¬ (capacity = 0 ∨ mc = 0) := by
    intro hz
    obtain ⟨e, he⟩ := (container_new_errors (V := V) capacity mc true).2 hz
    rw [he] at h0; simp at h0
  have hc0 := container_new (V := V) capacity mc true (by omega) (by omega)
  obtain ⟨c', h1, h2, h3, _, _, _, _, h8⟩ := hc0
  have hcc : c' = c0 := by rw [h1] at h0; injection h0
  subst hcc
  have hsz0 : (c'.heap c'.primary).size = 0 := by
    have : c'.size = (c'.heap c'.primary).size := by unfold Container.size; rw [h2]; simp
    rw [← this]; exact h3
  have hl0 : WithinLimits (c'.heap c'.primary) := by
    intro x hx
    refine ⟨?_, ?_⟩
    · have : (c'.heap c'.primary).strict = true := h8
      unfold CGroup.strict at this
      exact List.all_eq_true.1 this x hx
    · unfold CGroup.size at hsz0
      have := List.sum_eq_zero_iff.1 hsz0 x.size (List.mem_map_of_mem hx)
      omega
  obtain ⟨k1, k2, k3, k4⟩ := key ops c' (new_reach h1) h2 hl0 hops
  have hle : ∀ g : CGroup V, WithinLimits g → g.size ≤ g.maxSize := by
    intro g hg
    unfold CGroup.size CGroup.maxSize
    have : ∀ x ∈ g.collections, x.size ≤ x.maxSize := fun x hx => (hg x hx).2
    generalize g.collections = l at this
    induction l with
    | nil => simp
    | cons x l ih =>
      simp only [List.map_cons, List.sum_cons]
      have h1 := this x List.mem_cons_self
      have h2 := ih fun d hd => this d (List.mem_cons_of_mem _ hd)
      omega
  have hstrict : (c.heap c.primary).strict = true := by
    unfold CGroup.strict; rw [List.all_eq_true]; exact fun x hx => (k3 x hx).1
  refine ⟨hle _ k3, k4, hstrict, fun x hx => (k3 x hx).2, ?_, ?_⟩
  · intro id obj e he
    rcases Container.write_spec k1.inv.pinv id obj with ⟨e', h5, _⟩ | ⟨g, h5, _⟩
    · show (c.write id obj).2 = c; rw [h5]
    · rw [h5] at he; simp at he
  · intro id obj hnone hfull
    have hvn : c.view c.primary id = none :=
      Container.first_eq_none.1 hnone c.primary (by show _ ∈ (c'.run ops).2.groups; rw [k2]; simp [c])
    rcases Container.write_spec k1.inv.pinv id obj with ⟨e', h5, _⟩ | ⟨g, h5, h6, h7, h8⟩
    · exact ⟨e', by show (c.write id obj).1 = _; rw [h5]⟩
    · exfalso
      have hk : id ∉ (c.heap c.primary).keys := by
        rw [CGroup.mem_keys k1.inv.pinv]; simpa using hvn
      have hins : ((c.heap c.primary).insert id obj).1 = .error .groupCapacity := by
        have hidx : groupIndex id (c.heap c.primary).collections.length =
            .ok (hashId id % (c.heap c.primary).collections.length) := by
          unfold groupIndex; rw [if_neg]; intro h; exact k1.inv.pinv.ne (List.length_eq_zero_iff.1 h)
        unfold CGroup.insert
        rw [hidx]
        simp only
        rw [if_pos ⟨ge_of_eq (show (c.heap c.primary).size = (c.heap c.primary).maxSize from hfull), hk, hstrict⟩]
      have : (c.write id obj).1 = .error .groupCapacity := by
        unfold Container.write
        rcases hr1 : (c.heap c.primary).insert id obj with ⟨r, g⟩
        rw [hr1] at hins; simp only at hins; subst hins
        rfl
      have h5' : (c.write id obj).1 = _ := congrArg Prod.fst h5
      rw [this] at h5'; simp at h5'

example : fullContainer.strict = true ∧ fullContainer.used = fullContainer.capacity ∧
    (fullContainer.write "b" 2).1 = .error .groupCapacity := by decide +kernel

end Verif.Props
