import Verif.Lemmas.ContainerCalls
import Verif.Props.GroupLimits
import Verif.Props.Sizing

/-!
# Properties of Container (C03, C09, C12, C21–C26, C28, C30–C32)

Vocabulary: `c.view a` is the map the group at address `a` shows through `get`
(`group_get_has`), `c.first id` is the object under `id` in the first group of
`c.groups` that has one.
-/
namespace Verif.Props
open Verif.Storage Verif.Spec
variable {V : Type}

/-- No falsy objects are stored (ordinary persistent objects are truthy). -/
def AllTruthy (V : Type) [Truthy V] : Prop := ∀ v : V, truthy v = true

/-- Containers reachable by the API: built by the constructor from distinct groups with
any histories, any one of them (or another one) primary, or by `Container.new`; then any
calls. -/
inductive ContReach : Container V → Prop
  | init (heap : Nat → CGroup V) (next primary : Nat) (groups : List Nat) (s : Option Bool)
      (c : Container V) :
      (∀ a ∈ primary :: groups, GroupReach (heap a) ∧ a < next) → groups.Nodup →
      Container.init heap next primary groups s = .ok c → ContReach c
  | call (c : Container V) (op : ContCall V) : ContReach c → ContReach (c.call op).2

/-- Containers made by `Container.new` and then used through any calls. -/
def NewReach (c : Container V) : Prop :=
  ∃ capacity m s c0 ops, Container.new capacity m s = .ok c0 ∧ c = (c0.run ops).2

/-! ### C03 and the group built by `new`/`resize` -/

/-- The group made for a requested capacity. -/
theorem makeGroup_spec (capacity m : Nat) (s : Bool) (hc : 1 ≤ capacity) (hm : 1 ≤ m) :
    ∃ (g : CGroup V) (n : Nat), Container.makeGroup capacity m s = .ok g ∧
      numberOfCollections capacity m = .ok n ∧ g.collections.length = n ∧ GroupReach g ∧
      g.NonStrict ∧ g.view = Map.empty ∧ g.size = 0 ∧ capacity ≤ g.maxSize ∧
      (capacity ≤ m → g.maxSize = capacity) := by
  obtain ⟨n, h1, h2, h3, h4⟩ := numberOfCollections_correct capacity m hm
  have hn : 1 ≤ n := by
    rcases Nat.eq_zero_or_pos n with h | h
    · subst h; omega
    · exact h
  set m' := if n * capacity < m then n * capacity else m with hm'
  have hm'pos : 1 ≤ m' := by
    rw [hm']; split_ifs
    · exact Nat.mul_pos hn hc
    · exact hm
  obtain ⟨g, hg1, hg2, hg3, hg4⟩ := (group_new (V := V) 0 (some n) (m' : Int) s).2 n rfl (by omega) (by omega)
  have hmk : Container.makeGroup capacity m s = .ok g := by
    unfold Container.makeGroup
    rw [h1]
    simp only
    rw [← hm']; exact hg1
  have hsum : g.maxSize = n * m' := by
    unfold CGroup.maxSize
    have : g.collections.map Collection.maxSize = List.replicate n m' := by
      rw [List.eq_replicate_iff]
      refine ⟨by simpa using hg2, ?_⟩
      intro x hx
      obtain ⟨c, hc, rfl⟩ := List.mem_map.1 hx
      exact_mod_cast (hg4 c hc).1
    rw [this]; simp
  have hsz : g.size = 0 := by
    unfold CGroup.size
    apply List.sum_eq_zero
    intro x hx
    obtain ⟨c, hc, rfl⟩ := List.mem_map.1 hx
    unfold Collection.size; rw [(hg4 c hc).2]; rfl
  have hns : g.NonStrict := by
    intro c hc'
    unfold CGroup.new at hg1
    cases n with
    | zero => omega
    | succ n =>
      simp only at hg1
      split_ifs at hg1
      unfold CGroup.init at hg1
      split_ifs at hg1
      injection hg1 with hg1
      subst hg1
      obtain ⟨d, _, rfl⟩ := List.mem_map.1 hc'; rfl
  refine ⟨g, n, hmk, h1, hg2, hg3, hns, ?_, hsz, ?_, ?_⟩
  · funext k
    obtain ⟨c, hcx⟩ := CGroup.coll_exists hg3.inv.ne k
    rw [CGroup.view_eq hcx]
    unfold Collection.get
    rw [(hg4 c (List.mem_of_getElem? hcx)).2]; rfl
  · rw [hsum, hm']
    split_ifs
    · calc capacity = 1 * (1 * capacity) := by omega
        _ ≤ n * (n * capacity) := Nat.mul_le_mul hn (Nat.mul_le_mul_right _ hn)
    · exact h3
  · intro hle
    have hn1 : n = 1 := le_antisymm (h4 1 (.inr le_rfl) (by omega)) hn
    rw [hsum, hm', hn1]
    split_ifs <;> omega

theorem makeGroup_errors (capacity m : Nat) (s : Bool) :
    (m = 0 → Container.makeGroup (V := V) capacity m s = .error .zeroDivision) ∧
    (1 ≤ m → capacity = 0 → Container.makeGroup (V := V) capacity m s = .error .valueError) := by
  constructor
  · rintro rfl; rfl
  · rintro hm rfl
    obtain ⟨n, h1, _, _, h4⟩ := numberOfCollections_correct 0 m hm
    have hn : n = 0 := Nat.le_zero.1 (h4 0 (.inr (by omega)) (by omega))
    subst hn
    unfold Container.makeGroup
    rw [h1]; rfl

theorem makeGroup_inv {capacity m : Nat} {s : Bool} {g : CGroup V}
    (h : Container.makeGroup capacity m s = .ok g) : 1 ≤ capacity ∧ 1 ≤ m ∧ g.Inv ∧ g.NonStrict ∧
      g.view = Map.empty ∧ capacity ≤ g.maxSize := by
  have hm : 1 ≤ m := by
    rcases Nat.eq_zero_or_pos m with h0 | h0
    · rw [(makeGroup_errors capacity m s).1 h0] at h; simp at h
    · exact h0
  have hc : 1 ≤ capacity := by
    rcases Nat.eq_zero_or_pos capacity with h0 | h0
    · rw [(makeGroup_errors capacity m s).2 hm h0] at h; simp at h
    · exact h0
  obtain ⟨g', n, h1, _, _, h4, h5, h6, _, h7, _⟩ := makeGroup_spec (V := V) capacity m s hc hm
  rw [h1] at h; injection h with h; subst h
  exact ⟨hc, hm, h4.inv, h5, h6, h7⟩

/-- **C03.** `Container.new` with positive sizes returns an empty container with one group of
the recommended prime number of collections (C01), a capacity of at least the requested
one (exactly the requested one if a single collection can hold it) and the requested
strictness. -/
theorem container_new (capacity m : Nat) (s : Bool) (hc : 1 ≤ capacity) (hm : 1 ≤ m) :
    ∃ c : Container V, Container.new capacity m s = .ok c ∧
      c.groups = [c.primary] ∧ c.size = 0 ∧ (∀ id, c.first id = none) ∧
      numberOfCollections capacity m = .ok (c.heap c.primary).collections.length ∧
      capacity ≤ c.capacity ∧ (capacity ≤ m → c.capacity = capacity) ∧ c.strict = s := by
  obtain ⟨g, n, h1, h2, h3, h4, h5, h6, h7, h8, h9⟩ := makeGroup_spec (V := V) capacity m s hc hm
  obtain ⟨_, g2, _, g4, _, _⟩ := group_setStrict g h4 s
  have hfl : (g.setStrict (some s)).2.maxSize = g.maxSize := by
    simp [CGroup.setStrict, CGroup.maxSize, Function.comp_def]
  have hsz : (g.setStrict (some s)).2.size = g.size := by
    simp only [CGroup.setStrict, CGroup.size, List.map_map]
    rfl
  refine ⟨Container.put ⟨fun _ => g, 1, [0], 0⟩ 0 (g.setStrict (some s)).2, ?_, rfl, ?_, ?_, ?_, ?_, ?_, ?_⟩
  · unfold Container.new
    rw [h1]; rfl
  · show ((Function.update (fun _ => g) 0 (g.setStrict (some s)).2 0).size + 0) = 0
    rw [Function.update_self, hsz, h7]
  · intro id
    rw [Container.first_eq_none]
    intro a ha
    have ha : a ∈ [0] := ha
    have : a = 0 := by simpa using ha
    subst this
    show (Function.update (fun _ => g) 0 (g.setStrict (some s)).2 0).view id = none
    rw [Function.update_self, g4, h6]; rfl
  · show _ = Except.ok (Function.update (fun _ => g) 0 (g.setStrict (some s)).2 0).collections.length
    rw [Function.update_self, h2, ← h3]
    simp [CGroup.setStrict]
  · show capacity ≤ (Function.update (fun _ => g) 0 (g.setStrict (some s)).2 0).maxSize
    rw [Function.update_self, hfl]; exact h8
  · intro hle
    show (Function.update (fun _ => g) 0 (g.setStrict (some s)).2 0).maxSize = capacity
    rw [Function.update_self, hfl]; exact h9 hle
  · show (Function.update (fun _ => g) 0 (g.setStrict (some s)).2 0).strict = s
    rw [Function.update_self]; exact g2

/-- C03: the defaults give a container (its number of collections is 23, `Props/Sizing`). -/
example : ∃ c : Container Nat, Container.new = .ok c ∧ 100000 ≤ c.capacity :=
  (container_new _ _ _ (by decide) (by decide)).imp fun _ h => ⟨h.1, h.2.2.2.2.2.1⟩

/-- C03: zero sizes are refused (ValueError, or ZeroDivisionError for the collection size). -/
theorem container_new_errors (capacity m : Nat) (s : Bool) :
    (∃ e, Container.new (V := V) capacity m s = .error e) ↔ capacity = 0 ∨ m = 0 := by
  constructor
  · rintro ⟨e, he⟩
    by_contra hn
    obtain ⟨c, h, _⟩ := container_new (V := V) capacity m s (by omega) (by omega)
    rw [h] at he; simp at he
  · intro h
    rcases Nat.eq_zero_or_pos m with hm | hm
    · exact ⟨_, by unfold Container.new; rw [(makeGroup_errors capacity m s).1 hm]⟩
    · have hc : capacity = 0 := by omega
      exact ⟨_, by unfold Container.new; rw [(makeGroup_errors capacity m s).2 hm hc]⟩

/-! ### reachable containers -/

theorem call_inv {c : Container V} (hi : c.Inv) (op : ContCall V) : (c.call op).2.Inv := by
  cases op with
  | write k v => exact Container.write_inv hi k v
  | delete k => exact Container.delete_inv hi k
  | resize n m cd t => exact Container.resize_inv hi n m cd t fun g h => (makeGroup_inv h).2.2.1
  | condense t => exact Container.condense_inv hi t
  | setStrict b => exact Container.setStrict_inv hi b

theorem ContReach.inv {c : Container V} (h : ContReach c) : c.Inv := by
  induction h with
  | init heap next primary groups s c hall hnd h =>
    unfold Container.init at h
    have h0 : Container.Inv (⟨heap, next, if primary ∈ groups then groups else primary :: groups,
        primary⟩ : Container V) := by
      have hmem : ∀ a ∈ (if primary ∈ groups then groups else primary :: groups), a ∈ primary :: groups := by
        intro a ha; split_ifs at ha
        · exact List.mem_cons_of_mem _ ha
        · exact ha
      refine ⟨fun a ha => (hall a (hmem a ha)).1.inv, (hall primary List.mem_cons_self).1.inv,
        fun a ha => (hall a (hmem a ha)).2, (hall primary List.mem_cons_self).2, ?_⟩
      simp only
      split_ifs with hp
      · exact hnd
      · exact List.nodup_cons.2 ⟨hp, hnd⟩
    have h1 := Container.setStrict_inv h0 s
    simp only at h
    split at h
    · simp at h
    · rename_i heq
      injection h with h; subst h
      rw [heq] at h1; exact h1
  | call c op _ ih => exact call_inv ih op

theorem ContReach.run {c : Container V} (h : ContReach c) (ops : List (ContCall V)) :
    ContReach (c.run ops).2 := by
  induction ops generalizing c with
  | nil => exact h
  | cons op ops ih => exact ih (.call c op h)

theorem new_reach {capacity m : Nat} {s : Bool} {c : Container V}
    (h : Container.new capacity m s = .ok c) : ContReach c := by
  unfold Container.new at h
  cases hg : Container.makeGroup (V := V) capacity m s with
  | error e => rw [hg] at h; simp at h
  | ok g =>
    rw [hg] at h
    obtain ⟨hc, hm, _⟩ := makeGroup_inv hg
    obtain ⟨g', n, h1, _, _, h4, _⟩ := makeGroup_spec (V := V) capacity m s hc hm
    rw [h1] at hg; injection hg with hg; subst hg
    refine ContReach.init _ 1 0 [] (some s) c ?_ List.nodup_nil h
    intro a ha
    have : a = 0 := by simpa using ha
    subst this
    exact ⟨h4, by decide⟩

theorem NewReach.reach {c : Container V} (h : NewReach c) : ContReach c := by
  obtain ⟨_, _, _, c0, ops, h1, rfl⟩ := h
  exact (new_reach h1).run ops

/-! ### C25 -/

/-- **C25 (partial).** Without falsy objects `read` never raises and gives the object in the
first group that has the id, nothing (the default) if no group has it; `has` never
raises and is the number of groups having the id. Missing: falsy objects
(`container_read_counterexample`). -/
theorem container_read_partial [Truthy V] (hV : AllTruthy V) (c : Container V) (hr : ContReach c)
    (id : String) :
    c.read id = .ok (c.first id) ∧
    c.has id = .ok (c.groups.countP fun a => (c.view a id).isSome) ∧
    (c.first id = none ↔ c.has id = .ok 0) := by
  refine ⟨Container.read_first hr.inv id fun _ _ v _ => hV v, Container.has_eq hr.inv id, ?_⟩
  obtain ⟨n, h1, h2⟩ := Container.has_pos hr.inv id
  rw [h1]
  constructor
  · intro h; by_contra hn
    have : 0 < n := by
      rcases Nat.eq_zero_or_pos n with h0 | h0
      · exact absurd (by rw [h0]) hn
      · exact h0
    exact h2.1 this h
  · intro h; injection h with h
    by_contra hn
    have := h2.2 hn; omega

/-- C25, all objects: `read` gives the first *truthy* copy. -/
theorem container_read_truthy [Truthy V] (c : Container V) (hr : ContReach c) (id : String) :
    c.read id = .ok (c.groups.findSome? fun a => (c.view a id).filter truthy) :=
  Container.read_eq hr.inv id

/-- A group with one collection, holding one pair; used in examples. -/
def oneGroup (k : String) (v : V) : CGroup V :=
  ((⟨[Collection.new 0 (some 10) false]⟩ : CGroup V).run [.map (.insert k v)]).2

theorem oneGroup_reach (k : String) (v : V) : GroupReach (oneGroup k v) :=
  ⟨[Collection.new 0 (some 10) true], false, ⟨[Collection.new 0 (some 10) false]⟩,
    [.map (.insert k v)], by simp, by simp [Collection.new], by rfl, rfl⟩

/-- Two groups, "a" ↦ 1 in the group at 0 and "b" ↦ 2 in the group at 1. -/
def twoGroupHeap : Nat → CGroup Nat := fun a => if a = 0 then oneGroup "a" 1 else oneGroup "b" 2

theorem twoGroupHeap_reach (a : Nat) : GroupReach (twoGroupHeap a) := by
  unfold twoGroupHeap; split_ifs <;> exact oneGroup_reach _ _

/-- The container over these groups with a chosen primary group. -/
def twoGroups (primary : Nat) (strict : Bool) : Container Nat :=
  (Container.setStrict ⟨twoGroupHeap, 2, [0, 1], primary⟩ (some strict)).2

theorem twoGroups_reach (primary : Nat) (hp : primary < 2) (strict : Bool) :
    ContReach (twoGroups primary strict) := by
  refine .init twoGroupHeap 2 primary [0, 1] (some strict) _ ?_ (by decide) ?_
  · intro a ha
    refine ⟨twoGroupHeap_reach a, ?_⟩
    simp only [List.mem_cons, List.not_mem_nil, or_false] at ha
    omega
  · unfold Container.init
    have : primary ∈ [0, 1] := by
      simp only [List.mem_cons, List.not_mem_nil, or_false]; omega
    simp only [this, if_true]
    rfl

instance : Truthy Nat := ⟨fun n => n ≠ 0⟩

/-- Non-vacuity of C25: stored objects are found in both groups. -/
example : (twoGroups 0 false).read "a" = .ok (some 1) ∧ (twoGroups 0 false).read "b" = .ok (some 2) ∧
    (twoGroups 0 false).has "b" = .ok 1 ∧ (twoGroups 0 false).read "c" = .ok none := by
  decide +kernel

/-- **C25 (counterexample).** A falsy object is stored (`has` is 1) but `read` gives the
default. -/
theorem container_read_counterexample :
    ∃ c : Container Nat, ContReach c ∧ c.first "a" = some 0 ∧ c.has "a" = .ok 1 ∧
      c.read "a" = .ok none := by
  refine ⟨((twoGroups 0 false).call (.write "a" 0)).2, .call _ _ (twoGroups_reach 0 (by decide) false),
    ?_, ?_, ?_⟩ <;> decide +kernel

/-! ### C23 -/

theorem first_head {c : Container V} (hh : c.HeadPrimary) (id : String) :
    c.first id = (c.view c.primary id).or (c.groups.tail.findSome? fun a => c.view a id) := by
  unfold Container.first
  rw [hh.eq, List.findSome?_cons]
  cases c.view c.primary id <;> rfl

/-- **C23 (partial: the primary group is the first one, as after `new` and `resize`).**
A successful `write` stores the object as the first copy of the id, tells whether the id
is new in the primary group, and changes no other id in any group; a failing one is a
capacity error, needs a strict collection and changes nothing. -/
theorem container_write_partial (c : Container V) (hr : ContReach c) (hh : c.HeadPrimary)
    (id : String) (obj : V) :
    (∃ e, c.write id obj = (.error e, c) ∧ (e = .groupCapacity ∨ e = .collectionCapacity) ∧
      ∃ x ∈ (c.heap c.primary).collections, x.strict = true) ∨
    ((c.write id obj).1 = .ok (if c.view c.primary id = none then some 1 else none) ∧
      (c.write id obj).2.first id = some obj ∧
      (c.write id obj).2.groups = c.groups ∧
      (∀ a x, x ≠ id → (c.write id obj).2.view a x = c.view a x) ∧
      (∀ x, x ≠ id → (c.write id obj).2.first x = c.first x ∧
        (c.write id obj).2.has x = c.has x)) := by
  have hi := hr.inv
  rcases Container.write_spec hi.pinv id obj with ⟨e, h1, h2, h3⟩ | ⟨g, h1, h2, h3, h4⟩
  · left
    refine ⟨e, h1, h2, ?_⟩
    unfold CGroup.NonStrict at h3
    push Not at h3
    obtain ⟨x, hx, hs⟩ := h3
    exact ⟨x, hx, by simpa using hs⟩
  · right
    have hi' := Container.write_inv hi id obj
    rw [h1] at hi' ⊢
    have hview : ∀ a x, x ≠ id → (c.put c.primary g).view a x = c.view a x := by
      intro a x hx
      unfold Container.view
      by_cases ha : a = c.primary
      · rw [ha, Container.heap_put_self, h4]; simp [Map.set, hx]
      · rw [Container.heap_put_ne _ _ ha]
    refine ⟨rfl, ?_, rfl, hview, ?_⟩
    · rw [first_head (c := c.put c.primary g) hh]
      have : (c.put c.primary g).view (c.put c.primary g).primary id = some obj := by
        unfold Container.view
        show ((c.put c.primary g).heap c.primary).view id = _
        rw [Container.heap_put_self, h4]; simp [Map.set]
      rw [this]; rfl
    · intro x hx
      constructor
      · exact findSome_congr c.groups _ _ fun a _ => hview a x hx
      · rw [Container.has_eq hi', Container.has_eq hi]
        congr 1
        refine List.countP_congr ?_
        intro a _; rw [hview a x hx]

example : ((twoGroups 0 false).write "a" 7).1 = .ok none ∧ ((twoGroups 0 false).write "b" 7).1 = .ok (some 1) ∧
    ((twoGroups 0 false).write "b" 7).2.read "b" = .ok (some 7) := by decide +kernel

/-- **C23 (counterexample).** If the primary group is not the first one, a successful `write`
is not seen by `read`. -/
theorem container_write_counterexample :
    ∃ c : Container Nat, ContReach c ∧ (c.write "a" 7).1 = .ok (some 1) ∧
      (c.write "a" 7).2.read "a" = .ok (some 1) := by
  refine ⟨twoGroups 1 false, twoGroups_reach 1 (by decide) false, ?_, ?_⟩ <;> decide +kernel

/-! ### C24 -/

/-- **C24 (partial: the groups holding the id come first).** `delete` returns the removed
copies in group order, removes the id from every group, and changes no other id. -/
theorem container_delete_partial (c : Container V) (hr : ContReach c) (id : String)
    (hf : c.groups.Pairwise fun a b => c.view b id ≠ none → c.view a id ≠ none) :
    (c.delete id).1 = .ok (c.groups.filterMap fun a => c.view a id) ∧
    (c.delete id).2.groups = c.groups ∧
    (c.delete id).2.has id = .ok 0 ∧ (c.delete id).2.first id = none ∧
    ∀ a ∈ c.groups, ∀ x, x ≠ id → (c.delete id).2.view a x = c.view a x := by
  have hi := hr.inv
  obtain ⟨h1, h2⟩ := Container.delete_spec hi id
  have hi' := Container.delete_inv hi id
  rcases h2 with ⟨_, h3, h4⟩ | ⟨h3, _⟩
  · have hnone : ∀ a ∈ (c.delete id).2.groups, (c.delete id).2.view a id = none := by
      intro a ha; rw [h1.groups] at ha; exact h4 a ha
    refine ⟨h3, h1.groups, ?_, Container.first_eq_none.2 hnone, ?_⟩
    · rw [Container.has_eq hi']
      congr 1
      rw [List.countP_eq_zero]
      intro a ha; rw [hnone a ha]; simp
    · intro a ha x hx; exact h1.frame a (hi.inv a ha) x hx
  · exact absurd hf h3

/-- C24: exactly in the other case `delete` raises KeyError; other ids are still untouched. -/
theorem container_delete_error (c : Container V) (hr : ContReach c) (id : String) :
    ((∃ e, (c.delete id).1 = .error e) ↔
      ¬ c.groups.Pairwise fun a b => c.view b id ≠ none → c.view a id ≠ none) ∧
    (∀ e, (c.delete id).1 = .error e → e = .keyError) ∧
    ∀ a ∈ c.groups, ∀ x, x ≠ id → (c.delete id).2.view a x = c.view a x := by
  obtain ⟨h1, h2⟩ := Container.delete_spec hr.inv id
  refine ⟨?_, ?_, fun a ha x hx => h1.frame a (hr.inv.inv a ha) x hx⟩
  · rcases h2 with ⟨h3, h4, _⟩ | ⟨h3, h4⟩
    · rw [h4]; exact ⟨fun ⟨e, he⟩ => by simp at he, fun h => absurd h3 h⟩
    · rw [h4]; exact ⟨fun _ => h3, fun _ => ⟨_, rfl⟩⟩
  · intro e he
    rcases h2 with ⟨_, h4, _⟩ | ⟨_, h4⟩ <;> rw [h4] at he <;> simp at he
    exact he.symm

/-- **C24 (counterexample).** The id is stored only in the second group: `delete` raises
KeyError and the id stays. -/
theorem container_delete_counterexample :
    ∃ c : Container Nat, ContReach c ∧ c.has "b" = .ok 1 ∧
      (c.delete "b").1 = .error .keyError ∧ (c.delete "b").2.read "b" = .ok (some 2) := by
  refine ⟨twoGroups 0 false, twoGroups_reach 0 (by decide) false, ?_, ?_, ?_⟩ <;> decide +kernel

example : ((twoGroups 0 false).delete "a").1 = .ok [1] := by decide +kernel

/-! ### C26 -/

/-- **C26 (partial: primary group first, not strict).** `condense()` never raises, returns
the other groups, emptied, leaves only the primary group, which holds for every id
exactly the copy that was first. Missing: another primary group
(`container_condense_counterexample`), strict mode (C31). -/
theorem container_condense_partial (c : Container V) (hr : ContReach c) (hh : c.HeadPrimary)
    (hn : ∀ x ∈ (c.heap c.primary).collections, x.strict = false) :
    let c' := (c.condense true).2
    (c.condense true).1 = .ok c.groups.tail ∧
    c'.groups = [c.primary] ∧ c'.primary = c.primary ∧
    (∀ id, c'.view c.primary id = c.first id) ∧
    (∀ id, c'.first id = c.first id) ∧
    (∀ id, c'.has id = .ok (if c.first id = none then 0 else 1)) ∧
    (∀ a ∈ c.groups.tail, ∀ id, c'.view a id = none) := by
  intro c'
  rcases Container.condense_spec hr.inv hh true with ⟨c1, h1, h2⟩ | ⟨e, c2, _, _, _, _, _, _, _, h3⟩
  · simp only [if_true] at h2
    have hc' : c' = c1.withGroups [c.primary] := by show (c.condense true).2 = _; rw [h2]
    have hv : ∀ id, c'.view c.primary id = c.first id := by
      intro id
      rw [hc', ← h1.final id, h1.primary]; rfl
    have hfirst : ∀ id, c'.first id = c.first id := by
      intro id
      rw [← hv id]
      unfold Container.first
      rw [hc']
      show [c.primary].findSome? _ = _
      rw [List.findSome?_cons]
      cases (c1.withGroups [c.primary]).view c.primary id <;> rfl
    refine ⟨by rw [h2], by rw [hc']; rfl, by rw [hc']; exact h1.primary, hv, hfirst, ?_, ?_⟩
    · intro id
      rw [Container.has_eq (Container.condense_inv hr.inv true)]
      show Except.ok (List.countP _ c'.groups) = _
      have hg : c'.groups = [c.primary] := by rw [hc']; rfl
      rw [hg]
      simp only [List.countP_cons, List.countP_nil, Nat.zero_add]
      show Except.ok (if (c'.view c.primary id).isSome = true then 1 else 0) = _
      rw [hv id]
      cases c.first id <;> rfl
    · intro a ha id
      rw [hc']; exact h1.emptied rfl a ha id
  · exact absurd hn h3.strict

/-- C26 without `transfer`: nothing is removed from the other groups, the container keeps
them, and the primary group has the first copy of every id. -/
theorem container_condense_copy_partial (c : Container V) (hr : ContReach c) (hh : c.HeadPrimary)
    (hn : ∀ x ∈ (c.heap c.primary).collections, x.strict = false) :
    let c' := (c.condense false).2
    (c.condense false).1 = .ok [] ∧ c'.groups = c.groups ∧ c'.primary = c.primary ∧
    (∀ id, c'.view c.primary id = c.first id) ∧ (∀ id, c'.first id = c.first id) ∧
    (∀ a ∈ c.groups.tail, c'.heap a = c.heap a) := by
  intro c'
  rcases Container.condense_spec hr.inv hh false with ⟨c1, h1, h2⟩ | ⟨e, c2, _, _, _, _, _, _, _, h3⟩
  · simp only [Bool.false_eq_true, if_false] at h2
    have hc' : c' = c1 := by show (c.condense false).2 = _; rw [h2]
    refine ⟨by rw [h2], by rw [hc']; exact h1.groups, by rw [hc']; exact h1.primary, ?_, ?_, ?_⟩
    · intro id; rw [hc', ← h1.final id, h1.primary]
    · intro id; rw [hc']; exact h1.first id
    · intro a ha; rw [hc']; exact h1.kept rfl a (by simpa using ha)
  · exact absurd hn h3.strict

example : ((twoGroups 0 false).condense true).1 = .ok [1] ∧
    ((twoGroups 0 false).condense true).2.read "b" = .ok (some 2) := by decide +kernel

example : (twoGroups 0 false).HeadPrimary ∧
    ∀ x ∈ ((twoGroups 0 false).heap (twoGroups 0 false).primary).collections, x.strict = false :=
  ⟨rfl, by decide +kernel⟩

/-- **C26 (counterexample).** The primary group is the second one: `condense` drops it from
the container, and its contents with it. -/
theorem container_condense_counterexample :
    ∃ c : Container Nat, ContReach c ∧ c.read "b" = .ok (some 2) ∧
      (c.condense true).1 = .ok [c.primary] ∧ (c.condense true).2.read "b" = .ok none := by
  refine ⟨twoGroups 1 false, twoGroups_reach 1 (by decide) false, ?_, ?_, ?_⟩ <;> decide +kernel

/-! ### C31 -/

/-- **C31 (counterexample).** Strict primary group with a full collection: `condense` raises
after having removed the object from its group; the object is lost. -/
theorem container_condense_strict_counterexample :
    ∃ c : Container Nat, ContReach c ∧ c.read "b" = .ok (some 2) ∧
      (c.condense true).1 = .error .groupCapacity ∧ (c.condense true).2.read "b" = .ok none ∧
      (c.condense true).2.has "b" = .ok 0 := by
  refine ⟨(Container.setStrict ⟨fun a => if a = 0 then
      ((⟨[Collection.new 0 (some 1) false]⟩ : CGroup Nat).run [.map (.insert "a" 1)]).2
      else oneGroup "b" 2, 2, [0, 1], 0⟩ (some true)).2, ?_, ?_, ?_, ?_, ?_⟩
  · refine .init (fun a => if a = 0 then
      ((⟨[Collection.new 0 (some 1) false]⟩ : CGroup Nat).run [.map (.insert "a" 1)]).2
      else oneGroup "b" 2) 2 0 [0, 1] (some true) _ ?_ (by decide) rfl
    intro a ha
    constructor
    · show GroupReach (if a = 0 then _ else _)
      split_ifs
      · exact ⟨[Collection.new 0 (some 1) true], false, ⟨[Collection.new 0 (some 1) false]⟩,
          [.map (.insert "a" 1)], by simp, by simp [Collection.new], by rfl, rfl⟩
      · exact oneGroup_reach _ _
    · simp only [List.mem_cons, List.not_mem_nil, or_false] at ha
      omega
  · decide +kernel
  · decide +kernel
  · decide +kernel
  · decide +kernel

/-- **C31 (partial).** When `condense` fails (necessarily with a capacity error and a strict
primary group): without `transfer` every id keeps its first copy and no group loses
anything; with `transfer` at most one id is affected.  With a transaction manager nothing
is lost (`container_condense_crash_partial`). -/
theorem container_condense_failure_partial (c : Container V) (hr : ContReach c) (hh : c.HeadPrimary)
    (transfer : Bool) (e : PyErr) (h : (c.condense transfer).1 = .error e) :
    (e = .groupCapacity ∨ e = .collectionCapacity) ∧
    (∃ x ∈ (c.heap c.primary).collections, x.strict = true) ∧
    (transfer = false → ∀ id, (c.condense transfer).2.first id = c.first id) ∧
    ∃ lost, ∀ id, id ≠ lost → (c.condense transfer).2.first id = c.first id := by
  rcases Container.condense_spec hr.inv hh transfer with ⟨c1, h1, h2⟩ | ⟨e', c2, h2, c1, done, a, rest, k, v, h3⟩
  · rw [h2] at h; cases transfer <;> simp at h
  · rw [h2] at h ⊢
    simp only [Except.error.injEq] at h
    subst h
    have hs := h3.strict
    unfold CGroup.NonStrict at hs
    push Not at hs
    obtain ⟨x, hx, hxs⟩ := hs
    refine ⟨h3.err, ⟨x, hx, by simpa using hxs⟩, ?_, k, ?_⟩
    · rintro rfl id
      have := h3.state
      simp only [Bool.false_eq_true, if_false] at this
      rw [this]; exact h3.cond.first id
    · intro id hid
      have hst := h3.state
      cases transfer with
      | false =>
        simp only [Bool.false_eq_true, if_false] at hst
        rw [hst]; exact h3.cond.first id
      | true =>
        simp only [if_true] at hst
        rw [hst, ← h3.cond.first id]
        unfold Container.first
        refine findSome_congr c1.groups _ _ ?_
        intro b hb
        unfold Container.view
        by_cases hba : b = a
        · rw [hba, Container.heap_put_self]
          exact CGroup.pop_frame (h3.cond.inv a (hba ▸ hb)) k id hid
        · rw [Container.heap_put_ne _ _ hba]

/-! ### C28, C30 -/

/-- What `resize` does, for every container. -/
theorem resize_spec {c : Container V} (hi : c.Inv) (n m : Nat) (cd t : Bool) (hn : 1 ≤ n) (hm : 1 ≤ m) :
    let c' := (c.resize n m cd t).2
    (∃ r, (c.resize n m cd t).1 = .ok r) ∧ c'.primary = c.next ∧ c'.HeadPrimary ∧
    (∀ id, c'.first id = c.first id) ∧ (c'.heap c'.primary).NonStrict ∧ n ≤ c'.capacity ∧
    c'.groups = c.next :: (if cd then (if t then [] else c.groups)
      else (if t then c.groups.tail else c.groups)) ∧
    (∀ id, ∀ a ∈ (if cd then c.groups else c.groups.take 1), c.view a id ≠ none →
      c'.view c'.primary id ≠ none) ∧
    (∀ a ∈ c'.groups.tail, c'.heap a = c.heap a) := by
  intro c'
  obtain ⟨g, _, hg, _, _, hgr, hgn, hgv, _, hgm, _⟩ := makeGroup_spec (V := V) n m c.strict hn hm
  obtain ⟨p1, p2, p3, p4⟩ := Container.pushPrimary_inv hi hgr.inv
  have pf := Container.pushPrimary_first hi hgr.inv hgv
  have hcap : ∀ c2 : Container V, (c2.heap c.next).flags = ((c.pushPrimary g).heap c.next).flags →
      n ≤ (c2.heap c.next).maxSize ∧ (c2.heap c.next).NonStrict := by
    intro c2 h
    rw [p4] at h
    refine ⟨?_, ?_⟩
    · rw [CGroup.maxSize_flags, h, ← CGroup.maxSize_flags]; exact hgm
    · rw [CGroup.nonStrict_flags, h, ← CGroup.nonStrict_flags]; exact hgn
  have hns : ((c.pushPrimary g).heap (c.pushPrimary g).primary).NonStrict := by
    show ((c.pushPrimary g).heap c.next).NonStrict
    rw [p4]; exact hgn
  have hne : ∀ a ∈ c.groups, a ≠ c.next := fun a ha => Nat.ne_of_lt (hi.fresh a ha)
  cases cd with
  | true =>
    have hres : c.resize n m true t = (c.pushPrimary g).condense t := by
      unfold Container.resize; rw [hg]; rfl
    rcases Container.condense_spec p1 p2 t with ⟨c1, h1, h2⟩ | ⟨e, c2, _, _, _, _, _, _, _, h3⟩
    · have hprim : c1.primary = c.next := h1.primary
      have hfl := hcap c1 (h1.flags _)
      have hview : ∀ id, c1.view c.next id = c.first id := by
        intro id; rw [← pf id, ← h1.final id, hprim]
      have hsup : ∀ id, ∀ a ∈ c.groups, c.view a id ≠ none → c1.view c.next id ≠ none := by
        intro id a ha hv
        rw [hview id]
        intro hn
        exact hv (Container.first_eq_none.1 hn a ha)
      cases t with
      | true =>
        have hc' : c' = c1.withGroups [c.next] := by
          show (c.resize n m true true).2 = _; rw [hres, h2]; rfl
        refine ⟨⟨_, by rw [hres, h2]; rfl⟩, ?_, ?_, ?_, ?_, ?_, ?_, ?_, ?_⟩
        · rw [hc']; exact hprim
        · rw [hc']; show some c.next = some c1.primary; rw [hprim]
        · intro id
          rw [← hview id, hc']
          show [c.next].findSome? _ = _
          rw [List.findSome?_cons]
          show (match c1.view c.next id with | some b => some b | none => none) = _
          cases c1.view c.next id <;> rfl
        · rw [hc']; show (c1.heap c1.primary).NonStrict; rw [hprim]; exact hfl.2
        · rw [hc']; show n ≤ (c1.heap c1.primary).maxSize; rw [hprim]; exact hfl.1
        · rw [hc']; rfl
        · intro id a ha hv
          rw [hc']
          show c1.view c1.primary id ≠ none
          rw [hprim]; exact hsup id a (by simpa using ha) hv
        · rw [hc']; intro a ha; simp [Container.withGroups] at ha
      | false =>
        have hc' : c' = c1 := by
          show (c.resize n m true false).2 = _; rw [hres, h2]; rfl
        refine ⟨⟨_, by rw [hres, h2]; rfl⟩, ?_, ?_, ?_, ?_, ?_, ?_, ?_, ?_⟩
        · rw [hc']; exact hprim
        · rw [hc']; unfold Container.HeadPrimary; rw [h1.groups, hprim]; rfl
        · intro id; rw [hc', h1.first id]; exact pf id
        · rw [hc', hprim]; exact hfl.2
        · rw [hc']; show n ≤ (c1.heap c1.primary).maxSize; rw [hprim]; exact hfl.1
        · rw [hc', h1.groups]; rfl
        · intro id a ha hv; rw [hc', hprim]; exact hsup id a (by simpa using ha) hv
        · intro a ha
          rw [hc', h1.groups] at ha
          have ha : a ∈ c.groups := ha
          rw [hc', h1.kept rfl a (by simpa [Container.pushPrimary] using ha), p3 a (hne a ha)]
    · exact absurd hns h3.strict
  | false =>
    set ct := (c.pushPrimary g).withGroups ((c.pushPrimary g).groups.take 2) with hct
    have hti : ct.Inv := p1.shrink (List.take_sublist _ _)
    have hgt : ct.groups = c.next :: c.groups.take 1 := by
      show (c.next :: c.groups).take 2 = _; simp
    have hth : ct.HeadPrimary := by
      unfold Container.HeadPrimary; rw [hgt]; rfl
    have hres : c.resize n m false t = match ct.condense t with
        | (.error e, c2) => (.error e, c2)
        | (.ok r, c2) => (.ok r, c2.withGroups (c2.groups ++ (c.pushPrimary g).groups.drop 2)) := by
      unfold Container.resize; rw [hg]; rfl
    have hdrop : (c.pushPrimary g).groups.drop 2 = c.groups.tail := by
      show (c.next :: c.groups).drop 2 = _; simp
    rw [hdrop] at hres
    rcases Container.condense_spec hti hth t with ⟨c1, h1, h2⟩ | ⟨e, c2, _, _, _, _, _, _, _, h3⟩
    · have hprim : c1.primary = c.next := h1.primary
      have hfl := hcap c1 (h1.flags _)
      have htail : ct.groups.tail = c.groups.take 1 := by rw [hgt]; rfl
      rw [htail] at h1
      have hctf : ∀ id, ct.first id = (c.groups.take 1).findSome? fun a => c.view a id := by
        intro id
        unfold Container.first
        rw [hgt, List.findSome?_cons]
        have : ct.view c.next id = none := by
          show ((c.pushPrimary g).heap c.next).view id = none
          rw [p4, hgv]; rfl
        rw [this]
        refine findSome_congr _ _ _ ?_
        intro a ha
        show ((c.pushPrimary g).heap a).view id = _
        rw [p3 a (hne a (List.mem_of_mem_take ha))]
      have hview : ∀ id, c1.view c.next id = (c.groups.take 1).findSome? fun a => c.view a id := by
        intro id; rw [← hctf id, ← h1.final id, hprim]
      have hsec : ∀ a ∈ c.groups.tail, c1.heap a = c.heap a := by
        intro a ha
        have hag : a ∈ c.groups := List.mem_of_mem_tail ha
        rw [h1.outside a ?_]
        · show (c.pushPrimary g).heap a = _
          exact p3 a (hne a hag)
        · rw [h1.groups, hgt]
          intro hmem
          rcases List.mem_cons.1 hmem with h | h
          · exact hne a hag h
          · have hnd := hi.nodup
            cases hcg : c.groups with
            | nil => rw [hcg] at hag; simp at hag
            | cons x xs =>
              rw [hcg] at hnd h ha
              simp at h ha
              subst h
              exact (List.nodup_cons.1 hnd).1 ha
      have hall : ∀ id, ((c.groups.take 1).findSome? fun a => c.view a id).or
          (c.groups.tail.findSome? fun a => c.view a id) = c.first id := by
        intro id
        unfold Container.first
        rw [← List.findSome?_append]
        congr 1
        cases c.groups <;> rfl
      have hsec' : ∀ id, (c.groups.tail.findSome? fun a => c1.view a id) =
          c.groups.tail.findSome? fun a => c.view a id := by
        intro id
        refine findSome_congr _ _ _ ?_
        intro a ha; unfold Container.view; rw [hsec a ha]
      have hsup : ∀ id, ∀ a ∈ c.groups.take 1, c.view a id ≠ none → c1.view c.next id ≠ none := by
        intro id a ha hv
        rw [hview id]
        intro hn
        exact hv (List.findSome?_eq_none_iff.1 hn a ha)
      cases t with
      | true =>
        simp only [if_true] at h2
        have hc' : c' = (c1.withGroups [ct.primary]).withGroups ([c.next] ++ c.groups.tail) := by
          show (c.resize n m false true).2 = _; rw [hres, h2]; rfl
        have hg' : c'.groups = c.next :: c.groups.tail := by rw [hc']; rfl
        have hheap : c'.heap = c1.heap := by rw [hc']; rfl
        have hpr : c'.primary = c.next := by rw [hc']; exact hprim
        refine ⟨⟨_, by rw [hres, h2]⟩, hpr, ?_, ?_, ?_, ?_, ?_, ?_, ?_⟩
        · unfold Container.HeadPrimary; rw [hg', hpr]; rfl
        · intro id
          unfold Container.first Container.view
          rw [hg', hheap, List.findSome?_cons]
          have := hall id
          rw [← hview id, ← hsec' id] at this
          show _ = c.first id
          rw [← this]
          show (match c1.view c.next id with | some b => some b | none => _) = _
          cases c1.view c.next id <;> rfl
        · rw [hpr, hheap]; exact hfl.2
        · unfold Container.capacity; rw [hpr, hheap]; exact hfl.1
        · rw [hg']; rfl
        · intro id a ha hv
          unfold Container.view; rw [hpr, hheap]; exact hsup id a (by simpa using ha) hv
        · intro a ha; rw [hg'] at ha; rw [hheap]; exact hsec a ha
      | false =>
        simp only [Bool.false_eq_true, if_false] at h2
        have hc' : c' = c1.withGroups (c1.groups ++ c.groups.tail) := by
          show (c.resize n m false false).2 = _; rw [hres, h2]
        have htt : c.groups.take 1 ++ c.groups.tail = c.groups := by
          cases c.groups <;> rfl
        have hg' : c'.groups = c.next :: c.groups := by
          rw [hc']; show c1.groups ++ c.groups.tail = _
          rw [h1.groups, hgt, List.cons_append, htt]
        have hheap : c'.heap = c1.heap := by rw [hc']; rfl
        have hpr : c'.primary = c.next := by rw [hc']; exact hprim
        have hold : ∀ a ∈ c.groups, c1.heap a = c.heap a := by
          intro a ha
          rw [← htt] at ha
          rcases List.mem_append.1 ha with h | h
          · rw [h1.kept rfl a (by simpa using h)]
            show (c.pushPrimary g).heap a = _
            exact p3 a (hne a (List.mem_of_mem_take h))
          · exact hsec a h
        refine ⟨⟨_, by rw [hres, h2]⟩, hpr, ?_, ?_, ?_, ?_, ?_, ?_, ?_⟩
        · unfold Container.HeadPrimary; rw [hg', hpr]; rfl
        · intro id
          unfold Container.first Container.view
          rw [hg', hheap, List.findSome?_cons]
          have hsame : (c.groups.findSome? fun a => (c1.heap a).view id) = c.first id :=
            findSome_congr _ _ _ fun a ha => by rw [hold a ha]
          rw [hsame]
          show (match c1.view c.next id with | some b => some b | none => c.first id) = c.first id
          have := hall id
          rw [← hview id] at this
          cases hv : c1.view c.next id with
          | none => rfl
          | some v => rw [hv] at this; exact this
        · rw [hpr, hheap]; exact hfl.2
        · unfold Container.capacity; rw [hpr, hheap]; exact hfl.1
        · rw [hg']; rfl
        · intro id a ha hv
          unfold Container.view; rw [hpr, hheap]; exact hsup id a (by simpa using ha) hv
        · intro a ha; rw [hg'] at ha; rw [hheap]; exact hold a ha
    · refine absurd ?_ h3.strict
      show ((c.pushPrimary g).heap c.next).NonStrict
      rw [p4]; exact hgn

/-- **C28.** `resize` with positive sizes never raises, keeps the first copy of every id and
the truth of `has`, and provides at least the requested capacity; with a zero size it
raises and changes nothing.  With truthy objects `read` is unchanged. -/
theorem container_resize (c : Container V) (hr : ContReach c) (n m : Nat) (cd t : Bool) :
    (1 ≤ n ∧ 1 ≤ m → (∃ r, (c.resize n m cd t).1 = .ok r) ∧ n ≤ (c.resize n m cd t).2.capacity) ∧
    (n = 0 ∨ m = 0 → (∃ e, c.resize n m cd t = (.error e, c))) ∧
    (∀ id, (c.resize n m cd t).2.first id = c.first id) ∧
    (∀ id, ((c.resize n m cd t).2.has id = .ok 0 ↔ c.has id = .ok 0)) ∧
    (∀ [Truthy V], AllTruthy V → ∀ id, (c.resize n m cd t).2.read id = c.read id) := by
  have herr : n = 0 ∨ m = 0 → (∃ e, c.resize n m cd t = (.error e, c)) := by
    intro h
    unfold Container.resize
    rcases Nat.eq_zero_or_pos m with hm | hm
    · rw [(makeGroup_errors n m c.strict).1 hm]; exact ⟨_, rfl⟩
    · rw [(makeGroup_errors n m c.strict).2 hm (by omega)]; exact ⟨_, rfl⟩
  have hfirst : ∀ id, (c.resize n m cd t).2.first id = c.first id := by
    intro id
    by_cases h : n = 0 ∨ m = 0
    · obtain ⟨e, he⟩ := herr h; rw [he]
    · exact (resize_spec hr.inv n m cd t (by omega) (by omega)).2.2.2.1 id
  have hreach : ContReach (c.resize n m cd t).2 := .call c (.resize n m cd t) hr
  refine ⟨?_, herr, hfirst, ?_, ?_⟩
  · rintro ⟨h1, h2⟩
    have := resize_spec hr.inv n m cd t h1 h2
    exact ⟨this.1, this.2.2.2.2.2.1⟩
  · intro id
    have key : ∀ c : Container V, ContReach c → (c.has id = .ok 0 ↔ c.first id = none) := by
      intro c hc
      obtain ⟨k, h1, h2⟩ := Container.has_pos hc.inv id
      rw [h1]
      constructor
      · intro h; injection h with h
        by_contra hn
        have := h2.2 hn; omega
      · intro h
        rcases Nat.eq_zero_or_pos k with h0 | h0
        · rw [h0]
        · exact absurd h (h2.1 h0)
    rw [key _ hreach, key _ hr, hfirst id]
  · intro _ hV id
    rw [(container_read_partial hV _ hreach id).1, (container_read_partial hV _ hr id).1, hfirst id]

example : ((twoGroups 0 false).call (.setStrict (some true))).2.strict = true := by decide +kernel

/-- **C30 (counterexample).** Whatever the container, after `resize` it is not strict; and no
positive capacity is refused, however many objects are stored. -/
theorem container_resize_counterexample (c : Container V) (hr : ContReach c) (n m : Nat) (cd t : Bool)
    (hn : 1 ≤ n) (hm : 1 ≤ m) :
    (c.resize n m cd t).2.strict = false ∧ ∃ r, (c.resize n m cd t).1 = .ok r := by
  have h := resize_spec hr.inv n m cd t hn hm
  refine ⟨?_, h.1⟩
  have hns := h.2.2.2.2.1
  have hinv := (ContReach.call c (.resize n m cd t) hr).inv.pinv
  unfold Container.strict
  cases hc : ((c.resize n m cd t).2.heap (c.resize n m cd t).2.primary).collections with
  | nil => exact absurd hc hinv.ne
  | cons x xs =>
    have := hns x (by rw [hc]; simp)
    unfold CGroup.strict
    rw [hc]; simp [this]

/-- **C30 (partial).** The strict mode is kept by `resize` if the container is not strict. -/
theorem container_resize_strict_partial (c : Container V) (hr : ContReach c) (n m : Nat) (cd t : Bool)
    (hs : c.strict = false) : (c.resize n m cd t).2.strict = c.strict := by
  by_cases h : n = 0 ∨ m = 0
  · obtain ⟨e, he⟩ := (container_resize c hr n m cd t).2.1 h; rw [he]
  · rw [hs]; exact (container_resize_counterexample c hr n m cd t (by omega) (by omega)).1

example : ∃ c : Container Nat, ContReach c ∧ c.strict = true ∧ c.used = 1 :=
  ⟨twoGroups 0 true, twoGroups_reach 0 (by decide) true, by decide +kernel, by decide +kernel⟩

end Verif.Props
