import Verif.Lemmas.Collection

/-!
# Properties of Collection (C05–C10)

The specification is `Verif.Spec.Map`: a partial function `String → Option V`.
-/
namespace Verif.Props
open Verif.Storage Verif.Spec
variable {V : Type}

/-- The state reached by a history of calls on a freshly constructed Collection. -/
def collectionAfter (uuid : Nat) (maxSize : Option Nat) (strict : Bool)
    (ops : List (CollCall V)) : Collection V :=
  ((Collection.new uuid maxSize strict).run ops).2

theorem collectionAfter_sorted (u : Nat) (ms : Option Nat) (s : Bool) (ops : List (CollCall V)) :
    (collectionAfter u ms s ops).Sorted :=
  Collection.run_sorted (c := Collection.new u ms s) Tree.sorted_nil ops

/-- **C05.** A non-strict collection refines a plain map: along every history, every
call answers what the map prescribes, and afterwards `get` is the resulting map. -/
theorem collection_refines_map (u : Nat) (ms : Option Nat) (ops : List (CollCall V)) :
    MapRun Map.empty ops ((Collection.new u ms false).run ops).1
      (collectionAfter u ms false ops).get := by
  suffices ∀ (c : Collection V), c.Sorted → c.strict = false →
      MapRun c.get ops (c.run ops).1 (c.run ops).2.get from
    this (Collection.new u ms false) Tree.sorted_nil rfl
  induction ops with
  | nil => intro c _ _; exact .nil
  | cons op ops ih =>
    intro c hs hst
    rcases Collection.call_spec hs op with h | h
    · rw [h.1] at hst; exact absurd hst (by decide)
    · exact .cons h (ih _ (Collection.call_sorted hs op) (by rw [(Collection.call_fixed c op).2.1, hst]))

/-- **C05, strict collections.** After any history, the next call either raises
`CollectionCapacityError` and changes nothing at all, or answers what the map
prescribes. -/
theorem collection_call_refines_map (u : Nat) (ms : Option Nat) (s : Bool)
    (ops : List (CollCall V)) (op : CollCall V) :
    let c := collectionAfter u ms s ops
    (s = true ∧ c.call op = (.error .collectionCapacity, c)) ∨
      MapStep c.get op (c.call op).1 (c.call op).2.get := by
  intro c
  rcases Collection.call_spec (collectionAfter_sorted u ms s ops) op with h | h
  · refine .inl ⟨?_, h.2⟩
    have := (Collection.run_fixed (Collection.new (V := V) u ms s) ops).2
    exact this.symm.trans h.1
  · exact .inr h

/-- C05: a call that raises changes nothing (strict or not). -/
theorem collection_error_no_effect (c : Collection V) (op : CollCall V) (e : PyErr)
    (h : (c.call op).1 = .error e) : (c.call op).2 = c := by
  cases op with
  | insert k v =>
    simp only [Collection.call, Collection.insert] at *
    split_ifs at * <;> simp_all [Except.map]
  | update d =>
    simp only [Collection.call, Collection.update] at *
    split_ifs at * <;> simp_all [Except.map]
  | pop k d =>
    simp only [Collection.call, Collection.pop] at *
    cases hg : c.tree.get k <;> cases d <;> simp_all [Except.map]
  | popitem =>
    simp only [Collection.call, Collection.popitem] at *
    cases ht : c.tree <;> simp_all [Except.map]
  | setdefault k v =>
    simp only [Collection.call, Collection.setdefault] at *
    cases hg : c.tree.get k <;> simp_all [Except.map]
  | clear => simp [Collection.call] at h

/-- C05: `has_key` agrees with `get`, and `size` is the number of stored keys. -/
theorem collection_size_has (u : Nat) (ms : Option Nat) (s : Bool) (ops : List (CollCall V)) :
    let c := collectionAfter u ms s ops
    Map.Card c.get c.size ∧ ∀ k, c.hasKey k = true ↔ c.get k ≠ none := by
  intro c
  refine ⟨tree_card (collectionAfter_sorted u ms s ops), fun k => ?_⟩
  show (Tree.get c.tree k).isSome = true ↔ Tree.get c.tree k ≠ none
  rw [Option.isSome_iff_ne_none]

example : ((Collection.new 0 (some 2) false).run
    [.insert "b" 1, .insert "a" 2, .insert "b" 3, .update [("c", 4), ("a", 5)], .pop "b" none,
      .pop "zz" none, .popitem, .setdefault "c" 9]).1
    = [.ok (.num 1), .ok (.num 1), .ok (.num 0), .ok .unit, .ok (.val 1), .error .keyError,
        .ok (.item "a" 5), .ok (.val 4)] := by decide +kernel

/-- **C06.** `items()`/`keys()` are in strictly increasing key order and hold exactly the
stored pairs / keys. -/
theorem collection_views (u : Nat) (ms : Option Nat) (s : Bool) (ops : List (CollCall V)) :
    let c := collectionAfter u ms s ops
    c.keys.Pairwise (· < ·) ∧ (∀ k, k ∈ c.keys ↔ c.get k ≠ none) ∧
    (c.items.map Prod.fst).Pairwise (· < ·) ∧ (∀ k v, (k, v) ∈ c.items ↔ c.get k = some v) := by
  intro c
  have hs := collectionAfter_sorted u ms s ops
  refine ⟨hs.keys_sorted, fun k => ?_, hs.keys_sorted, fun k v => Tree.mem_iff_get hs⟩
  show k ∈ Tree.keys c.tree ↔ Tree.get c.tree k ≠ none
  rw [ne_eq, Tree.get_eq_none_iff, not_not]

/-- **C06, bounded iteration.** `iteritems(min, max)`/`iterkeys(min, max)` list, in
strictly increasing key order, exactly the stored pairs/keys within the inclusive
bounds. -/
theorem collection_range (u : Nat) (ms : Option Nat) (s : Bool) (ops : List (CollCall V))
    (mn mx : Option String) :
    let c := collectionAfter u ms s ops
    (c.iterkeys mn mx).Pairwise (· < ·) ∧
    (∀ k, k ∈ c.iterkeys mn mx ↔ c.get k ≠ none ∧ (∀ a, mn = some a → a ≤ k) ∧
      (∀ b, mx = some b → k ≤ b)) ∧
    ((c.iteritems mn mx).map Prod.fst).Pairwise (· < ·) ∧
    (∀ k v, (k, v) ∈ c.iteritems mn mx ↔ c.get k = some v ∧ (∀ a, mn = some a → a ≤ k) ∧
      (∀ b, mx = some b → k ≤ b)) := by
  intro c
  have hs := collectionAfter_sorted u ms s ops
  have hr : Tree.Sorted (c.iteritems mn mx) := Tree.sorted_rangeItems hs mn mx
  have hm : ∀ k v, (k, v) ∈ c.iteritems mn mx ↔ c.get k = some v ∧ (∀ a, mn = some a → a ≤ k) ∧
      (∀ b, mx = some b → k ≤ b) := by
    intro k v
    show (k, v) ∈ Tree.rangeItems c.tree mn mx ↔ _
    rw [Tree.mem_rangeItems]
    exact and_congr (Tree.mem_iff_get hs) Iff.rfl
  refine ⟨hr.keys_sorted, fun k => ?_, hr.keys_sorted, hm⟩
  constructor
  · intro hk
    obtain ⟨⟨k', v⟩, hp, rfl⟩ := List.mem_map.1 hk
    have := (hm k' v).1 hp
    exact ⟨by rw [this.1]; simp, this.2⟩
  · rintro ⟨h1, h2⟩
    obtain ⟨v, hv⟩ := Option.ne_none_iff_exists'.1 h1
    exact List.mem_map.2 ⟨(k, v), (hm k v).2 ⟨hv, h2⟩, rfl⟩

/-- **C06, values.** `values()` and `itervalues(min, max)` list the objects of the ids `keys()` and `iterkeys(min, max)` list, position by position, and
`items()` the pairs of both. -/
theorem collection_values (u : Nat) (ms : Option Nat) (s : Bool) (ops : List (CollCall V)) (mn mx : Option String) :
    let c := collectionAfter u ms s ops
    c.values.map some = c.keys.map c.get ∧ (c.itervalues mn mx).map some = (c.iterkeys mn mx).map c.get ∧
    c.items = c.keys.zip c.values ∧ c.iteritems mn mx = (c.iterkeys mn mx).zip (c.itervalues mn mx) := by
  intro c
  have hs := collectionAfter_sorted u ms s ops
  have hz : ∀ l : List (String × V), l = (l.map Prod.fst).zip (l.map Prod.snd) := fun l => by
    rw [List.zip_map']; simp
  refine ⟨?_, ?_, hz _, hz _⟩
  · show (List.map Prod.snd c.tree).map some = (List.map Prod.fst c.tree).map c.get
    rw [List.map_map, List.map_map]
    exact List.map_congr_left fun p hp => ((Tree.mem_iff_get hs).1 hp).symm
  · show ((Tree.rangeItems c.tree mn mx).map Prod.snd).map some = ((Tree.rangeItems c.tree mn mx).map Prod.fst).map c.get
    rw [List.map_map, List.map_map]
    exact List.map_congr_left fun p hp => ((Tree.mem_iff_get hs).1 ((Tree.mem_rangeItems).1 hp).1).symm

example : (collectionAfter 0 none false [.insert "b" (2 : Nat), .insert "a" 1, .insert "c" 3]).itervalues (some "b") none = [2, 3] := by
  decide +kernel

/-- **C07.** `minKey(min)` returns the least stored key `≥ min` and raises ValueError
exactly when there is none. -/
theorem collection_minKey (u : Nat) (ms : Option Nat) (s : Bool) (ops : List (CollCall V))
    (mn : Option String) :
    let c := collectionAfter u ms s ops
    let ok := fun k => c.get k ≠ none ∧ ∀ a, mn = some a → a ≤ k
    (∃ k, c.minKey mn = .ok k ∧ ok k ∧ ∀ k', ok k' → k ≤ k') ∨
      (c.minKey mn = .error .valueError ∧ ∀ k, ¬ ok k) := by
  intro c ok
  have hr := collection_range u ms s ops mn none
  have hok : ∀ k, ok k ↔ k ∈ c.iterkeys mn none := by
    intro k; rw [hr.2.1]; simp [ok, c]
  have hdef : c.minKey mn = match c.iterkeys mn none with
      | [] => .error .valueError | k :: _ => .ok k := by
    show Tree.minKey c.tree mn = _
    unfold Tree.minKey Collection.iterkeys Collection.iteritems
    cases Tree.rangeItems c.tree mn none <;> rfl
  cases hl : c.iterkeys mn none with
  | nil => right; rw [hdef, hl]; exact ⟨rfl, fun k h => by rw [hok, hl] at h; simp at h⟩
  | cons k l =>
    left
    refine ⟨k, by rw [hdef, hl], (hok k).2 (by rw [hl]; simp), fun k' h => ?_⟩
    have hsort : (c.iterkeys mn none).Pairwise (· < ·) := hr.1
    rw [hl] at hsort
    rw [hok, hl] at h
    rcases List.mem_cons.1 h with rfl | h
    · exact le_refl _
    · exact le_of_lt ((List.pairwise_cons.1 hsort).1 k' h)

theorem pairwise_getLast {l : List String} (h : l.Pairwise (· < ·)) {x : String}
    (hx : l.getLast? = some x) : ∀ y ∈ l, y ≤ x := by
  induction l with
  | nil => simp
  | cons a l ih =>
    intro y hy
    cases l with
    | nil => simp at hx hy; simp [hx, hy]
    | cons b l =>
      rw [List.getLast?_cons_cons] at hx
      have h' := List.pairwise_cons.1 h
      rcases List.mem_cons.1 hy with rfl | hy
      · exact le_of_lt (h'.1 x (List.mem_of_getLast? hx))
      · exact ih h'.2 hx y hy

/-- **C07.** `maxKey(max)` returns the greatest stored key `≤ max` and raises ValueError
exactly when there is none. -/
theorem collection_maxKey (u : Nat) (ms : Option Nat) (s : Bool) (ops : List (CollCall V))
    (mx : Option String) :
    let c := collectionAfter u ms s ops
    let ok := fun k => c.get k ≠ none ∧ ∀ b, mx = some b → k ≤ b
    (∃ k, c.maxKey mx = .ok k ∧ ok k ∧ ∀ k', ok k' → k' ≤ k) ∨
      (c.maxKey mx = .error .valueError ∧ ∀ k, ¬ ok k) := by
  intro c ok
  have hr := collection_range u ms s ops none mx
  have hok : ∀ k, ok k ↔ k ∈ c.iterkeys none mx := by
    intro k; rw [hr.2.1]; simp [ok, c]
  have hdef : c.maxKey mx = match (c.iterkeys none mx).getLast? with
      | none => .error .valueError | some k => .ok k := by
    show Tree.maxKey c.tree mx = _
    unfold Tree.maxKey Collection.iterkeys Collection.iteritems
    rw [List.getLast?_map]
    cases (Tree.rangeItems c.tree none mx).getLast? <;> rfl
  cases hl : (c.iterkeys none mx).getLast? with
  | none =>
    right; rw [hdef, hl]
    exact ⟨rfl, fun k h => by rw [hok, List.getLast?_eq_none_iff.1 hl] at h; simp at h⟩
  | some k =>
    left
    refine ⟨k, by rw [hdef, hl], (hok k).2 (List.mem_of_getLast? hl), fun k' h => ?_⟩
    exact pairwise_getLast hr.1 hl k' ((hok k').1 h)

/-- **C07.** `popitem` removes and returns the item with the least key; it raises
(KeyError) exactly on an empty collection. -/
theorem collection_popitem (u : Nat) (ms : Option Nat) (s : Bool) (ops : List (CollCall V)) :
    let c := collectionAfter u ms s ops
    (∃ k v, c.popitem.1 = .ok (k, v) ∧ c.get k = some v ∧ (∀ k', c.get k' ≠ none → k ≤ k') ∧
        c.popitem.2.get = Map.remove c.get k) ∨
      (c.popitem = (.error .keyError, c) ∧ ∀ k, c.get k = none) := by
  intro c
  have h := collection_call_refines_map u ms s ops (CollCall.popitem (V := V))
  have hc : c.call .popitem = (c.popitem.1.map fun p => .item p.1 p.2, c.popitem.2) := rfl
  simp only at h
  change (s = true ∧ c.call .popitem = _) ∨ MapStep c.get .popitem (c.call .popitem).1
    (c.call .popitem).2.get at h
  cases ht : c.tree with
  | nil =>
    right
    constructor
    · unfold Collection.popitem; rw [ht]
    · intro k; show Tree.get c.tree k = none; rw [ht]; rfl
  | cons p t =>
    left
    have hp : c.popitem = (.ok p, { c with tree := t }) := by
      unfold Collection.popitem; rw [ht]
    rw [hc, hp] at h
    simp only [Except.map] at h
    rcases h with ⟨_, h⟩ | h
    · simp at h
    · refine ⟨p.1, p.2, by rw [hp], ?_⟩
      rw [hp]
      generalize hg : ({ c with tree := t } : Collection V).get = g at h ⊢
      cases h with
      | popitem h1 h2 => exact ⟨h1, h2, rfl⟩

example : (collectionAfter 0 (some 9) true
    [.insert "b" 1, .insert "c" 2, .insert "a" 3]).minKey (some "aa") = .ok "b" ∧
    (collectionAfter 0 (some 9) true
    [.insert "b" 1, .insert "c" 2, .insert "a" 3]).maxKey (some "bz") = .ok "b" := by
  decide +kernel

/-- A call other than `setdefault`. -/
def CollCall.notSetdefault : CollCall V → Prop
  | .setdefault _ _ => False
  | _ => True

theorem collection_call_limit {c : Collection V} (hs : c.Sorted) (hst : c.strict = true)
    (hle : c.size ≤ c.maxSize) (op : CollCall V) (hop : CollCall.notSetdefault op) :
    (c.call op).2.size ≤ c.maxSize := by
  unfold Collection.size at *
  cases op with
  | insert k v =>
    simp only [Collection.call, Collection.insert, Collection.size, hst, and_true, Tree.insert]
    split_ifs with h1 h2
    · exact hle
    · exact hle
    · have := Tree.length_put hs k v
      simp only [h2, Bool.false_eq_true, if_false] at this
      simp only [this]; omega
  | update d =>
    simp only [Collection.call, Collection.update, Collection.size, hst, and_true]
    split_ifs with h1
    · exact hle
    · exact le_trans (tree_length_update_le hs d) (by omega)
  | pop k d =>
    simp only [Collection.call, Collection.pop]
    split
    · exact le_trans (List.length_filter_le ..) hle
    · exact hle
    · exact hle
  | popitem =>
    simp only [Collection.call, Collection.popitem]
    split
    · exact hle
    · rename_i p t he; rw [he] at hle; simp at hle ⊢; omega
  | setdefault k v => exact hop.elim
  | clear => simp [Collection.call, Collection.clear]

/-- **C08 (partial: histories without `setdefault`).** A strict collection never holds
more than `max_size` items, after any history of insert/update/pop/popitem/clear
calls.  (That a call raising the capacity error changes nothing is
`collection_call_refines_map`.)  Missing: `setdefault`, for which the claim is false,
see `collection_strict_limit_counterexample`. -/
theorem collection_strict_limit_partial (u : Nat) (ms : Option Nat) (ops : List (CollCall V))
    (hops : ∀ op ∈ ops, CollCall.notSetdefault op) :
    (collectionAfter u ms true ops).size ≤ (collectionAfter u ms true ops).maxSize := by
  suffices ∀ (c : Collection V), c.Sorted → c.strict = true → c.size ≤ c.maxSize →
      (c.run ops).2.size ≤ (c.run ops).2.maxSize from
    this (Collection.new u ms true) Tree.sorted_nil rfl (Nat.zero_le _)
  induction ops with
  | nil => intro c _ _ h; exact h
  | cons op ops ih =>
    intro c hs hst hle
    have hf := Collection.call_fixed c op
    refine ih (fun o ho => hops o (List.mem_cons_of_mem _ ho)) (c.call op).2
      (Collection.call_sorted hs op) (by rw [hf.2.1, hst]) ?_
    rw [hf.1]
    exact collection_call_limit hs hst hle op (hops op List.mem_cons_self)

/-- C08: when exactly a strict collection refuses: `insert` iff it is full, `update` iff
the new keys do not fit. -/
theorem collection_strict_refuses (c : Collection V) (hst : c.strict = true) :
    (∀ k v, (c.insert k v).1 = .error .collectionCapacity ↔ c.maxSize ≤ c.size) ∧
    (∀ d, (c.update d).1 = .error .collectionCapacity ↔
      c.maxSize < c.size + (d.filter fun p => (c.get p.1).isNone).length) := by
  constructor
  · intro k v
    unfold Collection.insert
    split_ifs with h
    · simp [h.1]
    · simp only [hst, and_true, ge_iff_le, not_le] at h
      simp; exact h
  · intro d
    have hl : ((d.map Prod.fst).filter fun key => !c.tree.has key).length =
        (d.filter fun p => (c.get p.1).isNone).length := by
      rw [List.filter_map, List.length_map]
      congr 1
      apply List.filter_congr
      intro p _
      simp [Tree.has, Collection.get]
    unfold Collection.update
    simp only [hl]
    split_ifs with h
    · simp; exact h.1
    · simp only [hst, and_true, gt_iff_lt, not_lt] at h
      simp; exact h

/-- **C08 (counterexample).** `setdefault` ignores the limit: a strict collection of
`max_size` 1 ends up with 2 items. -/
theorem collection_strict_limit_counterexample :
    ∃ ops : List (CollCall Nat),
      (collectionAfter 0 (some 1) true ops).strict = true ∧
      (collectionAfter 0 (some 1) true ops).maxSize <
        (collectionAfter 0 (some 1) true ops).size :=
  ⟨[.insert "a" 1, .setdefault "b" 2], by decide +kernel⟩

example : (collectionAfter 0 (some 2) true
    [.insert "a" 1, .insert "b" 2, .insert "c" 3]).size = 2 := by decide +kernel

/-- **C09 (counterexample, collection level).** In a full strict collection, `insert` of
a key that is already stored raises the capacity error instead of answering 0. -/
theorem collection_reinsert_counterexample :
    ∃ (c : Collection Nat), c = collectionAfter 0 (some 1) true [.insert "a" 1] ∧
      c.get "a" = some 1 ∧ (c.insert "a" 2).1 = .error .collectionCapacity :=
  ⟨_, rfl, by decide +kernel⟩

/-- **C09 (partial).** `update` with keys that are all stored never raises, even when
the strict collection is full, as long as the collection is within its limit.
Missing: `insert`, which raises (see the counterexample). -/
theorem collection_update_existing_partial (c : Collection V) (hle : c.size ≤ c.maxSize)
    (d : List (String × V)) (h : ∀ p ∈ d, c.get p.1 ≠ none) : (c.update d).1 = .ok () := by
  unfold Collection.update
  have : ((d.map Prod.fst).filter fun key => !c.tree.has key) = [] := by
    rw [List.filter_eq_nil_iff]
    intro k hk
    obtain ⟨p, hp, rfl⟩ := List.mem_map.1 hk
    have := h p hp
    simpa [Tree.has, Option.isSome_iff_ne_none, Collection.get] using this
  simp only [this, List.length_nil, add_zero]
  split_ifs with h'
  · omega
  · rfl

/-- **C10.** The status levels in terms of the exact usage ratio `size/max_size`
(`⌈100·size/max⌉ ≥ L` iff `(L-1)·max < 100·size`). -/
theorem status_exact (size m : Nat) (hm : 1 ≤ m) :
    (Collection.statusOf size m = 90 ↔ 89 * m < 100 * size) ∧
    (Collection.statusOf size m = 80 ↔ 79 * m < 100 * size ∧ 100 * size ≤ 89 * m) ∧
    (Collection.statusOf size m = 70 ↔ 69 * m < 100 * size ∧ 100 * size ≤ 79 * m) ∧
    (Collection.statusOf size m = 60 ↔ 59 * m < 100 * size ∧ 100 * size ≤ 69 * m) ∧
    (Collection.statusOf size m = 0 ↔ 100 * size ≤ 59 * m) := by
  have key : ∀ L, 1 ≤ L → (L ≤ (100 * size + m - 1) / m ↔ (L - 1) * m < 100 * size) := by
    intro L hL
    rw [Nat.le_div_iff_mul_le (by omega)]
    obtain ⟨j, rfl⟩ : ∃ j, L = j + 1 := ⟨L - 1, by omega⟩
    rw [Nat.add_mul]
    simp
    omega
  have k60 := key 60 (by omega)
  have k70 := key 70 (by omega)
  have k80 := key 80 (by omega)
  have k90 := key 90 (by omega)
  simp only [Collection.statusOf, Collection.levels, List.filter_cons, List.filter_nil]
  generalize (100 * size + m - 1) / m = q at *
  simp only [Nat.zero_le, decide_true, if_true, decide_eq_true_eq]
  by_cases h60 : 60 ≤ q <;> by_cases h70 : 70 ≤ q <;> by_cases h80 : 80 ≤ q <;>
    by_cases h90 : 90 ≤ q <;> first | omega | (simp [h60, h70, h80, h90]; omega)

/-- C10: the status is one of the five levels, grows with the number of items and
shrinks with the limit. -/
theorem status_monotone (s1 s2 m1 m2 : Nat) (hm : 1 ≤ m2) (hs : s1 ≤ s2) (hmm : m2 ≤ m1) :
    Collection.statusOf s1 m1 ≤ Collection.statusOf s2 m2 ∧
      Collection.statusOf s1 m1 ∈ [0, 60, 70, 80, 90] := by
  have a1 := status_exact s1 m1 (by omega)
  have a2 := status_exact s2 m2 hm
  have c1 : 100 * s1 ≤ 59 * m1 ∨ (59 * m1 < 100 * s1 ∧ 100 * s1 ≤ 69 * m1) ∨
      (69 * m1 < 100 * s1 ∧ 100 * s1 ≤ 79 * m1) ∨ (79 * m1 < 100 * s1 ∧ 100 * s1 ≤ 89 * m1) ∨
      89 * m1 < 100 * s1 := by omega
  have c2 : 100 * s2 ≤ 59 * m2 ∨ (59 * m2 < 100 * s2 ∧ 100 * s2 ≤ 69 * m2) ∨
      (69 * m2 < 100 * s2 ∧ 100 * s2 ≤ 79 * m2) ∨ (79 * m2 < 100 * s2 ∧ 100 * s2 ≤ 89 * m2) ∨
      89 * m2 < 100 * s2 := by omega
  have e1 : Collection.statusOf s1 m1 ∈ [0, 60, 70, 80, 90] := by
    simp only [List.mem_cons, List.not_mem_nil, or_false]
    rcases c1 with h | h | h | h | h
    · exact .inl (a1.2.2.2.2.2 h)
    · exact .inr (.inl (a1.2.2.2.1.2 h))
    · exact .inr (.inr (.inl (a1.2.2.1.2 h)))
    · exact .inr (.inr (.inr (.inl (a1.2.1.2 h))))
    · exact .inr (.inr (.inr (.inr (a1.1.2 h))))
  refine ⟨?_, e1⟩
  rcases c1 with h | h | h | h | h <;> rcases c2 with h' | h' | h' | h' | h' <;> omega

/-- C10: the level of a reachable collection is that of its number of stored keys. -/
theorem collection_status (u : Nat) (ms : Option Nat) (s : Bool) (ops : List (CollCall V)) (n : Nat)
    (hn : Map.Card (collectionAfter u ms s ops).get n) :
    (collectionAfter u ms s ops).status =
      Collection.statusOf n (collectionAfter u ms s ops).maxSize := by
  unfold Collection.status
  rw [card_unique hn (collection_size_has u ms s ops).1]

example : Collection.statusOf 4450 5000 = 80 ∧ Collection.statusOf 4451 5000 = 90 := by decide

end Verif.Props
