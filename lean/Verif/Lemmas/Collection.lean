import Verif.Storage.Collection
import Verif.Spec.Map
import Verif.Lemmas.Tree

namespace Verif.Storage
open Verif.Spec
variable {V : Type}

/-- Reachable collections keep their BTree sorted. -/
def Collection.Sorted (c : Collection V) : Prop := Tree.Sorted c.tree

theorem setAll_eq (m : Map V) (d : List (String × V)) (hd : (d.map Prod.fst).Nodup) :
    m.setAll d = fun x => (Tree.get d x).or (m x) := by
  induction d generalizing m with
  | nil => funext x; simp [Map.setAll]
  | cons p d ih =>
    obtain ⟨k, v⟩ := p
    simp only [List.map_cons, List.nodup_cons] at hd
    have : m.setAll ((k, v) :: d) = (m.set k v).setAll d := rfl
    rw [this, ih _ hd.2]
    funext x
    rw [Tree.get_cons]
    by_cases h : x = k
    · subst h
      have : Tree.get d x = none := (Tree.get_eq_none_iff d x).2 hd.1
      simp [this, Map.set]
    · simp [h, Map.set]

theorem tree_update_get (t : Tree String V) (d : List (String × V)) :
    (t.update d).get = Map.setAll t.get d := by
  induction d generalizing t with
  | nil => rfl
  | cons p d ih =>
    rw [Tree.update_cons, ih]
    show _ = Map.setAll (Map.set t.get p.1 p.2) d
    congr 1
    funext x
    exact Tree.get_put t p.1 p.2 x

theorem tree_put_get (t : Tree String V) (k : String) (v : V) :
    (t.put k v).get = Map.set t.get k v := by
  funext x; exact Tree.get_put t k v x

theorem tree_erase_get (t : Tree String V) (k : String) :
    (t.erase k).get = Map.remove t.get k := by
  funext x; exact Tree.get_erase t k x

theorem Collection.insert_sorted {c : Collection V} (h : c.Sorted) (k : String) (v : V) :
    (c.insert k v).2.Sorted := by
  unfold Collection.insert Tree.insert Collection.Sorted
  split_ifs <;> simp <;> first | exact h | exact Tree.sorted_put h k v

theorem Collection.update_sorted {c : Collection V} (h : c.Sorted) (d : List (String × V)) :
    (c.update d).2.Sorted := by
  unfold Collection.update Collection.Sorted
  dsimp only
  split_ifs
  · exact h
  · exact Tree.sorted_update h d

theorem Collection.pop_sorted {c : Collection V} (h : c.Sorted) (k : String) (d : Option V) :
    (c.pop k d).2.Sorted := by
  unfold Collection.pop
  split
  · exact Tree.sorted_erase h k
  · exact h
  · exact h

theorem Collection.popitem_sorted {c : Collection V} (h : c.Sorted) : (c.popitem).2.Sorted := by
  unfold Collection.popitem
  split
  · exact h
  · rename_i p t he
    unfold Collection.Sorted at *
    rw [he] at h
    exact h.tail

theorem Collection.setdefault_sorted {c : Collection V} (h : c.Sorted) (k : String) (v : V) :
    (c.setdefault k v).2.Sorted := by
  unfold Collection.setdefault
  split
  · exact h
  · exact Tree.sorted_put h k v

theorem Collection.call_sorted {c : Collection V} (h : c.Sorted) (op : CollCall V) :
    (c.call op).2.Sorted := by
  cases op with
  | insert k v => exact Collection.insert_sorted h k v
  | update d => exact Collection.update_sorted h d
  | pop k d => exact Collection.pop_sorted h k d
  | popitem => exact Collection.popitem_sorted h
  | setdefault k v => exact Collection.setdefault_sorted h k v
  | clear => exact Tree.sorted_nil

theorem Collection.call_fixed (c : Collection V) (op : CollCall V) :
    (c.call op).2.maxSize = c.maxSize ∧ (c.call op).2.strict = c.strict ∧
      (c.call op).2.uuid = c.uuid := by
  cases op <;>
    simp only [Collection.call, Collection.insert, Collection.update, Collection.pop,
      Collection.popitem, Collection.setdefault, Collection.clear] <;>
    (try split) <;> simp

/-- One call: either a capacity error without effect, or what the map prescribes. -/
theorem Collection.call_spec {c : Collection V} (h : c.Sorted) (op : CollCall V) :
    (c.strict = true ∧ (c.call op) = (.error .collectionCapacity, c)) ∨
      MapStep c.get op (c.call op).1 (c.call op).2.get := by
  have hget : c.get = c.tree.get := rfl
  cases op with
  | insert k v =>
    simp only [Collection.call, Collection.insert, Tree.insert, Tree.has]
    by_cases hc : c.size ≥ c.maxSize ∧ c.strict = true
    · left; simp [hc]; rfl
    · right
      simp only [hc, if_false]
      by_cases hg : (c.tree.get k).isSome = true
      · simp only [hg, if_true]
        obtain ⟨w, hw⟩ := Option.isSome_iff_exists.1 hg
        exact .insertOld hw
      · simp only [hg, Bool.false_eq_true, if_false]
        have : ({ c with tree := c.tree.put k v } : Collection V).get = Map.set c.get k v :=
          tree_put_get c.tree k v
        rw [this]
        exact .insertNew (by rw [hget]; simpa using hg)
  | update d =>
    simp only [Collection.call, Collection.update]
    split_ifs with hc
    · left; exact ⟨hc.2, rfl⟩
    · right
      have : ({ c with tree := c.tree.update d } : Collection V).get = Map.setAll c.get d :=
        tree_update_get c.tree d
      rw [this]
      exact .update
  | pop k d =>
    right
    simp only [Collection.call, Collection.pop]
    cases hg : c.tree.get k with
    | some v =>
      have : ({ c with tree := c.tree.erase k } : Collection V).get = Map.remove c.get k :=
        tree_erase_get c.tree k
      simp only
      rw [this]
      exact .popHit hg
    | none =>
      cases d with
      | none => exact .popMiss hg
      | some d => exact .popDefault hg
  | popitem =>
    right
    simp only [Collection.call, Collection.popitem]
    cases ht : c.tree with
    | nil => exact .popitemEmpty fun k => by rw [hget, ht]; rfl
    | cons p t =>
      obtain ⟨k, v⟩ := p
      have hs : Tree.Sorted ((k, v) :: t) := ht ▸ h
      have hs' := List.pairwise_cons.1 hs
      have he : Tree.get t = Map.remove c.get k := by
        funext x
        rw [hget, ht]
        unfold Map.remove
        rw [Tree.get_cons]
        by_cases hx : x = k
        · subst hx; simp [Tree.get_none_of_lt fun p hp => hs'.1 p hp]
        · simp [hx]
      show MapStep c.get .popitem (.ok (.item k v)) (Tree.get t)
      rw [he]
      refine .popitem (by rw [hget, ht, Tree.get_cons]; simp) ?_
      intro k' hk'
      rw [hget, ht] at hk'
      have hm : k' ∈ Tree.keys ((k, v) :: t) := by
        by_contra hcon
        exact hk' ((Tree.get_eq_none_iff _ _).2 hcon)
      rcases List.mem_cons.1 hm with rfl | hm
      · exact le_refl _
      · obtain ⟨p, hp, rfl⟩ := List.mem_map.1 hm
        exact le_of_lt (hs'.1 p hp)
  | setdefault k v =>
    right
    simp only [Collection.call, Collection.setdefault]
    cases hg : c.tree.get k with
    | some w => exact .setdefaultOld hg
    | none =>
      have : ({ c with tree := c.tree.put k v } : Collection V).get = Map.set c.get k v :=
        tree_put_get c.tree k v
      simp only
      rw [this]
      exact .setdefaultNew hg
  | clear => right; exact .clear

theorem Collection.run_sorted {c : Collection V} (h : c.Sorted) (ops : List (CollCall V)) :
    (c.run ops).2.Sorted := by
  induction ops generalizing c with
  | nil => exact h
  | cons op ops ih => exact ih (Collection.call_sorted h op)

theorem Collection.run_fixed (c : Collection V) (ops : List (CollCall V)) :
    (c.run ops).2.maxSize = c.maxSize ∧ (c.run ops).2.strict = c.strict := by
  induction ops generalizing c with
  | nil => exact ⟨rfl, rfl⟩
  | cons op ops ih =>
    have h1 := ih (c.call op).2
    have h2 := Collection.call_fixed c op
    exact ⟨h1.1.trans h2.1, h1.2.trans h2.2.1⟩

theorem tree_length_update_le {t : Tree String V} (hs : Tree.Sorted t) (d : List (String × V)) :
    (t.update d).length ≤ t.length + ((d.map Prod.fst).filter fun k => !t.has k).length := by
  induction d generalizing t with
  | nil => simp [Tree.update]
  | cons p d ih =>
    rw [Tree.update_cons]
    refine le_trans (ih (Tree.sorted_put hs p.1 p.2)) ?_
    rw [Tree.length_put hs]
    have hmono : ((d.map Prod.fst).filter fun k => !(t.put p.1 p.2).has k).length ≤
        ((d.map Prod.fst).filter fun k => !t.has k).length := by
      apply List.Sublist.length_le
      apply List.monotone_filter_right
      intro k hk
      simp only [Bool.not_eq_true', Tree.has_eq, Tree.get_put] at *
      split_ifs at hk <;> simp_all
    rw [List.map_cons, List.filter_cons]
    cases h : t.has p.1 <;> simp <;> omega

theorem tree_card {t : Tree String V} (hs : Tree.Sorted t) : Map.Card t.get t.length := by
  refine ⟨t.keys, hs.nodup_keys, by simp [Tree.keys], fun k => ?_⟩
  rw [ne_eq, Tree.get_eq_none_iff, not_not]

theorem card_unique {m : Map V} {a b : Nat} (ha : m.Card a) (hb : m.Card b) : a = b := by
  obtain ⟨ka, na, la, ma⟩ := ha
  obtain ⟨kb, nb, lb, mb⟩ := hb
  have : ka.Perm kb := (List.perm_ext_iff_of_nodup na nb).2 fun k => by rw [ma, mb]
  rw [← la, ← lb, this.length_eq]

end Verif.Storage
