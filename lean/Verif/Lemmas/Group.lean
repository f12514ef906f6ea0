import Verif.Storage.Group
import Verif.Lemmas.Collection

namespace Verif.Storage
open Verif.Spec
variable {V : Type}

/-- The map a group shows through `get`. -/
def CGroup.view (g : CGroup V) : Map V := fun k =>
  match g.get k with
  | .ok r => r
  | .error _ => none

/-- Invariant: at least one collection, BTrees sorted, every key in its own collection. -/
structure CGroup.Inv (g : CGroup V) : Prop where
  ne : g.collections ≠ []
  sorted : ∀ c ∈ g.collections, c.Sorted
  routed : ∀ (i : Nat) (c : Collection V), g.collections[i]? = some c →
    ∀ k, c.get k ≠ none → hashId k % g.collections.length = i

theorem CGroup.coll_exists {g : CGroup V} (hne : g.collections ≠ []) (key : String) :
    ∃ c, g.collections[hashId key % g.collections.length]? = some c := by
  have hlt : hashId key % g.collections.length < g.collections.length :=
    Nat.mod_lt _ (List.length_pos_iff.2 hne)
  exact ⟨_, List.getElem?_eq_getElem hlt⟩

theorem CGroup.route_eq {α : Type} {g : CGroup V} {key : String} {c : Collection V}
    (h : g.collections[hashId key % g.collections.length]? = some c)
    (fn : Collection V → Outcome α × Collection V) :
    g.route key fn = ((fn c).1,
      { collections := g.collections.set (hashId key % g.collections.length) (fn c).2 }) := by
  have hne : g.collections.length ≠ 0 := by
    intro h0
    rw [List.length_eq_zero_iff.1 h0] at h
    simp at h
  unfold CGroup.route groupIndex
  simp [hne, h]

theorem CGroup.routeRead_eq {α : Type} {g : CGroup V} {key : String} {c : Collection V}
    (h : g.collections[hashId key % g.collections.length]? = some c) (fn : Collection V → α) :
    g.routeRead key fn = .ok (fn c) := by
  have hne : g.collections.length ≠ 0 := by
    intro h0
    rw [List.length_eq_zero_iff.1 h0] at h
    simp at h
  unfold CGroup.routeRead groupIndex
  simp [hne, h]

theorem CGroup.get_eq {g : CGroup V} {key : String} {c : Collection V}
    (h : g.collections[hashId key % g.collections.length]? = some c) :
    g.get key = .ok (c.get key) := CGroup.routeRead_eq h _

theorem CGroup.view_eq {g : CGroup V} {key : String} {c : Collection V}
    (h : g.collections[hashId key % g.collections.length]? = some c) :
    g.view key = c.get key := by
  unfold CGroup.view; rw [CGroup.get_eq h]

theorem CGroup.get_view {g : CGroup V} (hne : g.collections ≠ []) (key : String) :
    g.get key = .ok (g.view key) := by
  obtain ⟨c, hc⟩ := CGroup.coll_exists hne key
  rw [CGroup.get_eq hc, CGroup.view_eq hc]

theorem CGroup.hasKey_view {g : CGroup V} (hne : g.collections ≠ []) (key : String) :
    g.hasKey key = .ok (g.view key).isSome := by
  obtain ⟨c, hc⟩ := CGroup.coll_exists hne key
  rw [CGroup.view_eq hc]
  exact CGroup.routeRead_eq hc _

/-- All effects of replacing the key's collection by one that differs only at the key. -/
theorem CGroup.set_view {g : CGroup V} (hi : g.Inv) {key : String} {c c' : Collection V}
    (h : g.collections[hashId key % g.collections.length]? = some c)
    (hs : c'.Sorted) (hfr : ∀ k, k ≠ key → c'.get k = c.get k) :
    let g' : CGroup V :=
      { collections := g.collections.set (hashId key % g.collections.length) c' }
    g'.Inv ∧ g'.view = fun x => if x = key then c'.get key else g.view x := by
  intro g'
  have hlen : g'.collections.length = g.collections.length := by simp [g']
  have hlt : hashId key % g.collections.length < g.collections.length :=
    (List.getElem?_eq_some_iff.1 h).1
  constructor
  · refine ⟨?_, ?_, ?_⟩
    · intro h0; exact hi.ne (List.length_eq_zero_iff.1 (by rw [← hlen, h0]; rfl))
    · intro d hd
      rcases List.mem_or_eq_of_mem_set hd with hd | rfl
      · exact hi.sorted d hd
      · exact hs
    · intro i d hd k hk
      rw [hlen]
      simp only [g', List.getElem?_set] at hd
      split_ifs at hd with h1
      · injection hd with hd; subst hd
        by_cases hkk : k = key
        · rw [hkk, h1]
        · rw [hfr k hkk] at hk
          rw [← h1]; exact hi.routed _ c h k hk
      · exact hi.routed i d hd k hk
  · funext x
    by_cases hx : x = key
    · subst hx
      have : g'.collections[hashId x % g'.collections.length]? = some c' := by
        rw [hlen]; simp [g', hlt]
      rw [CGroup.view_eq this]; simp
    · simp only [hx, if_false]
      obtain ⟨d, hd⟩ := CGroup.coll_exists hi.ne x
      rw [CGroup.view_eq hd]
      by_cases hix : hashId x % g.collections.length = hashId key % g.collections.length
      · have : g'.collections[hashId x % g'.collections.length]? = some c' := by
          rw [hlen, hix]; simp [g', hlt]
        rw [CGroup.view_eq this, hfr x hx]
        rw [hix, h] at hd
        injection hd with hd; rw [hd]
      · have : g'.collections[hashId x % g'.collections.length]? = some d := by
          rw [hlen]; simp only [g', List.getElem?_set]; rw [if_neg (Ne.symm hix)]; exact hd
        rw [CGroup.view_eq this]

/-- Membership in `keys()` is membership in the view. -/
theorem CGroup.mem_keys {g : CGroup V} (hi : g.Inv) (k : String) : k ∈ g.keys ↔ g.view k ≠ none := by
  unfold CGroup.keys
  rw [List.mem_flatMap]
  obtain ⟨c, hc⟩ := CGroup.coll_exists hi.ne k
  rw [CGroup.view_eq hc]
  have hck : k ∈ c.keys ↔ c.get k ≠ none := by
    show k ∈ Tree.keys c.tree ↔ Tree.get c.tree k ≠ none
    rw [ne_eq, Tree.get_eq_none_iff, not_not]
  constructor
  · rintro ⟨d, hd, hk⟩
    obtain ⟨i, hi'⟩ := List.mem_iff_getElem?.1 hd
    have hk' : d.get k ≠ none := by
      show Tree.get d.tree k ≠ none
      rw [ne_eq, Tree.get_eq_none_iff, not_not]; exact hk
    have := hi.routed i d hi' k hk'
    rw [← this, hc] at hi'
    injection hi' with hi'; rw [hi']; exact hk'
  · intro hk
    exact ⟨c, List.mem_of_getElem? hc, hck.2 hk⟩

theorem CGroup.mem_items {g : CGroup V} (hi : g.Inv) (k : String) (v : V) :
    (k, v) ∈ g.items ↔ g.view k = some v := by
  unfold CGroup.items
  rw [List.mem_flatMap]
  obtain ⟨c, hc⟩ := CGroup.coll_exists hi.ne k
  rw [CGroup.view_eq hc]
  have hcs := hi.sorted c (List.mem_of_getElem? hc)
  constructor
  · rintro ⟨d, hd, hk⟩
    obtain ⟨i, hi'⟩ := List.mem_iff_getElem?.1 hd
    have hk' : d.get k = some v := Tree.get_of_mem (hi.sorted d hd) hk
    have := hi.routed i d hi' k (by rw [hk']; simp)
    rw [← this, hc] at hi'
    injection hi' with hi'; rw [hi']; exact hk'
  · intro hk
    exact ⟨c, List.mem_of_getElem? hc, Tree.mem_of_get hk⟩

/-- The collections have disjoint keys. -/
theorem CGroup.keys_nodup {g : CGroup V} (hi : g.Inv) : g.keys.Nodup := by
  unfold CGroup.keys
  rw [List.nodup_flatMap]
  refine ⟨fun c hc => (hi.sorted c hc).nodup_keys, ?_⟩
  rw [List.pairwise_iff_getElem]
  intro i j hii hjj hij
  rw [Function.onFun, List.disjoint_left]
  intro k h1 h2
  have e1 : g.collections[i].get k ≠ none := by
    show Tree.get _ k ≠ none; rw [ne_eq, Tree.get_eq_none_iff, not_not]; exact h1
  have e2 : g.collections[j].get k ≠ none := by
    show Tree.get _ k ≠ none; rw [ne_eq, Tree.get_eq_none_iff, not_not]; exact h2
  have := hi.routed i _ (List.getElem?_eq_getElem hii) k e1
  have := hi.routed j _ (List.getElem?_eq_getElem hjj) k e2
  omega

theorem CGroup.keys_items (g : CGroup V) : g.items.map Prod.fst = g.keys := by
  unfold CGroup.items CGroup.keys
  rw [List.map_flatMap]; rfl

theorem CGroup.values_items (g : CGroup V) : g.items.map Prod.snd = g.values := by
  unfold CGroup.items CGroup.values
  rw [List.map_flatMap]; rfl

theorem CGroup.size_keys (g : CGroup V) : g.size = g.keys.length := by
  unfold CGroup.size CGroup.keys
  rw [List.length_flatMap]
  congr 1
  apply List.map_congr_left
  intro c _
  simp [Collection.size, Collection.keys, Tree.keys]

theorem CGroup.card {g : CGroup V} (hi : g.Inv) : Map.Card g.view g.size :=
  ⟨g.keys, CGroup.keys_nodup hi, (CGroup.size_keys g).symm, CGroup.mem_keys hi⟩

theorem setAll_filter (m : Map V) (d : List (String × V)) (p : String × V → Bool) (x : String)
    (hp : ∀ q ∈ d, q.1 = x → p q = true) : Map.setAll m (d.filter p) x = Map.setAll m d x := by
  have key : ∀ (d : List (String × V)) (m m' : Map V), m x = m' x →
      (∀ q ∈ d, q.1 = x → p q = true) → Map.setAll m (d.filter p) x = Map.setAll m' d x := by
    intro d
    induction d with
    | nil => intro m m' h _; exact h
    | cons q d ih =>
      intro m m' h hp
      have hp' : ∀ r ∈ d, r.1 = x → p r = true := fun r hr => hp r (List.mem_cons_of_mem _ hr)
      rw [List.filter_cons]
      split_ifs with hq
      · refine ih (m.set q.1 q.2) (m'.set q.1 q.2) ?_ hp'
        unfold Map.set; split_ifs <;> simp [h]
      · refine ih m (m'.set q.1 q.2) ?_ hp'
        have : x ≠ q.1 := fun hx => hq (hp q List.mem_cons_self hx.symm)
        simp [Map.set, this, h]
  exact key d m m rfl hp

theorem setAll_congr (m m' : Map V) (d : List (String × V)) (x : String) (h : m x = m' x) :
    Map.setAll m d x = Map.setAll m' d x := by
  induction d generalizing m m' with
  | nil => exact h
  | cons q d ih =>
    refine ih (m.set q.1 q.2) (m'.set q.1 q.2) ?_
    unfold Map.set; split_ifs <;> simp [h]

theorem setAll_not_mem (m : Map V) (d : List (String × V)) (x : String)
    (h : x ∉ d.map Prod.fst) : Map.setAll m d x = m x := by
  induction d generalizing m with
  | nil => rfl
  | cons q d ih =>
    simp only [List.map_cons, List.mem_cons, not_or] at h
    have : Map.setAll m (q :: d) x = Map.setAll (m.set q.1 q.2) d x := rfl
    rw [this, ih _ h.2]
    simp [Map.set, h.1]

/-- The part of a dict routed to collection `i`. -/
def share (n : Nat) (d : List (String × V)) (i : Nat) : List (String × V) :=
  d.filter fun p => hashId p.1 % n = i

theorem updateLoop_length (n : Nat) (d : List (String × V)) (i : Nat) (cs : List (Collection V)) :
    (CGroup.updateLoop n d i cs).2.length = cs.length := by
  induction cs generalizing i with
  | nil => rfl
  | cons c cs ih =>
    unfold CGroup.updateLoop
    dsimp only
    split_ifs
    · simp [ih]
    · split <;> simp [ih]

/-- Every collection is left alone or gets its share through `Collection.update`. -/
theorem updateLoop_getElem (n : Nat) (d : List (String × V)) (i : Nat) (cs : List (Collection V))
    (j : Nat) (c' : Collection V) (h : (CGroup.updateLoop n d i cs).2[j]? = some c') :
    ∃ c, cs[j]? = some c ∧ (c' = c ∨ c' = (c.update (share n d (i + j))).2) := by
  induction cs generalizing i j with
  | nil => simp [CGroup.updateLoop] at h
  | cons c cs ih =>
    unfold CGroup.updateLoop at h
    dsimp only at h
    split_ifs at h with hs
    · cases j with
      | zero => simp at h; exact ⟨c, rfl, .inl h.symm⟩
      | succ j =>
        simp only [List.getElem?_cons_succ] at h ⊢
        have := ih (i + 1) j h
        rwa [show i + 1 + j = i + (j + 1) by omega] at this
    · cases hr : (c.update (share n d i)) with
      | mk r c'' =>
        have hr' := hr
        unfold share at hr'
        rw [hr'] at h
        cases r with
        | error e =>
          simp only at h
          cases j with
          | zero => simp at h; exact ⟨c, rfl, .inr (by rw [Nat.add_zero, hr]; exact h.symm)⟩
          | succ j => simp only [List.getElem?_cons_succ] at h ⊢; exact ⟨c', h, .inl rfl⟩
        | ok u =>
          simp only at h
          cases j with
          | zero => simp at h; exact ⟨c, rfl, .inr (by rw [Nat.add_zero, hr]; exact h.symm)⟩
          | succ j =>
            simp only [List.getElem?_cons_succ] at h ⊢
            have := ih (i + 1) j h
            rwa [show i + 1 + j = i + (j + 1) by omega] at this

theorem Collection.update_ok {c c' : Collection V} {d : List (String × V)} {u : Unit}
    (h : c.update d = (.ok u, c')) : c' = { c with tree := c.tree.update d } := by
  unfold Collection.update at h
  dsimp only at h
  split_ifs at h
  · simp at h
  · simp at h; exact h.symm

/-- When the loop ends normally, every collection has its share. -/
theorem updateLoop_ok (n : Nat) (d : List (String × V)) (i : Nat) (cs : List (Collection V))
    {u : Unit} (hok : (CGroup.updateLoop n d i cs).1 = .ok u) (j : Nat) :
    (CGroup.updateLoop n d i cs).2[j]? =
      (cs[j]?).map fun c => { c with tree := c.tree.update (share n d (i + j)) } := by
  induction cs generalizing i j with
  | nil => simp [CGroup.updateLoop]
  | cons c cs ih =>
    unfold CGroup.updateLoop at hok ⊢
    dsimp only at hok ⊢
    split_ifs at hok ⊢ with hs
    · cases j with
      | zero =>
        have : share n d i = [] := List.isEmpty_iff.1 hs
        simp [this, Tree.update]
      | succ j =>
        simp only [List.getElem?_cons_succ]
        rw [ih (i + 1) hok j, show i + 1 + j = i + (j + 1) by omega]
    · cases hr : (c.update (share n d i)) with
      | mk r c'' =>
        have hr' := hr
        unfold share at hr'
        rw [hr'] at hok ⊢
        cases r with
        | error e => simp at hok
        | ok u' =>
          simp only at hok ⊢
          cases j with
          | zero => simp [Collection.update_ok hr]
          | succ j =>
            simp only [List.getElem?_cons_succ]
            rw [ih (i + 1) hok j, show i + 1 + j = i + (j + 1) by omega]

/-- When the loop fails, it fails with the collection's error. -/
theorem updateLoop_error (n : Nat) (d : List (String × V)) (i : Nat) (cs : List (Collection V))
    {e : PyErr} (herr : (CGroup.updateLoop n d i cs).1 = .error e) :
    e = .collectionCapacity ∧ ∃ c ∈ cs, c.strict = true := by
  induction cs generalizing i with
  | nil => simp [CGroup.updateLoop] at herr
  | cons c cs ih =>
    unfold CGroup.updateLoop at herr
    dsimp only at herr
    split_ifs at herr with hs
    · obtain ⟨h1, c', h2, h3⟩ := ih (i + 1) herr
      exact ⟨h1, c', List.mem_cons_of_mem _ h2, h3⟩
    · split at herr
      · rename_i e' c' he
        unfold Collection.update at he
        dsimp only at he
        split_ifs at he with hc
        · simp only [Prod.mk.injEq, Except.error.injEq] at he herr
          exact ⟨by rw [← herr, ← he.1], c, List.mem_cons_self, hc.2⟩
        · simp at he
      · obtain ⟨h1, c', h2, h3⟩ := ih (i + 1) herr
        exact ⟨h1, c', List.mem_cons_of_mem _ h2, h3⟩

theorem mem_share {n : Nat} {d : List (String × V)} {i : Nat} {p : String × V}
    (h : p ∈ share n d i) : hashId p.1 % n = i ∧ p ∈ d := by
  unfold share at h
  rw [List.mem_filter] at h
  exact ⟨by simpa using h.2, h.1⟩

/-- A (possibly partial) group update keeps the invariant. -/
theorem CGroup.update_inv {g : CGroup V} (hi : g.Inv) (d : List (String × V)) :
    (g.update d).2.Inv := by
  unfold CGroup.update
  dsimp only
  split_ifs
  · exact hi
  · exact hi
  · set n := g.collections.length
    have hlen := updateLoop_length n d 0 g.collections
    refine ⟨?_, ?_, ?_⟩
    · intro h0
      simp only at h0
      rw [h0] at hlen
      exact hi.ne (List.length_eq_zero_iff.1 (by simpa using hlen.symm))
    · intro c' hc'
      obtain ⟨j, hj⟩ := List.mem_iff_getElem?.1 hc'
      obtain ⟨c, hc, h | h⟩ := updateLoop_getElem n d 0 g.collections j c' hj
      · rw [h]; exact hi.sorted c (List.mem_of_getElem? hc)
      · rw [h]; exact Collection.update_sorted (hi.sorted c (List.mem_of_getElem? hc)) _
    · intro j c' hj k hk
      simp only at hj ⊢
      rw [hlen]
      obtain ⟨c, hc, h | h⟩ := updateLoop_getElem n d 0 g.collections j c' hj
      · rw [h] at hk; exact hi.routed j c hc k hk
      · rw [Nat.zero_add] at h
        by_cases hm : k ∈ (share n d j).map Prod.fst
        · obtain ⟨p, hp, rfl⟩ := List.mem_map.1 hm
          exact (mem_share hp).1
        · refine hi.routed j c hc k ?_
          rw [h] at hk
          unfold Collection.update at hk
          dsimp only at hk
          split_ifs at hk
          · exact hk
          · have e : ({ c with tree := c.tree.update (share n d j) } : Collection V).get k =
                Map.setAll c.get (share n d j) k := congrFun (tree_update_get c.tree _) k
            rw [e, setAll_not_mem _ _ _ hm] at hk
            exact hk

theorem CGroup.update_view {g : CGroup V} (hi : g.Inv) (d : List (String × V)) {u : Unit}
    (hok : (g.update d).1 = .ok u) : (g.update d).2.view = Map.setAll g.view d := by
  have hi' := CGroup.update_inv hi d
  unfold CGroup.update at hok hi' ⊢
  dsimp only at hok hi' ⊢
  split_ifs at hok hi' ⊢
  set n := g.collections.length with hn
  have hlen := updateLoop_length n d 0 g.collections
  funext x
  obtain ⟨c, hc⟩ := CGroup.coll_exists hi.ne x
  have hj := updateLoop_ok n d 0 g.collections hok (hashId x % n)
  rw [hc] at hj
  rw [Nat.zero_add] at hj
  have hv := CGroup.view_eq (g := ⟨(CGroup.updateLoop n d 0 g.collections).2⟩) (key := x)
    (c := { c with tree := c.tree.update (share n d (hashId x % n)) }) (by
      show (CGroup.updateLoop n d 0 g.collections).2[hashId x %
        (CGroup.updateLoop n d 0 g.collections).2.length]? = _
      rw [hlen, ← hn, hj]; rfl)
  rw [hv]
  have e : ({ c with tree := c.tree.update (share n d (hashId x % n)) } : Collection V).get x =
      Map.setAll c.get (share n d (hashId x % n)) x := congrFun (tree_update_get c.tree _) x
  rw [e]
  unfold share
  rw [setAll_filter]
  · exact setAll_congr _ _ _ _ (CGroup.view_eq hc).symm
  · intro q _ hq; simp [hq]

theorem Collection.call_frame {c : Collection V} (hs : c.Sorted) (key : String) (op : CollCall V)
    (hop : (∃ v, op = .insert key v) ∨ (∃ d, op = .pop key d) ∨ (∃ v, op = .setdefault key v))
    (k : String) (hk : k ≠ key) : (c.call op).2.get k = c.get k := by
  rcases Collection.call_spec hs op with h | h
  · rw [h.2]
  · generalize (c.call op).1 = o at h
    generalize hm : (c.call op).2.get = m at h
    rcases hop with ⟨v, rfl⟩ | ⟨d, rfl⟩ | ⟨v, rfl⟩ <;> cases h <;>
      simp [Map.set, Map.remove, hk, ← hm]

/-- Lift one routed call. -/
theorem CGroup.routed_step {α : Type} {g : CGroup V} (hi : g.Inv) (key : String) (op : CollCall V)
    (fn : Collection V → Outcome α × Collection V) (ret : α → Ret V)
    (hfn : ∀ c, c.call op = ((fn c).1.map ret, (fn c).2))
    (hop : (∃ v, op = .insert key v) ∨ (∃ d, op = .pop key d) ∨ (∃ v, op = .setdefault key v)) :
    (g.route key fn).2.Inv ∧
    (((g.route key fn).1 = .error .collectionCapacity ∧ (g.route key fn).2 = g ∧
        ∃ c ∈ g.collections, c.strict = true) ∨
      MapStep g.view op ((g.route key fn).1.map ret) (g.route key fn).2.view) := by
  obtain ⟨c, hc⟩ := CGroup.coll_exists hi.ne key
  have hcm := List.mem_of_getElem? hc
  have hcs := hi.sorted c hcm
  rw [CGroup.route_eq hc]
  have hf := hfn c
  have hs' : (fn c).2.Sorted := by
    have := Collection.call_sorted hcs op; rw [hf] at this; exact this
  have hfr : ∀ k, k ≠ key → (fn c).2.get k = c.get k := by
    intro k hk
    have := Collection.call_frame hcs key op hop k hk; rw [hf] at this; exact this
  have hset := CGroup.set_view hi hc hs' hfr
  refine ⟨hset.1, ?_⟩
  rcases Collection.call_spec hcs op with h | h
  · left
    rw [hf] at h
    have h2 := h.2
    simp only [Prod.mk.injEq] at h2
    refine ⟨?_, ?_, c, hcm, h.1⟩
    · cases h3 : (fn c).1 with
      | ok a => rw [h3] at h2; simp [Except.map] at h2
      | error e => rw [h3] at h2; simp [Except.map] at h2; simp [h2.1]
    · rw [h2.2]
      have hself : g.collections.set (hashId key % g.collections.length) c = g.collections := by
        obtain ⟨hl, he⟩ := List.getElem?_eq_some_iff.1 hc
        rw [← he]; exact List.set_getElem_self hl
      rw [hself]
  · right
    rw [hf] at h
    simp only at h
    rw [hset.2]
    have hvk := CGroup.view_eq hc
    have hrest : ∀ x, x ≠ key → (if x = key then (fn c).2.get key else g.view x) = g.view x :=
      fun x hx => by simp [hx]
    generalize (fn c).1.map ret = out at h
    generalize hm : (fn c).2.get = m at h
    have e1 : ∀ v, m = Map.set c.get key v →
        (fun x => if x = key then m key else g.view x) = Map.set g.view key v := by
      intro v hv; funext x; unfold Map.set; rw [hv]; by_cases hx : x = key <;> simp [hx, Map.set]
    have e2 : m = Map.remove c.get key →
        (fun x => if x = key then m key else g.view x) = Map.remove g.view key := by
      intro hv; funext x; unfold Map.remove; rw [hv]; by_cases hx : x = key <;> simp [hx, Map.remove]
    have e3 : m = c.get → (fun x => if x = key then m key else g.view x) = g.view := by
      intro hv; funext x; rw [hv]; by_cases hx : x = key
      · simp [hx, hvk]
      · simp [hx]
    rcases hop with ⟨v, rfl⟩ | ⟨d, rfl⟩ | ⟨v, rfl⟩
    · cases h with
      | insertNew h => rw [e1 v rfl]; exact .insertNew (hvk.trans h)
      | insertOld h => rw [e3 rfl]; exact .insertOld (hvk.trans h)
    · cases h with
      | popHit h => rw [e2 rfl]; exact .popHit (hvk.trans h)
      | popMiss h => rw [e3 rfl]; exact .popMiss (hvk.trans h)
      | popDefault h => rw [e3 rfl]; exact .popDefault (hvk.trans h)
    · cases h with
      | setdefaultOld h => rw [e3 rfl]; exact .setdefaultOld (hvk.trans h)
      | setdefaultNew h => rw [e1 v rfl]; exact .setdefaultNew (hvk.trans h)

end Verif.Storage
