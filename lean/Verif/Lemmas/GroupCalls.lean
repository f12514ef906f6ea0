import Verif.Lemmas.Group

namespace Verif.Storage
open Verif.Spec
variable {V : Type}

theorem mapM_ok {α β : Type} {f : α → Outcome β} {l : List α} {r : List β}
    (h : l.mapM f = .ok r) : List.Forall₂ (fun a b => f a = .ok b) l r := by
  induction l generalizing r with
  | nil => simp [pure, Except.pure] at h; subst h; exact .nil
  | cons a l ih =>
    rw [List.mapM_cons] at h
    simp only [bind, Except.bind, pure, Except.pure] at h
    cases hf : f a with
    | error e => rw [hf] at h; simp at h
    | ok b =>
      rw [hf] at h
      cases hl : l.mapM f with
      | error e => rw [hl] at h; simp at h
      | ok bs => rw [hl] at h; simp at h; subst h; exact .cons hf (ih hl)

theorem mapM_error {α β : Type} {f : α → Outcome β} {l : List α} {e : PyErr}
    (h : l.mapM f = .error e) : ∃ a ∈ l, f a = .error e := by
  induction l with
  | nil => simp [pure, Except.pure] at h
  | cons a l ih =>
    rw [List.mapM_cons] at h
    simp only [bind, Except.bind, pure, Except.pure] at h
    cases hf : f a with
    | error e' => rw [hf] at h; simp at h; exact ⟨a, List.mem_cons_self, by rw [hf, h]⟩
    | ok b =>
      rw [hf] at h
      cases hl : l.mapM f with
      | error e' =>
        rw [hl] at h; simp at h; subst h
        obtain ⟨a', h1, h2⟩ := ih hl
        exact ⟨a', List.mem_cons_of_mem _ h1, h2⟩
      | ok bs => rw [hl] at h; simp at h

theorem foldl_min_spec (ks : List String) (k : String) :
    let m := ks.foldl (fun a b => if b < a then b else a) k
    (m = k ∨ m ∈ ks) ∧ m ≤ k ∧ ∀ x ∈ ks, m ≤ x := by
  induction ks generalizing k with
  | nil => simp
  | cons a ks ih =>
    simp only [List.foldl_cons, List.mem_cons, forall_eq_or_imp]
    have := ih (if a < k then a else k)
    simp only at this
    split_ifs at this ⊢ with h
    · refine ⟨?_, le_trans this.2.1 (le_of_lt h), this.2.1, this.2.2⟩
      rcases this.1 with h1 | h1
      · exact .inr (.inl h1)
      · exact .inr (.inr h1)
    · refine ⟨?_, this.2.1, le_trans this.2.1 (not_lt.1 h), this.2.2⟩
      rcases this.1 with h1 | h1
      · exact .inl h1
      · exact .inr (.inr h1)

theorem foldl_max_spec (ks : List String) (k : String) :
    let m := ks.foldl (fun a b => if a < b then b else a) k
    (m = k ∨ m ∈ ks) ∧ k ≤ m ∧ ∀ x ∈ ks, x ≤ m := by
  induction ks generalizing k with
  | nil => simp
  | cons a ks ih =>
    simp only [List.foldl_cons, List.mem_cons, forall_eq_or_imp]
    have := ih (if k < a then a else k)
    simp only at this
    split_ifs at this ⊢ with h
    · refine ⟨?_, le_trans (le_of_lt h) this.2.1, this.2.1, this.2.2⟩
      rcases this.1 with h1 | h1
      · exact .inr (.inl h1)
      · exact .inr (.inr h1)
    · refine ⟨?_, this.2.1, le_trans (not_lt.1 h) this.2.1, this.2.2⟩
      rcases this.1 with h1 | h1
      · exact .inl h1
      · exact .inr (.inr h1)

/-- Sorted collections: `minKey` answers the least key in bounds. -/
theorem Collection.minKey_spec {c : Collection V} (hs : c.Sorted) (mn : Option String) :
    (∃ k, c.minKey mn = .ok k ∧ c.get k ≠ none ∧ (∀ a, mn = some a → a ≤ k) ∧
      ∀ k', c.get k' ≠ none → (∀ a, mn = some a → a ≤ k') → k ≤ k') ∨
    (c.minKey mn = .error .valueError ∧ ∀ k, c.get k ≠ none → ∃ a, mn = some a ∧ k < a) := by
  have hr : Tree.Sorted (c.tree.rangeItems mn none) := Tree.sorted_rangeItems hs mn none
  have hmem : ∀ k, c.get k ≠ none → (∀ a, mn = some a → a ≤ k) →
      ∃ v, (k, v) ∈ c.tree.rangeItems mn none := by
    intro k hk ha
    obtain ⟨v, hv⟩ := Option.ne_none_iff_exists'.1 hk
    exact ⟨v, Tree.mem_rangeItems.2 ⟨Tree.mem_of_get hv, ha, by simp⟩⟩
  unfold Collection.minKey Tree.minKey
  cases hl : c.tree.rangeItems mn none with
  | nil =>
    right
    refine ⟨rfl, fun k hk => ?_⟩
    by_contra hcon
    push Not at hcon
    obtain ⟨v, hv⟩ := hmem k hk hcon
    rw [hl] at hv; simp at hv
  | cons p l =>
    left
    rw [hl] at hr
    have hp : p ∈ c.tree.rangeItems mn none := by rw [hl]; simp
    have hp' := Tree.mem_rangeItems.1 hp
    refine ⟨p.1, rfl, ?_, hp'.2.1, ?_⟩
    · show Tree.get c.tree p.1 ≠ none
      rw [Tree.get_of_mem hs (show (p.1, p.2) ∈ c.tree from hp'.1)]; simp
    · intro k' hk' ha
      obtain ⟨v, hv⟩ := hmem k' hk' ha
      rw [hl] at hv
      rcases List.mem_cons.1 hv with h | h
      · rw [← h]
      · exact le_of_lt ((List.pairwise_cons.1 hr).1 _ h)

theorem sorted_getLast {l : Tree String V} (h : Tree.Sorted l) {x : String × V}
    (hx : l.getLast? = some x) : ∀ y ∈ l, y.1 ≤ x.1 := by
  induction l with
  | nil => simp
  | cons a l ih =>
    intro y hy
    cases l with
    | nil => simp at hx hy; simp [hx, hy]
    | cons b l =>
      rw [List.getLast?_cons_cons] at hx
      have h' := List.pairwise_cons.1 h
      rcases List.mem_cons.1 hy with rfl | hy
      · exact le_of_lt (h'.1 x (List.mem_of_getLast? hx))
      · exact ih h'.2 hx y hy

theorem Collection.maxKey_spec {c : Collection V} (hs : c.Sorted) (mx : Option String) :
    (∃ k, c.maxKey mx = .ok k ∧ c.get k ≠ none ∧ (∀ a, mx = some a → k ≤ a) ∧
      ∀ k', c.get k' ≠ none → (∀ a, mx = some a → k' ≤ a) → k' ≤ k) ∨
    (c.maxKey mx = .error .valueError ∧ ∀ k, c.get k ≠ none → ∃ a, mx = some a ∧ a < k) := by
  have hr : Tree.Sorted (c.tree.rangeItems none mx) := Tree.sorted_rangeItems hs none mx
  have hmem : ∀ k, c.get k ≠ none → (∀ a, mx = some a → k ≤ a) →
      ∃ v, (k, v) ∈ c.tree.rangeItems none mx := by
    intro k hk ha
    obtain ⟨v, hv⟩ := Option.ne_none_iff_exists'.1 hk
    exact ⟨v, Tree.mem_rangeItems.2 ⟨Tree.mem_of_get hv, by simp, ha⟩⟩
  unfold Collection.maxKey Tree.maxKey
  cases hl : (c.tree.rangeItems none mx).getLast? with
  | none =>
    right
    refine ⟨rfl, fun k hk => ?_⟩
    by_contra hcon
    push Not at hcon
    obtain ⟨v, hv⟩ := hmem k hk hcon
    rw [List.getLast?_eq_none_iff.1 hl] at hv; simp at hv
  | some p =>
    left
    have hp' := Tree.mem_rangeItems.1 (List.mem_of_getLast? hl)
    refine ⟨p.1, rfl, ?_, hp'.2.2, ?_⟩
    · show Tree.get c.tree p.1 ≠ none
      rw [Tree.get_of_mem hs (show (p.1, p.2) ∈ c.tree from hp'.1)]; simp
    · intro k' hk' ha
      obtain ⟨v, hv⟩ := hmem k' hk' ha
      exact sorted_getLast hr hl _ hv

theorem CGroup.view_ne_none {g : CGroup V} (hi : g.Inv) (k : String) :
    g.view k ≠ none ↔ ∃ c ∈ g.collections, c.get k ≠ none := by
  rw [← CGroup.mem_keys hi, CGroup.keys, List.mem_flatMap]
  refine exists_congr fun c => and_congr_right fun _ => ?_
  show k ∈ Tree.keys c.tree ↔ Tree.get c.tree k ≠ none
  rw [ne_eq, Tree.get_eq_none_iff, not_not]

/-- Exactly what `minKey` of a group does. -/
theorem CGroup.minKey_spec {g : CGroup V} (hi : g.Inv) (mn : Option String) :
    (∃ k, g.minKey mn = .ok k ∧ g.view k ≠ none ∧ (∀ a, mn = some a → a ≤ k) ∧
      (∀ k', g.view k' ≠ none → (∀ a, mn = some a → a ≤ k') → k ≤ k') ∧
      ∀ c ∈ g.collections, ∃ k, c.get k ≠ none ∧ ∀ a, mn = some a → a ≤ k) ∨
    (g.minKey mn = .error .valueError ∧
      ∃ c ∈ g.collections, ∀ k, c.get k ≠ none → ∃ a, mn = some a ∧ k < a) := by
  unfold CGroup.minKey
  cases hm : g.collections.mapM fun c => c.minKey mn with
  | error e =>
    right
    obtain ⟨c, hc, he⟩ := mapM_error hm
    rcases Collection.minKey_spec (hi.sorted c hc) mn with ⟨k, h, _⟩ | ⟨h1, h2⟩
    · rw [h] at he; simp at he
    · rw [h1] at he; injection he with he; subst he
      exact ⟨rfl, c, hc, h2⟩
  | ok ks =>
    have hf := mapM_ok hm
    cases ks with
    | nil => cases hg : g.collections with
      | nil => exact absurd hg hi.ne
      | cons c cs => rw [hg] at hf; cases hf
    | cons k ks =>
      left
      simp only
      have hsp := foldl_min_spec ks k
      simp only at hsp
      generalize ks.foldl (fun a b => if b < a then b else a) k = m at hsp
      have hall : ∀ x ∈ k :: ks, m ≤ x := by
        intro x hx
        rcases List.mem_cons.1 hx with rfl | hx
        · exact hsp.2.1
        · exact hsp.2.2 x hx
      have hmm : m ∈ k :: ks := by
        rcases hsp.1 with h | h
        · rw [h]; simp
        · exact List.mem_cons_of_mem _ h
      -- each collection answers
      have hcoll : ∀ c ∈ g.collections, ∃ x ∈ k :: ks, c.minKey mn = .ok x := by
        intro c hc
        have := List.forall₂_iff_get.1 hf
        obtain ⟨i, hi', rfl⟩ := List.mem_iff_getElem.1 hc
        exact ⟨(k :: ks)[i]'(by rw [← this.1]; exact hi'), List.getElem_mem _, this.2 i hi' _⟩
      have hback : ∃ c ∈ g.collections, c.minKey mn = .ok m := by
        have := List.forall₂_iff_get.1 hf
        obtain ⟨i, hi', rfl⟩ := List.mem_iff_getElem.1 hmm
        exact ⟨g.collections[i]'(by rw [this.1]; exact hi'), List.getElem_mem _, this.2 i _ hi'⟩
      obtain ⟨c, hc, hck⟩ := hback
      refine ⟨m, rfl, ?_, ?_, ?_, ?_⟩
      · rcases Collection.minKey_spec (hi.sorted c hc) mn with ⟨x, h, h2, _⟩ | ⟨h1, h2⟩
        · rw [h] at hck; injection hck with hck; subst hck
          exact (CGroup.view_ne_none hi _).2 ⟨c, hc, h2⟩
        · rw [h1] at hck; simp at hck
      · rcases Collection.minKey_spec (hi.sorted c hc) mn with ⟨x, h, h2, h3, _⟩ | ⟨h1, h2⟩
        · rw [h] at hck; injection hck with hck; subst hck; exact h3
        · rw [h1] at hck; simp at hck
      · intro k' hk' ha
        obtain ⟨c', hc', hck'⟩ := (CGroup.view_ne_none hi _).1 hk'
        obtain ⟨x, hx, hxk⟩ := hcoll c' hc'
        rcases Collection.minKey_spec (hi.sorted c' hc') mn with ⟨y, h, h2, h3, h4⟩ | ⟨h1, h2⟩
        · rw [h] at hxk; injection hxk with hxk; subst hxk
          exact le_trans (hall y hx) (h4 k' hck' ha)
        · rw [h1] at hxk; simp at hxk
      · intro c' hc'
        obtain ⟨x, hx, hxk⟩ := hcoll c' hc'
        rcases Collection.minKey_spec (hi.sorted c' hc') mn with ⟨y, h, h2, h3, h4⟩ | ⟨h1, h2⟩
        · exact ⟨y, h2, h3⟩
        · rw [h1] at hxk; simp at hxk

theorem CGroup.maxKey_spec {g : CGroup V} (hi : g.Inv) (mx : Option String) :
    (∃ k, g.maxKey mx = .ok k ∧ g.view k ≠ none ∧ (∀ a, mx = some a → k ≤ a) ∧
      (∀ k', g.view k' ≠ none → (∀ a, mx = some a → k' ≤ a) → k' ≤ k) ∧
      ∀ c ∈ g.collections, ∃ k, c.get k ≠ none ∧ ∀ a, mx = some a → k ≤ a) ∨
    (g.maxKey mx = .error .valueError ∧
      ∃ c ∈ g.collections, ∀ k, c.get k ≠ none → ∃ a, mx = some a ∧ a < k) := by
  unfold CGroup.maxKey
  cases hm : g.collections.mapM fun c => c.maxKey mx with
  | error e =>
    right
    obtain ⟨c, hc, he⟩ := mapM_error hm
    rcases Collection.maxKey_spec (hi.sorted c hc) mx with ⟨k, h, _⟩ | ⟨h1, h2⟩
    · rw [h] at he; simp at he
    · rw [h1] at he; injection he with he; subst he
      exact ⟨rfl, c, hc, h2⟩
  | ok ks =>
    have hf := mapM_ok hm
    cases ks with
    | nil => cases hg : g.collections with
      | nil => exact absurd hg hi.ne
      | cons c cs => rw [hg] at hf; cases hf
    | cons k ks =>
      left
      simp only
      have hsp := foldl_max_spec ks k
      simp only at hsp
      generalize ks.foldl (fun a b => if a < b then b else a) k = m at hsp
      have hall : ∀ x ∈ k :: ks, x ≤ m := by
        intro x hx
        rcases List.mem_cons.1 hx with rfl | hx
        · exact hsp.2.1
        · exact hsp.2.2 x hx
      have hmm : m ∈ k :: ks := by
        rcases hsp.1 with h | h
        · rw [h]; simp
        · exact List.mem_cons_of_mem _ h
      have hcoll : ∀ c ∈ g.collections, ∃ x ∈ k :: ks, c.maxKey mx = .ok x := by
        intro c hc
        have := List.forall₂_iff_get.1 hf
        obtain ⟨i, hi', rfl⟩ := List.mem_iff_getElem.1 hc
        exact ⟨(k :: ks)[i]'(by rw [← this.1]; exact hi'), List.getElem_mem _, this.2 i hi' _⟩
      have hback : ∃ c ∈ g.collections, c.maxKey mx = .ok m := by
        have := List.forall₂_iff_get.1 hf
        obtain ⟨i, hi', rfl⟩ := List.mem_iff_getElem.1 hmm
        exact ⟨g.collections[i]'(by rw [this.1]; exact hi'), List.getElem_mem _, this.2 i _ hi'⟩
      obtain ⟨c, hc, hck⟩ := hback
      refine ⟨m, rfl, ?_, ?_, ?_, ?_⟩
      · rcases Collection.maxKey_spec (hi.sorted c hc) mx with ⟨x, h, h2, _⟩ | ⟨h1, h2⟩
        · rw [h] at hck; injection hck with hck; subst hck
          exact (CGroup.view_ne_none hi _).2 ⟨c, hc, h2⟩
        · rw [h1] at hck; simp at hck
      · rcases Collection.maxKey_spec (hi.sorted c hc) mx with ⟨x, h, h2, h3, _⟩ | ⟨h1, h2⟩
        · rw [h] at hck; injection hck with hck; subst hck; exact h3
        · rw [h1] at hck; simp at hck
      · intro k' hk' ha
        obtain ⟨c', hc', hck'⟩ := (CGroup.view_ne_none hi _).1 hk'
        obtain ⟨x, hx, hxk⟩ := hcoll c' hc'
        rcases Collection.maxKey_spec (hi.sorted c' hc') mx with ⟨y, h, h2, h3, h4⟩ | ⟨h1, h2⟩
        · rw [h] at hxk; injection hxk with hxk; subst hxk
          exact le_trans (h4 k' hck' ha) (hall y hx)
        · rw [h1] at hxk; simp at hxk
      · intro c' hc'
        obtain ⟨x, hx, hxk⟩ := hcoll c' hc'
        rcases Collection.maxKey_spec (hi.sorted c' hc') mx with ⟨y, h, h2, h3, h4⟩ | ⟨h1, h2⟩
        · exact ⟨y, h2, h3⟩
        · rw [h1] at hxk; simp at hxk

theorem CGroup.insert_step {g : CGroup V} (hi : g.Inv) (k : String) (v : V) :
    (g.insert k v).2.Inv ∧
    ((((g.insert k v).1 = .error .groupCapacity ∨ (g.insert k v).1 = .error .collectionCapacity) ∧
        (g.insert k v).2 = g ∧ ∃ c ∈ g.collections, c.strict = true) ∨
      MapStep g.view (.insert k v) ((g.insert k v).1.map .num) (g.insert k v).2.view) := by
  have hne : g.collections.length ≠ 0 := by
    intro h; exact hi.ne (List.length_eq_zero_iff.1 h)
  unfold CGroup.insert groupIndex
  simp only [hne, if_false]
  split_ifs with h
  · refine ⟨hi, .inl ⟨.inl rfl, rfl, ?_⟩⟩
    cases hg : g.collections with
    | nil => exact absurd hg hi.ne
    | cons c cs =>
      refine ⟨c, by simp, ?_⟩
      have := h.2.2; unfold CGroup.strict at this; rw [hg] at this; simp at this; exact this.1
  · have := CGroup.routed_step hi k (.insert k v) (fun c => c.insert k v) Ret.num
      (fun c => rfl) (.inl ⟨v, rfl⟩)
    refine ⟨this.1, ?_⟩
    rcases this.2 with h | h
    · exact .inl ⟨.inr h.1, h.2⟩
    · exact .inr h

theorem CGroup.pop_step {g : CGroup V} (hi : g.Inv) (k : String) (d : Option V) :
    (g.pop k d).2.Inv ∧ MapStep g.view (.pop k d) ((g.pop k d).1.map .val) (g.pop k d).2.view := by
  have := CGroup.routed_step hi k (.pop k d) (fun c => c.pop k d) Ret.val
    (fun c => rfl) (.inr (.inl ⟨d, rfl⟩))
  refine ⟨this.1, ?_⟩
  rcases this.2 with h | h
  · exfalso
    obtain ⟨c, hc⟩ := CGroup.coll_exists hi.ne k
    rw [CGroup.route_eq hc] at h
    have h := h.1
    simp only [Collection.pop] at h
    split at h <;> simp at h
  · exact h

theorem CGroup.setdefault_step {g : CGroup V} (hi : g.Inv) (k : String) (v : V) :
    (g.setdefault k v).2.Inv ∧
      MapStep g.view (.setdefault k v) ((g.setdefault k v).1.map .val) (g.setdefault k v).2.view := by
  have := CGroup.routed_step hi k (.setdefault k v) (fun c => c.setdefault k v) Ret.val
    (fun c => rfl) (.inr (.inr ⟨v, rfl⟩))
  refine ⟨this.1, ?_⟩
  rcases this.2 with h | h
  · exfalso
    obtain ⟨c, hc⟩ := CGroup.coll_exists hi.ne k
    rw [CGroup.route_eq hc] at h
    have h := h.1
    simp only [Collection.setdefault] at h
    split at h <;> simp at h
  · exact h

theorem CGroup.clear_step {g : CGroup V} (hi : g.Inv) :
    g.clear.Inv ∧ g.clear.view = Map.empty := by
  have hinv : g.clear.Inv := by
    refine ⟨?_, ?_, ?_⟩
    · simpa [CGroup.clear] using hi.ne
    · intro c hc
      obtain ⟨d, _, rfl⟩ := List.mem_map.1 hc
      exact Tree.sorted_nil
    · intro i c hc k hk
      obtain ⟨d, _, rfl⟩ := List.mem_map.1 (List.mem_of_getElem? hc)
      exact absurd rfl hk
  refine ⟨hinv, ?_⟩
  funext k
  obtain ⟨c, hc⟩ := CGroup.coll_exists hinv.ne k
  rw [CGroup.view_eq hc]
  obtain ⟨d, _, rfl⟩ := List.mem_map.1 (List.mem_of_getElem? hc)
  rfl

/-- `popitem`: when every collection has a key it pops the least key, else ValueError. -/
theorem CGroup.popitem_step {g : CGroup V} (hi : g.Inv) :
    g.popitem.2.Inv ∧
    ((g.popitem = (.error .valueError, g) ∧ ∃ c ∈ g.collections, ∀ k, c.get k = none) ∨
     (MapStep g.view .popitem (g.popitem.1.map fun p => .item p.1 p.2) g.popitem.2.view ∧
       ∀ c ∈ g.collections, ∃ k, c.get k ≠ none)) := by
  unfold CGroup.popitem
  rcases CGroup.minKey_spec hi none with ⟨k, h1, h2, _, h4, h5⟩ | ⟨h1, c, hc, h2⟩
  · rw [h1]
    simp only
    have hp := CGroup.pop_step hi k none
    cases hpk : g.pop k none with
    | mk r g' =>
      rw [hpk] at hp
      obtain ⟨w, hw⟩ := Option.ne_none_iff_exists'.1 h2
      have hp2 := hp.2
      simp only at hp2
      generalize hv' : g'.view = v' at hp2
      cases r with
      | error e => cases hp2 with | popMiss h => rw [hw] at h; simp at h
      | ok v =>
        simp only [Except.map] at hp2 ⊢
        cases hp2 with
        | popHit h =>
          refine ⟨hp.1, .inr ⟨?_, fun c hc => ?_⟩⟩
          · rw [hv']
            exact .popitem h fun k' hk' => h4 k' hk' (by simp)
          · obtain ⟨x, hx, _⟩ := h5 c hc; exact ⟨x, hx⟩
  · rw [h1]
    refine ⟨hi, .inl ⟨rfl, c, hc, fun k => ?_⟩⟩
    by_contra hcon
    obtain ⟨a, ha, _⟩ := h2 k hcon
    simp at ha

theorem CGroup.setStrict_view {g : CGroup V} (hi : g.Inv) (b : Option Bool) :
    (g.setStrict b).2.Inv ∧ (g.setStrict b).2.view = g.view := by
  cases b with
  | none => exact ⟨hi, rfl⟩
  | some b =>
    have hinv : (g.setStrict (some b)).2.Inv := by
      refine ⟨?_, ?_, ?_⟩
      · simpa [CGroup.setStrict] using hi.ne
      · intro c hc
        obtain ⟨d, hd, rfl⟩ := List.mem_map.1 hc
        exact hi.sorted d hd
      · intro i c hc k hk
        simp only [CGroup.setStrict, List.getElem?_map, List.length_map] at hc ⊢
        cases hd : g.collections[i]? with
        | none => rw [hd] at hc; simp at hc
        | some d =>
          rw [hd] at hc; simp at hc; subst hc
          exact hi.routed i d hd k hk
    refine ⟨hinv, ?_⟩
    funext k
    obtain ⟨c, hc⟩ := CGroup.coll_exists hi.ne k
    rw [CGroup.view_eq hc]
    have : (g.setStrict (some b)).2.collections[hashId k % (g.setStrict (some b)).2.collections.length]?
        = some { c with strict := b } := by
      simp only [CGroup.setStrict, List.getElem?_map, List.length_map, hc, Option.map_some]
    rw [CGroup.view_eq this]; rfl

theorem CGroup.gcall_inv {g : CGroup V} (hi : g.Inv) (op : GroupCall V) : (g.gcall op).2.Inv := by
  cases op with
  | setStrict b => exact (CGroup.setStrict_view hi b).1
  | map op =>
    cases op with
    | insert k v => exact (CGroup.insert_step hi k v).1
    | update d => exact CGroup.update_inv hi d
    | pop k d => exact (CGroup.pop_step hi k d).1
    | popitem => exact (CGroup.popitem_step hi).1
    | setdefault k v => exact (CGroup.setdefault_step hi k v).1
    | clear => exact (CGroup.clear_step hi).1

theorem CGroup.run_inv {g : CGroup V} (hi : g.Inv) (ops : List (GroupCall V)) : (g.run ops).2.Inv := by
  induction ops generalizing g with
  | nil => exact hi
  | cons op ops ih => exact ih (CGroup.gcall_inv hi op)

/-- One map call on a group: a capacity error (only if something is strict), popitem's
ValueError, or what the map prescribes. -/
theorem CGroup.call_spec {g : CGroup V} (hi : g.Inv) (op : CollCall V) :
    (((g.call op).1 = .error .groupCapacity ∨ (g.call op).1 = .error .collectionCapacity) ∧
        ∃ c ∈ g.collections, c.strict = true) ∨
    (op = .popitem ∧ g.call op = (.error .valueError, g) ∧
        ∃ c ∈ g.collections, ∀ k, c.get k = none) ∨
    MapStep g.view op (g.call op).1 (g.call op).2.view := by
  cases op with
  | insert k v =>
    rcases (CGroup.insert_step hi k v).2 with h | h
    · left
      refine ⟨?_, h.2.2⟩
      simp only [CGroup.call]
      rcases h.1 with h | h <;> rw [h] <;> simp [Except.map]
    · exact .inr (.inr h)
  | update d =>
    simp only [CGroup.call]
    cases hr : (g.update d).1 with
    | ok u =>
      right; right
      have := CGroup.update_view hi d hr
      rw [this]
      exact .update
    | error e =>
      left
      have hd : g.collections.length ≠ 0 := by
        intro h; exact hi.ne (List.length_eq_zero_iff.1 h)
      unfold CGroup.update at hr
      dsimp only at hr
      split_ifs at hr with h1 h2
      · injection hr with hr; subst hr
        refine ⟨.inl rfl, ?_⟩
        cases hg : g.collections with
        | nil => exact absurd hg hi.ne
        | cons c cs =>
          refine ⟨c, by simp, ?_⟩
          have := h1.2; unfold CGroup.strict at this; rw [hg] at this; simp at this; exact this.1
      · exact absurd h2.1 hd
      · obtain ⟨h1, h2⟩ := updateLoop_error _ _ _ _ hr
        subst h1
        exact ⟨.inr rfl, h2⟩
  | pop k d => exact .inr (.inr (CGroup.pop_step hi k d).2)
  | popitem =>
    rcases (CGroup.popitem_step hi).2 with h | h
    · right; left
      refine ⟨rfl, ?_, h.2⟩
      simp only [CGroup.call]; rw [h.1]; rfl
    · exact .inr (.inr h.1)
  | setdefault k v => exact .inr (.inr (CGroup.setdefault_step hi k v).2)
  | clear =>
    right; right
    show MapStep g.view .clear (.ok .unit) g.clear.view
    rw [(CGroup.clear_step hi).2]; exact .clear

/-- A group built by the constructor from empty collections. -/
theorem CGroup.init_inv {cs : List (Collection V)} {s : Bool} {g : CGroup V}
    (hne : cs ≠ []) (he : ∀ c ∈ cs, c.tree = []) (h : CGroup.init cs s = .ok g) :
    g.Inv ∧ g.view = Map.empty ∧ g.collections = cs.map fun c => { c with strict := s } := by
  unfold CGroup.init at h
  split_ifs at h
  injection h with h; subst h
  have hemp : ∀ c ∈ cs.map (fun c => ({ c with strict := s } : Collection V)), c.tree = [] := by
    intro c hc
    obtain ⟨d, hd, rfl⟩ := List.mem_map.1 hc
    exact he d hd
  have hinv : CGroup.Inv (⟨cs.map fun c => { c with strict := s }⟩ : CGroup V) := by
    refine ⟨by simpa using hne, ?_, ?_⟩
    · intro c hc; unfold Collection.Sorted; rw [hemp c hc]; exact Tree.sorted_nil
    · intro i c hc k hk
      refine absurd ?_ hk
      show Tree.get c.tree k = none
      rw [hemp c (List.mem_of_getElem? hc)]; rfl
  refine ⟨hinv, ?_, rfl⟩
  funext k
  obtain ⟨c, hc⟩ := CGroup.coll_exists hinv.ne k
  rw [CGroup.view_eq hc]
  show Tree.get c.tree k = none
  rw [hemp c (List.mem_of_getElem? hc)]; rfl

end Verif.Storage
