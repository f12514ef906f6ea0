import Verif.Db.Concurrent
import Verif.Lemmas.ContainerCalls

namespace Verif.Db
open Verif.Storage Verif.Spec
variable {V : Type} [DecidableEq V]

theorem mem_changedKeys (base work : Tree String V) (k : String) : k ∈ changedKeys base work ↔ work.get k ≠ base.get k := by
  unfold changedKeys
  rw [List.mem_filter, List.mem_append]
  constructor
  · rintro ⟨_, h⟩; simpa using h
  · intro h
    refine ⟨?_, by simpa using h⟩
    by_contra hn
    rw [not_or] at hn
    rw [(Tree.get_eq_none_iff base k).2 hn.1, (Tree.get_eq_none_iff work k).2 hn.2] at h
    exact h rfl

omit [DecidableEq V] in
theorem get_replayKey (work disk : Tree String V) (k x : String) :
    (replayKey work disk k).get x = if x = k then work.get k else disk.get x := by
  unfold replayKey
  cases h : work.get k with
  | some v => simp only; rw [Tree.get_put]
  | none => simp only; rw [Tree.get_erase]

omit [DecidableEq V] in
theorem sorted_replayKey (work : Tree String V) {disk : Tree String V} (h : Tree.Sorted disk) (k : String) :
    Tree.Sorted (replayKey work disk k) := by
  unfold replayKey
  cases work.get k with
  | some v => exact Tree.sorted_put h k v
  | none => exact Tree.sorted_erase h k

omit [DecidableEq V] in
theorem foldl_replay (work : Tree String V) (ks : List String) : ∀ disk : Tree String V, Tree.Sorted disk →
    Tree.Sorted (ks.foldl (replayKey work) disk) ∧
    ∀ x, (ks.foldl (replayKey work) disk).get x = if x ∈ ks then work.get x else disk.get x := by
  induction ks with
  | nil => intro disk h; exact ⟨h, by simp⟩
  | cons k ks ih =>
    intro disk h
    obtain ⟨h1, h2⟩ := ih _ (sorted_replayKey work h k)
    refine ⟨h1, fun x => ?_⟩
    rw [List.foldl_cons, h2 x, get_replayKey]
    by_cases hx : x = k
    · subst hx; simp
    · simp [hx]

/-- The merge of trees, key by key. -/
theorem mergeTree_spec (base work : Tree String V) {disk : Tree String V} (h : Tree.Sorted disk) :
    (mergeTree base work disk = none ↔ ∃ k, work.get k ≠ base.get k ∧ disk.get k ≠ base.get k) ∧
    ∀ t, mergeTree base work disk = some t →
      Tree.Sorted t ∧ ∀ k, t.get k = if work.get k ≠ base.get k then work.get k else disk.get k := by
  unfold mergeTree
  obtain ⟨h1, h2⟩ := foldl_replay work (changedKeys base work) disk h
  constructor
  · constructor
    · intro hn
      split_ifs at hn with hc
      rw [List.any_eq_true] at hc
      obtain ⟨k, hk, hd⟩ := hc
      exact ⟨k, (mem_changedKeys _ _ _).1 hk, by simpa using hd⟩
    · rintro ⟨k, hk, hd⟩
      rw [if_pos]
      rw [List.any_eq_true]
      exact ⟨k, (mem_changedKeys _ _ _).2 hk, by simpa using hd⟩
  · intro t ht
    split_ifs at ht
    injection ht with ht
    subst ht
    refine ⟨h1, fun k => ?_⟩
    rw [h2 k]
    simp only [mem_changedKeys]

/-- Without concurrent changes the merge gives the session's tree. -/
theorem mergeTree_alone {base work : Tree String V} (hb : Tree.Sorted base) (hw : Tree.Sorted work) : mergeTree base work base = some work := by
  obtain ⟨h1, h2⟩ := mergeTree_spec base work hb
  cases h : mergeTree base work base with
  | none =>
    obtain ⟨k, _, hk⟩ := h1.1 h
    exact absurd rfl hk
  | some t =>
    obtain ⟨h3, h4⟩ := h2 t h
    refine congrArg some (Tree.ext h3 hw fun k => ?_)
    rw [h4 k]
    split_ifs with hc
    · rfl
    · push Not at hc; exact hc.symm

omit [DecidableEq V] in
theorem mapM_option {α β : Type} (f : α → Option β) (l : List α) :
    (l.mapM f = none ↔ ∃ a ∈ l, f a = none) ∧
    ∀ r, l.mapM f = some r → r.length = l.length ∧ ∀ (i : Nat) (a : α), l[i]? = some a → ∃ b, r[i]? = some b ∧ f a = some b := by
  induction l with
  | nil => simp
  | cons a l ih =>
    rw [List.mapM_cons]
    cases hf : f a with
    | none => simp [hf]
    | some b =>
      cases hl : l.mapM f with
      | none =>
        obtain ⟨x, hx, hxn⟩ := ih.1.1 hl
        refine ⟨?_, by simp⟩
        simp only [Option.bind_eq_bind, Option.bind_some, Option.bind_none, true_iff]
        exact ⟨x, List.mem_cons_of_mem _ hx, hxn⟩
      | some r =>
        have hr := ih.2 r hl
        have hn : ¬ ∃ a ∈ l, f a = none := fun h => by rw [ih.1.2 h] at hl; cases hl
        refine ⟨?_, ?_⟩
        · simp only [Option.bind_eq_bind, Option.bind_some, Option.pure_def]
          constructor
          · intro h; cases h
          · rintro ⟨x, hx, hxn⟩
            rcases List.mem_cons.1 hx with rfl | hx
            · rw [hf] at hxn; cases hxn
            · exact absurd ⟨x, hx, hxn⟩ hn
        · intro r' hr'
          simp only [Option.bind_eq_bind, Option.bind_some, Option.pure_def, Option.some.injEq] at hr'
          subst hr'
          refine ⟨by simp [hr.1], ?_⟩
          intro i x hx
          cases i with
          | zero =>
            simp only [List.getElem?_cons_zero, Option.some.injEq] at hx
            subst hx
            exact ⟨b, by simp, hf⟩
          | succ i =>
            simp only [List.getElem?_cons_succ] at hx ⊢
            exact hr.2 i x hx

/-- The merge of collections with the same flag. -/
theorem mergeCollection_spec {base work disk : Collection V} (hb : base.strict = disk.strict) (hw : work.strict = disk.strict)
    (hs : disk.Sorted) :
    (mergeCollection base work disk = none ↔ ∃ k, work.get k ≠ base.get k ∧ disk.get k ≠ base.get k) ∧
    ∀ c, mergeCollection base work disk = some c →
      c.Sorted ∧ c.strict = disk.strict ∧ c.maxSize = disk.maxSize ∧
        ∀ k, c.get k = if work.get k ≠ base.get k then work.get k else disk.get k := by
  obtain ⟨h1, h2⟩ := mergeTree_spec base.tree work.tree hs
  unfold mergeCollection
  rw [hb, hw]
  have hu : mergeUnit disk.strict disk.strict disk.strict = some disk.strict := by unfold mergeUnit; simp
  rw [hu]
  cases h : mergeTree base.tree work.tree disk.tree with
  | none => exact ⟨⟨fun _ => h1.1 h, fun _ => rfl⟩, by simp⟩
  | some t =>
    obtain ⟨h3, h4⟩ := h2 t h
    refine ⟨⟨by simp, fun hk => by rw [h1.2 hk] at h; cases h⟩, ?_⟩
    intro c hc
    simp only [Option.some.injEq] at hc
    subst hc
    exact ⟨h3, rfl, rfl, h4⟩

/-- The merge of groups with the same limits and flags, id by id. -/
theorem mergeGroup_spec {base work disk : CGroup V} (hb : base.Inv) (hw : work.Inv) (hd : disk.Inv)
    (fb : base.flags = disk.flags) (fw : work.flags = disk.flags) :
    (mergeGroup base work disk = none ↔ ∃ id, work.view id ≠ base.view id ∧ disk.view id ≠ base.view id) ∧
    ∀ g, mergeGroup base work disk = some g → g.Inv ∧ g.flags = disk.flags ∧
      ∀ id, g.view id = if work.view id ≠ base.view id then work.view id else disk.view id := by
  have lb : base.collections.length = disk.collections.length := by simpa [CGroup.flags] using congrArg List.length fb
  have lw : work.collections.length = disk.collections.length := by simpa [CGroup.flags] using congrArg List.length fw
  have zip : ∀ (i : Nat) (x : Collection V × Collection V × Collection V),
      (base.collections.zip (work.collections.zip disk.collections))[i]? = some x ↔
      base.collections[i]? = some x.1 ∧ work.collections[i]? = some x.2.1 ∧ disk.collections[i]? = some x.2.2 := by
    intro i x
    rw [List.getElem?_zip_eq_some, List.getElem?_zip_eq_some]
  have same : ∀ {g : CGroup V}, g.flags = disk.flags → ∀ {i : Nat} {x y : Collection V}, g.collections[i]? = some x → disk.collections[i]? = some y →
      x.strict = y.strict := by
    intro g hg i x y hx hy
    have := congrArg (fun l => l[i]?) hg
    simp only [CGroup.flags, List.getElem?_map, hx, hy, Option.map_some, Option.some.injEq, Prod.mk.injEq] at this
    exact this.2
  obtain ⟨m1, m2⟩ := mapM_option (fun p : Collection V × Collection V × Collection V => mergeCollection p.1 p.2.1 p.2.2)
    (base.collections.zip (work.collections.zip disk.collections))
  have cspec : ∀ (i : Nat) (x : Collection V × Collection V × Collection V), (base.collections.zip (work.collections.zip disk.collections))[i]? = some x →
      _ := fun i x hx => mergeCollection_spec (same fb ((zip i x).1 hx).1 ((zip i x).1 hx).2.2) (same fw ((zip i x).1 hx).2.1 ((zip i x).1 hx).2.2)
        (hd.sorted _ (List.mem_of_getElem? ((zip i x).1 hx).2.2))
  have at_ : ∀ id, ∃ x, (base.collections.zip (work.collections.zip disk.collections))[hashId id % disk.collections.length]? = some x ∧
      base.view id = x.1.get id ∧ work.view id = x.2.1.get id ∧ disk.view id = x.2.2.get id := by
    intro id
    obtain ⟨cb, hcb⟩ := CGroup.coll_exists hb.ne id
    obtain ⟨cw, hcw⟩ := CGroup.coll_exists hw.ne id
    obtain ⟨cd, hcd⟩ := CGroup.coll_exists hd.ne id
    refine ⟨(cb, cw, cd), (zip _ _).2 ⟨by rw [← lb]; exact hcb, by rw [← lw]; exact hcw, hcd⟩,
      CGroup.view_eq hcb, CGroup.view_eq hcw, CGroup.view_eq hcd⟩
  have hview : ∀ id, (∃ (i : Nat) (x : Collection V × Collection V × Collection V), (base.collections.zip (work.collections.zip disk.collections))[i]? = some x ∧
      x.2.1.get id ≠ x.1.get id ∧ x.2.2.get id ≠ x.1.get id) → work.view id ≠ base.view id ∧ disk.view id ≠ base.view id := by
    rintro id ⟨i, x, hx, h1, h2⟩
    obtain ⟨y, hy, e1, e2, e3⟩ := at_ id
    obtain ⟨z1, z2, z3⟩ := (zip i x).1 hx
    have hi : hashId id % disk.collections.length = i := by
      by_cases hbn : x.1.get id = none
      · rw [hbn] at h2
        exact hd.routed i _ z3 id h2
      · rw [← lb]; exact hb.routed i _ z1 id hbn
    rw [hi, hx] at hy
    injection hy with hy
    subst hy
    rw [e1, e2, e3]
    exact ⟨h1, h2⟩
  unfold mergeGroup
  cases hm : (base.collections.zip (work.collections.zip disk.collections)).mapM fun p => mergeCollection p.1 p.2.1 p.2.2 with
  | none =>
    refine ⟨⟨fun _ => ?_, fun _ => rfl⟩, by simp⟩
    obtain ⟨x, hx, hn⟩ := m1.1 hm
    obtain ⟨i, hi⟩ := List.mem_iff_getElem?.1 hx
    obtain ⟨k, hk1, hk2⟩ := (cspec i x hi).1.1 hn
    exact ⟨k, hview k ⟨i, x, hi, hk1, hk2⟩⟩
  | some cs =>
    obtain ⟨hl, hcs⟩ := m2 cs hm
    have hlen : cs.length = disk.collections.length := by
      rw [hl, List.length_zip, List.length_zip, lb, lw]; simp
    refine ⟨⟨by simp, ?_⟩, ?_⟩
    · rintro ⟨id, h1, h2⟩
      exfalso
      obtain ⟨y, hy, e1, e2, e3⟩ := at_ id
      obtain ⟨c, _, hc⟩ := hcs _ y hy
      have := (cspec _ y hy).1.2 ⟨id, by rw [← e1, ← e2]; exact h1, by rw [← e1, ← e3]; exact h2⟩
      rw [this] at hc; cases hc
    · intro g hg
      simp only [Option.some.injEq] at hg
      subst hg
      -- every collection of the result is the merge of the three at its index
      have back : ∀ (i : Nat) (c : Collection V), cs[i]? = some c → ∃ x, (base.collections.zip (work.collections.zip disk.collections))[i]? = some x ∧
          mergeCollection x.1 x.2.1 x.2.2 = some c := by
        intro i c hc
        have hlt : i < (base.collections.zip (work.collections.zip disk.collections)).length := by
          rw [← hl]; exact (List.getElem?_eq_some_iff.1 hc).1
        obtain ⟨b, hb', hf⟩ := hcs i _ (List.getElem?_eq_getElem hlt)
        rw [hc] at hb'
        injection hb' with hb'
        subst hb'
        exact ⟨_, List.getElem?_eq_getElem hlt, hf⟩
      have viewEq : ∀ id, (CGroup.mk cs).view id = if work.view id ≠ base.view id then work.view id else disk.view id := by
        intro id
        obtain ⟨y, hy, e1, e2, e3⟩ := at_ id
        obtain ⟨c, hc, hf⟩ := hcs _ y hy
        have hv : (CGroup.mk cs).view id = c.get id := by
          refine CGroup.view_eq ?_
          show cs[hashId id % cs.length]? = some c
          rw [hlen]; exact hc
        rw [hv, e1, e2, e3]
        exact ((cspec _ y hy).2 c hf).2.2.2 id
      refine ⟨⟨?_, ?_, ?_⟩, ?_, viewEq⟩
      · intro h0
        apply hd.ne
        rw [← List.length_eq_zero_iff, ← hlen]
        show (CGroup.mk cs).collections.length = 0
        rw [h0]; rfl
      · intro c hc
        obtain ⟨i, hi⟩ := List.mem_iff_getElem?.1 hc
        obtain ⟨x, hx, hf⟩ := back i c hi
        exact ((cspec i x hx).2 c hf).1
      · intro i c hc k hk
        obtain ⟨x, hx, hf⟩ := back i c hc
        rw [((cspec i x hx).2 c hf).2.2.2 k] at hk
        show hashId k % cs.length = i
        rw [hlen]
        obtain ⟨z1, z2, z3⟩ := (zip i x).1 hx
        split_ifs at hk with hcnd
        · rw [← lw]; exact hw.routed i _ z2 k hk
        · exact hd.routed i _ z3 k hk
      · unfold CGroup.flags
        refine List.ext_getElem? fun i => ?_
        rw [List.getElem?_map, List.getElem?_map]
        cases hc : cs[i]? with
        | none =>
          have : disk.collections[i]? = none := by
            rw [List.getElem?_eq_none_iff] at hc ⊢; omega
          rw [this]
        | some c =>
          obtain ⟨x, hx, hf⟩ := back i c hc
          obtain ⟨z1, z2, z3⟩ := (zip i x).1 hx
          have hsp := (cspec i x hx).2 c hf
          rw [z3]
          simp [hsp.2.1, hsp.2.2.1]

end Verif.Db
