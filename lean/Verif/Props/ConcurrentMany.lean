import Verif.Props.Concurrent

/-!
# Several sessions on a database with several groups (C98)

Containers made by `Container.new` and resized in any way have all objects in their primary group; the other groups may hold old copies.
-/
namespace Verif.Props
open Verif Verif.Storage Verif.Spec Verif.Db
variable {V : Type}

/-! ### Proofs: containers in use -/

/-- What the sessions of a database have in common: the addresses of the groups, the number of addresses, limits and flags, the copies that the
groups but the primary one had at first, and the groups no longer in use. -/
structure ShapeN (V : Type) where
  p : Nat
  rest : List Nat
  next : Nat
  fl : Nat → List (Nat × Bool)
  orig : Nat → Map V
  other : Nat → CGroup V

/-- A container with all objects in its primary group, not strict, holding `m`. -/
structure Many (f : ShapeN V) (c : Container V) (m : Map V) : Prop where
  groups : c.groups = f.p :: f.rest
  primary : c.primary = f.p
  next : c.next = f.next
  fresh : ∀ a ∈ f.p :: f.rest, a < f.next
  nodup : (f.p :: f.rest).Nodup
  inv : ∀ a ∈ f.p :: f.rest, (c.heap a).Inv
  flags : ∀ a ∈ f.p :: f.rest, (c.heap a).flags = f.fl a
  non : (c.heap f.p).NonStrict
  view : (c.heap f.p).view = m
  chain : (f.p :: f.rest).Pairwise fun a b => ∀ k, (c.heap b).view k ≠ none → (c.heap a).view k ≠ none
  old : ∀ a ∈ f.rest, ∀ k, (c.heap a).view k = none ∨ (c.heap a).view k = f.orig a k
  other : ∀ a, a ∉ f.p :: f.rest → c.heap a = f.other a

/-- The old copies in `x` are among those in `y`. -/
def Below (f : ShapeN V) (x y : Container V) : Prop := ∀ a ∈ f.rest, ∀ k, (x.heap a).view k ≠ none → (y.heap a).view k ≠ none

theorem Below.refl (f : ShapeN V) (x : Container V) : Below f x x := fun _ _ _ h => h

theorem Below.trans {f : ShapeN V} {x y z : Container V} (h1 : Below f x y) (h2 : Below f y z) : Below f x z :=
  fun a ha k h => h2 a ha k (h1 a ha k h)

theorem Many.cinv {f : ShapeN V} {c : Container V} {m : Map V} (h : Many f c m) : c.Inv := by
  refine ⟨?_, ?_, ?_, ?_, ?_⟩
  · intro a ha; rw [h.groups] at ha; exact h.inv a ha
  · rw [h.primary]; exact h.inv _ List.mem_cons_self
  · intro a ha; rw [h.groups] at ha; rw [h.next]; exact h.fresh a ha
  · rw [h.primary, h.next]; exact h.fresh _ List.mem_cons_self
  · rw [h.groups]; exact h.nodup

theorem Many.tail_none {f : ShapeN V} {c : Container V} {m : Map V} (h : Many f c m) {id : String} (hm : m id = none) {a : Nat} (ha : a ∈ f.rest) :
    (c.heap a).view id = none := by
  by_contra hn
  exact (List.pairwise_cons.1 h.chain).1 a ha id hn (by rw [h.view]; exact hm)

theorem Many.first {f : ShapeN V} {c : Container V} {m : Map V} (h : Many f c m) (id : String) : c.first id = m id := by
  unfold Container.first Container.view
  rw [h.groups, List.findSome?_cons, h.view]
  cases hm : m id with
  | some v => rfl
  | none =>
    show (f.rest.findSome? fun a => (c.heap a).view id) = none
    rw [List.findSome?_eq_none_iff]
    intro a ha
    exact h.tail_none hm ha

theorem Many.read [Truthy V] (hV : AllTruthy V) {f : ShapeN V} {c : Container V} {m : Map V} (h : Many f c m) (id : String) :
    c.read id = .ok (m id) := by
  rw [Container.read_first h.cinv id fun _ _ v _ => hV v, h.first]

theorem Many.has {f : ShapeN V} {c : Container V} {m : Map V} (h : Many f c m) (id : String) :
    ∃ n, c.has id = .ok n ∧ (n = 0 ↔ m id = none) := by
  refine ⟨_, Container.has_eq h.cinv id, ?_⟩
  rw [List.countP_eq_zero, h.groups]
  constructor
  · intro hn
    have := hn f.p List.mem_cons_self
    simpa [Container.view, h.view] using this
  · intro hm a ha
    rcases List.mem_cons.1 ha with rfl | ha
    · simp [Container.view, h.view, hm]
    · simp [Container.view, h.tail_none hm ha]

theorem Many.rest_ne {f : ShapeN V} {c : Container V} {m : Map V} (h : Many f c m) {a : Nat} (ha : a ∈ f.rest) : a ≠ f.p := by
  rintro rfl
  exact (List.nodup_cons.1 h.nodup).1 ha

theorem Many.put {f : ShapeN V} {c : Container V} {m m' : Map V} (h : Many f c m) {g : CGroup V} (hi : g.Inv)
    (hf : g.flags = (c.heap f.p).flags) (hv : g.view = m') (hsup : ∀ k, m k ≠ none → m' k ≠ none) :
    Many f (c.put f.p g) m' ∧ ∀ a ∈ f.rest, (c.put f.p g).heap a = c.heap a := by
  have hself := Container.heap_put_self c f.p g
  have hrest : ∀ a ∈ f.rest, (c.put f.p g).heap a = c.heap a := fun a ha => Container.heap_put_ne _ _ (h.rest_ne ha)
  refine ⟨⟨h.groups, h.primary, h.next, h.fresh, h.nodup, ?_, ?_, ?_, by rw [hself]; exact hv, ?_, ?_, ?_⟩, hrest⟩
  · intro a ha
    rcases List.mem_cons.1 ha with rfl | ha
    · rw [hself]; exact hi
    · rw [hrest a ha]; exact h.inv a (List.mem_cons_of_mem _ ha)
  · intro a ha
    rcases List.mem_cons.1 ha with rfl | ha
    · rw [hself, hf]; exact h.flags _ List.mem_cons_self
    · rw [hrest a ha]; exact h.flags a (List.mem_cons_of_mem _ ha)
  · rw [hself, CGroup.nonStrict_flags, hf, ← CGroup.nonStrict_flags]; exact h.non
  · have hc := List.pairwise_cons.1 h.chain
    refine List.pairwise_cons.2 ⟨fun b hb k hk => ?_, hc.2.imp_of_mem fun {a b} ha hb hab k hk => ?_⟩
    · rw [hself, hv]
      rw [hrest b hb] at hk
      exact hsup k (by rw [← h.view]; exact hc.1 b hb k hk)
    · rw [hrest a ha]; rw [hrest b hb] at hk; exact hab k hk
  · intro a ha k; rw [hrest a ha]; exact h.old a ha k
  · intro a ha
    rw [Container.heap_put_ne _ _ (fun e => ha (by rw [e]; exact List.mem_cons_self))]; exact h.other a ha

theorem Many.write {f : ShapeN V} {c : Container V} {m : Map V} (h : Many f c m) (id : String) (obj : V) :
    (c.write id obj).1 = .ok (if m id = none then some 1 else none) ∧ Many f (c.write id obj).2 (m.set id obj) ∧
    ∀ a ∈ f.rest, (c.write id obj).2.heap a = c.heap a := by
  have hp := h.cinv.pinv
  rcases Container.write_spec hp id obj with ⟨e, -, -, hn⟩ | ⟨g, hw, hg, hf, hv⟩
  · rw [h.primary] at hn; exact absurd h.non hn
  · rw [hw]
    simp only [Container.view, h.primary, h.view] at hv hf ⊢
    refine ⟨trivial, h.put hg hf hv fun k hk => ?_⟩
    unfold Map.set
    split_ifs
    · simp
    · exact hk

theorem Many.delete {f : ShapeN V} {c : Container V} {m : Map V} (h : Many f c m) (id : String) :
    (∃ vs, (c.delete id).1 = .ok vs ∧ vs.head? = m id) ∧ Many f (c.delete id).2 (m.remove id) ∧ Below f (c.delete id).2 c := by
  obtain ⟨hr, hd⟩ := Container.delete_spec h.cinv id
  have hfirst : c.HoldersFirst id c.groups := by
    unfold Container.HoldersFirst Container.view
    rw [h.groups]
    exact h.chain.imp fun hab => hab id
  rcases hd with ⟨-, h1, h2⟩ | ⟨hn, -⟩
  · have hview : ∀ a ∈ f.p :: f.rest, ∀ x, ((c.delete id).2.heap a).view x = if x = id then none else (c.heap a).view x := by
      intro a ha x
      by_cases hx : x = id
      · rw [if_pos hx, hx]; exact h2 a (by rw [h.groups]; exact ha)
      · rw [if_neg hx]; exact hr.frame a (h.inv a ha) x hx
    refine ⟨⟨_, h1, ?_⟩, ?_, ?_⟩
    · rw [List.head?_filterMap, ← h.first id]; rfl
    · refine ⟨by rw [hr.groups]; exact h.groups, by rw [hr.primary]; exact h.primary, by rw [hr.next]; exact h.next, h.fresh, h.nodup,
        fun a ha => hr.inv _ (h.inv a ha), fun a ha => by rw [hr.flags]; exact h.flags a ha, ?_, ?_, ?_, ?_, ?_⟩
      · rw [CGroup.nonStrict_flags, hr.flags, ← CGroup.nonStrict_flags]; exact h.non
      · funext x
        rw [hview _ List.mem_cons_self, h.view]; rfl
      · refine h.chain.imp_of_mem fun {a b} ha hb hab k hk => ?_
        rw [hview b hb] at hk
        rw [hview a ha]
        split_ifs at hk ⊢ with hkid
        · exact hk
        · exact hab k hk
      · intro a ha k
        rw [hview a (List.mem_cons_of_mem _ ha)]
        split_ifs
        · exact .inl rfl
        · exact h.old a ha k
      · intro a ha
        rw [hr.outside a (by rw [h.groups]; exact ha)]
        exact h.other a ha
    · intro a ha k hk
      rw [hview a (List.mem_cons_of_mem _ ha)] at hk
      split_ifs at hk
      · exact absurd rfl hk
      · exact hk
  · exact absurd hfirst hn

/-- A call on such a container is the call on the map. -/
theorem Many.fn [Truthy V] (hV : AllTruthy V) {f : ShapeN V} {c : Container V} {m : Map V} (h : Many f c m) (op : DbOp V)
    (hop : op ≠ .strict (some true)) :
    m.Answers op (op.fn c).1 ∧ Many f (op.fn c).2 ((m.apply op).getD m) ∧ (m.apply op = none ↔ ∃ e, (op.fn c).1 = .error e) ∧
    Below f (op.fn c).2 c ∧ (¬ Deletes op → ∀ a ∈ f.rest, (op.fn c).2.heap a = c.heap a) := by
  have below : ∀ {c' : Container V}, (∀ a ∈ f.rest, c'.heap a = c.heap a) → Below f c' c := by
    intro c' he a ha k hk; rw [he a ha] at hk; exact hk
  cases op with
  | create id obj =>
    obtain ⟨n, hn, hz⟩ := h.has id
    by_cases hm : m id = none
    · obtain ⟨h1, h2, h3⟩ := h.write id obj
      simp only [hm, if_true] at h1
      have n0 := hz.2 hm
      subst n0
      have hfn : createFn id obj c = ((c.write id obj).1.map .count, (c.write id obj).2) := by
        unfold createFn; rw [hn]
      have hfn1 : (createFn id obj c).1 = .ok (.count (some 1)) := by rw [hfn, h1]; rfl
      have hfn2 : (createFn id obj c).2 = (c.write id obj).2 := by rw [hfn]
      refine ⟨?_, ?_, ?_, ?_, fun _ => ?_⟩
      · show (createFn id obj c).1 = _
        rw [hfn1, if_pos hm]
      · show Many f (createFn id obj c).2 _
        rw [hfn2]; simp only [Map.apply, hm, if_true, Option.getD_some]; exact h2
      · show _ ↔ ∃ e, (createFn id obj c).1 = .error e
        rw [hfn1]; simp [Map.apply, hm]
      · show Below f (createFn id obj c).2 c
        rw [hfn2]; exact below h3
      · show ∀ a ∈ f.rest, (createFn id obj c).2.heap a = _
        rw [hfn2]; exact h3
    · obtain ⟨k, rfl⟩ := Nat.exists_eq_succ_of_ne_zero fun e => hm (hz.1 e)
      have hfn : createFn id obj c = (.error .objectOverwrite, c) := by unfold createFn; rw [hn]
      refine ⟨?_, ?_, ?_, ?_, fun _ => ?_⟩
      · show (createFn id obj c).1 = _
        rw [hfn, if_neg hm]
      · show Many f (createFn id obj c).2 _
        rw [hfn]; simp only [Map.apply, hm, if_false, Option.getD_none]; exact h
      · show _ ↔ ∃ e, (createFn id obj c).1 = .error e
        rw [hfn]; simp [Map.apply, hm]
      · show Below f (createFn id obj c).2 c
        rw [hfn]; exact Below.refl f c
      · show ∀ a ∈ f.rest, (createFn id obj c).2.heap a = _
        rw [hfn]; exact fun _ _ => rfl
  | update id obj =>
    obtain ⟨h1, h2, h3⟩ := h.write id obj
    have h4 : updateFn id obj c = (.ok (.prev (m id)), (c.write id obj).2) := by
      unfold updateFn; rw [h.read hV]; simp only; rw [h1]; rfl
    refine ⟨?_, ?_, ?_, ?_, fun _ => ?_⟩
    · show (updateFn id obj c).1 = _
      rw [h4]
    · show Many f (updateFn id obj c).2 _
      rw [h4]; exact h2
    · show _ ↔ ∃ e, (updateFn id obj c).1 = .error e
      rw [h4]; simp [Map.apply]
    · show Below f (updateFn id obj c).2 c
      rw [h4]; exact below h3
    · show ∀ a ∈ f.rest, (updateFn id obj c).2.heap a = _
      rw [h4]; exact h3
  | delete id =>
    obtain ⟨⟨vs, h1, h2⟩, h3, h5⟩ := h.delete id
    have h4 : (deleteFn id c).1 = .ok (.objs vs) := by unfold deleteFn; simp only; rw [h1]; rfl
    refine ⟨⟨vs, h4, h2⟩, h3, ?_, h5, fun hn => absurd trivial hn⟩
    show _ ↔ ∃ e, (deleteFn id c).1 = .error e
    rw [h4]; simp [Map.apply]
  | strict value =>
    cases value with
    | none => exact ⟨rfl, h, by simp [Map.apply, DbOp.fn, strictFn], Below.refl f c, fun _ _ _ => rfl⟩
    | some b =>
      cases b with
      | true => exact absurd rfl hop
      | false =>
        have h1 : (strictFn (some false) c).1 = .ok .unit := rfl
        have hs : ((c.heap f.p).setStrict (some false)).2.flags = (c.heap f.p).flags := by
          unfold CGroup.setStrict CGroup.flags
          simp only [List.map_map]
          refine List.map_congr_left fun x hx => ?_
          simp [h.non x hx]
        obtain ⟨i1, i2⟩ := CGroup.setStrict_view (h.inv _ List.mem_cons_self) (some false)
        have := h.put i1 hs (i2.trans h.view) fun _ hk => hk
        have he : (strictFn (some false) c).2 = c.put f.p ((c.heap f.p).setStrict (some false)).2 := by
          show c.put c.primary ((c.heap c.primary).setStrict (some false)).2 = _
          rw [h.primary]
        refine ⟨h1, ?_, ?_, ?_, fun _ => ?_⟩
        · show Many f (strictFn (some false) c).2 m
          rw [he]; exact this.1
        · show _ ↔ ∃ e, (strictFn (some false) c).1 = .error e
          rw [h1]; simp [Map.apply]
        · show Below f (strictFn (some false) c).2 c
          rw [he]; exact below this.2
        · show ∀ a ∈ f.rest, (strictFn (some false) c).2.heap a = _
          rw [he]; exact this.2

section
variable [DecidableEq V]

/-- The merge of such containers is the merge of maps; it can fail for old copies that both have deleted. -/
theorem Many.merge {f : ShapeN V} {b w d : Container V} {mb mw md : Map V} (hb : Many f b mb) (hw : Many f w mw) (hd : Many f d md)
    (bw : Below f w b) (bd : Below f d b) :
    (∀ c, Db.merge b w d = some c → Snap.NoConflict mb mw md ∧ Many f c (Snap.overlay mb mw md) ∧ Below f c d) ∧
    (Db.merge b w d = none → Snap.NoConflict mb mw md → ∃ a ∈ f.rest, w.heap a ≠ b.heap a ∧ d.heap a ≠ b.heap a) := by
  have spec : ∀ a ∈ f.p :: f.rest, _ := fun a ha => mergeGroup_spec (hb.inv a ha) (hw.inv a ha) (hd.inv a ha)
    ((hb.flags a ha).trans (hd.flags a ha).symm) ((hw.flags a ha).trans (hd.flags a ha).symm)
  have lt : ∀ a ∈ f.p :: f.rest, a < b.next := fun a ha => by rw [hb.next]; exact hb.fresh a ha
  have hc : (¬ Snap.NoConflict mb mw md) ↔ ∃ id, mw id ≠ mb id ∧ md id ≠ mb id := by
    unfold Snap.NoConflict; push Not; rfl
  have hrec : mergeUnit (record b) (record w) (record d) = some (f.p :: f.rest, f.p, f.next) := by
    have h : ∀ {c m}, Many f c m → record c = (f.p :: f.rest, f.p, f.next) := fun h => by
      unfold record; rw [h.groups, h.primary, h.next]
    rw [h hb, h hw, h hd]; unfold mergeUnit; simp
  unfold Db.merge
  rw [hrec]
  simp only
  by_cases hany : ((List.range b.next).any fun a => (mergeGroup (b.heap a) (w.heap a) (d.heap a)).isNone) = true
  · rw [if_pos hany]
    refine ⟨by simp, fun _ hn => ?_⟩
    rw [List.any_eq_true] at hany
    obtain ⟨a, -, ha⟩ := hany
    rw [Option.isNone_iff_eq_none] at ha
    by_cases hin : a ∈ f.p :: f.rest
    · obtain ⟨id, e1, e2⟩ := (spec a hin).1.1 ha
      rcases List.mem_cons.1 hin with rfl | hin
      · rw [hb.view, hw.view] at e1
        rw [hb.view, hd.view] at e2
        exact absurd hn (hc.2 ⟨id, e1, e2⟩)
      · exact ⟨a, hin, fun e => e1 (by rw [e]), fun e => e2 (by rw [e])⟩
    · rw [hb.other a hin, hw.other a hin, hd.other a hin, mergeGroup_self] at ha; cases ha
  · rw [if_neg hany]
    refine ⟨fun c h => ?_, by simp⟩
    injection h with h
    have noNone : ∀ a < b.next, ∃ g, mergeGroup (b.heap a) (w.heap a) (d.heap a) = some g := by
      intro a ha
      cases hm : mergeGroup (b.heap a) (w.heap a) (d.heap a) with
      | some g => exact ⟨g, rfl⟩
      | none => exact absurd (List.any_eq_true.2 ⟨a, List.mem_range.2 ha, by rw [hm]; rfl⟩) hany
    have hheap : ∀ a ∈ f.p :: f.rest, (c.heap a).Inv ∧ (c.heap a).flags = (d.heap a).flags ∧
        ∀ id, (c.heap a).view id = if (w.heap a).view id ≠ (b.heap a).view id then (w.heap a).view id else (d.heap a).view id := by
      intro a ha
      obtain ⟨g, hg⟩ := noNone a (lt a ha)
      have hat : c.heap a = g := by
        rw [← h]
        show mergeAt b w d a = g
        unfold mergeAt
        rw [if_pos (lt a ha), hg]; rfl
      rw [hat]
      exact (spec a ha).2 g hg
    have hno : Snap.NoConflict mb mw md := by
      by_contra hbad
      obtain ⟨g, hg⟩ := noNone f.p (lt _ List.mem_cons_self)
      have := (spec f.p List.mem_cons_self).1.2 (by rw [hb.view, hw.view, hd.view]; exact hc.1 hbad)
      rw [this] at hg; cases hg
    -- an old copy is in the merge exactly if both have it
    have both : ∀ a ∈ f.rest, ∀ k, (c.heap a).view k = (if (w.heap a).view k = none then none else (d.heap a).view k) := by
      intro a ha k
      rw [(hheap a (List.mem_cons_of_mem _ ha)).2.2 k]
      by_cases hwn : (w.heap a).view k = none
      · rw [if_pos hwn, hwn]
        split_ifs with he
        · rfl
        · by_contra hdn
          push Not at he
          exact bd a ha k hdn he.symm
      · rw [if_neg hwn]
        have e1 := (hw.old a ha k).resolve_left hwn
        have e2 := (hb.old a ha k).resolve_left (bw a ha k hwn)
        rw [e1, e2]; simp
    have cview : (c.heap f.p).view = Snap.overlay mb mw md := by
      funext id
      rw [(hheap f.p List.mem_cons_self).2.2 id, hb.view, hw.view, hd.view]
      unfold Snap.overlay
      by_cases hne : mw id ≠ mb id
      · rw [if_pos hne, if_pos hne]
      · rw [if_neg hne, if_neg hne]
    refine ⟨hno, ⟨by rw [← h], by rw [← h], by rw [← h], hb.fresh, hb.nodup, fun a ha => (hheap a ha).1,
      fun a ha => (hheap a ha).2.1.trans (hd.flags a ha), ?_, cview, ?_, ?_, ?_⟩, ?_⟩
    · rw [CGroup.nonStrict_flags, (hheap f.p List.mem_cons_self).2.1, ← CGroup.nonStrict_flags]; exact hd.non
    · have hcw := List.pairwise_cons.1 hw.chain
      have hcd := List.pairwise_cons.1 hd.chain
      refine List.pairwise_cons.2 ⟨fun x hx k hk => ?_, ?_⟩
      · rw [both x hx] at hk
        split_ifs at hk with hwn
        · exact absurd rfl hk
        · rw [(hheap f.p List.mem_cons_self).2.2 k]
          split_ifs
          · exact hcw.1 x hx k hwn
          · exact hcd.1 x hx k hk
      · refine (hcw.2.and hcd.2).imp_of_mem fun {x y} hx hy hxy k hk => ?_
        rw [both y hy] at hk
        split_ifs at hk with hwn
        · exact absurd rfl hk
        · rw [both x hx, if_neg (hxy.1 k hwn)]
          exact hxy.2 k hk
    · intro a ha k
      rw [both a ha]
      split_ifs
      · exact .inl rfl
      · exact hd.old a ha k
    · intro a ha
      rw [← h]
      show mergeAt b w d a = f.other a
      unfold mergeAt
      rw [hb.other a ha, hw.other a ha, hd.other a ha]
      have hr : record w = record b := by
        unfold record; rw [hb.groups, hb.primary, hb.next, hw.groups, hw.primary, hw.next]
      rw [if_pos hr]
      split_ifs
      · rw [mergeGroup_self]; rfl
      · rfl
    · intro a ha k hk
      rw [both a ha] at hk
      split_ifs at hk
      · exact absurd rfl hk
      · exact hk

/-! ### The shared map -/

/-- The sessions and the shared map hold the same. -/
structure SameMany (f : ShapeN V) (w : Shared V) (s : Snap V) : Prop where
  disk : Many f w.disk s.disk
  base : ∀ i, Many f (w.sess i).base (s.tx i).base
  work : ∀ i, Many f (w.sess i).work (s.tx i).mem
  broken : ∀ i, (w.sess i).failed = (s.tx i).broken
  below : ∀ i, Below f (w.sess i).work (w.sess i).base ∧ Below f w.disk (w.sess i).base

omit [DecidableEq V] in
theorem SameMany.set {f : ShapeN V} {w : Shared V} {s : Snap V} (h : SameMany f w s) (i : Nat) {x : Sess V} {t : Tx V}
    (h1 : Many f x.base t.base) (h2 : Many f x.work t.mem) (h3 : x.failed = t.broken) (h4 : Below f x.work x.base ∧ Below f w.disk x.base) :
    SameMany f (w.setSess i x) (s.setTx i t) := by
  refine ⟨h.disk, fun j => ?_, fun j => ?_, fun j => ?_, fun j => ?_⟩
  all_goals
    unfold Shared.setSess
    by_cases hj : j = i
    · subst hj; simp only [Snap.setTx, Function.update_self]; assumption
    · simp only [Snap.setTx, Function.update_of_ne hj]
      first | exact h.base j | exact h.work j | exact h.broken j | exact h.below j

theorem commit_refused {w : Shared V} {i : Nat} {ok : Bool} (hf : (w.sess i).failed = false)
    (h : ok = false ∨ Db.merge (w.sess i).base (w.sess i).work w.disk = none) :
    w.commit i ok = (.error .storageError, w.setSess i { base := (w.sess i).base, work := (w.sess i).base, failed := true }) := by
  unfold Shared.commit
  rw [hf]
  simp only [Bool.false_eq_true, if_false]
  rcases h with rfl | h
  · rfl
  · rw [h]; cases ok <;> rfl

theorem commit_accepted {w : Shared V} {i : Nat} {c : Container V} (hf : (w.sess i).failed = false)
    (h : Db.merge (w.sess i).base (w.sess i).work w.disk = some c) :
    w.commit i true = (.ok (), { disk := c, sess := Function.update w.sess i (.fresh c) }) := by
  unfold Shared.commit
  rw [hf, h]
  rfl

theorem SameMany.move [Truthy V] (hV : AllTruthy V) {f : ShapeN V} {w : Shared V} {s : Snap V} (h : SameMany f w s) (i : Nat) (m : Move V)
    (hm : LenientMove m) : ∃ m', Refused m m' ∧ (m' ≠ m → ∃ a ∈ f.rest, (w.sess i).work.heap a ≠ (w.sess i).base.heap a ∧
      w.disk.heap a ≠ (w.sess i).base.heap a) ∧ s.Answers i m' (w.move i m).1 ∧ SameMany f (w.move i m).2 (s.move i m') := by
  have fresh : SameMany f (w.setSess i (.fresh w.disk)) (s.setTx i ⟨s.disk, s.disk, false⟩) :=
    h.set i h.disk h.disk rfl ⟨Below.refl f _, Below.refl f _⟩
  cases m with
  | begin => exact ⟨_, .inl rfl, fun hn => absurd rfl hn, rfl, fresh⟩
  | abort => exact ⟨_, .inl rfl, fun hn => absurd rfl hn, rfl, fresh⟩
  | resize n mc cd t => exact hm.elim
  | run op =>
    have hop : op ≠ .strict (some true) := by rintro rfl; exact hm
    refine ⟨_, .inl rfl, fun hn => absurd rfl hn, ?_⟩
    show (if (s.tx i).broken then _ else _) ∧ SameMany f (w.run i op).2 (if (s.tx i).broken then _ else _)
    unfold Shared.move Shared.run
    simp only
    rw [h.broken i]
    cases hb : (s.tx i).broken with
    | true => exact ⟨rfl, h⟩
    | false =>
      obtain ⟨f1, f2, -, f4, -⟩ := (h.work i).fn hV op hop
      refine ⟨f1, ?_⟩
      exact h.set i (h.base i) f2 rfl ⟨f4.trans (h.below i).1, (h.below i).2⟩
  | commit ok =>
    obtain ⟨m1, m2⟩ := (h.base i).merge (h.work i) h.disk (h.below i).1 (h.below i).2
    have hfail : SameMany f (w.setSess i { base := (w.sess i).base, work := (w.sess i).base, failed := true })
        (s.setTx i ⟨(s.tx i).base, (s.tx i).base, true⟩) := h.set i (h.base i) (h.base i) rfl ⟨Below.refl f _, (h.below i).2⟩
    cases hb : (s.tx i).broken with
    | true =>
      refine ⟨_, .inl rfl, fun hn => absurd rfl hn, ?_⟩
      show (if (s.tx i).broken then _ else _) ∧ SameMany f (w.commit i ok).2 (if (s.tx i).broken then _ else _)
      unfold Shared.move Shared.commit
      simp only
      rw [h.broken i, hb]
      exact ⟨rfl, h⟩
    | false =>
      have hwf : (w.sess i).failed = false := by rw [h.broken i, hb]
      -- a commit that is refused
      have refuse : ∀ ok', ¬ s.Commits i ok' → w.commit i ok = (.error .storageError, w.setSess i { base := (w.sess i).base, work := (w.sess i).base, failed := true }) →
          s.Answers i (.commit ok') (w.move i (.commit ok)).1 ∧ SameMany f (w.move i (.commit ok)).2 (s.move i (.commit ok')) := by
        intro ok' hn hc
        show (if (s.tx i).broken then _ else _) ∧ SameMany f (w.commit i ok).2 (if (s.tx i).broken then _ else _)
        unfold Shared.move
        simp only [hb, Bool.false_eq_true, if_false]
        rw [if_neg hn, if_neg hn, hc]
        exact ⟨rfl, hfail⟩
      cases ok with
      | false =>
        exact ⟨_, .inl rfl, fun hn => absurd rfl hn, refuse false (fun hc => by cases hc.2.1) (commit_refused hwf (.inl rfl))⟩
      | true =>
        cases hg : Db.merge (w.sess i).base (w.sess i).work w.disk with
        | none =>
          have hcommit := commit_refused (ok := true) hwf (.inr hg)
          by_cases hno : Snap.NoConflict (s.tx i).base (s.tx i).mem s.disk
          · exact ⟨.commit false, .inr ⟨true, rfl, rfl⟩, fun _ => m2 hg hno, refuse false (fun hc => by cases hc.2.1) hcommit⟩
          · exact ⟨_, .inl rfl, fun hn => absurd rfl hn, refuse true (fun hc => hno hc.2.2) hcommit⟩
        | some c =>
          have hcommit := commit_accepted hwf hg
          obtain ⟨n1, n2, n3⟩ := m1 c hg
          refine ⟨_, .inl rfl, fun hn => absurd rfl hn, ?_⟩
          have hcm : s.Commits i true := ⟨hb, rfl, n1⟩
          show (if (s.tx i).broken then _ else _) ∧ SameMany f (w.commit i true).2 (if (s.tx i).broken then _ else _)
          unfold Shared.move
          simp only [hb, Bool.false_eq_true, if_false]
          rw [if_pos hcm, if_pos hcm, hcommit]
          refine ⟨rfl, n2, fun j => ?_, fun j => ?_, fun j => ?_, fun j => ?_⟩
          all_goals
            by_cases hj : j = i
            · subst hj; simp only [Function.update_self, Sess.fresh]
              try first | exact n2 | exact ⟨Below.refl f _, Below.refl f _⟩
            · simp only [Function.update_of_ne hj]
              first | exact h.base j | exact h.work j | exact h.broken j | exact ⟨(h.below j).1, n3.trans (h.below j).2⟩

/-- Moves that are not commits. -/
theorem SameMany.plain [Truthy V] (hV : AllTruthy V) {f : ShapeN V} {w : Shared V} {s : Snap V} (h : SameMany f w s) (i : Nat) (m : Move V)
    (hm : LenientMove m) (hc : ∀ ok, m ≠ .commit ok) : s.Answers i m (w.move i m).1 ∧ SameMany f (w.move i m).2 (s.move i m) := by
  obtain ⟨m', h1, -, h2⟩ := h.move hV i m hm
  rcases h1 with rfl | ⟨ok, h1, -⟩
  · exact h2
  · exact absurd h1 (hc ok)

theorem SameMany.commit [Truthy V] (hV : AllTruthy V) {f : ShapeN V} {w : Shared V} {s : Snap V} (h : SameMany f w s) (i : Nat) (ok : Bool) :
    ∃ ok', (ok' ≠ ok → ∃ a ∈ f.rest, (w.sess i).work.heap a ≠ (w.sess i).base.heap a ∧ w.disk.heap a ≠ (w.sess i).base.heap a) ∧
      (ok' = true → ok = true) ∧
      s.Answers i (.commit ok') (w.move i (.commit ok)).1 ∧ SameMany f (w.move i (.commit ok)).2 (s.move i (.commit ok')) := by
  obtain ⟨m', h1, h2, h3⟩ := h.move hV i (.commit ok) trivial
  rcases h1 with rfl | ⟨ok', -, rfl⟩
  · exact ⟨ok, fun hn => absurd rfl hn, id, h3⟩
  · refine ⟨false, fun hn => h2 fun e => ?_, (fun e => by cases e), h3⟩
    injection e with e; exact hn e

omit [DecidableEq V] in
/-- A container in use. -/
theorem many_of_inUse {c : Container V} {m : Map V} (h : InUse c m) : ∃ f, Many f c m := by
  obtain ⟨hh, hn⟩ := h.hist
  have hi := hh.reach.inv
  have he := hh.head.eq
  refine ⟨⟨c.primary, c.groups.tail, c.next, fun a => (c.heap a).flags, fun a => (c.heap a).view, c.heap⟩, he, rfl, rfl, ?_, ?_, ?_, fun _ _ => rfl, hn,
    hh.shows, ?_, fun _ _ _ => .inr rfl, fun _ _ => rfl⟩
  · rw [← he]; exact hi.fresh
  · rw [← he]; exact hi.nodup
  · rw [← he]; exact hi.inv
  · rw [← he]; exact hh.chain

/-! ### Specification -/

/-- What the sessions show and what is stored is what the shared map says. -/
structure ManyShows [Truthy V] (w : Shared V) (s : Snap V) : Prop where
  read : ∀ i id, w.read i id = .ok ((s.tx i).mem id)
  stored : ∀ id, w.disk.read id = .ok (s.disk id)

/-- At every step of the schedule the database shows what the shared map says and answers as it does; but with several groups the storage may refuse
a commit that the shared map would accept. -/
def Simulates [Truthy V] : List (Nat × Move V) → Shared V → Snap V → Prop
  | [], w, s => ManyShows w s
  | (i, m) :: ms, w, s => ManyShows w s ∧ ∃ m', Refused m m' ∧ (m' ≠ m → 1 < w.disk.groups.length) ∧
      s.Answers i m' (w.move i m).1 ∧ Simulates ms (w.move i m).2 (s.move i m')

omit [DecidableEq V] in
theorem SameMany.shows [Truthy V] (hV : AllTruthy V) {f : ShapeN V} {w : Shared V} {s : Snap V} (h : SameMany f w s) : ManyShows w s :=
  ⟨fun i id => (h.work i).read hV id, fun id => h.disk.read hV id⟩

theorem SameMany.simulates [Truthy V] (hV : AllTruthy V) {f : ShapeN V} (ms : List (Nat × Move V)) : ∀ {w : Shared V} {s : Snap V},
    SameMany f w s → (∀ x ∈ ms, LenientMove x.2) → Simulates ms w s := by
  induction ms with
  | nil => intro w s h _; exact h.shows hV
  | cons x ms ih =>
    intro w s h hm
    obtain ⟨m', h1, h2, h3, h4⟩ := h.move hV x.1 x.2 (hm x List.mem_cons_self)
    refine ⟨h.shows hV, m', h1, fun hne => ?_, h3, ih h4 fun y hy => hm y (List.mem_cons_of_mem _ hy)⟩
    obtain ⟨a, ha, -⟩ := h2 hne
    rw [h.disk.groups, List.length_cons]
    have := List.length_pos_of_mem ha
    omega

/-- Like `Refused`, for schedules. -/
def RefusedAll (ms ms' : List (Nat × Move V)) : Prop := List.Forall₂ (fun x y => y.1 = x.1 ∧ Refused x.2 y.2) ms ms'

omit [DecidableEq V] in
theorem RefusedAll.own {ms ms' : List (Nat × Move V)} (h : RefusedAll ms ms') (i : Nat) : ownOps i ms' = ownOps i ms := by
  induction h with
  | nil => rfl
  | @cons x y ms ms' hxy h ih =>
    rcases x with ⟨j, m⟩
    rcases y with ⟨k, m'⟩
    obtain ⟨e, hr⟩ := hxy
    simp only at e hr
    subst e
    rcases hr with rfl | ⟨ok, rfl, rfl⟩
    · cases m' <;> simp [ownOps, ih]
    · simp [ownOps, ih]

omit [DecidableEq V] in
theorem RefusedAll.calls {ms ms' : List (Nat × Move V)} (h : RefusedAll ms ms') {i : Nat} (ho : OnlyCalls i ms) : OnlyCalls i ms' := by
  induction h with
  | nil => exact ho
  | @cons x y ms ms' hxy h ih =>
    intro z hz e
    rcases List.mem_cons.1 hz with rfl | hz
    · obtain ⟨op, hop⟩ := ho x List.mem_cons_self (hxy.1 ▸ e)
      rcases hxy.2 with hr | ⟨ok, hr, -⟩
      · exact ⟨op, hr.trans hop⟩
      · rw [hop] at hr; cases hr
    · exact ih (fun u hu => ho u (List.mem_cons_of_mem _ hu)) z hz e

theorem SameMany.moves [Truthy V] (hV : AllTruthy V) {f : ShapeN V} (ms : List (Nat × Move V)) : ∀ {w : Shared V} {s : Snap V},
    SameMany f w s → (∀ x ∈ ms, LenientMove x.2) → ∃ ms', RefusedAll ms ms' ∧ SameMany f (w.moves ms) (s.moves ms') := by
  induction ms with
  | nil => intro w s h _; exact ⟨[], .nil, h⟩
  | cons x ms ih =>
    intro w s h hm
    obtain ⟨m', h1, -, -, h4⟩ := h.move hV x.1 x.2 (hm x List.mem_cons_self)
    obtain ⟨ms', h5, h6⟩ := ih h4 fun y hy => hm y (List.mem_cons_of_mem _ hy)
    exact ⟨(x.1, m') :: ms', .cons ⟨rfl, h1⟩ h5, h6⟩

/-- What others do does not touch a session. -/
theorem sess_other [Truthy V] (w : Shared V) (i j : Nat) (hj : i ≠ j) (mv : Move V) : (w.move j mv).2.sess i = w.sess i := by
  unfold Shared.move Shared.begin Shared.abort Shared.run Shared.resize Shared.commit Shared.setSess
  cases mv <;> simp only [Function.update_of_ne hj]
  · split_ifs <;> simp [Function.update_of_ne hj]
  · split_ifs <;> simp [Function.update_of_ne hj]
  · split_ifs
    · rfl
    · split <;> simp [Function.update_of_ne hj]

/-- A session that only makes calls, and deletes nothing, leaves the old copies alone. -/
theorem SameMany.keeps [Truthy V] (hV : AllTruthy V) {f : ShapeN V} (i : Nat) (ms : List (Nat × Move V)) : ∀ {w : Shared V} {s : Snap V},
    SameMany f w s → (∀ x ∈ ms, LenientMove x.2) → OnlyCalls i ms → (∀ op ∈ ownOps i ms, ¬ Deletes op) →
    (∀ a ∈ f.rest, (w.sess i).work.heap a = (w.sess i).base.heap a) →
    ∀ a ∈ f.rest, ((w.moves ms).sess i).work.heap a = ((w.moves ms).sess i).base.heap a := by
  induction ms with
  | nil => intro w s _ _ _ _ h; exact h
  | cons x ms ih =>
    intro w s h hm ho hd hk
    rcases x with ⟨j, mv⟩
    obtain ⟨m', -, -, -, h4⟩ := h.move hV j mv (hm _ List.mem_cons_self)
    show ∀ a ∈ f.rest, (((w.move j mv).2.moves ms).sess i).work.heap a = (((w.move j mv).2.moves ms).sess i).base.heap a
    refine ih h4 (fun y hy => hm y (List.mem_cons_of_mem _ hy)) (fun y hy => ho y (List.mem_cons_of_mem _ hy)) ?_ ?_
    · intro op hop
      refine hd op ?_
      cases mv <;> simp only [ownOps] <;> first | exact hop | skip
      split_ifs
      · exact List.mem_cons_of_mem _ hop
      · exact hop
    · by_cases hj : i = j
      · subst hj
        obtain ⟨op, hop⟩ := ho _ List.mem_cons_self rfl
        simp only at hop
        subst hop
        have hop : op ≠ .strict (some true) := by rintro rfl; exact hm _ List.mem_cons_self
        have hnd : ¬ Deletes op := hd op (by simp [ownOps])
        obtain ⟨-, -, -, -, f5⟩ := (h.work i).fn hV op hop
        intro a ha
        unfold Shared.move Shared.run
        simp only
        split_ifs with hf
        · exact hk a ha
        · simp only [Shared.setSess, Function.update_self]
          rw [f5 hnd a ha]; exact hk a ha
      · rw [sess_other w i j hj mv]; exact hk

omit [DecidableEq V] in
theorem opened_many {f : ShapeN V} {c0 : Container V} {m0 : Map V} (h : Many f c0 m0) : SameMany f (Shared.opened c0) (Snap.opened m0) :=
  ⟨h, fun _ => h, fun _ => h, fun _ => rfl, fun _ => ⟨Below.refl f _, Below.refl f _⟩⟩

/-- **C98.** Sessions on a database that was made by `Container.new` and used and resized in any way before, and is not in strict mode: for every
schedule of their moves the database is, step by step, a map shared by transactions with snapshot isolation. -/
theorem sessions_share_a_map [Truthy V] (hV : AllTruthy V) {c0 : Container V} {m0 : Map V} (h0 : InUse c0 m0)
    (ms : List (Nat × Move V)) (hm : ∀ x ∈ ms, LenientMove x.2) : Simulates ms (Shared.opened c0) (Snap.opened m0) := by
  obtain ⟨f, hf⟩ := many_of_inUse h0
  exact (opened_many hf).simulates hV ms hm

end
end Verif.Props
