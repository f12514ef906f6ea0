import Verif.Spec.SharedLimits
import Verif.Props.Limited
import Verif.Props.ConcurrentStrict

/-!
# Sessions on one database share a map with limits, exactly (C157)
-/
namespace Verif.Props.SharedLimits
open Verif Verif.Storage Verif.Spec Verif.Db Verif.Props Verif.Props.Limited
variable {V : Type}

/-- What the sessions of a database show and answer next, and what is stored, is what the shared map with limits says. -/
structure Shows [Truthy V] [DecidableEq V] (l : Limits) (w : Shared V) (s : Boxes V) : Prop where
  read : ∀ i id, w.read i id = .ok ((s.tx i).mem.map id)
  strict : ∀ i, (w.sess i).work.strict = (s.tx i).mem.strict
  stored : ∀ id, w.disk.read id = .ok (s.disk.map id)
  storedStrict : w.disk.strict = s.disk.strict
  answers : ∀ i m, NoResize m → (w.move i m).1 = s.answer l i m

/-- The answers to the moves of a schedule. -/
def replies [Truthy V] [DecidableEq V] (w : Shared V) : List (Nat × Move V) → List (Outcome (DbRet V))
  | [] => []
  | (i, m) :: rest => (w.move i m).1 :: replies (w.move i m).2 rest

/-! ### What a call leaves alone -/

/-- Everything but the contents of the primary group is the same. -/
structure Framed (c c' : Container V) : Prop where
  groups : c'.groups = c.groups
  primary : c'.primary = c.primary
  next : c'.next = c.next
  heap : ∀ a, a ≠ c.primary → c'.heap a = c.heap a

theorem Framed.rfl {c : Container V} : Framed c c := ⟨.refl _, .refl _, .refl _, fun _ _ => .refl _⟩

theorem Framed.put (c : Container V) (g : CGroup V) : Framed c (c.put c.primary g) :=
  ⟨.refl _, .refl _, .refl _, fun _ ha => Container.heap_put_ne _ _ ha⟩

theorem framed_write {c : Container V} (hi : c.Inv) (k : String) (v : V) : Framed c (c.write k v).2 := by
  rcases Container.write_spec hi.pinv k v with ⟨e, h, -⟩ | ⟨g, h, -⟩
  · rw [h]; exact .rfl
  · rw [h]; exact .put _ _

theorem framed_fn [Truthy V] {c : Container V} (hi : c.Inv) (hg : c.groups = [c.primary]) (op : DbOp V) : Framed c (op.fn c).2 := by
  cases op with
  | create id obj =>
    show Framed c (createFn id obj c).2
    unfold createFn
    rcases c.has id with e | (_ | k)
    · exact .rfl
    · exact framed_write hi id obj
    · exact .rfl
  | update id obj =>
    show Framed c (updateFn id obj c).2
    unfold updateFn
    rcases c.read id with e | o
    · exact .rfl
    · exact framed_write hi id obj
  | delete id =>
    obtain ⟨hr, -⟩ := Container.delete_spec hi id
    exact ⟨hr.groups, hr.primary, hr.next, fun a ha => hr.outside a (by rw [hg]; simpa using ha)⟩
  | strict value =>
    cases value with
    | none => exact .rfl
    | some b => exact .put _ _

/-! ### Merging -/

section
variable [DecidableEq V]

/-- Groups of the same layout merge as maps with a flag. -/
theorem merge_group {n room : Nat} {gb gw gd : CGroup V} {b w d : Box V} (hb : GHolds n room gb b) (hw : GHolds n room gw w) (hd : GHolds n room gd d) :
    (mergeGroup gb gw gd = none ↔ ¬ Box.NoConflict b w d) ∧ ∀ g, mergeGroup gb gw gd = some g → GHolds n room g (Box.overlay b w d) := by
  have hn : 0 < n := by
    rcases Nat.eq_zero_or_pos n with h | h
    · subst h; exact absurd (List.length_eq_zero_iff.1 hb.len) hb.inv.ne
    · exact h
  have st : ∀ {g : CGroup V} {x : Box V}, GHolds n room g x → stricts g = List.replicate n x.strict := fun {g x} h => by
    have : stricts g = g.flags.map Prod.snd := by simp [stricts, CGroup.flags, Function.comp_def]
    rw [this, h.flags]; simp
  have rf : ∀ {g : CGroup V} {x : Box V}, GHolds n room g x → (CGroup.relax g).flags = List.replicate n (room, false) := fun {g x} h => by
    have : (CGroup.relax g).flags = g.flags.map fun p => (p.1, false) := by
      simp [CGroup.relax, CGroup.flags, Function.comp_def, Collection.relax]
    rw [this, h.flags]; simp
  have at0 : ∀ {g : CGroup V} {x : Box V}, GHolds n room g x → (stricts g)[0]? = some x.strict := fun {g x} h => by
    rw [st h, List.getElem?_replicate, if_pos hn]
  have rep : ∀ {c : Bool} {i : Nat} {v}, (List.replicate n c)[i]? = some v → v = c := fun {c i v} h => by
    rw [List.getElem?_replicate] at h; split_ifs at h; injection h with h; exact h.symm
  have l1 : gb.collections.length = gd.collections.length := hb.len.trans hd.len.symm
  have l2 : gw.collections.length = gd.collections.length := hw.len.trans hd.len.symm
  obtain ⟨r1, r2⟩ := mergeGroup_spec (relax_inv hb.inv) (relax_inv hw.inv) (relax_inv hd.inv) ((rf hb).trans (rf hd).symm) ((rf hw).trans (rf hd).symm)
  rw [relax_view hb.inv, relax_view hw.inv, relax_view hd.inv, hb.view, hw.view, hd.view] at r1 r2
  cases hm : mergeGroup gb gw gd with
  | none =>
    refine ⟨⟨fun _ hc => ?_, fun _ => rfl⟩, by simp⟩
    rcases mergeGroup_none l1 l2 hm with h | ⟨i, x, y, z, h1, h2, h3, h4⟩
    · obtain ⟨id, e1, e2⟩ := r1.1 h
      exact e2 (hc.1 id e1)
    · rw [st hb] at h1; rw [st hw] at h2; rw [st hd] at h3
      rw [rep h1, rep h2, rep h3] at h4
      unfold mergeUnit at h4
      split_ifs at h4 with e1 e2
      exact e2 (hc.2 e1)
  | some g =>
    obtain ⟨s1, s2, s3⟩ := mergeGroup_some l1 l2 hm
    have hu : ∀ i < n, (stricts g)[i]? = mergeUnit b.strict w.strict d.strict := fun i hi => by
      refine (s3 i b.strict w.strict d.strict ?_ ?_ ?_).symm
      · show (stricts gb)[i]? = _; rw [st hb, List.getElem?_replicate, if_pos hi]
      · show (stricts gw)[i]? = _; rw [st hw, List.getElem?_replicate, if_pos hi]
      · show (stricts gd)[i]? = _; rw [st hd, List.getElem?_replicate, if_pos hi]
    have hlen : (stricts g).length = n := by rw [s2, st hd]; simp
    have hsome : ∃ v, mergeUnit b.strict w.strict d.strict = some v := by
      rw [← hu 0 hn]
      exact ⟨_, List.getElem?_eq_getElem (by rw [hlen]; exact hn)⟩
    refine ⟨⟨by simp, fun hc => ?_⟩, ?_⟩
    · exfalso
      refine hc ⟨fun id h1 => ?_, fun h1 => ?_⟩
      · by_contra h2
        have := r1.2 ⟨id, h1, h2⟩
        rw [s1] at this; cases this
      · by_contra h2
        obtain ⟨v, hv⟩ := hsome
        unfold mergeUnit at hv
        rw [if_neg h1, if_neg h2] at hv; cases hv
    · intro g' hg'
      injection hg' with hg'
      subst hg'
      obtain ⟨i1, i2, i3⟩ := r2 _ s1
      have hgi := inv_of_relax i1
      rw [relax_view hgi] at i3
      have hval : mergeUnit b.strict w.strict d.strict = some (Box.overlay b w d).strict := by
        obtain ⟨v, hv⟩ := hsome
        rw [hv]
        unfold mergeUnit at hv
        unfold Box.overlay
        simp only
        split_ifs at hv with e1 e2
        · rw [if_neg (by simpa using e1)]; exact hv.symm
        · rw [if_pos e1]; exact hv.symm
      refine ⟨hgi, ?_, ?_⟩
      · have hgl : g.collections.length = n := by simpa [stricts] using hlen
        rw [List.eq_replicate_iff]
        refine ⟨by simpa [CGroup.flags] using hgl, fun p hp => ?_⟩
        obtain ⟨i, hi⟩ := List.mem_iff_getElem?.1 hp
        unfold CGroup.flags at hi
        rw [List.getElem?_map] at hi
        cases hc : g.collections[i]? with
        | none => rw [hc] at hi; cases hi
        | some c =>
          rw [hc] at hi
          injection hi with hi
          subst hi
          have hin : i < n := by rw [← hgl]; exact (List.getElem?_eq_some_iff.1 hc).1
          have e1 : (CGroup.relax g).flags[i]? = some (c.maxSize, false) := by simp [CGroup.flags, CGroup.relax, hc, Collection.relax]
          rw [i2, rf hd, List.getElem?_replicate, if_pos hin] at e1
          have e2 := hu i hin
          rw [hval] at e2
          simp only [stricts, List.getElem?_map, hc, Option.map_some, Option.some.injEq] at e2
          simp only [Option.some.injEq, Prod.mk.injEq, and_true] at e1
          show (c.maxSize, c.strict) = _
          rw [← e1, e2]
      · funext id
        rw [i3 id]
        by_cases h : w.map id = b.map id <;> simp [Box.overlay, h]

/-! ### Containers -/

/-- A container like `c0` but for the contents of its only group. -/
structure Of (c0 : Container V) (n room : Nat) (c : Container V) (b : Box V) : Prop where
  holds : Holds n room c b
  framed : Framed c0 c

omit [DecidableEq V] in
theorem Of.fn [Truthy V] (hV : AllTruthy V) {c0 : Container V} {n room : Nat} {c : Container V} {b : Box V} (h : Of c0 n room c b) (op : DbOp V) :
    (op.fn c).1 = b.answer (limits n room) op ∧ Of c0 n room (op.fn c).2 ((b.apply (limits n room) op).getD b) := by
  obtain ⟨h1, h2, -⟩ := h.holds.fn hV op
  refine ⟨h1, h2, ?_⟩
  have hf := framed_fn h.holds.inv h.holds.groups op
  exact ⟨hf.groups.trans h.framed.groups, hf.primary.trans h.framed.primary, hf.next.trans h.framed.next,
    fun a ha => (hf.heap a (by rw [h.framed.primary]; exact ha)).trans (h.framed.heap a ha)⟩

theorem Of.merge {c0 : Container V} {n room : Nat} {cb cw cd : Container V} {b w d : Box V} (hb : Of c0 n room cb b) (hw : Of c0 n room cw w)
    (hd : Of c0 n room cd d) :
    (Db.merge cb cw cd = none ↔ ¬ Box.NoConflict b w d) ∧ ∀ c, Db.merge cb cw cd = some c → Of c0 n room c (Box.overlay b w d) := by
  have hrec : ∀ {c x}, Of c0 n room c x → record c = (c0.groups, c0.primary, c0.next) := fun h => by
    unfold record; rw [h.framed.groups, h.framed.primary, h.framed.next]
  have grp : ∀ {c x}, Of c0 n room c x → GHolds n room (c.heap c0.primary) x := fun h => by
    have := h.holds.group; rw [h.framed.primary] at this; exact this
  have hlt : c0.primary < cb.next := by have := hb.holds.inv.pfresh; rw [hb.framed.primary] at this; exact this
  have hg0 : c0.groups = [c0.primary] := by have := hb.holds.groups; rw [hb.framed.groups, hb.framed.primary] at this; exact this
  obtain ⟨g1, g2⟩ := merge_group (grp hb) (grp hw) (grp hd)
  have others : ∀ a, a ≠ c0.primary → mergeGroup (cb.heap a) (cw.heap a) (cd.heap a) = some (c0.heap a) := fun a ha => by
    rw [hb.framed.heap a ha, hw.framed.heap a ha, hd.framed.heap a ha, mergeGroup_self]
  have any : ((List.range cb.next).any fun a => (mergeGroup (cb.heap a) (cw.heap a) (cd.heap a)).isNone) = true ↔ ¬ Box.NoConflict b w d := by
    rw [List.any_eq_true, ← g1]
    constructor
    · rintro ⟨a, -, hn⟩
      rw [Option.isNone_iff_eq_none] at hn
      by_cases hp : a = c0.primary
      · rw [hp] at hn; exact hn
      · rw [others a hp] at hn; cases hn
    · intro hn
      exact ⟨c0.primary, List.mem_range.2 hlt, by rw [hn]; rfl⟩
  unfold Db.merge
  rw [hrec hb, hrec hw, hrec hd, mergeUnit_same]
  simp only
  by_cases hbad : ¬ Box.NoConflict b w d
  · rw [if_pos (any.2 hbad)]
    exact ⟨⟨fun _ => hbad, fun _ => rfl⟩, by simp⟩
  · rw [if_neg fun h => hbad (any.1 h)]
    refine ⟨⟨by simp, fun h => absurd h hbad⟩, ?_⟩
    intro c h
    injection h with h
    subst h
    cases hm : mergeGroup (cb.heap c0.primary) (cw.heap c0.primary) (cd.heap c0.primary) with
    | none => exact absurd (g1.1 hm) hbad
    | some g =>
      have hat : mergeAt cb cw cd c0.primary = g := by
        unfold mergeAt
        rw [if_pos hlt, hm]; rfl
      have hG : GHolds n room (mergeAt cb cw cd c0.primary) (Box.overlay b w d) := by rw [hat]; exact g2 g hm
      have hfr : Framed c0 { heap := mergeAt cb cw cd, next := c0.next, groups := c0.groups, primary := c0.primary } := by
        refine ⟨rfl, rfl, rfl, fun a ha => ?_⟩
        show mergeAt cb cw cd a = _
        unfold mergeAt
        rw [others a ha, hd.framed.heap a ha, hrec hb, hrec hw]
        simp
      refine ⟨⟨⟨fun a ha => ?_, hG.inv, fun a ha => ?_, ?_, ?_⟩, hg0, hG⟩, hfr⟩
      · have : a = c0.primary := by simpa [hg0] using ha
        subst this; exact hG.inv
      · have : a = c0.primary := by simpa [hg0] using ha
        subst this
        show c0.primary < c0.next
        rw [← hb.framed.next]; exact hlt
      · show c0.primary < c0.next
        rw [← hb.framed.next]; exact hlt
      · show c0.groups.Nodup
        rw [hg0]; simp

/-! ### The sessions -/

/-- The sessions and the shared map hold the same. -/
structure Same (c0 : Container V) (n room : Nat) (w : Shared V) (s : Boxes V) : Prop where
  disk : Of c0 n room w.disk s.disk
  base : ∀ i, Of c0 n room (w.sess i).base (s.tx i).base
  work : ∀ i, Of c0 n room (w.sess i).work (s.tx i).mem
  broken : ∀ i, (w.sess i).failed = (s.tx i).broken

omit [DecidableEq V] in
theorem Same.set {c0 : Container V} {n room : Nat} {w : Shared V} {s : Boxes V} (h : Same c0 n room w s) (i : Nat) {x : Sess V} {t : BoxTx V}
    (h1 : Of c0 n room x.base t.base) (h2 : Of c0 n room x.work t.mem) (h3 : x.failed = t.broken) : Same c0 n room (w.setSess i x) (s.setTx i t) := by
  refine ⟨h.disk, fun j => ?_, fun j => ?_, fun j => ?_⟩
  all_goals
    unfold Shared.setSess Boxes.setTx
    by_cases hj : j = i
    · subst hj; simpa using by assumption
    · simp only [Function.update_of_ne hj, if_neg hj]
      first | exact h.base j | exact h.work j | exact h.broken j

theorem Same.move [Truthy V] (hV : AllTruthy V) {c0 : Container V} {n room : Nat} {w : Shared V} {s : Boxes V} (h : Same c0 n room w s) (i : Nat)
    (m : Move V) (hm : NoResize m) :
    (w.move i m).1 = s.answer (limits n room) i m ∧ Same c0 n room (w.move i m).2 (s.move (limits n room) i m) := by
  cases m with
  | begin => exact ⟨rfl, h.set i h.disk h.disk rfl⟩
  | abort => exact ⟨rfl, h.set i h.disk h.disk rfl⟩
  | resize n mc cd t => exact hm.elim
  | run op =>
    unfold Shared.move Shared.run Boxes.answer Boxes.move
    simp only
    rw [h.broken i]
    cases hb : (s.tx i).broken with
    | true => exact ⟨rfl, h⟩
    | false =>
      obtain ⟨f1, f2⟩ := (h.work i).fn hV op
      exact ⟨f1, h.set i (h.base i) f2 rfl⟩
  | commit ok =>
    unfold Shared.move Shared.commit Boxes.answer Boxes.move
    simp only
    rw [h.broken i]
    cases hb : (s.tx i).broken with
    | true => exact ⟨rfl, h⟩
    | false =>
      obtain ⟨m1, m2⟩ := (h.base i).merge (h.work i) h.disk
      simp only [Bool.false_eq_true, if_false]
      by_cases hc : s.Commits i ok
      · rw [if_pos hc, if_pos hc]
        obtain ⟨hok, hn⟩ := hc
        subst hok
        cases hg : Db.merge (w.sess i).base (w.sess i).work w.disk with
        | none => exact absurd hn (m1.1 hg)
        | some c =>
          have hs := m2 c hg
          refine ⟨rfl, hs, fun j => ?_, fun j => ?_, fun j => ?_⟩
          all_goals
            unfold Boxes.setTx
            by_cases hj : j = i
            · subst hj; simp only [Function.update_self, Sess.fresh, if_true]; try exact hs
            · simp only [Function.update_of_ne hj, if_neg hj]
              first | exact h.base j | exact h.work j | exact h.broken j
      · rw [if_neg hc, if_neg hc]
        have hfail : Same c0 n room (w.setSess i { base := (w.sess i).base, work := (w.sess i).base, failed := true })
            (s.setTx i ⟨(s.tx i).base, (s.tx i).base, true⟩) := h.set i (h.base i) (h.base i) rfl
        cases ok with
        | false => exact ⟨rfl, hfail⟩
        | true =>
          cases hg : Db.merge (w.sess i).base (w.sess i).work w.disk with
          | none => exact ⟨rfl, hfail⟩
          | some c =>
            refine absurd ⟨rfl, ?_⟩ hc
            by_contra hn
            rw [m1.2 hn] at hg; cases hg

theorem Same.moves [Truthy V] (hV : AllTruthy V) {c0 : Container V} {n room : Nat} (ms : List (Nat × Move V)) : ∀ {w : Shared V} {s : Boxes V},
    Same c0 n room w s → (∀ x ∈ ms, NoResize x.2) →
      replies w ms = s.answers (limits n room) ms ∧ Same c0 n room (w.moves ms) (s.moves (limits n room) ms) := by
  induction ms with
  | nil => intro w s h _; exact ⟨rfl, h⟩
  | cons x ms ih =>
    intro w s h hm
    obtain ⟨h1, h2⟩ := h.move hV x.1 x.2 (hm x List.mem_cons_self)
    obtain ⟨i1, i2⟩ := ih h2 fun y hy => hm y (List.mem_cons_of_mem _ hy)
    refine ⟨?_, i2⟩
    show (w.move x.1 x.2).1 :: replies _ ms = _ :: _
    rw [h1, i1]

/-- **C157.** Sessions on a database with one group of equal collections, whatever is in it, in strict mode or not: for every schedule of their moves
(assignments to `strict` included, `resize` excluded) the moves are answered, and afterwards all sessions and the stored state are, exactly as a map with limits
shared by transactions says. -/
theorem sessions_share_limits [Truthy V] (hV : AllTruthy V) {n room : Nat} {c0 : Container V} {b : Box V} (h0 : Holds n room c0 b)
    (ms : List (Nat × Move V)) (hm : ∀ x ∈ ms, NoResize x.2) :
    replies (Shared.opened c0) ms = (Boxes.opened b).answers (limits n room) ms ∧
    Shows (limits n room) ((Shared.opened c0).moves ms) ((Boxes.opened b).moves (limits n room) ms) := by
  have ho : Of c0 n room c0 b := ⟨h0, .rfl⟩
  have hs : Same c0 n room (Shared.opened c0) (Boxes.opened b) := ⟨ho, fun _ => ho, fun _ => ho, fun _ => rfl⟩
  obtain ⟨h1, h⟩ := hs.moves hV ms hm
  exact ⟨h1, fun i id => (h.work i).holds.read hV id, fun i => (h.work i).holds.strict, fun id => h.disk.holds.read hV id, h.disk.holds.strict,
    fun i m hm => (h.move hV i m hm).1⟩

/-- **C157, from the start.** Every container made by `Container.new` with a positive capacity and size, strict or not. -/
theorem new_sessions_share_limits [Truthy V] (hV : AllTruthy V) (capacity mc : Nat) (strict : Bool) (hc : 1 ≤ capacity) (hmc : 1 ≤ mc) :
    ∃ (c0 : Container V) (n : Nat), Container.new capacity mc strict = .ok c0 ∧ numberOfCollections capacity mc = .ok n ∧
      ∀ ms : List (Nat × Move V), (∀ x ∈ ms, NoResize x.2) →
        replies (Shared.opened c0) ms = (Boxes.opened ⟨Map.empty, strict⟩).answers (limits n (min (n * capacity) mc)) ms ∧
        Shows (limits n (min (n * capacity) mc)) ((Shared.opened c0).moves ms)
          ((Boxes.opened ⟨Map.empty, strict⟩).moves (limits n (min (n * capacity) mc)) ms) := by
  obtain ⟨c0, n, h1, h2, h3⟩ := new_holds (V := V) capacity mc strict hc hmc
  exact ⟨c0, n, h1, h2, fun ms hm => sessions_share_limits hV h3 ms hm⟩

end

/-! ### A concrete database -/

/-- A strict database made for two objects, with one: two sessions that began before any of them committed each see room for one more and both commit;
a session that begins afterwards sees three objects, is refused a new one with one error and an old one with the other, and turns strict mode off; the
session that wants to turn it off too, having begun earlier, cannot commit. -/
example : let c := soloBox (groupOf 2 true [("z", 9)])
    let w := (Shared.opened c).moves [(0, .begin), (1, .begin), (0, .run (.create "a" 1)), (1, .run (.create "b" 2)), (0, .commit true), (1, .commit true),
      (2, .begin), (3, .begin)]
    let w' := w.moves [(2, .run (.strict (some false))), (2, .run (.create "d" 4)), (3, .run (.strict (some false))), (2, .commit true)]
    Holds 1 2 c ⟨Map.empty.set "z" 9, true⟩ ∧ w.disk.read "a" = .ok (some 1) ∧ w.disk.read "b" = .ok (some 2) ∧
    shape (w.move 2 (.run (.create "d" 4))).1 = (some .groupCapacity, []) ∧ shape (w.move 2 (.run (.update "z" 4))).1 = (some .collectionCapacity, []) ∧
    w'.disk.read "d" = .ok (some 4) ∧ w'.disk.strict = false ∧ shape (w'.move 3 (.commit true)).1 = (some .storageError, []) := by
  intro c w w'
  have hg : (groupOf 2 true [("z", 9)]).Inv := by
    refine ⟨by simp [groupOf], fun x hx => ?_, fun i x hx k hk => ?_⟩
    · rw [List.mem_singleton.1 hx]; exact List.pairwise_singleton _ _
    · cases i with
      | zero => simp [groupOf, Nat.mod_one]
      | succ i => simp [groupOf] at hx
  refine ⟨⟨⟨fun _ _ => hg, hg, by simp [c, soloBox], Nat.one_pos, by simp [c, soloBox]⟩, rfl, ⟨hg, rfl, ?_⟩⟩, by decide +kernel, by decide +kernel,
    by decide +kernel, by decide +kernel, by decide +kernel, by decide +kernel, by decide +kernel⟩
  show (groupOf 2 true [("z", 9)]).view = _
  funext k
  obtain ⟨x, hx⟩ := CGroup.coll_exists hg.ne k
  rw [CGroup.view_eq hx, List.mem_singleton.1 (List.mem_of_getElem? hx)]
  by_cases hk : k = "z"
  · subst hk; rfl
  · simp [Collection.get, Tree.get, Map.set, Map.empty, hk]

end Verif.Props.SharedLimits
