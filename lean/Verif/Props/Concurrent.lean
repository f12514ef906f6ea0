import Verif.Spec.Snapshot
import Verif.Lemmas.Concurrent
import Verif.Props.DurableMap

/-!
# Several sessions on one database (C98 - C100)
-/
namespace Verif.Props
open Verif Verif.Storage Verif.Spec Verif.Db
variable {V : Type}

/-! ### Specification -/

/-- What the sessions of a database show and answer next, and what is read by whoever opens it anew, is what the shared map `s` says. -/
structure SharedShows [Truthy V] [DecidableEq V] (w : Shared V) (s : Snap V) : Prop where
  read : ∀ i id, w.read i id = .ok ((s.tx i).mem id)
  stored : ∀ id, w.disk.read id = .ok (s.disk id)
  answers : ∀ i m, LenientMove m → s.Answers i m (w.move i m).1

/-! ### Proofs: containers with one group -/

/-- What the sessions of a database have in common: the address of the only group, the number of addresses, limits and flags, and the groups no
longer in use. -/
structure Shape (V : Type) where
  p : Nat
  next : Nat
  fl : List (Nat × Bool)
  other : Nat → CGroup V

/-- A container with one group, not strict, holding `m`. -/
structure Solo (f : Shape V) (c : Container V) (m : Map V) : Prop where
  groups : c.groups = [f.p]
  primary : c.primary = f.p
  next : c.next = f.next
  lt : f.p < f.next
  inv : (c.heap f.p).Inv
  flags : (c.heap f.p).flags = f.fl
  non : (c.heap f.p).NonStrict
  view : (c.heap f.p).view = m
  other : ∀ a, a ≠ f.p → c.heap a = f.other a

theorem Solo.cinv {f : Shape V} {c : Container V} {m : Map V} (h : Solo f c m) : c.Inv := by
  refine ⟨?_, ?_, ?_, ?_, ?_⟩
  · intro a ha; rw [h.groups, List.mem_singleton] at ha; rw [ha]; exact h.inv
  · rw [h.primary]; exact h.inv
  · intro a ha; rw [h.groups, List.mem_singleton] at ha; rw [ha, h.next]; exact h.lt
  · rw [h.primary, h.next]; exact h.lt
  · rw [h.groups]; simp

theorem Solo.first {f : Shape V} {c : Container V} {m : Map V} (h : Solo f c m) (id : String) : c.first id = m id := by
  unfold Container.first Container.view
  rw [h.groups]
  simp only [List.findSome?_cons, List.findSome?_nil, h.view]
  cases m id <;> rfl

theorem Solo.read [Truthy V] (hV : AllTruthy V) {f : Shape V} {c : Container V} {m : Map V} (h : Solo f c m) (id : String) :
    c.read id = .ok (m id) := by
  rw [Container.read_first h.cinv id fun _ _ v _ => hV v, h.first]

theorem Solo.has {f : Shape V} {c : Container V} {m : Map V} (h : Solo f c m) (id : String) :
    c.has id = .ok (if m id = none then 0 else 1) := by
  rw [Container.has_eq h.cinv, h.groups]
  simp only [List.countP_cons, List.countP_nil, Container.view, h.view]
  cases m id <;> simp

theorem Solo.put {f : Shape V} {c : Container V} {m m' : Map V} (h : Solo f c m) {g : CGroup V} (hi : g.Inv)
    (hf : g.flags = (c.heap f.p).flags) (hv : g.view = m') : Solo f (c.put f.p g) m' := by
  have hself := Container.heap_put_self c f.p g
  refine ⟨h.groups, h.primary, h.next, h.lt, by rw [hself]; exact hi, by rw [hself, hf]; exact h.flags, ?_, by rw [hself]; exact hv, ?_⟩
  · rw [hself, CGroup.nonStrict_flags, hf, ← CGroup.nonStrict_flags]; exact h.non
  · intro a ha; rw [Container.heap_put_ne _ _ ha]; exact h.other a ha

theorem Solo.write {f : Shape V} {c : Container V} {m : Map V} (h : Solo f c m) (id : String) (obj : V) :
    (c.write id obj).1 = .ok (if m id = none then some 1 else none) ∧ Solo f (c.write id obj).2 (m.set id obj) := by
  have hp := h.cinv.pinv
  rcases Container.write_spec hp id obj with ⟨e, -, -, hn⟩ | ⟨g, hw, hg, hf, hv⟩
  · rw [h.primary] at hn; exact absurd h.non hn
  · rw [hw]
    simp only [Container.view, h.primary, h.view] at hv hf ⊢
    exact ⟨trivial, h.put hg hf hv⟩

theorem Solo.delete {f : Shape V} {c : Container V} {m : Map V} (h : Solo f c m) (id : String) :
    (∃ vs, (c.delete id).1 = .ok vs ∧ vs.head? = m id) ∧ Solo f (c.delete id).2 (m.remove id) := by
  obtain ⟨hr, hd⟩ := Container.delete_spec h.cinv id
  rcases hd with ⟨-, h1, h2⟩ | ⟨hn, -⟩
  · refine ⟨⟨_, h1, ?_⟩, ?_⟩
    · rw [List.head?_filterMap, ← h.first id]; rfl
    · refine ⟨by rw [hr.groups]; exact h.groups, by rw [hr.primary]; exact h.primary, by rw [hr.next]; exact h.next, h.lt, hr.inv _ h.inv,
        by rw [hr.flags]; exact h.flags, ?_, ?_, ?_⟩
      · rw [CGroup.nonStrict_flags, hr.flags, ← CGroup.nonStrict_flags]; exact h.non
      · funext x
        show _ = if x = id then none else m x
        by_cases hx : x = id
        · rw [if_pos hx, hx]; exact h2 f.p (by rw [h.groups]; simp)
        · rw [if_neg hx, ← h.view]; exact hr.frame f.p h.inv x hx
      · intro a ha
        rw [hr.outside a (by rw [h.groups]; simpa using ha)]
        exact h.other a ha
  · exfalso
    apply hn
    unfold Container.HoldersFirst
    rw [h.groups]; simp

/-- A call on a container with one group is the call on the map. -/
theorem Solo.fn [Truthy V] (hV : AllTruthy V) {f : Shape V} {c : Container V} {m : Map V} (h : Solo f c m) (op : DbOp V)
    (hop : op ≠ .strict (some true)) :
    m.Answers op (op.fn c).1 ∧ Solo f (op.fn c).2 ((m.apply op).getD m) ∧ (m.apply op = none ↔ ∃ e, (op.fn c).1 = .error e) := by
  cases op with
  | create id obj =>
    show _ = _ ∧ Solo f (createFn id obj c).2 _ ∧ (_ ↔ ∃ e, (createFn id obj c).1 = .error e)
    unfold createFn
    rw [h.has id]
    by_cases hm : m id = none
    · obtain ⟨h1, h2⟩ := h.write id obj
      simp only [hm, if_true] at h1 ⊢
      rw [h1]
      refine ⟨?_, ?_, ?_⟩
      · show (createFn id obj c).1 = _
        unfold createFn; rw [h.has id, hm]; simp only [if_true]; rw [h1]; rfl
      · simp only [Map.apply, hm, if_true, Option.getD_some]; exact h2
      · simp [Map.apply, hm, Except.map]
    · simp only [hm, if_false]
      refine ⟨?_, ?_, ?_⟩
      · show (createFn id obj c).1 = _
        unfold createFn; rw [h.has id]; simp only [hm, if_false]
      · simp only [Map.apply, hm, if_false, Option.getD_none]; exact h
      · simp [Map.apply, hm]
  | update id obj =>
    obtain ⟨h1, h2⟩ := h.write id obj
    have h3 : updateFn id obj c = (.ok (.prev (m id)), (c.write id obj).2) := by
      unfold updateFn; rw [h.read hV]; simp only; rw [h1]; rfl
    refine ⟨?_, ?_, ?_⟩
    · show (updateFn id obj c).1 = _
      rw [h3]
    · show Solo f (updateFn id obj c).2 _
      rw [h3]; exact h2
    · show _ ↔ ∃ e, (updateFn id obj c).1 = .error e
      rw [h3]; simp [Map.apply]
  | delete id =>
    obtain ⟨⟨vs, h1, h2⟩, h3⟩ := h.delete id
    have h4 : (deleteFn id c).1 = .ok (.objs vs) := by unfold deleteFn; simp only; rw [h1]; rfl
    refine ⟨⟨vs, h4, h2⟩, h3, ?_⟩
    show _ ↔ ∃ e, (deleteFn id c).1 = .error e
    rw [h4]; simp [Map.apply]
  | strict value =>
    cases value with
    | none => exact ⟨rfl, h, by simp [Map.apply, DbOp.fn, strictFn]⟩
    | some b =>
      cases b with
      | true => exact absurd rfl hop
      | false =>
        have h1 : (strictFn (some false) c).1 = .ok .unit := rfl
        refine ⟨h1, ?_, ?_⟩
        · have hs : ((c.heap f.p).setStrict (some false)).2.flags = (c.heap f.p).flags := by
            unfold CGroup.setStrict CGroup.flags
            simp only [List.map_map]
            refine List.map_congr_left fun x hx => ?_
            simp [h.non x hx]
          obtain ⟨i1, i2⟩ := CGroup.setStrict_view h.inv (some false)
          have := h.put i1 hs (i2.trans h.view)
          show Solo f (c.put c.primary ((c.heap c.primary).setStrict (some false)).2) m
          rw [h.primary]; exact this
        · show _ ↔ ∃ e, (strictFn (some false) c).1 = .error e
          rw [h1]; simp [Map.apply]

section
variable [DecidableEq V]

theorem mergeCollection_self (c : Collection V) : mergeCollection c c c = some c := by
  unfold mergeCollection mergeTree changedKeys mergeUnit
  simp

theorem mergeGroup_self (g : CGroup V) : mergeGroup g g g = some g := by
  have h : ∀ l : List (Collection V), (l.zip (l.zip l)).mapM (fun p => mergeCollection p.1 p.2.1 p.2.2) = some l := by
    intro l
    induction l with
    | nil => rfl
    | cons c l ih =>
      rw [List.zip_cons_cons, List.zip_cons_cons, List.mapM_cons, mergeCollection_self, ih]; rfl
  unfold mergeGroup
  rw [h]

omit [DecidableEq V] in
theorem merge_record {f : Shape V} {b w d : Container V} {mb mw md : Map V} (hb : Solo f b mb) (hw : Solo f w mw) (hd : Solo f d md) :
    mergeUnit (record b) (record w) (record d) = some ([f.p], f.p, f.next) := by
  have h : ∀ {c m}, Solo f c m → record c = ([f.p], f.p, f.next) := fun h => by
    unfold record; rw [h.groups, h.primary, h.next]
  rw [h hb, h hw, h hd]; unfold mergeUnit; simp

/-- The merge of containers with one group is the merge of maps. -/
theorem Solo.merge {f : Shape V} {b w d : Container V} {mb mw md : Map V} (hb : Solo f b mb) (hw : Solo f w mw) (hd : Solo f d md) :
    (Db.merge b w d = none ↔ ¬ Snap.NoConflict mb mw md) ∧
    ∀ c, Db.merge b w d = some c → Solo f c (Snap.overlay mb mw md) := by
  obtain ⟨g1, g2⟩ := mergeGroup_spec hb.inv hw.inv hd.inv (hb.flags.trans hd.flags.symm) (hw.flags.trans hd.flags.symm)
  rw [hb.view, hw.view, hd.view] at g1 g2
  have hc : (¬ Snap.NoConflict mb mw md) ↔ ∃ id, mw id ≠ mb id ∧ md id ≠ mb id := by
    unfold Snap.NoConflict; push Not; rfl
  have any : ((List.range b.next).any fun a => (mergeGroup (b.heap a) (w.heap a) (d.heap a)).isNone) = true ↔
      ∃ id, mw id ≠ mb id ∧ md id ≠ mb id := by
    rw [List.any_eq_true, ← g1]
    constructor
    · rintro ⟨a, ha, hn⟩
      rw [Option.isNone_iff_eq_none] at hn
      by_cases hp : a = f.p
      · rw [hp] at hn; exact hn
      · rw [hb.other a hp, hw.other a hp, hd.other a hp] at hn
        rw [mergeGroup_self] at hn; cases hn
    · intro hn
      exact ⟨f.p, by rw [List.mem_range, hb.next]; exact hb.lt, by rw [hn]; rfl⟩
  unfold Db.merge
  rw [merge_record hb hw hd]
  simp only
  by_cases hbad : ∃ id, mw id ≠ mb id ∧ md id ≠ mb id
  · rw [if_pos (any.2 hbad)]
    exact ⟨⟨fun _ => hc.2 hbad, fun _ => rfl⟩, by simp⟩
  · rw [if_neg fun h => hbad (any.1 h)]
    refine ⟨⟨by simp, fun h => absurd (hc.1 h) hbad⟩, ?_⟩
    intro c h
    injection h with h
    subst h
    cases hm : mergeGroup (b.heap f.p) (w.heap f.p) (d.heap f.p) with
    | none => exact absurd (g1.1 hm) hbad
    | some g =>
      obtain ⟨i1, i3, i4⟩ := g2 g hm
      have i2 : g.NonStrict := by rw [CGroup.nonStrict_flags, i3, ← CGroup.nonStrict_flags]; exact hd.non
      have hat : mergeAt b w d f.p = g := by
        unfold mergeAt
        rw [if_pos (by rw [hb.next]; exact hb.lt), hm]; rfl
      refine ⟨rfl, rfl, rfl, hb.lt, (congrArg CGroup.Inv hat).mpr i1, (congrArg CGroup.flags hat).trans (i3.trans hd.flags), (congrArg CGroup.NonStrict hat).mpr i2, ?_, ?_⟩
      · refine (congrArg CGroup.view hat).trans ?_
        funext id
        rw [i4 id]
        unfold Snap.overlay
        by_cases hne : mw id ≠ mb id
        · rw [if_pos hne, if_pos hne]
        · rw [if_neg hne, if_neg hne]
      · intro a ha
        show mergeAt b w d a = f.other a
        unfold mergeAt
        rw [hb.other a ha, hw.other a ha, hd.other a ha]
        have hrec : record w = record b := by
          unfold record; rw [hb.groups, hb.primary, hb.next, hw.groups, hw.primary, hw.next]
        rw [if_pos hrec]
        split_ifs
        · rw [mergeGroup_self]; rfl
        · rfl

/-! ### The shared map -/

/-- The sessions and the shared map hold the same. -/
structure SameShared (f : Shape V) (w : Shared V) (s : Snap V) : Prop where
  disk : Solo f w.disk s.disk
  base : ∀ i, Solo f (w.sess i).base (s.tx i).base
  work : ∀ i, Solo f (w.sess i).work (s.tx i).mem
  broken : ∀ i, (w.sess i).failed = (s.tx i).broken

omit [DecidableEq V] in
theorem SameShared.set {f : Shape V} {w : Shared V} {s : Snap V} (h : SameShared f w s) (i : Nat) {x : Sess V} {t : Tx V}
    (h1 : Solo f x.base t.base) (h2 : Solo f x.work t.mem) (h3 : x.failed = t.broken) : SameShared f (w.setSess i x) (s.setTx i t) := by
  refine ⟨h.disk, fun j => ?_, fun j => ?_, fun j => ?_⟩
  all_goals
    unfold Shared.setSess Snap.setTx
    by_cases hj : j = i
    · subst hj; simpa using by assumption
    · simp only [Function.update_of_ne hj]
      first | exact h.base j | exact h.work j | exact h.broken j

theorem SameShared.move [Truthy V] (hV : AllTruthy V) {f : Shape V} {w : Shared V} {s : Snap V} (h : SameShared f w s) (i : Nat) (m : Move V)
    (hm : LenientMove m) : s.Answers i m (w.move i m).1 ∧ SameShared f (w.move i m).2 (s.move i m) := by
  cases m with
  | begin => exact ⟨rfl, h.set i h.disk h.disk rfl⟩
  | abort => exact ⟨rfl, h.set i h.disk h.disk rfl⟩
  | resize n mc cd t => exact hm.elim
  | run op =>
    have hop : op ≠ .strict (some true) := by rintro rfl; exact hm
    show (if (s.tx i).broken then _ else _) ∧ SameShared f (w.run i op).2 (if (s.tx i).broken then _ else _)
    unfold Shared.move Shared.run
    simp only
    rw [h.broken i]
    cases hb : (s.tx i).broken with
    | true => exact ⟨rfl, h⟩
    | false =>
      obtain ⟨f1, f2, -⟩ := (h.work i).fn hV op hop
      refine ⟨f1, ?_⟩
      exact h.set i (h.base i) f2 rfl
  | commit ok =>
    show (if (s.tx i).broken then _ else _) ∧ SameShared f (w.commit i ok).2 (if (s.tx i).broken then _ else _)
    unfold Shared.move Shared.commit
    simp only
    rw [h.broken i]
    cases hb : (s.tx i).broken with
    | true => exact ⟨rfl, h⟩
    | false =>
      obtain ⟨m1, m2⟩ := (h.base i).merge (h.work i) h.disk
      simp only [Bool.false_eq_true, if_false]
      by_cases hc : s.Commits i ok
      · rw [if_pos hc, if_pos hc]
        obtain ⟨-, hok, hn⟩ := hc
        subst hok
        cases hg : Db.merge (w.sess i).base (w.sess i).work w.disk with
        | none => exact absurd hn (m1.1 hg)
        | some c =>
          have hs := m2 c hg
          refine ⟨rfl, hs, fun j => ?_, fun j => ?_, fun j => ?_⟩
          all_goals
            by_cases hj : j = i
            · subst hj; simp only [Function.update_self, Sess.fresh]; try exact hs
            · simp only [Function.update_of_ne hj]
              first | exact h.base j | exact h.work j | exact h.broken j
      · rw [if_neg hc, if_neg hc]
        have hr : ∀ c, ¬ (ok = true ∧ Db.merge (w.sess i).base (w.sess i).work w.disk = some c) := by
          rintro c ⟨h1, h2⟩
          apply hc
          refine ⟨hb, h1, ?_⟩
          by_contra hn
          rw [m1.2 hn] at h2; cases h2
        have hfail : SameShared f (w.setSess i { base := (w.sess i).base, work := (w.sess i).base, failed := true })
            (s.setTx i ⟨(s.tx i).base, (s.tx i).base, true⟩) := h.set i (h.base i) (h.base i) rfl
        cases ok with
        | false => exact ⟨rfl, hfail⟩
        | true =>
          cases hg : Db.merge (w.sess i).base (w.sess i).work w.disk with
          | none => exact ⟨rfl, hfail⟩
          | some c => exact absurd ⟨rfl, hg⟩ (hr c)

theorem SameShared.moves [Truthy V] (hV : AllTruthy V) {f : Shape V} (ms : List (Nat × Move V)) : ∀ {w : Shared V} {s : Snap V},
    SameShared f w s → (∀ x ∈ ms, LenientMove x.2) → SameShared f (w.moves ms) (s.moves ms) := by
  induction ms with
  | nil => intro w s h _; exact h
  | cons x ms ih =>
    intro w s h hm
    exact ih (h.move hV x.1 x.2 (hm x List.mem_cons_self)).2 fun y hy => hm y (List.mem_cons_of_mem _ hy)

omit [DecidableEq V] in
/-- A container in use with one group. -/
theorem solo_of_inUse {c : Container V} {m : Map V} (h : InUse c m) (h1 : c.groups.length = 1) : ∃ f, Solo f c m := by
  obtain ⟨hh, hn⟩ := h.hist
  have hi := hh.reach.inv
  refine ⟨⟨c.primary, c.next, (c.heap c.primary).flags, c.heap⟩, ?_, rfl, rfl, hi.pfresh, hi.pinv, rfl, hn, hh.shows, fun _ _ => rfl⟩
  have := hh.head.eq
  rw [this] at h1 ⊢
  simp only [List.length_cons, Nat.add_eq_right, List.length_eq_zero_iff] at h1
  rw [h1]

/-- **C98 for one group.** Sessions on a database that was made by `Container.new`, has one group and is not in strict mode: for every schedule of their moves
the database is a map shared by transactions with snapshot isolation. -/
theorem one_group_shares_a_map [Truthy V] (hV : AllTruthy V) {c0 : Container V} {m0 : Map V} (h0 : InUse c0 m0) (h1 : c0.groups.length = 1)
    (ms : List (Nat × Move V)) (hm : ∀ x ∈ ms, LenientMove x.2) :
    SharedShows ((Shared.opened c0).moves ms) ((Snap.opened m0).moves ms) := by
  obtain ⟨f, hf⟩ := solo_of_inUse h0 h1
  have hs : SameShared f (Shared.opened c0) (Snap.opened m0) := ⟨hf, fun _ => hf, fun _ => hf, fun _ => rfl⟩
  have h := hs.moves hV ms hm
  exact ⟨fun i id => (h.work i).read hV id, fun id => h.disk.read hV id, fun i m hm => (h.move hV i m hm).1⟩

end
end Verif.Props
