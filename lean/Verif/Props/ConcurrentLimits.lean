import Verif.Props.Blocks

/-!
# Where concurrent sessions go wrong (C98 - C103)
-/
namespace Verif.Props
open Verif Verif.Storage Verif.Spec Verif.Db
open scoped Classical
variable {V : Type}

/-- Every new container with positive sizes satisfies the hypotheses of the theorems on concurrent sessions. -/
theorem new_shared (capacity mc : Nat) (hc : 1 ≤ capacity) (hm : 1 ≤ mc) :
    ∃ c0 : Container V, Container.new capacity mc false = .ok c0 ∧ InUse c0 Map.empty ∧ c0.groups.length = 1 := by
  obtain ⟨c, h1, h2, -⟩ := container_new (V := V) capacity mc false hc hm
  exact ⟨c, h1, ⟨capacity, mc, c, [], h1, by simp, rfl, rfl⟩, by rw [h2]; rfl⟩

section
variable [Truthy V] [DecidableEq V]

/-- C102 as one would like to have it - a read sees every call that has returned - is false: session 1 creates an object, the call has returned and
the object is stored, and session 0 reads nothing. -/
theorem stale_read_counterexample (hV : AllTruthy V) {c0 : Container V} {m0 : Map V} (h0 : InUse c0 m0) (h1 : c0.groups.length = 1)
    (id : String) (obj : V) (hid : m0 id = none) :
    let s := (Callers.opened c0).acts [(1, .start (.create id obj)), (1, .body), (1, .finish true)]
    s.past.map (fun d => (d.who, d.op, d.answer)) = [(1, .create id obj, .ok (.count (some 1)))] ∧
    s.db.disk.read id = .ok (some obj) ∧ s.db.read 0 id = .ok none := by
  obtain ⟨f, hf⟩ := solo_of_inUse h0 h1
  obtain ⟨a1, a2, -⟩ := hf.fn hV (.create id obj) (by simp)
  simp only [Map.apply, hid, if_true, Option.getD_some] at a2
  have a1 : (createFn id obj c0).1 = .ok (.count (some 1)) := by
    have h := a1
    unfold Map.Answers at h; simp only [hid, if_true] at h; exact h
  have a2 : Solo f (createFn id obj c0).2 (m0.set id obj) := a2
  obtain ⟨m1, m2⟩ := hf.merge a2 hf
  cases hm : Db.merge c0 (createFn id obj c0).2 c0 with
  | none => exact absurd (fun _ _ => rfl) (m1.1 hm)
  | some c =>
    have hs := m2 c hm
    have e : (Callers.opened c0).acts [(1, .start (.create id obj)), (1, .body), (1, .finish true)] =
        { db := { disk := c, sess := Function.update (Function.update (Function.update (fun _ => Sess.fresh c0) 1 (.fresh c0)) 1
            { base := c0, work := (createFn id obj c0).2 }) 1 (.fresh c) }
          pc := Function.update (Function.update (Function.update (fun _ => .idle) 1 (.started (.create id obj) 0)) 1
            (.ran (.create id obj) (.ok (.count (some 1))) 0)) 1 .idle
          now := 3
          past := [⟨1, .create id obj, .ok (.count (some 1)), 0, 2⟩] } := by
      simp only [Callers.acts, Callers.act, Callers.opened, Callers.tick, Shared.opened, Shared.begin, Shared.setSess, Shared.run,
        Function.update_self, Sess.fresh, DbOp.fn, Bool.false_eq_true, if_false, a1, Callers.finish, Shared.commit, hm]
    simp only [e, List.map_cons, List.map_nil, true_and]
    refine ⟨?_, ?_⟩
    · rw [hs.read hV]; simp [Snap.overlay, Map.set, hid]
    · show Container.read _ id = _
      simp only [Function.update_of_ne (show (0 : Nat) ≠ 1 by decide)]
      show c0.read id = _
      rw [hf.read hV, hid]

end

/-! ### Blocks are not serializable -/

/-- C101 for all blocks is false (write skew): two blocks that each look whether the other one's object is there, find that it is not, and
create their own one, both succeed.  One after the other, the second one would have found the first one's object. -/
theorem write_skew_counterexample [Truthy V] [DecidableEq V] (hV : AllTruthy V) {c0 : Container V} {m0 : Map V} (h0 : InUse c0 m0)
    (h1 : c0.groups.length = 1) (a b : String) (hab : a ≠ b) (ha : m0 a = none) (hb : m0 b = none) (x y : V) :
    let start := (Shared.opened c0).moves [(0, .begin), (1, .begin)]
    let done := start.moves [(0, .run (.create a x)), (1, .run (.create b y))]
    start.read 0 b = .ok none ∧ start.read 1 a = .ok none ∧
    (done.commit 0 true).1 = .ok () ∧ ((done.commit 0 true).2.commit 1 true).1 = .ok () ∧
    ((done.commit 0 true).2.commit 1 true).2.disk.read a = .ok (some x) ∧
    ((done.commit 0 true).2.commit 1 true).2.disk.read b = .ok (some y) := by
  obtain ⟨f, hf⟩ := solo_of_inUse h0 h1
  have hs : SameShared f (Shared.opened c0) (Snap.opened m0) := ⟨hf, fun _ => hf, fun _ => hf, fun _ => rfl⟩
  intro start done
  have k1 : SameShared f start ((Snap.opened m0).moves [(0, .begin), (1, .begin)]) := hs.moves hV _ (by simp [LenientMove])
  have k2 : SameShared f done (((Snap.opened m0).moves [(0, .begin), (1, .begin)]).moves
      [(0, .run (.create a x)), (1, .run (.create b y))]) := k1.moves hV _ (by simp [LenientMove])
  have e1 : (Snap.opened m0).moves [(0, .begin), (1, .begin)] = Snap.opened m0 := by
    simp [Snap.moves, Snap.move, Snap.opened, Snap.setTx]
  rw [e1] at k1 k2
  have e2 : (Snap.opened m0).moves [(0, .run (.create a x)), (1, .run (.create b y))] =
      { disk := m0, tx := Function.update (Function.update (fun _ => ⟨m0, m0, false⟩) 0 ⟨m0, m0.set a x, false⟩) 1 ⟨m0, m0.set b y, false⟩ } := by
    simp [Snap.moves, Snap.move, Snap.opened, Snap.setTx, Map.apply, ha, hb]
  rw [e2] at k2
  set s2 : Snap V := { disk := m0, tx := Function.update (Function.update (fun _ => ⟨m0, m0, false⟩) 0 ⟨m0, m0.set a x, false⟩) 1 ⟨m0, m0.set b y, false⟩ } with hs2
  have c0' : s2.Commits 0 true := ⟨rfl, rfl, fun _ _ => rfl⟩
  obtain ⟨q1, k3⟩ := k2.move hV 0 (.commit true) trivial
  have e3 : s2.move 0 (.commit true) = { disk := m0.set a x, tx := Function.update s2.tx 0 ⟨m0.set a x, m0.set a x, false⟩ } := by
    have ov : Snap.overlay m0 (m0.set a x) m0 = m0.set a x := by
      funext k; unfold Snap.overlay; by_cases h : (m0.set a x) k = m0 k <;> simp [h]
    unfold Snap.move
    have hb0 : (s2.tx 0).broken = false := rfl
    simp only [hb0, Bool.false_eq_true, if_false]
    rw [if_pos c0']
    show Snap.mk (Snap.overlay m0 (m0.set a x) m0) (Function.update s2.tx 0 ⟨Snap.overlay m0 (m0.set a x) m0, Snap.overlay m0 (m0.set a x) m0, false⟩) = _
    rw [ov]
  rw [e3] at k3
  set s3 : Snap V := { disk := m0.set a x, tx := Function.update s2.tx 0 ⟨m0.set a x, m0.set a x, false⟩ } with hs3
  have htx1 : s3.tx 1 = ⟨m0, m0.set b y, false⟩ := rfl
  have c1' : s3.Commits 1 true := by
    refine ⟨rfl, rfl, ?_⟩
    rw [htx1]
    intro id hne
    have hid : id = b := by
      by_contra h; apply hne; simp [Map.set, h]
    rw [hid]
    show (m0.set a x) b = m0 b
    simp [Map.set, Ne.symm hab]
  obtain ⟨q2, k4⟩ := k3.move hV 1 (.commit true) trivial
  have hfin : (s3.move 1 (.commit true)).disk = fun id => if id = a then some x else if id = b then some y else m0 id := by
    unfold Snap.move
    have hb1 : (s3.tx 1).broken = false := rfl
    simp only [hb1, Bool.false_eq_true, if_false]
    rw [if_pos c1']
    show Snap.overlay m0 (m0.set b y) (m0.set a x) = _
    funext id
    unfold Snap.overlay
    by_cases hia : id = a
    · subst hia; simp [Map.set, hab]
    · by_cases hib : id = b
      · subst hib; simp [Map.set, hb, hia]
      · simp [Map.set, hia, hib]
  have ok1 : (done.commit 0 true).1 = .ok () := by
    unfold Snap.Answers at q1
    have hb0 : (s2.tx 0).broken = false := rfl
    simp only [hb0, Bool.false_eq_true, if_false] at q1
    rw [if_pos c0'] at q1
    cases hr : (done.commit 0 true).1 with
    | ok u => rfl
    | error e =>
      have : (done.move 0 (.commit true)).1 = (done.commit 0 true).1.map fun _ => .unit := rfl
      rw [this, hr] at q1; cases q1
  have ok2 : ((done.commit 0 true).2.commit 1 true).1 = .ok () := by
    unfold Snap.Answers at q2
    have hb1 : (s3.tx 1).broken = false := rfl
    simp only [hb1, Bool.false_eq_true, if_false] at q2
    rw [if_pos c1'] at q2
    cases hr : ((done.commit 0 true).2.commit 1 true).1 with
    | ok u => rfl
    | error e =>
      have : ((done.move 0 (.commit true)).2.move 1 (.commit true)).1 = ((done.commit 0 true).2.commit 1 true).1.map fun _ => .unit := rfl
      rw [this, hr] at q2; cases q2
  have hr := k4.disk.read hV
  rw [hfin] at hr
  refine ⟨?_, ?_, ok1, ok2, ?_, ?_⟩
  · have := (k1.work 0).read hV b; rw [show ((Snap.opened m0).tx 0).mem b = none from hb] at this; exact this
  · have := (k1.work 1).read hV a; rw [show ((Snap.opened m0).tx 1).mem a = none from ha] at this; exact this
  · have := hr a; simp only [if_true] at this; exact this
  · have := hr b; simp only [if_neg (Ne.symm hab), if_true] at this; exact this

/-! ### Resizing -/

/-- C103, a write that returns is not lost because somebody else resizes the container, is false: session 0 creates an object while session 1
resizes the (empty) container and commits first; nobody gets an error, and the object is not there. -/
theorem resize_loses_write_counterexample [Truthy V] [DecidableEq V] (hV : AllTruthy V) {c0 : Container V} (h0 : InUse c0 Map.empty)
    (h1 : c0.groups.length = 1) (id : String) (obj : V) (n mc : Nat) (hn : 1 ≤ n) (hmc : 1 ≤ mc) :
    let w1 := (Shared.opened c0).moves [(0, .begin), (1, .begin)]
    let w2 := (w1.move 0 (.run (.create id obj))).2
    let w3 := (w2.move 1 (.resize n mc true true)).2
    let w4 := (w3.commit 1 true).2
    (w1.move 0 (.run (.create id obj))).1 = .ok (.count (some 1)) ∧ (w2.move 1 (.resize n mc true true)).1 = .ok .unit ∧
    (w3.commit 1 true).1 = .ok () ∧ (w4.commit 0 true).1 = .ok () ∧ (w4.commit 0 true).2.disk.read id = .ok none := by
  obtain ⟨f, hf⟩ := solo_of_inUse h0 h1
  -- the call
  obtain ⟨a1, a2, -⟩ := hf.fn hV (.create id obj) (by simp)
  simp only [Map.apply, Map.empty, if_true, Option.getD_some] at a2
  have a1 : (createFn id obj c0).1 = .ok (.count (some 1)) := by
    have h := a1
    unfold Map.Answers at h; simp only [Map.empty, if_true] at h; exact h
  have a2 : Solo f (createFn id obj c0).2 (Map.set Map.empty id obj) := a2
  set cw := (createFn id obj c0).2 with hcw
  -- the resize
  obtain ⟨g, k, hg, -, -, hgr, hgn, hgv, -⟩ := makeGroup_spec (V := V) n mc c0.strict hn hmc
  have hkeys : (c0.heap f.p).keys = [] := by
    rw [List.eq_nil_iff_forall_not_mem]
    intro x hx
    rw [CGroup.mem_keys hf.inv, hf.view] at hx
    exact hx rfl
  have hp : f.p ≠ c0.next := by rw [hf.next]; exact Nat.ne_of_lt hf.lt
  have hr : c0.resize n mc true true = (.ok [f.p], { c0.pushPrimary g with groups := [c0.next] }) := by
    unfold Container.resize
    rw [hg]
    simp only [if_true]
    unfold Container.condense
    have ht : (c0.pushPrimary g).groups.tail = [f.p] := by
      show c0.groups = _
      exact hf.groups
    have hh : (c0.pushPrimary g).heap f.p = c0.heap f.p := by
      show Function.update c0.heap c0.next g f.p = _
      rw [Function.update_of_ne hp]
    rw [ht]
    simp only [Container.moveGroups, hh, hkeys, Container.moveKeys, if_true]
    have hgs : (c0.pushPrimary g).groups = [c0.next, f.p] := by
      show c0.next :: c0.groups = _
      rw [hf.groups]
    unfold Container.dropSources
    simp only [hgs]
    rfl
  -- the first commit
  set r : Container V := { c0.pushPrimary g with groups := [c0.next] } with hrdef
  have hrh : ∀ a, a < c0.next → r.heap a = c0.heap a := by
    intro a ha
    show Function.update c0.heap c0.next g a = _
    rw [Function.update_of_ne (Nat.ne_of_lt ha)]
  have hrn : r.heap c0.next = g := by
    show Function.update c0.heap c0.next g c0.next = _
    rw [Function.update_self]
  have hrec : record r ≠ record c0 := by
    intro h
    have := congrArg (fun x => x.2.2) h
    simp [record, hrdef, Container.pushPrimary] at this
  set c1 : Container V := { heap := mergeAt c0 r c0, next := r.next, groups := r.groups, primary := r.primary } with hc1
  have m1 : Db.merge c0 r c0 = some c1 := by
    unfold Db.merge mergeUnit
    rw [if_neg hrec, if_pos rfl]
    simp only [record]
    rw [if_neg]
    rw [List.any_eq_true]
    rintro ⟨a, ha, hno⟩
    rw [hrh a (List.mem_range.1 ha), mergeGroup_self] at hno
    cases hno
  have h1p : c1.heap f.p = c0.heap f.p := by
    show mergeAt c0 r c0 f.p = _
    have hlt : f.p < c0.next := by rw [hf.next]; exact hf.lt
    unfold mergeAt
    rw [if_pos hlt, hrh _ hlt, mergeGroup_self]; rfl
  have h1a : ∀ a, a < c0.next → c1.heap a = c0.heap a := by
    intro a ha
    show mergeAt c0 r c0 a = _
    unfold mergeAt
    rw [if_pos ha, hrh _ ha, mergeGroup_self]; rfl
  have h1n : c1.heap c0.next = g := by
    show mergeAt c0 r c0 c0.next = _
    unfold mergeAt
    rw [if_neg (by omega), if_neg hrec, hrn]
  -- the second commit
  have hcwr : record cw = record c0 := by
    unfold record; rw [a2.groups, a2.primary, a2.next, hf.groups, hf.primary, hf.next]
  set c2 : Container V := { heap := mergeAt c0 cw c1, next := c1.next, groups := c1.groups, primary := c1.primary } with hc2
  have m2 : Db.merge c0 cw c1 = some c2 := by
    unfold Db.merge mergeUnit
    rw [if_pos hcwr]
    simp only [record]
    rw [if_neg]
    rw [List.any_eq_true]
    rintro ⟨a, ha, hno⟩
    rw [h1a a (List.mem_range.1 ha)] at hno
    by_cases hap : a = f.p
    · subst hap
      obtain ⟨g1, -⟩ := mergeGroup_spec hf.inv a2.inv hf.inv rfl (a2.flags.trans hf.flags.symm)
      rw [Option.isNone_iff_eq_none] at hno
      obtain ⟨x, -, hx⟩ := g1.1 hno
      exact hx rfl
    · rw [a2.other a hap, hf.other a hap, mergeGroup_self] at hno; cases hno
  have h2n : c2.heap c0.next = g := by
    show mergeAt c0 cw c1 c0.next = _
    unfold mergeAt
    rw [if_neg (by omega), if_pos hcwr, h1n]
  have hread : c2.read id = .ok none := by
    have hgs : c2.groups = [c0.next] := rfl
    unfold Container.read
    rw [hgs]
    unfold Container.readLoop
    rw [h2n, CGroup.get_view hgr.inv.ne, hgv]
    rfl
  have n01 : (0 : Nat) ≠ 1 := by decide
  have n10 : (1 : Nat) ≠ 0 := by decide
  intro w1 w2 w3 w4
  have s1 : ∀ i, w1.sess i = .fresh c0 := by
    intro i
    show Function.update (Function.update (fun _ => Sess.fresh c0) 0 (.fresh c0)) 1 (.fresh c0) i = _
    by_cases h1 : i = 1
    · subst h1; rw [Function.update_self]
    · rw [Function.update_of_ne h1]
      by_cases h0 : i = 0
      · subst h0; rw [Function.update_self]
      · rw [Function.update_of_ne h0]
  have d1 : w1.disk = c0 := rfl
  have e2 : w1.move 0 (.run (.create id obj)) = (.ok (.count (some 1)), w1.setSess 0 { base := c0, work := cw }) := by
    show w1.run 0 (.create id obj) = _
    unfold Shared.run
    rw [s1 0]
    simp only [Sess.fresh, Bool.false_eq_true, if_false, DbOp.fn]
    rw [a1, hcw]
  have w2e : w2 = w1.setSess 0 { base := c0, work := cw } := by show (w1.move 0 _).2 = _; rw [e2]
  have s21 : w2.sess 1 = .fresh c0 := by rw [w2e]; simp only [Shared.setSess]; rw [Function.update_of_ne n10, s1]
  have e3 : w2.move 1 (.resize n mc true true) = (.ok .unit, w2.setSess 1 { base := c0, work := r }) := by
    show w2.resize 1 n mc true true = _
    unfold Shared.resize
    rw [s21]
    simp only [Sess.fresh, Bool.false_eq_true, if_false, hr]
    rfl
  have w3e : w3 = w2.setSess 1 { base := c0, work := r } := by show (w2.move 1 _).2 = _; rw [e3]
  have e4 : w3.commit 1 true = (.ok (), { disk := c1, sess := Function.update w3.sess 1 (.fresh c1) }) := by
    unfold Shared.commit
    have hs : w3.sess 1 = { base := c0, work := r } := by rw [w3e]; simp only [Shared.setSess]; rw [Function.update_self]
    have hd : w3.disk = c0 := by rw [w3e, w2e]; rfl
    rw [hs, hd]
    simp only [Bool.false_eq_true, if_false, m1]
  have w4e : w4 = { disk := c1, sess := Function.update w3.sess 1 (.fresh c1) } := by show (w3.commit 1 true).2 = _; rw [e4]
  have e5 : w4.commit 0 true = (.ok (), { disk := c2, sess := Function.update w4.sess 0 (.fresh c2) }) := by
    unfold Shared.commit
    have hs : w4.sess 0 = { base := c0, work := cw } := by
      rw [w4e]
      simp only
      rw [Function.update_of_ne n01, w3e]
      simp only [Shared.setSess]
      rw [Function.update_of_ne n01, w2e]
      simp only [Shared.setSess]
      rw [Function.update_self]
    have hd : w4.disk = c1 := by rw [w4e]
    rw [hs, hd]
    simp only [Bool.false_eq_true, if_false, m2]
  exact ⟨by rw [e2], by rw [e3], by rw [e4], by rw [e5], by rw [e5]; exact hread⟩

/-! ### Concrete databases -/

/-- A group of one collection. -/
def groupOf (max : Nat) (strict : Bool) (items : List (String × Nat)) : CGroup Nat := ⟨[⟨0, items, max, strict⟩]⟩

/-- A container with one group. -/
def soloBox (g : CGroup Nat) : Container Nat := ⟨fun _ => g, 1, [0], 0⟩

/-- Whether an answer is an error, and the number or the objects it has (to compare answers by evaluation). -/
def shape : Outcome (DbRet Nat) → Option PyErr × List Nat
  | .error e => (some e, [])
  | .ok .unit => (none, [])
  | .ok (.count n) => (none, n.toList)
  | .ok (.prev v) => (none, v.toList)
  | .ok (.objs vs) => (none, vs)

/-- Two sessions create the same id at the same time and a third one deletes another object: the first to finish succeeds, the second one raises a
conflict; after it has recovered it updates the object. -/
example :
    let s := (Callers.opened (soloBox (groupOf 5 false [("z", 9)]))).acts [(0, .start (.create "a" 1)), (1, .start (.create "a" 2)),
      (2, .start (.delete "z")), (0, .body), (1, .body), (2, .body), (1, .finish true), (0, .finish true), (2, .finish true),
      (0, .recover), (0, .start (.update "a" 3)), (0, .body), (0, .finish true)]
    s.past.map (fun d => (d.who, shape d.answer)) = [(0, none, [2]), (2, none, [9]), (0, some .storageError, []), (1, none, [1])] ∧
    s.db.disk.read "a" = .ok (some 3) ∧ s.db.disk.read "z" = .ok none := by
  refine ⟨by decide +kernel, by decide +kernel, by decide +kernel⟩

/-- A container with two groups, the primary one last: no container made by `Container.new` gets there, but the constructor `Container(primary,
groups)` accepts it.  C100 is false here: the update and the deletion of an object that is only in the first group both succeed, the update saw the
object, the deletion did not remove the update's object - no order explains this. -/
def pairBox : Container Nat := ⟨fun a => if a = 0 then groupOf 5 false [] else groupOf 5 false [("a", 1)], 2, [1, 0], 0⟩

theorem two_groups_past :
    let s := (Callers.opened pairBox).acts [(0, .start (.update "a" 2)), (1, .start (.delete "a")), (0, .body), (1, .body),
      (0, .finish true), (1, .finish true)]
    s.past.map (fun d => (d.who, shape d.answer, d.start, d.stop)) = [(1, (none, [1]), 1, 5), (0, (none, [1]), 0, 4)] ∧
    s.db.disk.read "a" = .ok (some 2) := by
  refine ⟨by decide +kernel, by decide +kernel⟩

/-- The same update and deletion, one after the other on the map, in both orders: either the update finds nothing, or the object is gone. -/
theorem two_groups_not_serial_counterexample (m0 : Map Nat) (_ : m0 "a" = some 1) (d1 d2 : Done Nat) (h1 : d1.op = .update "a" 2)
    (h2 : d2.op = .delete "a") (a1 : d1.answer = .ok (.prev (some 1))) (m : Map Nat) (hm : m "a" = some 2) :
    ¬ Serial m0 [d1, d2] m ∧ ¬ Serial m0 [d2, d1] m := by
  constructor
  · intro h
    cases h with
    | cons _ h => cases h with
      | cons _ h =>
        cases h
        rw [h2] at hm
        simp [Map.apply, Map.remove] at hm
  · intro h
    cases h with
    | cons _ h => cases h with
      | cons h _ =>
        rw [h1, a1, h2] at h
        simp [Map.Answers, Map.apply, Map.remove] at h

/-- A container as after a resize without condensing: the primary group is first, and the old one still has a copy. -/
def copyBox : Container Nat := ⟨fun a => if a = 0 then groupOf 5 false [("a", 1)] else groupOf 5 false [("a", 1)], 2, [1, 0], 1⟩

/-- C99's commits can be refused without a conflict when there are several groups: session 1 deletes an object and creates it again; what is stored
is what it was when session 0 began, but session 0 cannot delete the object: the old copy is gone already. -/
theorem copies_refuse_counterexample :
    let w := (Shared.opened copyBox).moves [(0, .begin), (1, .begin), (1, .run (.delete "a")), (1, .commit true), (1, .run (.create "a" 1)),
      (1, .commit true), (0, .run (.delete "a"))]
    w.disk.read "a" = .ok (some 1) ∧ copyBox.read "a" = .ok (some 1) ∧ (w.commit 0 true).1 = .error .storageError := by
  refine ⟨by decide +kernel, by decide +kernel, by decide +kernel⟩

/-- C104, the limit of a strict collection is kept, is false for concurrent sessions: each finds room for one more. -/
theorem strict_limit_counterexample :
    let s := (Callers.opened (soloBox (groupOf 2 true [("m", 7)]))).acts [(0, .start (.create "a" 1)), (1, .start (.create "b" 2)),
      (0, .body), (1, .body), (0, .finish true), (1, .finish true)]
    s.past.map (fun d => (d.who, shape d.answer)) = [(1, none, [1]), (0, none, [1])] ∧
    (s.db.disk.heap 0).size = 3 ∧ (s.db.disk.heap 0).maxSize = 2 ∧ (s.db.disk.heap 0).strict = true := by
  refine ⟨by decide +kernel, by decide +kernel, by decide +kernel, by decide +kernel⟩

end Verif.Props
