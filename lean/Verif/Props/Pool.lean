import Verif.Db.Pool
import Verif.Props.StrictMode

/-!
# Connections of a database: pool and `with db` (C112, C113, C114)
-/
namespace Verif.Props
open Verif.Storage Verif.Db
variable {V : Type} [Truthy V] [DecidableEq V]

/-- The pool only holds connections that were made and are closed, each once; connections that were not made yet are not open. -/
structure PoolOk (p : Pool V) : Prop where
  nodup : p.pool.Nodup
  closed : ∀ i ∈ p.pool, (p.handle i).opened = false ∧ i < p.next
  unused : ∀ i, p.next ≤ i → (p.handle i).opened = false

omit [Truthy V] [DecidableEq V] in
theorem PoolOk.fresh (c : Container V) : PoolOk (Pool.fresh c) :=
  ⟨List.nodup_nil, fun _ h => absurd h List.not_mem_nil, fun _ _ => rfl⟩

/-- A step that changes at most one connection's flags, and not whether it is open, besides the data. -/
structure Calm (p q : Pool V) (i : Nat) : Prop where
  next : q.next = p.next
  pool : q.pool = p.pool
  slot : q.slot = p.slot
  opened : (q.handle i).opened = (p.handle i).opened
  others : ∀ j, j ≠ i → q.handle j = p.handle j

omit [Truthy V] [DecidableEq V] in
theorem Calm.rfl (p : Pool V) (i : Nat) : Calm p p i := ⟨by rfl, by rfl, by rfl, by rfl, fun _ _ => by rfl⟩

omit [Truthy V] [DecidableEq V] in
theorem Calm.set (p : Pool V) (i : Nat) (x : Handle) (w : Shared V) (ho : x.opened = (p.handle i).opened) :
    Calm p { p.setHandle i x with db := w } i :=
  ⟨by rfl, by rfl, by rfl, by simp [Pool.setHandle, ho], fun j hj => by simp [Pool.setHandle, Function.update_of_ne hj]⟩

omit [Truthy V] [DecidableEq V] in
theorem Calm.set' (p : Pool V) (i : Nat) (x : Handle) (ho : x.opened = (p.handle i).opened) :
    Calm p (p.setHandle i x) i := Calm.set p i x p.db ho

omit [Truthy V] [DecidableEq V] in
theorem PoolOk.calm {p q : Pool V} {i : Nat} (h : PoolOk p) (c : Calm p q i) : PoolOk q := by
  have ho : ∀ j, (q.handle j).opened = (p.handle j).opened := fun j => by
    by_cases e : j = i
    · subst e; exact c.opened
    · rw [c.others j e]
  refine ⟨c.pool ▸ h.nodup, ?_, ?_⟩
  · intro j hj; rw [ho, c.next]; rw [c.pool] at hj; exact h.closed j hj
  · intro j hj; rw [ho]; rw [c.next] at hj; exact h.unused j hj

/-- Everything one can do with a connection except closing it. -/
theorem use_calm (p : Pool V) (i : Nat) (u : ConnUse V) (hu : u ≠ .close) : Calm p (p.use i u).2 i := by
  have T : ∀ x w, x.opened = (p.handle i).opened → Calm p { p.setHandle i x with db := w } i := fun x w h => .set p i x w h
  cases u with
  | close => exact absurd rfl hu
  | read id => exact .rfl p i
  | call op ok =>
    show Calm p (p.call i op ok).2 i
    unfold Pool.call
    by_cases h1 : ¬ (p.handle i).opened = true
    · rw [if_pos h1]; exact .rfl p i
    · rw [if_neg h1]
      by_cases h2 : op.decorated = true ∧ (p.handle i).auto = true
      · rw [if_pos h2]
        unfold Pool.callAuto
        simp only
        rcases (p.db.begin i).run i op with ⟨e | v, w⟩
        · refine T _ _ ?_; rfl
        · rcases hc : w.commit i ok with ⟨e | v', w'⟩
          · simp only [hc]; refine T _ _ ?_; rfl
          · simp only [hc]; refine T _ _ ?_; rfl
      · rw [if_neg h2]
        refine T _ _ ?_; rfl
  | enter =>
    show Calm p (p.enterConn i).2 i
    unfold Pool.enterConn
    by_cases h1 : ¬ (p.handle i).opened = true
    · rw [if_pos h1]; exact .rfl p i
    · rw [if_neg h1]; refine T _ _ ?_; rfl
  | exit raised ok =>
    show Calm p (p.exitConn i raised ok).2 i
    unfold Pool.exitConn
    by_cases h1 : ¬ (p.handle i).opened = true
    · simp only [if_pos h1]; refine Calm.set' p i _ ?_; rfl
    · simp only [if_neg h1]
      cases raised
      · refine T _ _ ?_; rfl
      · refine T _ _ ?_; rfl
  | commit ok =>
    show Calm p (p.commit i ok).2 i
    unfold Pool.commit
    by_cases h1 : ¬ (p.handle i).opened = true
    · rw [if_pos h1]; exact .rfl p i
    · rw [if_neg h1]; refine T _ _ ?_; rfl
  | abort =>
    show Calm p (p.abort i).2 i
    unfold Pool.abort
    by_cases h1 : ¬ (p.handle i).opened = true
    · rw [if_pos h1]; exact .rfl p i
    · rw [if_neg h1]; refine T _ _ ?_; rfl
  | setAuto b =>
    show Calm p (p.setAuto i b).2 i
    unfold Pool.setAuto
    cases b with
    | none => exact .rfl p i
    | some b =>
      by_cases h1 : ¬ (p.handle i).opened = true
      · simp only [if_pos h1]; refine Calm.set' p i _ ?_; rfl
      · simp only [if_neg h1]; refine Calm.set' p i _ ?_; rfl

omit [Truthy V] [DecidableEq V] in
theorem PoolOk.close {p : Pool V} (h : PoolOk p) (i : Nat) : PoolOk (p.close i).2 := by
  unfold Pool.close
  split_ifs with h1 h2
  · exact h
  · have hni : i ∉ p.pool := fun hi => by rw [(h.closed i hi).1] at h2; exact absurd h2 (by decide)
    have hlt : i < p.next := by
      by_contra hc
      rw [h.unused i (by omega)] at h2
      exact absurd h2 (by decide)
    refine ⟨List.nodup_cons.2 ⟨hni, h.nodup⟩, ?_, ?_⟩
    · intro j hj
      by_cases e : j = i
      · subst e; simp [Pool.setHandle, hlt]
      · have hj' : j ∈ p.pool := by
          rcases List.mem_cons.1 hj with h' | h'
          · exact absurd h' e
          · exact h'
        simpa [Pool.setHandle, Function.update_of_ne e] using h.closed j hj'
    · intro j hj
      have hj' : p.next ≤ j := hj
      have e : j ≠ i := by intro e; subst e; omega
      simpa [Pool.setHandle, Function.update_of_ne e] using h.unused j hj
  · exact h

omit [Truthy V] [DecidableEq V] in
theorem openConn_spec {p : Pool V} (h : PoolOk p) :
    (p.handle p.openConn.1).opened = false ∧ (p.openConn.2.handle p.openConn.1).opened = true ∧
    (∀ j, j ≠ p.openConn.1 → p.openConn.2.handle j = p.handle j) ∧ PoolOk p.openConn.2 ∧
    p.openConn.2.slot = p.slot := by
  unfold Pool.openConn
  rcases hp : p.pool with _ | ⟨i, rest⟩
  · refine ⟨h.unused _ le_rfl, by simp [Pool.take, Pool.setHandle], fun j hj => by simp [Pool.take, Pool.setHandle, Function.update_of_ne hj], ⟨?_, ?_, ?_⟩, rfl⟩
    · simp [Pool.take, Pool.setHandle, hp]
    · simp [Pool.take, Pool.setHandle, hp]
    · intro j hj
      have hj' : p.next + 1 ≤ j := hj
      have e : j ≠ p.next := by omega
      simpa [Pool.take, Pool.setHandle, Function.update_of_ne e] using h.unused j (by omega)
  · have hi := h.closed i (by simp [hp])
    have hnd := h.nodup
    rw [hp, List.nodup_cons] at hnd
    refine ⟨hi.1, by simp [Pool.take, Pool.setHandle], fun j hj => by simp [Pool.take, Pool.setHandle, Function.update_of_ne hj], ⟨hnd.2, ?_, ?_⟩, rfl⟩
    · intro j hj
      have hj' : j ∈ rest := hj
      have e : j ≠ i := fun e => hnd.1 (e ▸ hj')
      simpa [Pool.take, Pool.setHandle, Function.update_of_ne e] using h.closed j (by simp [hp, hj'])
    · intro j hj
      have hj' : p.next ≤ j := hj
      have e : j ≠ i := by intro e; subst e; exact absurd hi.2 (by omega)
      simpa [Pool.take, Pool.setHandle, Function.update_of_ne e] using h.unused j hj'

theorem PoolOk.step {p : Pool V} (h : PoolOk p) (a : PoolCall V) : PoolOk (p.step a).2 := by
  cases a with
  | openConn => exact (openConn_spec h).2.2.2.1
  | forget n =>
    exact ⟨(List.take_sublist n p.pool).nodup h.nodup, fun i hi => h.closed i (List.mem_of_mem_take hi), h.unused⟩
  | enterDb =>
    have k := (openConn_spec h).2.2.2.1
    exact ⟨k.nodup, k.closed, k.unused⟩
  | exitDb =>
    show PoolOk p.exitDb.2
    unfold Pool.exitDb
    split
    · exact h
    · exact h.close _
  | use i u =>
    by_cases hu : u = .close
    · subst hu; exact h.close i
    · exact h.calm (use_calm p i u hu)

theorem PoolOk.run {p : Pool V} (h : PoolOk p) (as : List (PoolCall V)) : PoolOk (p.run as).2 := by
  induction as generalizing p with
  | nil => exact h
  | cons a as ih => exact ih (h.step a)

/-! ### C112 -/

/-- **C112.** `db.open()`, after any history of opening, closing, `with db` blocks and any use of the connections: the connection it gives
was not open, is open now, and no other connection is opened or closed by it.  So no two users that have opened and not yet closed
hold the same connection. -/
theorem open_is_exclusive (c0 : Container V) (as : List (PoolCall V)) :
    let p := ((Pool.fresh c0).run as).2
    (p.handle p.openConn.1).opened = false ∧ (p.openConn.2.handle p.openConn.1).opened = true ∧
    ∀ j, j ≠ p.openConn.1 → p.openConn.2.handle j = p.handle j := by
  intro p
  obtain ⟨h1, h2, h3, _⟩ := openConn_spec ((PoolOk.fresh c0).run as)
  exact ⟨h1, h2, h3⟩

/-! ### C113 -/

/-- Calls of other users during a `with db` block that has connection `i`: no other `with db` block of the same database begins or ends, and the
block's connection is not closed by hand. -/
def Undisturbed (i : Nat) (body : List (PoolCall V)) : Prop :=
  ∀ a ∈ body, a ≠ .enterDb ∧ a ≠ .exitDb ∧ a ≠ .use i .close

theorem undisturbed_run (i : Nat) (body : List (PoolCall V)) : ∀ {p : Pool V}, PoolOk p → Undisturbed i body →
    (p.handle i).opened = true → p.slot = some i →
    ((p.run body).2.handle i).opened = true ∧ (p.run body).2.slot = some i := by
  induction body with
  | nil => intro p _ _ ho hs; exact ⟨ho, hs⟩
  | cons a body ih =>
    intro p hp hb ho hs
    have ha := hb a (by simp)
    have hrest : Undisturbed i body := fun b h => hb b (by simp [h])
    have key : ((p.step a).2.handle i).opened = true ∧ (p.step a).2.slot = some i := by
      cases a with
      | openConn =>
        obtain ⟨k1, _, k3, _, k5⟩ := openConn_spec hp
        have e : i ≠ p.openConn.1 := by intro e; rw [← e, ho] at k1; exact absurd k1 (by decide)
        exact ⟨by show (p.openConn.2.handle i).opened = true; rw [k3 i e, ho], k5.trans hs⟩
      | forget n => exact ⟨ho, hs⟩
      | enterDb => exact absurd rfl ha.1
      | exitDb => exact absurd rfl ha.2.1
      | use j u =>
        by_cases hu : u = .close
        · subst hu
          have hji : j ≠ i := by rintro rfl; exact ha.2.2 rfl
          show ((p.close j).2.handle i).opened = true ∧ (p.close j).2.slot = some i
          unfold Pool.close
          split_ifs
          · exact ⟨ho, hs⟩
          · exact ⟨by simp [Pool.setHandle, Function.update_of_ne (Ne.symm hji), ho], hs⟩
          · exact ⟨ho, hs⟩
        · have c := use_calm p j u hu
          refine ⟨?_, c.slot.trans hs⟩
          by_cases e : i = j
          · subst e; exact c.opened.trans ho
          · show ((p.use j u).2.handle i).opened = true
            rw [c.others i e, ho]
    exact ih (hp.step a) hrest key.1 key.2

/-- C113: leaving a `with db` block that was never entered raises AttributeError and changes nothing, whatever was done before. -/
theorem exit_unentered (c0 : Container V) (as : List (PoolCall V)) (h : .enterDb ∉ as) :
    ((Pool.fresh c0).run as).2.exitDb = (.error .attributeError, ((Pool.fresh c0).run as).2) := by
  suffices hs : ∀ (as : List (PoolCall V)) (p : Pool V), PoolOk p → .enterDb ∉ as → p.slot = none → (p.run as).2.slot = none by
    unfold Pool.exitDb
    rw [hs as _ (PoolOk.fresh c0) h rfl]
  intro as
  induction as with
  | nil => intro p _ _ hp; exact hp
  | cons a as ih =>
    intro p hok ha hp
    rw [List.mem_cons, not_or] at ha
    refine ih _ (hok.step a) ha.2 ?_
    cases a with
    | openConn => exact (openConn_spec hok).2.2.2.2.trans hp
    | forget n => exact hp
    | enterDb => exact absurd rfl ha.1
    | exitDb =>
      show p.exitDb.2.slot = none
      unfold Pool.exitDb
      rw [hp]
      exact hp
    | use i u =>
      by_cases hu : u = .close
      · subst hu
        show (p.close i).2.slot = none
        unfold Pool.close
        split_ifs <;> exact hp
      · exact (use_calm p i u hu).slot.trans hp

/-- **C113 (partial: blocks of one database do not overlap).** A `with db` block entered after any history gets a connection that was not open; whatever
is done meanwhile with the database and its connections, it stays open until the end of the block; then it is closed and nothing else changes,
except when it holds uncommitted changes: then leaving the block raises ConnectionStateError and changes nothing.
Missing: overlapping blocks (`with_db_counterexample`). -/
theorem with_db_block_partial (c0 : Container V) (as body : List (PoolCall V)) :
    let p := ((Pool.fresh c0).run as).2
    let i := p.enterDb.1
    let q := (p.enterDb.2.run body).2
    Undisturbed i body →
    (p.handle i).opened = false ∧ (q.handle i).opened = true ∧
    ((q.handle i).joined = false →
      q.exitDb.1 = .ok () ∧ (q.exitDb.2.handle i).opened = false ∧ (∀ j, j ≠ i → q.exitDb.2.handle j = q.handle j) ∧
      q.exitDb.2.db = q.db) ∧
    ((q.handle i).joined = true → q.exitDb = (.error .connectionState, q)) := by
  intro p i q hb
  have hp : PoolOk p := (PoolOk.fresh c0).run as
  obtain ⟨k1, k2, _⟩ := openConn_spec hp
  obtain ⟨h1, h2⟩ := undisturbed_run i body (hp.step .enterDb) hb k2 rfl
  have h1 : (q.handle i).opened = true := h1
  have h2 : q.slot = some i := h2
  have he : q.exitDb = q.close i := by unfold Pool.exitDb; rw [h2]
  refine ⟨k1, h1, ?_, ?_⟩
  · intro hj
    have hc : q.close i = (.ok (), { q.setHandle i { q.handle i with opened := false } with pool := i :: q.pool }) := by
      unfold Pool.close
      rw [if_neg (by rw [hj]; decide), if_pos h1]
    rw [he, hc]
    exact ⟨rfl, by simp [Pool.setHandle], fun j hj => by simp [Pool.setHandle, Function.update_of_ne hj], rfl⟩
  · intro hj
    rw [he]; unfold Pool.close; rw [if_pos hj]

/-- The hypotheses are met by a block with calls of its own and of others. -/
example : Undisturbed (V := Nat) 0 [.use 0 (.call (.create "a" 1) true), .openConn, .use 1 (.call (.create "b" 1) true), .use 1 .close] := by
  intro a ha
  simp only [List.mem_cons, List.not_mem_nil, or_false] at ha
  rcases ha with rfl | rfl | rfl | rfl <;> simp

/-- **C113 (counterexample).** Two overlapping blocks of one database: when the first one ends, the connection of the second one is closed, and its next
call raises AttributeError; the connection of the first one is never closed.  And if a third user opens a connection in between, the end of the second
block closes that user's connection. -/
theorem with_db_counterexample :
    let p := Pool.fresh (twoGroups 0 false)
    (p.run [.enterDb, .enterDb, .exitDb, .use 1 (.call (.create "x" 5) true), .exitDb]).1 =
      [.ok (.conn 0), .ok (.conn 1), .ok .unit, .error .attributeError, .ok .unit] ∧
    ((p.run [.enterDb, .enterDb, .exitDb, .exitDb]).2.handle 0).opened = true ∧
    (p.run [.enterDb, .enterDb, .exitDb, .openConn, .exitDb, .use 1 (.call (.create "x" 5) true)]).1 =
      [.ok (.conn 0), .ok (.conn 1), .ok .unit, .ok (.conn 1), .ok .unit, .error .attributeError] := by
  decide +kernel

/-- The same calls succeed one after the other: the hypotheses of `with_db_block_partial` are what matters. -/
example : ((Pool.fresh (twoGroups 0 false)).run
      [.enterDb, .use 0 (.call (.create "x" 5) true), .exitDb, .enterDb, .use 0 (.read "x"), .exitDb]).1 =
    [.ok (.conn 0), .ok (.ret (.count (some 1))), .ok .unit, .ok (.conn 0), .ok (.val (some 5)), .ok .unit] := by
  decide +kernel

/-- **C113 (uncommitted changes).** A block that switches autocommit off, writes and does not commit: leaving it raises ConnectionStateError and
the connection stays open. -/
example : ((Pool.fresh (twoGroups 0 false)).run
      [.enterDb, .use 0 (.setAuto (some false)), .use 0 (.call (.create "x" 5) true), .exitDb]).1 =
    [.ok (.conn 0), .ok .unit, .ok (.ret (.count (some 1))), .error .connectionState] := by
  decide +kernel

/-! ### C114 -/

/-- Two connections, possibly of different databases, that nothing but the reported autocommit flag tells apart. -/
structure Alike (p : Pool V) (i : Nat) (q : Pool V) (j : Nat) : Prop where
  disk : p.db.disk = q.db.disk
  sess : p.db.sess i = q.db.sess j
  opened : (p.handle i).opened = (q.handle j).opened
  auto : (p.handle i).auto = (q.handle j).auto
  joined : (p.handle i).joined = (q.handle j).joined

/-- Uses of one connection, one after the other. -/
def Pool.uses (p : Pool V) (i : Nat) : List (ConnUse V) → List (Outcome (PoolRet V)) × Pool V
  | [] => ([], p)
  | u :: us => ((p.use i u).1 :: (Pool.uses (p.use i u).2 i us).1, (Pool.uses (p.use i u).2 i us).2)

omit [Truthy V] in
theorem commit_alike {w w' : Shared V} {i j : Nat} (hd : w.disk = w'.disk) (hs : w.sess i = w'.sess j) (ok : Bool) :
    (w.commit i ok).1 = (w'.commit j ok).1 ∧ (w.commit i ok).2.disk = (w'.commit j ok).2.disk ∧
    (w.commit i ok).2.sess i = (w'.commit j ok).2.sess j := by
  unfold Shared.commit
  rw [hs, hd]
  split_ifs
  · exact ⟨rfl, hd, hs⟩
  · split
    · exact ⟨rfl, rfl, by simp⟩
    · exact ⟨rfl, hd, by simp [Shared.setSess]⟩

omit [DecidableEq V] in
theorem run_alike {w w' : Shared V} {i j : Nat} (hd : w.disk = w'.disk) (hs : w.sess i = w'.sess j) (op : DbOp V) :
    (w.run i op).1 = (w'.run j op).1 ∧ (w.run i op).2.disk = (w'.run j op).2.disk ∧
    (w.run i op).2.sess i = (w'.run j op).2.sess j := by
  unfold Shared.run
  rw [hs]
  split_ifs
  · exact ⟨rfl, hd, hs⟩
  · exact ⟨rfl, hd, by simp [Shared.setSess]⟩

omit [Truthy V] [DecidableEq V] in
theorem Alike.mk' {p q : Pool V} {i j : Nat} {w w' : Shared V} {x y : Handle} (hd : w.disk = w'.disk) (hs : w.sess i = w'.sess j)
    (h1 : x.opened = y.opened) (h2 : x.auto = y.auto) (h3 : x.joined = y.joined) :
    Alike { p.setHandle i x with db := w } i { q.setHandle j y with db := w' } j :=
  ⟨hd, hs, by simp [Pool.setHandle, h1], by simp [Pool.setHandle, h2], by simp [Pool.setHandle, h3]⟩

theorem Alike.use {p q : Pool V} {i j : Nat} (h : Alike p i q j) (u : ConnUse V) :
    (p.use i u).1 = (q.use j u).1 ∧ Alike (p.use i u).2 i (q.use j u).2 j := by
  have hb : (p.db.begin i).sess i = (q.db.begin j).sess j := by simp [Shared.begin, Shared.setSess, h.disk]
  have hbd : (p.db.begin i).disk = (q.db.begin j).disk := h.disk
  have hc1 : ¬ (p.handle i).opened = true → ¬ (q.handle j).opened = true := fun k => by rw [← h.opened]; exact k
  have hc2 : ¬ ¬ (p.handle i).opened = true → ¬ ¬ (q.handle j).opened = true := fun k => by rw [← h.opened]; exact k
  cases u with
  | read id =>
    refine ⟨?_, h⟩
    simp only [Pool.use, h.opened, Shared.read, h.sess]
  | call op ok =>
    suffices k : (p.call i op ok).1 = (q.call j op ok).1 ∧ Alike (p.call i op ok).2 i (q.call j op ok).2 j from
      ⟨by show (p.call i op ok).1.map _ = _; rw [k.1]; rfl, k.2⟩
    unfold Pool.call
    by_cases h1 : ¬ (p.handle i).opened = true
    · rw [if_pos h1, if_pos (hc1 h1)]; exact ⟨rfl, h⟩
    · rw [if_neg h1, if_neg (hc2 h1)]
      by_cases h2 : op.decorated = true ∧ (p.handle i).auto = true
      · rw [if_pos h2, if_pos (show op.decorated = true ∧ (q.handle j).auto = true by rw [← h.auto]; exact h2)]
        unfold Pool.callAuto
        obtain ⟨r1, r2, r3⟩ := run_alike hbd hb op
        rcases hp : (p.db.begin i).run i op with ⟨e | v, w⟩ <;> rcases hq : (q.db.begin j).run j op with ⟨e' | v', w'⟩ <;>
          rw [hp, hq] at r1 r2 r3 <;> simp only [reduceCtorEq] at r1
        · have hab : (w.abort i).disk = (w'.abort j).disk := r2
          refine ⟨by rw [r1], ?_⟩
          exact .mk' hab (by simp only [Shared.abort, Shared.setSess, Function.update_self]; exact congrArg Sess.fresh r2) h.opened h.auto rfl
        · simp only at r2 r3
          obtain ⟨c1, c2, c3⟩ := commit_alike r2 r3 ok
          rcases hp' : w.commit i ok with ⟨e | x, w1⟩ <;> rcases hq' : w'.commit j ok with ⟨e' | x', w1'⟩ <;>
            rw [hp', hq'] at c1 c2 c3 <;> simp only [reduceCtorEq] at c1
          · simp only [hp', hq']
            exact ⟨congrArg _ (Except.error.inj c1), .mk' c2 c3 h.opened rfl rfl⟩
          · simp only [hp', hq']
            exact ⟨by rw [r1], .mk' c2 c3 h.opened h.auto rfl⟩
      · rw [if_neg h2, if_neg (show ¬ (op.decorated = true ∧ (q.handle j).auto = true) by rw [← h.auto]; exact h2)]
        unfold Pool.callPlain
        obtain ⟨r1, r2, r3⟩ := run_alike h.disk h.sess op
        refine ⟨r1, ?_⟩
        refine .mk' r2 r3 h.opened h.auto ?_
        simp only [h.joined, h.sess, r1]
  | enter =>
    suffices k : (p.enterConn i).1 = (q.enterConn j).1 ∧ Alike (p.enterConn i).2 i (q.enterConn j).2 j from
      ⟨by show (p.enterConn i).1.map _ = _; rw [k.1]; rfl, k.2⟩
    unfold Pool.enterConn
    by_cases h1 : ¬ (p.handle i).opened = true
    · rw [if_pos h1, if_pos (hc1 h1)]; exact ⟨rfl, h⟩
    · rw [if_neg h1, if_neg (hc2 h1)]; exact ⟨rfl, .mk' hbd hb h.opened rfl rfl⟩
  | exit raised ok =>
    suffices k : (p.exitConn i raised ok).1 = (q.exitConn j raised ok).1 ∧ Alike (p.exitConn i raised ok).2 i (q.exitConn j raised ok).2 j from
      ⟨by show (p.exitConn i raised ok).1.map _ = _; rw [k.1]; rfl, k.2⟩
    unfold Pool.exitConn
    by_cases h1 : ¬ (p.handle i).opened = true
    · simp only [if_pos h1, if_pos (hc1 h1)]
      exact ⟨trivial, .mk' (w := p.db) (w' := q.db) h.disk h.sess h.opened h.auto h.joined⟩
    · simp only [if_neg h1, if_neg (hc2 h1)]
      cases raised
      · obtain ⟨c1, c2, c3⟩ := commit_alike h.disk h.sess ok
        exact ⟨c1, .mk' c2 c3 h.opened rfl rfl⟩
      · exact ⟨rfl, .mk' hbd hb h.opened rfl rfl⟩
  | commit ok =>
    suffices k : (p.commit i ok).1 = (q.commit j ok).1 ∧ Alike (p.commit i ok).2 i (q.commit j ok).2 j from
      ⟨by show (p.commit i ok).1.map _ = _; rw [k.1]; rfl, k.2⟩
    unfold Pool.commit
    by_cases h1 : ¬ (p.handle i).opened = true
    · rw [if_pos h1, if_pos (hc1 h1)]; exact ⟨rfl, h⟩
    · rw [if_neg h1, if_neg (hc2 h1)]
      obtain ⟨c1, c2, c3⟩ := commit_alike h.disk h.sess ok
      exact ⟨c1, .mk' c2 c3 h.opened h.auto rfl⟩
  | abort =>
    suffices k : (p.abort i).1 = (q.abort j).1 ∧ Alike (p.abort i).2 i (q.abort j).2 j from
      ⟨by show (p.abort i).1.map _ = _; rw [k.1]; rfl, k.2⟩
    unfold Pool.abort
    by_cases h1 : ¬ (p.handle i).opened = true
    · rw [if_pos h1, if_pos (hc1 h1)]; exact ⟨rfl, h⟩
    · rw [if_neg h1, if_neg (hc2 h1)]; exact ⟨rfl, .mk' hbd hb h.opened h.auto rfl⟩
  | setAuto b =>
    suffices k : (p.setAuto i b).1 = (q.setAuto j b).1 ∧ Alike (p.setAuto i b).2 i (q.setAuto j b).2 j from
      ⟨by show (p.setAuto i b).1.map _ = _; rw [k.1]; rfl, k.2⟩
    unfold Pool.setAuto
    cases b with
    | none => exact ⟨rfl, h⟩
    | some b =>
      by_cases h1 : ¬ (p.handle i).opened = true
      · simp only [if_pos h1, if_pos (hc1 h1)]
        exact ⟨trivial, .mk' (w := p.db) (w' := q.db) h.disk h.sess h.opened h.auto h.joined⟩
      · simp only [if_neg h1, if_neg (hc2 h1)]
        exact ⟨trivial, .mk' (w := p.db) (w' := q.db) h.disk h.sess h.opened rfl h.joined⟩
  | close =>
    suffices k : (p.close i).1 = (q.close j).1 ∧ Alike (p.close i).2 i (q.close j).2 j from
      ⟨by show (p.close i).1.map _ = _; rw [k.1]; rfl, k.2⟩
    unfold Pool.close
    rw [h.joined, h.opened]
    split_ifs
    · exact ⟨rfl, h⟩
    · exact ⟨rfl, h.disk, h.sess, by simp [Pool.setHandle], by simp [Pool.setHandle, h.auto], by simp [Pool.setHandle, h.joined]⟩
    · exact ⟨rfl, h⟩

theorem Alike.uses {i j : Nat} (us : List (ConnUse V)) : ∀ {p q : Pool V}, Alike p i q j →
    (Pool.uses p i us).1 = (Pool.uses q j us).1 ∧ (Pool.uses p i us).2.db.disk = (Pool.uses q j us).2.db.disk := by
  induction us with
  | nil => intro p q h; exact ⟨rfl, h.disk⟩
  | cons u us ih =>
    intro p q h
    obtain ⟨k1, k2⟩ := h.use u
    obtain ⟨k3, k4⟩ := ih k2
    exact ⟨by unfold Pool.uses; rw [k1, k3], k4⟩

/-- **C114 (partial: all but the reported flag).** A connection opened after any history of the database and its connections behaves like the first connection of a database
object just made for the same storage, whoever had it before and however it was left: every sequence of uses gives the same answers and
the same stored state.  Missing: `conn.autocommit`, see `reopened_flag_counterexample`. -/
theorem opened_like_new_partial (c0 : Container V) (as : List (PoolCall V)) (us : List (ConnUse V)) :
    let p := ((Pool.fresh c0).run as).2
    let n := Pool.fresh p.db.disk
    (Pool.uses p.openConn.2 p.openConn.1 us).1 = (Pool.uses n.openConn.2 n.openConn.1 us).1 ∧
    (Pool.uses p.openConn.2 p.openConn.1 us).2.db.disk = (Pool.uses n.openConn.2 n.openConn.1 us).2.db.disk := by
  intro p n
  refine Alike.uses us ?_
  have hn : n.openConn = (0, { n.take 0 with next := 1 }) := rfl
  rw [hn]
  have hdb : p.openConn.2.db = p.db.begin p.openConn.1 := by
    unfold Pool.openConn; split <;> rfl
  have hh : p.openConn.2.handle p.openConn.1 =
      { p.handle p.openConn.1 with opened := true, auto := true, joined := false } := by
    unfold Pool.openConn; split <;> simp [Pool.take, Pool.setHandle]
  refine ⟨?_, ?_, ?_, ?_, ?_⟩
  · rw [hdb]; rfl
  · rw [hdb]; simp [Shared.begin, Shared.setSess, Pool.take, n, Pool.fresh, Shared.opened]
  · rw [hh]; simp [Pool.take, Pool.setHandle]
  · rw [hh]; simp [Pool.take, Pool.setHandle]
  · rw [hh]; simp [Pool.take, Pool.setHandle]

/-- A connection that was left with autocommit off, used by the next one: the write is committed. -/
example : ((Pool.fresh (twoGroups 0 false)).run
      [.openConn, .use 0 (.setAuto (some false)), .use 0 .close, .openConn, .use 0 (.call (.create "x" 5) true), .openConn, .use 1 (.read "x")]).1 =
    [.ok (.conn 0), .ok .unit, .ok .unit, .ok (.conn 0), .ok (.ret (.count (some 1))), .ok (.conn 1), .ok (.val (some 5))] := by
  decide +kernel

/-- **C114 (counterexample).** The connection of the example reports `autocommit` False although its calls are committed one by one. -/
theorem reopened_flag_counterexample :
    let p := ((Pool.fresh (twoGroups 0 false)).run
      [.openConn, .use 0 (.setAuto (some false)), .use 0 .close, .openConn]).2
    (p.handle 0).opened = true ∧ (p.handle 0).flag = false ∧ (p.handle 0).auto = true ∧
    (p.call 0 (.create "x" 5) true).2.db.disk.read "x" = .ok (some 5) := by
  decide +kernel

/-! ### C112: closing drops nothing -/

omit [Truthy V] [DecidableEq V] in
theorem updateLoop_one_later (n : Nat) (k : String) (v : V) (cs : List (Collection V)) : ∀ i, hashId k % n < i →
    CGroup.updateLoop n [(k, v)] i cs = (.ok (), cs) := by
  induction cs with
  | nil => intro i _; rfl
  | cons c cs ih =>
    intro i hi
    have hne : ¬ hashId k % n = i := by omega
    simp only [CGroup.updateLoop, List.filter_cons, List.filter_nil, hne, decide_false, Bool.false_eq_true, if_false, List.isEmpty_nil, if_true]
    rw [ih (i + 1) (by omega)]

omit [Truthy V] [DecidableEq V] in
theorem updateLoop_one_error (n : Nat) (k : String) (v : V) (cs : List (Collection V)) : ∀ i e,
    (CGroup.updateLoop n [(k, v)] i cs).1 = .error e → (CGroup.updateLoop n [(k, v)] i cs).2 = cs := by
  induction cs with
  | nil => intro i e _; rfl
  | cons c cs ih =>
    intro i e h
    by_cases hk : hashId k % n = i
    · simp only [CGroup.updateLoop, List.filter_cons, List.filter_nil, hk, decide_true, if_true, List.isEmpty_cons, Bool.false_eq_true, if_false] at h ⊢
      rcases hu : c.update [(k, v)] with ⟨e' | u, c'⟩
      · have := collection_error_no_effect c (.update [(k, v)]) e' (by simp [Collection.call, hu, Except.map])
        simp only [Collection.call, hu] at this
        simp only [this]
      · rw [hu] at h
        simp only at h
        rw [updateLoop_one_later n k v cs (i + 1) (by omega)] at h
        exact absurd h (by simp)
    · simp only [CGroup.updateLoop, List.filter_cons, List.filter_nil, hk, decide_false, Bool.false_eq_true, if_false, List.isEmpty_nil, if_true] at h ⊢
      rw [ih (i + 1) e h]

omit [Truthy V] [DecidableEq V] in
theorem update_one_error (g : CGroup V) (k : String) (v : V) (e : PyErr) (h : (g.update [(k, v)]).1 = .error e) :
    (g.update [(k, v)]).2 = g := by
  unfold CGroup.update at h ⊢
  simp only at h ⊢
  split_ifs at h ⊢
  · rfl
  · rfl
  · simp only at h ⊢
    rw [updateLoop_one_error _ k v _ 0 e h]

omit [Truthy V] [DecidableEq V] in
theorem put_self (c : Container V) (a : Nat) : c.put a (c.heap a) = c := by
  unfold Container.put; rw [Function.update_eq_self]

omit [Truthy V] [DecidableEq V] in
theorem write_error_same (c : Container V) (id : String) (obj : V) (e : PyErr) (h : (c.write id obj).1 = .error e) :
    (c.write id obj).2 = c := by
  unfold Container.write at h ⊢
  have hins : ∀ e', ((c.heap c.primary).insert id obj).1 = .error e' → ((c.heap c.primary).insert id obj).2 = c.heap c.primary := fun e' h' =>
    group_error_no_effect_partial _ (.insert id obj) e' (fun _ h => by cases h) (by simp [CGroup.call, h', Except.map])
  have hz : ((c.heap c.primary).insert id obj).1 = .ok 0 → ((c.heap c.primary).insert id obj).2 = c.heap c.primary := by
    intro h0
    unfold CGroup.insert CGroup.route at h0 ⊢
    rcases hi : groupIndex id (c.heap c.primary).collections.length with e' | i
    · rfl
    · simp only [hi] at h0 ⊢
      split_ifs at h0 ⊢
      · rcases hc : (c.heap c.primary).collections[i]? with _ | col
        · rfl
        · simp only [hc] at h0 ⊢
          have : (col.insert id obj).2 = col := by
            unfold Collection.insert at h0 ⊢
            split_ifs at h0 ⊢ with hf
            unfold Tree.insert at h0 ⊢
            split_ifs at h0 ⊢ with hh
            · rfl
            · simp at h0
          rw [this]
          have hset : (c.heap c.primary).collections.set i col = (c.heap c.primary).collections := by
            apply List.ext_getElem?
            intro j
            by_cases hj : i = j
            · subst hj; rw [List.getElem?_set, hc]
              have := (List.getElem?_eq_some_iff.1 hc).1
              simp [this]
            · rw [List.getElem?_set_ne hj]
          rw [hset]
  rcases hr : (c.heap c.primary).insert id obj with ⟨e' | _ | n, g⟩
  · rw [hr] at hins
    simp only [hr] at h ⊢
    have hg : g = c.heap c.primary := hins e' rfl
    rw [hg, put_self]
  · rw [hr] at hz
    have hg : g = c.heap c.primary := hz rfl
    subst hg
    simp only [hr] at h ⊢
    rcases hu : (c.heap c.primary).update [(id, obj)] with ⟨e' | u, g'⟩
    · have := update_one_error (c.heap c.primary) id obj e' (by rw [hu])
      rw [hu] at this
      have this : g' = c.heap c.primary := this
      simp only [this, put_self]
    · simp only [hu] at h
      exact absurd h (by simp)
  · simp only [hr] at h
    exact absurd h (by simp)

omit [Truthy V] [DecidableEq V] in
theorem pop_ok_hasKey (g : CGroup V) (id : String) (v : V) (h : (g.pop id none).1 = .ok v) : g.hasKey id = .ok true := by
  unfold CGroup.pop CGroup.route at h
  unfold CGroup.hasKey CGroup.routeRead
  rcases hi : groupIndex id g.collections.length with e' | i
  · simp only [hi] at h; exact absurd h (by simp)
  · simp only [hi] at h ⊢
    rcases hc : g.collections[i]? with _ | col
    · simp only [hc] at h; exact absurd h (by simp)
    · simp only [hc] at h ⊢
      unfold Collection.pop at h
      unfold Collection.hasKey
      rcases ht : col.tree.get id with _ | w
      · simp [ht] at h
      · simp [Tree.has, ht]

omit [Truthy V] [DecidableEq V] in
theorem deleteLoop_none (id : String) (c : Container V) (hc : c.has id = .ok 0) : ∀ as, Container.deleteLoop id as c = (.ok [], c) := by
  intro as
  induction as with
  | nil => rfl
  | cons a as ih => unfold Container.deleteLoop; simp only [hc]; exact ih

omit [DecidableEq V] in
/-- A call that has not touched anything has left the container as it was. -/
theorem untouched_same (op : DbOp V) (c : Container V) (h : Pool.touched op c (op.fn c).1 = false) : (op.fn c).2 = c := by
  cases op with
  | create id obj =>
    simp only [DbOp.fn] at h ⊢
    unfold createFn at h ⊢
    rcases hh : c.has id with e | _ | n
    · rfl
    · simp only [hh] at h ⊢
      rcases hw : (c.write id obj).1 with e | r
      · exact write_error_same c id obj e hw
      · rw [hw] at h; simp [Except.map, Pool.touched] at h
    · rfl
  | update id obj =>
    simp only [DbOp.fn] at h ⊢
    unfold updateFn at h ⊢
    rcases hh : c.read id with e | prev
    · rfl
    · simp only [hh] at h ⊢
      rcases hw : (c.write id obj).1 with e | r
      · exact write_error_same c id obj e hw
      · rw [hw] at h; simp [Except.map, Pool.touched] at h
  | strict b =>
    cases b with
    | none => rfl
    | some b => simp [DbOp.fn, strictFn, Container.setStrict, Except.map, Pool.touched] at h
  | delete id =>
    simp only [DbOp.fn] at h ⊢
    unfold deleteFn Container.delete at h ⊢
    simp only at h ⊢
    rcases hg : c.groups with _ | ⟨a, as⟩
    · rfl
    · rcases hh : c.has id with e | _ | n
      · unfold Container.deleteLoop; simp only [hh]
      · rw [deleteLoop_none id c hh]
      · rw [hg] at h
        unfold Container.deleteLoop at h ⊢
        simp only [hh] at h ⊢
        rcases hp : (c.heap a).pop id none with ⟨e | v, g⟩
        · have k := group_error_no_effect_partial (c.heap a) (.pop id none) e (fun _ h => by cases h) (by simp [CGroup.call, hp, Except.map])
          have k : g = c.heap a := by simpa [CGroup.call, hp] using k
          simp only [k, put_self]
        · exfalso
          simp only [hp] at h
          have hk := pop_ok_hasKey (c.heap a) id v (by rw [hp])
          rcases hd : Container.deleteLoop id as (c.put a g) with ⟨e | vs, c'⟩
          · simp [hd, Except.map, Pool.touched, hg, hk] at h
          · simp [hd, Except.map, Pool.touched] at h

/-- A connection that has not joined its transaction sees what its transaction began with: it has no changes of its own; this is so after a failed commit. -/
def NonePendingAt (p : Pool V) (i : Nat) : Prop :=
  ((p.handle i).joined = false → (p.db.sess i).work = (p.db.sess i).base) ∧ ((p.db.sess i).failed = true → (p.handle i).joined = false)

omit [Truthy V] [DecidableEq V] in
theorem nonePending_set {p : Pool V} (h : ∀ j, NonePendingAt p j) (i : Nat) (x : Handle) (w : Shared V)
    (hs : ∀ j, j ≠ i → w.sess j = p.db.sess j) (hi : x.joined = false → (w.sess i).work = (w.sess i).base)
    (hf : (w.sess i).failed = true → x.joined = false) :
    ∀ j, NonePendingAt { p.setHandle i x with db := w } j := by
  intro j
  by_cases e : j = i
  · subst e; exact ⟨by simpa [Pool.setHandle] using hi, by simpa [Pool.setHandle] using hf⟩
  · have := h j
    unfold NonePendingAt at this ⊢
    simpa [Pool.setHandle, Function.update_of_ne e, hs j e] using this

omit [Truthy V] in
theorem commit_sess (w : Shared V) (i : Nat) (ok : Bool) :
    (∀ j, j ≠ i → (w.commit i ok).2.sess j = w.sess j) ∧
    (((w.sess i).failed = true → (w.sess i).work = (w.sess i).base) → ((w.commit i ok).2.sess i).work = ((w.commit i ok).2.sess i).base) := by
  unfold Shared.commit
  split_ifs with hf
  · exact ⟨fun _ _ => rfl, fun k => k hf⟩
  · split
    · exact ⟨fun j hj => by simp [Function.update_of_ne hj], fun _ => by simp [Sess.fresh]⟩
    · exact ⟨fun j hj => by simp [Shared.setSess, Function.update_of_ne hj], fun _ => by simp [Shared.setSess]⟩

omit [Truthy V] [DecidableEq V] in
theorem begin_sess (w : Shared V) (i : Nat) :
    (∀ j, j ≠ i → (w.begin i).sess j = w.sess j) ∧ ((w.begin i).sess i).work = ((w.begin i).sess i).base ∧ ((w.begin i).sess i).failed = false :=
  ⟨fun j hj => by simp [Shared.begin, Shared.setSess, Function.update_of_ne hj], by simp [Shared.begin, Shared.setSess, Sess.fresh],
    by simp [Shared.begin, Shared.setSess, Sess.fresh]⟩

omit [DecidableEq V] in
theorem run_sess (w : Shared V) (i : Nat) (op : DbOp V) : (∀ j, j ≠ i → (w.run i op).2.sess j = w.sess j) ∧
    ((w.run i op).2.sess i).failed = (w.sess i).failed := by
  unfold Shared.run
  split_ifs with hf
  · exact ⟨fun _ _ => rfl, rfl⟩
  · exact ⟨fun j hj => by simp [Shared.setSess, Function.update_of_ne hj], by simp [Shared.setSess]⟩

theorem NonePending.use {p : Pool V} (h : ∀ j, NonePendingAt p j) (i : Nat) (u : ConnUse V) : ∀ j, NonePendingAt (p.use i u).2 j := by
  obtain ⟨b1, b2, b3⟩ := begin_sess p.db i
  have hcl : (p.db.sess i).failed = true → (p.db.sess i).work = (p.db.sess i).base := fun k => (h i).1 ((h i).2 k)
  have B : ∀ x : Handle, ∀ j, NonePendingAt { p.setHandle i x with db := p.db.begin i } j := fun x =>
    nonePending_set h i x _ b1 (fun _ => b2) (fun k => by rw [b3] at k; exact absurd k (by decide))
  have C : ∀ (x : Handle) (ok : Bool), x.joined = false → ∀ j, NonePendingAt { p.setHandle i x with db := (p.db.commit i ok).2 } j := fun x ok hx =>
    nonePending_set h i x _ (commit_sess p.db i ok).1 (fun _ => (commit_sess p.db i ok).2 hcl) (fun _ => hx)
  have S : ∀ x : Handle, x.joined = (p.handle i).joined → ∀ j, NonePendingAt (p.setHandle i x) j := fun x hx =>
    nonePending_set h i x p.db (fun _ _ => rfl) (fun k => (h i).1 (hx ▸ k)) (fun k => hx.trans ((h i).2 k))
  cases u with
  | read id => exact h
  | call op ok =>
    show ∀ j, NonePendingAt (p.call i op ok).2 j
    unfold Pool.call
    by_cases h1 : ¬ (p.handle i).opened = true
    · rw [if_pos h1]; exact h
    · rw [if_neg h1]
      by_cases h2 : op.decorated = true ∧ (p.handle i).auto = true
      · rw [if_pos h2]
        unfold Pool.callAuto
        have r1 := run_sess (p.db.begin i) i op
        rcases hr : (p.db.begin i).run i op with ⟨e | v, w⟩
        · rw [hr] at r1
          obtain ⟨a1, a2, a3⟩ := begin_sess w i
          exact nonePending_set h i _ (w.begin i) (fun j hj => (a1 j hj).trans ((r1.1 j hj).trans (b1 j hj))) (fun _ => a2) (fun _ => rfl)
        · rw [hr] at r1
          simp only at r1
          have c1 := commit_sess w i ok
          have hw : (w.sess i).failed = true → (w.sess i).work = (w.sess i).base := fun k => by
            rw [r1.2, b3] at k; exact absurd k (by decide)
          rcases hc : w.commit i ok with ⟨e | v', w'⟩
          · rw [hc] at c1
            simp only [hc]
            exact nonePending_set h i _ w' (fun j hj => (c1.1 j hj).trans ((r1.1 j hj).trans (b1 j hj))) (fun _ => c1.2 hw) (fun _ => rfl)
          · rw [hc] at c1
            simp only [hc]
            exact nonePending_set h i _ w' (fun j hj => (c1.1 j hj).trans ((r1.1 j hj).trans (b1 j hj))) (fun _ => c1.2 hw) (fun _ => rfl)
      · rw [if_neg h2]
        unfold Pool.callPlain
        refine nonePending_set h i _ _ (run_sess p.db i op).1 ?_ ?_
        · intro hx
          simp only [Bool.or_eq_false_iff, Bool.and_eq_false_iff, Bool.not_eq_false'] at hx
          by_cases hf : (p.db.sess i).failed = true
          · have : (p.db.run i op).2 = p.db := by unfold Shared.run; rw [if_pos hf]
            rw [this]; exact hcl hf
          · have ht := hx.2.resolve_left hf
            have hrun : p.db.run i op = ((op.fn (p.db.sess i).work).1, p.db.setSess i { p.db.sess i with work := (op.fn (p.db.sess i).work).2 }) := by
              unfold Shared.run; rw [if_neg hf]
            rw [hrun] at ht ⊢
            have hsame := untouched_same op (p.db.sess i).work ht
            simp only [Shared.setSess, Function.update_self, hsame]
            exact (h i).1 hx.1
        · intro hf
          have hf : (p.db.sess i).failed = true := (run_sess p.db i op).2 ▸ hf
          simp [(h i).2 hf, hf]
  | enter =>
    show ∀ j, NonePendingAt (p.enterConn i).2 j
    unfold Pool.enterConn
    by_cases h1 : ¬ (p.handle i).opened = true
    · rw [if_pos h1]; exact h
    · rw [if_neg h1]; exact B _
  | exit raised ok =>
    show ∀ j, NonePendingAt (p.exitConn i raised ok).2 j
    unfold Pool.exitConn
    by_cases h1 : ¬ (p.handle i).opened = true
    · simp only [if_pos h1]; exact S _ rfl
    · simp only [if_neg h1]
      cases raised
      · exact C _ ok rfl
      · exact B _
  | commit ok =>
    show ∀ j, NonePendingAt (p.commit i ok).2 j
    unfold Pool.commit
    by_cases h1 : ¬ (p.handle i).opened = true
    · rw [if_pos h1]; exact h
    · rw [if_neg h1]; exact C _ ok rfl
  | abort =>
    show ∀ j, NonePendingAt (p.abort i).2 j
    unfold Pool.abort
    by_cases h1 : ¬ (p.handle i).opened = true
    · rw [if_pos h1]; exact h
    · rw [if_neg h1]; exact B _
  | setAuto b =>
    show ∀ j, NonePendingAt (p.setAuto i b).2 j
    unfold Pool.setAuto
    cases b with
    | none => exact h
    | some b =>
      by_cases h1 : ¬ (p.handle i).opened = true
      · simp only [if_pos h1]; exact S _ rfl
      · simp only [if_neg h1]; exact S _ rfl
  | close =>
    show ∀ j, NonePendingAt (p.close i).2 j
    unfold Pool.close
    split_ifs
    · exact h
    · exact S { p.handle i with opened := false } rfl
    · exact h

theorem NonePending.step {p : Pool V} (h : ∀ j, NonePendingAt p j) (a : PoolCall V) : ∀ j, NonePendingAt (p.step a).2 j := by
  have O : ∀ j, NonePendingAt p.openConn.2 j := by
    have T : ∀ i, ∀ j, NonePendingAt (p.take i) j := fun i =>
      nonePending_set h i _ _ (begin_sess p.db i).1 (fun _ => (begin_sess p.db i).2.1) (fun _ => rfl)
    unfold Pool.openConn
    split
    · exact T _
    · exact T _
  cases a with
  | openConn => exact O
  | forget n => exact h
  | enterDb => exact O
  | exitDb =>
    show ∀ j, NonePendingAt p.exitDb.2 j
    unfold Pool.exitDb
    split
    · exact h
    · exact NonePending.use h _ .close
  | use i u => exact NonePending.use h i u

/-- **C112 (closing).** After any history: closing a connection, by hand or at the end of a `with db` block, changes nothing that is stored, and succeeds only if the connection has no
uncommitted changes, that is if it sees exactly what its transaction began with; otherwise it raises ConnectionStateError and the connection stays as it is.  So
closing never drops a change silently. -/
theorem close_drops_nothing (c0 : Container V) (as : List (PoolCall V)) (i : Nat) :
    let p := ((Pool.fresh c0).run as).2
    (p.close i).2.db = p.db ∧
    ((p.close i).1 = .ok () → (p.db.sess i).work = (p.db.sess i).base ∧ ((p.close i).2.handle i).opened = false) ∧
    ((p.db.sess i).work ≠ (p.db.sess i).base → p.close i = (.error .connectionState, p)) := by
  intro p
  have inv : ∀ (as : List (PoolCall V)) (q : Pool V), (∀ j, NonePendingAt q j) → ∀ j, NonePendingAt (q.run as).2 j := by
    intro as
    induction as with
    | nil => intro q h; exact h
    | cons a as ih => intro q h; exact ih _ (NonePending.step h a)
  have hp : ∀ j, NonePendingAt p j := inv as _ fun j => ⟨fun _ => rfl, fun h => absurd h (by simp [Pool.fresh, Shared.opened, Sess.fresh])⟩
  refine ⟨?_, ?_, ?_⟩
  · unfold Pool.close; split_ifs <;> rfl
  · intro h
    unfold Pool.close at h ⊢
    split_ifs at h ⊢ with h1 h2
    · exact ⟨(hp i).1 (by simpa using h1), by simp [Pool.setHandle]⟩
    · exact ⟨(hp i).1 (by simpa using h1), by simpa using h2⟩
  · intro hw
    have : (p.handle i).joined = true := by
      by_contra hj
      exact hw ((hp i).1 (by simpa using hj))
    unfold Pool.close; rw [if_pos this]

/-- Both cases occur: after a committed call the connection can be closed; after `conn.strict = True`, which is never committed by itself, it cannot. -/
example : ((Pool.fresh (twoGroups 0 false)).run
      [.openConn, .use 0 (.call (.create "x" 5) true), .use 0 .close, .openConn, .use 0 (.call (.strict (some true)) true), .use 0 .close]).1 =
    [.ok (.conn 0), .ok (.ret (.count (some 1))), .ok .unit, .ok (.conn 0), .ok (.ret .unit), .error .connectionState] := by
  decide +kernel

/-- **C112 (when closing is possible).** A connection can be closed right after it was opened; after the beginning or end of a block, a commit or an abort,
whatever came of it; after a call that commits itself, whatever came of it; and if it could be closed before, also after a read and after a
call that found nothing to delete. -/
theorem can_be_closed (p : Pool V) (i : Nat) :
    (p.openConn.2.close p.openConn.1).1 = .ok () ∧
    ((p.handle i).opened = true →
      (∀ u, (u = .enter ∨ u = .abort ∨ (∃ ok, u = .commit ok) ∨ (∃ raised ok, u = .exit raised ok) ∨
          (∃ op ok, u = .call op ok ∧ op.decorated = true ∧ (p.handle i).auto = true)) → ((p.use i u).2.close i).1 = .ok ()) ∧
      ((p.close i).1 = .ok () →
        (∀ id, ((p.use i (.read id)).2.close i).1 = .ok ()) ∧
        (∀ op ok, (p.use i (.call op ok)).1 = .ok (.ret (.objs [])) → ((p.use i (.call op ok)).2.close i).1 = .ok ()))) := by
  have key : ∀ (q : Pool V) (j : Nat), (q.handle j).joined = false → (q.close j).1 = .ok () := by
    intro q j h
    unfold Pool.close
    rw [if_neg (by simp [h])]
    split_ifs <;> rfl
  have auto : ∀ op ok, ((p.callAuto i op ok).2.handle i).joined = false := by
    intro op ok
    unfold Pool.callAuto
    split
    · simp [Pool.setHandle]
    · split <;> simp [Pool.setHandle]
  refine ⟨key _ _ ?_, fun ho => ⟨?_, ?_⟩⟩
  · unfold Pool.openConn
    split <;> simp [Pool.take, Pool.setHandle]
  · rintro u (rfl | rfl | ⟨ok, rfl⟩ | ⟨raised, ok, rfl⟩ | ⟨op, ok, rfl, hd, ha⟩) <;> refine key _ _ ?_
    · simp [Pool.use, Pool.enterConn, ho, Pool.setHandle]
    · simp [Pool.use, Pool.abort, ho, Pool.setHandle]
    · simp [Pool.use, Pool.commit, ho, Pool.setHandle]
    · cases raised <;> simp [Pool.use, Pool.exitConn, ho, Pool.setHandle]
    · simp only [Pool.use, Pool.call, ho, not_true_eq_false, if_false, hd, ha, and_self, if_true]
      exact auto op ok
  · intro hc
    have hj : (p.handle i).joined = false := by
      by_contra hj
      unfold Pool.close at hc
      rw [if_pos (by simpa using hj)] at hc
      cases hc
    refine ⟨fun id => key _ _ hj, fun op ok hr => key _ _ ?_⟩
    simp only [Pool.use, Pool.call, ho, not_true_eq_false, if_false] at hr ⊢
    split_ifs at hr ⊢ with hd
    · exact auto op ok
    · have hr' : (p.db.run i op).1 = .ok (.objs []) := by
        unfold Pool.callPlain at hr
        simp only at hr
        cases h : (p.db.run i op).1 with
        | error e => rw [h] at hr; cases hr
        | ok v => rw [h] at hr; simp only [Except.map, Except.ok.injEq, PoolRet.ret.injEq] at hr; rw [hr]
      simp [Pool.callPlain, hr', hj, Pool.setHandle, Pool.touched]

/-- In a block: a lenient delete of an id that is not stored leaves nothing to commit, a delete of one that is does. -/
example : ((Pool.fresh (twoGroups 0 false)).run
      [.openConn, .use 0 (.call (.create "x" 5) true), .use 0 .enter, .use 0 (.call (.delete "y") true), .use 0 .close, .openConn, .use 0 .enter,
        .use 0 (.call (.delete "x") true), .use 0 .close]).1 =
    [.ok (.conn 0), .ok (.ret (.count (some 1))), .ok .unit, .ok (.ret (.objs [])), .ok .unit, .ok (.conn 0), .ok .unit, .ok (.ret (.objs [5])),
      .error .connectionState] := by
  decide +kernel

/-- **C114 (the switch).** `conn.autocommit = x` raises TypeError and changes nothing if `x` is no boolean; on an open connection a boolean is taken, for
calls and for `conn.autocommit`, and touches nothing else; on a closed connection it raises AttributeError, but `conn.autocommit` still changes. -/
theorem autocommit_switch (p : Pool V) (i : Nat) :
    p.use i (.setAuto none) = (.error .typeError, p) ∧
    (∀ b, (p.handle i).opened = true → (p.use i (.setAuto (some b))).1 = .ok .unit ∧
      (p.use i (.setAuto (some b))).2.db = p.db ∧ (∀ j, j ≠ i → (p.use i (.setAuto (some b))).2.handle j = p.handle j) ∧
      (p.use i (.setAuto (some b))).2.handle i = { p.handle i with flag := b, auto := b }) ∧
    (∀ b, (p.handle i).opened = false → (p.use i (.setAuto (some b))).1 = .error .attributeError ∧
      (p.use i (.setAuto (some b))).2.db = p.db ∧ (∀ j, j ≠ i → (p.use i (.setAuto (some b))).2.handle j = p.handle j) ∧
      (p.use i (.setAuto (some b))).2.handle i = { p.handle i with flag := b }) := by
  refine ⟨rfl, fun b ho => ?_, fun b ho => ?_⟩
  · simp only [Pool.use, Pool.setAuto, ho, not_true_eq_false, if_false]
    refine ⟨rfl, rfl, fun j hj => ?_, ?_⟩ <;> simp [Pool.setHandle, *]
  · simp only [Pool.use, Pool.setAuto, ho, Bool.false_eq_true, not_false_eq_true, if_true]
    refine ⟨rfl, rfl, fun j hj => ?_, ?_⟩ <;> simp [Pool.setHandle, *]

/-- **C114 (after a block).** After the end of a block, whatever came of it, `conn.autocommit` reports True; on an open connection calls then commit one by
one again. -/
theorem block_ends_autocommit (p : Pool V) (i : Nat) (raised ok : Bool) :
    ((p.use i (.exit raised ok)).2.handle i).flag = true ∧
    ((p.handle i).opened = true → ∀ op ok', op.decorated = true →
      (p.use i (.exit raised ok)).2.use i (.call op ok') =
        (((p.use i (.exit raised ok)).2.callAuto i op ok').1.map .ret, ((p.use i (.exit raised ok)).2.callAuto i op ok').2)) := by
  constructor
  · simp only [Pool.use, Pool.exitConn]
    split_ifs <;> simp [Pool.setHandle]
  · intro ho op ok' hd
    have h1 : ((p.use i (.exit raised ok)).2.handle i).opened = true ∧ ((p.use i (.exit raised ok)).2.handle i).auto = true := by
      simp only [Pool.use, Pool.exitConn, ho, not_true_eq_false, if_false]
      split_ifs <;> simp [Pool.setHandle]
    show (((p.use i (.exit raised ok)).2.call i op ok').1.map _, ((p.use i (.exit raised ok)).2.call i op ok').2) = _
    have : (p.use i (.exit raised ok)).2.call i op ok' = (p.use i (.exit raised ok)).2.callAuto i op ok' := by
      unfold Pool.call
      rw [if_neg (by simp [h1.1]), if_pos ⟨hd, h1.2⟩]
    rw [this]

end Verif.Props
