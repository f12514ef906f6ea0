import Verif.Db.Connection

/-!
# Several sessions on one database

citrine/database/containerdb.py:26-29 gives every connection its own transaction manager, so
several connections of one database work on the stored container at the same time.  Of ZODB
and BTrees only this documented behaviour is modelled: a session sees the stored state as it
was when its transaction began (MVCC) with its own changes on top; commit puts the objects
changed by the session on disk, all or none; an object that somebody else has changed on disk
since the transaction began is a conflict; BTrees merge such changes key by key, every other
object (a Collection's flag, a Container's tuple of groups) is one unit; after a commit or an
abort the session sees the stored state of that moment.
Simplification: real BTrees refuse some mergeable changes too (split or emptied buckets), and
ZODB takes an assignment of the old value for a change; the argument `ok` of a commit stands
for every such refusal, at any moment.
-/
namespace Verif.Db
open Verif.Storage
variable {V : Type}

section Merge
variable [DecidableEq V]

/-- The keys whose value differs between two states of a tree (a key may occur twice).
(conflict resolution of BTrees (library) on the trees of citrine/storage/collection.py:123-132) -/
def changedKeys (base work : Tree String V) : List String :=
  (base.keys ++ work.keys).filter fun k => work.get k ≠ base.get k

/-- Put on `disk` what `work` has under the key.
(conflict resolution of BTrees (library) on the trees of citrine/storage/collection.py:123-132) -/
def replayKey (work : Tree String V) (disk : Tree String V) (k : String) : Tree String V :=
  match work.get k with
  | some v => disk.put k v
  | none => disk.erase k

/-- The merge of a session's tree into the stored one; `none`: conflict.
(conflict resolution of BTrees (library) on the trees of citrine/storage/collection.py:123-132) -/
def mergeTree (base work disk : Tree String V) : Option (Tree String V) :=
  if (changedKeys base work).any fun k => disk.get k ≠ base.get k then none
  else some ((changedKeys base work).foldl (replayKey work) disk)

/-- The merge of an object that is stored as one unit; `none`: conflict. (ConflictError of ZODB (library), for the
objects of citrine/storage/collection.py:80-132 and citrine/storage/container.py:169-192) -/
def mergeUnit {α : Type} [DecidableEq α] (base work disk : α) : Option α :=
  if work = base then some disk else if disk = base then some work else none

/-- citrine/storage/collection.py:80-132: the tree is an object of its own, the limit and the uuid are never changed,
`strict` (110-121) is. -/
def mergeCollection (base work disk : Collection V) : Option (Collection V) :=
  match mergeTree base.tree work.tree disk.tree, mergeUnit base.strict work.strict disk.strict with
  | some t, some s => some { disk with tree := t, strict := s }
  | _, _ => none

/-- citrine/storage/group.py:118-221: the tuple of collections is never changed. -/
def mergeGroup (base work disk : CGroup V) : Option (CGroup V) :=
  match (base.collections.zip (work.collections.zip disk.collections)).mapM
      fun p => mergeCollection p.1 p.2.1 p.2.2 with
  | none => none
  | some cs => some { collections := cs }

/-- citrine/storage/container.py:169-192: the tuple of groups and the primary group (`next` is bookkeeping of the model). -/
def record (c : Container V) : List Nat × Nat × Nat := (c.groups, c.primary, c.next)

/-- The group at an address after the merge: groups made by the session are new objects.
(commit of ZODB (library) on the groups of citrine/storage/container.py:169-192) -/
def mergeAt (base work disk : Container V) (a : Nat) : CGroup V :=
  if a < base.next then (mergeGroup (base.heap a) (work.heap a) (disk.heap a)).getD (disk.heap a)
  else if record work = record base then disk.heap a else work.heap a

/-- What is stored when a session that began with `base` and has made `work` of it commits while `disk` is stored; `none`: conflict.
(commit of ZODB (library) on citrine/storage/container.py:169-192) -/
def merge (base work disk : Container V) : Option (Container V) :=
  match mergeUnit (record base) (record work) (record disk) with
  | none => none
  | some (groups, primary, next) =>
    if (List.range base.next).any fun a => (mergeGroup (base.heap a) (work.heap a) (disk.heap a)).isNone then none
    else some { heap := mergeAt base work disk, next, groups, primary }

end Merge

/-- One connection with its transaction manager: the stored state its transaction began with, what it sees, and whether a commit has failed
and nobody has dealt with it. (citrine/connection/container_connection.py:145-170) -/
structure Sess (V : Type) where
  base : Container V
  work : Container V
  failed : Bool := false

/-- A session whose transaction begins. (library `transaction`, used by citrine/storage/transaction.py:24-28, 79-86) -/
def Sess.fresh (disk : Container V) : Sess V := { base := disk, work := disk }

/-- A database and its sessions. (citrine/database/containerdb.py:26-29) -/
structure Shared (V : Type) where
  disk : Container V
  sess : Nat → Sess V

namespace Shared

/-- A database on which every session has just been opened. (citrine/database/containerdb.py:26-29) -/
def opened (c : Container V) : Shared V := { disk := c, sess := fun _ => .fresh c }

/-- Replace one session. (citrine/database/containerdb.py:26-29) -/
def setSess (w : Shared V) (i : Nat) (s : Sess V) : Shared V := { w with sess := Function.update w.sess i s }

/-- `begin()` (library), called by `__enter__` (citrine/storage/transaction.py:24-28). -/
def begin (w : Shared V) (i : Nat) : Shared V := w.setSess i (.fresh w.disk)

/-- `abort()` (library), called by `__exit__` (citrine/storage/transaction.py:30-38). -/
def abort (w : Shared V) (i : Nat) : Shared V := w.setSess i (.fresh w.disk)

/-- The body of create, update, delete or `strict = ...`; as in `Tm.plain` every call raises while a failed transaction is pending.
(citrine/connection/container_connection.py:124-128, 173-218) -/
def run [Truthy V] (w : Shared V) (i : Nat) (op : DbOp V) : Outcome (DbRet V) × Shared V :=
  if (w.sess i).failed then (.error .transactionFailed, w)
  else ((op.fn (w.sess i).work).1, w.setSess i { w.sess i with work := (op.fn (w.sess i).work).2 })

/-- `connection.container.resize(...)` in a session (citrine/storage/container.py:220-300). -/
def resize (w : Shared V) (i : Nat) (n mc : Nat) (condense transfer : Bool) : Outcome (DbRet V) × Shared V :=
  if (w.sess i).failed then (.error .transactionFailed, w)
  else (((w.sess i).work.resize n mc condense transfer).1.map fun _ => .unit,
    w.setSess i { w.sess i with work := ((w.sess i).work.resize n mc condense transfer).2 })

/-- `commit()` (library), called by `__exit__` (citrine/storage/transaction.py:30-38). -/
def commit [DecidableEq V] (w : Shared V) (i : Nat) (ok : Bool) : Outcome Unit × Shared V :=
  if (w.sess i).failed then (.error .transactionFailed, w)
  else
    match ok, merge (w.sess i).base (w.sess i).work w.disk with
    | true, some c => (.ok (), { disk := c, sess := Function.update w.sess i (.fresh c) })
    | _, _ => (.error .storageError, w.setSess i { base := (w.sess i).base, work := (w.sess i).base, failed := true })

/-- citrine/connection/container_connection.py:185-193 `read`, by session `i` -/
def read [Truthy V] (w : Shared V) (i : Nat) (id : String) : Outcome (Option V) := (w.sess i).work.read id

end Shared

/-- What a session can do.  `resize` is a call of `Container.resize` on the connection's container without a transaction manager of its own.
(citrine/storage/transaction.py:24-38, citrine/connection/container_connection.py:124-128, 173-218, citrine/storage/container.py:220-300) -/
inductive Move (V : Type) where
  | begin
  | run (op : DbOp V)
  | resize (capacity maxCollectionSize : Nat) (condense transfer : Bool)
  | commit (ok : Bool)
  | abort

/-- One move of session `i` and what it answers. (citrine/storage/transaction.py:24-38,
citrine/connection/container_connection.py:124-128, 173-218) -/
def Shared.move [Truthy V] [DecidableEq V] (w : Shared V) (i : Nat) : Move V → Outcome (DbRet V) × Shared V
  | .begin => (.ok .unit, w.begin i)
  | .run op => w.run i op
  | .resize n mc condense transfer => w.resize i n mc condense transfer
  | .commit ok => ((w.commit i ok).1.map fun _ => .unit, (w.commit i ok).2)
  | .abort => (.ok .unit, w.abort i)

/-- A schedule: the moves of all sessions in the order in which they happen. (threads using connections of
citrine/database/containerdb.py:26-29) -/
def Shared.moves [Truthy V] [DecidableEq V] (w : Shared V) : List (Nat × Move V) → Shared V
  | [] => w
  | (i, m) :: s => (w.move i m).2.moves s

/-! ## Calls with autocommit, step by step

citrine/storage/transaction.py:70-89: `with tm: return fn(...)`.  Other sessions can do anything between the beginning of the transaction,
the body and the commit. -/

/-- Where a session is in its call. (citrine/storage/transaction.py:70-89) -/
inductive Pc (V : Type) where
  | idle
  | started (op : DbOp V) (at_ : Nat)
  | ran (op : DbOp V) (answer : Outcome (DbRet V)) (at_ : Nat)
  | broken

/-- A call that has returned or raised: by whom, what, the answer, and when it began and ended (numbers of steps). (citrine/storage/transaction.py:70-89) -/
structure Done (V : Type) where
  who : Nat
  op : DbOp V
  answer : Outcome (DbRet V)
  start : Nat
  stop : Nat

/-- A database, the calls in progress, the number of steps so far and the calls that are over, latest first. (citrine/storage/transaction.py:70-89) -/
structure Callers (V : Type) where
  db : Shared V
  pc : Nat → Pc V
  now : Nat := 0
  past : List (Done V) := []

/-- Steps of a session: it calls a method, the body runs, the call returns; after a failed commit the program aborts and switches autocommit on again
(before that calls would not be committed, see `Tm.exit`).  (citrine/storage/transaction.py:70-89) -/
inductive Act (V : Type) where
  | start (op : DbOp V)
  | body
  | finish (ok : Bool)
  | recover

namespace Callers

/-- All sessions are idle. (citrine/database/containerdb.py:26-29) -/
def opened (c : Container V) : Callers V := { db := .opened c, pc := fun _ => .idle }

/-- The end of a call: abort and raise, or commit and return; if the commit fails its exception is raised and the session is left as it is.
(citrine/storage/transaction.py:30-38, 84-86) -/
def finish [DecidableEq V] (s : Callers V) (i : Nat) (op : DbOp V) (at_ : Nat) (ok : Bool) : Outcome (DbRet V) → Callers V
  | .error e => { s with db := s.db.abort i, pc := Function.update s.pc i .idle, past := ⟨i, op, .error e, at_, s.now⟩ :: s.past }
  | .ok v =>
    match s.db.commit i ok with
    | (.ok _, db) => { s with db, pc := Function.update s.pc i .idle, past := ⟨i, op, .ok v, at_, s.now⟩ :: s.past }
    | (.error e, db) => { s with db, pc := Function.update s.pc i .broken, past := ⟨i, op, .error e, at_, s.now⟩ :: s.past }

/-- One step of session `i`; steps that are not possible where the session is do nothing. (citrine/storage/transaction.py:70-89) -/
def act [Truthy V] [DecidableEq V] (s : Callers V) (i : Nat) (a : Act V) : Callers V :=
  match s.pc i, a with
  | .idle, .start op => { s with db := s.db.begin i, pc := Function.update s.pc i (.started op s.now) }
  | .started op t, .body => { s with db := (s.db.run i op).2, pc := Function.update s.pc i (.ran op (s.db.run i op).1 t) }
  | .ran op r t, .finish ok => s.finish i op t ok r
  | .broken, .recover => { s with db := s.db.abort i, pc := Function.update s.pc i .idle }
  | _, _ => s

/-- The clock goes on with every step. (steps of citrine/storage/transaction.py:70-89) -/
def tick (s : Callers V) : Callers V := { s with now := s.now + 1 }

/-- A schedule. (threads using connections of citrine/database/containerdb.py:26-29) -/
def acts [Truthy V] [DecidableEq V] (s : Callers V) : List (Nat × Act V) → Callers V
  | [] => s
  | (i, a) :: rest => (s.act i a).tick.acts rest

end Callers
end Verif.Db
