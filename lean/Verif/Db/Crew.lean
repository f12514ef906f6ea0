import Verif.Db.Pool

/-!
# Threads that share one connection

A ContainerConnection has by default a `ThreadTransactionManager` (citrine/storage/transaction.py:41-67,
citrine/connection/container_connection.py:158-160), "that creates a copy in the thread that this object is used in": the autocommit flag and the
current transaction are the thread's own, the objects and what is changed in them are the connection's.  Of ZODB and `transaction` this
documented behaviour is modelled: the connection joins the current transaction of the thread that makes the first change, and no other
until that one is over; the end of the joined transaction commits or aborts everything changed through the connection; a commit or abort of a
transaction that the connection has not joined does nothing to it; a thread whose commit has failed gets an exception when it would join.
Simplifications: as in `Tm.plain` every call of such a thread raises, not only one that changes something, and as in `Tm.commit` `ok` may be false
(the storage refuses) for every commit; a step (begin, body of a call, commit, abort) is atomic.
-/
namespace Verif.Db
open Verif.Storage
variable {V : Type}

/-- A connection used by threads: what is stored, what the connection's objects hold, the thread whose transaction it has joined, `___autocommit___`,
and for every thread its copy of the manager's flag and whether its transaction has failed.
(citrine/connection/container_connection.py:145-170, citrine/storage/transaction.py:41-67) -/
structure Crew (V : Type) where
  committed : Container V
  work : Container V
  joined : Option Nat := none
  flag : Bool := true
  auto : Nat → Bool := fun _ => true
  failed : Nat → Bool := fun _ => false

namespace Crew

/-- A connection just opened. (citrine/connection/container_connection.py:153-170) -/
def opened (c : Container V) (flag : Bool := true) : Crew V := { committed := c, work := c, flag }

/-- The connection's part of an abort by thread `t`. (`Connection.abort` of ZODB (library), citrine/storage/transaction.py:59-67) -/
def dropped (s : Crew V) (t : Nat) : Crew V := if s.joined = some t then { s with work := s.committed, joined := none } else s

/-- `abort()` in thread `t` (library `transaction`; citrine/storage/transaction.py:64) -/
def abort (s : Crew V) (t : Nat) : Crew V := { s.dropped t with failed := Function.update s.failed t false }

/-- The connection's part of a commit by thread `t`. (`Connection.commit` of ZODB (library), citrine/storage/transaction.py:59-67) -/
def written (s : Crew V) (t : Nat) : Crew V := if s.joined = some t then { s with committed := s.work, joined := none } else s

/-- `commit()` in thread `t` (library `transaction`; citrine/storage/transaction.py:61) -/
def commit (s : Crew V) (t : Nat) (ok : Bool) : Outcome Unit × Crew V :=
  if s.failed t then (.error .transactionFailed, s)
  else if ok then (.ok (), s.written t)
  else (.error .storageError, { s.dropped t with failed := Function.update s.failed t true })

/-- citrine/storage/transaction.py:53-57 `__enter__` in thread `t` (and citrine/connection/container_connection.py:240-244) -/
def enter (s : Crew V) (t : Nat) : Crew V := { s.abort t with auto := Function.update s.auto t false }

/-- citrine/storage/transaction.py:59-67 `__exit__` in thread `t` -/
def leave (s : Crew V) (t : Nat) (raised ok : Bool) : Outcome Unit × Crew V :=
  if raised then (.ok (), { s.abort t with auto := Function.update s.auto t true })
  else
    match s.commit t ok with
    | (.error e, s') => (.error e, s')
    | (.ok _, s') => (.ok (), { s' with auto := Function.update s'.auto t true })

/-- The body of a call by thread `t`: the first change joins the connection to its transaction.
(citrine/connection/container_connection.py:124-128, 172-218; `Connection.register` of ZODB (library)) -/
def body [Truthy V] (s : Crew V) (t : Nat) (op : DbOp V) : Outcome (DbRet V) × Crew V :=
  if s.joined = none ∧ s.failed t then (.error .transactionFailed, s)
  else ((op.fn s.work).1,
    { s with work := (op.fn s.work).2, joined := if s.joined = none ∧ Pool.touched op s.work (op.fn s.work).1 then some t else s.joined })

/-- The end of a call that commits itself. (citrine/storage/transaction.py:84-86 with 59-67) -/
def finish (r : Outcome (DbRet V)) (s : Crew V) (t : Nat) (ok : Bool) : Outcome (DbRet V) × Crew V :=
  match r with
  | .error e => (.error e, (s.leave t true ok).2)
  | .ok v =>
    match s.leave t false ok with
    | (.error e, s') => (.error e, s')
    | (.ok _, s') => (.ok v, s')

/-- A call of thread `t` from beginning to end, undisturbed. (citrine/connection/container_connection.py:124-128, 172-218 under
citrine/storage/transaction.py:70-89) -/
def call [Truthy V] (s : Crew V) (t : Nat) (op : DbOp V) (ok : Bool) : Outcome (DbRet V) × Crew V :=
  if op.decorated ∧ s.auto t then finish ((s.enter t).body t op).1 ((s.enter t).body t op).2 t ok
  else s.body t op

/-- citrine/connection/container_connection.py:138-143 `autocommit` setter in thread `t`: `___autocommit___` is the connection's, the manager's flag
the thread's. -/
def setAutocommit (s : Crew V) (t : Nat) : Option Bool → Crew V
  | none => s
  | some b => { s with flag := b, auto := Function.update s.auto t b }

/-- citrine/connection/container_connection.py:246-254 `__exit__` in thread `t` -/
def exit (s : Crew V) (t : Nat) (raised ok : Bool) : Outcome Unit × Crew V := (s.setAutocommit t (some true)).leave t raised ok

/-- One event in thread `t`; after a crash everything starts again. (citrine/connection/container_connection.py:121-253) -/
def step [Truthy V] (s : Crew V) (t : Nat) : Event V → Crew V
  | .call op ok => (s.call t op ok).2
  | .setAutocommit b => s.setAutocommit t b
  | .enter => s.enter t
  | .exit raised ok => (s.exit t raised ok).2
  | .commit ok => (s.commit t ok).2
  | .abort => s.abort t
  | .crash a => opened s.committed a

/-- A schedule of events of all threads. (citrine/connection/container_connection.py:121-253) -/
def steps [Truthy V] (s : Crew V) : List (Nat × Event V) → Crew V
  | [] => s
  | (t, e) :: es => (s.step t e).steps es

/-- citrine/connection/container_connection.py:185-193 `read`, in any thread -/
def read [Truthy V] (s : Crew V) (id : String) : Outcome (Option V) := s.work.read id

end Crew
end Verif.Db
