import Verif.Db.Concurrent

/-!
# The connections of a ContainerDb: open, close, `with db`

citrine/database/containerdb.py:26-29 (`open`), 379-389 (`__enter__`, `__exit__`) and the
connections of citrine/connection/container_connection.py.  Of ZODB only this documented
behaviour is modelled: `DB.open` takes the connection closed last from the pool, or makes a
new one, hands it the given transaction manager and begins with the stored state; the pool
may forget the connections that were closed first (size and age limits); a connection has
joined its transaction when the transaction has changed something; `close` raises
ConnectionStateError for a connection that has joined, otherwise drops its transaction
manager and puts it into the pool, and does nothing if it is closed already.
Simplification: a call on a connection is one step here (the steps inside calls are in
Verif.Db.Concurrent); a connection is used by one thread at a time; objects that are still
in a closed connection's cache are not modelled, so nothing is read from closed connections.
-/
namespace Verif.Db
open Verif.Storage
variable {V : Type}

/-- A ContainerConnection object: is it open, `___autocommit___`, the flag of its transaction
manager, has it joined its transaction.
(citrine/connection/container_connection.py:130-170, citrine/storage/transaction.py:41-51) -/
structure Handle where
  opened : Bool := false
  flag : Bool := true
  auto : Bool := true
  joined : Bool := false
  deriving DecidableEq

/-- A ContainerDb: the storage and the sessions on it, its connection objects, the number of connections made so far, the closed
ones waiting to be used again (closed last first) and `__context_manager_connection`.
(citrine/database/containerdb.py:11-29, 379-389) -/
structure Pool (V : Type) where
  db : Shared V
  handle : Nat → Handle := fun _ => {}
  next : Nat := 0
  pool : List Nat := []
  slot : Option Nat := none

namespace Pool

/-- A ContainerDb that was just made for a storage with the given container. (citrine/database/containerdb.py:31-139) -/
def fresh (c : Container V) : Pool V := { db := .opened c }

/-- Replace a connection's flags. (citrine/connection/container_connection.py:130-170) -/
def setHandle (p : Pool V) (i : Nat) (h : Handle) : Pool V := { p with handle := Function.update p.handle i h }

/-- `Connection.open` (library) with the new manager of citrine/database/containerdb.py:27; the manager's flag starts as True
(citrine/storage/transaction.py:49), `___autocommit___` is not touched. -/
def take (p : Pool V) (i : Nat) : Pool V :=
  { p.setHandle i { p.handle i with opened := true, auto := true, joined := false } with db := p.db.begin i }

/-- citrine/database/containerdb.py:26-29 `open` -/
def openConn (p : Pool V) : Nat × Pool V :=
  match p.pool with
  | [] => (p.next, { p.take p.next with next := p.next + 1 })
  | i :: rest => (i, { p.take i with pool := rest })

/-- `Connection.close` (library) (called by users and by citrine/database/containerdb.py:389) -/
def close (p : Pool V) (i : Nat) : Outcome Unit × Pool V :=
  if (p.handle i).joined then (.error .connectionState, p)
  else if (p.handle i).opened then
    (.ok (), { p.setHandle i { p.handle i with opened := false } with pool := i :: p.pool })
  else (.ok (), p)

/-- The pool forgets connections, except the `n` closed last (library limits of citrine/database/containerdb.py:31-35: `pool_size`,
`pool_timeout`). -/
def forget (p : Pool V) (n : Nat) : Pool V := { p with pool := p.pool.take n }

/-- citrine/database/containerdb.py:379-386 `__enter__`: one attribute of the database holds the connection. -/
def enterDb (p : Pool V) : Nat × Pool V := (p.openConn.1, { p.openConn.2 with slot := some p.openConn.1 })

/-- citrine/database/containerdb.py:388-389 `__exit__` (the same with and without an exception) -/
def exitDb (p : Pool V) : Outcome Unit × Pool V :=
  match p.slot with
  | none => (.error .attributeError, p)
  | some i => p.close i

/-- Has a call changed an object?  `c` is the container the call began with.  A delete raises in the first group that has not got the id
(citrine/storage/container.py:382-388), so a failing one has changed something iff the first group had it; every other failing call
(citrine/connection/container_connection.py:124-128, 172-207) raises before it changes anything. -/
def touched (op : DbOp V) (c : Container V) (r : Outcome (DbRet V)) : Bool :=
  match r, op with
  | .ok (.objs []), _ => false
  | .ok _, _ => true
  | .error _, .delete id =>
    match c.groups with
    | [] => false
    | a :: _ => (c.heap a).hasKey id == .ok true
  | .error _, _ => false

section Calls
variable [Truthy V] [DecidableEq V]

/-- A call that commits itself: `with tm: return fn(...)` (citrine/storage/transaction.py:70-89).  If the commit fails the manager's flag
stays False (30-38). -/
def callAuto (p : Pool V) (i : Nat) (op : DbOp V) (ok : Bool) : Outcome (DbRet V) × Pool V :=
  let h := p.handle i
  match (p.db.begin i).run i op with
  | (.error e, w) => (.error e, { p.setHandle i { h with joined := false } with db := w.abort i })
  | (.ok v, w) =>
    match w.commit i ok with
    | (.error e, w') => (.error e, { p.setHandle i { h with auto := false, joined := false } with db := w' })
    | (.ok _, w') => (.ok v, { p.setHandle i { h with joined := false } with db := w' })

/-- A call that does not commit (citrine/storage/transaction.py:79-83, or the setter citrine/connection/container_connection.py:124-128) -/
def callPlain (p : Pool V) (i : Nat) (op : DbOp V) : Outcome (DbRet V) × Pool V :=
  let h := p.handle i
  let r := p.db.run i op
  (r.1, { p.setHandle i { h with joined := h.joined || (!(p.db.sess i).failed && touched op (p.db.sess i).work r.1) } with db := r.2 })

/-- create, update, delete or `strict = ...` on a connection (citrine/connection/container_connection.py:124-128, 172-218); a closed connection has no
transaction manager, so the decorator raises AttributeError (citrine/storage/transaction.py:80-81). -/
def call (p : Pool V) (i : Nat) (op : DbOp V) (ok : Bool) : Outcome (DbRet V) × Pool V :=
  if ¬ (p.handle i).opened then (.error .attributeError, p)
  else if op.decorated ∧ (p.handle i).auto then p.callAuto i op ok
  else p.callPlain i op

omit [Truthy V] in
/-- `connection.transaction_manager.commit()` (library), as in citrine/storage/container.py:284 -/
def commit (p : Pool V) (i : Nat) (ok : Bool) : Outcome Unit × Pool V :=
  if ¬ (p.handle i).opened then (.error .attributeError, p)
  else ((p.db.commit i ok).1, { p.setHandle i { p.handle i with joined := false } with db := (p.db.commit i ok).2 })

omit [Truthy V] in
/-- citrine/connection/container_connection.py:246-254 `__exit__`: `self.autocommit = True` sets `___autocommit___`, then the manager's flag. -/
def exitConn (p : Pool V) (i : Nat) (raised ok : Bool) : Outcome Unit × Pool V :=
  let h := { p.handle i with flag := true }
  if ¬ (p.handle i).opened then (.error .attributeError, p.setHandle i h)
  else if raised then (.ok (), { p.setHandle i { h with auto := true, joined := false } with db := p.db.abort i })
  else ((p.db.commit i ok).1, { p.setHandle i { h with auto := true, joined := false } with db := (p.db.commit i ok).2 })

end Calls

/-- `connection.transaction_manager.abort()` (library; citrine/storage/transaction.py:35) -/
def abort (p : Pool V) (i : Nat) : Outcome Unit × Pool V :=
  if ¬ (p.handle i).opened then (.error .attributeError, p)
  else (.ok (), { p.setHandle i { p.handle i with joined := false } with db := p.db.abort i })

/-- citrine/connection/container_connection.py:240-244 `__enter__` -/
def enterConn (p : Pool V) (i : Nat) : Outcome Unit × Pool V :=
  if ¬ (p.handle i).opened then (.error .attributeError, p)
  else (.ok (), { p.setHandle i { p.handle i with auto := false, joined := false } with db := p.db.begin i })

/-- citrine/connection/container_connection.py:138-143 `autocommit` setter (`none`: not a boolean); on a closed connection the second
assignment raises. -/
def setAuto (p : Pool V) (i : Nat) (value : Option Bool) : Outcome Unit × Pool V :=
  match value with
  | none => (.error .typeError, p)
  | some b =>
    if ¬ (p.handle i).opened then (.error .attributeError, p.setHandle i { p.handle i with flag := b })
    else (.ok (), p.setHandle i { p.handle i with flag := b, auto := b })

end Pool

/-- What is done with one connection. (citrine/connection/container_connection.py:124-143, 172-254) -/
inductive ConnUse (V : Type) where
  | call (op : DbOp V) (ok : Bool)
  | read (id : String)
  | enter
  | exit (raised ok : Bool)
  | commit (ok : Bool)
  | abort
  | setAuto (value : Option Bool)
  | close

/-- What is done with a database and its connections. (citrine/database/containerdb.py:26-29, 379-389) -/
inductive PoolCall (V : Type) where
  | openConn
  | forget (n : Nat)
  | enterDb
  | exitDb
  | use (i : Nat) (u : ConnUse V)

/-- What such a call returns. (citrine/database/containerdb.py:26-29, 379-389, citrine/connection/container_connection.py:124-143, 172-254) -/
inductive PoolRet (V : Type) where
  | unit
  | conn (i : Nat)
  | ret (r : DbRet V)
  | val (v : Option V)
  deriving DecidableEq

namespace Pool
variable [Truthy V] [DecidableEq V]

/-- Dispatch. (citrine/connection/container_connection.py:124-143, 172-254) -/
def use (p : Pool V) (i : Nat) : ConnUse V → Outcome (PoolRet V) × Pool V
  | .call op ok => ((p.call i op ok).1.map .ret, (p.call i op ok).2)
  | .read id => (if (p.handle i).opened then (p.db.read i id).map .val else .error .connectionState, p)
  | .enter => ((p.enterConn i).1.map fun _ => .unit, (p.enterConn i).2)
  | .exit raised ok => ((p.exitConn i raised ok).1.map fun _ => .unit, (p.exitConn i raised ok).2)
  | .commit ok => ((p.commit i ok).1.map fun _ => .unit, (p.commit i ok).2)
  | .abort => ((p.abort i).1.map fun _ => .unit, (p.abort i).2)
  | .setAuto b => ((p.setAuto i b).1.map fun _ => .unit, (p.setAuto i b).2)
  | .close => ((p.close i).1.map fun _ => .unit, (p.close i).2)

/-- Dispatch. (citrine/database/containerdb.py:26-29, 379-389) -/
def step (p : Pool V) : PoolCall V → Outcome (PoolRet V) × Pool V
  | .openConn => (.ok (.conn p.openConn.1), p.openConn.2)
  | .forget n => (.ok .unit, p.forget n)
  | .enterDb => (.ok (.conn p.enterDb.1), p.enterDb.2)
  | .exitDb => (p.exitDb.1.map fun _ => .unit, p.exitDb.2)
  | .use i u => p.use i u

/-- A history of calls. (users of citrine/database/containerdb.py:26-29, 379-389) -/
def run (p : Pool V) : List (PoolCall V) → List (Outcome (PoolRet V)) × Pool V
  | [] => ([], p)
  | a :: as => ((p.step a).1 :: ((p.step a).2.run as).1, ((p.step a).2.run as).2)

end Pool
end Verif.Db
