import Verif.Db.Transaction
import Verif.Storage.Container

/-!
# Model of citrine/connection/container_connection.py
-/
namespace Verif.Db
open Verif.Storage
variable {V : Type}

/-- What a connection's call returns. (return values of citrine/connection/container_connection.py:173-238) -/
inductive DbRet (V : Type) where
  | unit
  | count (n : Option Nat)
  | prev (v : Option V)
  | objs (vs : List V)
  deriving DecidableEq

/-- citrine/connection/container_connection.py:172-183 `create` (without its decorator) -/
def createFn (id : String) (obj : V) (c : Container V) : Outcome (DbRet V) × Container V :=
  match c.has id with
  | .error e => (.error e, c)
  | .ok 0 => ((c.write id obj).1.map .count, (c.write id obj).2)
  | .ok (_ + 1) => (.error .objectOverwrite, c)

/-- citrine/connection/container_connection.py:195-207 `update` (without its decorator) -/
def updateFn [Truthy V] (id : String) (obj : V) (c : Container V) :
    Outcome (DbRet V) × Container V :=
  match c.read id with
  | .error e => (.error e, c)
  | .ok previous => ((c.write id obj).1.map fun _ => .prev previous, (c.write id obj).2)

/-- citrine/connection/container_connection.py:209-218 `delete` (without its decorator) -/
def deleteFn (id : String) (c : Container V) : Outcome (DbRet V) × Container V :=
  ((c.delete id).1.map .objs, (c.delete id).2)

/-- citrine/connection/container_connection.py:124-128 `strict` setter (`none`: not a
boolean); it is not decorated. -/
def strictFn (value : Option Bool) (c : Container V) : Outcome (DbRet V) × Container V :=
  match value with
  | none => (.error .typeError, c)
  | some b => ((c.setStrict (some b)).1.map fun _ => .unit, (c.setStrict (some b)).2)

/-- The calls that change the database. (citrine/connection/container_connection.py:173-218) -/
inductive DbOp (V : Type) where
  | create (id : String) (obj : V)
  | update (id : String) (obj : V)
  | delete (id : String)
  | strict (value : Option Bool)

/-- The effect of a call on the container (dispatch only). (citrine/connection/container_connection.py:173-218) -/
def DbOp.fn [Truthy V] : DbOp V → Container V → Outcome (DbRet V) × Container V
  | .create id obj => createFn id obj
  | .update id obj => updateFn id obj
  | .delete id => deleteFn id
  | .strict b => strictFn b

/-- Is the method decorated with `@autocommit`?
(citrine/connection/container_connection.py:172,195,209) -/
def DbOp.decorated : DbOp V → Bool
  | .create _ _ => true
  | .update _ _ => true
  | .delete _ => true
  | .strict _ => false

/-- citrine/connection/container_connection.py:145-170 `ContainerConnection`: the session
and `___autocommit___`. -/
structure Conn (V : Type) where
  tm : Tm (Container V)
  flag : Bool

namespace Conn

/-- citrine/connection/container_connection.py:153-170 `__init__` on a database that holds
the container `c` (or none).  The manager's own flag starts as True
(citrine/storage/transaction.py:21,49): the argument does not reach it. -/
def init (c : Option (Container V)) (autocommit : Bool := true) : Outcome (Conn V) :=
  match c with
  | none => .error .incompatibleDatabase
  | some c => .ok { tm := { work := c, committed := c }, flag := autocommit }

/-- citrine/connection/container_connection.py:131-136 `autocommit` -/
def autocommit (c : Conn V) : Bool := c.flag

/-- citrine/connection/container_connection.py:138-143 `autocommit` setter -/
def setAutocommit (c : Conn V) (value : Option Bool) : Outcome Unit × Conn V :=
  match value with
  | none => (.error .typeError, c)
  | some b => (.ok (), { tm := { c.tm with autocommit := b }, flag := b })

/-- A mutating call.  `ok` tells whether the storage accepts a commit made by it.
(citrine/connection/container_connection.py:173-218 under citrine/storage/transaction.py:70-88) -/
def call [Truthy V] (c : Conn V) (op : DbOp V) (ok : Bool := true) : Outcome (DbRet V) × Conn V :=
  if op.decorated then
    ((c.tm.autocommitted op.fn ok).1, { c with tm := (c.tm.autocommitted op.fn ok).2 })
  else ((c.tm.plain op.fn).1, { c with tm := (c.tm.plain op.fn).2 })

/-- citrine/connection/container_connection.py:185-193 `read` -/
def read [Truthy V] (c : Conn V) (id : String) : Outcome (Option V) := c.tm.work.read id

/-- citrine/connection/container_connection.py:228-231 `__getitem__` with a string; the
result `none` is Python's None. -/
def getItem [Truthy V] (c : Conn V) (id : String) : Outcome (Option V) :=
  match c.tm.work.has id with
  | .error e => .error e
  | .ok 0 => .error .keyError
  | .ok (_ + 1) => c.tm.work.read id

/-- Python's truth value of an object or None. (`if obj` in citrine/connection/container_connection.py:220-238) -/
def _root_.Verif.Db.truthyOpt [Truthy V] : Option V → Bool
  | none => false
  | some v => truthy v

/-- citrine/connection/container_connection.py:235-238 `__getitem__` with an iterable -/
def getItems [Truthy V] (c : Conn V) (ids : List String) : Outcome (List (Option V)) :=
  match ids.mapM fun id => c.tm.work.read id with
  | .error e => .error e
  | .ok results =>
    if results.any truthyOpt then .ok results
    else .error .keyError

/-- An argument of `__getitem__`. (citrine/connection/container_connection.py:220-238) -/
inductive Selector where
  | str (id : String)
  | iter (ids : List String)
  | other

/-- citrine/connection/container_connection.py:220-238 `__getitem__` -/
def subscript [Truthy V] (c : Conn V) : Selector → Outcome (Option V ⊕ List (Option V))
  | .str id => (c.getItem id).map .inl
  | .other => .error .indexError
  | .iter ids => (c.getItems ids).map .inr

/-- citrine/connection/container_connection.py:240-244 `__enter__` -/
def enter (c : Conn V) : Conn V := { c with tm := c.tm.enter }

/-- citrine/connection/container_connection.py:246-254 `__exit__`: `self.autocommit = True`
sets both flags before the manager's `__exit__`. -/
def exit (c : Conn V) (raised ok : Bool) : Outcome Unit × Conn V :=
  let t := { c.tm with autocommit := true }
  ((t.exit raised ok).1, { tm := (t.exit raised ok).2, flag := true })

end Conn

/-- Everything a program can do with a connection, and a crash of the process followed by
reopening the database. (citrine/connection/container_connection.py:121-253) -/
inductive Event (V : Type) where
  | call (op : DbOp V) (ok : Bool)
  | setAutocommit (value : Option Bool)
  | enter
  | exit (raised ok : Bool)
  | commit (ok : Bool)
  | abort
  | crash (autocommit : Bool)

/-- One event (dispatch only).  After a crash the database is opened again. (citrine/connection/container_connection.py:121-253) -/
def Conn.step [Truthy V] (c : Conn V) : Event V → Conn V
  | .call op ok => (c.call op ok).2
  | .setAutocommit b => (c.setAutocommit b).2
  | .enter => c.enter
  | .exit raised ok => (c.exit raised ok).2
  | .commit ok => { c with tm := (c.tm.commit ok).2 }
  | .abort => { c with tm := c.tm.abort }
  | .crash a => { tm := { work := c.tm.committed, committed := c.tm.committed, log := c.tm.log }, flag := a }

/-- A history of events. (citrine/connection/container_connection.py:121-253) -/
def Conn.steps [Truthy V] (c : Conn V) : List (Event V) → Conn V
  | [] => c
  | e :: es => (c.step e).steps es

end Verif.Db
