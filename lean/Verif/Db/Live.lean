import Verif.Db.Connection

/-!
# Live objects: a session that hands out and takes references

`conn.read` returns, and `conn.create` and `conn.update` take, references to Python objects, which the program can change at any time; the
other models of sessions (`Db/Connection`) hold values.  Here a session maps ids to objects, and objects have contents.
Of ZODB this documented behaviour is modelled: stored objects that are not themselves persistent live in the record of the B-tree
bucket of their id; the bucket notices when its entries are set or deleted, but not when an object in it changes; a commit
writes the buckets that noticed a change, with the objects as they are then; an abort drops these buckets, which are loaded again, and
no others; a bucket without noticed changes may be dropped from the cache at any time.
Simplifications: which ids share a bucket does not change with time (buckets do not split); two entries of one bucket loaded again are
two objects; the container is used as the map it is (C93), without strict mode; one session at a time.
-/
namespace Verif.Db.Live
open Verif Verif.Storage Verif.Db

/-- A Python object: loaded from the database at some moment for an id, or made by the program.
(the objects of citrine/connection/container_connection.py:172-218) -/
inductive Addr where
  | loaded (time : Nat) (id : String)
  | made (n : Nat)
  deriving DecidableEq

/-- A session: the contents of all objects, the objects in the database as the session sees it, what is on disk, the records with noticed
changes, the manager's flags, and a clock for fresh objects.  `R` are the records.
(citrine/connection/container_connection.py:145-170, citrine/storage/transaction.py:7-67 and ZODB (library)) -/
structure Session (V R : Type) where
  heap : Addr → V
  mem : String → Option Addr
  disk : String → Option V
  dirty : R → Bool
  auto : Bool := true
  failed : Bool := false
  time : Nat := 0

variable {V R : Type} [DecidableEq R] (rec : String → R)

/-- Contents after loading: the objects loaded now have what is on disk. (library ZODB, after `abort` in citrine/storage/transaction.py:30-38) -/
def loadedHeap (heap : Addr → V) (disk : String → Option V) (time : Nat) (drop : String → Bool) : Addr → V
  | .made n => heap (.made n)
  | .loaded t id => if t = time ∧ drop id then (disk id).getD (heap (.loaded t id)) else heap (.loaded t id)

/-- The records for which `which` holds are dropped and loaded again. (library ZODB, after `abort` in citrine/storage/transaction.py:30-38) -/
def Session.reload (s : Session V R) (which : R → Bool) : Session V R :=
  { s with
    heap := loadedHeap s.heap s.disk s.time fun id => which (rec id)
    mem := fun id => if which (rec id) then (s.disk id).map fun _ => .loaded s.time id else s.mem id
    time := s.time + 1 }

/-- `abort()` and `begin()` (library `transaction`, used by citrine/storage/transaction.py:24-38) -/
def Session.abort (s : Session V R) : Session V R := { s.reload rec s.dirty with dirty := fun _ => false, failed := false }

/-- `commit()` (library `transaction`, used by citrine/storage/transaction.py:30-38): the records with noticed changes are written as they
are; if that fails they are dropped and the transaction is left failed. -/
def Session.commit (s : Session V R) (ok : Bool) : Outcome Unit × Session V R :=
  if s.failed then (.error .transactionFailed, s)
  else if ok then
    (.ok (), { s with disk := fun id => if s.dirty (rec id) then (s.mem id).map s.heap else s.disk id, dirty := fun _ => false })
  else (.error .storageError, { s.reload rec s.dirty with dirty := fun _ => false, failed := true })

/-- `tree[id] = obj` or `del tree[id]`: the bucket notices. (citrine/storage/collection.py:142-179 through citrine/storage/container.py:372-388) -/
def Session.put (s : Session V R) (id : String) (obj : Option Addr) : Session V R :=
  { s with mem := Function.update s.mem id obj, dirty := Function.update s.dirty (rec id) true }

/-- citrine/connection/container_connection.py:172-218 without their decorator, on the container as a map -/
def Session.fn (s : Session V R) : DbOp Addr → Outcome (DbRet Addr) × Session V R
  | .create id obj =>
    match s.mem id with
    | none => (.ok (.count (some 1)), s.put rec id (some obj))
    | some _ => (.error .objectOverwrite, s)
  | .update id obj => (.ok (.prev (s.mem id)), s.put rec id (some obj))
  | .delete id =>
    match s.mem id with
    | none => (.ok (.objs []), s)
    | some a => (.ok (.objs [a]), s.put rec id none)
  | .strict _ => (.ok .unit, s)

/-- The rest of `with tm:` around a call that returned `r` (citrine/storage/transaction.py:31-39): if the commit raises, the flag
stays off. -/
def Session.finish (s : Session V R) (r : DbRet Addr) (ok : Bool) : Outcome (DbRet Addr) × Session V R :=
  match s.commit rec ok with
  | (.error e, s') => (.error e, { s' with auto := false })
  | (.ok _, s') => (.ok r, { s' with auto := true })

/-- citrine/storage/transaction.py:70-88 `autocommit` around a call: `with tm:` if the flag is on, else the call itself.
With a failed transaction it raises. -/
def Session.call (s : Session V R) (op : DbOp Addr) (ok : Bool) : Outcome (DbRet Addr) × Session V R :=
  if s.auto then
    match (s.abort rec).fn rec op with
    | (.error e, s') => (.error e, s'.abort rec)
    | (.ok r, s') => s'.finish rec r ok
  else if s.failed then (.error .transactionFailed, s)
  else s.fn rec op

/-- citrine/connection/container_connection.py:246-254 `__exit__` with citrine/storage/transaction.py:31-39 -/
def Session.exit (s : Session V R) (raised ok : Bool) : Outcome Unit × Session V R :=
  if raised then (.ok (), { s.abort rec with auto := true })
  else ((s.commit rec ok).1, { (s.commit rec ok).2 with auto := true })

/-- What can happen: the calls of a session, and that the program changes an object, or ZODB drops records from its cache.
(citrine/connection/container_connection.py:121-253) -/
inductive LiveEvent (V R : Type) where
  | call (op : DbOp Addr) (ok : Bool)
  | setAutocommit (value : Option Bool)
  | enter
  | exit (raised ok : Bool)
  | commit (ok : Bool)
  | abort
  | crash
  | change (obj : Addr) (value : V)
  | evict (which : R → Bool)

/-- One event. After a crash the database is opened again. (citrine/connection/container_connection.py:121-253) -/
def Session.step (s : Session V R) : LiveEvent V R → Session V R
  | .call op ok => (s.call rec op ok).2
  | .setAutocommit value => { s with auto := value.getD s.auto }
  | .enter => { s.abort rec with auto := false }
  | .exit raised ok => (s.exit rec raised ok).2
  | .commit ok => (s.commit rec ok).2
  | .abort => s.abort rec
  | .crash => { s.reload rec fun _ => true with dirty := fun _ => false, failed := false, auto := true }
  | .change obj value => { s with heap := Function.update s.heap obj value }
  | .evict which => s.reload rec fun r => which r && !s.dirty r

/-- A history. (citrine/connection/container_connection.py:121-253) -/
def Session.steps (s : Session V R) : List (LiveEvent V R) → Session V R
  | [] => s
  | e :: es => (s.step rec e).steps es

/-- `conn.read(id)`: the contents of the object returned (citrine/connection/container_connection.py:185-193) -/
def Session.read (s : Session V R) (id : String) : Option V := (s.mem id).map s.heap

end Verif.Db.Live
