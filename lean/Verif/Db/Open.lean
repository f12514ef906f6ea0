import Verif.Db.ContainerDb

/-!
# Model of citrine/database/containerdb.py:31-139 for every kind of storage argument, and of
citrine/client/container_client.py

`Db/ContainerDb.lean` (`openDb`) is about a FileStorage object without a `databases` dictionary; this file says what the constructor
does with paths, None, other storage objects and `databases`.  Of ZODB (library) the following is modelled.  `DB.__init__` makes a
FileStorage from a path and a new MappingStorage from None; a FileStorage open for writing locks its file until it is closed; it then
enters itself in `databases` (ValueError if the name is taken) and then opens a connection.  A storage object that was closed refuses
further use (the model calls the error `storageError`).  Simplification: that a lock is released when an object is garbage collected
is not modelled.
-/
namespace Verif.Db
open Verif.Storage
variable {V : Type}

/-- The argument `storage`. (citrine/database/containerdb.py:46-50) -/
inductive StorageArg where
  | fileStorage
  | path
  | memory
  | other
  deriving DecidableEq

/-- What an opening can see and change: what the storage holds, whether its file is locked, whether the storage object was closed, the
names in the `databases` dictionary (if one is given), and the root objects committed so far. (citrine/database/containerdb.py:31-139) -/
structure World (V : Type) where
  disk : Disk V
  locked : Bool := false
  closed : Bool := false
  databases : Option (List String) := none
  writes : List (Root V) := []

namespace World

/-- Commits. (ZODB, library, called by citrine/database/containerdb.py:101-139) -/
def write (w : World V) (ws : List (Root V)) : World V := { w with disk := w.disk.after ws, writes := w.writes ++ ws }

/-- `ZODB.DB.__init__` (library): the storage. (called by citrine/database/containerdb.py:102-111, 117, 129-139) -/
def openStorage (w : World V) : StorageArg → Outcome (World V)
  | .path => if w.locked then .error .lockError else .ok { w with locked := true }
  | .memory => .ok { w with disk := none }
  | .fileStorage | .other => if w.closed then .error .storageError else .ok w

/-- `ZODB.DB.__init__` (library): the dictionary. (called by citrine/database/containerdb.py:102-111, 129-139) -/
def register (w : World V) (name : String) : Outcome (World V) :=
  match w.databases with
  | none => .ok w
  | some ns => if name ∈ ns then .error .valueError else .ok { w with databases := some (name :: ns) }

/-- `ZODB.DB.close` (library). (called by citrine/database/containerdb.py:116, 127) -/
def close (w : World V) : StorageArg → World V
  | .path => { w with locked := false }
  | .memory => { w with disk := none }
  | .fileStorage | .other => { w with closed := true }

/-- `super().__init__` of a ContainerDb: the connection it opens is a ContainerConnection.
(citrine/database/containerdb.py:102-111, 129-139) -/
def superInit (w : World V) (arg : StorageArg) (name : String) : Outcome Unit × World V :=
  match w.openStorage arg with
  | .error e => (.error e, w)
  | .ok w1 =>
    match w1.register name with
    | .error e => (.error e, w1)
    | .ok w2 => (done (connect w2.disk), w2)

/-- citrine/database/containerdb.py:114-116: close the database unless it is on a FileStorage object. -/
def closeUnlessFile (w : World V) (arg : StorageArg) : World V := if arg = .fileStorage then w else w.close arg

/-- citrine/database/containerdb.py:117-128: a plain `DB(storage)`, which makes the root object, and the container if there is none. -/
def fallback (w : World V) (arg : StorageArg) (new : Outcome (Container V)) : Outcome Unit × World V :=
  match (w.closeUnlessFile arg).openStorage arg with
  | .error e => (.error e, w.closeUnlessFile arg)
  | .ok w2 =>
    let w3 := w2.write (plainDb w2.disk)
    match (fill w3.disk new).result with
    | .error e => (.error e, w3.write (fill w3.disk new).writes)
    | .ok _ => (.ok (), (w3.write (fill w3.disk new).writes).closeUnlessFile arg)

/-- citrine/database/containerdb.py:101-139 `__init__` with the result of `Container.new()`. -/
def openWith (w : World V) (arg : StorageArg) (name : String) (new : Outcome (Container V)) : Outcome Unit × World V :=
  match w.superInit arg name with
  | (.error .posKey, w1) =>
    match w1.fallback arg new with
    | (.error e, w2) => (.error e, w2)
    | (.ok _, w2) => w2.superInit arg name
  | (.error e, w1) => (.error e, w1)
  | (.ok _, w1) => w1.superInit arg name

/-- citrine/database/containerdb.py:31-139 `__init__` (and `load`, 194-263) -/
def openDb (w : World V) (arg : StorageArg) (name : String := "unnamed") : Outcome Unit × World V :=
  w.openWith arg name (Container.new (V := V))

/-- citrine/client/container_client.py:193-199: the end of `connect`, on an opened storage. -/
def clientFill (w : World V) (new : Outcome (Container V)) : Outcome Unit × World V :=
  ((fill w.disk new).result, w.write (fill w.disk new).writes)

/-- citrine/client/container_client.py:27-199 `connect`, once the ClientStorage is made: load, then store a container if there is
none. -/
def clientConnect (w : World V) (strict : Bool := false) (name : String := "unnamed") : Outcome Unit × World V :=
  match w.openDb .other name with
  | (.error e, w1) => (.error e, w1)
  | (.ok _, w1) => w1.clientFill (Container.new (V := V) (strict := strict))

end World
end Verif.Db
