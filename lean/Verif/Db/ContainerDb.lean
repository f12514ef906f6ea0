import Verif.Db.Connection

/-!
# Model of citrine/database/containerdb.py on a FileStorage object (other storages and citrine/client/container_client.py: Db/Open.lean)

What is stored is the root object of the storage (`none`: a new storage without one).
Of ZODB only this is modelled: `DB(storage)` makes and commits an empty root object if
there is none; a `with conn.transaction_manager` block commits what it assigned; connections
of a `ContainerDb` are `ContainerConnection`s, whose constructor looks up the root first
and gets POSKeyError if there is none.  Pools, caches, locks, read-only storages and the
keyword arguments handed on unchanged are not modelled.
-/
namespace Verif.Db
open Verif.Storage
variable {V : Type}

/-- The root object: the entry `container` and all other entries. (the root object used by citrine/database/containerdb.py:26-140) -/
structure Root (V : Type) where
  container : Option (Container V) := none
  others : List (String × Nat) := []

/-- What a storage holds. (the storage opened by citrine/database/containerdb.py:31-140) -/
abbrev Disk (V : Type) := Option (Root V)

/-- An operation on a storage: its result and the root objects it commits, in order. (citrine/database/containerdb.py:31-377) -/
structure Opened (V : Type) where
  result : Outcome Unit
  writes : List (Root V)

/-- The storage after the given commits. (commits of ZODB, library, by citrine/database/containerdb.py:31-140) -/
def Disk.after (d : Disk V) : List (Root V) → Disk V
  | [] => d
  | r :: rs => Disk.after (some r) rs

/-- citrine/connection/container_connection.py:153-170 `__init__`, on a storage. -/
def connect (d : Disk V) (autocommit : Bool := true) : Outcome (Conn V) :=
  match d with
  | none => .error .posKey
  | some r => Conn.init r.container autocommit

/-- `ZODB.DB.__init__` (library): the commits it makes. (library, called by citrine/database/containerdb.py:31-140) -/
def plainDb : Disk V → List (Root V)
  | none => [{}]
  | some _ => []

/-- citrine/database/containerdb.py:120-124 (also citrine/client/container_client.py:193-198):
store a container if the root has none. -/
def fill (d : Disk V) (new : Outcome (Container V)) : Opened V :=
  match d with
  | none => ⟨.error .posKey, []⟩
  | some r =>
    match r.container with
    | some _ => ⟨.ok (), []⟩
    | none =>
      match new with
      | .error e => ⟨.error e, []⟩
      | .ok c => ⟨.ok (), [{ r with container := some c }]⟩

/-- The result of a constructor, without the object. (citrine/database/containerdb.py:31-140) -/
def done {α : Type} : Outcome α → Outcome Unit
  | .error e => .error e
  | .ok _ => .ok ()

/-- citrine/database/containerdb.py:113-139: the `except POSKeyError` branch and the second
`super().__init__`; `new` is the result of `Container.new()`. -/
def openNew (new : Outcome (Container V)) (d : Disk V) : Opened V :=
  let w1 := plainDb d
  let o := fill (d.after w1) new
  match o.result with
  | .error e => ⟨.error e, w1 ++ o.writes⟩
  | .ok _ => ⟨done (connect ((d.after w1).after o.writes)), w1 ++ o.writes⟩

/-- citrine/database/containerdb.py:101-139 `ContainerDb.__init__`, with the result of
`Container.new()`. -/
def openDbWith (new : Outcome (Container V)) (d : Disk V) : Opened V :=
  match connect d with
  | .error .posKey => openNew new d
  | .error e => ⟨.error e, []⟩
  | .ok _ => ⟨done (connect d), []⟩

/-- citrine/database/containerdb.py:101-139 `ContainerDb.__init__` (and `load`, 194-263) -/
def openDb (d : Disk V) : Opened V := openDbWith (Container.new (V := V)) d

/-- citrine/database/containerdb.py:178-192: `create` with the result of `Container.new`.
`existing` is what the file holds (`none` also if there is no file); with `create` it is
emptied first.  Returns the commits and the storage they start from. -/
def createDbWith (new : Outcome (Container V)) (existing : Disk V) (create : Bool) : Opened V × Disk V :=
  match new with
  | .error e => (⟨.error e, []⟩, existing)
  | .ok c =>
    let d : Disk V := if create then none else existing
    let w1 := plainDb d
    match d.after w1 with
    | none => (⟨.error .posKey, w1⟩, d)
    | some r => (⟨.ok (), w1 ++ [{ r with container := some c }]⟩, d)

/-- citrine/database/containerdb.py:141-192 `create`; `strict` is not used. -/
def createDb (existing : Disk V) (capacity : Nat := defaultContainerSize) (create : Bool := false)
    (_strict : Bool := false) : Opened V × Disk V :=
  createDbWith (Container.new (V := V) capacity) existing create

/-- citrine/database/containerdb.py:355-377: load what `create` made. -/
def loadAfter (o : Opened V × Disk V) : Opened V × Disk V :=
  match o.1.result with
  | .error e => (⟨.error e, o.1.writes⟩, o.2)
  | .ok _ => (⟨(openDb (o.2.after o.1.writes)).result, o.1.writes ++ (openDb (o.2.after o.1.writes)).writes⟩, o.2)

/-- citrine/database/containerdb.py:265-377 `new`: create, then load. -/
def newDb (existing : Disk V) (capacity : Nat := defaultContainerSize) (create : Bool := false)
    (strict : Bool := false) : Opened V × Disk V :=
  loadAfter (createDb existing capacity create strict)

end Verif.Db
