import Verif.Db.Modules

/-!
# Model of citrine/cluster_tools/dbmodule/dbgroup.py: `DbGroup.databases`, `DbGroup.size`, ManagedGroupDB

Of ZODB (library) the following is modelled: `DB.__init__` opens its storage first (making the file if there is none), then raises
ValueError if its name is in `databases`; a `ZODB.DB` is no context manager (it has no `__enter__`), so `with db` raises TypeError.
-/
namespace Verif.Db

/-- The part of a DbGroup that `databases` depends on: the modules (the database of each) and the dictionary assigned by the user.
(citrine/cluster_tools/dbmodule/dbgroup.py:23-49) -/
structure Databases (D : Type) where
  modules : PyDict String D := []
  assigned : Option (PyDict String D) := none

/-- citrine/cluster_tools/dbmodule/dbgroup.py:23-31 `databases` -/
def Databases.value {D : Type} (g : Databases D) : PyDict String D :=
  match g.assigned with
  | some d => d
  | none => g.modules

/-- What can happen to them: `g.databases = d`, `del g.databases`, `g.modules[name] = module`, `g.modules = m`.
(citrine/cluster_tools/dbmodule/dbgroup.py:33-47, 71) -/
inductive DatabasesOp (D : Type) where
  | assign (d : PyDict String D)
  | del
  | add (name : String) (db : D)
  | modules (m : PyDict String D)

/-- citrine/cluster_tools/dbmodule/dbgroup.py:33-47, 71 -/
def Databases.step {D : Type} (g : Databases D) : DatabasesOp D → Outcome Unit × Databases D
  | .assign d => (.ok (), { g with assigned := some d })
  | .del =>
    match g.assigned with
    | none => (.error .attributeError, g)
    | some _ => (.ok (), { g with assigned := none })
  | .add name db => (.ok (), { g with modules := g.modules.dset name db })
  | .modules m => (.ok (), { g with modules := m })

/-- citrine/cluster_tools/dbmodule/dbgroup.py:49-51 `size`: `sizes` gives what `module.size` gives for each module, in order. -/
def groupSize : List (Outcome Nat) → Outcome Nat
  | [] => .ok 0
  | .error e :: _ => .error e
  | .ok n :: rest => (groupSize rest).map (n + ·)

/-- citrine/cluster_tools/dbmodule/dbgroup.py:128-148 `ManagedGroupDB.__init__`: discovery, then `DB.__init__` on the file `root/name` with the
derived dictionary, in which the database itself has the name 'unnamed' (it has no `database_name` yet: 116-117).  `valid`: is the
content of the file a ZODB database?  Simplification: of the files ZODB makes only the database is modelled. -/
def managedInit (run : String → Outcome Executed) (valid : Content → Bool) (root : Root.Dir) (name : String := "unnamed") :
    Outcome DbGroup × Root.Dir :=
  match groupInit run root with
  | .error e => (.error e, root)
  | .ok g =>
    match root.dget name with
    | some (.dir _) => (.error .ioError, root)
    | some (.file c) =>
      if valid c then (if name = "unnamed" ∨ name ∈ g.modules.dkeys then (.error .valueError, root) else (.ok g, root))
      else (.error .storageError, root)
    | none =>
      let root' := root.dset name (.file (.other ""))
      if name = "unnamed" ∨ name ∈ g.modules.dkeys then (.error .valueError, root') else (.ok { g with root := root' }, root')

/-- The operations of a ManagedGroupDB that begin with `with self as conn`.
(citrine/cluster_tools/dbmodule/dbgroup.py:151-197, 199-209, 211-219) -/
inductive ManagedOp where
  | validate
  | create (name : Option String) (overwrite : Bool)
  | destroy (name : String)

/-- citrine/cluster_tools/dbmodule/dbgroup.py:151-219: `with self` raises. -/
def managedCall (g : DbGroup) : ManagedOp → Outcome Unit × DbGroup
  | .validate | .create _ _ | .destroy _ => (.error .typeError, g)

/-- citrine/cluster_tools/dbmodule/dbgroup.py:239-266 `ManagedGroupDB.new` -/
def managedNew (run : String → Outcome Executed) (valid : Content → Bool) (root : Root.Dir) (name : String := "unnamed") :
    Outcome DbGroup × Root.Dir :=
  match managedInit run valid root name with
  | (.error e, r) => (.error e, r)
  | (.ok _, r) => (.error .typeError, r)

end Verif.Db
