import Verif.Db.Pool

/-!
# DbModule.size and the records that show it

citrine/cluster_tools/dbmodule/dbmodule.py:140-143, 189-218.  The database of a module is a ContainerDb here: of the database classes in the
repository it is the only one with `with db` (citrine/database/containerdb.py:379-389); ZODB.DB has none.
-/
namespace Verif.Db
open Verif Verif.Storage
variable {V : Type}

/-- `connection.size` of a ContainerConnection: neither the class (citrine/connection/container_connection.py:65-143) nor
ZODB.Connection (library) has this attribute, whichever connection it is. -/
def Pool.connSize (_ : Pool V) (_ : Nat) : Outcome Nat := .error .attributeError

/-- citrine/cluster_tools/dbmodule/dbmodule.py:140-143 `size`; `get` is what `connection.size` gives. An exception of the end of the block
replaces one of the body. -/
def Pool.sizeWith (get : Pool V → Nat → Outcome Nat) (p : Pool V) : Outcome Nat × Pool V :=
  match p.enterDb.2.exitDb with
  | (.error e, q) => (.error e, q)
  | (.ok _, q) => (get p.enterDb.2 p.enterDb.1, q)

/-- citrine/cluster_tools/dbmodule/dbmodule.py:140-143 `size` -/
def Pool.moduleSize (p : Pool V) : Outcome Nat × Pool V := p.sizeWith Pool.connSize

/-- citrine/cluster_tools/dbmodule/dbmodule.py:193-200 `DbModuleRegistry` -/
structure SizeRecord where
  modulePath : String
  name : String
  size : Nat := 0
  deriving DecidableEq

/-- citrine/cluster_tools/dbmodule/dbmodule.py:202-209 `update_from_dbmodule`; `size` is what `dbmodule.size` gives. -/
def SizeRecord.updateFrom (r : SizeRecord) (size : Outcome Nat) : Outcome Unit × SizeRecord :=
  match size with
  | .error e => (.error e, r)
  | .ok n => (.ok (), { r with size := n })

/-- citrine/cluster_tools/dbmodule/dbmodule.py:211-218 `from_dbmodule` -/
def SizeRecord.fromModule (path name : String) (size : Outcome Nat) : Outcome SizeRecord := size.map fun n => ⟨path, name, n⟩

end Verif.Db
