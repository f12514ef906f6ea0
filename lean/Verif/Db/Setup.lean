import Verif.Db.Transaction
import Verif.Db.Legacy

/-!
# Model of `setup` of citrine/connection/connection.py (CitrineConnection, ManagedConnection) and of the constructor of
citrine/connection/group_connection.py (GroupReadConnection)
-/
namespace Verif.Db
open Verif.Storage

/-- The root object of a legacy database: its two entries. (citrine/connection/connection.py:25-31, 119-135) -/
structure LegacyRoot (C : Type) where
  container : Option C := none
  metadata : Option (Option Nat) := none
  deriving DecidableEq

/-- `with self: self.root.<entry> = <new object>`: `make` builds the object and assigns it, or raises.
(citrine/connection/connection.py:112-117, 128-129, 134-135) -/
def Tm.block {S : Type} (t : Tm S) (make : S → Outcome S) (ok : Bool) : Outcome Unit × Tm S :=
  match make t.enter.work with
  | .error e => (.error e, (t.enter.exit true ok).2)
  | .ok s => { t.enter with work := s }.exit false ok

/-- citrine/connection/connection.py:119-135 `setup` (also 149-165).  `new` is what `DbContainer()` (or `Container()`) gives,
`oks` says whether the storage accepts the first and the second commit. -/
def Tm.setup {C : Type} (t : Tm (LegacyRoot C)) (new : Outcome C) (oks : Bool × Bool) : Outcome Unit × Tm (LegacyRoot C) :=
  let first : Outcome Unit × Tm (LegacyRoot C) :=
    match t.work.container with
    | some _ => (.ok (), t)
    | none => t.block (fun r => new.map fun c => { r with container := some c }) oks.1
  match first with
  | (.error e, t1) => (.error e, t1)
  | (.ok _, t1) =>
    match t1.work.metadata with
    | some _ => (.ok (), t1)
    | none => t1.block (fun r => .ok { r with metadata := some none }) oks.2

/-- citrine/connection/connection.py:119-135 `CitrineConnection.setup` -/
def citrineSetup {V : Type} (t : Tm (LegacyRoot (DbContainer V))) (oks : Bool × Bool) : Outcome Unit × Tm (LegacyRoot (DbContainer V)) :=
  t.setup (.ok (DbContainer.new (V := V))) oks

/-- citrine/connection/connection.py:149-165 `ManagedConnection.setup`: `Container()` lacks its argument `primary_group`
(citrine/storage/container.py:176-177), so the call raises TypeError. -/
def managedSetup {C : Type} (t : Tm (LegacyRoot C)) (oks : Bool × Bool) : Outcome Unit × Tm (LegacyRoot C) :=
  t.setup (.error .typeError) oks

/-- citrine/connection/group_connection.py:19-33 `GroupReadConnection.__init__`: what each `db.open` is called with.
`shared` is the argument `transaction_manager` (None is a value like any other), `args` the other keyword arguments, by database name. -/
def openArgs {A : Type} (shared : A) (args : PyDict String (PyDict String A)) (name : String) : PyDict String A :=
  ((args.dget name).getD [("transaction_manager", shared)]).dmerge [("transaction_manager", shared)]

/-- citrine/connection/group_connection.py:19-33 `GroupReadConnection.__init__`: the databases are opened in order; the first error ends
it. `opens` is what `open` of the database of that name does with its arguments. -/
def groupConnect {A C : Type} (opens : String → PyDict String A → Outcome C) (shared : A) (args : PyDict String (PyDict String A)) :
    List String → Outcome (List C)
  | [] => .ok []
  | n :: ns =>
    match opens n (openArgs shared args n) with
    | .error e => .error e
    | .ok c => (groupConnect opens shared args ns).map (c :: ·)

end Verif.Db
