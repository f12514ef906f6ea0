import Verif.Db.Transaction
import Verif.PyDict
import Verif.Storage.Group

/-!
# Model of citrine/persistence.py (DbContainer), citrine/connection/connection.py,
citrine/cluster_tools/clusterdb/container.py and citrine/connection/group_connection.py

Ids are strings.
-/
namespace Verif.Db
open Verif.Storage
variable {V : Type}

/-- citrine/persistence.py:96-117 `DbContainer`: a mapping from numbers to mappings. -/
structure DbContainer (V : Type) where
  containers : PyDict Nat (PyDict String V)
  deriving DecidableEq

namespace DbContainer

/-- citrine/persistence.py:112-117 `__init__` (`none`: no argument) -/
def new (containers : Option (PyDict Nat (PyDict String V)) := none) : DbContainer V :=
  match containers with
  | some c => ⟨c⟩
  | none => ⟨[(0, [])]⟩

/-- citrine/persistence.py:104-106 `containers_size` -/
def containersSize (c : DbContainer V) : Nat := c.containers.dkeys.length

/-- citrine/persistence.py:108-110 `size` -/
def size (c : DbContainer V) : Nat := (c.containers.map fun p => p.2.dkeys.length).sum

/-- citrine/persistence.py:161-170 `__locate_container`: number and mapping. -/
def locate (c : DbContainer V) (id : String) : Outcome (Nat × PyDict String V) :=
  if c.containersSize = 0 then .error .zeroDivision
  else
    match c.containers.dget (hashId id % c.containersSize) with
    | none => .error .keyError
    | some d => .ok (hashId id % c.containersSize, d)

/-- citrine/persistence.py:119-127 `expand_size` -/
def expandSize (c : DbContainer V) (newSize : Int) : Outcome Unit × DbContainer V :=
  if newSize ≤ c.containersSize then (.error .valueError, c)
  else (.ok (), ⟨(List.range newSize.toNat).map fun k => (k, (c.containers.dget k).getD [])⟩)

/-- citrine/persistence.py:129-136 `has` -/
def has (c : DbContainer V) (id : String) : Outcome Bool :=
  match c.locate id with
  | .error e => .error e
  | .ok (_, d) => .ok (id ∈ d.dkeys)

/-- citrine/persistence.py:138-144 `read` -/
def read (c : DbContainer V) (id : String) : Outcome (Option V) :=
  match c.locate id with
  | .error e => .error e
  | .ok (_, d) => .ok (d.dget id)

/-- citrine/persistence.py:146-153 `write` -/
def write (c : DbContainer V) (id : String) (obj : V) : Outcome Unit × DbContainer V :=
  match c.locate id with
  | .error e => (.error e, c)
  | .ok (n, d) => (.ok (), ⟨c.containers.dset n (d.dset id obj)⟩)

/-- citrine/persistence.py:155-160 `delete` -/
def delete (c : DbContainer V) (id : String) : Outcome Unit × DbContainer V :=
  match c.locate id with
  | .error e => (.error e, c)
  | .ok (n, d) =>
    match d.dget id with
    | none => (.error .keyError, c)
    | some _ => (.ok (), ⟨c.containers.dset n (d.ddel id)⟩)

/-- Calls that change a DbContainer. (citrine/persistence.py:117-159 and citrine/cluster_tools/clusterdb/container.py:45-83) -/
inductive Call (V : Type) where
  | write (id : String) (obj : V)
  | delete (id : String)

/-- Dispatch. (citrine/persistence.py:117-159 and citrine/cluster_tools/clusterdb/container.py:45-83) -/
def call (c : DbContainer V) : Call V → Outcome Unit × DbContainer V
  | .write id obj => c.write id obj
  | .delete id => c.delete id

end DbContainer

/-- citrine/connection/connection.py:16-115 `CitrineConnection` on a database with a
DbContainer.  `threaded`: the default manager, a CitrineThreadTransactionManager
(citrine/persistence.py:50-59): it keeps a CitrineTransactionManager in `manager` and
forwards the transaction package's methods to it, but has no attribute `autocommit` of its
own. -/
structure LegacyConn (V : Type) where
  tm : Tm (DbContainer V)
  threaded : Bool

namespace LegacyConn

/-- citrine/connection/connection.py:39-47 `__init__` -/
def init (c : DbContainer V) (managerGiven : Bool) : LegacyConn V :=
  { tm := { work := c, committed := c }, threaded := !managerGiven }

/-- citrine/persistence.py:62-81 `autocommit`: `tm.autocommit` is looked up first. -/
def decorated {α : Type} (c : LegacyConn V) (fn : DbContainer V → Outcome α × DbContainer V) (ok : Bool) :
    Outcome α × LegacyConn V :=
  if c.threaded then (.error .attributeError, c)
  else ((c.tm.autocommitted fn ok).1, { c with tm := (c.tm.autocommitted fn ok).2 })

/-- citrine/connection/connection.py:62-71 `create` -/
def create (c : LegacyConn V) (id : String) (obj : V) (ok : Bool := true) : Outcome Unit × LegacyConn V :=
  c.decorated (fun s => s.write id obj) ok

/-- citrine/connection/connection.py:73-80 `read` -/
def read (c : LegacyConn V) (id : String) : Outcome (Option V) := c.tm.work.read id

/-- citrine/connection/connection.py:82-90 `update` -/
def update (c : LegacyConn V) (id : String) (obj : V) (ok : Bool := true) : Outcome Unit × LegacyConn V :=
  c.decorated (fun s => s.write id obj) ok

/-- citrine/connection/connection.py:92-99 `delete` -/
def delete (c : LegacyConn V) (id : String) (ok : Bool := true) : Outcome Unit × LegacyConn V :=
  c.decorated (fun s => s.delete id) ok

/-- citrine/connection/connection.py:52-60 `expand_containers` (`with self`, 112-116) -/
def expandContainers (c : LegacyConn V) (num : Int) (ok : Bool := true) : Outcome Unit × LegacyConn V :=
  let t := c.tm.enter
  let r := t.work.expandSize (t.work.containersSize + num)
  match r.1 with
  | .error e => (.error e, { c with tm := ({ t with work := r.2 }.exit true ok).2 })
  | .ok _ => (({ t with work := r.2 }.exit false ok).1, { c with tm := ({ t with work := r.2 }.exit false ok).2 })

/-- An argument of `__getitem__`. (citrine/connection/connection.py:102-111) -/
inductive Keys where
  | slice
  | str (id : String)
  | iter (ids : List String)

/-- citrine/connection/connection.py:101-110 `__getitem__` -/
def subscript (c : LegacyConn V) : Keys → Outcome (Option V ⊕ List (Option V))
  | .slice => .error .typeError
  | .str id => (c.read id).map .inl
  | .iter ids => (ids.mapM fun id => c.read id).map .inr

end LegacyConn

/-- citrine/cluster_tools/clusterdb/container.py:10-30 `DbModuleRegistry` (only the fields
that `from_dbmodule(obj)` sets). -/
structure ModuleRecord where
  name : String
  path : String
  deriving DecidableEq

/-- What a cluster registry can hold: records, or objects put in by the constructor. (citrine/cluster_tools/clusterdb/container.py:10-43) -/
inductive RegEntry where
  | record (r : ModuleRecord)
  | raw (ref : Nat)
  deriving DecidableEq

/-- citrine/cluster_tools/clusterdb/container.py:33-83 `ClusterRegistryContainer` -/
structure Registry where
  modules : PyDict String RegEntry
  deriving DecidableEq

namespace Registry

/-- citrine/cluster_tools/clusterdb/container.py:41-43 `__init__` -/
def new (modules : Option (PyDict String RegEntry)) : Registry :=
  match modules with
  | some (p :: ps) => ⟨p :: ps⟩
  | _ => ⟨[]⟩

/-- citrine/cluster_tools/clusterdb/container.py:45-52 `has` -/
def has (r : Registry) (id : String) : Bool := id ∈ r.modules.dkeys

/-- citrine/cluster_tools/clusterdb/container.py:54-60 `read` -/
def read (r : Registry) (id : String) : Option RegEntry := r.modules.dget id

/-- citrine/cluster_tools/clusterdb/container.py:62-69 `write`; `m` is the module (its name and path). -/
def write (r : Registry) (id : String) (m : ModuleRecord) : Registry :=
  ⟨r.modules.dset id (.record ⟨m.name, m.path⟩)⟩

/-- citrine/cluster_tools/clusterdb/container.py:71-77 `delete` -/
def delete (r : Registry) (id : String) : Outcome Unit × Registry :=
  match r.modules.dget id with
  | none => (.error .keyError, r)
  | some _ => (.ok (), ⟨r.modules.ddel id⟩)

/-- citrine/cluster_tools/clusterdb/container.py:79-83 `expand_size` -/
def expandSize (r : Registry) (_newSize : Int) : Registry := r

/-- Calls. (citrine/persistence.py:117-159 and citrine/cluster_tools/clusterdb/container.py:45-83) -/
inductive Call where
  | write (id : String) (m : ModuleRecord)
  | delete (id : String)
  | expand (n : Int)

/-- Dispatch. (citrine/persistence.py:117-159 and citrine/cluster_tools/clusterdb/container.py:45-83) -/
def call (r : Registry) : Call → Registry
  | .write id m => r.write id m
  | .delete id => (r.delete id).2
  | .expand n => r.expandSize n

end Registry

/-! ### group reads -/

/-- citrine/connection/group_connection.py:47-91 `__read` without timeout, up to the end of
the TaskGroup.  `conns` are the connections (what `read(id)` gives on each), `order` the
order in which the tasks run.  Each task stores its result at its own place.  Simplification:
if a read raises, the TaskGroup raises (an ExceptionGroup; the model gives the error of the
first failing task in connection order). -/
def runTasks (conns : List (String → Outcome (Option V))) (id : String) :
    List Nat → List (Option (Outcome (Option V))) → List (Option (Outcome (Option V)))
  | [], results => results
  | t :: order, results =>
    match conns[t]? with
    | none => runTasks conns id order results
    | some read => runTasks conns id order (results.set t (some (read id)))

/-- citrine/connection/group_connection.py:78-80: the non-None results, in connection order
(`none`: a task that never ran). -/
def collect : List (Option (Outcome (Option V))) → Outcome (List V)
  | [] => .ok []
  | none :: _ => .error .userError
  | some (.error e) :: _ => .error e
  | some (.ok v) :: rest =>
    match collect rest with
    | .error e => .error e
    | .ok vs => match v with | none => .ok vs | some v => .ok (v :: vs)

/-- citrine/connection/group_connection.py:36-45 `read`.  `timeout`: a duration in
microseconds; a non-zero one makes 53-54 use an asynchronous context manager in a plain
`with`: TypeError at once.  With `multiple` line 82 calls `Task.results`, which does not
exist: AttributeError, unless there is no connection.  Line 44 builds
CitrineDuplicateIdError without raising it. -/
def groupRead (conns : List (String → Outcome (Option V))) (order : List Nat) (id : String)
    (timeout : Option Nat := none) (multiple : Bool := false) : Outcome (Option V) :=
  if timeout.getD 0 ≠ 0 then .error .typeError
  else
    match collect (runTasks conns id order (conns.map fun _ => none)) with
    | .error e => .error e
    | .ok vs =>
      if multiple then (if conns.isEmpty then .ok none else .error .attributeError)
      else .ok vs.head?

end Verif.Db
