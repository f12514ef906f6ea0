import Verif.Py
import Verif.PyDict

/-!
# Model of citrine/cluster_tools/dbmodule/dbmodule.py and dbgroup.py (DbGroup)

The file system is modelled as one root directory with files and directories in it;
directories inside a module directory are opaque.  Paths are `root/name` where `name`
contains no separator.  Permissions, links and concurrent changes are not modelled;
`listdir` lists in directory order.
-/
namespace Verif.Db

/-- Content of a file: one of the two generated `__init__.py` texts
(citrine/cluster_tools/dbmodule/consts.py:5-27), or anything else. -/
inductive Content where
  | init (discoverable : Bool)
  | other (text : String)
  deriving DecidableEq

/-- Something in a module directory. (the files used by citrine/cluster_tools/dbmodule/dbmodule.py:17-105) -/
inductive SubEntry where
  | file (content : Content)
  | dir (ref : Nat)
  deriving DecidableEq

/-- Something in the root directory. (the files used by citrine/cluster_tools/dbmodule/dbmodule.py:17-105) -/
inductive Entry where
  | file (content : Content)
  | dir (entries : PyDict String SubEntry)
  deriving DecidableEq

/-- The root directory. (the files used by citrine/cluster_tools/dbmodule/dbmodule.py:17-105) -/
abbrev Root.Dir := PyDict String Entry

/-- citrine/cluster_tools/dbmodule/dbmodule.py:17-40 `create_dbmodule`; `fresh` is the generated name used when no name
(None or '') is given.  `mkdir` raises FileExistsError on an existing path. -/
def createDbmodule (root : Root.Dir) (fresh : String) (name : Option String)
    (discoverable : Bool := true) (overwrite : Bool := false) : Outcome String × Root.Dir :=
  let name := match name with
    | none => fresh
    | some n => if n = "" then fresh else n
  match root.dget name with
  | some _ => if overwrite then (.error .fileExists, root) else (.error .ioError, root)
  | none => (.ok name, root.dset name (.dir [("__init__.py", .file (.init discoverable))]))

/-- citrine/cluster_tools/dbmodule/dbmodule.py:58-60: is the entry one of `affected`? -/
def isAffected (name : String) (p : String × SubEntry) : Bool :=
  match p.2 with
  | .file _ => name.toList.isPrefixOf p.1.toList || p.1 == "__init__.py"
  | .dir _ => p.1 == "__init__.py"

/-- citrine/cluster_tools/dbmodule/dbmodule.py:61-62: `for file in affected: remove(file)`; `remove` of a directory raises. -/
def removeAll : List (String × SubEntry) → PyDict String SubEntry → Outcome Unit × PyDict String SubEntry
  | [], d => (.ok (), d)
  | (_, .dir _) :: _, d => (.error .ioError, d)
  | (f, .file _) :: rest, d => removeAll rest (d.ddel f)

/-- citrine/cluster_tools/dbmodule/dbmodule.py:43-64 `delete_dbmodule` on the path `root/name`, written with or without a
trailing separator: `split(path)[1]` is then empty. -/
def deleteDbmodule (root : Root.Dir) (name : String) (removeEmpty : Bool := true)
    (removeAllFlag : Bool := false) (trailingSlash : Bool := false) : Outcome Unit × Root.Dir :=
  match root.dget name with
  | none => (.error .fileNotFound, root)
  | some (.file _) => (.error .ioError, root)
  | some (.dir d) =>
    if removeAllFlag then (.ok (), root.ddel name)
    else
      match removeAll (d.filter (isAffected (if trailingSlash then "" else name))) d with
      | (.error e, d') => (.error e, root.dset name (.dir d'))
      | (.ok _, d') =>
        if removeEmpty && d'.isEmpty then (.ok (), root.ddel name)
        else (.ok (), root.dset name (.dir d'))

/-- What an executed `__init__.py` defines: the value of DB_MODULE (False if it is missing: citrine/cluster_tools/dbmodule/dbmodule.py:74-79)
and what calling its `db` gives, the name of the database or an exception (citrine/cluster_tools/dbmodule/dbmodule.py:105, 147-148). -/
structure Executed where
  flag : Bool
  db : Outcome String

/-- Executing an `__init__.py`: the generated ones begin with `from citrine import CitrineDB`
(citrine/cluster_tools/dbmodule/consts.py:9, 21) and citrine/__init__.py:1-12 defines no such name; `run` is what any other file does. -/
def execInit (run : String → Outcome Executed) : Content → Outcome Executed
  | .init _ => .error .importError
  | .other text => run text

/-- The `__init__.py` of a directory. -/
def initOf (root : Root.Dir) (name : String) : Option Content :=
  match root.dget name with
  | some (.dir d) => match d.dget "__init__.py" with
    | some (.file c) => some c
    | _ => none
  | _ => none

/-- citrine/cluster_tools/dbmodule/dbmodule.py:67-79 `is_path_dbmodule` -/
def isPathDbmodule (run : String → Outcome Executed) (root : Root.Dir) (name : String) : Bool :=
  match initOf root name with
  | none => false
  | some c => match execInit run c with
    | .error _ => false
    | .ok m => m.flag

/-- citrine/cluster_tools/dbmodule/dbmodule.py:82-88 `find_dbmodules` (names instead of paths) -/
def findDbmodules (run : String → Outcome Executed) (root : Root.Dir) : List String :=
  (root.dkeys.filter fun n => match root.dget n with
    | some (.dir d) => d.dget "__init__.py" ≠ none
    | _ => false).filter (isPathDbmodule run root)

/-- citrine/cluster_tools/dbmodule/dbmodule.py:91-105 `import_db` and 145-148 `DbModule.__init__` on `root/name`: the name of
the database. -/
def openModule (run : String → Outcome Executed) (root : Root.Dir) (name : String) : Outcome String :=
  match root.dget name with
  | none | some (.file _) => .error .fileNotFound
  | some (.dir d) =>
    match d.dget "__init__.py" with
    | none => .error .fileNotFound
    | some (.dir _) => .error .ioError
    | some (.file c) => match execInit run c with
      | .error e => .error e
      | .ok m => m.db

/-- citrine/cluster_tools/dbmodule/dbmodule.py:171-179 `DbModule.create`: `overwrite` is handed over as third positional
argument, which is `discoverable`. -/
def moduleCreate (run : String → Outcome Executed) (root : Root.Dir) (fresh : String)
    (name : Option String) (overwrite : Bool := false) : Outcome String × Root.Dir :=
  match createDbmodule root fresh name (discoverable := overwrite) with
  | (.error e, r) => (.error e, r)
  | (.ok path, r) => (openModule run r path, r)

/-- citrine/cluster_tools/dbmodule/dbmodule.py:125-138: the `path` property of a DbModule, set at most once. -/
def setPath (exists_ : String → Bool) (path : Option String) (value : String) : Outcome Unit × Option String :=
  match path with
  | some p => (.error .attributeError, some p)
  | none => if exists_ value then (.ok (), some value) else (.error .fileNotFound, none)

/-- citrine/cluster_tools/dbmodule/dbgroup.py:12-94 `DbGroup`: the directory and the dictionary of modules (module names). -/
structure DbGroup where
  root : Root.Dir
  modules : PyDict String String

/-- citrine/cluster_tools/dbmodule/dbgroup.py:85-94 `discover`: the modules found, by database name. -/
def discover (run : String → Outcome Executed) (root : Root.Dir) : List String → Outcome (PyDict String String)
  | [] => .ok []
  | n :: ns =>
    match openModule run root n with
    | .error e => .error e
    | .ok dbname =>
      match discover run root ns with
      | .error e => .error e
      | .ok d => .ok (([(dbname, n)] : PyDict String String).dmerge d)

/-- citrine/cluster_tools/dbmodule/dbgroup.py:52-61 `DbGroup.__init__` -/
def groupInit (run : String → Outcome Executed) (root : Root.Dir) (doDiscover : Bool := true)
    (modules : PyDict String String := []) : Outcome DbGroup :=
  if doDiscover then
    match discover run root (findDbmodules run root) with
    | .error e => .error e
    | .ok d => .ok ⟨root, d.dmerge modules⟩
  else .ok ⟨root, modules⟩

/-- citrine/cluster_tools/dbmodule/dbgroup.py:63-71 `create_dbmodule` (the dictionary holds the name of the directory for the module) -/
def groupCreate (run : String → Outcome Executed) (g : DbGroup) (fresh : String)
    (name : Option String) (overwrite : Bool := false) : Outcome String × DbGroup :=
  match moduleCreate run g.root fresh name overwrite with
  | (.error e, r) => (.error e, { g with root := r })
  | (.ok dbname, r) => (.ok dbname, { root := r, modules := g.modules.dset dbname ((name.filter (· ≠ "")).getD fresh) })

/-- citrine/cluster_tools/dbmodule/dbmodule.py:58-63 on the root directory itself (`join(root, '')`, whose last component is empty): every
file is affected, of the directories only one called `__init__.py`. -/
def removeFiles : List (String × Entry) → Root.Dir → Outcome Unit × Root.Dir
  | [], r => (.ok (), r)
  | (n, .file _) :: rest, r => removeFiles rest (r.ddel n)
  | (n, .dir _) :: rest, r => if n = "__init__.py" then (.error .ioError, r) else removeFiles rest r

/-- citrine/cluster_tools/dbmodule/dbgroup.py:73-78 `destroy_dbmodule` (and citrine/cluster_tools/dbmodule/dbmodule.py:181-187 `destroy`).
Simplification: that the root directory itself is removed when it ends up empty is not modelled. -/
def groupDestroy (g : DbGroup) (name : String) : Outcome Unit × DbGroup :=
  if name = "" then ((removeFiles g.root g.root).1, { g with root := (removeFiles g.root g.root).2 })
  else ((deleteDbmodule g.root name).1, { g with root := (deleteDbmodule g.root name).2 })

end Verif.Db
