import Verif.Db.Connection
import Verif.Jsonld.Clone

/-!
# Storing objects: what `pickle` does with the classes of jsonld/kamino.py

When a transaction is committed, ZODB (citrine/database/containerdb.py and citrine/connection/container_connection.py use it) writes every
changed record with Python's `pickle`.  An instance is written as a reference to its class followed by its attributes, and the
class by its module and name (pickle.py `save_global`): the class found under that name has to be that class, otherwise PicklingError.
Of the libraries only this documented behaviour is modelled.  Simplifications: values are trees (references shared between
objects and cycles, which pickle supports, do not occur); nothing else in them resists pickling.
-/
namespace Verif.Db.Pickle
open Verif Verif.Storage Verif.Jsonld.Clone

/-- A value of a record: an atom (None, a number, a string, a date), a list, tuple or dictionary, or an instance of a class with its
attributes.  (the objects given to citrine/connection/container_connection.py:172-207) -/
inductive Item (K : Type) where
  | atom (s : String)
  | many (xs : List (Item K))
  | inst (cls : K) (state : List (Item K))

/-- `__module__` and `__qualname__` of a class. (library pickle; jsonld/kamino.py:95 gives a clone the ones of the original) -/
structure Home where
  mod : String
  name : String
  deriving DecidableEq

/-- What `pickle` asks of the running program: the home of a class, and the class found there (`none`: no such module or name).
(library pickle, used at commit by citrine/storage/transaction.py:30-38, 79-86) -/
structure Program (K : Type) where
  home : K → Home
  found : Home → Option K

/-- jsonld/kamino.py:95: `type(cls.__name__, inherits, cls.__dict__.copy())` has the name of the class it was made from and, by the
copied dictionary, its `__module__`.  No module binds a clone to a name: they are kept in the package
(jsonld/package.py:14-60), so what is found there is never one. -/
def withClones {C : Type} (p : Program C) : Program (Node C) where
  home := fun
    | .orig c => p.home c
    | .clone c => p.home c
  found := fun h => (p.found h).map .orig

variable {K : Type} [DecidableEq K]

/-- `save_global`: the class by its name, if that name leads back to it (otherwise PicklingError, which the commit passes on;
it is the model's storage error). (library pickle, used at commit by citrine/storage/transaction.py:30-38, 79-86) -/
def saveGlobal (p : Program K) (k : K) : Outcome Home :=
  if p.found (p.home k) = some k then .ok (p.home k) else .error .storageError

/-- `find_class`: AttributeError or ModuleNotFoundError if there is none. (library pickle, used when a record is loaded for
citrine/connection/container_connection.py:185-193) -/
def findClass (p : Program K) (h : Home) : Outcome K :=
  match p.found h with
  | none => .error .attributeError
  | some k => .ok k

mutual
/-- `pickle.dumps`; the result has names in place of classes. (library pickle, used at commit by citrine/storage/transaction.py:30-38, 79-86) -/
def dumps (p : Program K) : Item K → Outcome (Item Home)
  | .atom s => .ok (.atom s)
  | .many xs => (dumpsAll p xs).map .many
  | .inst k xs =>
    match saveGlobal p k with
    | .error e => .error e
    | .ok h => (dumpsAll p xs).map (.inst h)

/-- The parts in turn. (library pickle, used at commit by citrine/storage/transaction.py:30-38, 79-86) -/
def dumpsAll (p : Program K) : List (Item K) → Outcome (List (Item Home))
  | [] => .ok []
  | x :: xs =>
    match dumps p x with
    | .error e => .error e
    | .ok y => (dumpsAll p xs).map (y :: ·)
end

mutual
/-- `pickle.loads` (library pickle, used when a record is loaded for citrine/connection/container_connection.py:185-193) -/
def loads (p : Program K) : Item Home → Outcome (Item K)
  | .atom s => .ok (.atom s)
  | .many xs => (loadsAll p xs).map .many
  | .inst h xs =>
    match findClass p h with
    | .error e => .error e
    | .ok k => (loadsAll p xs).map (.inst k)

/-- The parts in turn. (library pickle, used when a record is loaded for citrine/connection/container_connection.py:185-193) -/
def loadsAll (p : Program K) : List (Item Home) → Outcome (List (Item K))
  | [] => .ok []
  | x :: xs =>
    match loads p x with
    | .error e => .error e
    | .ok y => (loadsAll p xs).map (y :: ·)
end

/-- Can it be written? (library pickle, used at commit by citrine/storage/transaction.py:30-38, 79-86) -/
def storable (p : Program K) (v : Item K) : Bool :=
  match dumps p v with
  | .ok _ => true
  | .error _ => false

/-- Can the container be written: all objects in the groups it refers to.  (Records that did not change are not written again; they
were written before.) (library ZODB, used at commit by citrine/storage/transaction.py:30-38, 79-86) -/
def writable (p : Program K) (c : Container (Item K)) : Bool :=
  (c.primary :: c.groups).all fun a => (c.heap a).values.all (storable p)

/-- The events of a session in this program: a commit succeeds if the disk accepts it and what is to be written can be
pickled.  (library ZODB; the commits of citrine/connection/container_connection.py:172-254 and citrine/storage/transaction.py:30-38, 79-86) -/
def event [Truthy (Item K)] (p : Program K) (c : Conn (Item K)) : Event (Item K) → Event (Item K)
  | .call op ok => .call op (ok && writable p (op.fn c.tm.committed).2)
  | .exit raised ok => .exit raised (ok && writable p c.tm.work)
  | .commit ok => .commit (ok && writable p c.tm.work)
  | e => e

/-- A history of a session in this program. (citrine/connection/container_connection.py:121-253) -/
def steps [Truthy (Item K)] (p : Program K) (c : Conn (Item K)) : List (Event (Item K)) → Conn (Item K)
  | [] => c
  | e :: es => steps p (c.step (event p c e)) es

end Verif.Db.Pickle
