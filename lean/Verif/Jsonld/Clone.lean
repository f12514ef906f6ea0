import Verif.Py
import Verif.PyDict
import Verif.Jsonld.Data
import Mathlib.Data.List.Sort

/-!
# Model of jsonld/kamino.py, `ClassCloner.clone_classes`

Classes are elements of a type `C`; a hierarchy gives their bases and `mro()`.  Python computes the mro of a class from its
bases by C3 linearisation (CPython, Objects/typeobject.c `pmerge`), which is modelled too, because
`type(name, bases, dict)` runs it for each clone.  What the clone's dictionary contains and the wrapping of its members
(jsonld/kamino.py:95-100) are not part of this model.
-/
namespace Verif.Jsonld.Clone
open Verif

/-! ### C3 linearisation -/

section C3
variable {X : Type} [DecidableEq X]

/-- Whether `x` is in the tail of one of the lists. (CPython, used by `type(...)` in jsonld/kamino.py:92-95) -/
def inTail (x : X) (ls : List (List X)) : Bool := ls.any fun l => l.tail.contains x

/-- The head of the first list whose head is in no tail. (CPython, used by `type(...)` in jsonld/kamino.py:92-95) -/
def goodHead (all : List (List X)) : List (List X) → Option X
  | [] => none
  | [] :: ls => goodHead all ls
  | (x :: _) :: ls => if inTail x all then goodHead all ls else some x

/-- A list without its head if that is `x`. (CPython, used by `type(...)` in jsonld/kamino.py:92-95) -/
def dropIf (x : X) : List X → List X
  | [] => []
  | y :: t => if y = x then t else y :: t

/-- C3 merge (typeobject.c `pmerge`); the number bounds the steps, their total length is enough.  No good head
is a TypeError ("Cannot create a consistent method resolution order"). (CPython, used by `type(...)` in jsonld/kamino.py:92-95) -/
def merge : Nat → List (List X) → Outcome (List X)
  | 0, _ => .ok []
  | n + 1, ls =>
    if ls.all (·.isEmpty) then .ok []
    else match goodHead ls ls with
      | none => .error .typeError
      | some x => match merge n (ls.map (dropIf x)) with
        | .error e => .error e
        | .ok r => .ok (x :: r)

/-- Total length. (for the bound of `merge`; jsonld/kamino.py:92-95) -/
def total (ls : List (List X)) : Nat := (ls.map (·.length)).sum

/-- The mro of a new class `c` with the given bases (typeobject.c `mro_implementation`).
(CPython, used by `type(...)` in jsonld/kamino.py:92-95) -/
def linearize (c : X) (mros : List (List X)) (bases : List X) : Outcome (List X) :=
  match merge (total (mros ++ [bases])) (mros ++ [bases]) with
  | .error e => .error e
  | .ok r => .ok (c :: r)

end C3

/-- A class hierarchy: bases and mro of each class. (the classes given to jsonld/kamino.py:50-101) -/
structure Hier (C : Type) where
  bases : C → List C
  mro : C → List C

/-- The classes that take part: the given ones and their clones. (jsonld/kamino.py:50-101) -/
inductive Node (C : Type) where
  | orig (c : C)
  | clone (c : C)
  deriving DecidableEq

section
variable {C : Type} [DecidableEq C] (h : Hier C)

/-- jsonld/kamino.py:63: the listed classes a class depends on -/
def deps (classes : List C) (c : C) : List C := classes.filter fun d => (h.mro c).contains d && d != c

/-- jsonld/kamino.py:61-64: the classes by their number of dependencies -/
def byDeps (classes : List C) : PyDict Nat (List C) :=
  classes.foldl (fun d c => d.dset (deps h classes c).length ((d.dget (deps h classes c).length).getD [] ++ [c])) []

/-- jsonld/kamino.py:67-69 -/
def sortedClasses (classes : List C) : List C :=
  ((byDeps h classes).dkeys.insertionSort (· ≤ ·)).flatMap fun k => ((byDeps h classes).dget k).getD []

/-- jsonld/kamino.py:71 `class_ref` (its keys) -/
def refKeys (classes : List C) : List C := (dictOf ((sortedClasses h classes).map fun c => (c, ()))).dkeys

/-- jsonld/kamino.py:19-28 `find_parents`: the candidates -/
def candidates (ref : List C) (c : C) : List C := (h.mro c).filter fun i => ref.contains i && c != i

/-- jsonld/kamino.py:19-28 `find_parents` (computed twice with the same result, lines 16 and 75; the children, lines 30-48, are
not used by anything) -/
def parents (ref : List C) (c : C) : List C :=
  (candidates h ref c).filter fun p => !((candidates h ref c).any fun i => p != i && (h.mro i).contains p)

/-- jsonld/kamino.py:83-86: one pass of the loop -/
def pass (ref ordered : List C) : List C :=
  ordered ++ ref.filter fun n => (parents h ref n).all (fun p => ordered.contains p) && !ordered.contains n

/-- jsonld/kamino.py:81-86: the loop, at most `n` passes (`none`: not finished) -/
def loop (ref : List C) : Nat → List C → Option (List C)
  | 0, ordered => if ref.any (fun n => !ordered.contains n) then none else some ordered
  | n + 1, ordered => if ref.any (fun n => !ordered.contains n) then loop ref n (pass h ref ordered) else some ordered

/-- jsonld/kamino.py:92-93: the bases of a clone; `done` are the classes cloned before. -/
def basesOf (ref done : List C) (c : C) : List (Node C) :=
  ((parents h ref c).filter fun p => done.contains p).map .clone ++ [.orig c]

/-- The mro of a base: of a given class, or of a clone made before. (jsonld/kamino.py:83-95) -/
def mroOf (made : PyDict C (List (Node C))) : Node C → List (Node C)
  | .orig c => (h.mro c).map .orig
  | .clone c => (made.dget c).getD []

/-- jsonld/kamino.py:88-95: the clones are made in order; the dictionary has the mro of each. -/
def makeAll (ref : List C) : List C → PyDict C (List (Node C)) → Outcome (PyDict C (List (Node C)))
  | [], made => .ok made
  | c :: cs, made =>
    match linearize (Node.clone c) ((basesOf h ref made.dkeys c).map (mroOf h made)) (basesOf h ref made.dkeys c) with
    | .error e => .error e
    | .ok m => makeAll ref cs (made.dset c m)

/-- jsonld/kamino.py:50-101 `clone_classes` of a list or tuple: the clones in order of creation, with their mro. -/
def cloneClasses (classes : List C) : Option (Outcome (PyDict C (List (Node C)))) :=
  (loop h (refKeys h classes) (refKeys h classes).length []).map fun ordered => makeAll h (refKeys h classes) ordered []

/-- jsonld/package.py:28-33: the classes in the order of `objects` (or `properties`) of a package: the order of the keys of `class_ref`
(jsonld/kamino.py:71, 95: the values are replaced, the keys stay where they are). -/
def listing (classes : List C) : List C := refKeys h classes

/-- jsonld/package.py:36-37: `{obj.__get_namespace__(): obj for obj in self.objects + self.properties}`, with the classes that the clones stand for, and whether
it is a property; `ns` is the namespace of the clone of a class. -/
def packageRef (ns : C → String) (objects properties : List C) : PyDict String (Bool × C) :=
  dictOf ((listing h objects).map (fun c => (ns c, (false, c))) ++ (listing h properties).map (fun c => (ns c, (true, c))))

/-- jsonld/kamino.py:61-64 for an iterator that can be run through once only (`rest` is what it has left): the comprehension of line 63
uses it up in the first turn, so there is no second one. -/
def byDepsIter : List C → PyDict Nat (List C) → PyDict Nat (List C)
  | [], d => d
  | c :: rest, d =>
    d.dset (deps h rest c).length ((d.dget (deps h rest c).length).getD [] ++ [c])

/-- jsonld/kamino.py:67-71 after that -/
def refKeysIter (classes : List C) : List C :=
  (dictOf ((((byDepsIter h classes []).dkeys.insertionSort (· ≤ ·)).flatMap fun k =>
    ((byDepsIter h classes []).dget k).getD []).map fun c => (c, ()))).dkeys

/-- jsonld/kamino.py:50-101 `clone_classes` of a one-shot iterator -/
def cloneIter (classes : List C) : Option (Outcome (PyDict C (List (Node C)))) :=
  (loop h (refKeysIter h classes) (refKeysIter h classes).length []).map fun ordered =>
    makeAll h (refKeysIter h classes) ordered []

end

end Verif.Jsonld.Clone
