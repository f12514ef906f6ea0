import Verif.Py
import Verif.PyDict

/-!
# Model of jsonld/base.py: contexts and contextual properties
-/
namespace Verif.Jsonld

/-- A context identifier; `none` is Python's None. (jsonld/base.py:50-53) -/
abbrev Ctx := Option String

/-- jsonld/base.py:203-212 `JsonContextAwareManager`; the list's end in Python (where `append`
and `pop` work) is the head of `stack` here. -/
structure Manager where
  stack : List Ctx := []
  context : Ctx := none
  active : Bool := false
  deriving DecidableEq

namespace Manager

/-- jsonld/base.py:214-217 `__call__`, also 332-334 `switch_context` -/
def call (m : Manager) (c : Ctx) : Manager := { m with stack := m.context :: m.stack, context := c }

/-- jsonld/base.py:219-221 `__enter__` -/
def enter (m : Manager) : Manager := { m with active := true }

/-- jsonld/base.py:223-225 `__exit__` -/
def exit (m : Manager) : Manager :=
  match m.stack with
  | [] => { m with context := none, active := false }
  | c :: s => { stack := s, context := c, active := false }

end Manager

/-- Code using an object's contexts: `observe` stands for any property access (it sees the
context), `block c p` for `with obj.switch_context(c): p`, `attempt p q` for
`try: p` / `except Exception: q`. (code using jsonld/base.py:203-225, 332-334) -/
inductive Prog where
  | skip
  | observe
  | raise (e : PyErr)
  | seq (p q : Prog)
  | block (c : Ctx) (p : Prog)
  | attempt (p q : Prog)

/-- Running code: what it raises, the contexts the accesses saw, and the manager afterwards.
A `with` statement calls `__exit__` also when the body raises (Python language rule). (jsonld/base.py:203-225, 332-334) -/
def Prog.run : Prog → Manager → (Outcome Unit × List Ctx) × Manager
  | .skip, m => ((.ok (), []), m)
  | .observe, m => ((.ok (), [m.context]), m)
  | .raise e, m => ((.error e, []), m)
  | .seq p q, m =>
    match p.run m with
    | ((.ok _, l), m1) => let r := q.run m1; ((r.1.1, l ++ r.1.2), r.2)
    | ((.error e, l), m1) => ((.error e, l), m1)
  | .block c p, m => let r := p.run (m.call c).enter; (r.1, r.2.exit)
  | .attempt p q, m =>
    match p.run m with
    | ((.ok _, l), m1) => ((.ok (), l), m1)
    | ((.error _, l), m1) => let r := q.run m1; ((r.1.1, l ++ r.1.2), r.2)

/-! ### Contextual properties -/

/-- Which accessor of a property. (jsonld/base.py:55-87) -/
inductive Kind where
  | get | set | del
  deriving DecidableEq

/-- jsonld/base.py:15-47 `ContextualProperty`: three dictionaries from contexts to accessors; the value
`none` stands for the `__NO_GETTER`/`__NO_SETTER`/`__NO_DELETER` functions (22-32), which raise. -/
structure CProp (F : Type) where
  gets : PyDict Ctx (Option F)
  sets : PyDict Ctx (Option F)
  dels : PyDict Ctx (Option F)

namespace CProp
variable {F : Type}

/-- jsonld/base.py:34-38 `__init__` -/
def new (fget fset fdel : Option F) : CProp F := ⟨[(none, fget)], [(none, fset)], [(none, fdel)]⟩

/-- One of the three dictionaries. (jsonld/base.py:34-48) -/
def table (p : CProp F) : Kind → PyDict Ctx (Option F)
  | .get => p.gets
  | .set => p.sets
  | .del => p.dels

/-- Replace one of the three dictionaries. (jsonld/base.py:89-163) -/
def withTable (p : CProp F) (d : PyDict Ctx (Option F)) : Kind → CProp F
  | .get => { p with gets := d }
  | .set => { p with sets := d }
  | .del => { p with dels := d }

/-- jsonld/base.py:55-87 `__fget`, `__fset`, `__fdel`: the accessor that is called on an object whose
context is `c` (49-53; objects without `__context__` have context None), or AttributeError. -/
def dispatch (p : CProp F) (k : Kind) (c : Ctx) : Outcome F :=
  match (p.table k).dget (if c ∈ (p.table k).dkeys then c else none) with
  | some (some f) => .ok f
  | some none => .error .attributeError
  | none => .error .typeError

end CProp

/-- The properties that exist, by address. (objects of jsonld/base.py:15-163) -/
abbrev PropHeap (F : Type) := List (CProp F)

/-- The calls that make or change properties. (jsonld/base.py:89-163) -/
inductive PropOp (F : Type) where
  /-- `ContextualProperty(fget, fset, fdel)` -/
  | new (fget fset fdel : Option F)
  /-- `p.getter(f)` / `p.setter(f)` / `p.deleter(f)` -/
  | replace (p : Nat) (k : Kind) (f : F)
  /-- `p.getter_context(c)(f)` / `p.setter_context(c)(f)` / `p.deleter_context(c)(f)` -/
  | register (p : Nat) (k : Kind) (c : Ctx) (f : F)

/-- jsonld/base.py:89-120 `setter`/`getter`/`deleter` (a changed copy, 158-163), 122-156 `*_context`
(changes `self`).  A call on an address that does not exist does nothing. -/
def PropOp.step {F : Type} (h : PropHeap F) : PropOp F → PropHeap F
  | .new g s d => h ++ [CProp.new g s d]
  | .replace i k f =>
    match h[i]? with
    | none => h
    | some p => h ++ [p.withTable ((p.table k).dset none (some f)) k]
  | .register i k c f =>
    match h[i]? with
    | none => h
    | some p => h.set i (p.withTable ((p.table k).dset c (some f)) k)

/-- A sequence of such calls. (histories of jsonld/base.py:89-163) -/
def PropOp.run {F : Type} (ops : List (PropOp F)) : PropHeap F := ops.foldl PropOp.step []

end Verif.Jsonld
