/-!
# Python basics used by the model

The model uses plain Lean data for Python data.  This file fixes the exception
names, the `truthy` test of Python's `if x:` and a small value type.
-/
namespace Verif

/-- Names of the exceptions raised by the modelled code.
`collectionCapacity`: citrine/storage/collection.py:22-25,
`groupCapacity`: citrine/storage/group.py:30-33,
`objectOverwrite`, `incompatibleDatabase`, `duplicateId`: citrine/exceptions.py:1-48,
`jsonLd`: pyld's JsonLdError (jsonld/docloader.py:45-48),
`transactionFailed`: the transaction package's TransactionFailedError, `storageError`: any error
raised by a commit (conflict, disk), `posKey`: ZODB's POSKeyError,
`connectionState`: ZODB's ConnectionStateError, `lockError`: zc.lockfile's LockError,
the others are Python's built-in exceptions. -/
inductive PyErr where
  | keyError | valueError | typeError | attributeError | indexError
  | zeroDivision | ioError | fileExists | fileNotFound | moduleNotFound
  | collectionCapacity | groupCapacity
  | objectOverwrite | incompatibleDatabase | duplicateId
  | notImplemented | jsonLd | userError
  | transactionFailed | storageError | posKey | importError | connectionState | lockError
  deriving DecidableEq, Repr

/-- Outcome of a Python call: a returned value or a raised exception. -/
abbrev Outcome (α : Type) := Except PyErr α

deriving instance DecidableEq for Except

/-- Python's `bool(x)`, the test made by `if x:` / `any(...)`. -/
class Truthy (α : Type) where
  truthy : α → Bool

export Truthy (truthy)

/-- A small universe of Python values that can be stored in a database: `None`,
booleans, integers, strings, and opaque (persistent) objects.  An opaque object
carries the answer of its `__bool__`/`__len__` (`true` for almost all of them). -/
inductive PyVal where
  | none
  | bool (b : Bool)
  | int (i : Int)
  | str (s : String)
  | obj (ref : Nat) (truth : Bool := true)
  deriving DecidableEq, Repr

/-- Truth value of a Python value (Python language rule, used for instance at
citrine/storage/container.py:368 `if ret := group.get(id)`). -/
def PyVal.truthy : PyVal → Bool
  | .none => false
  | .bool b => b
  | .int i => i ≠ 0
  | .str s => s ≠ ""
  | .obj _ t => t

instance : Truthy PyVal := ⟨PyVal.truthy⟩

/-- Python strings are truthy unless empty. -/
instance : Truthy String := ⟨fun s => s ≠ ""⟩

end Verif
