import Verif.Py

/-!
# Model of citrine/storage/transaction.py and citrine/persistence.py:17-81

A session is one ZODB connection with one transaction manager.  Of the libraries
(`transaction`, `ZODB`) only this documented behaviour is modelled: objects changed by the
session are pending until `commit` puts all of them on disk at once or `abort` restores
the last committed state; `begin` aborts what is pending; a commit that fails stores
nothing, restores the committed state and leaves a failed transaction behind, which makes
further changes and commits raise until `abort` or `begin`.
Simplification: one session at a time, so nobody else changes the stored state.
-/
namespace Verif.Db

/-- A session over a stored state of type `S`.  `work` is what the session sees,
`committed` what is on disk, `log` every state that was ever put on disk (latest first),
`autocommit` the manager's flag, `failed` a failed transaction not yet aborted. (citrine/storage/transaction.py:7-39 and ZODB (library)) -/
structure Tm (S : Type) where
  work : S
  committed : S
  log : List S := []
  autocommit : Bool := true
  failed : Bool := false

namespace Tm
variable {S α : Type}

/-- `TransactionManager.begin()` (library). (library `transaction`, used by citrine/storage/transaction.py:24-28, 79-86) -/
def begin (t : Tm S) : Tm S := { t with work := t.committed, failed := false }

/-- `TransactionManager.abort()` (library). (library `transaction`, used by citrine/storage/transaction.py:30-38, 79-86) -/
def abort (t : Tm S) : Tm S := { t with work := t.committed, failed := false }

/-- `TransactionManager.commit()` (library); `ok` tells whether the storage accepts it.
(library `transaction`, used by citrine/storage/transaction.py:30-38, 79-86) -/
def commit (t : Tm S) (ok : Bool) : Outcome Unit × Tm S :=
  if t.failed then (.error .transactionFailed, t)
  else if ok then (.ok (), { t with committed := t.work, log := t.work :: t.log })
  else (.error .storageError, { t with work := t.committed, failed := true })

/-- citrine/storage/transaction.py:25-29 `__enter__` (also 53-57, citrine/persistence.py:33-37) -/
def enter (t : Tm S) : Tm S := { t.begin with autocommit := false }

/-- citrine/storage/transaction.py:31-39 `__exit__` (also 59-67, citrine/persistence.py:39-47).
`raised`: an exception leaves the block.  If `commit` raises, line 38 is not reached. -/
def exit (t : Tm S) (raised ok : Bool) : Outcome Unit × Tm S :=
  if raised then (.ok (), { t.abort with autocommit := true })
  else
    match t.commit ok with
    | (.error e, t') => (.error e, t')
    | (.ok _, t') => (.ok (), { t' with autocommit := true })

/-- A change of the working state made outside the transaction machinery.  Simplification:
with a failed transaction every such call raises TransactionFailedError and the working
state stays as it is (Python raises when the first object is changed).
(assignments such as citrine/connection/container_connection.py:124-127) -/
def plain (t : Tm S) (fn : S → Outcome α × S) : Outcome α × Tm S :=
  if t.failed then (.error .transactionFailed, t)
  else ((fn t.work).1, { t with work := (fn t.work).2 })

/-- citrine/storage/transaction.py:70-89 `autocommit` (also citrine/persistence.py:62-81):
`with tm: return fn(...)`.  When both `fn` and the abort are done the exception of `fn`
goes on; when `commit` raises, its exception does. -/
def autocommitted (t : Tm S) (fn : S → Outcome α × S) (ok : Bool) : Outcome α × Tm S :=
  if t.autocommit then
    match t.enter.plain fn with
    | (.error e, t') => (.error e, (t'.exit true ok).2)
    | (.ok v, t') =>
      match t'.exit false ok with
      | (.error e, t'') => (.error e, t'')
      | (.ok _, t'') => (.ok v, t'')
  else t.plain fn

end Tm
end Verif.Db
