import Verif.Db.Connection

/-!
# `condense` and `resize` with a transaction manager while other sessions work

citrine/storage/container.py:220-349, called with the transaction manager of a session, while the autocommit calls of other sessions
(citrine/connection/container_connection.py:172-218) come in between two transactions of this session.

Simplification: the others' calls come right after a commit of this session, before it looks at the container again (a commit of this
session that overlaps one of theirs is in Db/Concurrent.lean).  As in `Storage.Session`, `eff` says which of the explicit
`tm.commit()` take effect.
-/
namespace Verif.Db
open Verif.Storage
variable {V : Type}

/-- What the session sees (`work`), what is stored, the calls of the others that went through so far (oldest first), the number of explicit
commits, the number of times others had their turn, and everything that was stored in the course of it with the calls of the others that had gone through by then.  (citrine/storage/transaction.py:7-39 over a ZODB storage (library)) -/
structure Amid (V : Type) where
  work : Container V
  stored : Container V
  done : List (DbOp V) := []
  commits : Nat := 0
  turns : Nat := 0
  log : List (List (DbOp V) × Container V) := []

namespace Amid
variable [Truthy V]

/-- A call of another session, with autocommit: it is stored, or it raises and is aborted.
(citrine/storage/transaction.py:70-89, citrine/connection/container_connection.py:172-218) -/
def other (s : Amid V) (op : DbOp V) : Amid V :=
  match op.fn s.stored with
  | (.error _, _) => s
  | (.ok _, c) => { s with stored := c, done := s.done ++ [op], log := s.log ++ [(s.done ++ [op], c)] }

/-- Calls of other sessions. (citrine/connection/container_connection.py:172-218) -/
def others (s : Amid V) : List (DbOp V) → Amid V
  | [] => s
  | op :: ops => (s.other op).others ops

/-- `begin` aborts what is pending and shows what is stored (citrine/storage/container.py:281,330,343). -/
def enter (s : Amid V) : Amid V := { s with work := s.stored }

/-- A commit that takes effect; then it is the turn of the others, and the next look at the container shows what they have done.
(commit of ZODB (library), called by citrine/storage/transaction.py:30-38) -/
def store (env : Nat → List (DbOp V)) (s : Amid V) : Amid V :=
  ({ s with stored := s.work, turns := s.turns + 1, log := s.log ++ [(s.done, s.work)] }.others (env s.turns)).enter

/-- `tm.commit()` (citrine/storage/container.py:284,334,345) -/
def commit (eff : Nat → Bool) (env : Nat → List (DbOp V)) (s : Amid V) : Amid V :=
  if eff s.commits then { s with commits := s.commits + 1 }.store env else { s with commits := s.commits + 1 }

/-- citrine/storage/container.py:324-327 `fn(group, key)`: as `Container.moveKey`, but the key may have gone; then `pop` raises and
`get` returns None (`pyNone`), which is inserted. -/
def moveKey (pyNone : V) (transfer : Bool) (a : Nat) (key : String) (c : Container V) : Outcome Unit × Container V :=
  if transfer then Container.moveKey true a key c
  else
    match (c.heap a).get key with
    | .error e => (.error e, c)
    | .ok none => c.insertPrimary key pyNone
    | .ok (some v) => c.insertPrimary key v

/-- citrine/storage/container.py:332-334 -/
def moveKeys (eff : Nat → Bool) (env : Nat → List (DbOp V)) (pyNone : V) (transfer : Bool) (a : Nat) :
    List String → Amid V → Outcome Unit × Amid V
  | [], s => (.ok (), s)
  | k :: ks, s =>
    match moveKey pyNone transfer a k s.work with
    | (.error e, c) => (.error e, { s with work := c })
    | (.ok _, c) => moveKeys eff env pyNone transfer a ks ({ s with work := c }.commit eff env)

/-- citrine/storage/container.py:331-334: the keys of a group are listed when its turn comes. -/
def moveGroups (eff : Nat → Bool) (env : Nat → List (DbOp V)) (pyNone : V) (transfer : Bool) :
    List Nat → Amid V → Outcome Unit × Amid V
  | [], s => (.ok (), s)
  | a :: as, s =>
    match moveKeys eff env pyNone transfer a (s.work.heap a).keys s with
    | (.error e, s') => (.error e, s')
    | (.ok _, s') => moveGroups eff env pyNone transfer as s'

/-- citrine/storage/container.py:302-349 `condense` with a transaction manager; an exception aborts what is pending
(citrine/storage/transaction.py:34-36). -/
def condense (eff : Nat → Bool) (env : Nat → List (DbOp V)) (pyNone : V) (s : Amid V) (transfer : Bool) :
    Outcome (List Nat) × Amid V :=
  match moveGroups eff env pyNone transfer s.work.groups.tail s.enter with
  | (.error e, s') => (.error e, s'.enter)
  | (.ok _, s') =>
    if transfer then
      match (s'.store env).work.dropSources with
      | (.error e, _) => (.error e, (s'.store env).enter)
      | (.ok r, c) => (.ok r, ({ s'.store env with work := c }.commit eff env).store env)
    else (.ok [], s'.store env)

/-- citrine/storage/container.py:220-300 `resize` with a transaction manager and `condense=True`. -/
def resize (eff : Nat → Bool) (env : Nat → List (DbOp V)) (pyNone : V) (s : Amid V) (capacity maxCollectionSize : Nat)
    (transfer : Bool) : Outcome (List Nat) × Amid V :=
  match Container.makeGroup capacity maxCollectionSize s.work.strict with
  | .error e => (.error e, s)
  | .ok g => condense eff env pyNone (({ s.enter with work := s.enter.work.pushPrimary g }.commit eff env).store env) transfer

end Amid
end Verif.Db
