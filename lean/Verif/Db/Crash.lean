import Verif.Db.Concurrent

/-!
# Processes that die while several sessions work

The sessions of `Db/Concurrent` belong to processes (citrine/client/container_client.py:27-199 connects
several processes to one server).  A process, or all of them with the server, can die at any moment.  ZODB
writes a transaction completely or not at all (library); the commit of a dying process can still have been written although
its call has not returned.
-/
namespace Verif.Db
open Verif.Storage
variable {V : Type}

/-- A call that was cut off: when it began, when the process died and when it was there again. (citrine/storage/transaction.py:70-89) -/
structure Cut (V : Type) where
  op : DbOp V
  start : Nat
  down : Nat
  up : Nat

/-- A database, its sessions and, for every session, the calls that were cut off (latest first). (citrine/storage/transaction.py:70-89) -/
structure Crashing (V : Type) where
  run : Callers V
  cut : Nat → List (Cut V)

namespace Crashing

/-- All sessions are idle. (citrine/database/containerdb.py:26-29) -/
def opened (c : Container V) : Crashing V := { run := .opened c, cut := fun _ => [] }

/-- The call of a session that dies. (citrine/storage/transaction.py:70-89) -/
def cutOff (down up : Nat) (pc : Pc V) (cs : List (Cut V)) : List (Cut V) :=
  match pc with
  | .started op t => ⟨op, t, down, up⟩ :: cs
  | .ran op _ t => ⟨op, t, down, up⟩ :: cs
  | .idle => cs
  | .broken => cs

/-- The commit of a dying session is still written, if it was about to commit (citrine/storage/transaction.py:30-38, 84-86) and nothing conflicts. -/
def land [DecidableEq V] (s : Callers V) (i : Nat) : Callers V :=
  match s.pc i with
  | .ran _ (.ok _) _ => { s with db := (s.db.commit i true).2, pc := Function.update s.pc i .broken, now := s.now + 1 }
  | _ => s

/-- The sessions of the processes that died are opened again. (citrine/database/containerdb.py:26-29,
citrine/client/container_client.py:27-199) -/
def restart (s : Callers V) (dies : Nat → Bool) : Callers V :=
  { s with
    db := { disk := s.db.disk, sess := fun i => if dies i then .fresh s.db.disk else s.db.sess i }
    pc := fun i => if dies i then .idle else s.pc i
    now := s.now + 1 }

/-- The sessions `dies` die (all of them if the machine does); the commits of those among `landed` are still written, in this order. (citrine/storage/transaction.py:70-89) -/
def crash [DecidableEq V] (c : Crashing V) (dies : Nat → Bool) (landed : List Nat) : Crashing V :=
  { run := restart ((landed.filter dies).foldl land c.run) dies
    cut := fun i => if dies i then cutOff c.run.now (restart ((landed.filter dies).foldl land c.run) dies).now (c.run.pc i) (c.cut i) else c.cut i }

end Crashing

/-- What happens: a step of a session, or processes die. (citrine/storage/transaction.py:70-89) -/
inductive Happening (V : Type) where
  | act (i : Nat) (a : Act V)
  | crash (dies : Nat → Bool) (landed : List Nat)

/-- One event. (citrine/storage/transaction.py:70-89) -/
def Crashing.step [Truthy V] [DecidableEq V] (c : Crashing V) : Happening V → Crashing V
  | .act i a => { c with run := (c.run.act i a).tick }
  | .crash dies landed => c.crash dies landed

/-- A history. (citrine/storage/transaction.py:70-89) -/
def Crashing.steps [Truthy V] [DecidableEq V] (c : Crashing V) (hs : List (Happening V)) : Crashing V := hs.foldl Crashing.step c

/-! ## Transactions of several calls -/

/-- What happens: a session does something, or the processes of some sessions die, when those among `landed` had just called commit and their commits were still written, in
this order. (citrine/storage/transaction.py:24-38) -/
inductive Turmoil (V : Type) where
  | move (i : Nat) (m : Move V)
  | crash (dies landed : List Nat)

namespace Shared

/-- The commits that are still written (citrine/storage/transaction.py:30-38). -/
def land [DecidableEq V] (w : Shared V) (i : Nat) : Shared V := (w.commit i true).2

/-- Processes die and open the database again. (citrine/database/containerdb.py:26-29, citrine/client/container_client.py:27-199) -/
def restart (w : Shared V) (dies : List Nat) : Shared V :=
  { disk := w.disk, sess := fun i => if i ∈ dies then .fresh w.disk else w.sess i }

/-- The processes of the sessions `dies` die. (citrine/storage/transaction.py:24-38) -/
def crash [DecidableEq V] (w : Shared V) (dies landed : List Nat) : Shared V :=
  ((landed.filter (· ∈ dies)).foldl land w).restart dies

/-- One event; `none` is the answer of a crash. (citrine/storage/transaction.py:24-38) -/
def event [Truthy V] [DecidableEq V] (w : Shared V) : Turmoil V → Option (Outcome (DbRet V)) × Shared V
  | .move i m => (some (w.move i m).1, (w.move i m).2)
  | .crash dies landed => (none, w.crash dies landed)

/-- A history. (citrine/storage/transaction.py:24-38) -/
def events [Truthy V] [DecidableEq V] (w : Shared V) : List (Turmoil V) → Shared V
  | [] => w
  | e :: es => (w.event e).2.events es

end Shared

end Verif.Db
