import Verif.Db.Client
import Verif.Db.Concurrent

/-!
# Programs that share a database

Any number of programs, each with its own connection, each deciding by what it got back so far what to do next; the scheduler decides who goes next,
the storage whether it accepts a commit, and at any moment everything can die, after which the connections are opened again.
-/
namespace Verif.Db
open Verif.Storage
variable {V : Type}

/-- The requests that only look. (citrine/connection/container_connection.py:65-122, 185-193, 220-254) -/
inductive Look where
  | read (id : String)
  | item (sel : Conn.Selector)
  | strict
  | capacity
  | used
  | usage
  | status

/-- The same request to a connection. (citrine/connection/container_connection.py:65-122, 185-193, 220-254) -/
def Look.ask : Look → Ask V
  | .read id => .read id
  | .item sel => .item sel
  | .strict => .strict
  | .capacity => .capacity
  | .used => .used
  | .usage => .usage
  | .status => .status

/-- What a program can do next.  A call with autocommit is `begin`, `call` and `commit` or `abort` in a row, unless others go in between.
(citrine/storage/transaction.py:24-38, 70-89, citrine/connection/container_connection.py:65-254) -/
inductive Wish (V : Type) where
  | begin
  | call (op : DbOp V)
  | commit
  | abort
  | look (q : Look)

/-- Dispatch only; `ok`: the storage accepts a commit. (citrine/storage/transaction.py:24-38, citrine/connection/container_connection.py:65-254) -/
def Shared.serve [Truthy V] [DecidableEq V] (w : Shared V) (i : Nat) (ok : Bool) : Wish V → Reply V × Shared V
  | .begin => (.done (.ok ()), w.begin i)
  | .call op => (.call (w.run i op).1, (w.run i op).2)
  | .commit => (.done (w.commit i ok).1, (w.commit i ok).2)
  | .abort => (.done (.ok ()), w.abort i)
  | .look q => ((Conn.ask { tm := { work := (w.sess i).work, committed := (w.sess i).base }, flag := true } q.ask).1, w)

/-- All programs by what each of them has got back so far (latest last). (users of citrine/connection/container_connection.py) -/
abbrev Parties (V : Type) := Nat → List (Reply V) → Wish V

/-- Who goes next. (threads and processes using connections of citrine/database/containerdb.py:26-29) -/
inductive Turn where
  | go (i : Nat) (ok : Bool)
  | crash

/-- What every program has got back in the end. (threads and processes using connections of citrine/database/containerdb.py:26-29) -/
def gather {S : Type} (serve : S → Nat → Bool → Wish V → Reply V × S) (crash : S → S) (p : Parties V) :
    List Turn → S → (Nat → List (Reply V)) → Nat → List (Reply V)
  | [], _, got => got
  | .go i ok :: rest, s, got =>
    gather serve crash p rest (serve s i ok (p i (got i))).2 (Function.update got i (got i ++ [(serve s i ok (p i (got i))).1]))
  | .crash :: rest, s, got => gather serve crash p rest (crash s) got

/-- Everything dies and is opened again. (citrine/database/containerdb.py:26-29) -/
def Shared.crashed (w : Shared V) : Shared V := .opened w.disk

end Verif.Db
