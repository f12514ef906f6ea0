import Verif.Db.Figures

/-!
# Clients of a connection

Everything a program can ask of a ContainerConnection, with what it gets back; and programs that decide by all they got back so far what to ask next.
-/
namespace Verif.Db
open Verif.Storage
variable {V : Type}

/-- What a program can do with a connection: the four calls and `strict = …` (`call`), `read`, `[]`, the attributes `strict`, `autocommit`, `capacity`, `used`,
`usage` and `status`, `autocommit = …`, the two ends of a with block, `commit` and `abort` of its transaction manager, and dying, after which the
database is opened again. `ok` tells whether the storage accepts the commit. (citrine/connection/container_connection.py:65-254) -/
inductive Ask (V : Type) where
  | call (op : DbOp V) (ok : Bool)
  | read (id : String)
  | item (sel : Conn.Selector)
  | strict
  | autocommit
  | capacity
  | used
  | usage
  | status
  | setAutocommit (value : Option Bool)
  | enter
  | exit (raised ok : Bool)
  | commit (ok : Bool)
  | abort
  | crash (autocommit : Bool)

/-- What it gets back. (results of citrine/connection/container_connection.py:65-254) -/
inductive Reply (V : Type) where
  | call (r : Outcome (DbRet V))
  | read (r : Outcome (Option V))
  | item (r : Outcome (Option V ⊕ List (Option V)))
  | flag (r : Bool)
  | number (r : Outcome Nat)
  | ratio (r : Outcome ℚ)
  | done (r : Outcome Unit)

/-- Dispatch only. (citrine/connection/container_connection.py:65-254; commit and abort: citrine/storage/transaction.py:7-68) -/
def Conn.ask [Truthy V] (c : Conn V) : Ask V → Reply V × Conn V
  | .call op ok => (.call (c.call op ok).1, (c.call op ok).2)
  | .read id => (.read (c.read id), c)
  | .item sel => (.item (c.subscript sel), c)
  | .strict => (.flag c.strict, c)
  | .autocommit => (.flag c.autocommit, c)
  | .capacity => (.number (.ok c.capacity), c)
  | .used => (.number (.ok c.used), c)
  | .usage => (.ratio c.usage, c)
  | .status => (.number c.status, c)
  | .setAutocommit value => (.done (c.setAutocommit value).1, (c.setAutocommit value).2)
  | .enter => (.done (.ok ()), c.enter)
  | .exit raised ok => (.done (c.exit raised ok).1, (c.exit raised ok).2)
  | .commit ok => (.done (c.tm.commit ok).1, { c with tm := (c.tm.commit ok).2 })
  | .abort => (.done (.ok ()), { c with tm := c.tm.abort })
  | .crash a => (.done (.ok ()), c.step (.crash a))

/-- A program, as a user sees it: what it asks next, by all it got back so far (latest last). (users of citrine/connection/container_connection.py) -/
abbrev Client (V : Type) := List (Reply V) → Ask V

/-- What a client gets back in its next `n` requests to something that answers requests, after it got back `got`. (users of
citrine/connection/container_connection.py) -/
def converse {S : Type} (ask : S → Ask V → Reply V × S) (client : Client V) : Nat → S → List (Reply V) → List (Reply V)
  | 0, _, got => got
  | n + 1, s, got => converse ask client n (ask s (client got)).2 (got ++ [(ask s (client got)).1])

end Verif.Db
