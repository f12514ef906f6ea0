import Verif.Db.Connection

/-!
# Programs that use a connection

Python programs made of calls of a ContainerConnection, reads whose result decides how the program goes on, `with conn:` blocks (also inside
one another), exceptions of the program's own and `try`/`except`.
-/
namespace Verif.Db
open Verif.Storage
variable {V : Type}

/-- The calls that change stored objects. (citrine/connection/container_connection.py:172-183, 195-218) -/
inductive Change (V : Type) where
  | create (id : String) (obj : V)
  | update (id : String) (obj : V)
  | delete (id : String)

/-- The call. (citrine/connection/container_connection.py:172-183, 195-218) -/
def Change.op : Change V → DbOp V
  | .create id obj => .create id obj
  | .update id obj => .update id obj
  | .delete id => .delete id

/-- A program: `ok` tells whether the storage accepts the commit made by the call (if it makes one) or at the end of the block.
(users of citrine/connection/container_connection.py:172-254) -/
inductive Prog (V : Type) where
  /-- nothing -/
  | pass
  /-- a call; an exception of it goes on -/
  | call (ch : Change V) (ok : Bool)
  /-- `v = conn.read(id)`, and what comes then may depend on `v` -/
  | read (id : String) (next : Option V → Prog V)
  /-- the program raises an exception -/
  | raise
  /-- one after the other -/
  | seq (p q : Prog V)
  /-- `try: p` `except Exception: q` -/
  | attempt (p q : Prog V)
  /-- `with conn: p` -/
  | block (p : Prog V) (ok : Bool)

/-- Did a call raise? (exceptions of citrine/connection/container_connection.py:172-254) -/
def raises {α : Type} : Outcome α → Bool
  | .error _ => true
  | .ok _ => false

/-- Running a program: does an exception leave it, and the connection afterwards.  `with conn:` is `__enter__`, the body and `__exit__`
(citrine/connection/container_connection.py:240-254), which returns None, so that an exception of the body goes on. -/
def Conn.exec [Truthy V] : Prog V → Conn V → Bool × Conn V
  | .pass, c => (false, c)
  | .call ch ok, c => (raises (c.call ch.op ok).1, (c.call ch.op ok).2)
  | .read id next, c => match c.read id with
    | .error _ => (true, c)
    | .ok v => Conn.exec (next v) c
  | .raise, c => (true, c)
  | .seq p q, c => if (Conn.exec p c).1 then (true, (Conn.exec p c).2) else Conn.exec q (Conn.exec p c).2
  | .attempt p q, c => if (Conn.exec p c).1 then Conn.exec q (Conn.exec p c).2 else (false, (Conn.exec p c).2)
  | .block p ok, c =>
    ((Conn.exec p c.enter).1 || raises ((Conn.exec p c.enter).2.exit (Conn.exec p c.enter).1 ok).1,
      ((Conn.exec p c.enter).2.exit (Conn.exec p c.enter).1 ok).2)

end Verif.Db
