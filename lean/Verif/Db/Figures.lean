import Verif.Db.Connection
import Verif.Storage.Usage

/-!
# Model of the figures a connection shows (citrine/connection/container_connection.py:12-120)

`conn.capacity`, `conn.used`, `conn.usage` and `conn.status` ask `conn.meta`, which asks the container of the connection's current view, which
asks its own `meta`.
-/
namespace Verif.Db
open Verif.Storage
variable {V : Type}

/-- citrine/connection/container_connection.py:92-96, 26-30 `capacity` (citrine/storage/container.py:130-134, 47-52) -/
def Conn.capacity (c : Conn V) : Nat := c.tm.work.capacity

/-- citrine/connection/container_connection.py:99-104, 33-38 `used` (citrine/storage/container.py:137-142, 54-59) -/
def Conn.used (c : Conn V) : Nat := c.tm.work.used

/-- citrine/connection/container_connection.py:107-111, 41-45 `usage` (citrine/storage/container.py:144-149, 61-66) -/
def Conn.usage (c : Conn V) : Outcome ℚ := c.tm.work.usage

/-- citrine/connection/container_connection.py:114-118, 48-52 `status` (citrine/storage/container.py:152-156, 68-73) -/
def Conn.status (c : Conn V) : Outcome Nat := c.tm.work.status

/-- citrine/connection/container_connection.py:120-122, 55-59 `strict` (citrine/storage/container.py:158-160) -/
def Conn.strict (c : Conn V) : Bool := c.tm.work.strict

end Verif.Db
