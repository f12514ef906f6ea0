import Verif.Storage.Container
import Mathlib.Data.Rat.Floor
import Mathlib.Algebra.Order.Field.Rat

/-!
# Model of the usage figures of collections, groups and containers

Python's floats are modelled by rational numbers; `Storage/Float.lean` models them as floats (C126).
-/
namespace Verif.Storage
variable {V : Type}

/-- citrine/storage/collection.py:58-61, 98-100 `usage`: `size / max_size` (`max_size` is never 0, see `Collection.new`). -/
def Collection.usage (c : Collection V) : ℚ := (c.size : ℚ) / c.maxSize

namespace CGroup

/-- citrine/storage/group.py:87-90, 153-158 `usage`: dividing by 0 raises ZeroDivisionError (a group without collections). -/
def usage (g : CGroup V) : Outcome ℚ :=
  if g.maxSize = 0 then .error .zeroDivision else .ok ((g.size : ℚ) / g.maxSize)

/-- citrine/storage/group.py:92-95, 160-165 `collection_usage`: a dict from collections (told apart by identity) to their usage; here the usages in the order of
the collections. -/
def collectionUsage (g : CGroup V) : List ℚ := g.collections.map Collection.usage

/-- citrine/storage/group.py:97-99, 167-172 `highest_collection_usage`: `max` of nothing raises ValueError. -/
def highestUsage (g : CGroup V) : Outcome ℚ :=
  match g.collectionUsage with
  | [] => .error .valueError
  | u :: us => .ok (us.foldl max u)

/-- citrine/storage/group.py:101-103, 174-179 `lowest_collection_usage`: `min` of nothing raises ValueError. -/
def lowestUsage (g : CGroup V) : Outcome ℚ :=
  match g.collectionUsage with
  | [] => .error .valueError
  | u :: us => .ok (us.foldl min u)

end CGroup

/-- citrine/storage/container.py:61-66, 144-149 `usage`: of the primary group. -/
def Container.usage (c : Container V) : Outcome ℚ := (c.heap c.primary).usage

end Verif.Storage
