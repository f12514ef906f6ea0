import Verif.Storage.Tree
import Verif.Storage.Utils
import Mathlib.Data.String.Basic

/-!
# Model of citrine/storage/collection.py

Keys are strings (the ids used by every caller in the repository).  A Python
dict argument is the list of its items (keys without repetition).
-/
namespace Verif.Storage

/-- citrine/storage/collection.py:80-132 `Collection` with its `CollectionMeta`
(72-77).  `uuid` is a number standing for the UUID string. -/
structure Collection (V : Type) where
  uuid : Nat
  tree : Tree String V
  maxSize : Nat
  strict : Bool
  deriving DecidableEq

namespace Collection
variable {V : Type}

/-- citrine/storage/collection.py:123-132 `__init__`: `max_size if max_size else 5000`,
`strict=True` by default.  Negative sizes are excluded by the type. -/
def new (uuid : Nat) (maxSize : Option Nat := none) (strict : Bool := true) : Collection V :=
  { uuid
    tree := []
    maxSize := match maxSize with
      | some m => if m = 0 then defaultCollectionSize else m
      | none => defaultCollectionSize
    strict }

/-- citrine/storage/collection.py:54-56 `size` -/
def size (c : Collection V) : Nat := c.tree.length

/-- citrine/storage/collection.py:50 `LEVELS` -/
def levels : List Nat := [0, 60, 70, 80, 90]

/-- citrine/storage/collection.py:58-70 `usage`, `status`: the largest level
`v <= ceil(usage * 100)`, `usage = size / max_size`.  Exact arithmetic instead of
floats: `⌈100·size/max_size⌉` (C126: the same for limits up to 2^45). -/
def statusOf (size maxSize : Nat) : Nat :=
  ((levels.filter fun v => v ≤ (100 * size + maxSize - 1) / maxSize)).foldl max 0

/-- citrine/storage/collection.py:63-70 -/
def status (c : Collection V) : Nat := statusOf c.size c.maxSize

/-- citrine/storage/collection.py:134-140 `get`; `none` = the default is returned. -/
def get (c : Collection V) (key : String) : Option V := c.tree.get key

/-- citrine/storage/collection.py:281-287 `has_key` -/
def hasKey (c : Collection V) (key : String) : Bool := c.tree.has key

/-- citrine/storage/collection.py:142-154 `insert` -/
def insert (c : Collection V) (key : String) (value : V) : Outcome Nat × Collection V :=
  if c.size ≥ c.maxSize ∧ c.strict then (.error .collectionCapacity, c)
  else
    let (r, t) := c.tree.insert key value
    (.ok r, { c with tree := t })

/-- citrine/storage/collection.py:156-168 `update`.  Simplification: the returned
count of the BTree is dropped (no caller uses it). -/
def update (c : Collection V) (d : List (String × V)) : Outcome Unit × Collection V :=
  let newKeys := (d.map Prod.fst).filter fun key => !c.tree.has key
  if c.size + newKeys.length > c.maxSize ∧ c.strict then (.error .collectionCapacity, c)
  else (.ok (), { c with tree := c.tree.update d })

/-- citrine/storage/collection.py:170-179 `pop(key, default=None)` -/
def pop (c : Collection V) (key : String) (default : Option V) : Outcome V × Collection V :=
  match c.tree.get key, default with
  | some v, _ => (.ok v, { c with tree := c.tree.erase key })
  | none, none => (.error .keyError, c)
  | none, some d => (.ok d, c)

/-- citrine/storage/collection.py:181-186 `popitem`: BTree's `popitem` removes the item
with the smallest key, `KeyError` when empty. -/
def popitem (c : Collection V) : Outcome (String × V) × Collection V :=
  match c.tree with
  | [] => (.error .keyError, c)
  | p :: t => (.ok p, { c with tree := t })

/-- citrine/storage/collection.py:188-196 `setdefault` -/
def setdefault (c : Collection V) (key : String) (value : V) : Outcome V × Collection V :=
  match c.tree.get key with
  | some v => (.ok v, c)
  | none => (.ok value, { c with tree := c.tree.put key value })

/-- citrine/storage/collection.py:198-202 `clear` -/
def clear (c : Collection V) : Collection V := { c with tree := [] }

/-- citrine/storage/collection.py:204-209 `keys` -/
def keys (c : Collection V) : List String := c.tree.keys

/-- citrine/storage/collection.py:221-226 `values` -/
def values (c : Collection V) : List V := c.tree.values

/-- citrine/storage/collection.py:238-243 `items` -/
def items (c : Collection V) : List (String × V) := c.tree

/-- citrine/storage/collection.py:245-253 `iteritems(min, max)` -/
def iteritems (c : Collection V) (min max : Option String) : List (String × V) :=
  c.tree.rangeItems min max

/-- citrine/storage/collection.py:211-219 `iterkeys(min, max)` -/
def iterkeys (c : Collection V) (min max : Option String) : List String :=
  (c.iteritems min max).map Prod.fst

/-- citrine/storage/collection.py:228-236 `itervalues(min, max)` (the bounds are on
keys, as in the BTree) -/
def itervalues (c : Collection V) (min max : Option String) : List V :=
  (c.tree.rangeItems min max).map Prod.snd

/-- citrine/storage/collection.py:255-261 `byValue(min)` -/
def byValue [LinearOrder V] (c : Collection V) (min : Option V) : List (V × String) :=
  c.tree.byValue min

/-- citrine/storage/collection.py:263-270 `maxKey(max)` -/
def maxKey (c : Collection V) (max : Option String) : Outcome String := c.tree.maxKey max

/-- citrine/storage/collection.py:272-279 `minKey(min)` -/
def minKey (c : Collection V) (min : Option String) : Outcome String := c.tree.minKey min

end Collection

/-- The mutating calls of a Collection's API (citrine/storage/collection.py:142-202). -/
inductive CollCall (V : Type) where
  | insert (key : String) (value : V)
  | update (d : List (String × V))
  | pop (key : String) (default : Option V)
  | popitem
  | setdefault (key : String) (value : V)
  | clear

/-- What a call returns. (return values of citrine/storage/collection.py:134-202) -/
inductive Ret (V : Type) where
  | unit
  | num (n : Nat)
  | val (v : V)
  | item (k : String) (v : V)
  deriving DecidableEq

/-- Run one call on a Collection (dispatch only). (methods of citrine/storage/collection.py:134-202) -/
def Collection.call {V : Type} (c : Collection V) : CollCall V → Outcome (Ret V) × Collection V
  | .insert k v => let (r, c') := c.insert k v; (r.map .num, c')
  | .update d => let (r, c') := c.update d; (r.map fun _ => .unit, c')
  | .pop k d => let (r, c') := c.pop k d; (r.map .val, c')
  | .popitem => let (r, c') := c.popitem; (r.map fun p => .item p.1 p.2, c')
  | .setdefault k v => let (r, c') := c.setdefault k v; (r.map .val, c')
  | .clear => (.ok .unit, c.clear)

/-- Run a list of calls, collecting the outcomes. (histories of calls of citrine/storage/collection.py:134-202) -/
def Collection.run {V : Type} (c : Collection V) :
    List (CollCall V) → List (Outcome (Ret V)) × Collection V
  | [] => ([], c)
  | op :: ops =>
    let (r, c') := c.call op
    let (rs, c'') := c'.run ops
    (r :: rs, c'')

end Verif.Storage
