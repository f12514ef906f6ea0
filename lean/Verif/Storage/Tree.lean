import Verif.Py
import Mathlib.Order.Basic

/-!
# Model of `BTrees.OOBTree.BTree`

The library's B-tree is modelled by the list of its items in increasing key
order (its documented behaviour; bucket layout and persistence are not
modelled).  Used at citrine/storage/collection.py:15-16,126.
-/
namespace Verif.Storage

/-- The items of a BTree, in key order. (library BTrees.OOBTree, as used by citrine/storage/collection.py:123-287) -/
abbrev Tree (K V : Type) := List (K × V)

namespace Tree
variable {K V : Type}

/-- `tree.keys()` (library BTrees.OOBTree, as used by citrine/storage/collection.py:123-287) -/
def keys (t : Tree K V) : List K := t.map Prod.fst

/-- `tree.values()` (library BTrees.OOBTree, as used by citrine/storage/collection.py:123-287) -/
def values (t : Tree K V) : List V := t.map Prod.snd

/-- The representation invariant: keys strictly increase. (library BTrees.OOBTree, as used by citrine/storage/collection.py:123-287) -/
def Sorted [LT K] (t : Tree K V) : Prop := t.Pairwise fun a b => a.1 < b.1

/-- `tree.get(key)`; `none` when the key is missing (the caller then sees its
default). (library BTrees.OOBTree, as used by citrine/storage/collection.py:123-287) -/
def get [DecidableEq K] : Tree K V → K → Option V
  | [], _ => none
  | (k', v) :: t, k => if k = k' then some v else get t k

/-- `tree.has_key(key)` / `key in tree.keys()` (library BTrees.OOBTree, as used by citrine/storage/collection.py:123-287) -/
def has [DecidableEq K] (t : Tree K V) (k : K) : Bool := (get t k).isSome

/-- `tree[key] = value` (library BTrees.OOBTree, as used by citrine/storage/collection.py:123-287) -/
def put [LinearOrder K] : Tree K V → K → V → Tree K V
  | [], k, v => [(k, v)]
  | (k', v') :: t, k, v =>
    if k < k' then (k, v) :: (k', v') :: t
    else if k = k' then (k, v) :: t
    else (k', v') :: put t k v

/-- `del tree[key]` (no effect if missing; callers test first) (library BTrees.OOBTree, as used by citrine/storage/collection.py:123-287) -/
def erase [DecidableEq K] (t : Tree K V) (k : K) : Tree K V := t.filter fun p => p.1 ≠ k

/-- `tree.insert(key, value)`: adds only a missing key; 1 if added, else 0.
(library BTrees.OOBTree, as used by citrine/storage/collection.py:123-287) -/
def insert [LinearOrder K] (t : Tree K V) (k : K) (v : V) : Nat × Tree K V :=
  if t.has k then (0, t) else (1, t.put k v)

/-- `tree.update(mapping)`: store every pair of the mapping. (library BTrees.OOBTree, as used by citrine/storage/collection.py:123-287) -/
def update [LinearOrder K] (t : Tree K V) (d : List (K × V)) : Tree K V :=
  d.foldl (fun t p => t.put p.1 p.2) t

/-- `tree.iteritems(min, max)`: items with `min ≤ key ≤ max`, in key order;
`None` bounds are open. (library BTrees.OOBTree, as used by citrine/storage/collection.py:123-287) -/
def rangeItems [LE K] [DecidableLE K] (t : Tree K V) (min max : Option K) : List (K × V) :=
  t.filter fun p => (match min with | none => true | some m => decide (m ≤ p.1)) &&
    (match max with | none => true | some m => decide (p.1 ≤ m))

/-- `tree.minKey(min)`: least key `≥ min`, `ValueError` if there is none.
(library BTrees.OOBTree, as used by citrine/storage/collection.py:123-287) -/
def minKey [LE K] [DecidableLE K] (t : Tree K V) (min : Option K) : Outcome K :=
  match t.rangeItems min none with
  | [] => .error .valueError
  | p :: _ => .ok p.1

/-- `tree.maxKey(max)`: greatest key `≤ max`, `ValueError` if there is none.
(library BTrees.OOBTree, as used by citrine/storage/collection.py:123-287) -/
def maxKey [LE K] [DecidableLE K] (t : Tree K V) (max : Option K) : Outcome K :=
  match (t.rangeItems none max).getLast? with
  | none => .error .valueError
  | some p => .ok p.1

/-- `tree.byValue(min)`: `(value, key)` pairs with `value ≥ min`, highest first
(`None` = no bound).  Requires comparable values (the library raises TypeError
otherwise). (library BTrees.OOBTree, as used by citrine/storage/collection.py:123-287) -/
def byValue [LinearOrder K] [LinearOrder V] (t : Tree K V) (min : Option V) : List (V × K) :=
  ((t.filter fun p => match min with | none => true | some m => decide (m ≤ p.2)).map
    fun p => (p.2, p.1)).mergeSort
      fun a b => decide (b.1 < a.1 ∨ (b.1 = a.1 ∧ b.2 ≤ a.2))

end Tree
end Verif.Storage
