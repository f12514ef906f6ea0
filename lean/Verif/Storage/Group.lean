import Verif.Storage.Collection
import Mathlib.Data.List.Dedup

/-!
# Model of citrine/storage/group.py
-/
namespace Verif.Storage

/-- citrine/storage/group.py:15-16: `int.from_bytes(id.encode())`, the utf-8 bytes read
as a big-endian number. -/
def hashId (id : String) : Nat :=
  (id.toList.flatMap String.utf8EncodeChar).foldl (fun a b => a * 256 + b.toNat) 0

/-- citrine/storage/group.py:15-16 `get_group_index` -/
def groupIndex (id : String) (n : Nat) : Outcome Nat :=
  if n = 0 then .error .zeroDivision else .ok (hashId id % n)

/-- citrine/storage/group.py:118-221 `Group`: the tuple of its collections (the metadata
object, 69-116, holds the same tuple). -/
structure CGroup (V : Type) where
  collections : List (Collection V)
  deriving DecidableEq

namespace CGroup
variable {V : Type}

/-- citrine/storage/group.py:75-77 `size` -/
def size (g : CGroup V) : Nat := (g.collections.map Collection.size).sum

/-- citrine/storage/group.py:79-81 `max_size` -/
def maxSize (g : CGroup V) : Nat := (g.collections.map Collection.maxSize).sum

/-- citrine/storage/group.py:83-85 `max_collection_size`: `max` of nothing raises
ValueError. -/
def maxCollectionSize (g : CGroup V) : Outcome Nat :=
  match g.collections.map Collection.maxSize with
  | [] => .error .valueError
  | m :: ms => .ok (ms.foldl max m)

/-- citrine/storage/group.py:104-112 `status` -/
def status (g : CGroup V) : Outcome Nat :=
  match g.collections.map Collection.status with
  | [] => .error .valueError
  | m :: ms => .ok (ms.foldl max m)

/-- citrine/storage/group.py:203-205 `strict` -/
def strict (g : CGroup V) : Bool := g.collections.all Collection.strict

/-- citrine/storage/group.py:207-212 `strict` setter; `none` stands for a non-boolean. -/
def setStrict (g : CGroup V) (value : Option Bool) : Outcome Unit × CGroup V :=
  match value with
  | none => (.error .typeError, g)
  | some b => (.ok (), { g with collections := g.collections.map fun c => { c with strict := b } })

/-- citrine/storage/group.py:214-221 `__init__` -/
def init (collections : List (Collection V)) (strict : Bool := false) : Outcome (CGroup V) :=
  if (collections.map Collection.uuid).dedup.length ≠ collections.length then .error .keyError
  else .ok { collections := collections.map fun c => { c with strict := strict } }

/-- citrine/storage/group.py:258-266 `new`, branch without `custom`.  `size = none`: not
given; negative sizes, which Python turns into a group without collections, are excluded by
the type.  The `strict` argument is accepted and not used (line 266).  The UUIDs are
numbered from `uuid` on (uuid4 is assumed not to repeat). -/
def new (uuid : Nat) (size : Option Nat) (maxCollectionSize : Int) (_strict : Bool := false) :
    Outcome (CGroup V) :=
  match size with
  | none | some 0 => .error .valueError
  | some n =>
    if maxCollectionSize ≤ 0 then .error .valueError
    else init ((List.range n).map fun i => Collection.new (uuid + i) (some maxCollectionSize.toNat))

/-- A key of the `custom` mapping: an integer or something else. (citrine/storage/group.py:224-293) -/
abbrev CustomKey := Option Int

/-- citrine/storage/group.py:278-280: the gaps below `size` get the default size.
`keys` is the snapshot taken at 268. -/
def fillGaps (keys : List Int) (size : Nat) (m : Int) : List (Int × Int) :=
  ((List.range size).filter fun k : Nat => (k : Int) ∉ keys).map fun k : Nat => ((k : Int), m)

/-- citrine/storage/group.py:271-272: a missing or zero size becomes the highest key. -/
def effectiveSize (size : Option Int) (highest : Int) : Int :=
  match size with
  | none => highest
  | some s => if s = 0 then highest else s

/-- citrine/storage/group.py:267-292 `new`, branch with a non-empty `custom` dict (list of
pairs, keys without repetition; `none` key = not an integer).  `strict` reaches the
collections at 288-291 but is overwritten by `Group.__init__` (292, 221).  If `size`
is missing or 0 it becomes the highest key (271-272; `range` of a negative number is
empty).  Collections are made in key order (291). -/
def newCustom (uuid : Nat) (size : Option Int) (maxCollectionSize : Int) (strict : Bool)
    (custom : List (CustomKey × Int)) : Outcome (CGroup V) :=
  match custom.mapM fun p => p.1.map fun k => (k, p.2) with
  | none => .error .keyError
  | some [] => .error .valueError
  | some ((k0, v0) :: rest) =>
    let items := (k0, v0) :: rest
    let highest := rest.foldl (fun a p => max a p.1) k0
    let size := effectiveSize size highest
    if size ≠ 0 ∧ size < highest then .error .keyError
    else
      let all := items ++ fillGaps (items.map Prod.fst) size.toNat maxCollectionSize
      if all.any fun p => p.2 ≤ 0 then .error .valueError
      else
        let sorted := all.mergeSort fun a b => decide (a.1 ≤ b.1)
        init (sorted.mapIdx fun i p => Collection.new (uuid + i) (some p.2.toNat) strict)

/-- citrine/storage/group.py:19-27 `groupfn`: route the call to the collection of the key. -/
def route {α : Type} (g : CGroup V) (key : String) (fn : Collection V → Outcome α × Collection V) :
    Outcome α × CGroup V :=
  match groupIndex key g.collections.length with
  | .error e => (.error e, g)
  | .ok i =>
    match g.collections[i]? with
    | none => (.error .indexError, g)
    | some c => ((fn c).1, { g with collections := g.collections.set i (fn c).2 })

/-- Read-only routing (19-27) for `get` and `has_key`. (citrine/storage/group.py:19-27) -/
def routeRead {α : Type} (g : CGroup V) (key : String) (fn : Collection V → α) : Outcome α :=
  match groupIndex key g.collections.length with
  | .error e => .error e
  | .ok i =>
    match g.collections[i]? with
    | none => .error .indexError
    | some c => .ok (fn c)

/-- citrine/storage/group.py:294-301 `get`; `none` = the default is returned. -/
def get (g : CGroup V) (key : String) : Outcome (Option V) := g.routeRead key fun c => c.get key

/-- citrine/storage/group.py:510-517 `has_key` -/
def hasKey (g : CGroup V) (key : String) : Outcome Bool := g.routeRead key fun c => c.hasKey key

/-- citrine/storage/group.py:46-50,53-55,372-377 `keys()`: the collections' keys in turn. -/
def keys (g : CGroup V) : List String := g.collections.flatMap Collection.keys

/-- citrine/storage/group.py:46-50,58-60,405-410 `values()` -/
def values (g : CGroup V) : List V := g.collections.flatMap Collection.values

/-- citrine/storage/group.py:46-50,63-65,438-443 `items()` -/
def items (g : CGroup V) : List (String × V) := g.collections.flatMap Collection.items

/-- citrine/storage/group.py:303-316 `insert`.  `groupfn` computes the index (and fails
on an empty group) before the capacity test. -/
def insert (g : CGroup V) (key : String) (value : V) : Outcome Nat × CGroup V :=
  match groupIndex key g.collections.length with
  | .error e => (.error e, g)
  | .ok _ =>
    if g.size ≥ g.maxSize ∧ key ∉ g.keys ∧ g.strict then (.error .groupCapacity, g)
    else g.route key fun c => c.insert key value

/-- citrine/storage/group.py:329-336: the per-collection updates, in index order,
collections without a share are skipped, the first error ends the loop. `n` is the
number of collections, `i` the index of the head. -/
def updateLoop (n : Nat) (d : List (String × V)) :
    Nat → List (Collection V) → Outcome Unit × List (Collection V)
  | _, [] => (.ok (), [])
  | i, c :: cs =>
    let share := d.filter fun p => hashId p.1 % n = i
    if share.isEmpty then
      let (r, cs') := updateLoop n d (i + 1) cs
      (r, c :: cs')
    else
      match c.update share with
      | (.error e, c') => (.error e, c' :: cs)
      | (.ok _, c') =>
        let (r, cs') := updateLoop n d (i + 1) cs
        (r, c' :: cs')

/-- citrine/storage/group.py:318-336 `update` of a dict -/
def update (g : CGroup V) (d : List (String × V)) : Outcome Unit × CGroup V :=
  let newKeys := (d.map Prod.fst).filter fun k => k ∉ g.keys
  if newKeys.length + g.size > g.maxSize ∧ g.strict then (.error .groupCapacity, g)
  else if g.collections.length = 0 ∧ d ≠ [] then (.error .zeroDivision, g)
  else
    let (r, cs) := updateLoop g.collections.length d 0 g.collections
    (r, { g with collections := cs })

/-- citrine/storage/group.py:338-346 `pop` -/
def pop (g : CGroup V) (key : String) (default : Option V) : Outcome V × CGroup V :=
  g.route key fun c => c.pop key default

/-- citrine/storage/group.py:355-364 `setdefault` -/
def setdefault (g : CGroup V) (key : String) (value : V) : Outcome V × CGroup V :=
  g.route key fun c => c.setdefault key value

/-- citrine/storage/group.py:366-370 `clear` -/
def clear (g : CGroup V) : CGroup V := { g with collections := g.collections.map Collection.clear }

/-- citrine/storage/group.py:490-498 `maxKey`: `max` over the collections' `maxKey`, whose
ValueError goes through; `max` of nothing raises ValueError. -/
def maxKey (g : CGroup V) (max : Option String) : Outcome String :=
  match g.collections.mapM fun c => c.maxKey max with
  | .error e => .error e
  | .ok [] => .error .valueError
  | .ok (k :: ks) => .ok (ks.foldl (fun a b => if a < b then b else a) k)

/-- citrine/storage/group.py:500-508 `minKey` -/
def minKey (g : CGroup V) (min : Option String) : Outcome String :=
  match g.collections.mapM fun c => c.minKey min with
  | .error e => .error e
  | .ok [] => .error .valueError
  | .ok (k :: ks) => .ok (ks.foldl (fun a b => if b < a then b else a) k)

/-- citrine/storage/group.py:348-353 `popitem` -/
def popitem (g : CGroup V) : Outcome (String × V) × CGroup V :=
  match g.minKey none with
  | .error e => (.error e, g)
  | .ok k =>
    match g.pop k none with
    | (.error e, g') => (.error e, g')
    | (.ok v, g') => (.ok (k, v), g')

/-- The least of the heads of the generators that are not exhausted
(citrine/storage/group.py:397 `minimum((v for v in vals if v is not None))`). -/
def minHead {K : Type} [LinearOrder K] : List (List K) → Option K
  | [] => none
  | [] :: ls => minHead ls
  | (k :: _) :: ls =>
    match minHead ls with
    | none => some k
    | some m => some (if m < k then m else k)

/-- Advance the first generator whose current value is `k`
(citrine/storage/group.py:400 `vals.index(next_val)`). -/
def advance {K : Type} [DecidableEq K] (k : K) : List (List K) → List (List K)
  | [] => []
  | [] :: ls => [] :: advance k ls
  | (k' :: r) :: ls => if k' = k then r :: ls else (k' :: r) :: advance k ls

/-- citrine/storage/group.py:395 `any(vals)`: some current value is truthy. -/
def headTruthy {K : Type} [Truthy K] (ls : List (List K)) : Bool :=
  ls.any fun l => match l with | [] => false | k :: _ => truthy k

/-- citrine/storage/group.py:386-403 / 419-436: the merge loop.  A generator and its
current value are one list (head = current value, empty = `None`).  `while any(vals)`
looks at the truth of the current values.  The first argument bounds the number of
rounds; every round consumes one element, so the total number of elements is enough
(`mergeLoop_fuel`). -/
def mergeLoop {K : Type} [LinearOrder K] [Truthy K] : Nat → List (List K) → List K
  | 0, _ => []
  | n + 1, ls =>
    if headTruthy ls then
      match minHead ls with
      | none => []
      | some k => k :: mergeLoop n (advance k ls)
    else []

/-- citrine/storage/group.py:379-403 `iterkeys` -/
def iterkeys (g : CGroup V) (min max : Option String) : List String :=
  let gens := g.collections.map fun c => c.iterkeys min max
  mergeLoop (gens.map List.length).sum gens

/-- citrine/storage/group.py:412-436 `itervalues`.  Values must be comparable and not
`None` (otherwise Python raises TypeError or takes the value for the end). -/
def itervalues [LinearOrder V] [Truthy V] (g : CGroup V) (min max : Option String) : List V :=
  let gens := g.collections.map fun c => c.itervalues min max
  mergeLoop (gens.map List.length).sum gens

/-- Insert the current item of every generator in the `items` dict
(citrine/storage/group.py:456-462). -/
def firstItems : List (List (String × V)) → List (String × V)
  | [] => []
  | [] :: ls => firstItems ls
  | (p :: _) :: ls => p :: firstItems ls

/-- `items[k] = v` on a Python dict given by its items. (used by citrine/storage/group.py:445-475) -/
def dictSet (d : List (String × V)) (k : String) (v : V) : List (String × V) :=
  (k, v) :: d.filter fun p => p.1 ≠ k

/-- citrine/storage/group.py:471: store the next item, if there is one. -/
def dictSetOpt (d : List (String × V)) : Option (String × V) → List (String × V)
  | none => d
  | some p => dictSet d p.1 p.2

/-- Advance the generator whose current key is `k`; also the item it moves on to. (citrine/storage/group.py:445-475) -/
def advanceItem (k : String) : List (List (String × V)) → Option (String × V) × List (List (String × V))
  | [] => (none, [])
  | [] :: ls => let (r, ls') := advanceItem k ls; (r, [] :: ls')
  | (p :: r) :: ls =>
    if p.1 = k then (r.head?, r :: ls)
    else let (q, ls') := advanceItem k ls; (q, (p :: r) :: ls')

/-- citrine/storage/group.py:463-475: the merge loop on keys with the dict `items` of the
current values; `items.pop(next_key)` could raise KeyError. -/
def itemsLoop : Nat → List (List (String × V)) → List (String × V) → Outcome (List (String × V))
  | 0, _, _ => .ok []
  | n + 1, ls, items =>
    if headTruthy (ls.map fun l => l.map Prod.fst) then
      match minHead (ls.map fun l => l.map Prod.fst) with
      | none => .ok []
      | some k =>
        let (nxt, ls') := advanceItem k ls
        let items := dictSetOpt items nxt
        match Tree.get items k with
        | none => .error .keyError
        | some v =>
          match itemsLoop n ls' (Tree.erase items k) with
          | .error e => .error e
          | .ok r => .ok ((k, v) :: r)
    else .ok []

/-- citrine/storage/group.py:445-475 `iteritems` -/
def iteritems (g : CGroup V) (min max : Option String) : Outcome (List (String × V)) :=
  let gens := g.collections.map fun c => c.iteritems min max
  itemsLoop (gens.map List.length).sum gens
    ((firstItems gens).foldl (fun d p => dictSet d p.1 p.2) [])

/-- citrine/storage/group.py:477-488 `byValue` -/
def byValue [LinearOrder V] (g : CGroup V) (min : Option V) : List (V × String) :=
  (g.collections.flatMap fun c => c.byValue min).mergeSort
    fun a b => decide (b.1 < a.1 ∨ (b.1 = a.1 ∧ b.2 ≤ a.2))

/-- Run one call on a Group (dispatch only). (methods of citrine/storage/group.py:295-370) -/
def call (g : CGroup V) : CollCall V → Outcome (Ret V) × CGroup V
  | .insert k v => let (r, g') := g.insert k v; (r.map .num, g')
  | .update d => let (r, g') := g.update d; (r.map fun _ => .unit, g')
  | .pop k d => let (r, g') := g.pop k d; (r.map .val, g')
  | .popitem => let (r, g') := g.popitem; (r.map fun p => .item p.1 p.2, g')
  | .setdefault k v => let (r, g') := g.setdefault k v; (r.map .val, g')
  | .clear => (.ok .unit, g.clear)

end CGroup

/-- Calls that can be made on a Group: map calls and assignments to `strict`. (citrine/storage/group.py:204-212, 295-370) -/
inductive GroupCall (V : Type) where
  | map (op : CollCall V)
  | setStrict (value : Option Bool)

/-- Dispatch. (citrine/storage/group.py:204-212, 295-370) -/
def CGroup.gcall {V : Type} (g : CGroup V) : GroupCall V → Outcome (Ret V) × CGroup V
  | .map op => g.call op
  | .setStrict b => let (r, g') := g.setStrict b; (r.map fun _ => .unit, g')

/-- Run a list of calls, collecting the outcomes. (histories of calls of citrine/storage/group.py:204-212, 295-370) -/
def CGroup.run {V : Type} (g : CGroup V) :
    List (GroupCall V) → List (Outcome (Ret V)) × CGroup V
  | [] => ([], g)
  | op :: ops =>
    let (r, g') := g.gcall op
    let (rs, g'') := g'.run ops
    (r :: rs, g'')

end Verif.Storage
