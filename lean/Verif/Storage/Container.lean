import Verif.Storage.Group
import Mathlib.Logic.Function.Basic

/-!
# Model of citrine/storage/container.py

Groups are mutable objects shared between containers, local variables and return
values, so a container is modelled with the part of the heap it can reach: groups are
numbered addresses, `heap` gives the current state of the group at an address, `next`
is the first unused address.
-/
namespace Verif.Storage

/-- citrine/storage/container.py:169-192 `Container`: its tuple of groups and its primary
group (addresses).  Group equality (line 189) is object identity. -/
structure Container (V : Type) where
  heap : Nat → CGroup V
  next : Nat
  groups : List Nat
  primary : Nat

namespace Container
variable {V : Type}

/-- Write a group's new state to the heap. (the group objects shared by citrine/storage/container.py:169-410) -/
def put (c : Container V) (a : Nat) (g : CGroup V) : Container V :=
  { c with heap := Function.update c.heap a g }

/-- Assignment to `___groups___` (282, 286, 296, 299, 344, 347). (citrine/storage/container.py:282, 286, 296, 299, 344, 347) -/
def withGroups (c : Container V) (groups : List Nat) : Container V := { c with groups }

/-- citrine/storage/container.py:33-38 `size` -/
def size (c : Container V) : Nat := (c.groups.map fun a => (c.heap a).size).sum

/-- citrine/storage/container.py:40-45 `max_size` -/
def maxSize (c : Container V) : Nat := (c.groups.map fun a => (c.heap a).maxSize).sum

/-- citrine/storage/container.py:47-52 `capacity` -/
def capacity (c : Container V) : Nat := (c.heap c.primary).maxSize

/-- citrine/storage/container.py:54-59 `used` -/
def used (c : Container V) : Nat := (c.heap c.primary).size

/-- citrine/storage/container.py:68-73 `status` -/
def status (c : Container V) : Outcome Nat := (c.heap c.primary).status

/-- citrine/storage/container.py:158-160 `strict` -/
def strict (c : Container V) : Bool := (c.heap c.primary).strict

/-- citrine/storage/container.py:162-166 `strict` setter (`none`: not a boolean) -/
def setStrict (c : Container V) (value : Option Bool) : Outcome Unit × Container V :=
  match value with
  | none => (.error .typeError, c)
  | some b => (.ok (), c.put c.primary ((c.heap c.primary).setStrict (some b)).2)

/-- citrine/storage/container.py:176-192 `__init__`, for groups living in `heap`. -/
def init (heap : Nat → CGroup V) (next : Nat) (primary : Nat) (groups : List Nat)
    (strict : Option Bool := some false) : Outcome (Container V) :=
  let c : Container V :=
    { heap, next, primary, groups := if primary ∈ groups then groups else primary :: groups }
  match c.setStrict strict with
  | (.error e, _) => .error e
  | (.ok _, c') => .ok c'

/-- citrine/storage/container.py:207-217 and 267-277: the group made by `new` and
`resize`.  The UUIDs are numbered from 0 (only their uniqueness inside the group is
ever used). -/
def makeGroup (capacity collectionMaxSize : Nat) (strict : Bool) : Outcome (CGroup V) :=
  match numberOfCollections capacity collectionMaxSize with
  | .error e => .error e
  | .ok size =>
    let m := if size * capacity < collectionMaxSize then size * capacity else collectionMaxSize
    CGroup.new 0 (some size) m strict

/-- citrine/storage/container.py:194-218 `new` -/
def new (capacity : Nat := defaultContainerSize) (collectionMaxSize : Nat := defaultCollectionSize)
    (strict : Bool := false) : Outcome (Container V) :=
  match makeGroup capacity collectionMaxSize strict with
  | .error e => .error e
  | .ok g => init (fun _ => g) 1 0 [] (some strict)

/-- citrine/storage/container.py:351-358 `has`, over the given groups. -/
def hasLoop (c : Container V) (id : String) : List Nat → Outcome Nat
  | [] => .ok 0
  | a :: as =>
    match (c.heap a).hasKey id with
    | .error e => .error e
    | .ok b =>
      match hasLoop c id as with
      | .error e => .error e
      | .ok n => .ok ((if b then 1 else 0) + n)

/-- citrine/storage/container.py:351-358 `has` -/
def has (c : Container V) (id : String) : Outcome Nat := c.hasLoop id c.groups

/-- citrine/storage/container.py:367-370: the loop of `read`; `if ret := group.get(id)`
tests the truth of the stored object. -/
def readLoop [Truthy V] (c : Container V) (id : String) : List Nat → Outcome (Option V)
  | [] => .ok none
  | a :: as =>
    match (c.heap a).get id with
    | .error e => .error e
    | .ok none => readLoop c id as
    | .ok (some v) => if truthy v then .ok (some v) else readLoop c id as

/-- citrine/storage/container.py:360-370 `read`; `none` = the default is returned. -/
def read [Truthy V] (c : Container V) (id : String) : Outcome (Option V) := c.readLoop id c.groups

/-- citrine/storage/container.py:372-380 `write`; the result `none` is Python's None (the
result of `update`), `some n` the count returned by `insert`. -/
def write (c : Container V) (id : String) (obj : V) : Outcome (Option Nat) × Container V :=
  match (c.heap c.primary).insert id obj with
  | (.error e, g) => (.error e, c.put c.primary g)
  | (.ok (n + 1), g) => (.ok (some (n + 1)), c.put c.primary g)
  | (.ok 0, g) =>
    match g.update [(id, obj)] with
    | (.error e, g') => (.error e, c.put c.primary g')
    | (.ok _, g') => (.ok none, c.put c.primary g')

/-- citrine/storage/container.py:382-388 `delete`: the generator asks `self.has(id)` again
before each group and then pops from that group. -/
def deleteLoop (id : String) : List Nat → Container V → Outcome (List V) × Container V
  | [], c => (.ok [], c)
  | a :: as, c =>
    match c.has id with
    | .error e => (.error e, c)
    | .ok 0 => deleteLoop id as c
    | .ok (_ + 1) =>
      match (c.heap a).pop id none with
      | (.error e, g) => (.error e, c.put a g)
      | (.ok v, g) =>
        match deleteLoop id as (c.put a g) with
        | (.error e, c') => (.error e, c')
        | (.ok vs, c') => (.ok (v :: vs), c')

/-- citrine/storage/container.py:382-388 `delete` -/
def delete (c : Container V) (id : String) : Outcome (List V) × Container V :=
  deleteLoop id c.groups c

/-- `self.primary.insert(key, v)` inside `condense` (325, 327), result ignored. (citrine/storage/container.py:325, 327) -/
def insertPrimary (c : Container V) (key : String) (v : V) : Outcome Unit × Container V :=
  (((c.heap c.primary).insert key v).1.map fun _ => (),
    c.put c.primary ((c.heap c.primary).insert key v).2)

/-- citrine/storage/container.py:324-327: `fn(group, key)`.  With `transfer` the key is
popped from the group first and then inserted in the primary group.  The case of a
`get` without result does not arise (the key is taken from the group's own keys and
nothing removes it in between); Python would insert None. -/
def moveKey (transfer : Bool) (a : Nat) (key : String) (c : Container V) :
    Outcome Unit × Container V :=
  if transfer then
    match (c.heap a).pop key none with
    | (.error e, g) => (.error e, c.put a g)
    | (.ok v, g) => (c.put a g).insertPrimary key v
  else
    match (c.heap a).get key with
    | .error e => (.error e, c)
    | .ok none => (.ok (), c)
    | .ok (some v) => c.insertPrimary key v

/-- citrine/storage/container.py:337-338: one source group. -/
def moveKeys (transfer : Bool) (a : Nat) : List String → Container V → Outcome Unit × Container V
  | [], c => (.ok (), c)
  | k :: ks, c =>
    match moveKey transfer a k c with
    | (.error e, c') => (.error e, c')
    | (.ok _, c') => moveKeys transfer a ks c'

/-- citrine/storage/container.py:336-338: all source groups; the keys of a group are
listed when its turn comes. -/
def moveGroups (transfer : Bool) : List Nat → Container V → Outcome Unit × Container V
  | [], c => (.ok (), c)
  | a :: as, c =>
    match moveKeys transfer a (c.heap a).keys c with
    | (.error e, c') => (.error e, c')
    | (.ok _, c') => moveGroups transfer as c'

/-- citrine/storage/container.py:340-349: the end of `condense`. -/
def dropSources (c : Container V) : Outcome (List Nat) × Container V :=
  match c.groups with
  | [] => (.error .indexError, c)
  | a :: as => (.ok as, c.withGroups [a])

/-- citrine/storage/container.py:302-349 `condense` without a transaction manager; the
result is the list of discarded groups. -/
def condense (c : Container V) (transfer : Bool) : Outcome (List Nat) × Container V :=
  match moveGroups transfer c.groups.tail c with
  | (.error e, c') => (.error e, c')
  | (.ok _, c') => if transfer then c'.dropSources else (.ok [], c')

/-- citrine/storage/container.py:282-287: the new group goes first and becomes primary. -/
def pushPrimary (c : Container V) (g : CGroup V) : Container V :=
  { heap := Function.update c.heap c.next g
    next := c.next + 1
    groups := c.next :: c.groups
    primary := c.next }

/-- citrine/storage/container.py:220-300 `resize` without a transaction manager -/
def resize (c : Container V) (capacity maxCollectionSize : Nat) (condense transfer : Bool) :
    Outcome (List Nat) × Container V :=
  match makeGroup capacity maxCollectionSize c.strict with
  | .error e => (.error e, c)
  | .ok g =>
    let c1 := c.pushPrimary g
    if condense then c1.condense transfer
    else
      match (c1.withGroups (c1.groups.take 2)).condense transfer with
      | (.error e, c2) => (.error e, c2)
      | (.ok r, c2) => (.ok r, c2.withGroups (c2.groups ++ c1.groups.drop 2))

end Container

/-- The mutating calls of a Container's API. (citrine/storage/container.py:220-388) -/
inductive ContCall (V : Type) where
  | write (id : String) (obj : V)
  | delete (id : String)
  | resize (capacity maxCollectionSize : Nat) (condense transfer : Bool)
  | condense (transfer : Bool)
  | setStrict (value : Option Bool)

/-- What a call returns. (return values of citrine/storage/container.py:220-388) -/
inductive ContRet (V : Type) where
  | unit
  | count (n : Option Nat)
  | objs (vs : List V)
  | groups (as : List Nat)
  deriving DecidableEq

/-- Dispatch. (methods of citrine/storage/container.py:220-388) -/
def Container.call {V : Type} (c : Container V) : ContCall V → Outcome (ContRet V) × Container V
  | .write k v => ((c.write k v).1.map .count, (c.write k v).2)
  | .delete k => ((c.delete k).1.map .objs, (c.delete k).2)
  | .resize n m cd t => ((c.resize n m cd t).1.map .groups, (c.resize n m cd t).2)
  | .condense t => ((c.condense t).1.map .groups, (c.condense t).2)
  | .setStrict b => ((c.setStrict b).1.map fun _ => .unit, (c.setStrict b).2)

/-- Run a list of calls, collecting the outcomes. (histories of calls of citrine/storage/container.py:220-388) -/
def Container.run {V : Type} (c : Container V) :
    List (ContCall V) → List (Outcome (ContRet V)) × Container V
  | [] => ([], c)
  | op :: ops =>
    let (r, c') := c.call op
    let (rs, c'') := c'.run ops
    (r :: rs, c'')

/-! ## With a transaction manager

`with transaction_manager as tm` starts by aborting whatever was pending
(transaction's `begin`); `tm.commit()` is called on the object returned by `__enter__`,
which for the `transaction` package is a Transaction that is spent after its first
commit; leaving the block commits, or aborts if an exception passes through.  So the
model takes an arbitrary `eff`: the `n`-th explicit commit takes effect iff `eff n`. -/

/-- A container as seen by the process (`work`), as stored on disk (`committed`), and all
states that were ever on disk since the call started (`log`, newest first).
(citrine/storage/transaction.py:7-39 over a ZODB storage (library)) -/
structure Session (V : Type) where
  work : Container V
  committed : Container V
  log : List (Container V) := []
  commits : Nat := 0

namespace Session
variable {V : Type}

/-- `__enter__`: `begin` aborts pending changes (citrine/storage/container.py:281,330,343). -/
def enter (s : Session V) : Session V := { s with work := s.committed }

/-- Everything in the working state goes to disk. (commit of ZODB (library), called by citrine/storage/transaction.py:30-38) -/
def store (s : Session V) : Session V :=
  { s with committed := s.work, log := s.work :: s.log }

/-- `tm.commit()` (citrine/storage/container.py:284,334,345) -/
def commit (eff : Nat → Bool) (s : Session V) : Session V :=
  if eff s.commits then { s.store with commits := s.commits + 1 }
  else { s with commits := s.commits + 1 }

/-- `__exit__` without and with an exception. (citrine/storage/transaction.py:30-38) -/
def exitOk (s : Session V) : Session V := s.store
/-- `__exit__` with an exception: abort. (citrine/storage/transaction.py:30-38) -/
def exitErr (s : Session V) : Session V := { s with work := s.committed }

/-- citrine/storage/container.py:332-334 -/
def moveKeys (eff : Nat → Bool) (transfer : Bool) (a : Nat) :
    List String → Session V → Outcome Unit × Session V
  | [], s => (.ok (), s)
  | k :: ks, s =>
    match Container.moveKey transfer a k s.work with
    | (.error e, c') => (.error e, { s with work := c' })
    | (.ok _, c') => moveKeys eff transfer a ks ({ s with work := c' }.commit eff)

/-- citrine/storage/container.py:331-334 -/
def moveGroups (eff : Nat → Bool) (transfer : Bool) :
    List Nat → Session V → Outcome Unit × Session V
  | [], s => (.ok (), s)
  | a :: as, s =>
    match moveKeys eff transfer a (s.work.heap a).keys s with
    | (.error e, s') => (.error e, s')
    | (.ok _, s') => moveGroups eff transfer as s'

/-- citrine/storage/container.py:302-349 `condense` with a transaction manager.  The list of
source groups (322) is taken before the block is entered; the discarded groups (341)
before the second block is entered. -/
def condense (eff : Nat → Bool) (s : Session V) (transfer : Bool) :
    Outcome (List Nat) × Session V :=
  match moveGroups eff transfer s.work.groups.tail s.enter with
  | (.error e, s') => (.error e, s'.exitErr)
  | (.ok _, s') =>
    let s1 := s'.exitOk
    if transfer then
      let s2 := s1.enter
      match s2.work.dropSources with
      | (.error e, _) => (.error e, s2.exitErr)
      | (.ok r, c') => (.ok r, ({ s2 with work := c' }.commit eff).exitOk)
    else (.ok [], s1)

/-- citrine/storage/container.py:220-300 `resize` with a transaction manager.  The
assignments 296 and 299 are outside the blocks. -/
def resize (eff : Nat → Bool) (s : Session V) (capacity maxCollectionSize : Nat)
    (condense transfer : Bool) : Outcome (List Nat) × Session V :=
  match Container.makeGroup capacity maxCollectionSize s.work.strict with
  | .error e => (.error e, s)
  | .ok g =>
    let s0 := s.enter
    let s1 := ({ s0 with work := s0.work.pushPrimary g }.commit eff).exitOk
    if condense then Session.condense eff s1 transfer
    else
      let secondaries := s1.work.groups.drop 2
      match Session.condense eff { s1 with work := s1.work.withGroups (s1.work.groups.take 2) } transfer with
      | (.error e, s2) => (.error e, s2)
      | (.ok r, s2) =>
        (.ok r, { s2 with work := s2.work.withGroups (s2.work.groups ++ secondaries) })

end Session

end Verif.Storage
