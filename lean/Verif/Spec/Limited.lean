import Verif.Spec.Store

/-!
# Specification: a transactional map with limits

A session with a database whose `strict` flag may be set and cleared at any time.  A database has slots, every id belongs to one of them; `room` is
the number of ids a slot is made for and `total` the number of ids the database is made for.
-/
namespace Verif.Spec
open Verif.Storage Verif.Db
variable {V : Type}

/-- There are `n` different ids with the property in the map. -/
def Map.AtLeast (m : Map V) (P : String → Prop) (n : Nat) : Prop := ∃ ids : List String, ids.Nodup ∧ ids.length = n ∧ ∀ id ∈ ids, m id ≠ none ∧ P id

structure Limits where
  slot : String → Nat
  room : Nat
  total : Nat

/-- What is in a database: the map and the flag. -/
structure Box (V : Type) where
  map : Map V
  strict : Bool := false

namespace Box

/-- The slot of the id is full. -/
def SlotFull (l : Limits) (b : Box V) (id : String) : Prop := b.map.AtLeast (fun x => l.slot x = l.slot id) l.room

open Classical in
/-- The error of writing an object under the id; `none`: it is written.  Without `strict` nothing is refused.  A new id is refused if the database
or the slot is full, an id in use if its slot is full or the database more than full. -/
noncomputable def refusal (l : Limits) (b : Box V) (id : String) : Option PyErr :=
  if b.strict = false then none
  else if b.map id = none then
    if b.map.AtLeast (fun _ => True) l.total then some .groupCapacity else if b.SlotFull l id then some .collectionCapacity else none
  else if b.SlotFull l id then some .collectionCapacity
  else if b.map.AtLeast (fun _ => True) (l.total + 1) then some .groupCapacity else none

/-- What the call makes of it; `none`: it is refused. -/
noncomputable def apply (l : Limits) (b : Box V) : DbOp V → Option (Box V)
  | .create id obj => if b.map id = none ∧ b.refusal l id = none then some { b with map := b.map.set id obj } else none
  | .update id obj => if b.refusal l id = none then some { b with map := b.map.set id obj } else none
  | .delete id => some { b with map := b.map.remove id }
  | .strict value => value.map fun v => { b with strict := v }

/-- An answer, unless the call is refused. -/
def reply {α : Type} : Option PyErr → α → Outcome α
  | some e, _ => .error e
  | none, a => .ok a

/-- What the call answers: `create` 1, `update` the previous object (`none` is Python's None), `delete` the objects removed. -/
noncomputable def answer (l : Limits) (b : Box V) : DbOp V → Outcome (DbRet V)
  | .create id _ => if b.map id ≠ none then .error .objectOverwrite else reply (b.refusal l id) (.count (some 1))
  | .update id _ => reply (b.refusal l id) (.prev (b.map id))
  | .delete id => .ok (.objs (b.map id).toList)
  | .strict none => .error .typeError
  | .strict (some _) => .ok .unit

end Box

/-- A session: what is stored for good, what the session sees, whether every call is committed by itself, and whether a commit has failed and nobody
has dealt with it yet. (As `Store`.) -/
structure Limited (V : Type) where
  disk : Box V
  mem : Box V
  auto : Bool := true
  broken : Bool := false

namespace Limited

/-- create, update and delete are committed at once if autocommit is on, starting from what is stored; `strict = ...` is always pending. -/
noncomputable def call (l : Limits) (s : Limited V) (op : DbOp V) (ok : Bool) : Limited V :=
  if s.auto ∧ isWrite op then
    if s.disk.apply l op = none then { s with mem := s.disk, broken := false }
    else if ok then { s with disk := (s.disk.apply l op).getD s.disk, mem := (s.disk.apply l op).getD s.disk, broken := false }
    else { s with mem := s.disk, auto := false, broken := true }
  else if s.broken then s
  else { s with mem := (s.mem.apply l op).getD s.mem }

/-- What the call answers. -/
noncomputable def answer (l : Limits) (s : Limited V) (op : DbOp V) (ok : Bool) : Outcome (DbRet V) :=
  if s.auto ∧ isWrite op then
    if s.disk.apply l op ≠ none ∧ ok = false then .error .storageError
    else s.disk.answer l op
  else if s.broken then .error .transactionFailed
  else s.mem.answer l op

def commit (s : Limited V) (ok : Bool) : Limited V :=
  if s.broken then s else if ok then { s with disk := s.mem } else { s with mem := s.disk, broken := true }

def abort (s : Limited V) : Limited V := { s with mem := s.disk, broken := false }

noncomputable def step (l : Limits) (s : Limited V) : Event V → Limited V
  | .call op ok => s.call l op ok
  | .setAutocommit value => { s with auto := value.getD s.auto }
  | .enter => { s.abort with auto := false }
  | .exit raised ok => { (if raised then s.abort else s.commit ok) with auto := true }
  | .commit ok => s.commit ok
  | .abort => s.abort
  | .crash _ => { disk := s.disk, mem := s.disk }

noncomputable def steps (l : Limits) (s : Limited V) : List (Event V) → Limited V
  | [] => s
  | e :: es => (s.step l e).steps l es

end Limited

end Verif.Spec
