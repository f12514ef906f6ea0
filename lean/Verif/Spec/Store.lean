import Verif.Spec.Map
import Verif.Db.Connection

/-!
# Specification: a transactional map

What a session with a database should look like to a program, with plain maps instead of containers, groups and trees (only the types of
calls, events and results are shared with the model of the code).
-/
namespace Verif.Spec
open Verif.Storage Verif.Db
variable {V : Type}

/-- create, update and delete change stored objects; `strict = ...` does not. -/
def isWrite : DbOp V → Bool
  | .create _ _ => true
  | .update _ _ => true
  | .delete _ => true
  | .strict _ => false

/-- What the call makes of the map; `none`: it is refused. -/
def Map.apply (m : Map V) : DbOp V → Option (Map V)
  | .create id obj => if m id = none then some (m.set id obj) else none
  | .update id obj => some (m.set id obj)
  | .delete id => some (m.remove id)
  | .strict value => if value = none then none else some m

/-- What the call answers on the map. -/
def Map.Answers (m : Map V) (op : DbOp V) (r : Outcome (DbRet V)) : Prop :=
  match op with
  | .create id _ => r = if m id = none then .ok (.count (some 1)) else .error .objectOverwrite
  | .update id _ => r = .ok (.prev (m id))
  | .delete id => ∃ vs, r = .ok (.objs vs) ∧ vs.head? = m id
  | .strict value => r = if value = none then .error .typeError else .ok .unit

/-- A session with a transactional map: what is stored for good, what the session sees, whether every call is committed by itself,
and whether a commit has failed and nobody has dealt with it yet. -/
structure Store (V : Type) where
  disk : Map V
  mem : Map V
  auto : Bool := true
  broken : Bool := false

namespace Store

/-- create, update, delete and `strict = ...`: committed at once if autocommit is on (which starts from what is stored, so pending changes are
dropped), except `strict = ...`, which is always just pending.  `ok`: does the storage accept a commit? -/
def call (s : Store V) (op : DbOp V) (ok : Bool) : Store V :=
  if s.auto ∧ isWrite op then
    if s.disk.apply op = none then { s with mem := s.disk, broken := false }
    else if ok then { s with disk := (s.disk.apply op).getD s.disk, mem := (s.disk.apply op).getD s.disk, broken := false }
    else { s with mem := s.disk, auto := false, broken := true }
  else if s.broken then s
  else { s with mem := (s.mem.apply op).getD s.mem }

/-- Is `r` the right answer of the call? -/
def Answers (s : Store V) (op : DbOp V) (ok : Bool) (r : Outcome (DbRet V)) : Prop :=
  if s.auto ∧ isWrite op then
    if s.disk.apply op ≠ none ∧ ok = false then r = .error .storageError
    else s.disk.Answers op r
  else if s.broken then r = .error .transactionFailed
  else s.mem.Answers op r

def commit (s : Store V) (ok : Bool) : Store V :=
  if s.broken then s else if ok then { s with disk := s.mem } else { s with mem := s.disk, broken := true }

def abort (s : Store V) : Store V := { s with mem := s.disk, broken := false }

def step (s : Store V) : Event V → Store V
  | .call op ok => s.call op ok
  | .setAutocommit value => { s with auto := value.getD s.auto }
  | .enter => { s.abort with auto := false }
  | .exit raised ok => { (if raised then s.abort else s.commit ok) with auto := true }
  | .commit ok => s.commit ok
  | .abort => s.abort
  | .crash _ => { disk := s.disk, mem := s.disk }

def steps (s : Store V) : List (Event V) → Store V
  | [] => s
  | e :: es => (s.step e).steps es

/-- `read` -/
def read (s : Store V) (id : String) : Option V := s.mem id

end Store

/-- Calls that do not turn strict mode on. -/
def Lenient : Event V → Prop
  | .call (.strict (some true)) _ => False
  | _ => True

end Verif.Spec
