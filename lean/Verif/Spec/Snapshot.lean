import Verif.Spec.Store
import Verif.Db.Concurrent

/-!
# Specification: a map shared by transactions (snapshot isolation), and linearizability

Plain maps; only the types of calls, answers and moves are shared with the model of the code.
-/
namespace Verif.Spec
open Verif.Storage Verif.Db
open scoped Classical
variable {V : Type}

/-- A transaction: the map as it was when it began, the map as it sees it, and whether its commit has failed. -/
structure Tx (V : Type) where
  base : Map V
  mem : Map V
  broken : Bool := false

/-- A stored map and one transaction per session. -/
structure Snap (V : Type) where
  disk : Map V
  tx : Nat → Tx V

namespace Snap

/-- All transactions begin. -/
def opened (m : Map V) : Snap V := { disk := m, tx := fun _ => ⟨m, m, false⟩ }

/-- Nobody has changed, since the transaction began, an id that it has changed. -/
def NoConflict (base mem disk : Map V) : Prop := ∀ id, mem id ≠ base id → disk id = base id

/-- The stored map with the changes of the transaction on top. -/
noncomputable def overlay (base mem disk : Map V) : Map V := fun id => if mem id ≠ base id then mem id else disk id

/-- Replace one transaction. -/
def setTx (s : Snap V) (i : Nat) (t : Tx V) : Snap V := { s with tx := Function.update s.tx i t }

/-- May this commit succeed? -/
def Commits (s : Snap V) (i : Nat) (ok : Bool) : Prop :=
  (s.tx i).broken = false ∧ ok = true ∧ NoConflict (s.tx i).base (s.tx i).mem s.disk

/-- begin and abort start from the stored map; calls change the transaction's own map; commit puts its changes on the stored map or, if an id
changed by it was changed by others too (or the storage refuses), nothing. -/
noncomputable def move (s : Snap V) (i : Nat) : Move V → Snap V
  | .begin => s.setTx i ⟨s.disk, s.disk, false⟩
  | .abort => s.setTx i ⟨s.disk, s.disk, false⟩
  | .resize _ _ _ _ => s
  | .run op => if (s.tx i).broken then s else s.setTx i { s.tx i with mem := ((s.tx i).mem.apply op).getD (s.tx i).mem }
  | .commit ok =>
    if (s.tx i).broken then s
    else if s.Commits i ok then
      { disk := overlay (s.tx i).base (s.tx i).mem s.disk
        tx := Function.update s.tx i
          ⟨overlay (s.tx i).base (s.tx i).mem s.disk, overlay (s.tx i).base (s.tx i).mem s.disk, false⟩ }
    else s.setTx i ⟨(s.tx i).base, (s.tx i).base, true⟩

/-- The right answers. -/
def Answers (s : Snap V) (i : Nat) (m : Move V) (r : Outcome (DbRet V)) : Prop :=
  match m with
  | .begin => r = .ok .unit
  | .abort => r = .ok .unit
  | .resize _ _ _ _ => True
  | .run op => if (s.tx i).broken then r = .error .transactionFailed else (s.tx i).mem.Answers op r
  | .commit ok => if (s.tx i).broken then r = .error .transactionFailed else
      if s.Commits i ok then r = .ok .unit else r = .error .storageError

noncomputable def moves (s : Snap V) : List (Nat × Move V) → Snap V
  | [] => s
  | (i, m) :: rest => (s.move i m).moves rest

end Snap

/-- Moves that do not turn strict mode on and do not resize. -/
def LenientMove : Move V → Prop
  | .run (.strict (some true)) => False
  | .resize _ _ _ _ => False
  | _ => True

/-- `m'` is `m`, or `m` is a commit and `m'` the same commit refused by the storage. -/
def Refused (m m' : Move V) : Prop := m' = m ∨ ∃ ok, m = .commit ok ∧ m' = .commit false

/-- Calls that do not turn strict mode on. -/
def LenientAct : Act V → Prop
  | .start (.strict (some true)) => False
  | _ => True

/-! ### Blocks -/

/-- The calls among the moves of session `i`. -/
def ownOps (i : Nat) : List (Nat × Move V) → List (DbOp V)
  | [] => []
  | (j, .run op) :: ms => if j = i then op :: ownOps i ms else ownOps i ms
  | _ :: ms => ownOps i ms

/-- Session `i` does not begin, commit or abort. -/
def OnlyCalls (i : Nat) (ms : List (Nat × Move V)) : Prop := ∀ x ∈ ms, x.1 = i → ∃ op, x.2 = .run op

/-- The call may delete. -/
def Deletes : DbOp V → Prop
  | .delete _ => True
  | _ => False

/-- The calls one after the other; calls that are refused change nothing. -/
def Map.applyAll (m : Map V) (ops : List (DbOp V)) : Map V := ops.foldl (fun m op => (m.apply op).getD m) m

/-- The id a call is about. -/
def opId : DbOp V → Option String
  | .create id _ => some id
  | .update id _ => some id
  | .delete id => some id
  | .strict _ => none

/-! ### Linearizability (Herlihy and Wing) -/

/-- A finished call has an effect unless it raised a conflict (or the storage refused its commit). -/
def Effective (d : Done V) : Prop := d.answer ≠ .error .storageError

/-- Executing the calls one after the other on a plain map gives their answers and leads from `m` to `m'`. -/
inductive Serial : Map V → List (Done V) → Map V → Prop
  | nil {m} : Serial m [] m
  | cons {m d ds m'} : m.Answers d.op d.answer → Serial ((m.apply d.op).getD m) ds m' → Serial m (d :: ds) m'

/-- The order respects time: a call that ended before another one began is not behind it. -/
def RealTime (ds : List (Done V)) : Prop := ds.Pairwise fun a b => ¬ b.stop < a.start

/-- The finished calls with an effect can be ordered such that they happen one after the other, each between its beginning and its end. -/
def Linearizable (m0 : Map V) (past : List (Done V)) (m : Map V) : Prop :=
  ∃ order : List (Done V), order.Perm (past.filter fun d => Effective d) ∧ RealTime order ∧ Serial m0 order m

end Verif.Spec
