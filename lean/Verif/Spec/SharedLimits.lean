import Verif.Spec.Limited
import Verif.Spec.Snapshot

/-!
# Specification: a map with limits shared by transactions

Snapshot isolation (as `Snap`) of a map with limits (as `Limited`): every transaction works on its own copy of the map and of the `strict` flag, a write
is refused by what this copy says, and a commit puts the changes of the transaction on what is stored, or, if somebody else has changed one of the same
things, nothing.
-/
namespace Verif.Spec
open Verif.Storage Verif.Db
variable {V : Type}

namespace Box

/-- Nobody has changed, since the transaction began, an id that it has changed, nor the flag if it has changed the flag. -/
def NoConflict (base mem disk : Box V) : Prop :=
  (∀ id, mem.map id ≠ base.map id → disk.map id = base.map id) ∧ (mem.strict ≠ base.strict → disk.strict = base.strict)

open Classical in
/-- What is stored with the changes of the transaction on top. -/
noncomputable def overlay (base mem disk : Box V) : Box V where
  map := fun id => if mem.map id ≠ base.map id then mem.map id else disk.map id
  strict := if mem.strict ≠ base.strict then mem.strict else disk.strict

end Box

/-- A transaction: the map and flag as they were when it began, as it sees them, and whether its commit has failed. -/
structure BoxTx (V : Type) where
  base : Box V
  mem : Box V
  broken : Bool := false

/-- What is stored, and one transaction per session. -/
structure Boxes (V : Type) where
  disk : Box V
  tx : Nat → BoxTx V

namespace Boxes

/-- All transactions begin. -/
def opened (b : Box V) : Boxes V := { disk := b, tx := fun _ => ⟨b, b, false⟩ }

/-- Replace one transaction. -/
def setTx (s : Boxes V) (i : Nat) (t : BoxTx V) : Boxes V := { s with tx := fun j => if j = i then t else s.tx j }

/-- May this commit succeed? -/
def Commits (s : Boxes V) (i : Nat) (ok : Bool) : Prop := ok = true ∧ Box.NoConflict (s.tx i).base (s.tx i).mem s.disk

/-- What the merge of the session's changes into what is stored gives. -/
noncomputable def merged (s : Boxes V) (i : Nat) : Box V := Box.overlay (s.tx i).base (s.tx i).mem s.disk

open Classical in
/-- begin and abort start from what is stored; a call changes what the session sees, if it is not refused; a commit stores the changes or nothing. -/
noncomputable def move (l : Limits) (s : Boxes V) (i : Nat) : Move V → Boxes V
  | .begin => s.setTx i ⟨s.disk, s.disk, false⟩
  | .abort => s.setTx i ⟨s.disk, s.disk, false⟩
  | .resize _ _ _ _ => s
  | .run op => if (s.tx i).broken then s else s.setTx i { s.tx i with mem := ((s.tx i).mem.apply l op).getD (s.tx i).mem }
  | .commit ok =>
    if (s.tx i).broken then s
    else if s.Commits i ok then { s.setTx i ⟨s.merged i, s.merged i, false⟩ with disk := s.merged i }
    else s.setTx i ⟨(s.tx i).base, (s.tx i).base, true⟩

open Classical in
/-- What the move answers. -/
noncomputable def answer (l : Limits) (s : Boxes V) (i : Nat) : Move V → Outcome (DbRet V)
  | .begin => .ok .unit
  | .abort => .ok .unit
  | .resize _ _ _ _ => .ok .unit
  | .run op => if (s.tx i).broken then .error .transactionFailed else (s.tx i).mem.answer l op
  | .commit ok =>
    if (s.tx i).broken then .error .transactionFailed else if s.Commits i ok then .ok .unit else .error .storageError

noncomputable def moves (l : Limits) (s : Boxes V) : List (Nat × Move V) → Boxes V
  | [] => s
  | (i, m) :: rest => (s.move l i m).moves l rest

/-- The answers to the moves, in order. -/
noncomputable def answers (l : Limits) (s : Boxes V) : List (Nat × Move V) → List (Outcome (DbRet V))
  | [] => []
  | (i, m) :: rest => s.answer l i m :: (s.move l i m).answers l rest

end Boxes
end Verif.Spec
