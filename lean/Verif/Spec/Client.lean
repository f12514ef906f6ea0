import Verif.Spec.Limited
import Verif.Db.Client
import Mathlib.Data.Set.Card

/-!
# Specification: everything a session with a database answers

From the transactional map with limits alone.
-/
namespace Verif.Spec
open Verif.Storage Verif.Db
variable {V : Type}

namespace Box

/-- The number of ids in use. -/
noncomputable def used (b : Box V) : Nat := {id | b.map id ≠ none}.ncard

/-- Some slot is used by more than so many percent. -/
def Crowded (l : Limits) (b : Box V) (percent : Nat) : Prop :=
  ∃ id k, percent * l.room < 100 * k ∧ b.map.AtLeast (fun x => l.slot x = l.slot id) k

open Classical in
/-- The alert level: of the fullest slot, its usage in percent rounded up. -/
noncomputable def status (l : Limits) (b : Box V) : Nat :=
  if b.Crowded l 89 then 90 else if b.Crowded l 79 then 80 else if b.Crowded l 69 then 70 else if b.Crowded l 59 then 60 else 0

/-- `conn[id]` and `conn[ids]`: KeyError if nothing is there, IndexError for selectors that are neither. -/
def item (b : Box V) : Conn.Selector → Outcome (Option V ⊕ List (Option V))
  | .str id => if b.map id = none then .error .keyError else .ok (.inl (b.map id))
  | .iter ids => if ∀ id ∈ ids, b.map id = none then .error .keyError else .ok (.inr (ids.map b.map))
  | .other => .error .indexError

end Box

/-- A session, and what its attribute `autocommit` shows. -/
structure Ideal (V : Type) where
  limited : Limited V
  shown : Bool

/-- Ending a transaction: does it raise? -/
def Limited.commitAnswer (s : Limited V) (ok : Bool) : Outcome Unit :=
  if s.broken then .error .transactionFailed else if ok then .ok () else .error .storageError

/-- Every request, answered from the map, the limits and the flags. -/
noncomputable def Ideal.ask (l : Limits) (s : Ideal V) : Ask V → Reply V × Ideal V
  | .call op ok => (.call (s.limited.answer l op ok), { s with limited := s.limited.call l op ok })
  | .read id => (.read (.ok (s.limited.mem.map id)), s)
  | .item sel => (.item (s.limited.mem.item sel), s)
  | .strict => (.flag s.limited.mem.strict, s)
  | .autocommit => (.flag s.shown, s)
  | .capacity => (.number (.ok l.total), s)
  | .used => (.number (.ok s.limited.mem.used), s)
  | .usage => (.ratio (.ok (s.limited.mem.used / l.total)), s)
  | .status => (.number (.ok (s.limited.mem.status l)), s)
  | .setAutocommit none => (.done (.error .typeError), s)
  | .setAutocommit (some value) => (.done (.ok ()), ⟨{ s.limited with auto := value }, value⟩)
  | .enter => (.done (.ok ()), { s with limited := { s.limited.abort with auto := false } })
  | .exit raised ok =>
    (.done (if raised then .ok () else s.limited.commitAnswer ok), ⟨s.limited.step l (.exit raised ok), true⟩)
  | .commit ok => (.done (s.limited.commitAnswer ok), { s with limited := s.limited.commit ok })
  | .abort => (.done (.ok ()), { s with limited := s.limited.abort })
  | .crash a => (.done (.ok ()), ⟨{ disk := s.limited.disk, mem := s.limited.disk }, a⟩)

end Verif.Spec
