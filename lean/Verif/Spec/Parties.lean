import Verif.Spec.Client
import Verif.Spec.SharedLimits
import Verif.Db.Parties

/-!
# Specification: what programs that share a map with limits get back
-/
namespace Verif.Spec
open Verif.Storage Verif.Db
variable {V : Type}

/-- What looking at a map with limits gives. -/
noncomputable def Box.look (l : Limits) (b : Box V) : Look → Reply V
  | .read id => .read (.ok (b.map id))
  | .item sel => .item (b.item sel)
  | .strict => .flag b.strict
  | .capacity => .number (.ok l.total)
  | .used => .number (.ok b.used)
  | .usage => .ratio (.ok (b.used / l.total))
  | .status => .number (.ok (b.status l))

open Classical in
/-- Every wish, answered from what the transaction sees and what is stored. -/
noncomputable def Boxes.serve (l : Limits) (s : Boxes V) (i : Nat) (ok : Bool) : Wish V → Reply V × Boxes V
  | .begin => (.done (.ok ()), s.move l i .begin)
  | .abort => (.done (.ok ()), s.move l i .abort)
  | .call op => (.call (if (s.tx i).broken then .error .transactionFailed else (s.tx i).mem.answer l op), s.move l i (.run op))
  | .commit =>
    (.done (if (s.tx i).broken then .error .transactionFailed else if s.Commits i ok then .ok () else .error .storageError), s.move l i (.commit ok))
  | .look q => ((s.tx i).mem.look l q, s)

/-- What is stored is left. -/
def Boxes.crashed (s : Boxes V) : Boxes V := .opened s.disk

end Verif.Spec
