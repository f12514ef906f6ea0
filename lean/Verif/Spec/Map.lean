import Verif.Storage.Collection

/-!
# Specification: a plain map

The simplest description of what the storage classes should do: a partial
function from keys to values.  Nothing here refers to trees, collections or
routing (only the call and result types of the API are shared).
-/
namespace Verif.Spec
open Verif.Storage

/-- A plain map. -/
abbrev Map (V : Type) := String → Option V

namespace Map
variable {V : Type}

def empty : Map V := fun _ => none
def set (m : Map V) (k : String) (v : V) : Map V := fun x => if x = k then some v else m x
def remove (m : Map V) (k : String) : Map V := fun x => if x = k then none else m x
/-- overlay the pairs of a dict -/
def setAll (m : Map V) (d : List (String × V)) : Map V :=
  d.foldl (fun m p => m.set p.1 p.2) m

/-- `m` has exactly `n` keys. -/
def Card (m : Map V) (n : Nat) : Prop :=
  ∃ ks : List String, ks.Nodup ∧ ks.length = n ∧ ∀ k, k ∈ ks ↔ m k ≠ none

end Map

/-- `MapStep m op out m'`: on a map holding `m`, the call `op` must answer `out`
and leave `m'`. -/
inductive MapStep {V : Type} (m : Map V) : CollCall V → Outcome (Ret V) → Map V → Prop
  | insertNew {k v} : m k = none → MapStep m (.insert k v) (.ok (.num 1)) (m.set k v)
  | insertOld {k v w} : m k = some w → MapStep m (.insert k v) (.ok (.num 0)) m
  | update {d} : MapStep m (.update d) (.ok .unit) (m.setAll d)
  | popHit {k d v} : m k = some v → MapStep m (.pop k d) (.ok (.val v)) (m.remove k)
  | popMiss {k} : m k = none → MapStep m (.pop k none) (.error .keyError) m
  | popDefault {k d} : m k = none → MapStep m (.pop k (some d)) (.ok (.val d)) m
  | popitem {k v} : m k = some v → (∀ k', m k' ≠ none → k ≤ k') →
      MapStep m .popitem (.ok (.item k v)) (m.remove k)
  | popitemEmpty : (∀ k, m k = none) → MapStep m .popitem (.error .keyError) m
  | setdefaultOld {k v w} : m k = some w → MapStep m (.setdefault k v) (.ok (.val w)) m
  | setdefaultNew {k v} : m k = none → MapStep m (.setdefault k v) (.ok (.val v)) (m.set k v)
  | clear : MapStep m .clear (.ok .unit) Map.empty

/-- A whole history against the map. -/
inductive MapRun {V : Type} : Map V → List (CollCall V) → List (Outcome (Ret V)) → Map V → Prop
  | nil {m} : MapRun m [] [] m
  | cons {m op out m' ops outs m''} :
      MapStep m op out m' → MapRun m' ops outs m'' → MapRun m (op :: ops) (out :: outs) m''

/-- The dict arguments of a history really are dicts (no key twice). -/
def CollCall.WF {V : Type} : CollCall V → Prop
  | .update d => (d.map Prod.fst).Nodup
  | _ => True

end Verif.Spec
