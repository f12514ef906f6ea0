import Verif.Storage.Stubs
import Verif.Props.Container

/-!
# Membership, iteration and addition of containers (C115)
-/
namespace Verif.Props
open Verif.Storage
variable {V : Type}

/-- The full claim of C115: `in` says whether the id is stored, iteration gives the stored pairs, and `a + b` reads like `a`, then like `b`. -/
def StubsWork (c d : Container V) : Prop :=
  (∀ id, c.contains id = .ok (c.first id).isSome) ∧
  (∃ l, c.iter = .ok l ∧ ∀ id v, (id, v) ∈ l ↔ c.first id = some v) ∧
  (∃ e, c.add d = .ok (some e) ∧ ∀ id, e.first id = (c.first id).or (d.first id))

/-- **C115 (partial).** `id in container` is never true for an id that is not stored (and never raises).  Missing: everything else, see
`container_stubs_counterexample`. -/
theorem container_contains_partial (c : Container V) (id : String) :
    ∃ b, c.contains id = .ok b ∧ (b = true → c.has id ≠ .ok 0) := by
  refine ⟨false, rfl, fun h => absurd h (by decide)⟩

/-- **C115 (counterexample).** The container stores "a" (`has` is 1), but `"a" in container` is False; no container at all can be iterated or added to another one. -/
theorem container_stubs_counterexample :
    (∃ c : Container Nat, ContReach c ∧ c.has "a" = .ok 1 ∧ c.contains "a" = .ok false) ∧
    ∀ c d : Container V, c.iter = .error .typeError ∧ c.add d = .ok none ∧ ¬ StubsWork c d := by
  refine ⟨⟨twoGroups 0 false, twoGroups_reach 0 (by decide) false, by decide +kernel, by decide +kernel⟩, ?_⟩
  intro c d
  refine ⟨rfl, rfl, ?_⟩
  rintro ⟨_, ⟨l, hl, _⟩, _⟩
  exact absurd hl (by simp [Container.iter])

end Verif.Props
