import Verif.Props.Collection
import Verif.Props.Group
import Verif.Props.Connection
import Verif.Props.Modules
import Verif.Storage.Usage

/-!
# Default arguments and groups without collections (C08, C11, C17, C36, C77)
-/
namespace Verif.Props
open Verif.Storage Verif.Db Verif.Spec
variable {V : Type}

/-- C08: a collection made with the default arguments never holds more than 5000 objects (same restriction as `collection_strict_limit_partial`). -/
theorem collection_default_limit_partial (u : Nat) (ops : List (CollCall V)) (hops : ∀ op ∈ ops, CollCall.notSetdefault op) :
    ((Collection.new (V := V) u).run ops).2.size ≤ 5000 := by
  have h := collection_strict_limit_partial (V := V) u none ops hops
  have hm := (Collection.run_fixed (Collection.new (V := V) u none true) ops)
  have : (collectionAfter (V := V) u none true ops).maxSize = 5000 := by
    unfold collectionAfter
    exact hm.1
  rw [this] at h
  exact h

/-- Non-vacuity of `collection_default_limit_partial`: a history of one insertion. -/
example : ∀ op ∈ [CollCall.insert (V := Nat) "a" 1], CollCall.notSetdefault op := by
  intro op h; simp only [List.mem_singleton] at h; subst h; trivial

/-- C36, C40: a connection made with the default arguments commits every call: after a successful create, update or delete the stored container is what the call made of it. -/
theorem connection_default_commits [Truthy V] (c0 : Container V) :
    ∃ conn : Conn V, Conn.init (some c0) = .ok conn ∧ conn.autocommit = true ∧
      ∀ (op : DbOp V) (v : DbRet V), op.decorated = true → (conn.call op).1 = .ok v →
        (conn.call op).2.tm.committed = (op.fn c0).2 := by
  refine ⟨_, rfl, rfl, ?_⟩
  intro op v hd h
  simp only [Conn.call, hd, if_true, Tm.autocommitted, Tm.enter, Tm.begin, Tm.plain, Bool.false_eq_true, if_false] at h ⊢
  rcases hr : op.fn c0 with ⟨e | r, c1⟩
  · simp [hr] at h
  · simp only [Tm.exit, Tm.commit, Bool.false_eq_true, if_false, if_true]

/-- C77: with the default arguments the generated file says that the module is not to be discovered. -/
theorem module_create_default (run : String → Outcome Executed) (root : Root.Dir) (fresh : String) (name : Option String)
    (hfree : root.dget (chosenName fresh name) = none) :
    (moduleCreate run root fresh name).2.dget (chosenName fresh name) = some (.dir [("__init__.py", .file (.init false))]) :=
  (module_create_counterexample run root fresh name false hfree).2.1

/-- Non-vacuity of `module_create_default`: a free name in an empty package. -/
example : ([] : Root.Dir).dget (chosenName "m" none) = none := rfl

/-- C11, C17: a group without collections (`Group()`): it is empty and has no room; looking up, storing or removing an id raises ZeroDivisionError, asking for the extremes, `popitem`,
the highest usage and the greatest collection size raise ValueError; nothing changes. -/
theorem group_no_collections (strict : Bool) :
    ∃ g : CGroup V, CGroup.init [] strict = .ok g ∧ g.size = 0 ∧ g.maxSize = 0 ∧ g.keys = [] ∧ g.items = [] ∧
      (∀ k, g.get k = .error .zeroDivision ∧ g.hasKey k = .error .zeroDivision) ∧
      (∀ k v, g.insert k v = (.error .zeroDivision, g) ∧ g.setdefault k v = (.error .zeroDivision, g)) ∧
      (∀ k d, g.pop k d = (.error .zeroDivision, g)) ∧
      (∀ b, g.minKey b = .error .valueError ∧ g.maxKey b = .error .valueError) ∧
      g.popitem = (.error .valueError, g) ∧ g.status = .error .valueError ∧ g.highestUsage = .error .valueError ∧
      g.lowestUsage = .error .valueError ∧ g.usage = .error .zeroDivision ∧ g.maxCollectionSize = .error .valueError :=
  ⟨{ collections := [] }, rfl, rfl, rfl, rfl, rfl, fun _ => ⟨rfl, rfl⟩, fun _ _ => ⟨rfl, rfl⟩, fun _ _ => rfl, fun _ => ⟨rfl, rfl⟩, rfl, rfl, rfl, rfl, rfl, rfl⟩

end Verif.Props
