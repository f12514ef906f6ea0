import Verif.Db.Cluster
import Verif.Props.Modules
import Mathlib.Data.List.Induction

/-!
# Groups of databases: `databases`, `size`, ManagedGroupDB (C119, C120)
-/
namespace Verif.Props
open Verif Verif.Db
variable {D : Type}

/-- The group after a history. -/
def databasesRun (g : Databases D) (ops : List (DatabasesOp D)) : Databases D := ops.foldl (fun g op => (g.step op).2) g

/-- Is it an assignment to `databases` or a deletion of it? -/
def DatabasesOp.isAssignment : DatabasesOp D → Bool
  | .assign _ | .del => true
  | _ => false

/-- The dictionary assigned last and not deleted since. -/
def lastAssigned (ops : List (DatabasesOp D)) : Option (PyDict String D) :=
  match ops.reverse.find? DatabasesOp.isAssignment with
  | some (.assign d) => some d
  | _ => none

/-- The modules after a history: what was set last, with everything added since. -/
def modulesAfter (m : PyDict String D) : List (DatabasesOp D) → PyDict String D
  | [] => m
  | .add n db :: ops => modulesAfter (m.dset n db) ops
  | .modules m' :: ops => modulesAfter m' ops
  | _ :: ops => modulesAfter m ops

theorem databasesRun_modules (ops : List (DatabasesOp D)) : ∀ g : Databases D, (databasesRun g ops).modules = modulesAfter g.modules ops := by
  induction ops with
  | nil => intro g; rfl
  | cons op ops ih =>
    intro g
    show (databasesRun (g.step op).2 ops).modules = _
    rw [ih]
    cases op with
    | assign d => rfl
    | del => cases h : g.assigned <;> simp [Databases.step, h, modulesAfter]
    | add n db => rfl
    | modules m => rfl

/-- **C120.** `group.databases` after any history of assignments to it, deletions of it and changes of the modules: the dictionary
assigned last if it was not deleted since, else the databases of the current modules.  Deleting raises exactly if nothing is assigned. -/
theorem group_databases (m : PyDict String D) (ops : List (DatabasesOp D)) :
    (databasesRun { modules := m } ops).value = (lastAssigned ops).getD (modulesAfter m ops) ∧
    (∀ op, (∃ e, ((databasesRun { modules := m } ops).step op).1 = .error e) ↔ op = .del ∧ lastAssigned ops = none) := by
  have h0 : (databasesRun { modules := m } ops).assigned = lastAssigned ops := by
    induction ops using List.reverseRecOn with
    | nil => rfl
    | append_singleton ops op ih =>
      have e1 : databasesRun { modules := m } (ops ++ [op]) = ((databasesRun { modules := m } ops).step op).2 := by
        simp [databasesRun]
      rw [e1]
      cases op with
      | assign d =>
        simp only [Databases.step, lastAssigned, List.reverse_append, List.reverse_singleton, List.singleton_append]
        rw [List.find?_cons_of_pos (by simp [DatabasesOp.isAssignment])]
      | del =>
        simp only [lastAssigned, List.reverse_append, List.reverse_singleton, List.singleton_append]
        rw [List.find?_cons_of_pos (by simp [DatabasesOp.isAssignment])]
        cases h : (databasesRun { modules := m } ops).assigned <;> simp [Databases.step, h]
      | add n db =>
        simp only [Databases.step, ih, lastAssigned, List.reverse_append, List.reverse_singleton, List.singleton_append]
        rw [List.find?_cons_of_neg (by simp [DatabasesOp.isAssignment])]
      | modules m' =>
        simp only [Databases.step, ih, lastAssigned, List.reverse_append, List.reverse_singleton, List.singleton_append]
        rw [List.find?_cons_of_neg (by simp [DatabasesOp.isAssignment])]
  constructor
  · unfold Databases.value
    rw [h0]
    cases lastAssigned ops with
    | none => exact databasesRun_modules ops _
    | some d => rfl
  · intro op
    cases op with
    | del => cases h : lastAssigned ops <;> simp [Databases.step, h0, h]
    | _ => simp [Databases.step]

/-- Non-vacuity: assigned, deleted, a module added. -/
example : (databasesRun { modules := [("a", 1)] } [.assign [("x", 9)], .del, .add "b" 2]).value = [("a", 1), ("b", 2)] ∧
    (databasesRun { modules := [("a", 1)] } [.add "b" 2, .assign [("x", 9)]]).value = [("x", 9)] := ⟨rfl, rfl⟩

/-- **C120, size.** The size of a group is the sum of the sizes of its modules, and raises exactly if one of them does (with the error of the
first). -/
theorem group_size_sum (sizes : List (Outcome Nat)) :
    (∀ ns : List Nat, sizes = ns.map .ok → groupSize sizes = .ok ns.sum) ∧
    (∀ e, groupSize sizes = .error e ↔ ∃ (ns : List Nat) (rest : List (Outcome Nat)), sizes = ns.map .ok ++ .error e :: rest) := by
  induction sizes with
  | nil =>
    refine ⟨fun ns h => ?_, fun e => ⟨fun h => (by cases h), ?_⟩⟩
    · have : ns = [] := by simpa using h.symm
      subst this; rfl
    · rintro ⟨ns, rest, h⟩; simp at h
  | cons s sizes ih =>
    obtain ⟨h1, h2⟩ := ih
    cases s with
    | error e0 =>
      refine ⟨fun ns h => ?_, fun e => ⟨fun h => ?_, ?_⟩⟩
      · cases ns with
        | nil => cases h
        | cons n ns => simp only [List.map_cons, List.cons.injEq] at h; cases h.1
      · exact ⟨[], sizes, by rw [← Except.error.inj h]; rfl⟩
      · rintro ⟨ns, rest, h⟩
        cases ns with
        | nil => simp only [List.map_nil, List.nil_append, List.cons.injEq] at h; rw [h.1]; rfl
        | cons n ns => simp only [List.map_cons, List.cons_append, List.cons.injEq] at h; cases h.1
    | ok n =>
      refine ⟨fun ns h => ?_, fun e => ?_⟩
      · cases ns with
        | nil => cases h
        | cons k ns =>
          simp only [List.map_cons, List.cons.injEq] at h
          cases Except.ok.inj h.1
          show (groupSize sizes).map (n + ·) = _
          rw [h1 ns h.2]; rfl
      · have : groupSize (.ok n :: sizes) = .error e ↔ groupSize sizes = .error e := by
          show (groupSize sizes).map (n + ·) = _ ↔ _
          cases groupSize sizes <;> simp [Except.map]
        rw [this, h2]
        constructor
        · rintro ⟨ns, rest, h⟩; exact ⟨n :: ns, rest, by rw [h]; rfl⟩
        · rintro ⟨ns, rest, h⟩
          cases ns with
          | nil => simp only [List.map_nil, List.nil_append, List.cons.injEq] at h; cases h.1
          | cons k ns => simp only [List.map_cons, List.cons_append, List.cons.injEq] at h; exact ⟨ns, rest, h.2⟩

example : groupSize [.ok 3, .ok 4] = .ok 7 ∧ groupSize [.ok 3, .error .keyError, .error .typeError] = .error .keyError := ⟨rfl, rfl⟩

/-! ### C119 -/

/-- **C119 (counterexample).** A ManagedGroupDB can not be made with its default name, whatever the directory holds: it finds itself among
its databases.  In a directory without such an entry the failing constructor even leaves a new file of that name behind, and changes nothing else; a name that a
module has fares the same. -/
theorem managed_default_counterexample (run : String → Outcome Executed) (valid : Content → Bool) (root : Root.Dir) :
    (∃ e, (managedInit run valid root).1 = .error e) ∧
    ∀ g name, groupInit run root = .ok g → name = "unnamed" ∨ name ∈ g.modules.dkeys → root.dget name = none →
      (managedInit run valid root name).1 = .error .valueError ∧ (∃ c, (managedInit run valid root name).2.dget name = some (.file c)) ∧
        OnlyChanges root (managedInit run valid root name).2 name := by
  constructor
  · unfold managedInit
    cases groupInit run root with
    | error e => exact ⟨e, rfl⟩
    | ok g =>
      simp only [true_or, if_true]
      split
      · exact ⟨_, rfl⟩
      · split_ifs <;> exact ⟨_, rfl⟩
      · exact ⟨_, rfl⟩
  · intro g name hg hn hfree
    have : managedInit run valid root name = (.error .valueError, root.dset name (.file (.other ""))) := by
      unfold managedInit
      rw [hg]
      simp only [hfree]
      rw [if_pos hn]
    rw [this]
    refine ⟨rfl, ⟨_, by show (root.dset name _).dget name = _; rw [PyDict.dget_dset, if_pos rfl]⟩, fun x hx => ?_⟩
    show (root.dset name _).dget x = _
    rw [PyDict.dget_dset, if_neg hx]

/-- **C119 (partial: making one).** With a name of its own that no module has, in a directory without such an entry whose modules can all be
opened, a ManagedGroupDB is made, lists the modules of the directory (C94), and adds its file and nothing else to the directory. -/
theorem managed_init_partial (run : String → Outcome Executed) (valid : Content → Bool) (root : Root.Dir) (name : String) (g : DbGroup)
    (hg : groupInit run root = .ok g) (hn : name ≠ "unnamed") (hm : g.modules.dget name = none) (hfree : root.dget name = none) :
    ∃ g', managedInit run valid root name = (.ok g', g'.root) ∧ g'.modules = g.modules ∧ OnlyChanges root g'.root name := by
  refine ⟨{ g with root := root.dset name (.file (.other "")) }, ?_, rfl, fun x hx => ?_⟩
  · unfold managedInit
    rw [hg]
    simp only [hfree]
    rw [if_neg]
    rintro (h | h)
    · exact hn h
    · exact PyDict.dget_ne_none.2 h hm
  · show (root.dset name _).dget x = _
    rw [PyDict.dget_dset, if_neg hx]

/-- **C119 (counterexample).** None of its operations works, and `new` never returns: each raises TypeError (or what the constructor raised)
before it does anything. -/
theorem managed_operations_counterexample (run : String → Outcome Executed) (valid : Content → Bool) (root : Root.Dir) (name : String)
    (g : DbGroup) (op : ManagedOp) :
    managedCall g op = (.error .typeError, g) ∧ (managedNew run valid root name).2 = (managedInit run valid root name).2 ∧
    ((managedNew run valid root name).1 = .error .typeError ∨
      ∃ e, (managedInit run valid root name).1 = .error e ∧ (managedNew run valid root name).1 = .error e) := by
  refine ⟨by cases op <;> rfl, ?_⟩
  unfold managedNew
  rcases managedInit run valid root name with ⟨e | g, r⟩
  · exact ⟨rfl, .inr ⟨e, rfl, rfl⟩⟩
  · exact ⟨rfl, .inl rfl⟩

/-- Non-vacuity: the group of C94's example can be managed under the name "all". -/
example : ∃ g, groupInit groupRun groupRoot = .ok g ∧ g.modules.dget "all" = none ∧ groupRoot.dget "all" = none :=
  ⟨_, rfl, by decide +kernel, by decide +kernel⟩

end Verif.Props
