import Verif.Db.Setup
import Verif.PyDict

/-!
# `setup` of connections (C117) and the connections of a GroupReadConnection (C118)
-/
namespace Verif.Props
open Verif Verif.Storage Verif.Db
variable {V C : Type}

/-- A session without uncommitted changes. -/
def Settled {S : Type} (t : Tm S) : Prop := t.work = t.committed ∧ t.failed = false

/-- **C117.** `CitrineConnection.setup` in a session without uncommitted changes, whichever of its commits the storage accepts: what is
stored afterwards, and everything stored at any moment on the way (hence after a crash), has the container and the metadata that were there
before; if `setup` returns, both are there, and the ones that were missing are an empty container of one sub-container and empty metadata. -/
theorem citrine_setup (t : Tm (LegacyRoot (DbContainer V))) (ht : Settled t) (oks : Bool × Bool) :
    (∃ new, (citrineSetup t oks).2.log = new ++ t.log ∧
      ∀ r ∈ (citrineSetup t oks).2.committed :: new,
        (t.committed.container ≠ none → r.container = t.committed.container) ∧
        (t.committed.metadata ≠ none → r.metadata = t.committed.metadata)) ∧
    ((citrineSetup t oks).1 = .ok () →
      (citrineSetup t oks).2.committed.container = some (t.committed.container.getD (DbContainer.new (V := V))) ∧
      (citrineSetup t oks).2.committed.metadata = some (t.committed.metadata.getD none) ∧
      (citrineSetup t oks).2.work = (citrineSetup t oks).2.committed) ∧
    (oks = (true, true) → (citrineSetup t oks).1 = .ok ()) := by
  rcases t with ⟨⟨w1, w2⟩, ⟨c1, c2⟩, log, a, f⟩
  obtain ⟨h1, h2⟩ := ht
  simp only [LegacyRoot.mk.injEq] at h1
  obtain ⟨rfl, rfl⟩ := h1
  obtain rfl : f = false := h2
  rcases oks with ⟨o1, o2⟩
  cases w1 <;> cases w2 <;> cases o1 <;> cases o2 <;>
    simp [citrineSetup, Tm.setup, Tm.block, Tm.enter, Tm.begin, Tm.exit, Tm.commit, Except.map] <;>
    first | exact ⟨[_], rfl⟩ | exact ⟨[_, _], rfl⟩ | exact ⟨[_], rfl, by simp⟩

/-- C117: `setup` twice is the same as once. -/
theorem citrine_setup_twice (t : Tm (LegacyRoot (DbContainer V))) (ht : Settled t) (oks oks' : Bool × Bool)
    (h : (citrineSetup t oks).1 = .ok ()) :
    citrineSetup (citrineSetup t oks).2 oks' = (.ok (), (citrineSetup t oks).2) := by
  obtain ⟨h1, h2, h3⟩ := (citrine_setup t ht oks).2.1 h
  generalize (citrineSetup t oks).2 = t' at h1 h2 h3
  rcases t' with ⟨⟨w1, w2⟩, ⟨c1, c2⟩, log, a, f⟩
  simp only [LegacyRoot.mk.injEq] at h3
  obtain ⟨rfl, rfl⟩ := h3
  obtain rfl := h1
  obtain rfl := h2
  rfl

/-- Finding (C117): with uncommitted changes `setup` loses them: a container removed in the session but still stored is replaced by an
empty one. -/
theorem citrine_setup_pending_counterexample (c : DbContainer V) :
    ∃ t : Tm (LegacyRoot (DbContainer V)), t.committed.container = some c ∧ t.failed = false ∧
      (citrineSetup t (true, true)).1 = .ok () ∧ (citrineSetup t (true, true)).2.committed.container = some (DbContainer.new (V := V)) :=
  ⟨{ work := {}, committed := { container := some c } }, rfl, rfl, rfl, rfl⟩

/-- **C117 (counterexample).** `ManagedConnection.setup` never makes a container: on a database without one it raises TypeError, stores
nothing and does not get to the metadata. -/
theorem managed_setup_counterexample (t : Tm (LegacyRoot C)) (ht : Settled t) (oks : Bool × Bool) (h : t.committed.container = none) :
    (managedSetup t oks).1 = .error .typeError ∧ (managedSetup t oks).2.committed = t.committed ∧ (managedSetup t oks).2.log = t.log := by
  rcases t with ⟨⟨w1, w2⟩, ⟨c1, c2⟩, log, a, f⟩
  obtain ⟨h1, h2⟩ := ht
  simp only [LegacyRoot.mk.injEq] at h1
  obtain ⟨rfl, rfl⟩ := h1
  obtain rfl : w1 = none := h
  exact ⟨rfl, rfl, rfl⟩

/-- Non-vacuity: a new session on an empty root. -/
example : Settled ({ work := {}, committed := {} } : Tm (LegacyRoot (DbContainer Nat))) ∧
    (citrineSetup ({ work := {}, committed := {} } : Tm (LegacyRoot (DbContainer Nat))) (true, true)).1 = .ok () ∧
    ((citrineSetup ({ work := {}, committed := {} } : Tm (LegacyRoot (DbContainer Nat))) (true, false)).1 = .error .storageError) :=
  ⟨⟨rfl, rfl⟩, rfl, rfl⟩

/-! ### C118 -/

/-- **C118 (partial: the transaction manager).** `GroupReadConnection(dbs, transaction_manager, **connection_args)`: if it succeeds it
has one connection for each database, in order; each was opened with the arguments given for it in `connection_args`, but for the
transaction manager, which is always the shared one. -/
theorem group_connect_partial {A : Type} (opens : String → PyDict String A → Outcome C) (shared : A)
    (args : PyDict String (PyDict String A)) (dbs : List String) (conns : List C) (h : groupConnect opens shared args dbs = .ok conns) :
    List.Forall₂ (fun n c => ∃ a, opens n a = .ok c ∧ a.dget "transaction_manager" = some shared ∧
      ∀ k, k ≠ "transaction_manager" → a.dget k = (args.dget n).bind fun d => d.dget k) dbs conns := by
  induction dbs generalizing conns with
  | nil => simp only [groupConnect, Except.ok.injEq] at h; subst h; exact .nil
  | cons n ns ih =>
    simp only [groupConnect] at h
    rcases ho : opens n (openArgs shared args n) with e | c
    · simp only [ho] at h; cases h
    · simp only [ho] at h
      rcases hr : groupConnect opens shared args ns with e | cs
      · rw [hr] at h; cases h
      · rw [hr] at h
        cases h
        have hwf : ([("transaction_manager", shared)] : PyDict String A).WF := by simp [List.WF, List.dkeys]
        refine .cons ⟨_, ho, ?_, ?_⟩ (ih cs hr)
        · rw [openArgs, PyDict.dget_dmerge _ _ hwf]; rfl
        · intro k hk
          rw [openArgs, PyDict.dget_dmerge _ _ hwf]
          have h1 : ([("transaction_manager", shared)] : PyDict String A).dget k = none := by
            simp [List.dget, hk.symm]
          rw [h1]
          cases args.dget n with
          | none => exact h1
          | some d => rfl

/-- Non-vacuity: two databases, one with an argument of its own. -/
example : groupConnect (A := Nat) (C := PyDict String Nat) (fun _ a => .ok a) 5 [("b", [("at", 3)])] ["a", "b"] =
    .ok [[("transaction_manager", 5)], [("at", 3), ("transaction_manager", 5)]] := by decide +kernel

/-- **C118 (counterexample).** A transaction manager given for one database is ignored, even if no shared one is given. -/
theorem group_connect_counterexample (shared mine : Nat) :
    openArgs shared [("db", [("transaction_manager", mine)])] "db" = [("transaction_manager", shared)] := rfl

end Verif.Props
