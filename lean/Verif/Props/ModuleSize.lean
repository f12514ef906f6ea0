import Verif.Db.ModuleSize
import Verif.Db.Cluster
import Verif.Props.Pool

/-!
# DbModule.size (C147)
-/
namespace Verif.Props
open Verif Verif.Storage Verif.Db
variable {V : Type} [Truthy V] [DecidableEq V]

/-- What holds of a block `with db as connection: return get(connection)`, after any history: the answer is that of `get`; nothing that is stored,
no session that is open and no flag of an open connection changes, and the connections that are open are those that were. -/
theorem sizeWith_spec (c0 : Container V) (as : List (PoolCall V)) (get : Pool V → Nat → Outcome Nat) :
    let p := ((Pool.fresh c0).run as).2
    let q := (p.sizeWith get).2
    (p.sizeWith get).1 = get p.enterDb.2 p.enterDb.1 ∧ q.db.disk = p.db.disk ∧
    (∀ j, (q.handle j).opened = (p.handle j).opened) ∧
    ∀ j, (p.handle j).opened → q.handle j = p.handle j ∧ q.db.sess j = p.db.sess j := by
  intro p q
  obtain ⟨h1, h2, h3, _, _⟩ := openConn_spec ((PoolOk.fresh c0).run as)
  change (p.handle p.openConn.1).opened = false at h1
  change (p.openConn.2.handle p.openConn.1).opened = true at h2
  change ∀ j, j ≠ p.openConn.1 → p.openConn.2.handle j = p.handle j at h3
  have hj : (p.openConn.2.handle p.openConn.1).joined = false := by
    unfold Pool.openConn
    cases p.pool <;> simp [Pool.take, Pool.setHandle]
  have hd : p.openConn.2.db = p.db.begin p.openConn.1 := by
    unfold Pool.openConn
    cases p.pool <;> rfl
  have he : p.enterDb.2.exitDb = (.ok (), { p.enterDb.2.setHandle p.openConn.1 { p.openConn.2.handle p.openConn.1 with opened := false } with
      pool := p.openConn.1 :: p.openConn.2.pool }) := by
    show (Pool.close _ p.openConn.1) = _
    unfold Pool.close
    have hj' : ¬ (p.enterDb.2.handle p.openConn.1).joined = true := by
      show ¬ (p.openConn.2.handle p.openConn.1).joined = true
      rw [hj]; exact Bool.false_ne_true
    have h2' : (p.enterDb.2.handle p.openConn.1).opened = true := h2
    show (if (p.enterDb.2.handle p.openConn.1).joined = true then _ else _) = _
    rw [if_neg hj', if_pos h2']
    rfl
  have hq : p.sizeWith get = (get p.enterDb.2 p.enterDb.1, { p.enterDb.2.setHandle p.openConn.1 { p.openConn.2.handle p.openConn.1 with opened := false } with
      pool := p.openConn.1 :: p.openConn.2.pool }) := by
    unfold Pool.sizeWith
    rw [he]
  refine ⟨by rw [hq], ?_, fun j => ?_, fun j hjo => ?_⟩
  · show (p.sizeWith get).2.db.disk = _
    rw [hq]
    show p.openConn.2.db.disk = _
    rw [hd]; rfl
  · show ((p.sizeWith get).2.handle j).opened = _
    rw [hq]
    by_cases e : j = p.openConn.1
    · subst e; simp [Pool.setHandle, h1]
    · show (Function.update p.openConn.2.handle _ _ j).opened = _
      rw [Function.update_of_ne e, h3 j e]
  · have e : j ≠ p.openConn.1 := by rintro rfl; rw [h1] at hjo; cases hjo
    constructor
    · show (p.sizeWith get).2.handle j = _
      rw [hq]
      show Function.update p.openConn.2.handle _ _ j = _
      rw [Function.update_of_ne e, h3 j e]
    · show (p.sizeWith get).2.db.sess j = _
      rw [hq]
      show p.openConn.2.db.sess j = _
      rw [hd]
      show Function.update p.db.sess _ _ j = _
      rw [Function.update_of_ne e]

/-- **C147 (partial: asking changes nothing).** `module.size` after any history of the module's database: nothing that is stored, nothing that an open connection sees
and none of its settings changes, and no connection stays open. Missing: it gives no number (`module_size_counterexample`), and inside a `with db` block
it takes the block's place (`module_size_in_block_counterexample`). -/
theorem module_size_partial (c0 : Container V) (as : List (PoolCall V)) :
    let p := ((Pool.fresh c0).run as).2
    let q := p.moduleSize.2
    q.db.disk = p.db.disk ∧ (∀ j, (q.handle j).opened = (p.handle j).opened) ∧
    ∀ j, (p.handle j).opened → q.handle j = p.handle j ∧ q.db.sess j = p.db.sess j :=
  (sizeWith_spec c0 as Pool.connSize).2

/-- **C147 (counterexample).** `module.size` raises AttributeError, after every history of every database; so does the size of every group with
such a module after modules that answer, every record made from the module, and an update of a record, which stays as it is. -/
theorem module_size_counterexample (c0 : Container V) (as : List (PoolCall V)) :
    let size := ((Pool.fresh c0).run as).2.moduleSize.1
    size = .error .attributeError ∧
    (∀ (before : List Nat) (after : List (Outcome Nat)), groupSize (before.map .ok ++ size :: after) = .error .attributeError) ∧
    (∀ path name, SizeRecord.fromModule path name size = .error .attributeError) ∧
    ∀ r : SizeRecord, r.updateFrom size = (.error .attributeError, r) := by
  intro size
  have h : size = .error .attributeError := (sizeWith_spec c0 as Pool.connSize).1
  rw [h]
  refine ⟨rfl, fun before after => ?_, fun _ _ => rfl, fun _ => rfl⟩
  induction before with
  | nil => rfl
  | cons n ns ih =>
    show (groupSize (ns.map .ok ++ _ :: after)).map (n + ·) = _
    rw [ih]; rfl

omit [Truthy V] [DecidableEq V] in
/-- **C147 (counterexample).** Asking for the size inside a `with db` block of the same database: the end of the block does not close the connection it
gave. The same block without the question closes it. -/
theorem module_size_in_block_counterexample (c0 : Container V) :
    let p := (Pool.fresh c0).enterDb.2
    (p.moduleSize.2.exitDb.1 = .ok () ∧ (p.moduleSize.2.exitDb.2.handle 0).opened = true) ∧
    p.exitDb.1 = .ok () ∧ (p.exitDb.2.handle 0).opened = false := by
  refine ⟨⟨?_, ?_⟩, ?_, ?_⟩ <;> rfl

/-- **C147 (records).** A record made from a module that gives a size shows the module's path, name and that size; updates change the size only: a record
shows the size of the last update that gave one. -/
theorem size_record (path name : String) (n : Nat) (sizes : List (Outcome Nat)) :
    ∃ r0, SizeRecord.fromModule path name (.ok n) = .ok r0 ∧
    sizes.foldl (fun r s => (SizeRecord.updateFrom r s).2) r0 =
      ⟨path, name, ((sizes.filterMap fun s => s.toOption).getLast?).getD n⟩ := by
  refine ⟨_, rfl, ?_⟩
  induction sizes using List.reverseRecOn with
  | nil => rfl
  | append_singleton xs x ih =>
    rw [List.foldl_append, List.filterMap_append]
    simp only [List.foldl_cons, List.foldl_nil]
    rw [ih]
    cases x with
    | error e => simp [SizeRecord.updateFrom, Except.toOption]
    | ok m => simp [SizeRecord.updateFrom, Except.toOption]

example : ([.ok 3, .error .attributeError, .ok 5, .error .ioError] : List (Outcome Nat)).foldl (fun r s => (SizeRecord.updateFrom r s).2) ⟨"p", "n", 1⟩ =
    ⟨"p", "n", 5⟩ := by decide +kernel

/-- The histories of the theorems are not trivial: one connection is open with an uncommitted object when the size is asked for, and can still commit it. -/
example :
    let p := ((Pool.fresh (twoGroups 0 false)).run [.openConn, .use 0 .enter, .use 0 (.call (.create "x" 5) true)]).2
    p.moduleSize.1 = .error .attributeError ∧
    (p.moduleSize.2.run [.use 0 (.commit true), .openConn, .use 1 (.read "x")]).1 = [.ok .unit, .ok (.conn 1), .ok (.val (some 5))] := by
  decide +kernel

end Verif.Props
