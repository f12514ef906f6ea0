import Verif.Props.ConcurrentStrict

/-!
# What holds after a failed commit, and how `strict` is stored (C36, C73, C74)
-/
namespace Verif.Props
open Verif Verif.Storage Verif.Spec Verif.Db
variable {V : Type} [Truthy V]

/-- **C73 (partial: after assigning autocommit once more).** A commit fails during an autocommitted call.  Once the program has assigned
`conn.autocommit = True` (no abort is needed), every list of further calls is durable again: what is stored is the effect of those that return. -/
theorem connection_recovers_partial (c : Conn V) (h : c.tm.autocommit = true) (op : DbOp V) (hd : isWrite op = true) (v : DbRet V)
    (hop : (op.fn c.tm.committed).1 = .ok v) (ops : List (DbOp V)) (hops : ∀ o ∈ ops, isWrite o = true) :
    let c' := (((c.call op false).2.setAutocommit (some true)).2).steps (ops.map fun o => .call o true)
    c'.tm.committed = replayReturned c.tm.committed ops ∧ c'.tm.work = c'.tm.committed ∧ c'.autocommit = true ∧
      ∀ a, (c'.step (.crash a)).tm.work = c'.tm.work := by
  intro c'
  have h3 := (call_on c h op hd false).2.2 v hop rfl
  have hc : ((c.call op false).2.setAutocommit (some true)).2 =
      { tm := { c.tm with work := c.tm.committed, failed := true, autocommit := true }, flag := true } := by rw [h3]; rfl
  have key := connection_autocommit_history_partial ops hops (((c.call op false).2.setAutocommit (some true)).2) rfl (by rw [hc])
  have hco : (((c.call op false).2.setAutocommit (some true)).2).tm.committed = c.tm.committed := by rw [hc]
  rw [hco] at key
  refine ⟨key.1, key.2.1, ?_, key.2.2.2⟩
  have hflag : ∀ (os : List (DbOp V)) (x : Conn V), (x.steps (os.map fun o => .call o true)).flag = x.flag := by
    intro os
    induction os with
    | nil => intro x; rfl
    | cons o os ih =>
      intro x
      show (((x.call o true).2).steps (os.map fun o => .call o true)).flag = _
      rw [ih]
      unfold Conn.call
      split <;> rfl
  show c'.flag = true
  exact hflag ops _

/-- C73: a `with` block after the failed commit works as ever and turns autocommit on again. -/
theorem connection_recovers_block_partial (c : Conn V) (h : c.tm.autocommit = true) (op : DbOp V) (hd : isWrite op = true) (v : DbRet V)
    (hop : (op.fn c.tm.committed).1 = .ok v) (ops : List (DbOp V × Bool)) :
    let after := (((c.call op false).2).enter.steps (callEvents ops)).exit false true
    after.1 = .ok () ∧ after.2.tm.committed = replay c.tm.committed (ops.map Prod.fst) ∧ after.2.autocommit = true ∧ after.2.tm.autocommit = true := by
  intro after
  have h1 := connection_block_atomic (c.call op false).2 ops
  have h2 := connection_block_sets_autocommit (c.call op false).2 ops false
  have h3 : (c.call op false).2.tm.committed = c.tm.committed := by rw [(call_on c h op hd false).2.2 v hop rfl]
  simp only [h3] at h1
  exact ⟨h1.2.2.2.2.1.1, h1.2.2.2.2.1.2.1, h2.1, h2.2⟩

example : let c := ((((twoSession true).call (.create "z" 1) false).2.setAutocommit (some true)).2).steps [.call (.create "y" 3) true, .crash true]
    c.read "y" = .ok (some 3) ∧ c.read "z" = .ok none := by decide +kernel

omit [Truthy V] in
theorem strict_of_flags {c d : Container V} (hf : (d.heap d.primary).flags = (c.heap c.primary).flags) : d.strict = c.strict := by
  have : ∀ g : CGroup V, g.strict = (stricts g).all id := fun g => by unfold CGroup.strict stricts; simp [List.all_map]
  unfold Container.strict
  rw [this, this, stricts_of_flags hf]

/-- Creating, updating and deleting keep the strict flag. -/
theorem effect_strict {c : Container V} (hr : ContReach c) (op : DbOp V) (hop : isWrite op = true) : (effect c op).strict = c.strict := by
  have hw : ∀ id obj, (c.write id obj).2.strict = c.strict := by
    intro id obj
    rcases Container.write_spec hr.inv.pinv id obj with ⟨e, he, _⟩ | ⟨g, he, _, hf, _⟩
    · rw [he]
    · rw [he]
      refine strict_of_flags ?_
      simp only [Container.put]
      simpa using hf
  cases op with
  | create id obj =>
    show (createFn id obj c).2.strict = _
    unfold createFn
    split
    · rfl
    · exact hw id obj
    · rfl
  | update id obj =>
    show (updateFn id obj c).2.strict = _
    unfold updateFn
    split
    · rfl
    · exact hw id obj
  | delete id =>
    have h := (Container.delete_spec hr.inv id).1
    refine strict_of_flags ?_
    show ((c.delete id).2.heap (c.delete id).2.primary).flags = _
    rw [h.primary]
    exact h.flags _
  | strict b => simp [isWrite] at hop

theorem replay_reach {c : Container V} (hr : ContReach c) (ops : List (DbOp V)) : ContReach (replay c ops) := by
  induction ops generalizing c with
  | nil => exact hr
  | cons op ops ih => exact ih (effect_reach hr op)

theorem replay_strict {c : Container V} (hr : ContReach c) (ops : List (DbOp V)) (hops : ∀ o ∈ ops, isWrite o = true) : (replay c ops).strict = c.strict := by
  induction ops generalizing c with
  | nil => rfl
  | cons op ops ih =>
    show (replay (effect c op) ops).strict = _
    rw [ih (effect_reach hr op) fun o ho => hops o (List.mem_cons_of_mem _ ho), effect_strict hr op (hops op List.mem_cons_self)]

theorem replayReturned_strict {c : Container V} (hr : ContReach c) (ops : List (DbOp V)) (hops : ∀ o ∈ ops, isWrite o = true) :
    (replayReturned c ops).strict = c.strict := by
  induction ops generalizing c with
  | nil => rfl
  | cons op ops ih =>
    have hops' := fun o ho => hops o (List.mem_cons_of_mem _ ho)
    rw [replayReturned]
    by_cases h : Returned (op.fn c).1
    · rw [if_pos h, ih (effect_reach hr op) hops', effect_strict hr op (hops op List.mem_cons_self)]
    · rw [if_neg h, ih hr hops']

theorem setStrict_strict {c : Container V} (hr : ContReach c) (b : Bool) : (effect c (.strict (some b))).strict = b := by
  show (c.setStrict (some b)).2.strict = b
  have hne := hr.inv.pinv.ne
  have e : (c.setStrict (some b)).2 = c.put c.primary ((c.heap c.primary).setStrict (some b)).2 := rfl
  rw [e]
  unfold Container.strict
  show ((c.put c.primary _).heap c.primary).strict = b
  rw [Container.heap_put_self]
  unfold CGroup.strict CGroup.setStrict
  simp only [List.all_map]
  cases hc : (c.heap c.primary).collections with
  | nil => exact absurd hc hne
  | cons x xs => cases b <;> simp

/-- **C74 (partial: inside a `with` block).** An assignment to `conn.strict` made inside a block that ends normally is stored when the block ends, whatever
else the block does before and after (but for assigning it again), and no later autocommitted call, block of calls or crash undoes it. -/
theorem connection_strict_block_partial (c : Conn V) (hr : ContReach c.tm.committed) (b : Bool) (pre post : List (DbOp V))
    (hpost : ∀ o ∈ post, isWrite o = true) (later : List (DbOp V)) (hlater : ∀ o ∈ later, isWrite o = true) :
    let done := (c.enter.steps (callEvents ((pre ++ .strict (some b) :: post).map fun o => (o, true)))).exit false true
    let c' := done.2.steps (later.map fun o => .call o true)
    done.1 = .ok () ∧ done.2.tm.committed.strict = b ∧ c'.tm.committed.strict = b ∧ ∀ a, (c'.step (.crash a)).tm.work.strict = b := by
  intro done c'
  have h1 := connection_block_atomic c ((pre ++ .strict (some b) :: post).map fun o => (o, true))
  have h2 := connection_block_sets_autocommit c ((pre ++ .strict (some b) :: post).map fun o => (o, true)) false
  have hm : ((pre ++ DbOp.strict (some b) :: post).map fun o => (o, true)).map Prod.fst = pre ++ .strict (some b) :: post := by
    rw [List.map_map]; exact List.map_id _
  simp only [hm] at h1
  have hco : done.2.tm.committed = replay c.tm.committed (pre ++ .strict (some b) :: post) := h1.2.2.2.2.1.2.1
  have hwk : done.2.tm.work = done.2.tm.committed := h1.2.2.2.2.1.2.2.1.trans hco.symm
  have hsplit : replay c.tm.committed (pre ++ .strict (some b) :: post) = replay (effect (replay c.tm.committed pre) (.strict (some b))) post := by
    unfold replay; rw [List.foldl_append]; rfl
  have hr' := effect_reach (replay_reach hr pre) (.strict (some b))
  have hst : done.2.tm.committed.strict = b := by
    rw [hco, hsplit, replay_strict hr' post hpost, setStrict_strict (replay_reach hr pre)]
  have hrd : ContReach done.2.tm.committed := by rw [hco]; exact replay_reach hr _
  have key := connection_autocommit_history_partial later hlater done.2 h2.2 hwk
  refine ⟨h1.2.2.2.2.1.1, hst, ?_, fun a => ?_⟩
  · rw [key.1, replayReturned_strict hrd later hlater, hst]
  · rw [key.2.2.2 a, key.2.1, key.1, replayReturned_strict hrd later hlater, hst]

end Verif.Props
