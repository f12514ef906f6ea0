import Verif.Spec.Store
import Verif.Props.ContainerHistory

/-!
# Connections: create/update/delete, transactions, crashes (C33-C40, C73)
-/
namespace Verif.Props
open Verif Verif.Storage Verif.Spec Verif.Db
variable {V : Type}

/-! ### The transaction manager, for any stored state -/

section tm
variable {S α : Type}

/-- The three ways an autocommitted call can end. -/
theorem autocommitted_on (t : Tm S) (h : t.autocommit = true) (fn : S → Outcome α × S) (ok : Bool) :
    t.autocommitted fn ok =
      match (fn t.committed).1, ok with
      | .error e, _ => (.error e, { t with work := t.committed, failed := false })
      | .ok v, true => (.ok v, { t with
          work := (fn t.committed).2, committed := (fn t.committed).2
          log := (fn t.committed).2 :: t.log, failed := false })
      | .ok _, false => (.error .storageError, { t with
          work := t.committed, failed := true, autocommit := false }) := by
  unfold Tm.autocommitted Tm.plain Tm.enter Tm.begin
  simp only [h, if_true, Bool.false_eq_true, if_false]
  rcases hf : fn t.committed with ⟨r, s⟩
  cases t
  simp only at h hf ⊢
  subst h
  cases r with
  | error e => simp [Tm.exit, Tm.abort]
  | ok v => cases ok <;> simp [Tm.exit, Tm.commit]

theorem autocommitted_off (t : Tm S) (h : t.autocommit = false) (fn : S → Outcome α × S) (ok : Bool) :
    t.autocommitted fn ok = t.plain fn := by
  unfold Tm.autocommitted; simp [h]

end tm

variable [Truthy V]

/-- Effect of a call on the stored container, whether it returns or raises. -/
def effect (c : Container V) (op : DbOp V) : Container V := (op.fn c).2

/-- Effect of a list of calls. -/
def replay (c : Container V) (ops : List (DbOp V)) : Container V := ops.foldl effect c

/-- Effect of those calls of a list that return. -/
def replayReturned : Container V → List (DbOp V) → Container V
  | c, [] => c
  | c, op :: ops => replayReturned (if Returned (op.fn c).1 then effect c op else c) ops

/-- The state a call works on: with autocommit on, what is on disk; otherwise what the
session sees. -/
def seen (c : Conn V) : Container V := if c.tm.autocommit then c.tm.committed else c.tm.work

/-! ### reachable sessions -/

theorem effect_reach {c : Container V} (h : ContReach c) (op : DbOp V) : ContReach (effect c op) := by
  cases op with
  | create id obj =>
    show ContReach (createFn id obj c).2
    unfold createFn
    split
    · exact h
    · exact .call c (.write id obj) h
    · exact h
  | update id obj =>
    show ContReach (updateFn id obj c).2
    unfold updateFn
    split
    · exact h
    · exact .call c (.write id obj) h
  | delete id => exact .call c (.delete id) h
  | strict b =>
    cases b with
    | none => exact h
    | some b => exact .call c (.setStrict (some b)) h

/-- A property of containers kept by every call holds of everything a session sees or
stores, after any history of events. -/
structure Everywhere (P : Container V → Prop) (c : Conn V) : Prop where
  work : P c.tm.work
  committed : P c.tm.committed
  log : ∀ x ∈ c.tm.log, P x

omit [Truthy V] in
theorem everywhere_autocommitted {P : Container V → Prop} {fn : Container V → Outcome (DbRet V) × Container V}
    (hP : ∀ c, P c → P (fn c).2) {c : Conn V} (h : Everywhere P c) (ok : Bool) :
    Everywhere P { c with tm := (c.tm.autocommitted fn ok).2 } := by
  obtain ⟨h1, h2, h3⟩ := h
  cases ha : c.tm.autocommit with
  | true =>
    rw [autocommitted_on _ ha]
    cases hr : (fn c.tm.committed).1 with
    | error e => exact ⟨h2, h2, h3⟩
    | ok v =>
      cases ok with
      | true =>
        refine ⟨hP _ h2, hP _ h2, ?_⟩
        intro x hx
        rcases List.mem_cons.1 hx with rfl | hx
        · exact hP _ h2
        · exact h3 x hx
      | false => exact ⟨h2, h2, h3⟩
  | false =>
    rw [autocommitted_off _ ha]
    unfold Tm.plain
    split_ifs
    · exact ⟨h1, h2, h3⟩
    · exact ⟨hP _ h1, h2, h3⟩

omit [Truthy V] in
theorem everywhere_commit {P : Container V → Prop} {c : Conn V} {t : Tm (Container V)}
    (h : Everywhere P { c with tm := t }) (ok : Bool) (f : Bool) :
    Everywhere P { tm := (t.commit ok).2, flag := f } := by
  obtain ⟨h1, h2, h3⟩ := h
  unfold Tm.commit
  split_ifs
  · exact ⟨h1, h2, h3⟩
  · refine ⟨h1, h1, ?_⟩
    intro x hx
    rcases List.mem_cons.1 hx with rfl | hx
    · exact h1
    · exact h3 x hx
  · exact ⟨h2, h2, h3⟩

theorem everywhere_step {P : Container V → Prop} (hP : ∀ c op, P c → P (effect c op)) {c : Conn V}
    (h : Everywhere P c) (e : Event V) : Everywhere P (c.step e) := by
  cases e with
  | call op ok =>
    show Everywhere P (c.call op ok).2
    unfold Conn.call
    split_ifs
    · exact everywhere_autocommitted (fun c hc => hP c op hc) h ok
    · simp only [Tm.plain]
      split_ifs
      · exact h
      · exact ⟨hP _ op h.work, h.committed, h.log⟩
  | setAutocommit b => cases b <;> exact ⟨h.work, h.committed, h.log⟩
  | enter => exact ⟨h.committed, h.committed, h.log⟩
  | exit raised ok =>
    show Everywhere P (c.exit raised ok).2
    unfold Conn.exit Tm.exit
    cases raised with
    | true => exact ⟨h.committed, h.committed, h.log⟩
    | false =>
      have := everywhere_commit (c := c) (t := { c.tm with autocommit := true })
        ⟨h.work, h.committed, h.log⟩ ok true
      simp only [Bool.false_eq_true, if_false]
      rcases hr : Tm.commit { c.tm with autocommit := true } ok with ⟨r, t'⟩
      rw [hr] at this
      cases r <;> exact ⟨this.work, this.committed, this.log⟩
  | commit ok => exact everywhere_commit (c := c) h ok c.flag
  | abort => exact ⟨h.committed, h.committed, h.log⟩
  | crash a => exact ⟨h.committed, h.committed, h.log⟩

theorem everywhere_steps {P : Container V → Prop} (hP : ∀ c op, P c → P (effect c op)) (es : List (Event V)) :
    ∀ {c : Conn V}, Everywhere P c → Everywhere P (c.steps es) := by
  induction es with
  | nil => intro c h; exact h
  | cons e es ih => intro c h; exact ih (everywhere_step hP h e)

/-- A session reached by any history of events on a database holding a reachable container. -/
inductive ConnReach : Conn V → Prop where
  | init (c : Container V) (a : Bool) (conn : Conn V) : ContReach c → Conn.init (some c) a = .ok conn →
      ConnReach conn
  | step (conn : Conn V) (e : Event V) : ConnReach conn → ConnReach (conn.step e)

theorem ConnReach.everywhere {c : Conn V} (h : ConnReach c) : Everywhere ContReach c := by
  induction h with
  | init c a conn hc h =>
    unfold Conn.init at h; injection h with h; subst h
    exact ⟨hc, hc, by simp⟩
  | step conn e _ ih => exact everywhere_step (fun c op h => effect_reach h op) ih e

theorem ConnReach.seen {c : Conn V} (h : ConnReach c) : ContReach (seen c) := by
  unfold Props.seen; split_ifs
  · exact h.everywhere.committed
  · exact h.everywhere.work

/-! ### C33 -/

omit [Truthy V] in
/-- Writing an id that no group has. -/
theorem write_absent {c : Container V} (hi : c.Inv) (hp : c.primary ∈ c.groups) (id : String) (obj : V)
    (ha : c.first id = none) :
    (∃ e, c.write id obj = (.error e, c) ∧ (e = .groupCapacity ∨ e = .collectionCapacity)) ∨
    ((c.write id obj).1 = .ok (some 1) ∧ (c.write id obj).2.first id = some obj ∧
      ∀ x, x ≠ id → (c.write id obj).2.first x = c.first x) := by
  have hnone := Container.first_eq_none.1 ha
  rcases Container.write_spec hi.pinv id obj with ⟨e, h1, h2, _⟩ | ⟨g, h1, h2, h3, h4⟩
  · exact .inl ⟨e, h1, h2⟩
  · right
    rw [h1]
    have hview : ∀ a x, (a ≠ c.primary ∨ x ≠ id) → (c.put c.primary g).view a x = c.view a x := by
      intro a x hx
      unfold Container.view
      by_cases ha : a = c.primary
      · rw [ha, Container.heap_put_self, h4]
        rcases hx with hx | hx
        · exact absurd ha hx
        · simp [Map.set, hx]
      · rw [Container.heap_put_ne _ _ ha]
    refine ⟨?_, ?_, fun x hx => findSome_congr c.groups _ _ fun a _ => hview a x (.inr hx)⟩
    · have : c.view c.primary id = none := hnone _ hp
      unfold Container.view at this
      simp [this]
    · unfold Container.first
      show c.groups.findSome? _ = some obj
      have hpv : (c.put c.primary g).view c.primary id = some obj := by
        unfold Container.view; rw [Container.heap_put_self, h4]; simp [Map.set]
      clear hnone
      have hall : ∀ a ∈ c.groups, (c.put c.primary g).view a id = some obj ∨
          (c.put c.primary g).view a id = none := by
        intro a hga
        by_cases hap : a = c.primary
        · rw [hap]; exact .inl hpv
        · rw [hview a id (.inl hap)]; exact .inr (Container.first_eq_none.1 ha a hga)
      generalize c.groups = l at hp hall
      induction l with
      | nil => simp at hp
      | cons a l ih =>
        rw [List.findSome?_cons]
        rcases hall a List.mem_cons_self with h | h
        · rw [h]
        · rw [h]
          simp only
          refine ih ?_ fun b hb => hall b (List.mem_cons_of_mem _ hb)
          rcases List.mem_cons.1 hp with rfl | hp
          · rw [hpv] at h; simp at h
          · exact hp


omit [Truthy V] in
/-- Exactly the calls that change stored objects are decorated. -/
theorem decorated_iff (op : DbOp V) : op.decorated = isWrite op := by cases op <;> rfl

/-- A decorated call with autocommit on. -/
theorem call_on (c : Conn V) (h : c.tm.autocommit = true) (op : DbOp V) (hd : isWrite op = true)
    (ok : Bool) :
    (∀ e, (op.fn c.tm.committed).1 = .error e → c.call op ok = (.error e,
      { c with tm := { c.tm with work := c.tm.committed, failed := false } })) ∧
    (∀ v, (op.fn c.tm.committed).1 = .ok v → ok = true → c.call op ok = (.ok v,
      { c with tm := { c.tm with work := effect c.tm.committed op, committed := effect c.tm.committed op,
                                 log := effect c.tm.committed op :: c.tm.log, failed := false } })) ∧
    (∀ v, (op.fn c.tm.committed).1 = .ok v → ok = false → c.call op ok = (.error .storageError,
      { c with tm := { c.tm with work := c.tm.committed, failed := true, autocommit := false } })) := by
  unfold Conn.call
  rw [decorated_iff, if_pos hd, autocommitted_on _ h]
  refine ⟨?_, ?_, ?_⟩
  · intro e he; rw [he]
  · intro v hv hok; rw [hv, hok]; rfl
  · intro v hv hok; rw [hv, hok]

/-- A call with autocommit off, or one that is never committed by itself. -/
theorem call_off (c : Conn V) (op : DbOp V) (h : c.tm.autocommit = false ∨ isWrite op = false)
    (hf : c.tm.failed = false) (ok : Bool) :
    c.call op ok = ((op.fn c.tm.work).1, { c with tm := { c.tm with work := effect c.tm.work op } }) := by
  unfold Conn.call
  rw [decorated_iff]
  split_ifs with hd
  · rcases h with h | h
    · rw [autocommitted_off _ h]; unfold Tm.plain; simp only [hf]; rfl
    · rw [hd] at h; simp at h
  · unfold Tm.plain; simp only [hf]; rfl

/-- With a failed transaction left behind, calls raise and change nothing. -/
theorem call_failed (c : Conn V) (op : DbOp V) (h : c.tm.autocommit = false ∨ isWrite op = false)
    (hf : c.tm.failed = true) (ok : Bool) : c.call op ok = (.error .transactionFailed, c) := by
  unfold Conn.call
  rw [decorated_iff]
  split_ifs with hd
  · rcases h with h | h
    · rw [autocommitted_off _ h]; unfold Tm.plain; simp only [hf]; rfl
    · rw [hd] at h; simp at h
  · unfold Tm.plain; simp only [hf]; rfl

omit [Truthy V] in
theorem createFn_present {c : Container V} (hr : ContReach c) (id : String) (obj : V)
    (h : c.first id ≠ none) : createFn id obj c = (.error .objectOverwrite, c) := by
  obtain ⟨n, h1, h2⟩ := Container.has_pos hr.inv id
  unfold createFn
  rw [h1]
  cases n with
  | zero => exact absurd (h2.2 h) (by omega)
  | succ n => rfl

omit [Truthy V] in
theorem createFn_absent {c : Container V} (hr : ContReach c) (id : String) (obj : V)
    (h : c.first id = none) :
    createFn id obj c = ((c.write id obj).1.map .count, (c.write id obj).2) := by
  obtain ⟨n, h1, h2⟩ := Container.has_pos hr.inv id
  unfold createFn
  rw [h1]
  cases n with
  | zero => rfl
  | succ n => exact absurd h (h2.1 (by omega))

/-- **C33 (existing ids).** In every reachable session `create` of an id that some group has
raises ObjectOverwriteError; nothing changes on disk, and the session sees exactly what
the call saw. -/
theorem connection_create_overwrite (c : Conn V) (hr : ConnReach c) (id : String) (obj : V) (ok : Bool)
    (hf : c.tm.autocommit = true ∨ c.tm.failed = false) (hp : (seen c).first id ≠ none) :
    (c.call (.create id obj) ok).1 = .error .objectOverwrite ∧
    (c.call (.create id obj) ok).2.tm.committed = c.tm.committed ∧
    (c.call (.create id obj) ok).2.tm.log = c.tm.log ∧
    (c.call (.create id obj) ok).2.tm.work = seen c := by
  have h := createFn_present hr.seen id obj hp
  cases ha : c.tm.autocommit with
  | true =>
    have hs : seen c = c.tm.committed := by unfold seen; rw [if_pos ha]
    rw [hs] at h
    have he : ((DbOp.create id obj).fn c.tm.committed).1 = .error .objectOverwrite := by
      show (createFn id obj c.tm.committed).1 = _; rw [h]
    rw [(call_on c ha (.create id obj) rfl ok).1 _ he, hs]
    exact ⟨rfl, rfl, rfl, rfl⟩
  | false =>
    have hs : seen c = c.tm.work := by unfold seen; rw [ha]; rfl
    have hf' : c.tm.failed = false := by
      rcases hf with h | h
      · rw [ha] at h; simp at h
      · exact h
    rw [call_off c _ (.inl ha) hf', hs]
    rw [hs] at h
    refine ⟨?_, rfl, rfl, ?_⟩
    · show (createFn id obj c.tm.work).1 = _; rw [h]
    · show (createFn id obj c.tm.work).2 = _; rw [h]

/-- **C33 (new ids; partial: the primary group is one of the groups, which holds for every
container when it is made and is kept by all connection calls).** `create` of an id that no
group has, when it returns, returns 1 and stores the object, on disk too if autocommit is
on; no other id changes. When it raises, it is a capacity error or the failure of a commit,
and nothing changes. -/
theorem connection_create_new_partial (c : Conn V) (hr : ConnReach c) (id : String) (obj : V) (ok : Bool)
    (hf : c.tm.autocommit = true ∨ c.tm.failed = false)
    (hp : (seen c).primary ∈ (seen c).groups) (ha : (seen c).first id = none) :
    let r := c.call (.create id obj) ok
    (∀ v, r.1 = .ok v → v = .count (some 1) ∧ r.2.tm.work.first id = some obj ∧
      (∀ x, x ≠ id → r.2.tm.work.first x = (seen c).first x) ∧
      (c.tm.autocommit = true → r.2.tm.committed = r.2.tm.work)) ∧
    (∀ e, r.1 = .error e → (e = .groupCapacity ∨ e = .collectionCapacity ∨ e = .storageError) ∧
      r.2.tm.committed = c.tm.committed ∧ r.2.tm.work = seen c) := by
  intro r
  have h := createFn_absent hr.seen id obj ha
  have hw := write_absent hr.seen.inv hp id obj ha
  cases hau : c.tm.autocommit with
  | true =>
    have hs : seen c = c.tm.committed := by unfold seen; rw [if_pos hau]
    rw [hs] at h hw ⊢
    have hon := call_on c hau (.create id obj) rfl ok
    rcases hw with ⟨e, h1, h2⟩ | ⟨h1, h2, h3⟩
    · have he : ((DbOp.create id obj).fn c.tm.committed).1 = .error e := by
        show (createFn id obj c.tm.committed).1 = _; rw [h, h1]; rfl
      have hr' : r = _ := hon.1 e he
      rw [hr']
      refine ⟨fun v hv => by simp at hv, ?_⟩
      intro e' he'
      injection he' with he'; subst he'
      refine ⟨?_, rfl, rfl⟩
      rcases h2 with h2 | h2
      · exact .inl h2
      · exact .inr (.inl h2)
    · have hv : ((DbOp.create id obj).fn c.tm.committed).1 = .ok (.count (some 1)) := by
        show (createFn id obj c.tm.committed).1 = _; rw [h, h1]; rfl
      have heff : effect c.tm.committed (.create id obj) = (c.tm.committed.write id obj).2 := by
        show (createFn id obj c.tm.committed).2 = _; rw [h]
      cases ok with
      | true =>
        have hr' : r = _ := hon.2.1 _ hv rfl
        rw [hr']
        refine ⟨?_, fun e he => by simp at he⟩
        intro v hv'
        injection hv' with hv'
        refine ⟨hv'.symm, ?_, ?_, fun _ => rfl⟩
        · show (effect c.tm.committed (.create id obj)).first id = _; rw [heff]; exact h2
        · intro x hx; show (effect c.tm.committed (.create id obj)).first x = _; rw [heff]; exact h3 x hx
      | false =>
        have hr' : r = _ := hon.2.2 _ hv rfl
        rw [hr']
        refine ⟨fun v hv => by simp at hv, ?_⟩
        intro e he; injection he with he
        exact ⟨.inr (.inr he.symm), rfl, rfl⟩
  | false =>
    have hs : seen c = c.tm.work := by unfold seen; rw [hau]; rfl
    have hf' : c.tm.failed = false := by
      rcases hf with h | h
      · rw [hau] at h; simp at h
      · exact h
    have hr' : r = _ := call_off c _ (.inl hau) hf' ok
    rw [hs] at h hw ⊢
    have hfn : (DbOp.create id obj).fn c.tm.work = createFn id obj c.tm.work := rfl
    have heff : effect c.tm.work (.create id obj) = (c.tm.work.write id obj).2 := by
      show (createFn id obj c.tm.work).2 = _; rw [h]
    rw [hfn, h, heff] at hr'
    rw [hr']
    rcases hw with ⟨e, h1, h2⟩ | ⟨h1, h2, h3⟩
    · rw [h1]
      refine ⟨fun v hv => by simp [Except.map] at hv, ?_⟩
      intro e' he'
      have : e = e' := by simpa [Except.map] using he'
      subst this
      refine ⟨?_, rfl, rfl⟩
      rcases h2 with h2 | h2
      · exact .inl h2
      · exact .inr (.inl h2)
    · refine ⟨?_, ?_⟩
      · intro v hv
        rw [h1] at hv
        have : DbRet.count (some 1) = v := by simpa [Except.map] using hv
        exact ⟨this.symm, h2, h3, fun hx => by simp at hx⟩
      · intro e he; rw [h1] at he; simp [Except.map] at he

/-- Every call of a connection keeps the primary group among the groups, and first if it was. -/
theorem effect_shape {c : Container V} (hr : ContReach c) (op : DbOp V) :
    (effect c op).groups = c.groups ∧ (effect c op).primary = c.primary := by
  have hw : ∀ id obj, (c.write id obj).2.groups = c.groups ∧ (c.write id obj).2.primary = c.primary := by
    intro id obj
    rcases Container.write_spec hr.inv.pinv id obj with ⟨e, h1, _⟩ | ⟨g, h1, _⟩ <;> rw [h1] <;>
      exact ⟨rfl, rfl⟩
  cases op with
  | create id obj =>
    show (createFn id obj c).2.groups = _ ∧ (createFn id obj c).2.primary = _
    unfold createFn
    split
    · exact ⟨rfl, rfl⟩
    · exact hw id obj
    · exact ⟨rfl, rfl⟩
  | update id obj =>
    show (updateFn id obj c).2.groups = _ ∧ (updateFn id obj c).2.primary = _
    unfold updateFn
    split
    · exact ⟨rfl, rfl⟩
    · exact hw id obj
  | delete id =>
    have h := (Container.delete_spec hr.inv id).1
    exact ⟨h.groups, h.primary⟩
  | strict b => cases b <;> exact ⟨rfl, rfl⟩

/-- C33: the hypothesis on the primary group holds in every session on a database that was
opened with such a container. -/
theorem connection_primary_listed (c0 : Container V) (h0 : ContReach c0) (hp : c0.primary ∈ c0.groups)
    (a : Bool) (conn : Conn V) (hi : Conn.init (some c0) a = .ok conn) (es : List (Event V)) :
    (seen (conn.steps es)).primary ∈ (seen (conn.steps es)).groups ∧
    (c0.HeadPrimary → (seen (conn.steps es)).HeadPrimary) := by
  unfold Conn.init at hi; injection hi with hi; subst hi
  have key := everywhere_steps (P := fun c : Container V => ContReach c ∧ c.groups = c0.groups ∧ c.primary = c0.primary)
    (fun c op h => ⟨effect_reach h.1 op, (effect_shape h.1 op).1.trans h.2.1, (effect_shape h.1 op).2.trans h.2.2⟩)
    es (c := { tm := { work := c0, committed := c0 }, flag := a })
    ⟨⟨h0, rfl, rfl⟩, ⟨h0, rfl, rfl⟩, by simp⟩
  have : (seen (Conn.steps { tm := { work := c0, committed := c0 }, flag := a } es)).groups = c0.groups ∧
      (seen (Conn.steps { tm := { work := c0, committed := c0 }, flag := a } es)).primary = c0.primary := by
    unfold seen; split_ifs
    · exact key.committed.2
    · exact key.work.2
  rw [this.1, this.2]
  refine ⟨hp, ?_⟩
  intro hh
  unfold Container.HeadPrimary at hh ⊢
  rw [this.1, this.2]; exact hh

/-- A concrete session on two groups, with one id in each. -/
def twoSession (a : Bool) : Conn Nat := { tm := { work := twoGroups 0 false, committed := twoGroups 0 false }, flag := a }

theorem twoSession_reach (a : Bool) : ConnReach (twoSession a) :=
  .init (twoGroups 0 false) a _ (twoGroups_reach 0 (by decide) false) rfl

example : ((twoSession true).call (.create "b" 9)).1 = .error .objectOverwrite ∧
    ((twoSession true).call (.create "z" 9)).1 = .ok (.count (some 1)) ∧
    (((twoSession true).call (.create "z" 9)).2.steps [.crash true]).read "z" = .ok (some 9) := by
  decide +kernel

/-- **C33 (counterexample to the storing half).** If the primary group is not among the
groups (reached by `condense` on a container whose primary group is not first), `create`
returns 1 but the object cannot be read. -/
theorem connection_create_counterexample :
    ∃ (c0 : Container Nat) (conn : Conn Nat), ContReach c0 ∧ Conn.init (some c0) = .ok conn ∧
      (conn.call (.create "z" 9)).1 = .ok (.count (some 1)) ∧
      (conn.call (.create "z" 9)).2.read "z" = .ok none := by
  refine ⟨((twoGroups 1 false).condense true).2, _,
    .call _ (.condense true) (twoGroups_reach 1 (by decide) false), rfl, ?_, ?_⟩ <;> decide +kernel

/-! ### C34 -/

/-- **C34 (partial: truthy objects, primary group first).** `update`, when it returns,
returns what `read` gave before (None if the id was absent), and then `read` gives the new
object, on disk too with autocommit; no other id changes. When it raises, it is a capacity
error or the failure of a commit and nothing changes. -/
theorem connection_update_partial (hV : AllTruthy V) (c : Conn V) (hr : ConnReach c) (id : String)
    (obj : V) (ok : Bool) (hf : c.tm.autocommit = true ∨ c.tm.failed = false)
    (hh : (seen c).HeadPrimary) :
    let r := c.call (.update id obj) ok
    (∀ v, r.1 = .ok v → (seen c).read id = .ok ((seen c).first id) ∧ v = .prev ((seen c).first id) ∧
      r.2.read id = .ok (some obj) ∧ (∀ x, x ≠ id → r.2.read x = (seen c).read x) ∧
      (c.tm.autocommit = true → r.2.tm.committed = r.2.tm.work)) ∧
    (∀ e, r.1 = .error e → (e = .groupCapacity ∨ e = .collectionCapacity ∨ e = .storageError) ∧
      r.2.tm.committed = c.tm.committed ∧ r.2.tm.work = seen c) := by
  intro r
  have hrd : ∀ x : Container V, ContReach x → ∀ id, x.read id = .ok (x.first id) :=
    fun x hx id => (container_read_partial hV x hx id).1
  have hfn : ∀ x : Container V, ContReach x → updateFn id obj x =
      ((x.write id obj).1.map fun _ => .prev (x.first id), (x.write id obj).2) := by
    intro x hx; unfold updateFn; rw [hrd x hx]
  have hwr : ContReach ((seen c).write id obj).2 := .call _ (.write id obj) hr.seen
  have hw := container_write_partial (seen c) hr.seen hh id obj
  cases hau : c.tm.autocommit with
  | true =>
    have hs : seen c = c.tm.committed := by unfold seen; rw [if_pos hau]
    have hreach := hr.seen
    rw [hs] at hw hwr hreach ⊢
    have hon := call_on c hau (.update id obj) rfl ok
    have heff : effect c.tm.committed (.update id obj) = (c.tm.committed.write id obj).2 := by
      show (updateFn id obj c.tm.committed).2 = _; rw [hfn _ hreach]
    rcases hw with ⟨e, h1, h2, _⟩ | ⟨h1, h2, _, _, h3⟩
    · have he : ((DbOp.update id obj).fn c.tm.committed).1 = .error e := by
        show (updateFn id obj c.tm.committed).1 = _; rw [hfn _ hreach, h1]; rfl
      have hr' : r = _ := hon.1 e he
      rw [hr']
      refine ⟨fun v hv => by simp at hv, ?_⟩
      intro e' he'
      injection he' with he'; subst he'
      refine ⟨?_, rfl, rfl⟩
      rcases h2 with h2 | h2
      · exact .inl h2
      · exact .inr (.inl h2)
    · have hv : ((DbOp.update id obj).fn c.tm.committed).1 = .ok (.prev (c.tm.committed.first id)) := by
        show (updateFn id obj c.tm.committed).1 = _; rw [hfn _ hreach, h1]; rfl
      cases ok with
      | true =>
        have hr' : r = _ := hon.2.1 _ hv rfl
        rw [hr']
        refine ⟨?_, fun e he => by simp at he⟩
        intro v hv'
        injection hv' with hv'
        refine ⟨hrd _ hreach id, hv'.symm, ?_, ?_, fun _ => rfl⟩
        · show (effect c.tm.committed (.update id obj)).read id = _
          rw [heff, hrd _ hwr, h2]
        · intro x hx
          show (effect c.tm.committed (.update id obj)).read x = _
          rw [heff, hrd _ hwr, hrd _ hreach, (h3 x hx).1]
      | false =>
        have hr' : r = _ := hon.2.2 _ hv rfl
        rw [hr']
        refine ⟨fun v hv => by simp at hv, ?_⟩
        intro e he; injection he with he
        exact ⟨.inr (.inr he.symm), rfl, rfl⟩
  | false =>
    have hs : seen c = c.tm.work := by unfold seen; rw [hau]; rfl
    have hf' : c.tm.failed = false := by
      rcases hf with h | h
      · rw [hau] at h; simp at h
      · exact h
    have hreach := hr.seen
    rw [hs] at hw hwr hreach ⊢
    have hr' : r = _ := call_off c _ (.inl hau) hf' ok
    have heff : effect c.tm.work (.update id obj) = (c.tm.work.write id obj).2 := by
      show (updateFn id obj c.tm.work).2 = _; rw [hfn _ hreach]
    have hfn' : (DbOp.update id obj).fn c.tm.work = updateFn id obj c.tm.work := rfl
    rw [hfn', hfn _ hreach, heff] at hr'
    rw [hr']
    rcases hw with ⟨e, h1, h2, _⟩ | ⟨h1, h2, _, _, h3⟩
    · rw [h1]
      refine ⟨fun v hv => by simp [Except.map] at hv, ?_⟩
      intro e' he'
      have : e = e' := by simpa [Except.map] using he'
      subst this
      refine ⟨?_, rfl, rfl⟩
      rcases h2 with h2 | h2
      · exact .inl h2
      · exact .inr (.inl h2)
    · refine ⟨?_, ?_⟩
      · intro v hv
        rw [h1] at hv
        have : DbRet.prev (c.tm.work.first id) = v := by simpa [Except.map] using hv
        refine ⟨hrd _ hreach id, this.symm, ?_, ?_, fun hx => by simp at hx⟩
        · show (c.tm.work.write id obj).2.read id = _
          rw [hrd _ hwr, h2]
        · intro x hx
          show (c.tm.work.write id obj).2.read x = _
          rw [hrd _ hwr, hrd _ hreach, (h3 x hx).1]
      · intro e he; rw [h1] at he; simp [Except.map] at he

/-- **C34 (counterexample).** With a falsy object stored, `update` returns None instead of
the previous object. -/
theorem connection_update_counterexample :
    ∃ c : Conn Nat, ConnReach c ∧ c.tm.work.first "a" = some 0 ∧
      (c.call (.update "a" 5)).1 = .ok (.prev none) := by
  refine ⟨(twoSession true).step (.call (.update "a" 0) true), .step _ _ (twoSession_reach true), ?_, ?_⟩ <;>
    decide +kernel

example : ((twoSession true).call (.update "b" 7)).1 = .ok (.prev (some 2)) ∧
    ((twoSession true).call (.update "q" 7)).1 = .ok (.prev none) := by decide +kernel

/-! ### C35 -/

/-- **C35 (partial: truthy objects).** `conn[id]` raises KeyError exactly when no group has
the id and otherwise returns what is stored; `conn[ids]` returns the list of reads, in
order, and raises KeyError exactly when none of the ids is stored; anything else raises
IndexError. -/
theorem connection_subscript_partial (hV : AllTruthy V) (c : Conn V) (hr : ConnReach c) :
    (∀ id, c.subscript (.str id) =
      match c.tm.work.first id with
      | none => .error .keyError
      | some v => .ok (.inl (some v))) ∧
    (∀ ids, c.subscript (.iter ids) =
      if ∃ id ∈ ids, c.tm.work.first id ≠ none then .ok (.inr (ids.map c.tm.work.first))
      else .error .keyError) ∧
    c.subscript .other = .error .indexError ∧
    (∀ id, c.read id = .ok (c.tm.work.first id)) := by
  have hrw := hr.everywhere.work
  have hrd : ∀ id, c.tm.work.read id = .ok (c.tm.work.first id) :=
    fun id => (container_read_partial hV _ hrw id).1
  refine ⟨?_, ?_, rfl, hrd⟩
  · intro id
    obtain ⟨n, h1, h2⟩ := Container.has_pos hrw.inv id
    show Except.map Sum.inl (c.getItem id) = _
    unfold Conn.getItem
    rw [h1, hrd]
    cases hf : c.tm.work.first id with
    | none =>
      cases n with
      | zero => rfl
      | succ n => exact absurd hf (h2.1 (by omega))
    | some v =>
      cases n with
      | zero => exact absurd (h2.2 (by rw [hf]; simp)) (by omega)
      | succ n => rfl
  · intro ids
    show Except.map Sum.inr (c.getItems ids) = _
    unfold Conn.getItems
    have hm : (ids.mapM fun id => c.tm.work.read id) = .ok (ids.map c.tm.work.first) := by
      induction ids with
      | nil => rfl
      | cons id ids ih => rw [List.mapM_cons, ih, hrd]; rfl
    rw [hm]
    simp only
    have hany : (ids.map c.tm.work.first).any truthyOpt = true ↔
        ∃ id ∈ ids, c.tm.work.first id ≠ none := by
      rw [List.any_eq_true]
      constructor
      · rintro ⟨r, hr, ht⟩
        obtain ⟨id, hid, rfl⟩ := List.mem_map.1 hr
        refine ⟨id, hid, ?_⟩
        intro hn; rw [hn] at ht; simp [truthyOpt] at ht
      · rintro ⟨id, hid, hn⟩
        refine ⟨_, List.mem_map_of_mem hid, ?_⟩
        obtain ⟨v, hv⟩ := Option.ne_none_iff_exists'.1 hn
        rw [hv]; exact hV v
    by_cases hex : ∃ id ∈ ids, c.tm.work.first id ≠ none
    · rw [if_pos (hany.2 hex), if_pos hex]; rfl
    · rw [if_neg (fun h => hex (hany.1 h)), if_neg hex]; rfl

/-- **C35 (counterexample).** Two stored falsy objects: `conn[ids]` raises KeyError. -/
theorem connection_subscript_counterexample :
    ∃ c : Conn Nat, ConnReach c ∧ c.tm.work.first "a" = some 0 ∧
      c.subscript (.iter ["a"]) = .error .keyError ∧ c.subscript (.str "a") = .ok (.inl none) := by
  refine ⟨(twoSession true).step (.call (.update "a" 0) true), .step _ _ (twoSession_reach true), ?_, ?_, ?_⟩ <;>
    decide +kernel

/-! ### C36 -/

/-- **C36, one call.** With autocommit on, a call that returns is on disk when it returns,
and the session sees what is on disk; a call that raises leaves the disk as it was, and the
session sees what is on disk. -/
theorem connection_autocommit_call (c : Conn V) (h : c.tm.autocommit = true) (op : DbOp V)
    (hd : isWrite op = true) (ok : Bool) :
    (∀ v, (c.call op ok).1 = .ok v → (op.fn c.tm.committed).1 = .ok v ∧
      (c.call op ok).2.tm.committed = (op.fn c.tm.committed).2 ∧
      (c.call op ok).2.tm.work = (c.call op ok).2.tm.committed ∧
      (c.call op ok).2.tm.autocommit = true ∧ (c.call op ok).2.flag = c.flag) ∧
    (∀ e, (c.call op ok).1 = .error e →
      (c.call op ok).2.tm.committed = c.tm.committed ∧ (c.call op ok).2.tm.log = c.tm.log ∧
      (c.call op ok).2.tm.work = c.tm.committed) := by
  obtain ⟨h1, h2, h3⟩ := call_on c h op hd ok
  rcases hf : (op.fn c.tm.committed).1 with e | v
  · rw [h1 e hf]
    exact ⟨fun v hv => by simp at hv, fun e' _ => ⟨rfl, rfl, rfl⟩⟩
  · cases ok with
    | true =>
      rw [h2 v hf rfl]
      refine ⟨?_, fun e he => by simp at he⟩
      intro v' hv'
      injection hv' with hv'
      subst hv'
      exact ⟨rfl, rfl, rfl, h, rfl⟩
    | false =>
      rw [h3 v hf rfl]
      exact ⟨fun v hv => by simp at hv, fun e' _ => ⟨rfl, rfl, rfl⟩⟩

/-- **C36 (partial: no commit fails).** After any list of autocommitted calls on a session with
autocommit on, the disk and the session hold exactly the effects of the calls that
returned, in order; autocommit is still on. A crash then changes nothing. Missing: commits
that fail (`connection_failed_commit_counterexample`). -/
theorem connection_autocommit_history_partial (ops : List (DbOp V)) (hops : ∀ op ∈ ops, isWrite op = true) :
    ∀ (c : Conn V), c.tm.autocommit = true → c.tm.work = c.tm.committed →
    let c' := c.steps (ops.map fun op => .call op true)
    c'.tm.committed = replayReturned c.tm.committed ops ∧ c'.tm.work = c'.tm.committed ∧
    c'.tm.autocommit = true ∧ (∀ a, (c'.step (.crash a)).tm.work = c'.tm.work) := by
  induction ops with
  | nil => intro c h1 h2; exact ⟨rfl, h2, h1, fun _ => h2.symm⟩
  | cons op ops ih =>
    intro c h1 _
    have hd := hops op List.mem_cons_self
    obtain ⟨k1, k2, _⟩ := call_on c h1 op hd true
    have hih := ih fun o ho => hops o (List.mem_cons_of_mem _ ho)
    have hs : c.steps ((op :: ops).map fun op => .call op true) =
        ((c.call op true).2).steps (ops.map fun op => .call op true) := rfl
    have hp : replayReturned c.tm.committed (op :: ops) =
        replayReturned (if Returned (op.fn c.tm.committed).1 then effect c.tm.committed op
          else c.tm.committed) ops := rfl
    rw [hs, hp]
    rcases hf : (op.fn c.tm.committed).1 with e | v
    · rw [k1 e hf]
      exact hih { c with tm := { c.tm with work := c.tm.committed, failed := false } } h1 rfl
    · rw [k2 v hf rfl]
      exact hih { c with tm := { c.tm with work := effect c.tm.committed op, committed := effect c.tm.committed op,
                                           log := effect c.tm.committed op :: c.tm.log, failed := false } } h1 rfl

example : let c := (twoSession true).steps [.call (.create "z" 1) true, .call (.create "a" 5) true,
      .call (.delete "z") true, .call (.update "a" 6) true, .crash true]
    c.read "a" = .ok (some 6) ∧ c.read "z" = .ok none ∧ c.read "b" = .ok (some 2) := by decide +kernel

/-- **C36, C73 (counterexample).** When a commit fails, the manager's autocommit flag stays
off although `conn.autocommit` is True: the next call raises TransactionFailedError, and
after an `abort` further calls return without being stored. -/
theorem connection_failed_commit_counterexample (c : Conn V) (h : c.tm.autocommit = true)
    (op : DbOp V) (hd : isWrite op = true) (v : DbRet V) (hop : (op.fn c.tm.committed).1 = .ok v) :
    let c1 := (c.call op false).2
    (c.call op false).1 = .error .storageError ∧ c1.tm.committed = c.tm.committed ∧
    c1.autocommit = c.autocommit ∧ c1.tm.autocommit = false ∧
    (c1.call op true).1 = .error .transactionFailed ∧
    ((c1.step .abort).call op true).1 = .ok v ∧
    ((c1.step .abort).call op true).2.tm.committed = c.tm.committed := by
  intro c1
  have h3 := (call_on c h op hd false).2.2 v hop rfl
  have hc1 : c1 = _ := congrArg Prod.snd h3
  refine ⟨by rw [h3], by rw [hc1], by rw [hc1]; rfl, by rw [hc1], ?_, ?_, ?_⟩
  · rw [call_failed c1 op (.inl (by rw [hc1])) (by rw [hc1])]
  · have := call_off (c1.step .abort) op (.inl (by rw [hc1]; rfl)) rfl true
    rw [this]
    show (op.fn c1.tm.committed).1 = _
    rw [hc1]; exact hop
  · have := call_off (c1.step .abort) op (.inl (by rw [hc1]; rfl)) rfl true
    rw [this]
    show c1.tm.committed = _
    rw [hc1]

/-! ### C37 -/

/-- Calls made inside a block. -/
def callEvents (ops : List (DbOp V × Bool)) : List (Event V) := ops.map fun p => .call p.1 p.2

/-- With autocommit off and no failed transaction, calls only change what the session sees. -/
theorem pending_calls (ops : List (DbOp V × Bool)) :
    ∀ c : Conn V, c.tm.autocommit = false → c.tm.failed = false →
    c.steps (callEvents ops) =
      { c with tm := { c.tm with work := replay c.tm.work (ops.map Prod.fst) } } := by
  induction ops with
  | nil => intro c _ _; rfl
  | cons p ops ih =>
    intro c h1 h2
    show ((c.call p.1 p.2).2).steps (callEvents ops) = _
    rw [call_off c p.1 (.inl h1) h2]
    exact ih { c with tm := { c.tm with work := effect c.tm.work p.1 } } h1 h2

/-- **C37.** A `with conn:` block with any calls inside (some of which may raise and be
caught): until it ends nothing changes on disk, so a crash inside shows the state before
the block; if it ends normally all its effects are stored together; if an exception leaves
it, or the commit fails, the disk is unchanged and the session is back at the disk state. -/
theorem connection_block_atomic (c : Conn V) (ops : List (DbOp V × Bool)) :
    let inside := c.enter.steps (callEvents ops)
    inside.tm.committed = c.tm.committed ∧ inside.tm.log = c.tm.log ∧
    (∀ a, (inside.step (.crash a)).tm.work = c.tm.committed) ∧
    inside.tm.work = replay c.tm.committed (ops.map Prod.fst) ∧
    ((inside.exit false true).1 = .ok () ∧
      (inside.exit false true).2.tm.committed = replay c.tm.committed (ops.map Prod.fst) ∧
      (inside.exit false true).2.tm.work = replay c.tm.committed (ops.map Prod.fst) ∧
      (inside.exit false true).2.tm.log = replay c.tm.committed (ops.map Prod.fst) :: c.tm.log) ∧
    (∀ ok, (inside.exit true ok).2.tm.committed = c.tm.committed ∧
      (inside.exit true ok).2.tm.work = c.tm.committed ∧ (inside.exit true ok).2.tm.log = c.tm.log) ∧
    ((∃ e, (inside.exit false false).1 = .error e) ∧
      (inside.exit false false).2.tm.committed = c.tm.committed ∧
      (inside.exit false false).2.tm.work = c.tm.committed) := by
  intro inside
  have h : inside = _ := pending_calls ops c.enter rfl rfl
  rw [h]
  exact ⟨rfl, rfl, fun _ => rfl, rfl, ⟨rfl, rfl, rfl, rfl⟩, fun _ => ⟨rfl, rfl, rfl⟩, ⟨_, rfl⟩, rfl, rfl⟩

example : let c := ((twoSession true).enter.steps (callEvents [(.create "z" 1, true), (.create "a" 5, true), (.delete "a", true)]))
    (c.exit false true).2.read "z" = .ok (some 1) ∧ (c.exit false true).2.read "a" = .ok none ∧
    (c.exit true true).2.read "z" = .ok none ∧ (c.exit true true).2.read "a" = .ok (some 1) := by
  decide +kernel

/-! ### C38 -/

/-- The bookkeeping a user would do: the calls that are on disk, the calls that are pending,
whether calls are committed one by one, whether a failed commit must be aborted first. -/
structure Ledger (V : Type) where
  stored : List (DbOp V) := []
  pending : List (DbOp V) := []
  auto : Bool := true
  broken : Bool := false

/-- The rules of the ledger, event by event (`c0` is the container at the start). -/
def Ledger.step (c0 : Container V) (l : Ledger V) : Event V → Ledger V
  | .call op ok =>
    if isWrite op && l.auto then
      if Returned (op.fn (replay c0 l.stored)).1 then
        if ok then { l with stored := l.stored ++ [op], pending := [], broken := false }
        else { l with pending := [], auto := false, broken := true }
      else { l with pending := [], broken := false }
    else if l.broken then l
    else { l with pending := l.pending ++ [op] }
  | .setAutocommit none => l
  | .setAutocommit (some b) => { l with auto := b }
  | .enter => { l with pending := [], auto := false, broken := false }
  | .exit true _ => { l with pending := [], auto := true, broken := false }
  | .exit false ok =>
    if l.broken then { l with auto := true }
    else if ok then { l with stored := l.stored ++ l.pending, pending := [], auto := true }
    else { l with pending := [], auto := true, broken := true }
  | .commit ok =>
    if l.broken then l
    else if ok then { l with stored := l.stored ++ l.pending, pending := [] }
    else { l with pending := [], broken := true }
  | .abort => { l with pending := [], broken := false }
  | .crash _ => { stored := l.stored }

/-- The ledger of a history. -/
def Ledger.steps (c0 : Container V) (l : Ledger V) : List (Event V) → Ledger V
  | [] => l
  | e :: es => (l.step c0 e).steps c0 es

/-- The session agrees with the ledger. -/
structure Agrees (c0 : Container V) (l : Ledger V) (c : Conn V) : Prop where
  committed : c.tm.committed = replay c0 l.stored
  work : c.tm.work = replay c0 (l.stored ++ l.pending)
  auto : c.tm.autocommit = l.auto
  broken : c.tm.failed = l.broken

theorem replay_append (c : Container V) (a b : List (DbOp V)) :
    replay c (a ++ b) = replay (replay c a) b := by unfold replay; rw [List.foldl_append]

theorem Agrees.step {c0 : Container V} {l : Ledger V} {c : Conn V} (h : Agrees c0 l c) (e : Event V) :
    Agrees c0 (l.step c0 e) (c.step e) := by
  obtain ⟨h1, h2, h3, h4⟩ := h
  cases e with
  | call op ok =>
    show Agrees c0 _ (c.call op ok).2
    by_cases hd : isWrite op = true ∧ c.tm.autocommit = true
    · obtain ⟨k1, k2, k3⟩ := call_on c hd.2 op hd.1 ok
      have hl : (isWrite op && l.auto) = true := by rw [hd.1, ← h3, hd.2]; rfl
      simp only [Ledger.step, hl, if_true, ← h1]
      rcases hf : (op.fn c.tm.committed).1 with e | v
      · rw [k1 e hf]
        refine ⟨h1, ?_, h3, rfl⟩
        simpa [Returned] using h1
      · cases ok with
        | true =>
          rw [k2 v hf rfl]
          have : effect c.tm.committed op = replay c0 (l.stored ++ [op]) := by
            rw [replay_append, ← h1]; rfl
          refine ⟨?_, ?_, h3, rfl⟩
          · simpa [Returned] using this
          · simpa [Returned] using this
        | false =>
          rw [k3 v hf rfl]
          refine ⟨h1, ?_, rfl, rfl⟩
          simpa [Returned] using h1
    · have hoff : c.tm.autocommit = false ∨ isWrite op = false := by
        rcases ha : c.tm.autocommit with _ | _
        · exact .inl rfl
        · rcases hb : isWrite op with _ | _
          · exact .inr rfl
          · exact absurd ⟨hb, ha⟩ hd
      have hl : (isWrite op && l.auto) = false := by
        rcases hoff with h | h
        · rw [← h3, h]; simp
        · rw [h]; rfl
      simp only [Ledger.step, hl, Bool.false_eq_true, if_false]
      cases hb : l.broken with
      | true =>
        rw [call_failed c op hoff (by rw [h4, hb])]
        simp only [if_true]
        exact ⟨h1, h2, h3, h4⟩
      | false =>
        rw [call_off c op hoff (by rw [h4, hb])]
        simp only [Bool.false_eq_true, if_false]
        refine ⟨h1, ?_, h3, h4.trans hb⟩
        show effect c.tm.work op = _
        rw [h2, ← List.append_assoc, replay_append _ (l.stored ++ l.pending)]; rfl
  | setAutocommit b =>
    cases b with
    | none => exact ⟨h1, h2, h3, h4⟩
    | some b => exact ⟨h1, h2, rfl, h4⟩
  | enter => exact ⟨h1, h1.trans (by simp [Ledger.step]), rfl, rfl⟩
  | exit raised ok =>
    cases raised with
    | true => exact ⟨h1, h1.trans (by simp [Ledger.step]), rfl, rfl⟩
    | false =>
      show Agrees c0 _ (c.exit false ok).2
      unfold Conn.exit Tm.exit Tm.commit
      simp only [Bool.false_eq_true, if_false, Ledger.step, h4]
      cases hb : l.broken with
      | true => simp only [if_true]; exact ⟨h1, h2, rfl, rfl⟩
      | false =>
        simp only [Bool.false_eq_true, if_false]
        cases ok with
        | true =>
          simp only [if_true]
          exact ⟨h2, by simpa using h2, rfl, rfl⟩
        | false =>
          simp only [Bool.false_eq_true, if_false]
          exact ⟨h1, by simpa using h1, rfl, rfl⟩
  | commit ok =>
    show Agrees c0 _ { c with tm := (c.tm.commit ok).2 }
    unfold Tm.commit
    simp only [Ledger.step, h4]
    cases hb : l.broken with
    | true => simp only [if_true]; exact ⟨h1, h2, h3, h4⟩
    | false =>
      simp only [Bool.false_eq_true, if_false]
      cases ok with
      | true => simp only [if_true]; exact ⟨h2, by simpa using h2, h3, rfl⟩
      | false =>
        simp only [Bool.false_eq_true, if_false]
        exact ⟨h1, by simpa using h1, h3, rfl⟩
  | abort => exact ⟨h1, h1.trans (by simp [Ledger.step]), h3, rfl⟩
  | crash a => exact ⟨h1, h1.trans (by simp [Ledger.step]), rfl, rfl⟩

/-- **C38.** After any history of calls, commits (succeeding or not), aborts, blocks, autocommit
switches and crashes, the disk holds exactly the effects of the calls that the ledger
counts as stored, and the session sees those plus the pending ones. -/
theorem connection_history (c0 : Container V) (a : Bool) (conn : Conn V)
    (h : Conn.init (some c0) a = .ok conn) (es : List (Event V)) :
    (conn.steps es).tm.committed = replay c0 (Ledger.steps c0 {} es).stored ∧
    (conn.steps es).tm.work =
      replay c0 ((Ledger.steps c0 {} es).stored ++ (Ledger.steps c0 {} es).pending) ∧
    (∀ a, ((conn.steps es).step (.crash a)).tm.work = replay c0 (Ledger.steps c0 {} es).stored) := by
  have key : ∀ (es : List (Event V)) (l : Ledger V) (c : Conn V), Agrees c0 l c →
      Agrees c0 (l.steps c0 es) (c.steps es) := by
    intro es
    induction es with
    | nil => intro l c h; exact h
    | cons e es ih => intro l c h; exact ih _ _ (h.step e)
  have h0 : Agrees c0 {} conn := by
    unfold Conn.init at h; injection h with h; subst h
    exact ⟨rfl, rfl, rfl, rfl⟩
  have hk := key es {} conn h0
  exact ⟨hk.committed, hk.work, fun _ => hk.committed⟩

/-- Non-vacuity: a history with everything in it. -/
example : let es : List (Event Nat) := [.call (.create "z" 1) true, .enter, .call (.delete "a") true,
      .exit true true, .setAutocommit (some false), .call (.update "b" 8) true, .commit true,
      .call (.create "y" 3) true, .crash true]
    (Ledger.steps (twoGroups 0 false) {} es).stored.length = 2 ∧
    ((twoSession true).steps es).read "b" = .ok (some 8) ∧ ((twoSession true).steps es).read "y" = .ok none ∧
    ((twoSession true).steps es).read "a" = .ok (some 1) := by decide +kernel

/-! ### C39, C40 -/

/-- **C39 (partial).** With autocommit off (and no failed transaction) calls stay pending: the
disk does not change, the session sees them, they are all stored by `commit` and all
dropped by `abort`. Missing: switching autocommit on (`connection_pending_lost`). -/
theorem connection_pending_partial (c : Conn V) (ops : List (DbOp V × Bool))
    (hf : c.tm.failed = false) :
    let c1 := ((c.setAutocommit (some false)).2).steps (callEvents ops)
    c1.tm.committed = c.tm.committed ∧ c1.tm.work = replay c.tm.work (ops.map Prod.fst) ∧
    (c1.step (.commit true)).tm.committed = replay c.tm.work (ops.map Prod.fst) ∧
    (c1.step .abort).tm.work = c.tm.committed ∧ (c1.step .abort).tm.committed = c.tm.committed := by
  intro c1
  have h : c1 = _ := pending_calls ops ((c.setAutocommit (some false)).2) rfl hf
  rw [h]
  refine ⟨rfl, rfl, ?_, rfl, rfl⟩
  show (Tm.commit _ true).2.committed = _
  unfold Tm.commit
  simp only [Conn.setAutocommit, hf, Bool.false_eq_true, if_false, if_true]

/-- **C39 is false**: after switching autocommit back on, the next autocommitted call that
returns stores its own effect only; whatever was pending is gone, on disk and in the
session. -/
theorem connection_pending_lost (c : Conn V) (op : DbOp V) (hd : isWrite op = true) (v : DbRet V)
    (h : (((c.setAutocommit (some true)).2).call op true).1 = .ok v) :
    (((c.setAutocommit (some true)).2).call op true).2.tm.committed = effect c.tm.committed op ∧
    (((c.setAutocommit (some true)).2).call op true).2.tm.work = effect c.tm.committed op := by
  have := (connection_autocommit_call ((c.setAutocommit (some true)).2) rfl op hd true).1 v h
  exact ⟨this.2.1, this.2.2.1.trans this.2.1⟩

/-- The lost write, concretely. -/
theorem connection_pending_counterexample :
    let c := (twoSession true).steps [.setAutocommit (some false), .call (.create "y" 1) true,
      .setAutocommit (some true)]
    c.read "y" = .ok (some 1) ∧ (c.call (.create "z" 2)).1 = .ok (.count (some 1)) ∧
    (c.call (.create "z" 2)).2.read "y" = .ok none := by decide +kernel

/-- **C40 is false**: a connection opened with `autocommit=False` reports False and still
commits every call by itself. -/
theorem connection_autocommit_option_counterexample (c0 : Container V) (conn : Conn V)
    (h : Conn.init (some c0) false = .ok conn) (op : DbOp V) (hd : isWrite op = true) (v : DbRet V)
    (hv : (conn.call op true).1 = .ok v) :
    conn.autocommit = false ∧ (conn.call op true).2.tm.committed = effect c0 op := by
  unfold Conn.init at h; injection h with h; subst h
  refine ⟨rfl, ?_⟩
  exact ((connection_autocommit_call _ rfl op hd true).1 v hv).2.1

/-- What a program does between blocks, and whole blocks; commits succeed. -/
inductive Segment (V : Type) where
  | call (op : DbOp V)
  | setAutocommit (value : Option Bool)
  | commit
  | abort
  | block (ops : List (DbOp V)) (raised : Bool)

/-- The events of a segment. -/
def Segment.events : Segment V → List (Event V)
  | .call op => [.call op true]
  | .setAutocommit b => [.setAutocommit b]
  | .commit => [.commit true]
  | .abort => [.abort]
  | .block ops raised => .enter :: (callEvents (ops.map fun op => (op, true)) ++ [.exit raised true])

theorem steps_append (a b : List (Event V)) : ∀ c : Conn V, c.steps (a ++ b) = (c.steps a).steps b := by
  induction a with
  | nil => intro c; rfl
  | cons e a ih => intro c; exact ih (c.step e)

/-- C40: the setter takes booleans, which the property then reports and the transaction manager follows; anything else raises TypeError and
changes nothing; stored and pending data are left alone either way. -/
theorem connection_set_autocommit (c : Conn V) :
    (∀ b, (c.setAutocommit (some b)).1 = .ok () ∧ (c.setAutocommit (some b)).2.autocommit = b ∧
      (c.setAutocommit (some b)).2.tm.autocommit = b ∧ (c.setAutocommit (some b)).2.tm.work = c.tm.work ∧
      (c.setAutocommit (some b)).2.tm.committed = c.tm.committed) ∧
    c.setAutocommit none = (.error .typeError, c) :=
  ⟨fun _ => ⟨rfl, rfl, rfl, rfl, rfl⟩, rfl⟩

/-- **C40 (partial: opened with the default, commits succeed).** Outside blocks
`conn.autocommit` tells whether calls are committed one by one, after any history of calls,
switches, commits, aborts and blocks. -/
theorem connection_autocommit_flag_partial (c0 : Container V) (conn : Conn V)
    (h : Conn.init (some c0) true = .ok conn) (segs : List (Segment V)) :
    (conn.steps (segs.flatMap Segment.events)).autocommit =
      (conn.steps (segs.flatMap Segment.events)).tm.autocommit := by
  have key : ∀ (segs : List (Segment V)) (c : Conn V), c.flag = c.tm.autocommit → c.tm.failed = false →
      (c.steps (segs.flatMap Segment.events)).flag = (c.steps (segs.flatMap Segment.events)).tm.autocommit := by
    intro segs
    induction segs with
    | nil => intro c h _; exact h
    | cons s segs ih =>
      intro c hc hf
      rw [List.flatMap_cons, steps_append]
      cases s with
      | call op =>
        show (((c.call op true).2).steps _).flag = _
        by_cases hd : isWrite op = true ∧ c.tm.autocommit = true
        · obtain ⟨k1, k2, _⟩ := call_on c hd.2 op hd.1 true
          rcases hr : (op.fn c.tm.committed).1 with e | v
          · have : c.steps (Segment.call op).events = (c.call op true).2 := rfl
            rw [this, k1 e hr]; exact ih _ hc rfl
          · have : c.steps (Segment.call op).events = (c.call op true).2 := rfl
            rw [this, k2 v hr rfl]; exact ih _ hc rfl
        · have hoff : c.tm.autocommit = false ∨ isWrite op = false := by
            rcases ha : c.tm.autocommit with _ | _
            · exact .inl rfl
            · rcases hb : isWrite op with _ | _
              · exact .inr rfl
              · exact absurd ⟨hb, ha⟩ hd
          have : c.steps (Segment.call op).events = (c.call op true).2 := rfl
          rw [this, call_off c op hoff hf]; exact ih _ hc hf
      | setAutocommit b =>
        cases b with
        | none => exact ih _ hc hf
        | some b => exact ih _ rfl hf
      | commit =>
        have : c.steps (Segment.commit (V := V)).events =
            { c with tm := { c.tm with committed := c.tm.work, log := c.tm.work :: c.tm.log } } := by
          show ({ c with tm := (c.tm.commit true).2 } : Conn V) = _
          unfold Tm.commit; simp [hf]
        rw [this]; exact ih _ hc hf
      | abort => exact ih _ hc rfl
      | block ops raised =>
        have : c.steps (Segment.block ops raised).events =
            ((c.enter.steps (callEvents (ops.map fun op => (op, true)))).exit raised true).2 := by
          show (c.enter).steps _ = _
          rw [steps_append]; rfl
        rw [this, pending_calls _ c.enter rfl rfl]
        cases raised with
        | true => exact ih _ rfl rfl
        | false => exact ih _ rfl rfl
  unfold Conn.init at h; injection h with h; subst h
  exact key segs _ rfl rfl

/-- C40, finding: a block turns autocommit on, whatever the user had set. -/
theorem connection_block_sets_autocommit (c : Conn V) (ops : List (DbOp V × Bool)) (raised : Bool) :
    ((c.enter.steps (callEvents ops)).exit raised true).2.autocommit = true ∧
    ((c.enter.steps (callEvents ops)).exit raised true).2.tm.autocommit = true := by
  rw [pending_calls ops c.enter rfl rfl]
  cases raised <;> exact ⟨rfl, rfl⟩

/-- **C74 (counterexample).** An assignment to `conn.strict` with autocommit on is undone by
the next call: it is never stored. -/
theorem connection_strict_lost (c : Conn V) (h : c.tm.autocommit = true) (hf : c.tm.failed = false)
    (b : Bool) (op : DbOp V) (hd : isWrite op = true) :
    let c1 := (c.call (.strict (some b)) true).2
    c1.tm.work.strict = ((c.tm.work.setStrict (some b)).2).strict ∧
    c1.tm.committed = c.tm.committed ∧
    (c1.call op true).2.tm.committed = ((c.call op true).2).tm.committed := by
  intro c1
  have h1 : c1 = _ := congrArg Prod.snd (call_off c (.strict (some b)) (.inr rfl) hf true)
  refine ⟨by rw [h1]; rfl, by rw [h1], ?_⟩
  have hc1 : c1.tm.autocommit = true := by rw [h1]; exact h
  have hcc : c1.tm.committed = c.tm.committed := by rw [h1]
  obtain ⟨k1, k2, _⟩ := call_on c1 hc1 op hd true
  obtain ⟨l1, l2, _⟩ := call_on c h op hd true
  rw [hcc] at k1 k2
  rcases hr : (op.fn c.tm.committed).1 with e | v
  · rw [k1 e hr, l1 e hr]; exact hcc
  · rw [k2 v hr rfl, l2 v hr rfl]

/-- The same, concretely: the container stored after the next call is not strict. -/
theorem connection_strict_counterexample :
    let c := (twoSession true).steps [.call (.strict (some true)) true]
    c.tm.work.strict = true ∧ (c.step (.call (.create "z" 2) true)).tm.work.strict = false ∧
    (c.step (.call (.create "z" 2) true)).tm.committed.strict = false := by decide +kernel

end Verif.Props
