import Verif.Spec.Program
import Verif.Props.DurableMap

/-!
# Programs with `with conn:` blocks (C136)
-/
namespace Verif.Props.Program
open Verif Verif.Storage Verif.Spec Verif.Db Verif.Props
variable {V : Type} [Truthy V]

/-- Container and map give the same answers to every read. -/
def ReadsAs (c : Container V) (m : Map V) : Prop := ∀ id, c.read id = .ok (m id)

/-- Connection and view hold the same: outside of blocks autocommit is on, inside it is off and the transaction is fine. -/
structure Rel (inside : Bool) (c : Conn V) (s : View V) : Prop where
  work : InUse c.tm.work s.mem
  committed : InUse c.tm.committed s.disk
  log : List.Forall₂ InUse c.tm.log s.log
  auto : c.tm.autocommit = !inside
  fine : inside = true → c.tm.failed = false

omit [Truthy V] in
theorem op_write (ch : Change V) : isWrite ch.op = true := by cases ch <;> rfl

omit [Truthy V] in
theorem op_change (m : Map V) (ch : Change V) : Map.apply m ch.op = m.change ch := by cases ch <;> rfl

omit [Truthy V] in
theorem op_lenient (ch : Change V) : ch.op ≠ .strict (some true) := by cases ch <;> simp [Change.op]

theorem exec_call_inside (hV : AllTruthy V) {c : Conn V} {s : View V} (h : Rel true c s) (ch : Change V) (ok : Bool) :
    raises (c.call ch.op ok).1 = (s.pend ch).1 ∧ Rel true (c.call ch.op ok).2 (s.pend ch).2 := by
  have ha : c.tm.autocommit = false := h.auto
  obtain ⟨f1, f2, f3⟩ := in_use_fn hV h.work ch.op (op_lenient ch)
  rw [call_off c ch.op (.inl ha) (h.fine rfl)]
  unfold View.pend
  rw [op_change] at f2 f3
  cases hm : s.mem.change ch with
  | none =>
    obtain ⟨e, he⟩ := f3.1 hm
    rw [hm] at f2
    exact ⟨by simp only [he]; rfl, ⟨f2, h.committed, h.log, h.auto, h.fine⟩⟩
  | some m =>
    have hn : ¬ ∃ e, (ch.op.fn c.tm.work).1 = .error e := fun he => by rw [f3.2 he] at hm; cases hm
    rw [hm] at f2
    refine ⟨?_, ⟨f2, h.committed, h.log, h.auto, h.fine⟩⟩
    cases hr : (ch.op.fn c.tm.work).1 with
    | error e => exact absurd ⟨e, hr⟩ hn
    | ok v => rfl

theorem exec_call_outside (hV : AllTruthy V) {c : Conn V} {s : View V} (h : Rel false c s) (ch : Change V) :
    raises (c.call ch.op true).1 = (s.store ch true).1 ∧ Rel false (c.call ch.op true).2 (s.store ch true).2 := by
  have ha : c.tm.autocommit = true := h.auto
  obtain ⟨k1, k2, -⟩ := call_on c ha ch.op (op_write ch) true
  obtain ⟨f1, f2, f3⟩ := in_use_fn hV h.committed ch.op (op_lenient ch)
  unfold View.store
  rw [op_change] at f2 f3
  cases hm : s.disk.change ch with
  | none =>
    obtain ⟨e, he⟩ := f3.1 hm
    rw [k1 e he]
    exact ⟨rfl, ⟨h.committed, h.committed, h.log, ha, by simp⟩⟩
  | some m =>
    have hn : ¬ ∃ e, (ch.op.fn c.tm.committed).1 = .error e := fun he => by rw [f3.2 he] at hm; cases hm
    rw [hm] at f2
    cases hr : (ch.op.fn c.tm.committed).1 with
    | error e => exact absurd ⟨e, hr⟩ hn
    | ok v =>
      rw [k2 v hr rfl]
      exact ⟨rfl, ⟨f2, f2, List.Forall₂.cons f2 h.log, ha, by simp⟩⟩

omit [Truthy V] in
theorem exec_exit {c : Conn V} {s : View V} (h : Rel true c s) (raised ok : Bool) :
    (raised || raises (c.exit raised ok).1) = (s.finish raised ok).1 ∧ Rel false (c.exit raised ok).2 (s.finish raised ok).2 := by
  have hf := h.fine rfl
  unfold Conn.exit Tm.exit View.finish
  cases raised with
  | true => exact ⟨rfl, ⟨h.committed, h.committed, h.log, rfl, by simp⟩⟩
  | false =>
    simp only [Bool.false_eq_true, if_false, Tm.commit, hf]
    cases ok with
    | true => exact ⟨rfl, ⟨h.work, h.work, List.Forall₂.cons h.work h.log, rfl, by simp⟩⟩
    | false => exact ⟨rfl, ⟨h.committed, h.committed, h.log, rfl, by simp⟩⟩

theorem flat_run (hV : AllTruthy V) (p : Prog V) : ∀ (inside : Bool) (c : Conn V) (s : View V), Flat p inside → Rel inside c s →
    (Conn.exec p c).1 = (ideal p inside s).1 ∧ Rel inside (Conn.exec p c).2 (ideal p inside s).2 := by
  induction p with
  | pass => intro inside c s _ h; exact ⟨rfl, h⟩
  | call ch ok =>
    intro inside c s hp h
    cases inside with
    | true => exact exec_call_inside hV h ch ok
    | false =>
      have : ok = true := by simpa [Flat] using hp
      subst this
      exact exec_call_outside hV h ch
  | read id next ih =>
    intro inside c s hp h
    have hr : c.read id = .ok (s.mem id) := (in_use_reads hV h.work id).1
    simp only [Conn.exec, hr, ideal]
    exact ih _ inside c s (hp _) h
  | raise => intro inside c s _ h; exact ⟨rfl, h⟩
  | seq p q ihp ihq =>
    intro inside c s hp h
    obtain ⟨h1, h2⟩ := ihp inside c s hp.1 h
    simp only [Conn.exec, ideal, h1]
    cases hb : (ideal p inside s).1 with
    | true => exact ⟨rfl, h2⟩
    | false => exact ihq inside _ _ hp.2 h2
  | attempt p q ihp ihq =>
    intro inside c s hp h
    obtain ⟨h1, h2⟩ := ihp inside c s hp.1 h
    simp only [Conn.exec, ideal, h1]
    cases hb : (ideal p inside s).1 with
    | true => exact ihq inside _ _ hp.2 h2
    | false => exact ⟨rfl, h2⟩
  | block p ok ih =>
    intro inside c s hp h
    obtain ⟨hi, hp⟩ := hp
    subst hi
    have he : Rel true c.enter { s with mem := s.disk } := ⟨h.committed, h.committed, h.log, rfl, fun _ => rfl⟩
    obtain ⟨h1, h2⟩ := ih true _ _ hp he
    have hx := exec_exit h2 (Conn.exec p c.enter).1 ok
    simp only [Conn.exec, ideal, Bool.false_eq_true, if_false]
    rw [← h1]
    exact hx

/-- **C136, without blocks inside blocks.** Every program (its course may depend on what it reads, on exceptions, caught or not) does on a
container in use what the specification says: the same exceptions leave it, and what is seen, what is stored, and every state that was
stored on the way (one of which a crash leaves) are the same. -/
theorem flat_program_partial (hV : AllTruthy V) {c0 : Container V} {m0 : Map V} (h0 : InUse c0 m0) (a : Bool) {conn : Conn V}
    (hc : Conn.init (some c0) a = .ok conn) (p : Prog V) (hp : Flat p false) :
    (Conn.exec p conn).1 = (ideal p false ⟨m0, m0, []⟩).1 ∧
    ReadsAs (Conn.exec p conn).2.tm.work (ideal p false ⟨m0, m0, []⟩).2.mem ∧
    ReadsAs (Conn.exec p conn).2.tm.committed (ideal p false ⟨m0, m0, []⟩).2.disk ∧
    List.Forall₂ ReadsAs (Conn.exec p conn).2.tm.log (ideal p false ⟨m0, m0, []⟩).2.log := by
  unfold Conn.init at hc
  injection hc with hc
  subst hc
  have hs : Rel (V := V) false { tm := { work := c0, committed := c0 }, flag := a } ⟨m0, m0, []⟩ := ⟨h0, h0, .nil, rfl, by simp⟩
  obtain ⟨h1, h2⟩ := flat_run hV p false _ _ hp hs
  exact ⟨h1, fun id => (in_use_reads hV h2.work id).1, fun id => (in_use_reads hV h2.committed id).1,
    h2.log.imp fun c m h id => (in_use_reads hV h id).1⟩

/-! ### Blocks inside blocks -/

/-- Nothing is pending outside of blocks. -/
structure Quiet (c : Conn V) : Prop where
  outside : c.tm.autocommit = true ∨ c.tm.failed = true
  clean : c.tm.work = c.tm.committed

/-- Pending changes only inside of a block that is fine. -/
def Calm (c : Conn V) : Prop := c.tm.autocommit = true ∨ c.tm.failed = true → c.tm.work = c.tm.committed

theorem call_calm {c : Conn V} (h : Calm c) (ch : Change V) (ok : Bool) :
    Calm (c.call ch.op ok).2 ∧ ((c.tm.autocommit = true ∨ c.tm.failed = true) →
      ((c.call ch.op ok).2.tm.autocommit = true ∨ (c.call ch.op ok).2.tm.failed = true)) := by
  cases ha : c.tm.autocommit with
  | true =>
    obtain ⟨k1, k2, k3⟩ := call_on c ha ch.op (op_write ch) ok
    cases hr : (ch.op.fn c.tm.committed).1 with
    | error e => rw [k1 e hr]; exact ⟨fun _ => rfl, fun _ => .inl ha⟩
    | ok v =>
      cases ok with
      | true => rw [k2 v hr rfl]; exact ⟨fun _ => rfl, fun _ => .inl ha⟩
      | false => rw [k3 v hr rfl]; exact ⟨fun _ => rfl, fun _ => .inr rfl⟩
  | false =>
    cases hf : c.tm.failed with
    | true => rw [call_failed c ch.op (.inl ha) hf]; exact ⟨h, fun _ => .inr hf⟩
    | false =>
      rw [call_off c ch.op (.inl ha) hf]
      refine ⟨fun hx => ?_, fun hx => ?_⟩
      · simp only [ha, hf] at hx; simp at hx
      · simp at hx

omit [Truthy V] in
theorem exit_quiet {c : Conn V} (h : Calm c) (raised ok : Bool) : Quiet (c.exit raised ok).2 := by
  unfold Conn.exit Tm.exit
  cases raised with
  | true => exact ⟨.inl rfl, rfl⟩
  | false =>
    simp only [Bool.false_eq_true, if_false, Tm.commit]
    cases hf : c.tm.failed with
    | true => simp only [if_true]; exact ⟨.inl rfl, h (.inr hf)⟩
    | false => cases ok <;> exact ⟨.inl rfl, rfl⟩

theorem exec_calm (p : Prog V) : ∀ c : Conn V, Calm c → Calm (Conn.exec p c).2 ∧
    ((c.tm.autocommit = true ∨ c.tm.failed = true) → ((Conn.exec p c).2.tm.autocommit = true ∨ (Conn.exec p c).2.tm.failed = true)) := by
  induction p with
  | pass => intro c h; exact ⟨h, id⟩
  | call ch ok => intro c h; exact call_calm h ch ok
  | read x next ih =>
    intro c h
    cases hr : c.read x with
    | error e => simp only [Conn.exec, hr]; exact ⟨h, id⟩
    | ok v => simp only [Conn.exec, hr]; exact ih v c h
  | raise => intro c h; exact ⟨h, id⟩
  | seq p q ihp ihq =>
    intro c h
    obtain ⟨h1, h2⟩ := ihp c h
    simp only [Conn.exec]
    split_ifs
    · exact ⟨h1, h2⟩
    · exact ⟨(ihq _ h1).1, fun hx => (ihq _ h1).2 (h2 hx)⟩
  | attempt p q ihp ihq =>
    intro c h
    obtain ⟨h1, h2⟩ := ihp c h
    simp only [Conn.exec]
    split_ifs
    · exact ⟨(ihq _ h1).1, fun hx => (ihq _ h1).2 (h2 hx)⟩
    · exact ⟨h1, h2⟩
  | block p ok ih =>
    intro c h
    have hq := exit_quiet (ih c.enter (fun hx => by simp [Conn.enter, Tm.enter, Tm.begin] at hx)).1 (Conn.exec p c.enter).1 ok
    simp only [Conn.exec]
    exact ⟨fun _ => hq.clean, fun _ => hq.outside⟩

omit [Truthy V] in
/-- Leaving a block when nothing is pending stores nothing new. -/
theorem exit_clean {c : Conn V} (h : c.tm.work = c.tm.committed) (raised ok : Bool) :
    (c.exit raised ok).2.tm.committed = c.tm.committed ∧ (c.exit raised ok).2.tm.work = c.tm.committed := by
  unfold Conn.exit Tm.exit
  cases raised with
  | true => exact ⟨rfl, rfl⟩
  | false =>
    simp only [Bool.false_eq_true, if_false, Tm.commit]
    cases hf : c.tm.failed with
    | true => exact ⟨rfl, h⟩
    | false => cases ok <;> simp [h]

theorem block_quiet (p : Prog V) (ok : Bool) (c : Conn V) : Quiet (Conn.exec (.block p ok) c).2 := by
  simp only [Conn.exec]
  exact exit_quiet (exec_calm p c.enter (fun hx => by simp [Conn.enter, Tm.enter, Tm.begin] at hx)).1 _ ok

/-- A program without blocks stores nothing while autocommit is off. -/
theorem noBlock_keeps (p : Prog V) : ∀ c : Conn V, NoBlock p → c.tm.autocommit = false →
    (Conn.exec p c).2.tm.committed = c.tm.committed ∧ (Conn.exec p c).2.tm.log = c.tm.log ∧ (Conn.exec p c).2.tm.autocommit = false ∧
      (Conn.exec p c).2.flag = c.flag := by
  induction p with
  | pass => intro c _ h; exact ⟨rfl, rfl, h, rfl⟩
  | call ch ok =>
    intro c _ h
    simp only [Conn.exec]
    cases hf : c.tm.failed with
    | true => rw [call_failed c ch.op (.inl h) hf]; exact ⟨rfl, rfl, h, rfl⟩
    | false => rw [call_off c ch.op (.inl h) hf]; exact ⟨rfl, rfl, h, rfl⟩
  | read x next ih =>
    intro c hp h
    cases hr : c.read x with
    | error e =>
      have hx : Conn.exec (.read x next) c = (true, c) := by simp only [Conn.exec, hr]
      rw [hx]; exact ⟨rfl, rfl, h, rfl⟩
    | ok v => simp only [Conn.exec, hr]; exact ih v c (hp v) h
  | raise => intro c _ h; exact ⟨rfl, rfl, h, rfl⟩
  | seq p q ihp ihq =>
    intro c hp h
    obtain ⟨a1, a2, a3, a4⟩ := ihp c hp.1 h
    simp only [Conn.exec]
    split_ifs
    · exact ⟨a1, a2, a3, a4⟩
    · obtain ⟨b1, b2, b3, b4⟩ := ihq _ hp.2 a3
      exact ⟨b1.trans a1, b2.trans a2, b3, b4.trans a4⟩
  | attempt p q ihp ihq =>
    intro c hp h
    obtain ⟨a1, a2, a3, a4⟩ := ihp c hp.1 h
    simp only [Conn.exec]
    split_ifs
    · obtain ⟨b1, b2, b3, b4⟩ := ihq _ hp.2 a3
      exact ⟨b1.trans a1, b2.trans a2, b3, b4.trans a4⟩
    · exact ⟨a1, a2, a3, a4⟩
  | block p ok ih => intro c hp _; exact hp.elim

theorem exec_seq (p q : Prog V) (c : Conn V) :
    Conn.exec (.seq p q) c = if (Conn.exec p c).1 then (true, (Conn.exec p c).2) else Conn.exec q (Conn.exec p c).2 := by
  rw [Conn.exec]

theorem exec_block (p : Prog V) (ok : Bool) (c : Conn V) : Conn.exec (.block p ok) c =
    ((Conn.exec p c.enter).1 || raises ((Conn.exec p c.enter).2.exit (Conn.exec p c.enter).1 ok).1,
      ((Conn.exec p c.enter).2.exit (Conn.exec p c.enter).1 ok).2) := by
  rw [Conn.exec]

/-- Entering a block again throws away what a program without blocks has done in it. -/
theorem enter_again (c : Conn V) (p : Prog V) (hp : NoBlock p) : (Conn.exec p c.enter).2.enter = c.enter := by
  obtain ⟨a1, a2, a3, a4⟩ := noBlock_keeps p c.enter hp rfl
  rcases hx : (Conn.exec p c.enter).2 with ⟨t, f⟩
  rw [hx] at a1 a2 a3 a4
  obtain ⟨w, k, l, u, b⟩ := t
  simp only [Conn.enter, Tm.enter, Tm.begin] at a1 a2 a3 a4 ⊢
  subst a1 a2 a4
  rfl

/-- **C136.** What a block has done so far is lost when a block inside it begins: for every program `p` without blocks that gets to its end,
and whatever the inner block `q` is and whether the storage accepts the commits, what is stored after `with conn: (p; with conn: q)` is what
is stored after `with conn: q`. -/
theorem inner_block_drops_outer (c : Conn V) (p q : Prog V) (okq ok : Bool) (hp : NoBlock p) (hpass : (Conn.exec p c.enter).1 = false) :
    (Conn.exec (.block (.seq p (.block q okq)) ok) c).2.tm.committed = (Conn.exec (.block q okq) c).2.tm.committed := by
  have hin : Conn.exec (.block q okq) (Conn.exec p c.enter).2 = Conn.exec (.block q okq) c := by
    rw [exec_block, exec_block, enter_again c p hp]
  have hseq : Conn.exec (.seq p (.block q okq)) c.enter = Conn.exec (.block q okq) c := by
    rw [← hin, exec_seq, hpass]
    rfl
  rw [exec_block, hseq]
  exact (exit_clean (block_quiet q okq c).clean _ ok).1

/-- **C136.** What a block inside a block has stored stays, also if the outer block ends with an exception or with a refused commit, and
what comes after the inner block in the outer one is stored as if it came after all blocks: for all programs `q` and `r` (with further
blocks or without), what is stored after `with conn: (with conn: q; r)` is what is stored after `with conn: q; r`. -/
theorem inner_block_ends_outer (c : Conn V) (q r : Prog V) (okq ok : Bool) :
    (Conn.exec (.block (.seq (.block q okq) r) ok) c).2.tm.committed = (Conn.exec (.seq (.block q okq) r) c).2.tm.committed := by
  have hin : Conn.exec (.block q okq) c.enter = Conn.exec (.block q okq) c := by
    rw [exec_block, exec_block]; rfl
  have hseq : Conn.exec (.seq (.block q okq) r) c.enter = Conn.exec (.seq (.block q okq) r) c := by
    rw [exec_seq, exec_seq, hin]
  rw [exec_block, hseq]
  have hq := block_quiet q okq c
  refine (exit_clean ?_ _ ok).1
  rw [exec_seq]
  split_ifs with hb
  · exact hq.clean
  · obtain ⟨h1, h2⟩ := exec_calm r _ (fun _ => hq.clean)
    exact h1 (h2 hq.outside)

/-- **C136.** The whole: a block whose body is `p` (without blocks, coming to its end), a block and `r` stores what the inner block and then
`r` store outside of all blocks; `p` is lost. -/
theorem nested_block_partial (c : Conn V) (p q r : Prog V) (okq ok : Bool) (hp : NoBlock p) (hpass : (Conn.exec p c.enter).1 = false) :
    (Conn.exec (.block (.seq p (.seq (.block q okq) r)) ok) c).2.tm.committed = (Conn.exec (.seq (.block q okq) r) c).2.tm.committed := by
  have hin : Conn.exec (.block q okq) (Conn.exec p c.enter).2 = Conn.exec (.block q okq) c.enter := by
    rw [exec_block, exec_block, enter_again c p hp]; rfl
  have hseq : Conn.exec (.seq p (.seq (.block q okq) r)) c.enter = Conn.exec (.seq (.block q okq) r) c.enter := by
    rw [exec_seq, hpass]
    show Conn.exec (.seq (.block q okq) r) (Conn.exec p c.enter).2 = _
    rw [exec_seq, exec_seq, hin]
  rw [← inner_block_ends_outer c q r okq ok, exec_block, exec_block, hseq]

/-- **C136: false of the code with blocks inside blocks.** For all ids and objects: what the outer block created before the inner one is not
stored (the specification: it is); what the inner block created stays stored although an exception leaves the outer block, and so does what
the outer block created after the inner one (the specification: nothing is stored). -/
theorem nested_block_counterexample (hV : AllTruthy V) {c0 : Container V} {m0 : Map V} (h0 : InUse c0 m0) (a : Bool) {conn : Conn V}
    (hc : Conn.init (some c0) a = .ok conn) (i j : String) (x y : V) (hi : m0 i = none) (hj : m0 j = none) (hij : i ≠ j) :
    (∃ p : Prog V, p = .block (.seq (.call (.create i x) true) (.block (.call (.create j y) true) true)) true ∧
      (Conn.exec p conn).2.tm.committed.read i = .ok none ∧ (ideal p false ⟨m0, m0, []⟩).2.disk i = some x) ∧
    (∃ p : Prog V, p = .block (.seq (.block (.call (.create j y) true) true) .raise) true ∧
      (Conn.exec p conn).2.tm.committed.read j = .ok (some y) ∧ (ideal p false ⟨m0, m0, []⟩).2.disk j = none) ∧
    (∃ p : Prog V, p = .block (.seq (.block .pass true) (.seq (.call (.create i x) true) .raise)) true ∧
      (Conn.exec p conn).2.tm.committed.read i = .ok (some x) ∧ (ideal p false ⟨m0, m0, []⟩).2.disk i = none) := by
  have hm : ∀ (k : String) (v : V), m0 k = none → m0.change (.create k v) = some (m0.set k v) := fun k v hk => if_pos hk
  have hsame : ∀ (m : Map V) (k : String) (v : V), m.set k v k = some v := fun m k v => by simp [Map.set]
  have hother : ∀ (m : Map V) (k l : String) (v : V), k ≠ l → m.set k v l = m l := fun m k l v h => by
    simp [Map.set, Ne.symm h]
  have hi' : (m0.set i x) j = none := by rw [hother _ _ _ _ hij, hj]
  have hm2 : Map.change (m0.set i x) (.create j y) = some ((m0.set i x).set j y) := if_pos hi'
  refine ⟨⟨_, rfl, ?_, ?_⟩, ⟨_, rfl, ?_, ?_⟩, ⟨_, rfl, ?_, ?_⟩⟩
  · have hpass : (Conn.exec (.call (.create i x) true) conn.enter).1 = false := by
      have hr : Rel (V := V) true conn.enter ⟨m0, m0, []⟩ := by
        unfold Conn.init at hc
        injection hc with hc
        subst hc
        exact ⟨h0, h0, .nil, rfl, fun _ => rfl⟩
      rw [(flat_run hV (.call (.create i x) true) true _ _ (.inl rfl) hr).1]
      simp [ideal, View.pend, hm i x hi]
    rw [inner_block_drops_outer conn (.call (.create i x) true) _ true true trivial hpass]
    obtain ⟨-, -, h3, -⟩ := flat_program_partial hV h0 a hc (.block (.call (.create j y) true) true) ⟨rfl, .inl rfl⟩
    rw [h3 i]
    simp [ideal, View.pend, View.finish, hm j y hj, hother _ _ _ _ (Ne.symm hij), hi]
  · simp [ideal, View.pend, View.finish, hm i x hi, hm2, hother _ _ _ _ (Ne.symm hij), hsame]
  · rw [inner_block_ends_outer]
    obtain ⟨-, -, h3, -⟩ := flat_program_partial hV h0 a hc (.seq (.block (.call (.create j y) true) true) .raise) ⟨⟨rfl, .inl rfl⟩, trivial⟩
    rw [h3 j]
    simp [ideal, View.pend, View.finish, hm j y hj, hsame]
  · simp [ideal, View.pend, View.finish, hm j y hj, hj]
  · rw [inner_block_ends_outer]
    obtain ⟨-, -, h3, -⟩ := flat_program_partial hV h0 a hc (.seq (.block .pass true) (.seq (.call (.create i x) true) .raise))
      ⟨⟨rfl, trivial⟩, .inr rfl, trivial⟩
    rw [h3 i]
    simp [ideal, View.store, View.finish, hm i x hi, hsame]
  · simp [ideal, View.pend, View.finish, hm i x hi, hi]

/-- Non-vacuity of `flat_program_partial`: a program that reads, decides, has a block left by an exception that it catches, and a block whose
commit the storage refuses; what the specification says of it. -/
example : Flat (.seq (.call (.create "a" 1) true) (.seq (.attempt (.block (.seq (.call (.update "a" 2) true) .raise) true) .pass)
      (.read "a" fun v => if v = some 1 then .block (.call (.create "b" 3) true) true else .raise)) : Prog Nat) false := by
  refine ⟨.inr rfl, ⟨⟨rfl, .inl rfl, trivial⟩, trivial⟩, fun v => ?_⟩
  by_cases h : v = some 1
  · simp only [if_pos h]; exact ⟨rfl, .inl rfl⟩
  · simp only [if_neg h]; trivial

example : (ideal (.seq (.call (.create "a" 1) true) (.seq (.attempt (.block (.seq (.call (.update "a" 2) true) .raise) true) .pass)
      (.read "a" fun v => if v = some 1 then .block (.call (.create "b" 3) true) true else .raise)) : Prog Nat) false
      ⟨Map.empty, Map.empty, []⟩).2.disk "b" = some 3 := by
  simp [ideal, View.store, View.pend, View.finish, Map.change, Map.empty, Map.set]

/-- Non-vacuity of `inner_block_drops_outer` and `nested_block_partial`: deletions in the outer block, whatever is stored. -/
example (c : Conn Nat) : NoBlock (.read "a" fun _ => .pass : Prog Nat) ∧ (Conn.exec (.attempt (.call (.delete "a") true) .pass) c.enter).1 = false := by
  refine ⟨fun _ => trivial, ?_⟩
  rw [Conn.exec]
  split_ifs <;> rfl

end Verif.Props.Program
