import Verif.Db.Crew
import Verif.Props.DurableMap
import Verif.Props.Pool

/-!
# Threads that share one connection (C130)
-/
namespace Verif.Props.Crew
open Verif Verif.Storage Verif.Spec Verif.Db Verif.Props
open Verif.Db (Crew)
variable {V : Type} [Truthy V]

/-! ### Specification -/

/-- Sessions of threads on one stored map, each with its own autocommit flag and its own failed transaction. -/
structure Team (V : Type) where
  disk : Map V
  auto : Nat → Bool := fun _ => true
  broken : Nat → Bool := fun _ => false

/-- The session of thread `t`, with nothing uncommitted. -/
def Team.session (w : Team V) (t : Nat) : Store V := ⟨w.disk, w.disk, w.auto t, w.broken t⟩

/-- A thread has its turn: what it does in its session. -/
def Team.turn (w : Team V) (p : Nat × List (Event V)) : Team V :=
  { disk := ((w.session p.1).steps p.2).disk
    auto := Function.update w.auto p.1 ((w.session p.1).steps p.2).auto
    broken := Function.update w.broken p.1 ((w.session p.1).steps p.2).broken }

/-- All turns. -/
def Team.turns (w : Team V) : List (Nat × List (Event V)) → Team V
  | [] => w
  | p :: ps => (w.turn p).turns ps

/-- A call of create, update or delete. -/
def IsCall : Event V → Prop
  | .call op _ => isWrite op = true
  | _ => False

/-- A turn: a single call, or a block with any calls in it. -/
inductive Turn : List (Event V) → Prop
  | one (op : DbOp V) (ok : Bool) (h : isWrite op = true) : Turn [.call op ok]
  | block (es : List (Event V)) (raised ok : Bool) (h : ∀ e ∈ es, IsCall e) : Turn (.enter :: es ++ [.exit raised ok])

/-- What a schedule of turns is as a schedule of events. -/
def flat (ps : List (Nat × List (Event V))) : List (Nat × Event V) := ps.flatMap fun p => p.2.map fun e => (p.1, e)

/-! ### Proofs -/

/-- The connection as thread `t` uses it. -/
def proj (s : Crew V) (t : Nat) : Conn V :=
  { tm := { work := s.work, committed := s.committed, autocommit := s.auto t, failed := s.failed t }, flag := s.flag }

/-- Only thread `t` has uncommitted changes, if any. -/
structure Own (s : Crew V) (t : Nat) : Prop where
  who : s.joined = none ∨ s.joined = some t
  clean : s.joined = none → s.work = s.committed

/-- Two connections are in the same state, whatever is in their logs. -/
def Alike (c c' : Conn V) : Prop :=
  c.tm.work = c'.tm.work ∧ c.tm.committed = c'.tm.committed ∧ c.tm.autocommit = c'.tm.autocommit ∧ c.tm.failed = c'.tm.failed

omit [Truthy V] in
theorem dropped_own {s : Crew V} {t : Nat} (h : Own s t) : s.dropped t = { s with work := s.committed, joined := none } := by
  unfold Crew.dropped
  rcases h.who with hj | hj
  · rw [if_neg (by rw [hj]; simp)]
    have := h.clean hj
    cases s
    simp_all
  · rw [if_pos hj]

omit [Truthy V] in
theorem written_own {s : Crew V} {t : Nat} (h : Own s t) : s.written t = { s with committed := s.work, joined := none } := by
  unfold Crew.written
  rcases h.who with hj | hj
  · rw [if_neg (by rw [hj]; simp)]
    have := h.clean hj
    cases s
    simp_all
  · rw [if_pos hj]

omit [Truthy V] in
theorem abort_own {s : Crew V} {t : Nat} (h : Own s t) :
    s.abort t = { s with work := s.committed, joined := none, failed := Function.update s.failed t false } := by
  unfold Crew.abort; rw [dropped_own h]

omit [Truthy V] in
theorem commit_own {s : Crew V} {t : Nat} (h : Own s t) (ok : Bool) :
    s.commit t ok = if s.failed t then (.error .transactionFailed, s)
      else if ok then (.ok (), { s with committed := s.work, joined := none })
      else (.error .storageError, { s with work := s.committed, joined := none, failed := Function.update s.failed t true }) := by
  unfold Crew.commit; rw [dropped_own h, written_own h]

/-- Only what belongs to thread `t` (or to the connection) has changed. -/
def Others (s s' : Crew V) (t : Nat) : Prop := ∀ u, u ≠ t → s'.auto u = s.auto u ∧ s'.failed u = s.failed u

/-- Everything about one step of a thread: the state is that of a connection used by it alone. -/
structure Like (s' : Crew V) (t : Nat) (c' : Conn V) (s : Crew V) : Prop where
  alike : Alike (proj s' t) c'
  own : Own s' t
  others : Others s s' t

omit [Truthy V] in
theorem own_none {s : Crew V} {t : Nat} (hj : s.joined = none) (hw : s.work = s.committed) : Own s t := ⟨.inl hj, fun _ => hw⟩

omit [Truthy V] in
theorem like_abort {s : Crew V} {t : Nat} (h : Own s t) : Like (s.abort t) t { proj s t with tm := (proj s t).tm.abort } s := by
  rw [abort_own h]
  refine ⟨⟨rfl, rfl, rfl, ?_⟩, own_none rfl rfl, fun u hu => ⟨rfl, ?_⟩⟩
  · exact Function.update_self ..
  · exact Function.update_of_ne hu ..

omit [Truthy V] in
theorem like_enter {s : Crew V} {t : Nat} (h : Own s t) : Like (s.enter t) t (proj s t).enter s ∧ (s.enter t).joined = none := by
  unfold Crew.enter
  rw [abort_own h]
  refine ⟨⟨⟨rfl, rfl, ?_, ?_⟩, own_none rfl rfl, fun u hu => ⟨?_, ?_⟩⟩, rfl⟩
  · exact Function.update_self ..
  · exact Function.update_self ..
  · exact Function.update_of_ne hu ..
  · exact Function.update_of_ne hu ..

omit [Truthy V] in
theorem like_commit {s : Crew V} {t : Nat} (h : Own s t) (ok : Bool) :
    Like (s.commit t ok).2 t { proj s t with tm := ((proj s t).tm.commit ok).2 } s ∧ (s.commit t ok).1 = ((proj s t).tm.commit ok).1 := by
  rw [commit_own h]
  unfold Tm.commit
  show Like (if s.failed t = true then _ else _ : Outcome Unit × Crew V).2 t { proj s t with tm := (if s.failed t = true then _ else _ : Outcome Unit × Tm (Container V)).2 } s ∧
    (if s.failed t = true then _ else _ : Outcome Unit × Crew V).1 = (if s.failed t = true then _ else _ : Outcome Unit × Tm (Container V)).1
  by_cases hf : s.failed t = true
  · rw [if_pos hf, if_pos hf]
    exact ⟨⟨⟨rfl, rfl, rfl, rfl⟩, h, fun u _ => ⟨rfl, rfl⟩⟩, rfl⟩
  · rw [if_neg hf, if_neg hf]
    cases ok with
    | true => exact ⟨⟨⟨rfl, rfl, rfl, rfl⟩, own_none rfl rfl, fun u _ => ⟨rfl, rfl⟩⟩, rfl⟩
    | false =>
      refine ⟨⟨⟨rfl, rfl, rfl, ?_⟩, own_none rfl rfl, fun u hu => ⟨rfl, ?_⟩⟩, rfl⟩
      · exact Function.update_self ..
      · exact Function.update_of_ne hu ..

omit [Truthy V] in
theorem like_leave {s : Crew V} {t : Nat} (h : Own s t) (raised ok : Bool) :
    Like (s.leave t raised ok).2 t { proj s t with tm := ((proj s t).tm.exit raised ok).2 } s ∧
    (s.leave t raised ok).1 = ((proj s t).tm.exit raised ok).1 := by
  unfold Crew.leave Tm.exit
  cases raised with
  | true =>
    simp only [if_true]
    rw [abort_own h]
    refine ⟨⟨⟨rfl, rfl, ?_, ?_⟩, own_none rfl rfl, fun u hu => ⟨?_, ?_⟩⟩, trivial⟩
    · exact Function.update_self ..
    · exact Function.update_self ..
    · exact Function.update_of_ne hu ..
    · exact Function.update_of_ne hu ..
  | false =>
    simp only [Bool.false_eq_true, if_false]
    obtain ⟨k1, k2⟩ := like_commit h ok
    rcases hc : s.commit t ok with ⟨r, s'⟩
    rcases hd : (proj s t).tm.commit ok with ⟨r', t'⟩
    rw [hc, hd] at k1 k2
    simp only at k1 k2
    subst k2
    cases r with
    | error e => exact ⟨k1, rfl⟩
    | ok u =>
      obtain ⟨⟨a1, a2, a3, a4⟩, k, o⟩ := k1
      refine ⟨⟨⟨a1, a2, ?_, a4⟩, ⟨k.who, k.clean⟩, fun u hu => ⟨?_, (o u hu).2⟩⟩, rfl⟩
      · exact Function.update_self ..
      · exact (Function.update_of_ne hu ..).trans (o u hu).1

theorem like_body {s : Crew V} {t : Nat} (h : Own s t) (hf : s.joined = some t → s.failed t = false) (op : DbOp V) :
    Like (s.body t op).2 t { proj s t with tm := ((proj s t).tm.plain op.fn).2 } s ∧ (s.body t op).1 = ((proj s t).tm.plain op.fn).1 := by
  unfold Crew.body Tm.plain
  show Like (if _ then _ else _ : Outcome (DbRet V) × Crew V).2 t { proj s t with tm := (if s.failed t = true then _ else _ : Outcome (DbRet V) × Tm (Container V)).2 } s ∧
    (if _ then _ else _ : Outcome (DbRet V) × Crew V).1 = (if s.failed t = true then _ else _ : Outcome (DbRet V) × Tm (Container V)).1
  by_cases hx : s.failed t = true
  · have hj : s.joined = none := by
      rcases h.who with hj | hj
      · exact hj
      · rw [hf hj] at hx; cases hx
    rw [if_pos hx, if_pos ⟨hj, hx⟩]
    exact ⟨⟨⟨rfl, rfl, rfl, rfl⟩, h, fun u _ => ⟨rfl, rfl⟩⟩, rfl⟩
  · rw [if_neg hx, if_neg fun hh => hx hh.2]
    refine ⟨⟨⟨rfl, rfl, rfl, rfl⟩, ⟨?_, ?_⟩, fun u _ => ⟨rfl, rfl⟩⟩, rfl⟩
    · show (if _ then some t else s.joined) = none ∨ (if _ then some t else s.joined) = some t
      split_ifs
      · exact .inr rfl
      · exact h.who
    · intro hn
      show (op.fn s.work).2 = s.committed
      have hn : (if s.joined = none ∧ Pool.touched op s.work (op.fn s.work).1 = true then some t else s.joined) = none := hn
      split_ifs at hn with hc
      have ht : Pool.touched op s.work (op.fn s.work).1 = false := by
        by_contra hne
        exact hc ⟨hn, by simpa using hne⟩
      rw [untouched_same op s.work ht]
      exact h.clean hn

/-- The state between the events of thread `t`, when no other thread has uncommitted changes. -/
structure Mine (s : Crew V) (t : Nat) : Prop where
  own : Own s t
  sound : s.joined = some t → s.failed t = false

omit [Truthy V] in
theorem alike_trans {a b c : Conn V} (h : Alike a b) (h' : Alike b c) : Alike a c :=
  ⟨h.1.trans h'.1, h.2.1.trans h'.2.1, h.2.2.1.trans h'.2.2.1, h.2.2.2.trans h'.2.2.2⟩

theorem alike_plain {c c' : Conn V} (h : Alike c c') (op : DbOp V) :
    (c.tm.plain op.fn).1 = (c'.tm.plain op.fn).1 ∧ Alike { c with tm := (c.tm.plain op.fn).2 } { c' with tm := (c'.tm.plain op.fn).2 } := by
  obtain ⟨h1, h2, h3, h4⟩ := h
  unfold Tm.plain
  rw [h4, h1]
  by_cases hf : c'.tm.failed = true
  · rw [if_pos hf, if_pos hf]; exact ⟨rfl, h1, h2, h3, h4⟩
  · rw [if_neg hf, if_neg hf]; exact ⟨rfl, rfl, h2, h3, rfl⟩

omit [Truthy V] in
theorem alike_exit {c c' : Conn V} (h : Alike c c') (raised ok : Bool) :
    (c.tm.exit raised ok).1 = (c'.tm.exit raised ok).1 ∧ Alike { c with tm := (c.tm.exit raised ok).2 } { c' with tm := (c'.tm.exit raised ok).2 } := by
  obtain ⟨h1, h2, h3, h4⟩ := h
  unfold Tm.exit Tm.commit Tm.abort
  cases raised with
  | true =>
    simp only [if_true]
    exact ⟨trivial, h2, h2, rfl, rfl⟩
  | false =>
    simp only [Bool.false_eq_true, if_false]
    rw [h4]
    cases hf : c'.tm.failed <;> cases ok <;> simp only [Bool.false_eq_true, if_true, if_false]
    · exact ⟨trivial, h2, h2, h3, rfl⟩
    · exact ⟨trivial, h1, h1, rfl, rfl⟩
    · exact ⟨trivial, h1, h2, h3, h4⟩
    · exact ⟨trivial, h1, h2, h3, h4⟩

omit [Truthy V] in
/-- After the end of a transaction of thread `t` nothing is uncommitted. -/
theorem leave_joined {s : Crew V} {t : Nat} (h : Mine s t) (raised ok : Bool) : (s.leave t raised ok).2.joined = none := by
  unfold Crew.leave
  cases raised with
  | true => simp only [if_true]; rw [abort_own h.own]
  | false =>
    simp only [Bool.false_eq_true, if_false]
    rw [commit_own h.own]
    by_cases hf : s.failed t = true
    · rw [if_pos hf]
      rcases h.own.who with hj | hj
      · exact hj
      · rw [h.sound hj] at hf; cases hf
    · rw [if_neg hf]
      cases ok <;> rfl

omit [Truthy V] in
theorem mine_none {s : Crew V} {t : Nat} (h : Own s t) (hj : s.joined = none) : Mine s t := ⟨h, fun hh => by rw [hj] at hh; cases hh⟩

theorem mine_body {s : Crew V} {t : Nat} (h : Mine s t) (op : DbOp V) : Mine (s.body t op).2 t := by
  refine ⟨(like_body h.own h.sound op).1.own, ?_⟩
  unfold Crew.body
  by_cases hc : s.joined = none ∧ s.failed t = true
  · rw [if_pos hc]; exact h.sound
  · rw [if_neg hc]
    intro _
    show s.failed t = false
    rcases h.own.who with hj | hj
    · by_contra hne; exact hc ⟨hj, by simpa using hne⟩
    · exact h.sound hj

/-- A call. -/
theorem like_call {s : Crew V} {t : Nat} (h : Mine s t) (op : DbOp V) (ok : Bool) :
    Like (s.call t op ok).2 t ((proj s t).call op ok).2 s ∧ (s.call t op ok).1 = ((proj s t).call op ok).1 ∧
    (isWrite op = true → s.auto t = true → (s.call t op ok).2.joined = none) ∧ Mine (s.call t op ok).2 t := by
  have hdec : op.decorated = isWrite op := by cases op <;> rfl
  unfold Crew.call Conn.call
  rw [hdec]
  by_cases hw : isWrite op = true
  · rw [if_pos hw]
    unfold Tm.autocommitted
    by_cases ha : s.auto t = true
    · rw [if_pos ⟨hw, ha⟩]
      have ha' : (proj s t).tm.autocommit = true := ha
      rw [if_pos ha']
      obtain ⟨k1, k2⟩ := like_enter h.own
      have hm := mine_none k1.own k2
      obtain ⟨b1, b2⟩ := like_body hm.own hm.sound op
      have hmb := mine_body hm op
      obtain ⟨p1, p2⟩ := alike_plain k1.alike op
      have hb := alike_trans b1.alike p2
      have hr : ((s.enter t).body t op).1 = ((proj s t).tm.enter.plain op.fn).1 := b2.trans p1
      rcases hpl : (proj s t).tm.enter.plain op.fn with ⟨r, tm'⟩
      have hpl' : (proj s t).enter.tm.plain op.fn = (r, tm') := hpl
      rw [hpl'] at hb
      rw [hpl] at hr
      rw [hr]
      unfold Crew.finish
      have hothers : ∀ {x : Crew V}, Others ((s.enter t).body t op).2 x t → Others s x t := fun {x} hx u hu =>
        ⟨(hx u hu).1.trans ((b1.others u hu).1.trans (k1.others u hu).1), (hx u hu).2.trans ((b1.others u hu).2.trans (k1.others u hu).2)⟩
      cases r with
      | error e =>
        simp only
        obtain ⟨l1, l2⟩ := like_leave hmb.own true ok
        have hj := leave_joined hmb true ok
        obtain ⟨x1, x2⟩ := alike_exit hb true ok
        exact ⟨⟨alike_trans l1.alike x2, l1.own, hothers l1.others⟩, trivial, fun _ _ => hj, mine_none l1.own hj⟩
      | ok v =>
        simp only
        obtain ⟨l1, l2⟩ := like_leave hmb.own false ok
        have hj := leave_joined hmb false ok
        obtain ⟨x1, x2⟩ := alike_exit hb false ok
        have hrr := l2.trans x1
        rcases hle : ((s.enter t).body t op).2.leave t false ok with ⟨r2, s2⟩
        rcases hex : tm'.exit false ok with ⟨r3, tm3⟩
        have hex' : (Conn.mk tm' (proj s t).enter.flag).tm.exit false ok = (r3, tm3) := hex
        rw [hle] at l1 hj hrr
        rw [hex'] at x2 hrr
        simp only at hrr
        subst hrr
        have := mine_none l1.own hj
        cases r2 with
        | error e => exact ⟨⟨alike_trans l1.alike x2, l1.own, hothers l1.others⟩, rfl, fun _ _ => hj, this⟩
        | ok u => exact ⟨⟨alike_trans l1.alike x2, l1.own, hothers l1.others⟩, rfl, fun _ _ => hj, this⟩
    · have ha' : ¬ (proj s t).tm.autocommit = true := ha
      rw [if_neg fun hh => ha hh.2, if_neg ha']
      obtain ⟨b1, b2⟩ := like_body h.own h.sound op
      exact ⟨b1, b2, fun _ hh => absurd hh ha, mine_body h op⟩
  · rw [if_neg hw, if_neg fun hh => hw hh.1]
    obtain ⟨b1, b2⟩ := like_body h.own h.sound op
    exact ⟨b1, b2, fun hh => absurd hh hw, mine_body h op⟩

omit [Truthy V] in
theorem like_exit {s : Crew V} {t : Nat} (h : Mine s t) (raised ok : Bool) :
    Like (s.exit t raised ok).2 t ((proj s t).exit raised ok).2 s ∧ (s.exit t raised ok).2.joined = none := by
  have hm : Mine (s.setAutocommit t (some true)) t := ⟨⟨h.own.who, h.own.clean⟩, h.sound⟩
  obtain ⟨l1, -⟩ := like_leave hm.own raised ok
  have hp : (proj (s.setAutocommit t (some true)) t).tm = { (proj s t).tm with autocommit := true } := by
    show Tm.mk s.work s.committed [] (Function.update s.auto t true t) (s.failed t) = _
    rw [Function.update_self]; rfl
  refine ⟨⟨?_, l1.own, fun u hu => ⟨(l1.others u hu).1.trans ?_, (l1.others u hu).2⟩⟩, leave_joined hm raised ok⟩
  · have := l1.alike
    rw [hp] at this
    exact this
  · exact Function.update_of_ne hu ..

omit [Truthy V] in
theorem same_alike {c c' : Conn V} {st : Store V} (h : Same c' st) (ha : Alike c c') : Same c st := by
  obtain ⟨a1, a2, a3, a4⟩ := ha
  exact ⟨a1 ▸ h.work, a2 ▸ h.committed, a3.trans h.auto, a4.trans h.broken⟩

/-- All threads are at rest. -/
structure Rest (s : Crew V) (w : Team V) : Prop where
  none : s.joined = none
  clean : s.work = s.committed
  holds : InUse s.committed w.disk
  auto : ∀ t, s.auto t = w.auto t
  failed : ∀ t, s.failed t = w.broken t
  able : ∀ t, w.auto t = true ∨ w.broken t = true

/-- Thread `t` is in its turn. -/
structure Mid (s : Crew V) (w : Team V) (t : Nat) (st : Store V) : Prop where
  mine : Mine s t
  same : Same (proj s t) st
  rest : ∀ u, u ≠ t → s.auto u = w.auto u ∧ s.failed u = w.broken u

omit [Truthy V] in
theorem Rest.mid {s : Crew V} {w : Team V} (h : Rest s w) (t : Nat) : Mid s w t (w.session t) := by
  refine ⟨mine_none (own_none h.none h.clean) h.none, ⟨?_, h.holds, h.auto t, h.failed t⟩, fun u _ => ⟨h.auto u, h.failed u⟩⟩
  show InUse s.work w.disk
  rw [h.clean]; exact h.holds

theorem mid_call (hV : AllTruthy V) {s : Crew V} {w : Team V} {t : Nat} {st : Store V} (h : Mid s w t st) (op : DbOp V) (hop : isWrite op = true) (ok : Bool) :
    Mid (s.call t op ok).2 w t (st.call op ok) ∧ st.Answers op ok (s.call t op ok).1 ∧
    (st.auto = true → (s.call t op ok).2.joined = none) := by
  obtain ⟨l1, l2, l3, l4⟩ := like_call h.mine op ok
  have hne : op ≠ .strict (some true) := fun e => by rw [e] at hop; cases hop
  obtain ⟨k1, k2⟩ := h.same.call hV op hne ok
  refine ⟨⟨l4, same_alike k1 l1.alike, fun u hu => ?_⟩, by rw [l2]; exact k2, fun ha => l3 hop (h.same.auto.trans ha)⟩
  exact ⟨(l1.others u hu).1.trans (h.rest u hu).1, (l1.others u hu).2.trans (h.rest u hu).2⟩

omit [Truthy V] in
/-- The end of a turn: everything is committed or undone. -/
theorem Mid.rest' {s : Crew V} {w : Team V} {t : Nat} {st : Store V} (h : Mid s w t st) (hj : s.joined = none) (hw : ∀ u, w.auto u = true ∨ w.broken u = true)
    (ha : st.auto = true ∨ st.broken = true) :
    Rest s { disk := st.disk, auto := Function.update w.auto t st.auto, broken := Function.update w.broken t st.broken } := by
  refine ⟨hj, h.mine.own.clean hj, h.same.committed, fun u => ?_, fun u => ?_, fun u => ?_⟩
  · by_cases hu : u = t
    · subst hu
      show s.auto u = Function.update w.auto u st.auto u
      rw [Function.update_self]; exact h.same.auto
    · exact (h.rest u hu).1.trans (Function.update_of_ne hu ..).symm
  · by_cases hu : u = t
    · subst hu
      show s.failed u = Function.update w.broken u st.broken u
      rw [Function.update_self]; exact h.same.broken
    · exact (h.rest u hu).2.trans (Function.update_of_ne hu ..).symm
  · show Function.update w.auto t st.auto u = true ∨ Function.update w.broken t st.broken u = true
    by_cases hu : u = t
    · subst hu; rw [Function.update_self, Function.update_self]; exact ha
    · rw [Function.update_of_ne hu, Function.update_of_ne hu]; exact hw u

theorem crew_steps_append (s : Crew V) (a b : List (Nat × Event V)) : s.steps (a ++ b) = (s.steps a).steps b := by
  induction a generalizing s with
  | nil => rfl
  | cons p a ih => exact ih _

omit [Truthy V] in
theorem store_steps_append (s : Store V) (a b : List (Event V)) : s.steps (a ++ b) = (s.steps a).steps b := by
  induction a generalizing s with
  | nil => rfl
  | cons e a ih => exact ih _

theorem mid_enter (hV : AllTruthy V) {s : Crew V} {w : Team V} {t : Nat} {st : Store V} (h : Mid s w t st) : Mid (s.enter t) w t (st.step .enter) := by
  obtain ⟨k1, k2⟩ := like_enter h.mine.own
  refine ⟨mine_none k1.own k2, same_alike (h.same.step hV .enter trivial) k1.alike, fun u hu => ?_⟩
  exact ⟨(k1.others u hu).1.trans (h.rest u hu).1, (k1.others u hu).2.trans (h.rest u hu).2⟩

theorem mid_calls (hV : AllTruthy V) {w : Team V} {t : Nat} (es : List (Event V)) (he : ∀ e ∈ es, IsCall e) : ∀ {s : Crew V} {st : Store V}, Mid s w t st →
    Mid (s.steps (es.map fun e => (t, e))) w t (st.steps es) := by
  induction es with
  | nil => intro s st h; exact h
  | cons e es ih =>
    intro s st h
    have hc := he e List.mem_cons_self
    cases e with
    | call op ok => exact ih (fun x hx => he x (List.mem_cons_of_mem _ hx)) (mid_call hV h op hc ok).1
    | _ => exact absurd hc (by simp [IsCall])

theorem mid_exit (hV : AllTruthy V) {s : Crew V} {w : Team V} {t : Nat} {st : Store V} (h : Mid s w t st) (raised ok : Bool) :
    Mid (s.exit t raised ok).2 w t (st.step (.exit raised ok)) ∧ (s.exit t raised ok).2.joined = none := by
  obtain ⟨k1, k2⟩ := like_exit h.mine raised ok
  refine ⟨⟨mine_none k1.own k2, same_alike (h.same.step hV (.exit raised ok) trivial) k1.alike, fun u hu => ?_⟩, k2⟩
  exact ⟨(k1.others u hu).1.trans (h.rest u hu).1, (k1.others u hu).2.trans (h.rest u hu).2⟩

omit [Truthy V] in
theorem store_call_able {st : Store V} (h : st.auto = true ∨ st.broken = true) (op : DbOp V) (hop : isWrite op = true) (ok : Bool) :
    ((st.call op ok).auto = true ∨ (st.call op ok).broken = true) := by
  unfold Store.call
  by_cases ha : st.auto = true
  · rw [if_pos ⟨ha, hop⟩]
    split_ifs
    · exact .inl ha
    · exact .inl ha
    · exact .inr rfl
  · rw [if_neg fun hh => ha hh.1]
    have hb := h.resolve_left ha
    rw [if_pos hb]
    exact h

theorem rest_turn (hV : AllTruthy V) {s : Crew V} {w : Team V} (h : Rest s w) (t : Nat) (es : List (Event V)) (ht : Turn es) :
    Rest (s.steps (es.map fun e => (t, e))) (w.turn (t, es)) := by
  cases ht with
  | one op ok hop =>
    obtain ⟨m1, -, m3⟩ := mid_call hV (h.mid t) op hop ok
    refine m1.rest' ?_ h.able (store_call_able (h.able t) op hop ok)
    by_cases ha : w.auto t = true
    · exact m3 ha
    · have hb := (h.able t).resolve_left ha
      have hcall : s.call t op ok = (.error .transactionFailed, s) := by
        unfold Crew.call
        rw [if_neg fun hh => ha ((h.auto t).symm.trans hh.2)]
        unfold Crew.body
        rw [if_pos ⟨h.none, (h.failed t).trans hb⟩]
      rw [hcall]; exact h.none
  | block es raised ok hes =>
    have m1 := mid_calls hV es hes (mid_enter hV (h.mid t))
    obtain ⟨m2, hj⟩ := mid_exit hV m1 raised ok
    have hs : s.steps ((Event.enter :: es ++ [Event.exit raised ok]).map fun e => (t, e)) = (((s.enter t).steps (es.map fun e => (t, e))).exit t raised ok).2 := by
      rw [List.cons_append, List.map_cons, List.map_append]
      show (s.enter t).steps (_ ++ _) = _
      rw [crew_steps_append]; rfl
    have hst : (w.session t).steps (Event.enter :: es ++ [Event.exit raised ok]) = (((w.session t).step .enter).steps es).step (.exit raised ok) := by
      rw [List.cons_append]
      show ((w.session t).step .enter).steps (_ ++ _) = _
      rw [store_steps_append]; rfl
    rw [hs]
    have hr := m2.rest' hj h.able (.inl rfl)
    rw [← hst] at hr
    exact hr

theorem rest_turns (hV : AllTruthy V) (ps : List (Nat × List (Event V))) : ∀ {s : Crew V} {w : Team V}, Rest s w → (∀ p ∈ ps, Turn p.2) →
    Rest (s.steps (flat ps)) (w.turns ps) := by
  induction ps with
  | nil => intro s w h _; exact h
  | cons p ps ih =>
    intro s w h hp
    have : flat (p :: ps) = (p.2.map fun e => (p.1, e)) ++ flat ps := List.flatMap_cons ..
    rw [this, crew_steps_append]
    exact ih (rest_turn hV h p.1 p.2 (hp p List.mem_cons_self)) fun q hq => hp q (List.mem_cons_of_mem _ hq)

omit [Truthy V] in
theorem rest_opened {c0 : Container V} {m0 : Map V} (h0 : InUse c0 m0) (f : Bool) : Rest (Crew.opened c0 f) ⟨m0, fun _ => true, fun _ => false⟩ :=
  ⟨rfl, rfl, h0, fun _ => rfl, fun _ => rfl, fun _ => .inl rfl⟩

/-- **C130 (partial: threads that take turns).** Threads share one connection and take turns: a turn is a call, or a block from `with conn` to its end,
whether commits succeed or fail and whether blocks end with an exception.  Then after every schedule every thread has had its own session on
one stored map: everything is read as the map says, now and after a crash, and the failure of one thread's commit disturbs no other thread;
in the middle of a block, too, calls answer as they should. -/
theorem turns_partial (hV : AllTruthy V) {c0 : Container V} {m0 : Map V} (h0 : InUse c0 m0) (f : Bool) (ps : List (Nat × List (Event V)))
    (hp : ∀ p ∈ ps, Turn p.2) :
    let s := (Crew.opened c0 f).steps (flat ps)
    let w := Team.turns ⟨m0, fun _ => true, fun _ => false⟩ ps
    (∀ id, s.read id = .ok (w.disk id)) ∧
    (∀ t a id, (s.step t (.crash a)).read id = .ok (w.disk id)) ∧
    (∀ t op ok, isWrite op = true → (w.session t).Answers op ok (s.call t op ok).1) ∧
    (∀ t es, (∀ e ∈ es, IsCall e) → ∀ op ok, isWrite op = true →
      (((w.session t).step .enter).steps es).Answers op ok (((s.step t .enter).steps (es.map fun e => (t, e))).call t op ok).1) ∧
    (∀ t es, (∀ e ∈ es, IsCall e) → ∀ id,
      ((s.step t .enter).steps (es.map fun e => (t, e))).read id = .ok ((((w.session t).step .enter).steps es).mem id)) := by
  intro s w
  have h : Rest s w := rest_turns hV ps (rest_opened h0 f) hp
  refine ⟨fun id => ?_, fun t a id => ?_, fun t op ok hop => (mid_call hV (h.mid t) op hop ok).2.1, fun t es he op ok hop => ?_, fun t es he id => ?_⟩
  · show s.work.read id = _
    rw [h.clean]; exact (in_use_reads hV h.holds id).1
  · exact (in_use_reads hV h.holds id).1
  · exact (mid_call hV (mid_calls hV es he (mid_enter hV (h.mid t))) op hop ok).2.1
  · exact (in_use_reads hV (mid_calls hV es he (mid_enter hV (h.mid t))).same.work id).1

/-! ### Threads that do not take turns -/

/-- What an update does, when it is not refused. -/
theorem body_update (hV : AllTruthy V) {s : Crew V} {m : Map V} (h : InUse s.work m) (t : Nat) (hf : s.joined ≠ none ∨ s.failed t = false) (id : String) (v : V) :
    ∃ work', InUse work' (m.set id v) ∧ s.body t (.update id v) = (.ok (.prev (m id)), { s with work := work', joined := if s.joined = none then some t else s.joined }) := by
  obtain ⟨f1, f2, -⟩ := in_use_fn hV h (.update id v) (by simp)
  refine ⟨_, f2, ?_⟩
  have f1 : ((DbOp.update id v).fn s.work).1 = .ok (.prev (m id)) := f1
  unfold Crew.body
  have hno : ¬ (s.joined = none ∧ s.failed t = true) := by
    rintro ⟨a, b⟩
    rcases hf with hf | hf
    · exact hf a
    · rw [hf] at b; cases b
  rw [if_neg hno]
  by_cases hj : s.joined = none
  · rw [if_pos ⟨hj, by rw [f1]; rfl⟩, if_pos hj, f1]; rfl
  · rw [if_neg fun hh => hj hh.1, if_neg hj, f1]; rfl

/-- A block with an update in it: the state in its middle. -/
theorem block_middle (hV : AllTruthy V) {c0 : Container V} {m0 : Map V} (h0 : InUse c0 m0) (f : Bool) (t : Nat) (x : String) (v : V) :
    let s := (Crew.opened c0 f).steps [(t, .enter), (t, .call (.update x v) true)]
    InUse s.work (m0.set x v) ∧ s.committed = c0 ∧ s.joined = some t ∧ (∀ u, u ≠ t → s.auto u = true) ∧ s.auto t = false ∧ ∀ u, s.failed u = false := by
  intro s
  obtain ⟨work', hw, hb⟩ := body_update hV (s := (Crew.opened c0 f).enter t) (m := m0) h0 t (.inr (Function.update_self ..)) x v
  have hs : s = (((Crew.opened c0 f).enter t).body t (.update x v)).2 := by
    show (((Crew.opened c0 f).enter t).call t (.update x v) true).2 = _
    unfold Crew.call
    rw [if_neg fun hh => by have : Function.update (fun _ => true) t false t = true := hh.2; rw [Function.update_self] at this; cases this]
  rw [hs, hb]
  refine ⟨hw, rfl, rfl, fun u hu => ?_, ?_, fun u => ?_⟩
  · exact Function.update_of_ne hu ..
  · exact Function.update_self ..
  · show Function.update (fun _ => false) t false u = false
    by_cases hu : u = t
    · subst hu; exact Function.update_self ..
    · exact Function.update_of_ne hu ..

/-- A call with autocommit of a thread while another one's transaction is joined: it answers, and stores nothing. -/
theorem call_aside (hV : AllTruthy V) {s : Crew V} {m : Map V} (h : InUse s.work m) (t u : Nat) (hut : u ≠ t) (hj : s.joined = some t) (ha : s.auto u = true)
    (y : String) (w : V) :
    ∃ s', s.call u (.update y w) true = (.ok (.prev (m y)), s') ∧ InUse s'.work (m.set y w) ∧ s'.committed = s.committed ∧ s'.joined = some t ∧ s'.auto = s.auto := by
  have hd : s.dropped u = s := by unfold Crew.dropped; rw [if_neg (by rw [hj]; simpa using fun h => hut h.symm)]
  have hje : (s.enter u).joined = some t := by unfold Crew.enter Crew.abort; rw [hd]; exact hj
  have hwe : (s.enter u).work = s.work := by unfold Crew.enter Crew.abort; rw [hd]
  have hce : (s.enter u).committed = s.committed := by unfold Crew.enter Crew.abort; rw [hd]
  have hfe : (s.enter u).failed u = false := by unfold Crew.enter Crew.abort; exact Function.update_self ..
  have hae : (s.enter u).auto = Function.update s.auto u false := by unfold Crew.enter Crew.abort; rw [hd]
  obtain ⟨work', hw, hb⟩ := body_update hV (s := s.enter u) (m := m) (by rw [hwe]; exact h) u (.inr hfe) y w
  rw [hje] at hb
  refine ⟨{ s.enter u with work := work', joined := some t, auto := s.auto }, ?_, hw, hce, rfl, rfl⟩
  unfold Crew.call
  rw [if_pos ⟨rfl, ha⟩, hb]
  have hne : ¬ (some t : Option Nat) = some u := fun h => hut (Option.some.inj h).symm
  simp only [Crew.finish, Crew.leave, Crew.commit, Crew.written, hfe, Bool.false_eq_true, if_false, if_true, reduceCtorEq, hne]
  have : Function.update (s.enter u).auto u true = s.auto := by
    rw [hae, Function.update_idem]
    exact Function.update_eq_self_iff.2 ha.symm
  rw [this]

/-- **C130 is false: a call that returned is lost.** While a block of thread `t` has changed anything, another thread updates `y` with autocommit on.
The call returns, and reading shows the change; but nothing is stored: after a crash it is gone, and an exception in the block of thread `t`
undoes it, too. -/
theorem returned_call_lost_counterexample (hV : AllTruthy V) {c0 : Container V} {m0 : Map V} (h0 : InUse c0 m0) (f : Bool) (t u : Nat) (hut : u ≠ t)
    (x y : String) (v w : V) :
    let s := (Crew.opened c0 f).steps [(t, .enter), (t, .call (.update x v) true)]
    s.auto u = true ∧ (∃ r, (s.call u (.update y w) true).1 = .ok r) ∧
    (s.call u (.update y w) true).2.read y = .ok (some w) ∧
    ((s.call u (.update y w) true).2.step u (.crash f)).read y = .ok (m0 y) ∧
    ((s.call u (.update y w) true).2.step t (.exit true true)).read y = .ok (m0 y) := by
  intro s
  obtain ⟨b1, b2, b3, b4, b5, b6⟩ := block_middle hV h0 f t x v
  obtain ⟨s', k1, k2, k3, k4, k5⟩ := call_aside hV b1 t u hut b3 (b4 u hut) y w
  have hc : s'.committed = c0 := k3.trans b2
  rw [k1]
  refine ⟨b4 u hut, ⟨_, rfl⟩, ?_, ?_, ?_⟩
  · exact (in_use_reads hV k2 y).1.trans (congrArg Except.ok (if_pos rfl))
  · show s'.committed.read y = _
    rw [hc]; exact (in_use_reads hV h0 y).1
  · have : (s'.step t (.exit true true)).work = s'.committed := by
      show ((s'.setAutocommit t (some true)).leave t true true).2.work = _
      simp only [Crew.leave, Crew.abort, Crew.dropped, Crew.setAutocommit, k4, if_true]
    show (s'.step t (.exit true true)).work.read y = _
    rw [this, hc]; exact (in_use_reads hV h0 y).1

/-- **C130 is false: uncommitted changes are read.** All threads see what a block has changed, though it may end with an exception. -/
theorem dirty_read_counterexample (hV : AllTruthy V) {c0 : Container V} {m0 : Map V} (h0 : InUse c0 m0) (f : Bool) (t : Nat) (x : String) (v : V) :
    ((Crew.opened c0 f).steps [(t, .enter), (t, .call (.update x v) true)]).read x = .ok (some v) ∧
    ((Crew.opened c0 f).steps [(t, .enter), (t, .call (.update x v) true), (t, .exit true true)]).read x = .ok (m0 x) := by
  obtain ⟨b1, b2, b3, b4, b5, b6⟩ := block_middle hV h0 f t x v
  obtain ⟨s, hs⟩ : ∃ s, s = (Crew.opened c0 f).steps [(t, .enter), (t, .call (.update x v) true)] := ⟨_, rfl⟩
  rw [← hs] at b1 b2 b3
  refine ⟨by rw [← hs]; exact (in_use_reads hV b1 x).1.trans (congrArg Except.ok (if_pos rfl)), ?_⟩
  have e : (Crew.opened c0 f).steps [(t, .enter), (t, .call (.update x v) true), (t, .exit true true)] = (s.exit t true true).2 := by rw [hs]; rfl
  have : (s.exit t true true).2.work = s.committed := by
    simp only [Crew.exit, Crew.leave, Crew.abort, Crew.dropped, Crew.setAutocommit, b3, if_true]
  rw [e]
  show (s.exit t true true).2.work.read x = _
  rw [this, b2]; exact (in_use_reads hV h0 x).1

/-- **C130 is false: an aborted block is stored.** Two blocks overlap; the one of thread `u` was the first to change something and ends normally, then
the one of thread `t` ends with an exception: its change stays, on disk too. -/
theorem aborted_block_stored_counterexample (hV : AllTruthy V) {c0 : Container V} {m0 : Map V} (h0 : InUse c0 m0) (f : Bool) (t u : Nat) (hut : u ≠ t)
    (x y : String) (v w : V) :
    let s := (Crew.opened c0 f).steps [(u, .enter), (u, .call (.update y w) true), (t, .enter), (t, .call (.update x v) true), (u, .exit false true), (t, .exit true true)]
    s.read x = .ok (some v) ∧ (s.step t (.crash f)).read x = .ok (some v) := by
  intro s
  obtain ⟨b1, b2, b3, b4, b5, b6⟩ := block_middle hV h0 f u y w
  obtain ⟨s1, hs1⟩ : ∃ s1, s1 = (Crew.opened c0 f).steps [(u, .enter), (u, .call (.update y w) true)] := ⟨_, rfl⟩
  rw [← hs1] at b1 b2 b3 b6
  have hs : s = (((((s1.enter t).call t (.update x v) true).2.exit u false true).2).exit t true true).2 := by rw [hs1]; rfl
  have htu : ¬ (some u : Option Nat) = some t := fun h => hut (Option.some.inj h)
  have hd : s1.dropped t = s1 := by unfold Crew.dropped; rw [b3, if_neg htu]
  have hwe : (s1.enter t).work = s1.work := by unfold Crew.enter Crew.abort; rw [hd]
  have hje : (s1.enter t).joined = some u := by unfold Crew.enter Crew.abort; rw [hd]; exact b3
  have hfe : ∀ i, (s1.enter t).failed i = false := by
    intro i
    unfold Crew.enter Crew.abort
    show Function.update s1.failed t false i = false
    by_cases hi : i = t
    · subst hi; exact Function.update_self ..
    · exact (Function.update_of_ne hi ..).trans (b6 i)
  have hae : (s1.enter t).auto t = false := by unfold Crew.enter; exact Function.update_self ..
  obtain ⟨work', hw, hb⟩ := body_update hV (s := s1.enter t) (by rw [hwe]; exact b1) t (.inr (hfe t)) x v
  have hcall : (s1.enter t).call t (.update x v) true = (s1.enter t).body t (.update x v) := by
    unfold Crew.call; rw [if_neg fun hh => by rw [hae] at hh; cases hh.2]
  rw [hcall, hb, hje, if_neg (by simp)] at hs
  have hend : s.work = work' ∧ s.committed = work' := by
    rw [hs]
    simp [Crew.exit, Crew.leave, Crew.abort, Crew.dropped, Crew.setAutocommit, Crew.commit, Crew.written, hfe]
  refine ⟨?_, ?_⟩
  · show s.work.read x = _
    rw [hend.1]; exact (in_use_reads hV hw x).1.trans (congrArg Except.ok (if_pos rfl))
  · show s.committed.read x = _
    rw [hend.2]; exact (in_use_reads hV hw x).1.trans (congrArg Except.ok (if_pos rfl))

/-- **C130 is false: `conn.autocommit` is not what holds in another thread.** After one thread has switched autocommit off, the property is False for all
threads, but the calls of the others are committed. -/
theorem autocommit_flag_counterexample (hV : AllTruthy V) {c0 : Container V} {m0 : Map V} (h0 : InUse c0 m0) (f : Bool) (t u : Nat) (hut : u ≠ t) (x : String) (v : V) :
    let s := (Crew.opened c0 f).steps [(t, .setAutocommit (some false))]
    s.flag = false ∧ ((s.call u (.update x v) true).2.step u (.crash f)).read x = .ok (some v) := by
  intro s
  refine ⟨rfl, ?_⟩
  have hmid : Mid s ⟨m0, Function.update (fun _ => true) t false, fun _ => false⟩ u ⟨m0, m0, true, false⟩ := by
    refine ⟨mine_none (own_none rfl rfl) rfl, ⟨h0, h0, ?_, rfl⟩, fun _ _ => ⟨rfl, rfl⟩⟩
    exact Function.update_of_ne hut ..
  have := (mid_call hV hmid (.update x v) rfl true).1.same.committed
  refine (in_use_reads hV this x).1.trans (congrArg Except.ok ?_)
  show (Store.call ⟨m0, m0, true, false⟩ (.update x v) true).disk x = some v
  unfold Store.call
  rw [if_pos ⟨rfl, rfl⟩, if_neg (by simp [Map.apply]), if_pos rfl]
  exact if_pos rfl

local instance : Truthy { n : Nat // n ≠ 0 } := ⟨fun n => n.1 != 0⟩

/-- Non-vacuity: a schedule of turns of three threads, one commit of which fails, and what is stored in the end. -/
example : let one : { n : Nat // n ≠ 0 } := ⟨1, by decide⟩
    let ps : List (Nat × List (Event { n : Nat // n ≠ 0 })) := [(0, [.call (.create "a" one) true]), (1, [.call (.create "b" one) false]),
      (2, .enter :: [.call (.delete "a") true, .call (.create "c" one) true] ++ [.exit false true]), (1, [.call (.create "d" one) true])]
    (∀ p ∈ ps, Turn p.2) ∧ (Team.turns ⟨Map.empty, fun _ => true, fun _ => false⟩ ps).disk "c" = some one ∧
    (Team.turns ⟨Map.empty, fun _ => true, fun _ => false⟩ ps).disk "a" = none ∧
    (Team.turns ⟨Map.empty, fun _ => true, fun _ => false⟩ ps).disk "d" = none ∧
    (Team.turns ⟨Map.empty, fun _ => true, fun _ => false⟩ ps).broken 1 = true := by
  refine ⟨?_, by decide +kernel, by decide +kernel, by decide +kernel, by decide +kernel⟩
  intro p hp
  simp only [List.mem_cons, List.not_mem_nil, or_false] at hp
  rcases hp with rfl | rfl | rfl | rfl
  · exact .one _ _ rfl
  · exact .one _ _ rfl
  · refine .block _ _ _ fun e he => ?_
    simp only [List.mem_cons, List.not_mem_nil, or_false] at he
    rcases he with rfl | rfl <;> rfl
  · exact .one _ _ rfl

end Verif.Props.Crew
