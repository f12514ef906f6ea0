import Verif.Db.Crash
import Verif.Props.Progress

/-!
# Crashes while several sessions work (C150)
-/
namespace Verif.Props
open Verif Verif.Storage Verif.Spec Verif.Db
open scoped Classical
variable {V : Type}

namespace Crash

/-! ### Specification -/

/-- Some of the calls that were cut off count as if they had returned, at some moment while the process was down. -/
inductive Kept : List (Done V) → List (Cut V) → Prop
  | nil : Kept [] []
  | skip {ds : List (Done V)} {cs : List (Cut V)} (c : Cut V) : Kept ds cs → Kept ds (c :: cs)
  | keep {ds : List (Done V)} {cs : List (Cut V)} (d : Done V) (c : Cut V) : Kept ds cs → d.op = c.op → d.start = c.start → c.down ≤ d.stop → d.stop < c.up →
      (∃ v, d.answer = .ok v) → Kept (d :: ds) (c :: cs)

/-- Durable linearizability: what is stored is the result of all calls that returned (or raised, but for conflicts) and of some of the calls that were cut off, one after
the other in an order that respects time, with the answers they gave. -/
def Durable (m0 : Map V) (past : List (Done V)) (cut : Nat → List (Cut V)) (m : Map V) : Prop :=
  ∃ kept : List (Done V), (∀ i, Kept (kept.filter fun d => d.who = i) (cut i)) ∧ Linearizable m0 (past ++ kept) m

/-- Nobody turns strict mode on. -/
def LenientHap : Happening V → Prop
  | .act _ a => LenientAct a
  | .crash _ _ => True

/-! ### Proofs -/

section
variable [Truthy V] [DecidableEq V]

/-- The calls that are over play no part in a step. -/
theorem act_past (s : Callers V) (i : Nat) (a : Act V) :
    ∃ new, (s.act i a).past = new ++ s.past ∧ ∀ p, ({ s with past := p } : Callers V).act i a = { s.act i a with past := new ++ p } := by
  unfold Callers.act
  cases hp : s.pc i with
  | idle => cases a <;> exact ⟨[], rfl, fun p => by simp [hp]⟩
  | broken => cases a <;> exact ⟨[], rfl, fun p => by simp [hp]⟩
  | started op t => cases a <;> exact ⟨[], rfl, fun p => by simp [hp]⟩
  | ran op r t =>
    cases a with
    | finish ok =>
      cases r with
      | error e => exact ⟨[⟨i, op, .error e, t, s.now⟩], rfl, fun p => by simp [hp, Callers.finish]⟩
      | ok v =>
        rcases hc : s.db.commit i ok with ⟨r, db⟩
        cases r with
        | error e => exact ⟨[⟨i, op, .error e, t, s.now⟩], by simp [Callers.finish, hc], fun p => by simp [hp, Callers.finish, hc]⟩
        | ok u => exact ⟨[⟨i, op, .ok v, t, s.now⟩], by simp [Callers.finish, hc], fun p => by simp [hp, Callers.finish, hc]⟩
    | start op => exact ⟨[], rfl, fun p => by simp [hp]⟩
    | body => exact ⟨[], rfl, fun p => by simp [hp]⟩
    | recover => exact ⟨[], rfl, fun p => by simp [hp]⟩

omit [Truthy V] [DecidableEq V] in
theorem lin_repast {f : ShapeN V} {m0 : Map V} {c : Callers V} {s : Snap V} {o : List (Done V)} (h : LinInv f m0 c s o) {p : List (Done V)}
    (hp : (c.past.filter fun d => Effective d).Perm (p.filter fun d => Effective d)) : LinInv f m0 { c with past := p } s o :=
  ⟨h.same, h.perm.trans hp, h.real, h.serial, h.times, h.pc⟩

omit [Truthy V] [DecidableEq V] in
theorem lin_broken {f : ShapeN V} {m0 : Map V} {c : Callers V} {s : Snap V} {o : List (Done V)} (h : LinInv f m0 c s o) (i : Nat) :
    LinInv f m0 { c with pc := Function.update c.pc i .broken } s o :=
  ⟨h.same, h.perm, h.real, h.serial, h.times, fun _ => update_pc (fun j x => PcInv m0 o c.now (s.tx j) x) trivial fun j _ => h.pc j⟩

omit [Truthy V] [DecidableEq V] in
theorem lin_restart {f : ShapeN V} {m0 : Map V} {c : Callers V} {s : Snap V} {o : List (Done V)} (h : LinInv f m0 c s o) (dies : Nat → Bool) :
    ∃ s', LinInv f m0 (Crashing.restart c dies) s' o := by
  refine ⟨{ disk := s.disk, tx := fun i => if dies i then ⟨s.disk, s.disk, false⟩ else s.tx i }, ⟨h.same.disk, fun i => ?_, fun i => ?_, fun i => ?_, fun i => ?_⟩,
    h.perm, h.real, h.serial, fun d hd => ⟨Nat.lt_succ_of_lt (h.times d hd).1, Nat.lt_succ_of_lt (h.times d hd).2⟩, fun i => ?_⟩ <;>
    cases hi : dies i <;> simp only [Crashing.restart, hi, Bool.false_eq_true, if_false, if_true]
  · exact h.same.base i
  · exact h.same.disk
  · exact h.same.work i
  · exact h.same.disk
  · exact h.same.broken i
  · rfl
  · exact h.same.below i
  · exact ⟨Below.refl f _, Below.refl f _⟩
  · exact (h.pc i).mono (Nat.le_succ _) fun _ _ _ hp => hp
  · trivial

/-- The calls written while the sessions go down: at most one of each, and only of sessions that were about to commit. -/
structure Landing (s0 s : Callers V) (news : List (Done V)) : Prop where
  past : s.past = s0.past
  now : s0.now ≤ s.now
  pc : ∀ i, (s.pc i = s0.pc i ∧ news.filter (fun d => d.who = i) = []) ∨
    (s.pc i = .broken ∧ (news.filter (fun d => d.who = i) = [] ∨ ∃ op v t stop, s0.pc i = .ran op (.ok v) t ∧ s0.now ≤ stop ∧ stop < s.now ∧
      news.filter (fun d => d.who = i) = [⟨i, op, .ok v, t, stop⟩]))

theorem land_step (hV : AllTruthy V) {f : ShapeN V} {m0 : Map V} {s0 s : Callers V} {sn : Snap V} {o news kept : List (Done V)} (hl : Landing s0 s news)
    (h : LinInv f m0 { s with past := s.past ++ (news ++ kept) } sn o) (i : Nat) :
    ∃ sn' o' news', Landing s0 (Crashing.land s i) news' ∧ (∀ j, j ≠ i → news'.filter (fun d => d.who = j) = news.filter fun d => d.who = j) ∧
      LinInv f m0 { Crashing.land s i with past := (Crashing.land s i).past ++ (news' ++ kept) } sn' o' := by
  unfold Crashing.land
  cases hp : s.pc i with
  | idle => exact ⟨sn, o, news, hl, fun _ _ => rfl, h⟩
  | broken => exact ⟨sn, o, news, hl, fun _ _ => rfl, h⟩
  | started op t => exact ⟨sn, o, news, hl, fun _ _ => rfl, h⟩
  | ran op r t =>
    cases r with
    | error e => exact ⟨sn, o, news, hl, fun _ _ => rfl, h⟩
    | ok v =>
      have hpi : s0.pc i = .ran op (.ok v) t ∧ news.filter (fun d => d.who = i) = [] := by
        rcases hl.pc i with ⟨e, e'⟩ | ⟨e, -⟩
        · exact ⟨by rw [← e]; exact hp, e'⟩
        · rw [hp] at e; cases e
      obtain ⟨sn', o', h'⟩ := h.act hV i (.finish true) trivial
      have hg : ({ s with past := s.past ++ (news ++ kept) } : Callers V).act i (.finish true) =
          ({ s with past := s.past ++ (news ++ kept) } : Callers V).finish i op t true (.ok v) := by
        unfold Callers.act
        simp only [hp]
      rw [hg] at h'
      unfold Callers.finish at h'
      simp only at h' ⊢
      rcases hc : s.db.commit i true with ⟨r, db⟩
      rw [hc] at h'
      have other : ∀ (news' : List (Done V)), (∀ j, j ≠ i → news'.filter (fun d => d.who = j) = news.filter fun d => d.who = j) →
          (news'.filter (fun d => d.who = i) = [] ∨ news'.filter (fun d => d.who = i) = [⟨i, op, .ok v, t, s.now⟩]) →
          Landing s0 { s with db := db, pc := Function.update s.pc i .broken, now := s.now + 1 } news' := by
        intro news' h1 h2
        refine ⟨hl.past, Nat.le_succ_of_le hl.now, fun j => ?_⟩
        by_cases hj : j = i
        · subst hj
          refine .inr ⟨Function.update_self _ _ _, ?_⟩
          rcases h2 with h2 | h2
          · exact .inl h2
          · exact .inr ⟨op, v, t, s.now, hpi.1, hl.now, Nat.lt_succ_self _, h2⟩
        · simp only [Function.update_of_ne hj]
          rw [h1 j hj]
          rcases hl.pc j with h | ⟨e, h⟩
          · exact .inl h
          · refine .inr ⟨e, ?_⟩
            rcases h with h | ⟨op', v', t', stop, k1, k2, k3, k4⟩
            · exact .inl h
            · exact .inr ⟨op', v', t', stop, k1, k2, Nat.lt_succ_of_lt k3, k4⟩
      cases r with
      | error e =>
        simp only at h'
        have he : e = .storageError ∨ e = .transactionFailed := by
          unfold Shared.commit at hc
          split_ifs at hc
          · injection hc with h1 _; injection h1 with h1; exact .inr h1.symm
          · split at hc
            · injection hc with h1 _; cases h1
            · injection hc with h1 _; injection h1 with h1; exact .inl h1.symm
        have hs : e = .storageError := by
          rcases he with he | he
          · exact he
          · exfalso
            have hf := (h.pc i)
            simp only [hp] at hf
            obtain ⟨-, hf, -⟩ := hf
            have hb := h.same.broken i
            rw [hf] at hb
            have hb : (s.db.sess i).failed = false := hb
            unfold Shared.commit at hc
            rw [if_neg (by simp [hb])] at hc
            split at hc
            · injection hc with h1 _; cases h1
            · injection hc with h1 _; injection h1 with h1; rw [he] at h1; cases h1
        subst hs
        refine ⟨sn', o', news, other news (fun _ _ => rfl) (.inl hpi.2), fun _ _ => rfl, ?_⟩
        have h1 := lin_broken (lin_repast h' (p := s.past ++ (news ++ kept)) (by
          show (List.filter _ (_ :: _)).Perm _
          rw [List.filter_cons, if_neg (by simp [Effective])])) i
        have e : Function.update (Function.update s.pc i (.broken : Pc V)) i .broken = Function.update s.pc i .broken := by simp
        simp only [Callers.tick] at h1
        rw [e] at h1
        exact h1
      | ok u =>
        simp only at h'
        refine ⟨sn', o', ⟨i, op, .ok v, t, s.now⟩ :: news, other _ (fun j hj => by simp [Ne.symm hj]) (.inr (by simp [hpi.2])),
          fun j hj => by simp [Ne.symm hj], ?_⟩
        have h1 := lin_broken (lin_repast h' (p := s.past ++ (⟨i, op, .ok v, t, s.now⟩ :: news ++ kept)) (by
          refine List.Perm.filter _ ?_
          show (_ :: (s.past ++ (news ++ kept))).Perm (s.past ++ (_ :: (news ++ kept)))
          exact List.perm_middle.symm)) i
        have e : Function.update (Function.update s.pc i (.idle : Pc V)) i .broken = Function.update s.pc i .broken := by simp
        simp only [Callers.tick] at h1
        rw [e] at h1
        exact h1

theorem land_all (hV : AllTruthy V) {f : ShapeN V} {m0 : Map V} (s0 : Callers V) (kept : List (Done V)) (is : List Nat) : ∀ {s : Callers V} {sn : Snap V}
    {o news : List (Done V)}, Landing s0 s news → LinInv f m0 { s with past := s.past ++ (news ++ kept) } sn o →
    ∃ sn' o' news', Landing s0 (is.foldl Crashing.land s) news' ∧ (∀ j, j ∉ is → news'.filter (fun d => d.who = j) = news.filter fun d => d.who = j) ∧
      LinInv f m0 { is.foldl Crashing.land s with past := (is.foldl Crashing.land s).past ++ (news' ++ kept) } sn' o' := by
  induction is with
  | nil => intro s sn o news h1 h2; exact ⟨sn, o, news, h1, fun _ _ => rfl, h2⟩
  | cons i is ih =>
    intro s sn o news h1 h2
    obtain ⟨sn1, o1, n1, k1, k2, k3⟩ := land_step hV h1 h2 i
    obtain ⟨sn2, o2, n2, l1, l2, l3⟩ := ih k1 k3
    refine ⟨sn2, o2, n2, l1, fun j hj => ?_, l3⟩
    rw [List.mem_cons, not_or] at hj
    rw [l2 j hj.2, k2 j hj.1]

/-- The invariant. -/
structure CrashInv (f : ShapeN V) (m0 : Map V) (c : Crashing V) (s : Snap V) (o kept : List (Done V)) : Prop where
  lin : LinInv f m0 { c.run with past := c.run.past ++ kept } s o
  kept : ∀ i, Kept (kept.filter fun d => d.who = i) (c.cut i)

theorem CrashInv.crash (hV : AllTruthy V) {f : ShapeN V} {m0 : Map V} {c : Crashing V} {s : Snap V} {o kept : List (Done V)} (h : CrashInv f m0 c s o kept)
    (dies : Nat → Bool) (landed : List Nat) : ∃ s' o' kept', CrashInv f m0 (c.crash dies landed) s' o' kept' := by
  have h0 : Landing c.run c.run [] := ⟨rfl, le_rfl, fun i => .inl ⟨rfl, rfl⟩⟩
  obtain ⟨s1, o1, news, k1, k2, k3⟩ := land_all hV c.run kept (landed.filter dies) h0 (by simpa using h.lin)
  obtain ⟨s2, k4⟩ := lin_restart k3 dies
  refine ⟨s2, o1, news ++ kept, k4, fun i => ?_⟩
  rw [List.filter_append]
  show Kept _ (if dies i then Crashing.cutOff c.run.now _ (c.run.pc i) (c.cut i) else c.cut i)
  cases hi : dies i with
  | false =>
    rw [k2 i (by simp [hi])]
    simpa using h.kept i
  | true =>
    simp only [if_true]
    have hold : Kept (kept.filter fun d => d.who = i) (Crashing.cutOff c.run.now
        (Crashing.restart (List.foldl Crashing.land c.run (landed.filter dies)) dies).now (c.run.pc i) (c.cut i)) := by
      unfold Crashing.cutOff
      split
      · exact .skip _ (h.kept i)
      · exact .skip _ (h.kept i)
      · exact h.kept i
      · exact h.kept i
    rcases k1.pc i with ⟨-, e⟩ | ⟨-, e | ⟨op, v, t, stop, e1, e2, e3, e4⟩⟩
    · rw [e]; exact hold
    · rw [e]; exact hold
    · rw [e4, e1]
      exact .keep _ _ (h.kept i) rfl rfl e2 (Nat.lt_succ_of_lt e3) ⟨v, rfl⟩

theorem CrashInv.steps (hV : AllTruthy V) {f : ShapeN V} {m0 : Map V} (hs : List (Happening V)) : ∀ {c : Crashing V} {s : Snap V} {o kept : List (Done V)},
    CrashInv f m0 c s o kept → (∀ x ∈ hs, LenientHap x) → ∃ s' o' kept', CrashInv f m0 (c.steps hs) s' o' kept' := by
  induction hs with
  | nil => intro c s o kept h _; exact ⟨s, o, kept, h⟩
  | cons x hs ih =>
    intro c s o kept h hl
    have hl' := fun y hy => hl y (List.mem_cons_of_mem _ hy)
    cases x with
    | act i a =>
      obtain ⟨s1, o1, k1⟩ := h.lin.act hV i a (hl _ List.mem_cons_self)
      obtain ⟨new, e1, e2⟩ := act_past c.run i a
      rw [e2] at k1
      refine ih (c := { c with run := (c.run.act i a).tick }) (s := s1) (o := o1) (kept := kept) ⟨?_, h.kept⟩ hl'
      show LinInv f m0 { (c.run.act i a).tick with past := (c.run.act i a).past ++ kept } s1 o1
      rw [e1, List.append_assoc]
      exact k1
    | crash dies landed =>
      obtain ⟨s1, o1, k, h1⟩ := h.crash hV dies landed
      exact ih h1 hl'

/-- **C150.** Sessions in any number of processes call create, update and delete with autocommit on a database made by `Container.new` and not in strict mode, in every
interleaving; at any moments any of the processes, or all, die and come back, with the commits of any of the calls they cut off written or not.  At every moment what is stored is the result of
all calls that have returned and of some that were cut off, in an order that respects time: no call that returned is ever lost, and none is done by halves. -/
theorem durably_linearizable (hV : AllTruthy V) {c0 : Container V} {m0 : Map V} (h0 : InUse c0 m0) (hs : List (Happening V)) (hl : ∀ x ∈ hs, LenientHap x) :
    let c := (Crashing.opened c0).steps hs
    ∃ m, (∀ id, c.run.db.disk.read id = .ok (m id)) ∧ Durable m0 c.run.past c.cut m := by
  intro c
  obtain ⟨f, hf⟩ := many_of_inUse h0
  have hi : CrashInv f m0 (Crashing.opened c0) (Snap.opened m0) [] [] :=
    ⟨⟨opened_many hf, by simp [Crashing.opened, Callers.opened], List.Pairwise.nil, .nil, by simp, fun _ => trivial⟩, fun _ => .nil⟩
  obtain ⟨s, o, kept, h⟩ := hi.steps hV hs hl
  exact ⟨s.disk, fun id => h.lin.same.disk.read hV id, kept, h.kept, o, h.lin.perm, h.lin.real, h.lin.serial⟩

omit [Truthy V] in
theorem land_other (is : List Nat) : ∀ {s : Callers V} {i : Nat}, i ∉ is → (is.foldl Crashing.land s).pc i = s.pc i ∧ (is.foldl Crashing.land s).db.sess i = s.db.sess i := by
  induction is with
  | nil => intro s i _; exact ⟨rfl, rfl⟩
  | cons j is ih =>
    intro s i hi
    rw [List.mem_cons, not_or] at hi
    obtain ⟨k1, k2⟩ := ih (s := Crashing.land s j) hi.2
    have h1 : (Crashing.land s j).pc i = s.pc i ∧ (Crashing.land s j).db.sess i = s.db.sess i := by
      unfold Crashing.land
      split
      · refine ⟨Function.update_of_ne hi.1 _ _, ?_⟩
        show (s.db.commit j true).2.sess i = _
        rcases Progress.commit_cases s.db j true with ⟨-, e⟩ | ⟨-, -, c, -, e⟩ | ⟨-, -, e⟩ <;> rw [e]
        · exact Function.update_of_ne hi.1 _ _
        · exact Function.update_of_ne hi.1 _ _
      · exact ⟨rfl, rfl⟩
    exact ⟨k1.trans h1.1, k2.trans h1.2⟩

/-- C150: a session of a process that died is idle and sees what is stored; the others see what they saw and go on. -/
theorem after_crash (c : Crashing V) (dies : Nat → Bool) (landed : List Nat) (i : Nat) (id : String) :
    (dies i = true → (c.crash dies landed).run.db.read i id = (c.crash dies landed).run.db.disk.read id ∧ (c.crash dies landed).run.pc i = .idle) ∧
    (dies i = false → (c.crash dies landed).run.db.read i id = c.run.db.read i id ∧ (c.crash dies landed).run.pc i = c.run.pc i) := by
  constructor <;> intro hi
  · simp [Crashing.crash, Crashing.restart, Shared.read, hi, Sess.fresh]
  · obtain ⟨k1, k2⟩ := land_other (landed.filter dies) (s := c.run) (i := i) (by simp [hi])
    simp [Crashing.crash, Crashing.restart, Shared.read, hi, k1, k2]

omit [Truthy V] in
/-- C150: if no commit was written while the processes died, nothing that was stored is different. -/
theorem crash_alone (c : Crashing V) (dies : Nat → Bool) : (c.crash dies []).run.db.disk = c.run.db.disk ∧ (c.crash dies []).run.past = c.run.past := ⟨rfl, rfl⟩

end

/-! ### A concrete history -/

/-- Sessions 0 and 1 create objects; the machine dies before either call returns, after the commit of session 0 was written; then session 1 tries again and a process with session 2 dies in the middle
of a deletion.  Session 0's object and session 1's are there, the object to be deleted too. -/
example :
    let c := (Crashing.opened (soloBox (groupOf 5 false [("z", 9)]))).steps [.act 0 (.start (.create "a" 1)), .act 1 (.start (.create "b" 2)), .act 0 .body, .act 1 .body,
      .crash (fun _ => true) [0], .act 1 (.start (.create "b" 2)), .act 1 .body, .act 2 (.start (.delete "z")), .act 2 .body, .crash (fun i => i == 2) [],
      .act 1 (.finish true)]
    c.run.past.map (fun d => (d.who, shape d.answer, d.start, d.stop)) = [(1, (none, [1]), 6, 11)] ∧
    (c.cut 0).map (fun x => (x.start, x.down, x.up)) = [(0, 4, 6)] ∧ (c.cut 1).map (fun x => (x.start, x.down, x.up)) = [(1, 4, 6)] ∧
    (c.cut 2).map (fun x => (x.start, x.down, x.up)) = [(8, 10, 11)] ∧
    c.run.db.disk.read "a" = .ok (some 1) ∧ c.run.db.disk.read "b" = .ok (some 2) ∧ c.run.db.disk.read "z" = .ok (some 9) := by
  refine ⟨by decide +kernel, by decide +kernel, by decide +kernel, by decide +kernel, by decide +kernel, by decide +kernel, by decide +kernel⟩

/-- Histories as in the theorem exist. -/
example : let _ : Truthy Unit := ⟨fun _ => true⟩
    ∃ (c0 : Container Unit) (m0 : Map Unit) (hs : List (Happening Unit)), InUse c0 m0 ∧ (∀ x ∈ hs, LenientHap x) ∧ AllTruthy Unit ∧ 2 < hs.length := by
  intro _
  obtain ⟨c0, h0, -⟩ := container_new (V := Unit) 2 1 false (by decide) (by decide)
  exact ⟨c0, Map.empty, [.act 0 (.start (.create "a" ())), .act 0 .body, .crash (fun _ => true) [0]], ⟨2, 1, c0, [], h0, by simp, rfl, rfl⟩,
    by simp [LenientHap, LenientAct], fun _ => rfl, by simp⟩

end Crash
end Verif.Props
