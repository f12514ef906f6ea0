import Verif.Props.ConcurrentMany

/-!
# Calls with autocommit are linearizable (C100)
-/
namespace Verif.Props
open Verif Verif.Storage Verif.Spec Verif.Db
open scoped Classical
variable {V : Type}

/-! ### Serial executions -/

theorem serial_append {m m' : Map V} {l1 l2 : List (Done V)} : Serial m (l1 ++ l2) m' ↔ ∃ b, Serial m l1 b ∧ Serial b l2 m' := by
  induction l1 generalizing m with
  | nil =>
    constructor
    · intro h; exact ⟨m, .nil, h⟩
    · rintro ⟨b, h1, h2⟩; cases h1; exact h2
  | cons d l1 ih =>
    constructor
    · intro h
      cases h with
      | cons ha hs =>
        obtain ⟨b, h1, h2⟩ := ih.1 hs
        exact ⟨b, .cons ha h1, h2⟩
    · rintro ⟨b, h1, h2⟩
      cases h1 with
      | cons ha hs => exact .cons ha (ih.2 ⟨b, hs, h2⟩)

theorem serial_unique {m a b : Map V} {l : List (Done V)} (h1 : Serial m l a) (h2 : Serial m l b) : a = b := by
  induction l generalizing m with
  | nil => cases h1; cases h2; rfl
  | cons d l ih =>
    cases h1 with
    | cons _ h1 => cases h2 with
      | cons _ h2 => exact ih h1 h2

/-- A call looks at one id and changes at most that one. -/
theorem op_local (op : DbOp V) (b disk : Map V) (hn : Snap.NoConflict b ((b.apply op).getD b) disk) (hne : (b.apply op).getD b ≠ b)
    {r : Outcome (DbRet V)} (ha : b.Answers op r) :
    disk.Answers op r ∧ (disk.apply op).getD disk = Snap.overlay b ((b.apply op).getD b) disk := by
  cases op with
  | create id obj =>
    by_cases hb : b id = none
    · simp only [Map.apply, hb, if_true, Option.getD_some] at hn hne ⊢
      have hd : disk id = b id := hn id (by simp [Map.set, hb])
      refine ⟨?_, ?_⟩
      · unfold Map.Answers at ha ⊢; simp only at ha ⊢; rw [hd]; exact ha
      · rw [hd, hb]
        simp only [if_true, Option.getD_some]
        funext x
        unfold Snap.overlay
        by_cases hx : x = id
        · subst hx; simp [Map.set, hb]
        · simp [Map.set, hx]
    · exfalso; apply hne; simp [Map.apply, hb]
  | update id obj =>
    simp only [Map.apply, Option.getD_some] at hn hne ⊢
    have hid : b id ≠ some obj := by
      intro h; apply hne; funext x
      by_cases hx : x = id
      · subst hx; simp [Map.set, h]
      · simp [Map.set, hx]
    have hd : disk id = b id := hn id (by simpa [Map.set] using fun h => hid h.symm)
    refine ⟨?_, ?_⟩
    · unfold Map.Answers at ha ⊢; simp only at ha ⊢; rw [hd]; exact ha
    · funext x
      unfold Snap.overlay
      by_cases hx : x = id
      · subst hx; simp [Map.set, Ne.symm hid]
      · simp [Map.set, hx]
  | delete id =>
    simp only [Map.apply, Option.getD_some] at hn hne ⊢
    have hid : b id ≠ none := by
      intro h; apply hne; funext x
      by_cases hx : x = id
      · subst hx; simp [Map.remove, h]
      · simp [Map.remove, hx]
    have hd : disk id = b id := hn id (by simpa [Map.remove] using fun h => hid h.symm)
    refine ⟨?_, ?_⟩
    · unfold Map.Answers at ha ⊢; simp only at ha ⊢; rw [hd]; exact ha
    · funext x
      unfold Snap.overlay
      by_cases hx : x = id
      · subst hx; simp [Map.remove, Ne.symm hid]
      · simp [Map.remove, hx]
  | strict value =>
    exfalso; apply hne
    cases value <;> simp [Map.apply]

theorem answers_effective {m : Map V} {op : DbOp V} {e : PyErr} (h : m.Answers op (.error e)) : e ≠ .storageError := by
  cases op with
  | create id obj => unfold Map.Answers at h; simp only at h; split_ifs at h; injection h with h; rw [h]; simp
  | update id obj => unfold Map.Answers at h; cases h
  | delete id => unfold Map.Answers at h; obtain ⟨vs, h, -⟩ := h; cases h
  | strict value => unfold Map.Answers at h; simp only at h; split_ifs at h; injection h with h; rw [h]; simp

/-! ### The invariant -/

/-- The place in the order where a call that began at `t` with the map `b` can be put. -/
def Place (m0 : Map V) (order : List (Done V)) (b : Map V) (t : Nat) : Prop :=
  ∃ l1 l2, order = l1 ++ l2 ∧ Serial m0 l1 b ∧ ∀ d ∈ l2, t < d.stop

/-- What is known about a session. -/
def PcInv (m0 : Map V) (order : List (Done V)) (now : Nat) (t : Tx V) : Pc V → Prop
  | .idle => True
  | .broken => True
  | .started op at_ => op ≠ .strict (some true) ∧ at_ < now ∧ t.broken = false ∧ t.mem = t.base ∧ Place m0 order t.base at_
  | .ran op r at_ => at_ < now ∧ t.broken = false ∧ t.mem = (t.base.apply op).getD t.base ∧ t.base.Answers op r ∧
      (t.base.apply op = none ↔ ∃ e, r = .error e) ∧ Place m0 order t.base at_

structure LinInv (f : ShapeN V) (m0 : Map V) (c : Callers V) (s : Snap V) (order : List (Done V)) : Prop where
  same : SameMany f c.db s
  perm : order.Perm (c.past.filter fun d => Effective d)
  real : RealTime order
  serial : Serial m0 order s.disk
  times : ∀ d ∈ order, d.start < c.now ∧ d.stop < c.now
  pc : ∀ i, PcInv m0 order c.now (s.tx i) (c.pc i)

theorem Place.last {m0 m : Map V} {order : List (Done V)} (h : Serial m0 order m) (t : Nat) : Place m0 order m t :=
  ⟨order, [], by simp, h, by simp⟩

theorem Place.snoc {m0 b : Map V} {order : List (Done V)} {t : Nat} (h : Place m0 order b t) {d : Done V} (hd : t < d.stop) :
    Place m0 (order ++ [d]) b t := by
  obtain ⟨l1, l2, h1, h2, h3⟩ := h
  refine ⟨l1, l2 ++ [d], by rw [h1, List.append_assoc], h2, ?_⟩
  intro x hx
  rcases List.mem_append.1 hx with hx | hx
  · exact h3 x hx
  · rw [List.mem_singleton.1 hx]; exact hd

/-- Another call is put at its place without changing the map. -/
theorem Place.insert {m0 b b' : Map V} {l1 l2 : List (Done V)} {t : Nat} (h : Place m0 (l1 ++ l2) b t) {d : Done V} (hd : t < d.stop)
    (hs : Serial m0 l1 b') (ha : b'.Answers d.op d.answer) (hu : (b'.apply d.op).getD b' = b') : Place m0 (l1 ++ d :: l2) b t := by
  obtain ⟨k1, k2, h1, h2, h3⟩ := h
  rcases List.append_eq_append_iff.1 h1 with ⟨a, e1, e2⟩ | ⟨a, e1, e2⟩
  · -- k1 = l1 ++ a
    subst e1
    obtain ⟨x, hx1, hx2⟩ := serial_append.1 h2
    have := serial_unique hx1 hs
    subst this
    refine ⟨l1 ++ d :: a, k2, by rw [e2]; simp, ?_, h3⟩
    exact serial_append.2 ⟨x, hx1, .cons ha (by rw [hu]; exact hx2)⟩
  · -- l1 = k1 ++ a
    subst e1
    refine ⟨k1, a ++ d :: l2, by simp, h2, ?_⟩
    intro x hx
    rcases List.mem_append.1 hx with hx | hx
    · exact h3 x (by rw [e2]; exact List.mem_append_left _ hx)
    · rcases List.mem_cons.1 hx with rfl | hx
      · exact hd
      · exact h3 x (by rw [e2]; exact List.mem_append_right _ hx)

theorem PcInv.mono {m0 : Map V} {o o' : List (Done V)} {now now' : Nat} {t : Tx V} (hn : now ≤ now')
    (hp : ∀ b u, u < now → Place m0 o b u → Place m0 o' b u) {p : Pc V} (h : PcInv m0 o now t p) : PcInv m0 o' now' t p := by
  cases p with
  | idle => trivial
  | broken => trivial
  | started op u =>
    obtain ⟨h1, h2, h3, h4, h5⟩ := h
    exact ⟨h1, by omega, h3, h4, hp _ _ h2 h5⟩
  | ran op r u =>
    obtain ⟨h1, h2, h3, h4, h5, h6⟩ := h
    exact ⟨by omega, h2, h3, h4, h5, hp _ _ h1 h6⟩

theorem LinInv.tick {f : ShapeN V} {m0 : Map V} {c : Callers V} {s : Snap V} {o : List (Done V)} (h : LinInv f m0 c s o) :
    LinInv f m0 c.tick s o :=
  ⟨h.same, h.perm, h.real, h.serial, fun d hd => ⟨Nat.lt_succ_of_lt (h.times d hd).1, Nat.lt_succ_of_lt (h.times d hd).2⟩,
    fun i => (h.pc i).mono (Nat.le_succ _) fun _ _ _ hp => hp⟩

theorem realTime_insert {l1 l2 : List (Done V)} {d : Done V} (h : RealTime (l1 ++ l2)) (h1 : ∀ x ∈ l1, ¬ d.stop < x.start)
    (h2 : ∀ x ∈ l2, ¬ x.stop < d.start) : RealTime (l1 ++ d :: l2) := by
  unfold RealTime at h ⊢
  rw [List.pairwise_append] at h ⊢
  refine ⟨h.1, List.pairwise_cons.2 ⟨h2, h.2.1⟩, ?_⟩
  intro a ha b hb
  rcases List.mem_cons.1 hb with rfl | hb
  · exact h1 a ha
  · exact h.2.2 a ha b hb

/-- A call that ends now and takes its place in the order. -/
theorem insert_order {m0 b m : Map V} {order : List (Done V)} {now : Nat} {d : Done V} (hr : RealTime order) (hs : Serial m0 order m)
    (ht : ∀ x ∈ order, x.start < now ∧ x.stop < now) (hd : d.stop = now) (hp : Place m0 order b d.start)
    (ha : b.Answers d.op d.answer) (hu : (b.apply d.op).getD b = b) :
    ∃ o', o'.Perm (d :: order) ∧ RealTime o' ∧ Serial m0 o' m ∧ ∀ b' u, u < now → Place m0 order b' u → Place m0 o' b' u := by
  obtain ⟨l1, l2, rfl, h2, h3⟩ := hp
  refine ⟨l1 ++ d :: l2, List.perm_middle, ?_, ?_, ?_⟩
  · refine realTime_insert hr (fun x hx => ?_) fun x hx => ?_
    · have := (ht x (List.mem_append_left _ hx)).1; omega
    · have := h3 x hx; omega
  · obtain ⟨x, hx1, hx2⟩ := serial_append.1 hs
    have := serial_unique hx1 h2
    subst this
    exact serial_append.2 ⟨x, hx1, .cons ha (by rw [hu]; exact hx2)⟩
  · intro b' u hu' hp
    exact hp.insert (by omega) h2 ha hu

section
variable [Truthy V] [DecidableEq V]

omit [Truthy V] [DecidableEq V] in
theorem update_pc {α : Type} {p : Nat → α} {i j : Nat} {x : α} (P : Nat → α → Prop) (h1 : P i x) (h2 : ∀ j, j ≠ i → P j (p j)) :
    P j (Function.update p i x j) := by
  by_cases hj : j = i
  · subst hj; rw [Function.update_self]; exact h1
  · rw [Function.update_of_ne hj]; exact h2 j hj

omit [Truthy V] [DecidableEq V] in
theorem snap_tx_other (s : Snap V) (i j : Nat) (hj : j ≠ i) (m : Move V) : (s.move i m).tx j = s.tx j := by
  unfold Snap.move Snap.setTx
  cases m <;> simp only <;> (try split_ifs) <;> simp [Function.update_of_ne hj]

omit [Truthy V] [DecidableEq V] in
theorem filter_effective_cons (d : Done V) (past : List (Done V)) (h : Effective d) :
    ((d :: past).filter fun d => Effective d) = d :: past.filter fun d => Effective d := by
  rw [List.filter_cons, if_pos (by simpa using h)]

theorem LinInv.act (hV : AllTruthy V) {f : ShapeN V} {m0 : Map V} {c : Callers V} {s : Snap V} {o : List (Done V)} (h : LinInv f m0 c s o)
    (i : Nat) (a : Act V) (ha : LenientAct a) : ∃ s' o', LinInv f m0 (c.act i a).tick s' o' := by
  unfold Callers.act
  have hpc := h.pc i
  cases hp : c.pc i with
  | idle =>
    cases a with
    | start op =>
      have hm := (h.same.plain hV i .begin trivial (by simp)).2
      refine ⟨s.move i .begin, o, hm, h.perm, h.real, h.serial,
        fun d hd => ⟨Nat.lt_succ_of_lt (h.times d hd).1, Nat.lt_succ_of_lt (h.times d hd).2⟩, fun j => ?_⟩
      refine update_pc (fun j x => PcInv m0 o (c.now + 1) ((s.move i .begin).tx j) x) ?_ fun j hj => ?_
      · have htx : (s.move i .begin).tx i = ⟨s.disk, s.disk, false⟩ := by simp [Snap.move, Snap.setTx]
        rw [htx]
        exact ⟨by rintro rfl; exact ha, Nat.lt_succ_self _, rfl, rfl, Place.last h.serial _⟩
      · rw [snap_tx_other s i j hj]; exact (h.pc j).mono (Nat.le_succ _) fun _ _ _ hp => hp
    | body => exact ⟨s, o, h.tick⟩
    | finish ok => exact ⟨s, o, h.tick⟩
    | recover => exact ⟨s, o, h.tick⟩
  | broken =>
    cases a with
    | start op => exact ⟨s, o, h.tick⟩
    | body => exact ⟨s, o, h.tick⟩
    | finish ok => exact ⟨s, o, h.tick⟩
    | recover =>
      have hm := (h.same.plain hV i .abort trivial (by simp)).2
      refine ⟨s.move i .abort, o, hm, h.perm, h.real, h.serial,
        fun d hd => ⟨Nat.lt_succ_of_lt (h.times d hd).1, Nat.lt_succ_of_lt (h.times d hd).2⟩, fun j => ?_⟩
      refine update_pc (fun j x => PcInv m0 o (c.now + 1) ((s.move i .abort).tx j) x) trivial fun j hj => ?_
      rw [snap_tx_other s i j hj]; exact (h.pc j).mono (Nat.le_succ _) fun _ _ _ hp => hp
  | started op t =>
    rw [hp] at hpc
    obtain ⟨q1, q2, q3, q4, q5⟩ := hpc
    cases a with
    | start op => exact ⟨s, o, h.tick⟩
    | finish ok => exact ⟨s, o, h.tick⟩
    | recover => exact ⟨s, o, h.tick⟩
    | body =>
      have hlen : LenientMove (.run op) := by
        unfold LenientMove
        split
        · rename_i h; injection h with h; exact q1 h
        · rename_i h; cases h
        · trivial
      obtain ⟨hans, hm⟩ := h.same.plain hV i (.run op) hlen (by simp)
      have herr := ((h.same.work i).fn hV op q1).2.2.1
      have hrun : (c.db.run i op).1 = (op.fn (c.db.sess i).work).1 := by
        unfold Shared.run; rw [h.same.broken i, q3]; simp
      have hmove : s.move i (.run op) = s.setTx i { s.tx i with mem := ((s.tx i).mem.apply op).getD (s.tx i).mem } := by
        unfold Snap.move; simp only [q3, Bool.false_eq_true, if_false]
      have hdisk : (s.move i (.run op)).disk = s.disk := by rw [hmove]; rfl
      refine ⟨s.move i (.run op), o, hm, h.perm, h.real, by rw [hdisk]; exact h.serial,
        fun d hd => ⟨Nat.lt_succ_of_lt (h.times d hd).1, Nat.lt_succ_of_lt (h.times d hd).2⟩, fun j => ?_⟩
      refine update_pc (fun j x => PcInv m0 o (c.now + 1) ((s.move i (.run op)).tx j) x) ?_ fun j hj => ?_
      · have htx : (s.move i (.run op)).tx i = { s.tx i with mem := ((s.tx i).mem.apply op).getD (s.tx i).mem } := by
          rw [hmove]; simp [Snap.setTx]
        rw [htx]
        refine ⟨by omega, q3, by simp only [q4], ?_, ?_, q5⟩
        · unfold Snap.Answers at hans
          simp only [q3, Bool.false_eq_true, if_false] at hans
          rw [q4] at hans
          exact hans
        · rw [q4] at herr
          rw [hrun]; exact herr
      · rw [snap_tx_other s i j hj]; exact (h.pc j).mono (Nat.le_succ _) fun _ _ _ hp => hp
  | ran op r t =>
    rw [hp] at hpc
    obtain ⟨q1, q2, q3, q4, q5, q6⟩ := hpc
    cases a with
    | start op => exact ⟨s, o, h.tick⟩
    | body => exact ⟨s, o, h.tick⟩
    | recover => exact ⟨s, o, h.tick⟩
    | finish ok =>
      simp only
      cases r with
      | error e =>
        unfold Callers.finish
        have hm := (h.same.plain hV i .abort trivial (by simp)).2
        have hnone := q5.2 ⟨e, rfl⟩
        have heff : Effective (⟨i, op, .error e, t, c.now⟩ : Done V) := by
          unfold Effective
          have := answers_effective q4
          simp only [ne_eq, Except.error.injEq]
          exact this
        obtain ⟨o', p1, p2, p3, p4⟩ := insert_order (d := ⟨i, op, .error e, t, c.now⟩) h.real h.serial h.times rfl q6 q4
          (by rw [hnone]; rfl)
        refine ⟨s.move i .abort, o', hm, ?_, p2, p3, ?_, fun j => ?_⟩
        · show o'.Perm (List.filter _ (_ :: c.past))
          rw [filter_effective_cons _ _ heff]
          exact p1.trans (h.perm.cons _)
        · intro d hd
          show d.start < c.now + 1 ∧ d.stop < c.now + 1
          rcases List.mem_cons.1 (p1.mem_iff.1 hd) with rfl | hd
          · exact ⟨by show t < _; omega, by show c.now < _; omega⟩
          · have := h.times d hd; omega
        · refine update_pc (fun j x => PcInv m0 o' (c.now + 1) ((s.move i .abort).tx j) x) trivial fun j hj => ?_
          rw [snap_tx_other s i j hj]; exact (h.pc j).mono (Nat.le_succ _) p4
      | ok v =>
        obtain ⟨ok', -, -, hans, hm⟩ := h.same.commit hV i ok
        have hcm : (c.db.move i (.commit ok)).2 = (c.db.commit i ok).2 := rfl
        have hca : (c.db.move i (.commit ok)).1 = (c.db.commit i ok).1.map fun _ => .unit := rfl
        rw [hca] at hans
        rw [hcm] at hm
        unfold Snap.Answers at hans
        simp only [q2, Bool.false_eq_true, if_false] at hans
        unfold Callers.finish
        by_cases hcom : s.Commits i ok'
        · rw [if_pos hcom] at hans
          rcases hr : c.db.commit i ok with ⟨r, db⟩
          rw [hr] at hans hm
          cases r with
          | error e => cases hans
          | ok u =>
            simp only at hm ⊢
            have hmove : s.move i (.commit ok') =
                (⟨Snap.overlay (s.tx i).base (s.tx i).mem s.disk, Function.update s.tx i
                  ⟨Snap.overlay (s.tx i).base (s.tx i).mem s.disk, Snap.overlay (s.tx i).base (s.tx i).mem s.disk, false⟩⟩ : Snap V) := by
              unfold Snap.move; simp only [q2, Bool.false_eq_true, if_false]; rw [if_pos hcom]
            have hdisk : (s.move i (.commit ok')).disk = Snap.overlay (s.tx i).base (s.tx i).mem s.disk := by rw [hmove]
            have heff : Effective (⟨i, op, .ok v, t, c.now⟩ : Done V) := by unfold Effective; simp
            have main : ∃ o', o'.Perm (⟨i, op, .ok v, t, c.now⟩ :: o) ∧ RealTime o' ∧
                Serial m0 o' (Snap.overlay (s.tx i).base (s.tx i).mem s.disk) ∧
                ∀ b' u, u < c.now → Place m0 o b' u → Place m0 o' b' u := by
              by_cases hne : (s.tx i).mem = (s.tx i).base
              · have hov : Snap.overlay (s.tx i).base (s.tx i).mem s.disk = s.disk := by
                  funext x; unfold Snap.overlay; simp [hne]
                rw [hov]
                exact insert_order (d := ⟨i, op, .ok v, t, c.now⟩) h.real h.serial h.times rfl q6 q4 (by rw [← q3]; exact hne)
              · obtain ⟨l1, l2⟩ := op_local op (s.tx i).base s.disk (by rw [← q3]; exact hcom.2.2) (by rw [← q3]; exact hne) q4
                rw [← q3] at l2
                refine ⟨o ++ [⟨i, op, .ok v, t, c.now⟩], List.perm_append_singleton _ _, ?_, ?_, ?_⟩
                · unfold RealTime
                  rw [List.pairwise_append]
                  refine ⟨h.real, List.pairwise_singleton _ _, ?_⟩
                  intro x hx y hy
                  rw [List.mem_singleton.1 hy]
                  have := (h.times x hx).1
                  show ¬ c.now < x.start
                  omega
                · exact serial_append.2 ⟨s.disk, h.serial, .cons l1 (by rw [l2]; exact .nil)⟩
                · intro b' u hu hp
                  exact hp.snoc hu
            obtain ⟨o', p1, p2, p3, p4⟩ := main
            refine ⟨s.move i (.commit ok'), o', hm, ?_, p2, by rw [hdisk]; exact p3, ?_, fun j => ?_⟩
            · show o'.Perm (List.filter _ (_ :: c.past))
              rw [filter_effective_cons _ _ heff]
              exact p1.trans (h.perm.cons _)
            · intro d hd
              show d.start < c.now + 1 ∧ d.stop < c.now + 1
              rcases List.mem_cons.1 (p1.mem_iff.1 hd) with rfl | hd
              · exact ⟨by show t < _; omega, by show c.now < _; omega⟩
              · have := h.times d hd; omega
            · refine update_pc (fun j x => PcInv m0 o' (c.now + 1) ((s.move i (.commit ok')).tx j) x) trivial fun j hj => ?_
              rw [snap_tx_other s i j hj]; exact (h.pc j).mono (Nat.le_succ _) p4
        · rw [if_neg hcom] at hans
          rcases hr : c.db.commit i ok with ⟨r, db⟩
          rw [hr] at hans hm
          cases r with
          | ok u => cases hans
          | error e =>
            have he : e = .storageError := by
              simp only [Except.map, Except.error.injEq] at hans; exact hans
            subst he
            simp only at hm ⊢
            have hmove : (s.move i (.commit ok')).disk = s.disk := by
              unfold Snap.move; simp only [q2, Bool.false_eq_true, if_false]; rw [if_neg hcom]; rfl
            refine ⟨s.move i (.commit ok'), o, hm, ?_, h.real, by rw [hmove]; exact h.serial,
              fun d hd => ⟨Nat.lt_succ_of_lt (h.times d hd).1, Nat.lt_succ_of_lt (h.times d hd).2⟩, fun j => ?_⟩
            · show o.Perm (List.filter _ (_ :: c.past))
              rw [List.filter_cons, if_neg (by simp [Effective])]
              exact h.perm
            · refine update_pc (fun j x => PcInv m0 o (c.now + 1) ((s.move i (.commit ok')).tx j) x) trivial fun j hj => ?_
              rw [snap_tx_other s i j hj]; exact (h.pc j).mono (Nat.le_succ _) fun _ _ _ hp => hp

theorem LinInv.acts (hV : AllTruthy V) {f : ShapeN V} {m0 : Map V} (as : List (Nat × Act V)) : ∀ {c : Callers V} {s : Snap V} {o : List (Done V)},
    LinInv f m0 c s o → (∀ x ∈ as, LenientAct x.2) → ∃ s' o', LinInv f m0 (c.acts as) s' o' := by
  induction as with
  | nil => intro c s o h _; exact ⟨s, o, h⟩
  | cons x as ih =>
    intro c s o h ha
    obtain ⟨s', o', h'⟩ := h.act hV x.1 x.2 (ha x List.mem_cons_self)
    exact ih h' fun y hy => ha y (List.mem_cons_of_mem _ hy)

/-- **C100.** Sessions that call create, update, delete (and `strict = False`) with autocommit on a database that was made by `Container.new`, used and resized
in any way before, and is not in strict mode, in every interleaving of the beginnings, bodies and ends of their calls: at every moment the calls that are over (but for those that raised
a conflict) can be put in an order that respects time, in which they give the same answers one after the other on a plain map, and lead to what
is stored. -/
theorem calls_linearizable (hV : AllTruthy V) {c0 : Container V} {m0 : Map V} (h0 : InUse c0 m0)
    (as : List (Nat × Act V)) (ha : ∀ x ∈ as, LenientAct x.2) :
    ∃ m, (∀ id, ((Callers.opened c0).acts as).db.disk.read id = .ok (m id)) ∧ Linearizable m0 ((Callers.opened c0).acts as).past m := by
  obtain ⟨f, hf⟩ := many_of_inUse h0
  have hi : LinInv f m0 (Callers.opened c0) (Snap.opened m0) [] :=
    ⟨opened_many hf, by simp [Callers.opened], List.Pairwise.nil, .nil, by simp, fun _ => trivial⟩
  obtain ⟨s, o, h⟩ := hi.acts hV as ha
  exact ⟨s.disk, fun id => h.same.disk.read hV id, o, h.perm, h.real, h.serial⟩

end
end Verif.Props
