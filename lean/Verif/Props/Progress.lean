import Verif.Props.Serial

/-!
# Conflicts mean that somebody got on (C149)
-/
namespace Verif.Props
open Verif Verif.Storage Verif.Spec Verif.Db
variable {V : Type}

namespace Progress

/-! ### Specification -/

/-- What everybody did and got: the session, the move and its answer, in the order in which it happened. -/
abbrev Event (V : Type) := Nat × Move V × Outcome (DbRet V)

/-- Session `i`'s commit raised although the storage had nothing against it: a conflict. -/
def lost (i : Nat) : Event V → Bool
  | (j, .commit true, .error .storageError) => j == i
  | _ => false

/-- Another session's commit returned. -/
def othersWin (i : Nat) : Event V → Bool
  | (j, .commit _, .ok _) => j != i
  | _ => false

/-- The record of a schedule. -/
def events [Truthy V] [DecidableEq V] (w : Shared V) : List (Nat × Move V) → List (Event V)
  | [] => []
  | (i, m) :: ms => (i, m, (w.move i m).1) :: events (w.move i m).2 ms

/-- The calls session `i` makes. -/
def callsOf (i : Nat) : List (Nat × Move V) → List (TxCall V)
  | [] => []
  | (j, .run op) :: ms => if j = i then .call op :: callsOf i ms else callsOf i ms
  | (j, .resize n mc cd t) :: ms => if j = i then .resize n mc cd t :: callsOf i ms else callsOf i ms
  | _ :: ms => callsOf i ms

/-- Session `i` neither begins nor ends a transaction. -/
def Inside (i : Nat) (ms : List (Nat × Move V)) : Prop :=
  ∀ x ∈ ms, x.1 = i → x.2 ≠ .begin ∧ x.2 ≠ .abort ∧ ∀ ok, x.2 ≠ .commit ok

/-- The calls of session `i` that raised a conflict (or were refused by the storage). -/
def lostCalls (i : Nat) (past : List (Done V)) : Nat := past.countP fun d => match d.answer with
  | .error .storageError => d.who == i
  | _ => false

/-- The calls of other sessions that returned. -/
def otherCalls (i : Nat) (past : List (Done V)) : Nat := past.countP fun d => match d.answer with
  | .ok _ => d.who != i
  | _ => false

/-- How often the storage refuses a commit of session `i`. -/
def refusals (i : Nat) (as : List (Nat × Act V)) : Nat := as.countP fun x => match x.2 with
  | .finish false => x.1 == i
  | _ => false

/-! ### Proofs -/

section
variable [DecidableEq V]

theorem sorted_mergeCollection {b w d c : Collection V} (hd : d.Sorted) (h : mergeCollection b w d = some c) : c.Sorted := by
  unfold mergeCollection at h
  cases ht : mergeTree b.tree w.tree d.tree with
  | none => rw [ht] at h; cases h
  | some t =>
    rw [ht] at h
    have hs := ((mergeTree_spec b.tree w.tree hd).2 t ht).1
    cases hu : mergeUnit b.strict w.strict d.strict with
    | none => rw [hu] at h; cases h
    | some s =>
      rw [hu] at h
      injection h with h
      subst h
      exact hs

theorem sorted_mergeGroup {b w d g : CGroup V} (hd : ∀ x ∈ d.collections, x.Sorted) (h : mergeGroup b w d = some g) : ∀ x ∈ g.collections, x.Sorted := by
  unfold mergeGroup at h
  cases hm : (b.collections.zip (w.collections.zip d.collections)).mapM fun p => mergeCollection p.1 p.2.1 p.2.2 with
  | none => rw [hm] at h; cases h
  | some cs =>
    rw [hm] at h
    injection h with h
    subst h
    intro x hx
    obtain ⟨hl, he⟩ := (mapM_option _ _).2 cs hm
    obtain ⟨i, hi, hxi⟩ := List.mem_iff_getElem.1 hx
    obtain ⟨y, hy1, hy2⟩ := he i _ (List.getElem?_eq_getElem (by rw [← hl]; exact hi))
    have hxy : cs[i]? = some x := by rw [List.getElem?_eq_getElem hi, hxi]
    have e : y = x := by rw [hy1] at hxy; injection hxy
    subst e
    refine sorted_mergeCollection (hd _ ?_) hy2
    have := List.getElem_mem (l := b.collections.zip (w.collections.zip d.collections)) (by rw [← hl]; exact hi)
    rcases hp : (b.collections.zip (w.collections.zip d.collections))[i]'(by rw [← hl]; exact hi) with ⟨p, q, r⟩
    rw [hp] at this
    exact (List.of_mem_zip (List.of_mem_zip this).2).2

/-- What is stored by a commit is tidy. -/
theorem tidy_merge {b w d m : Container V} (hw : Tidy w) (hd : Tidy d) (h : Db.merge b w d = some m) : Tidy m := by
  unfold Db.merge at h
  cases hu : mergeUnit (record b) (record w) (record d) with
  | none => rw [hu] at h; cases h
  | some r =>
    rcases r with ⟨gs, p, n⟩
    rw [hu] at h
    simp only at h
    split_ifs at h
    injection h with h
    subst h
    have hr : (gs, p, n) = record d ∨ (gs, p, n) = record w := by
      unfold mergeUnit at hu
      split_ifs at hu
      · injection hu with hu; exact .inl hu.symm
      · injection hu with hu; exact .inr hu.symm
    refine ⟨fun a x hx => ?_, ?_, ?_⟩
    · have hx : x ∈ (mergeAt b w d a).collections := hx
      unfold mergeAt at hx
      split_ifs at hx
      · cases hg : mergeGroup (b.heap a) (w.heap a) (d.heap a) with
        | none => rw [hg] at hx; exact hd.sorted a x hx
        | some g => rw [hg] at hx; exact sorted_mergeGroup (hd.sorted a) hg x hx
      · exact hd.sorted a x hx
      · exact hw.sorted a x hx
    · rcases hr with hr | hr <;> simp only [record, Prod.mk.injEq] at hr <;> obtain ⟨rfl, rfl, rfl⟩ := hr
      · exact hd.groups
      · exact hw.groups
    · rcases hr with hr | hr <;> simp only [record, Prod.mk.injEq] at hr <;> obtain ⟨rfl, rfl, rfl⟩ := hr
      · exact hd.primary
      · exact hw.primary

/-- Sessions work on tidy containers. -/
structure Sound (w : Shared V) : Prop where
  disk : Tidy w.disk
  base : ∀ i, Tidy (w.sess i).base
  work : ∀ i, Tidy (w.sess i).work ∧ From (w.sess i).base (w.sess i).work

omit [DecidableEq V] in
theorem Sound.set {w : Shared V} (h : Sound w) (i : Nat) {s : Sess V} {d : Container V} (hd : Tidy d) (hb : Tidy s.base)
    (hw : Tidy s.work ∧ From s.base s.work) : Sound { disk := d, sess := Function.update w.sess i s } := by
  refine ⟨hd, fun j => ?_, fun j => ?_⟩ <;> by_cases hj : j = i
  · subst hj; simpa using hb
  · simpa [Function.update_of_ne hj] using h.base j
  · subst hj; simpa using hw
  · simpa [Function.update_of_ne hj] using h.work j

omit [DecidableEq V] in
theorem opened_sound {c : Container V} (h : Tidy c) : Sound (Shared.opened c) := ⟨h, fun _ => h, fun _ => ⟨h, From.refl c⟩⟩

omit [DecidableEq V] in
theorem Sound.fresh {w : Shared V} (h : Sound w) (i : Nat) : Sound (w.setSess i (.fresh w.disk)) :=
  h.set i h.disk h.disk ⟨h.disk, From.refl _⟩

/-- A commit: it is stored, or it raises and nothing but the session's own state changes. -/
theorem commit_cases (w : Shared V) (i : Nat) (ok : Bool) :
    ((w.sess i).failed = true ∧ w.commit i ok = (.error .transactionFailed, w)) ∨
    ((w.sess i).failed = false ∧ ok = true ∧ ∃ c, Db.merge (w.sess i).base (w.sess i).work w.disk = some c ∧
      w.commit i ok = (.ok (), { disk := c, sess := Function.update w.sess i (.fresh c) })) ∨
    ((w.sess i).failed = false ∧ (ok = true → Db.merge (w.sess i).base (w.sess i).work w.disk = none) ∧
      w.commit i ok = (.error .storageError, w.setSess i { base := (w.sess i).base, work := (w.sess i).base, failed := true })) := by
  unfold Shared.commit
  cases hf : (w.sess i).failed with
  | true => exact .inl ⟨rfl, by simp⟩
  | false =>
    simp only [Bool.false_eq_true, if_false]
    cases ok with
    | false => exact .inr (.inr ⟨trivial, by simp, rfl⟩)
    | true =>
      cases hm : Db.merge (w.sess i).base (w.sess i).work w.disk with
      | none => exact .inr (.inr ⟨trivial, fun _ => rfl, rfl⟩)
      | some c => exact .inr (.inl ⟨trivial, rfl, c, rfl, rfl⟩)

theorem Sound.commit {w : Shared V} (h : Sound w) (i : Nat) (ok : Bool) : Sound (w.commit i ok).2 := by
  rcases commit_cases w i ok with ⟨-, e⟩ | ⟨-, -, c, hc, e⟩ | ⟨-, -, e⟩ <;> rw [e]
  · exact h
  · have ht := tidy_merge (h.work i).1 h.disk hc
    exact h.set i ht ht ⟨ht, From.refl _⟩
  · exact h.set i h.disk (h.base i) ⟨h.base i, From.refl _⟩

variable [Truthy V]

theorem Sound.move {w : Shared V} (h : Sound w) (i : Nat) (m : Move V) : Sound (w.move i m).2 := by
  cases m with
  | begin => exact h.fresh i
  | abort => exact h.fresh i
  | commit ok => exact h.commit i ok
  | run op =>
    show Sound (w.run i op).2
    unfold Shared.run
    split_ifs
    · exact h
    · obtain ⟨h1, h2⟩ := goes_on (w.sess i).work (.call op) (h.work i).1
      exact h.set i h.disk (h.base i) ⟨h1, (h.work i).2.trans h2⟩
  | resize n mc cd t =>
    show Sound (w.resize i n mc cd t).2
    unfold Shared.resize
    split_ifs
    · exact h
    · obtain ⟨h1, h2⟩ := goes_on (w.sess i).work (.resize n mc cd t) (h.work i).1
      exact h.set i h.disk (h.base i) ⟨h1, (h.work i).2.trans h2⟩

theorem Sound.moves (ms : List (Nat × Move V)) : ∀ {w : Shared V}, Sound w → Sound (w.moves ms) := by
  induction ms with
  | nil => intro w h; exact h
  | cons x ms ih => intro w h; exact ih (h.move x.1 x.2)

/-- What a move does to the stored state and to the transaction of session `i`, if it is not a commit of anybody that returns. -/
theorem move_disk {w : Shared V} (j : Nat) (m : Move V) (h : ∀ ok v, m = .commit ok → (w.move j m).1 ≠ .ok v) : (w.move j m).2.disk = w.disk := by
  cases m with
  | begin => rfl
  | abort => rfl
  | run op => show (w.run j op).2.disk = _; unfold Shared.run; split_ifs <;> rfl
  | resize n mc cd t => show (w.resize j n mc cd t).2.disk = _; unfold Shared.resize; split_ifs <;> rfl
  | commit ok =>
    show (w.commit j ok).2.disk = _
    rcases commit_cases w j ok with ⟨-, e⟩ | ⟨-, -, c, -, e⟩ | ⟨-, -, e⟩
    · rw [e]
    · exfalso
      refine h ok .unit rfl ?_
      show (w.commit j ok).1.map _ = _
      rw [e]; rfl
    · rw [e]; rfl

theorem move_other {w : Shared V} {i j : Nat} (hj : i ≠ j) (m : Move V) : (w.move j m).2.sess i = w.sess i := by
  cases m with
  | begin => exact Function.update_of_ne hj _ _
  | abort => exact Function.update_of_ne hj _ _
  | run op => show (w.run j op).2.sess i = _; unfold Shared.run; split_ifs <;> [rfl; exact Function.update_of_ne hj _ _]
  | resize n mc cd t => show (w.resize j n mc cd t).2.sess i = _; unfold Shared.resize; split_ifs <;> [rfl; exact Function.update_of_ne hj _ _]
  | commit ok =>
    show (w.commit j ok).2.sess i = _
    rcases commit_cases w j ok with ⟨-, e⟩ | ⟨-, -, c, -, e⟩ | ⟨-, -, e⟩ <;> rw [e]
    · exact Function.update_of_ne hj _ _
    · exact Function.update_of_ne hj _ _

/-- While nobody else's commit returns, a transaction sees what was stored when it began and its own calls on top. -/
theorem inside_state (i : Nat) (ms : List (Nat × Move V)) : ∀ {w : Shared V}, Inside i ms → (∀ e ∈ events w ms, othersWin i e = false) →
    (w.sess i).failed = false → (w.moves ms).disk = w.disk ∧
      (w.moves ms).sess i = { base := (w.sess i).base, work := execAll (w.sess i).work (callsOf i ms) } := by
  induction ms with
  | nil =>
    intro w _ _ hf
    refine ⟨rfl, ?_⟩
    show w.sess i = _
    rcases hs : w.sess i with ⟨b, k, f⟩
    rw [hs] at hf
    simp only at hf
    subst hf
    rfl
  | cons x ms ih =>
    rcases x with ⟨j, m⟩
    intro w hin he hf
    have hin' : Inside i ms := fun y hy => hin y (List.mem_cons_of_mem _ hy)
    have he' : ∀ e ∈ events (w.move j m).2 ms, othersWin i e = false := fun e h => he e (List.mem_cons_of_mem _ h)
    have h0 := he (j, m, (w.move j m).1) List.mem_cons_self
    by_cases hj : i = j
    · subst hj
      obtain ⟨n1, n2, n3⟩ := hin (i, m) List.mem_cons_self rfl
      cases m with
      | begin => exact absurd rfl n1
      | abort => exact absurd rfl n2
      | commit ok => exact absurd rfl (n3 ok)
      | run op =>
        have e : (w.move i (.run op)).2 = w.setSess i { w.sess i with work := (op.fn (w.sess i).work).2 } := by
          show (w.run i op).2 = _
          unfold Shared.run; rw [if_neg (by simp [hf])]
        have hs : (w.move i (.run op)).2.sess i = { w.sess i with work := (op.fn (w.sess i).work).2 } := by
          rw [e]; exact Function.update_self _ _ _
        obtain ⟨k1, k2⟩ := ih hin' he' (by rw [hs]; exact hf)
        refine ⟨k1.trans (by rw [e]; rfl), k2.trans ?_⟩
        rw [hs]
        simp only [callsOf, if_true]
        rfl
      | resize n mc cd t =>
        have e : (w.move i (.resize n mc cd t)).2 = w.setSess i { w.sess i with work := ((w.sess i).work.resize n mc cd t).2 } := by
          show (w.resize i n mc cd t).2 = _
          unfold Shared.resize; rw [if_neg (by simp [hf])]
        have hs : (w.move i (.resize n mc cd t)).2.sess i = { w.sess i with work := ((w.sess i).work.resize n mc cd t).2 } := by
          rw [e]; exact Function.update_self _ _ _
        obtain ⟨k1, k2⟩ := ih hin' he' (by rw [hs]; exact hf)
        refine ⟨k1.trans (by rw [e]; rfl), k2.trans ?_⟩
        rw [hs]
        simp only [callsOf, if_true]
        rfl
    · have hs := move_other (w := w) hj m
      have hd : (w.move j m).2.disk = w.disk := by
        refine move_disk j m fun ok v hm hv => ?_
        rw [hm] at h0 hv
        rw [hv] at h0
        simp only [othersWin, bne_eq_false_iff_eq] at h0
        exact hj h0.symm
      obtain ⟨k1, k2⟩ := ih hin' he' (by rw [hs]; exact hf)
      refine ⟨k1.trans hd, k2.trans ?_⟩
      rw [hs]
      cases m <;> simp [callsOf, Ne.symm hj]

/-- **C149.** Any number of sessions have used a database made by `Container.new` in any way.  Session `i` begins a transaction and makes calls (resizing
included) while others do anything but get a commit through.  Then its commit returns unless the storage refuses it, and what is stored is what the
calls make of the stored container when nobody else is there. -/
theorem first_commit_wins {c0 : Container V} (h0 : NewReach c0) (pre mid : List (Nat × Move V)) (i : Nat) (hin : Inside i mid)
    (hothers : ∀ e ∈ events (((Shared.opened c0).moves pre).begin i) mid, othersWin i e = false) :
    let w := (Shared.opened c0).moves pre
    let w' := ((w.begin i).moves mid).move i (.commit true)
    w'.1 = .ok .unit ∧ w'.2.disk = execAll w.disk (callsOf i mid) := by
  intro w w'
  have hs : Sound w := (opened_sound (tidy_of_reach h0)).moves pre
  have hb : (w.begin i).sess i = Sess.fresh w.disk := Function.update_self _ _ _
  obtain ⟨k1, k2⟩ := inside_state i mid (w := w.begin i) hin hothers (by rw [hb]; rfl)
  rw [hb] at k2
  have k1' : ((w.begin i).moves mid).disk = w.disk := k1
  have hm : Db.merge w.disk (execAll w.disk (callsOf i mid)) w.disk = some (execAll w.disk (callsOf i mid)) :=
    merge_alone hs.disk (goes_execAll (callsOf i mid) w.disk hs.disk).2
  have hc : ((w.begin i).moves mid).commit i true = (.ok (), (⟨execAll w.disk (callsOf i mid),
      Function.update ((w.begin i).moves mid).sess i (.fresh (execAll w.disk (callsOf i mid)))⟩ : Shared V)) := by
    unfold Shared.commit
    rw [k2, k1']
    simp only [Sess.fresh, Bool.false_eq_true, if_false]
    rw [hm]
  refine ⟨?_, ?_⟩
  · show (((w.begin i).moves mid).commit i true).1.map _ = _
    rw [hc]; rfl
  · show (((w.begin i).moves mid).commit i true).2.disk = _
    rw [hc]

omit [Truthy V] in
/-- A conflict: somebody else's commit was stored since the transaction began. -/
theorem lost_stale {w : Shared V} (h : Sound w) {i : Nat} (hl : (w.commit i true).1 = .error .storageError) : (w.sess i).failed = false ∧ (w.sess i).base ≠ w.disk := by
  rcases commit_cases w i true with ⟨-, e⟩ | ⟨-, -, c, -, e⟩ | ⟨hf, hn, e⟩
  · rw [e] at hl; cases hl
  · rw [e] at hl; cases hl
  · refine ⟨hf, fun hb => ?_⟩
    have := merge_alone (h.base i) (h.work i).2
    have hn := hn rfl
    rw [← hb, this] at hn
    cases hn

/-- The count so far, and one to spare for a session whose transaction is stale. -/
structure Owes (w : Shared V) (i F S : Nat) : Prop where
  sound : Sound w
  le : F ≤ S
  stale : (w.sess i).failed = false → (w.sess i).base ≠ w.disk → F + 1 ≤ S

theorem Owes.moves (i : Nat) (ms : List (Nat × Move V)) : ∀ {w : Shared V} {F S : Nat}, Owes w i F S →
    F + (events w ms).countP (lost i) ≤ S + (events w ms).countP (othersWin i) := by
  induction ms with
  | nil => intro w F S h; simpa [events] using h.le
  | cons x ms ih =>
    rcases x with ⟨j, m⟩
    intro w F S h
    have step : ∀ {a b : Nat}, (lost i (j, m, (w.move j m).1) = true → a = 1) → (lost i (j, m, (w.move j m).1) = false → a = 0) →
        (othersWin i (j, m, (w.move j m).1) = true → b = 1) → (othersWin i (j, m, (w.move j m).1) = false → b = 0) →
        Owes (w.move j m).2 i (F + a) (S + b) →
        F + (events w ((j, m) :: ms)).countP (lost i) ≤ S + (events w ((j, m) :: ms)).countP (othersWin i) := by
      intro a b h1 h2 h3 h4 ho
      have := ih ho
      simp only [events, List.countP_cons]
      cases hl : lost i (j, m, (w.move j m).1) <;> cases hw : othersWin i (j, m, (w.move j m).1) <;>
        simp only [Bool.false_eq_true, if_false, if_true] <;>
        simp only [hl, hw, Bool.false_eq_true, true_implies, false_implies, Bool.true_eq_false] at h1 h2 h3 h4 <;> omega
    have same : (w.move j m).2.disk = w.disk → (j = i → ((w.move j m).2.sess i).failed = true ∨ ((w.move j m).2.sess i).base = w.disk ∨
          ((w.move j m).2.sess i).base = (w.sess i).base ∧ ((w.move j m).2.sess i).failed = (w.sess i).failed) →
        lost i (j, m, (w.move j m).1) = false → othersWin i (j, m, (w.move j m).1) = false →
        F + (events w ((j, m) :: ms)).countP (lost i) ≤ S + (events w ((j, m) :: ms)).countP (othersWin i) := by
      intro hd hs hl hw
      refine step (a := 0) (b := 0) (by rw [hl]; simp) (fun _ => rfl) (by rw [hw]; simp) (fun _ => rfl) ⟨h.sound.move j m, h.le, fun hf hb => ?_⟩
      rw [hd] at hb
      by_cases hj : i = j
      · rcases hs hj.symm with e | e | ⟨e1, e2⟩
        · rw [e] at hf; cases hf
        · exact absurd e hb
        · rw [e1] at hb; rw [e2] at hf; exact h.stale hf hb
      · rw [move_other hj] at hf hb
        exact h.stale hf hb
    cases m with
    | begin => exact same rfl (fun e => by subst e; exact .inr (.inl (by simp [Shared.move, Shared.begin, Shared.setSess, Sess.fresh]))) rfl rfl
    | abort => exact same rfl (fun e => by subst e; exact .inr (.inl (by simp [Shared.move, Shared.abort, Shared.setSess, Sess.fresh]))) rfl rfl
    | run op =>
      refine same (move_disk j _ fun ok v e => by cases e) (fun e => ?_) rfl rfl
      subst e
      refine .inr (.inr ?_)
      show ((w.run j op).2.sess j).base = _ ∧ ((w.run j op).2.sess j).failed = _
      unfold Shared.run
      split_ifs
      · exact ⟨rfl, rfl⟩
      · simp [Shared.setSess]
    | resize n mc cd t =>
      refine same (move_disk j _ fun ok v e => by cases e) (fun e => ?_) rfl rfl
      subst e
      refine .inr (.inr ?_)
      show ((w.resize j n mc cd t).2.sess j).base = _ ∧ ((w.resize j n mc cd t).2.sess j).failed = _
      unfold Shared.resize
      split_ifs
      · exact ⟨rfl, rfl⟩
      · simp [Shared.setSess]
    | commit ok =>
      have e1 : (w.move j (.commit ok)).1 = (w.commit j ok).1.map fun _ => .unit := rfl
      have e2 : (w.move j (.commit ok)).2 = (w.commit j ok).2 := rfl
      rcases commit_cases w j ok with ⟨hf, e⟩ | ⟨hf, hok, c, hc, e⟩ | ⟨hf, hn, e⟩
      · have hl : lost i (j, .commit ok, (w.move j (.commit ok)).1) = false := by
          rw [e1, e]; cases ok <;> rfl
        refine same (by rw [e2, e]) (fun hj => .inr (.inr (by rw [e2, e]; exact ⟨rfl, rfl⟩))) hl (by rw [e1, e]; rfl)
      · have hl : lost i (j, .commit ok, (w.move j (.commit ok)).1) = false := by
          rw [e1, e]; cases ok <;> rfl
        have hd : (w.move j (.commit ok)).2.disk = c := by rw [e2, e]
        by_cases hj : i = j
        · subst hj
          have hw : othersWin i (i, .commit ok, (w.move i (.commit ok)).1) = false := by rw [e1, e]; simp [othersWin, Except.map]
          have hs : (w.move i (.commit ok)).2.sess i = .fresh c := by rw [e2, e]; exact Function.update_self _ _ _
          refine step (a := 0) (b := 0) (by rw [hl]; simp) (fun _ => rfl) (by rw [hw]; simp) (fun _ => rfl) ⟨h.sound.move i _, h.le, fun _ hb => ?_⟩
          exact absurd (by rw [hs, hd]; rfl) hb
        · have hw : othersWin i (j, .commit ok, (w.move j (.commit ok)).1) = true := by
            rw [e1, e]; simp [othersWin, Except.map, Ne.symm hj]
          refine step (a := 0) (b := 1) (by rw [hl]; simp) (fun _ => rfl) (fun _ => rfl) (by rw [hw]; simp) ⟨h.sound.move j _, ?_, fun _ _ => ?_⟩
          · have := h.le; omega
          · have := h.le; omega
      · have hw : othersWin i (j, .commit ok, (w.move j (.commit ok)).1) = false := by rw [e1, e]; rfl
        have hd : (w.move j (.commit ok)).2.disk = w.disk := by rw [e2, e]; rfl
        by_cases hj : j = i ∧ ok = true
        · obtain ⟨rfl, rfl⟩ := hj
          have hl : lost j (j, .commit true, (w.move j (.commit true)).1) = true := by rw [e1, e]; simp [lost, Except.map]
          obtain ⟨-, hb⟩ := lost_stale h.sound (i := j) (by rw [e])
          have hle := h.stale hf hb
          refine step (a := 1) (b := 0) (fun _ => rfl) (by rw [hl]; simp) (by rw [hw]; simp) (fun _ => rfl) ⟨h.sound.move j _, hle, fun hf' _ => ?_⟩
          rw [e2, e] at hf'
          simp [Shared.setSess] at hf'
        · have hl : lost i (j, .commit ok, (w.move j (.commit ok)).1) = false := by
            rw [e1, e]
            cases ok with
            | false => rfl
            | true => simp only [lost, Except.map, beq_eq_false_iff_ne]; exact fun e => hj ⟨e, rfl⟩
          refine same hd (fun hj' => .inl ?_) hl hw
          subst hj'
          rw [e2, e]
          simp [Shared.setSess]

/-- **C149.** Any number of sessions use a database made by `Container.new` (with any flag, used and resized in any way before), in every interleaving, whatever
the storage refuses: the number of conflicts a session has run into is at most the number of commits of other sessions that were stored. -/
theorem conflicts_bounded {c0 : Container V} (h0 : NewReach c0) (ms : List (Nat × Move V)) (i : Nat) :
    (events (Shared.opened c0) ms).countP (lost i) ≤ (events (Shared.opened c0) ms).countP (othersWin i) := by
  have := Owes.moves i ms (w := Shared.opened c0) (F := 0) (S := 0) ⟨opened_sound (tidy_of_reach h0), le_rfl, fun _ h => absurd rfl h⟩
  omega

end

/-! ### Calls with autocommit -/

section
variable [Truthy V]

omit [Truthy V] in
theorem route_err {α : Type} (g : CGroup V) (k : String) (fn : Collection V → Outcome α × Collection V) (h : ∀ x, (fn x).1 ≠ .error .storageError) :
    (g.route k fn).1 ≠ .error .storageError := by
  unfold CGroup.route groupIndex
  split_ifs
  · intro h; cases h
  · simp only
    split
    · intro h; cases h
    · exact h _

omit [Truthy V] in
theorem insert_err (g : CGroup V) (k : String) (v : V) : (g.insert k v).1 ≠ .error .storageError := by
  unfold CGroup.insert
  split
  · rename_i e he
    unfold groupIndex at he
    split_ifs at he
    injection he with he; subst he
    intro h; cases h
  · split_ifs
    · intro h; cases h
    · refine route_err g k _ fun x => ?_
      unfold Collection.insert
      split_ifs
      · intro h; cases h
      · intro h; cases h

omit [Truthy V] in
theorem pop_err (g : CGroup V) (k : String) (d : Option V) : (g.pop k d).1 ≠ .error .storageError := by
  refine route_err g k _ fun x => ?_
  unfold Collection.pop
  split <;> (intro h; cases h)

omit [Truthy V] in
theorem updateLoop_err (n : Nat) (d : List (String × V)) (cs : List (Collection V)) : ∀ i, (CGroup.updateLoop n d i cs).1 ≠ .error .storageError := by
  induction cs with
  | nil => intro i h; cases h
  | cons c cs ih =>
    intro i
    unfold CGroup.updateLoop
    simp only
    split_ifs
    · exact ih _
    · split
      · rename_i e c' heq
        have hu : (c.update (d.filter fun p => hashId p.1 % n = i)).1 ≠ .error .storageError := by
          unfold Collection.update
          simp only
          split_ifs <;> (intro h; cases h)
        rw [heq] at hu
        exact hu
      · exact ih _

omit [Truthy V] in
theorem update_err (g : CGroup V) (d : List (String × V)) : (g.update d).1 ≠ .error .storageError := by
  unfold CGroup.update
  simp only
  split_ifs
  · intro h; cases h
  · intro h; cases h
  · exact updateLoop_err _ _ _ _

omit [Truthy V] in
theorem write_err (c : Container V) (k : String) (v : V) : (c.write k v).1 ≠ .error .storageError := by
  unfold Container.write
  have h1 := insert_err (c.heap c.primary) k v
  split
  · rename_i heq; rw [heq] at h1; exact fun h => h1 (by injection h with h; rw [h])
  · intro h; cases h
  · rename_i g heq
    have h2 := update_err g [(k, v)]
    split
    · rename_i heq'; rw [heq'] at h2; exact fun h => h2 (by injection h with h; rw [h])
    · intro h; cases h

omit [Truthy V] in
theorem routeRead_err {α : Type} (g : CGroup V) (k : String) (fn : Collection V → α) : g.routeRead k fn ≠ .error .storageError := by
  unfold CGroup.routeRead groupIndex
  split_ifs
  · intro h; cases h
  · simp only
    split <;> (intro h; cases h)

omit [Truthy V] in
theorem has_err (c : Container V) (k : String) : c.has k ≠ .error .storageError := by
  unfold Container.has
  induction c.groups with
  | nil => intro h; cases h
  | cons a as ih =>
    have h1 : (c.heap a).hasKey k ≠ .error .storageError := routeRead_err _ _ _
    unfold Container.hasLoop
    split
    · rename_i heq; rw [heq] at h1; exact fun h => h1 (by injection h with h; rw [h])
    · split
      · rename_i heq; rw [heq] at ih; exact fun h => ih (by injection h with h; rw [h])
      · intro h; cases h

theorem read_err (c : Container V) (k : String) : c.read k ≠ .error .storageError := by
  unfold Container.read
  induction c.groups with
  | nil => intro h; cases h
  | cons a as ih =>
    have h1 : (c.heap a).get k ≠ .error .storageError := routeRead_err _ _ _
    unfold Container.readLoop
    split
    · rename_i heq; rw [heq] at h1; exact fun h => h1 (by injection h with h; rw [h])
    · exact ih
    · split_ifs
      · intro h; cases h
      · exact ih

omit [Truthy V] in
theorem deleteLoop_err (k : String) (as : List Nat) : ∀ c : Container V, (Container.deleteLoop k as c).1 ≠ .error .storageError := by
  induction as with
  | nil => intro c h; cases h
  | cons a as ih =>
    intro c
    have h1 := has_err c k
    unfold Container.deleteLoop
    split
    · rename_i heq; rw [heq] at h1; exact fun h => h1 (by injection h with h; rw [h])
    · exact ih c
    · have h2 := pop_err (c.heap a) k none
      split
      · rename_i heq; rw [heq] at h2; exact fun h => h2 (by injection h with h; rw [h])
      · rename_i g heq
        have h3 := ih (c.put a g)
        split
        · rename_i heq'; rw [heq'] at h3; exact fun h => h3 (by injection h with h; rw [h])
        · intro h; cases h

theorem map_err {α β : Type} {r : Outcome α} (f : α → β) (h : r ≠ .error .storageError) : r.map f ≠ .error .storageError := by
  cases r with
  | error e => intro h'; injection h' with h'; exact h (by rw [h'])
  | ok v => intro h'; cases h'

/-- The body of a call never raises what a failed commit raises. -/
theorem fn_err (op : DbOp V) (c : Container V) : (op.fn c).1 ≠ .error .storageError := by
  cases op with
  | create id obj =>
    show (createFn id obj c).1 ≠ _
    have h1 := has_err c id
    unfold createFn
    split
    · rename_i heq; rw [heq] at h1; exact fun h => h1 (by injection h with h; rw [h])
    · exact map_err _ (write_err c id obj)
    · intro h; cases h
  | update id obj =>
    show (updateFn id obj c).1 ≠ _
    have h1 := read_err c id
    unfold updateFn
    split
    · rename_i heq; rw [heq] at h1; exact fun h => h1 (by injection h with h; rw [h])
    · exact map_err _ (write_err c id obj)
  | delete id => exact map_err _ (deleteLoop_err id c.groups c)
  | strict b =>
    show (strictFn b c).1 ≠ _
    unfold strictFn
    split <;> (intro h; cases h)

variable [DecidableEq V]

/-- Calls in progress belong to transactions that have not failed. -/
structure Going (s : Callers V) : Prop where
  sound : Sound s.db
  started : ∀ j op t, s.pc j = .started op t → (s.db.sess j).failed = false
  ran : ∀ j op r t, s.pc j = .ran op r t → r ≠ .error .storageError ∧ (s.db.sess j).failed = false

/-- A step of a session leaves the others alone. -/
theorem act_other (s : Callers V) {i j : Nat} (hj : j ≠ i) (a : Act V) : (s.act i a).pc j = s.pc j ∧ (s.act i a).db.sess j = s.db.sess j := by
  unfold Callers.act
  split
  · exact ⟨Function.update_of_ne hj _ _, Function.update_of_ne hj _ _⟩
  · exact ⟨Function.update_of_ne hj _ _, move_other hj (.run _)⟩
  · rename_i op r t ok _
    unfold Callers.finish
    split
    · exact ⟨Function.update_of_ne hj _ _, Function.update_of_ne hj _ _⟩
    · have h := move_other (w := s.db) hj (.commit ok)
      split <;> rename_i heq
      · have h' : (s.db.commit i ok).2.sess j = s.db.sess j := h
        rw [heq] at h'
        exact ⟨Function.update_of_ne hj _ _, h'⟩
      · have h' : (s.db.commit i ok).2.sess j = s.db.sess j := h
        rw [heq] at h'
        exact ⟨Function.update_of_ne hj _ _, h'⟩
  · exact ⟨Function.update_of_ne hj _ _, Function.update_of_ne hj _ _⟩
  · exact ⟨rfl, rfl⟩

/-- The possible steps: the number of conflicts of `i`, of other calls that have returned, the stored state and `i`'s own transaction. -/
theorem Going.act {s : Callers V} (h : Going s) (j : Nat) (a : Act V) : Going (s.act j a) := by
  have other : ∀ {s' : Callers V}, s' = s.act j a → Sound s'.db → (∀ op t, s'.pc j = .started op t → (s'.db.sess j).failed = false) →
      (∀ op r t, s'.pc j = .ran op r t → r ≠ .error .storageError ∧ (s'.db.sess j).failed = false) → Going s' := by
    intro s' e h1 h2 h3
    refine ⟨h1, fun k op t hk => ?_, fun k op r t hk => ?_⟩ <;> by_cases hkj : k = j
    · subst hkj; exact h2 op t hk
    · rw [e, (act_other s hkj a).1] at hk; rw [e, (act_other s hkj a).2]; exact h.started k op t hk
    · subst hkj; exact h3 op r t hk
    · rw [e, (act_other s hkj a).1] at hk; rw [e, (act_other s hkj a).2]; exact h.ran k op r t hk
  refine other rfl ?_ ?_ ?_ <;> unfold Callers.act
  · split
    · exact h.sound.fresh j
    · exact h.sound.move j (.run _)
    · rename_i op r t ok _
      unfold Callers.finish
      split
      · exact h.sound.fresh j
      · have hs := h.sound.commit j ok
        split <;> rename_i heq <;> (rw [heq] at hs; exact hs)
    · exact h.sound.fresh j
    · exact h.sound
  · split
    · intro op t _; simp [Shared.begin, Shared.setSess, Sess.fresh]
    · intro op t hk; simp at hk
    · rename_i op r t ok _
      unfold Callers.finish
      split
      · intro op t hk; simp at hk
      · split
        · intro op t hk; simp at hk
        · intro op t hk; simp at hk
    · intro op t hk; simp at hk
    · exact h.started j
  · split
    · intro op r t hk; simp at hk
    · rename_i op0 t0 hpc
      intro op r t hk
      have hf := h.started j op0 t0 hpc
      simp only [Function.update_self, Pc.ran.injEq] at hk
      obtain ⟨-, rfl, -⟩ := hk
      unfold Shared.run
      rw [if_neg (by simp [hf])]
      refine ⟨fn_err op0 _, ?_⟩
      simpa [Shared.setSess] using hf
    · rename_i op r t ok _
      unfold Callers.finish
      split
      · intro op r t hk; simp at hk
      · split
        · intro op r t hk; simp at hk
        · intro op r t hk; simp at hk
    · intro op r t hk; simp at hk
    · exact h.ran j

omit [Truthy V] [DecidableEq V] in
theorem Going.tick {s : Callers V} (h : Going s) : Going s.tick := ⟨h.sound, h.started, h.ran⟩

theorem Going.acts (as : List (Nat × Act V)) : ∀ {s : Callers V}, Going s → Going (s.acts as) := by
  induction as with
  | nil => intro s h; exact h
  | cons x as ih => intro s h; exact ih (h.act x.1 x.2).tick

omit [Truthy V] [DecidableEq V] in
theorem opened_going {c : Container V} (h : Tidy c) : Going (Callers.opened c) :=
  ⟨opened_sound h, fun _ _ _ e => (nomatch e), fun _ _ _ _ e => (nomatch e)⟩

/-- What a step of session `j` can mean for session `i`: nothing is stored, or a call of `j` returns; session `i` runs into a conflict only if its transaction is stale. -/
theorem act_effect {s : Callers V} (h : Going s) (i j : Nat) (a : Act V) :
    (otherCalls i (s.act j a).past = otherCalls i s.past ∧ lostCalls i (s.act j a).past = lostCalls i s.past ∧ (s.act j a).db.disk = s.db.disk ∧
      ((s.act j a).db.sess i).failed = (s.db.sess i).failed ∧ ((s.act j a).db.sess i).base = (s.db.sess i).base) ∨
    (otherCalls i (s.act j a).past = otherCalls i s.past ∧ lostCalls i (s.act j a).past = lostCalls i s.past ∧
      ((s.act j a).db.sess i).base = (s.act j a).db.disk ∧ j = i) ∨
    (otherCalls i (s.act j a).past = otherCalls i s.past + 1 ∧ lostCalls i (s.act j a).past = lostCalls i s.past ∧ j ≠ i) ∨
    (otherCalls i (s.act j a).past = otherCalls i s.past ∧ lostCalls i (s.act j a).past = lostCalls i s.past + 1 ∧ j = i ∧
      ((s.act j a).db.sess i).failed = true ∧ (a = .finish false ∨ (s.db.sess i).failed = false ∧ (s.db.sess i).base ≠ s.db.disk)) := by
  have own : ∀ {d : Container V} {x : Sess V}, x = .fresh d → x.base = d := fun e => by rw [e]; rfl
  have back : ∀ {s' : Callers V}, s' = s.act j a → s'.past = s.past → s'.db = s.db.setSess j (.fresh s.db.disk) →
      (otherCalls i s'.past = otherCalls i s.past ∧ lostCalls i s'.past = lostCalls i s.past ∧ s'.db.disk = s.db.disk ∧
        (s'.db.sess i).failed = (s.db.sess i).failed ∧ (s'.db.sess i).base = (s.db.sess i).base) ∨
      (otherCalls i s'.past = otherCalls i s.past ∧ lostCalls i s'.past = lostCalls i s.past ∧ (s'.db.sess i).base = s'.db.disk ∧ j = i) := by
    intro s' e hp hd
    by_cases hj : i = j
    · subst hj
      exact .inr ⟨by rw [hp], by rw [hp], by rw [hd]; simp [Shared.setSess, Sess.fresh], rfl⟩
    · have := (act_other s hj a).2
      rw [← e] at this
      exact .inl ⟨by rw [hp], by rw [hp], by rw [hd]; rfl, by rw [this], by rw [this]⟩
  unfold Callers.act
  split
  · rename_i op hpc
    have e : { s with db := s.db.begin j, pc := Function.update s.pc j (.started op s.now) } = s.act j (.start op) := by unfold Callers.act; rw [hpc]
    rcases back e rfl rfl with k | k
    · exact .inl k
    · exact .inr (.inl k)
  · rename_i op t hpc
    refine .inl ⟨rfl, rfl, ?_, ?_, ?_⟩
    · show (s.db.run j op).2.disk = _; unfold Shared.run; split_ifs <;> rfl
    · show ((s.db.run j op).2.sess i).failed = _
      unfold Shared.run; split_ifs
      · rfl
      · by_cases hj : i = j
        · subst hj; simp [Shared.setSess]
        · simp [Shared.setSess, Function.update_of_ne hj]
    · show ((s.db.run j op).2.sess i).base = _
      unfold Shared.run; split_ifs
      · rfl
      · by_cases hj : i = j
        · subst hj; simp [Shared.setSess]
        · simp [Shared.setSess, Function.update_of_ne hj]
  · rename_i op r t ok hpc
    obtain ⟨hr, hf⟩ := h.ran j op r t hpc
    unfold Callers.finish
    cases r with
    | error e =>
      have c1 : ∀ n : Nat, otherCalls i ((⟨j, op, .error e, t, n⟩ : Done V) :: s.past) = otherCalls i s.past := fun n => by
        simp [otherCalls]
      have c2 : ∀ n : Nat, lostCalls i ((⟨j, op, .error e, t, n⟩ : Done V) :: s.past) = lostCalls i s.past := fun n => by
        cases e <;> simp [lostCalls] at hr ⊢
      by_cases hj : i = j
      · subst hj
        exact .inr (.inl ⟨c1 _, c2 _, by simp [Shared.abort, Shared.setSess, Sess.fresh], rfl⟩)
      · exact .inl ⟨c1 _, c2 _, rfl, by simp [Shared.abort, Shared.setSess, Function.update_of_ne hj],
          by simp [Shared.abort, Shared.setSess, Function.update_of_ne hj]⟩
    | ok v =>
      have c1 : ∀ n : Nat, lostCalls i ((⟨j, op, .ok v, t, n⟩ : Done V) :: s.past) = lostCalls i s.past := fun n => by
        simp [lostCalls]
      have c2 : ∀ n : Nat, otherCalls i ((⟨j, op, .ok v, t, n⟩ : Done V) :: s.past) = otherCalls i s.past + if j = i then 0 else 1 := fun n => by
        by_cases hj : j = i <;> simp [otherCalls, hj]
      have c3 : ∀ n : Nat, otherCalls i ((⟨j, op, .error .storageError, t, n⟩ : Done V) :: s.past) = otherCalls i s.past := fun n => by
        simp [otherCalls]
      have c4 : ∀ n : Nat, lostCalls i ((⟨j, op, .error .storageError, t, n⟩ : Done V) :: s.past) = lostCalls i s.past + if j = i then 1 else 0 := fun n => by
        by_cases hj : j = i <;> simp [lostCalls, hj]
      rcases commit_cases s.db j ok with ⟨hf', -⟩ | ⟨-, hok, c, hc, e⟩ | ⟨-, hn, e⟩
      · rw [hf] at hf'; cases hf'
      · simp only [e]
        by_cases hj : i = j
        · subst hj
          exact .inr (.inl ⟨by simpa using c2 s.now, c1 _, by simp [Sess.fresh], rfl⟩)
        · exact .inr (.inr (.inl ⟨by simpa [Ne.symm hj] using c2 s.now, c1 _, Ne.symm hj⟩))
      · simp only [e]
        by_cases hj : i = j
        · subst hj
          refine .inr (.inr (.inr ⟨c3 _, by simpa using c4 s.now, rfl, by simp [Shared.setSess], ?_⟩))
          cases ok with
          | false => exact .inl rfl
          | true => exact .inr (lost_stale h.sound (by rw [e]))
        · exact .inl ⟨c3 _, by simpa [Ne.symm hj] using c4 s.now, rfl, by simp [Shared.setSess, Function.update_of_ne hj],
            by simp [Shared.setSess, Function.update_of_ne hj]⟩
  · rename_i hpc
    have e : { s with db := s.db.abort j, pc := Function.update s.pc j .idle } = s.act j .recover := by unfold Callers.act; rw [hpc]
    rcases back e rfl rfl with k | k
    · exact .inl k
    · exact .inr (.inl k)
  · exact .inl ⟨rfl, rfl, rfl, rfl, rfl⟩

theorem lost_bound (i : Nat) (as : List (Nat × Act V)) : ∀ {s : Callers V} {R : Nat}, Going s → lostCalls i s.past ≤ otherCalls i s.past + R →
    ((s.db.sess i).failed = false → (s.db.sess i).base ≠ s.db.disk → lostCalls i s.past + 1 ≤ otherCalls i s.past + R) →
    lostCalls i (s.acts as).past ≤ otherCalls i (s.acts as).past + R + refusals i as := by
  induction as with
  | nil => intro s R _ h _; simpa [refusals, Callers.acts] using h
  | cons x as ih =>
    rcases x with ⟨j, a⟩
    intro s R hg hle hst
    have hg' := (hg.act j a).tick
    show lostCalls i ((s.act j a).tick.acts as).past ≤ otherCalls i ((s.act j a).tick.acts as).past + R + _
    have hr : refusals i as ≤ refusals i ((j, a) :: as) := by simp [refusals, List.countP_cons]
    have p : (s.act j a).tick.past = (s.act j a).past := rfl
    have d : (s.act j a).tick.db = (s.act j a).db := rfl
    rcases act_effect hg i j a with ⟨e1, e2, e3, e4, e5⟩ | ⟨e1, e2, e3, e4⟩ | ⟨e1, e2, e3⟩ | ⟨e1, e2, e3, e4, e5⟩
    · have := ih (R := R) hg' (by rw [p, e1, e2]; exact hle) (fun hf hb => by
        rw [d] at hf hb; rw [e4] at hf; rw [e5, e3] at hb; rw [p, e1, e2]; exact hst hf hb)
      omega
    · have := ih (R := R) hg' (by rw [p, e1, e2]; exact hle) (fun hf hb => by
        rw [d] at hb; exact absurd e3 hb)
      omega
    · have := ih (R := R) hg' (by rw [p, e1, e2]; omega) (fun hf hb => by rw [p, e1, e2]; omega)
      omega
    · rcases e5 with rfl | ⟨hf, hb⟩
      · have hr : refusals i ((j, .finish false) :: as) = refusals i as + 1 := by simp [refusals, e3]
        have := ih (R := R + 1) hg' (by rw [p, e1, e2]; omega) (fun hf' _ => by rw [d, e4] at hf'; cases hf')
        omega
      · have := ih (R := R) hg' (by rw [p, e1, e2]; have := hst hf hb; omega) (fun hf' _ => by rw [d, e4] at hf'; cases hf')
        omega

/-- **C149.** Any number of sessions call create, update, delete and `strict = ...` with autocommit (after a failed call: abort, switch it on and try
again), in every interleaving of the beginnings, bodies and ends of the calls: a session has run into at most as many failed commits as there are calls of others that returned,
besides those the storage refused. -/
theorem call_conflicts_bounded {c0 : Container V} (h0 : NewReach c0) (as : List (Nat × Act V)) (i : Nat) :
    lostCalls i ((Callers.opened c0).acts as).past ≤ otherCalls i ((Callers.opened c0).acts as).past + refusals i as := by
  have := lost_bound i as (s := Callers.opened c0) (R := 0) (opened_going (tidy_of_reach h0)) (le_refl 0) (fun _ h => absurd rfl h)
  omega

/-- Steps of others while none of their calls returns. -/
theorem quiet_state (i : Nat) (as : List (Nat × Act V)) : ∀ {s : Callers V}, Going s → (∀ x ∈ as, x.1 ≠ i) →
    otherCalls i s.past ≤ otherCalls i (s.acts as).past ∧
    (otherCalls i (s.acts as).past = otherCalls i s.past → (s.acts as).db.disk = s.db.disk ∧ (s.acts as).db.sess i = s.db.sess i ∧ (s.acts as).pc i = s.pc i) := by
  induction as with
  | nil => intro s _ _; exact ⟨le_rfl, fun _ => ⟨rfl, rfl, rfl⟩⟩
  | cons x as ih =>
    rcases x with ⟨j, a⟩
    intro s hg hi
    have hj : j ≠ i := hi _ List.mem_cons_self
    obtain ⟨k1, k2⟩ := ih (hg.act j a).tick fun y hy => hi y (List.mem_cons_of_mem _ hy)
    have p : (s.act j a).tick.past = (s.act j a).past := rfl
    rw [p] at k1 k2
    show _ ≤ otherCalls i ((s.act j a).tick.acts as).past ∧ (otherCalls i ((s.act j a).tick.acts as).past = _ →
      ((s.act j a).tick.acts as).db.disk = _ ∧ ((s.act j a).tick.acts as).db.sess i = _ ∧ ((s.act j a).tick.acts as).pc i = _)
    rcases act_effect hg i j a with ⟨e1, e2, e3, e4, e5⟩ | ⟨e1, e2, e3, e4⟩ | ⟨e1, e2, e3⟩ | ⟨e1, e2, e3, e4, e5⟩
    · rw [e1] at k1 k2
      refine ⟨k1, fun h => ?_⟩
      obtain ⟨m1, m2, m3⟩ := k2 h
      exact ⟨m1.trans e3, m2.trans (act_other s (Ne.symm hj) a).2, m3.trans (act_other s (Ne.symm hj) a).1⟩
    · exact absurd e4 hj
    · rw [e1] at k1
      exact ⟨by omega, fun h => by omega⟩
    · exact absurd e3 hj

/-- **C149.** In any state of such a run session `i` is idle and makes a call.  While it runs others do anything, but none of their calls returns.  Then the
call raises no conflict: unless the storage refuses it, it answers what the method answers on the stored container when nobody else is there, and leaves what the method leaves (nothing if it raises). -/
theorem lone_call {c0 : Container V} (h0 : NewReach c0) (pre m1 m2 : List (Nat × Act V)) (i : Nat) (op : DbOp V)
    (hidle : ((Callers.opened c0).acts pre).pc i = .idle) (h1 : ∀ x ∈ m1, x.1 ≠ i) (h2 : ∀ x ∈ m2, x.1 ≠ i) :
    let s := (Callers.opened c0).acts pre
    let s1 := s.acts ((i, .start op) :: m1 ++ (i, .body) :: m2)
    otherCalls i s1.past = otherCalls i s.past →
    let s2 := s1.acts [(i, .finish true)]
    s2.past.head?.map (fun d => (d.who, d.answer)) = some (i, (op.fn s.db.disk).1) ∧ s2.pc i = .idle ∧
    s2.db.disk = match (op.fn s.db.disk).1 with
      | .ok _ => (op.fn s.db.disk).2
      | .error _ => s.db.disk := by
  intro s s1 hq s2
  have acts_append : ∀ (a b : List (Nat × Act V)) (s : Callers V), s.acts (a ++ b) = (s.acts a).acts b := by
    intro a
    induction a with
    | nil => intro b s; rfl
    | cons x a ih => intro b s; exact ih b _
  have hg : Going s := (opened_going (tidy_of_reach h0)).acts pre
  -- the beginning
  let a1 := (s.act i (.start op)).tick
  have e1 : s.act i (.start op) = { s with db := s.db.begin i, pc := Function.update s.pc i (.started op s.now) } := by
    unfold Callers.act; rw [hidle]
  have g1 : Going a1 := (hg.act i _).tick
  let b1 := a1.acts m1
  have g2 : Going b1 := g1.acts m1
  let a2 := (b1.act i .body).tick
  have g3 : Going a2 := (g2.act i _).tick
  have hs1 : s1 = a2.acts m2 := by
    show s.acts (((i, .start op) :: m1) ++ (i, .body) :: m2) = _
    rw [acts_append]; rfl
  obtain ⟨q1, q2⟩ := quiet_state i m1 g1 h1
  obtain ⟨q3, q4⟩ := quiet_state i m2 g3 h2
  have pa : a1.past = s.past := by show (s.act i (.start op)).past = _; rw [e1]
  have o1 : otherCalls i b1.past = otherCalls i s.past ∧ otherCalls i a2.past = otherCalls i b1.past ∧ otherCalls i (a2.acts m2).past = otherCalls i a2.past := by
    rw [hs1] at hq
    rw [pa] at q1
    have : otherCalls i b1.past ≤ otherCalls i a2.past := by
      show _ ≤ otherCalls i (b1.act i .body).past
      rcases act_effect g2 i i .body with ⟨e, -⟩ | ⟨e, -⟩ | ⟨e, -, h⟩ | ⟨e, -⟩
      · exact e.ge
      · exact e.ge
      · exact absurd rfl h
      · exact e.ge
    have q1' : otherCalls i s.past ≤ otherCalls i b1.past := q1
    omega
  obtain ⟨d1, d2, d3⟩ := q2 (by rw [pa]; exact o1.1)
  have sa : a1.db.sess i = .fresh s.db.disk ∧ a1.db.disk = s.db.disk ∧ a1.pc i = .started op s.now := by
    have h : a1.db = s.db.begin i ∧ a1.pc = Function.update s.pc i (.started op s.now) := by
      show (s.act i (.start op)).db = _ ∧ (s.act i (.start op)).pc = _; rw [e1]; exact ⟨rfl, rfl⟩
    rw [h.1, h.2]
    exact ⟨Function.update_self _ _ _, rfl, Function.update_self _ _ _⟩
  have b1s : b1.db.sess i = .fresh s.db.disk := d2.trans sa.1
  have b1d : b1.db.disk = s.db.disk := d1.trans sa.2.1
  have b1p : b1.pc i = .started op s.now := d3.trans sa.2.2
  have e2 : b1.act i .body = { b1 with db := (b1.db.run i op).2, pc := Function.update b1.pc i (.ran op (b1.db.run i op).1 s.now) } := by
    unfold Callers.act; rw [b1p]
  have hrun : b1.db.run i op = ((op.fn s.db.disk).1, b1.db.setSess i { base := s.db.disk, work := (op.fn s.db.disk).2 }) := by
    unfold Shared.run; rw [b1s]; rfl
  have sb : a2.db.sess i = { base := s.db.disk, work := (op.fn s.db.disk).2 } ∧ a2.db.disk = s.db.disk ∧ a2.pc i = .ran op (op.fn s.db.disk).1 s.now := by
    have h : a2.db = (b1.db.run i op).2 ∧ a2.pc = Function.update b1.pc i (.ran op (b1.db.run i op).1 s.now) := by
      show (b1.act i .body).db = _ ∧ (b1.act i .body).pc = _; rw [e2]; exact ⟨rfl, rfl⟩
    rw [h.1, h.2, hrun]
    exact ⟨Function.update_self _ _ _, b1d, Function.update_self _ _ _⟩
  obtain ⟨d4, d5, d6⟩ := q4 o1.2.2
  have s1s : s1.db.sess i = { base := s.db.disk, work := (op.fn s.db.disk).2 } := by rw [hs1]; exact d5.trans sb.1
  have s1d : s1.db.disk = s.db.disk := by rw [hs1]; exact d4.trans sb.2.1
  have s1p : s1.pc i = .ran op (op.fn s.db.disk).1 s.now := by rw [hs1]; exact d6.trans sb.2.2
  have e3 : s2 = (s1.finish i op s.now true (op.fn s.db.disk).1).tick := by
    show (s1.act i (.finish true)).tick = _
    unfold Callers.act; rw [s1p]
  rw [e3]
  unfold Callers.finish
  cases hr : (op.fn s.db.disk).1 with
  | error e => exact ⟨rfl, Function.update_self _ _ _, s1d⟩
  | ok v =>
    have hm : Db.merge s.db.disk (op.fn s.db.disk).2 s.db.disk = some (op.fn s.db.disk).2 :=
      merge_alone hg.sound.disk (goes_on s.db.disk (.call op) hg.sound.disk).2
    have hc : s1.db.commit i true = (.ok (), (⟨(op.fn s.db.disk).2, Function.update s1.db.sess i (.fresh (op.fn s.db.disk).2)⟩ : Shared V)) := by
      unfold Shared.commit
      rw [s1s, s1d]
      simp only [Bool.false_eq_true, if_false]
      rw [hm]
    simp only [hc]
    exact ⟨rfl, Function.update_self _ _ _, rfl⟩

end
/-! ### Concrete schedules -/

/-- Session 1 works on an id too, another one resizes, but nobody commits before session 0 does. -/
example : let _ : Truthy Unit := ⟨fun _ => true⟩
    ∃ c0 : Container Unit, NewReach c0 ∧
    ∀ pre : List (Nat × Move Unit), let mid : List (Nat × Move Unit) := [(1, .begin), (1, .run (.create "a" ())), (0, .run (.create "a" ())), (2, .begin),
        (2, .resize 7 3 true true), (1, .abort), (0, .run (.delete "b"))]
      Inside 0 mid ∧ (∀ e ∈ events (((Shared.opened c0).moves pre).begin 0) mid, othersWin 0 e = false) ∧
      callsOf 0 mid = [.call (.create "a" ()), .call (.delete "b")] := by
  intro _
  obtain ⟨c0, h0, -⟩ := container_new (V := Unit) 2 1 false (by decide) (by decide)
  refine ⟨c0, ⟨2, 1, false, c0, [], h0, rfl⟩, fun pre => ⟨?_, ?_, rfl⟩⟩
  · simp [Inside]
  · simp [events, othersWin]

/-- Session 0 loses against session 1 three times and then gets through: as many conflicts as commits of others. -/
example :
    let round : List (Nat × Move Nat) := [(0, .begin), (1, .begin), (0, .run (.update "a" 1)), (1, .run (.delete "a")), (1, .run (.create "a" 2)),
      (1, .run (.delete "a")), (1, .commit true), (0, .commit true), (1, .begin), (1, .run (.create "a" 3)), (1, .commit true)]
    let ms := round ++ round ++ round ++ [(0, .begin), (0, .run (.update "a" 1)), (0, .commit true)]
    let w := Shared.opened (soloBox (groupOf 5 false [("a", 9)]))
    (events w ms).countP (lost 0) = 3 ∧ (events w ms).countP (othersWin 0) = 6 ∧ (events w ms).countP (lost 1) = 0 ∧
      (w.moves ms).disk.read "a" = .ok (some 1) := by
  refine ⟨by decide +kernel, by decide +kernel, by decide +kernel, by decide +kernel⟩

/-- The bound is reached: two sessions create the same id at the same time; the second one to finish raises, and raises nothing after it has recovered. -/
example :
    let s := (Callers.opened (soloBox (groupOf 5 false [("z", 9)]))).acts [(0, .start (.create "a" 1)), (1, .start (.create "a" 2)),
      (0, .body), (1, .body), (1, .finish true), (0, .finish true), (0, .recover), (0, .start (.update "a" 3)), (0, .body), (0, .finish true)]
    lostCalls 0 s.past = 1 ∧ otherCalls 0 s.past = 1 ∧ lostCalls 1 s.past = 0 := by
  refine ⟨by decide +kernel, by decide +kernel, by decide +kernel⟩

end Progress
end Verif.Props
