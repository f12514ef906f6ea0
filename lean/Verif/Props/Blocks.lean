import Verif.Props.Linearizable

/-!
# Blocks of several sessions (C99, C101, C102)
-/
namespace Verif.Props
open Verif Verif.Storage Verif.Spec Verif.Db
open scoped Classical
variable {V : Type}

/-- Moves of other sessions do not touch a transaction. -/
theorem snap_moves_own (i : Nat) (ms : List (Nat × Move V)) (h : OnlyCalls i ms) : ∀ s : Snap V, (s.tx i).broken = false →
    (s.moves ms).tx i = { base := (s.tx i).base, mem := (s.tx i).mem.applyAll (ownOps i ms), broken := false } := by
  induction ms with
  | nil =>
    intro s hb
    show s.tx i = _
    rcases hs : s.tx i with ⟨b, m, x⟩
    rw [hs] at hb
    simp only at hb
    rw [hb]; rfl
  | cons x ms ih =>
    intro s hb
    have ih := ih fun y hy => h y (List.mem_cons_of_mem _ hy)
    rcases x with ⟨j, mv⟩
    show ((s.move j mv).moves ms).tx i = _
    by_cases hj : j = i
    · subst hj
      obtain ⟨op, hop⟩ := h _ List.mem_cons_self rfl
      simp only at hop
      subst hop
      have hm : s.move j (.run op) = s.setTx j { s.tx j with mem := ((s.tx j).mem.apply op).getD (s.tx j).mem } := by
        unfold Snap.move; simp only [hb, Bool.false_eq_true, if_false]
      have htx : (s.move j (.run op)).tx j = { s.tx j with mem := ((s.tx j).mem.apply op).getD (s.tx j).mem } := by
        rw [hm]; simp [Snap.setTx]
      rw [ih _ (by rw [htx]; exact hb), htx]
      simp only [ownOps, if_true, Map.applyAll, List.foldl_cons]
    · have htx := snap_tx_other s j i (Ne.symm hj) mv
      rw [ih _ (by rw [htx]; exact hb), htx]
      cases mv <;> simp [ownOps, hj]

section
variable [Truthy V] [DecidableEq V]

theorem shared_moves_append (w : Shared V) (ms ns : List (Nat × Move V)) : w.moves (ms ++ ns) = (w.moves ms).moves ns := by
  induction ms generalizing w with
  | nil => rfl
  | cons x ms ih => exact ih _

/-- A database made by `Container.new`, used and resized in any way and not in strict mode, after a schedule of moves of any number of sessions. -/
def SharedReach (w : Shared V) : Prop :=
  ∃ c0 m0 ms, InUse c0 m0 ∧ (∀ x ∈ ms, LenientMove x.2) ∧ w = (Shared.opened c0).moves ms

theorem SharedReach.same (hV : AllTruthy V) {w : Shared V} (h : SharedReach w) : ∃ f s, SameMany f w s := by
  obtain ⟨c0, m0, ms, h0, hm, rfl⟩ := h
  obtain ⟨f, hf⟩ := many_of_inUse h0
  obtain ⟨ms', -, h1⟩ := (opened_many hf).moves hV ms hm
  exact ⟨f, _, h1⟩

/-- **C99.** A session begins a transaction, then calls are made by it and anything is done by others, then it commits.  With `before` what was stored
when it began and `other` what is stored when it commits: during the transaction it sees `before` with its own calls, whatever the others do; the
commit succeeds only if the storage accepts it and nobody has changed an id that it has changed - exactly then if the database has one group or the
transaction deletes nothing; then its changes and only these are made, all at once; otherwise nothing is. -/
theorem block_isolated (hV : AllTruthy V) {w : Shared V} (hw : SharedReach w) (i : Nat) (ms : List (Nat × Move V))
    (hm : ∀ x ∈ ms, LenientMove x.2) (ho : OnlyCalls i ms) (ok : Bool) :
    ∃ before other : Map V,
      let w1 := ((w.move i .begin).2).moves ms
      let mine := before.applyAll (ownOps i ms)
      (∀ id, w.disk.read id = .ok (before id)) ∧ (∀ id, w1.disk.read id = .ok (other id)) ∧
      (∀ id, w1.read i id = .ok (mine id)) ∧
      ((w1.commit i ok).1 = .ok () → ok = true ∧ ∀ id, mine id ≠ before id → other id = before id) ∧
      (ok = true → (∀ id, mine id ≠ before id → other id = before id) →
        (w.disk.groups.length = 1 ∨ ∀ op ∈ ownOps i ms, ¬ Deletes op) → (w1.commit i ok).1 = .ok ()) ∧
      ((w1.commit i ok).1 = .ok () → ∀ id, (w1.commit i ok).2.disk.read id = .ok (if mine id ≠ before id then mine id else other id)) ∧
      ((w1.commit i ok).1 ≠ .ok () → (w1.commit i ok).1 = .error .storageError ∧ (w1.commit i ok).2.disk = w1.disk) := by
  obtain ⟨f, s, hs⟩ := hw.same hV
  have hb := (hs.plain hV i .begin trivial (by simp)).2
  obtain ⟨ms', hr', h1⟩ := hb.moves hV ms hm
  have htx : (s.move i .begin).tx i = ⟨s.disk, s.disk, false⟩ := by simp [Snap.move, Snap.setTx]
  have hown := snap_moves_own i ms' (hr'.calls ho) (s.move i .begin) (by rw [htx])
  rw [htx, hr'.own i] at hown
  simp only at hown
  have hkeep := fun hd => hb.keeps hV i ms hm ho hd (by
    intro a _
    simp only [Shared.move, Shared.begin, Shared.setSess, Function.update_self, Sess.fresh])
  refine ⟨s.disk, ((s.move i .begin).moves ms').disk, ?_⟩
  set w1 := ((w.move i .begin).2).moves ms with hw1
  set s1 := (s.move i .begin).moves ms' with hs1
  set mine := s.disk.applyAll (ownOps i ms) with hmine
  obtain ⟨ok', hdiff, himp, hans, hc⟩ := h1.commit hV i ok
  have hca : (w1.move i (.commit ok)).1 = (w1.commit i ok).1.map fun _ => .unit := rfl
  have hcc : (w1.move i (.commit ok)).2 = (w1.commit i ok).2 := rfl
  rw [hca] at hans
  rw [hcc] at hc
  have hbr : (s1.tx i).broken = false := by rw [hown]
  have hcomm : s1.Commits i ok' ↔ ok' = true ∧ ∀ id, mine id ≠ s.disk id → s1.disk id = s.disk id := by
    unfold Snap.Commits Snap.NoConflict
    rw [hown]; simp
  unfold Snap.Answers at hans
  simp only [hbr, Bool.false_eq_true, if_false] at hans
  have hiff : (w1.commit i ok).1 = .ok () ↔ s1.Commits i ok' := by
    constructor
    · intro h
      by_contra hn
      rw [if_neg hn, h] at hans; cases hans
    · intro h
      rw [if_pos h] at hans
      cases hr : (w1.commit i ok).1 with
      | error e => rw [hr] at hans; cases hans
      | ok u => rfl
  have hconv : ok = true → (∀ id, mine id ≠ s.disk id → s1.disk id = s.disk id) →
      (w.disk.groups.length = 1 ∨ ∀ op ∈ ownOps i ms, ¬ Deletes op) → (w1.commit i ok).1 = .ok () := by
    intro hok hno hcase
    refine hiff.2 (hcomm.2 ⟨?_, hno⟩)
    by_contra hne
    obtain ⟨a, ha, e1, -⟩ := hdiff (by rw [hok]; exact hne)
    rcases hcase with hl | hd
    · rw [hs.disk.groups, List.length_cons] at hl
      have := List.length_pos_of_mem ha
      omega
    · exact e1 (hkeep hd a ha)
  refine ⟨fun id => hs.disk.read hV id, fun id => h1.disk.read hV id, fun id => ?_,
    fun h => ⟨himp (hcomm.1 (hiff.1 h)).1, (hcomm.1 (hiff.1 h)).2⟩, hconv, fun h id => ?_, fun h => ?_⟩
  · have := (h1.work i).read hV id
    rw [hown] at this
    exact this
  · rw [hc.disk.read hV id]
    have hcm := hiff.1 h
    unfold Snap.move
    simp only [hbr, Bool.false_eq_true, if_false]
    rw [if_pos hcm, hown]
    unfold Snap.overlay
    by_cases hne : mine id ≠ s.disk id
    · rw [if_pos hne]; simp only; rw [if_pos hne]
    · rw [if_neg hne]; simp only; rw [if_neg hne]
  · have hn : ¬ s1.Commits i ok' := fun hc => h (hiff.2 hc)
    rw [if_neg hn] at hans
    cases hr : (w1.commit i ok).1 with
    | ok u => exact absurd (by rw [hr]) h
    | error e =>
      rw [hr] at hans
      simp only [Except.map, Except.error.injEq] at hans
      refine ⟨by rw [hans], ?_⟩
      unfold Shared.commit at hr ⊢
      split_ifs at hr ⊢
      · rfl
      · split at hr
        · cases hr
        · rfl

omit [Truthy V] [DecidableEq V] in
theorem applyAll_local (ops : List (DbOp V)) : ∀ a b : Map V, (∀ op ∈ ops, ∀ id, opId op = some id → a id = b id) →
    (∀ op ∈ ops, ∀ id, opId op = some id → a.applyAll ops id = b.applyAll ops id) ∧
    (∀ id, (∀ op ∈ ops, opId op ≠ some id) → a.applyAll ops id = a id) := by
  induction ops using List.reverseRecOn with
  | nil => intro a b _; exact ⟨by simp, by simp [Map.applyAll]⟩
  | append_singleton ops op ih =>
    intro a b h
    obtain ⟨h1, h2⟩ := ih a b fun o ho => h o (List.mem_append_left _ ho)
    have h2b := (ih b b fun _ _ _ _ => rfl).2
    have hsnoc : ∀ m : Map V, m.applyAll (ops ++ [op]) = ((m.applyAll ops).apply op).getD (m.applyAll ops) := by
      intro m; simp [Map.applyAll, List.foldl_append]
    -- the two maps agree, after the first calls, on every id in use
    have key : ∀ id, (∃ o ∈ ops ++ [op], opId o = some id) → a.applyAll ops id = b.applyAll ops id := by
      intro id hid
      by_cases hin : ∃ o ∈ ops, opId o = some id
      · obtain ⟨o, ho, e⟩ := hin; exact h1 o ho id e
      · have hno : ∀ o ∈ ops, opId o ≠ some id := fun o ho e => hin ⟨o, ho, e⟩
        rw [h2 id hno, h2b id hno]
        obtain ⟨o, ho, e⟩ := hid
        exact h o ho id e
    have step : ∀ x y : Map V, ∀ id, (∀ k, opId op = some k → x k = y k) → x id = y id →
        ((x.apply op).getD x) id = ((y.apply op).getD y) id := by
      intro x y id hk hid
      cases op with
      | create k obj =>
        have := hk k rfl
        simp only [Map.apply, this]
        split_ifs <;> simp [Map.set, hid]
      | update k obj => simp [Map.apply, Map.set, hid]
      | delete k => simp [Map.apply, Map.remove, hid]
      | strict v => simp only [Map.apply]; split_ifs <;> simpa using hid
    constructor
    · intro o ho id e
      rw [hsnoc, hsnoc]
      refine step _ _ id (fun k hk => key k ⟨op, List.mem_append_right _ List.mem_cons_self, hk⟩) (key id ⟨o, ho, e⟩)
    · intro id hno
      rw [hsnoc]
      have hop : opId op ≠ some id := hno op (List.mem_append_right _ List.mem_cons_self)
      have hbase := h2 id fun o ho => hno o (List.mem_append_left _ ho)
      rw [← hbase]
      cases op with
      | create k obj =>
        have hk : id ≠ k := fun e => hop (by rw [e]; rfl)
        simp only [Map.apply]
        split_ifs <;> simp [Map.set, hk]
      | update k obj =>
        have hk : id ≠ k := fun e => hop (by rw [e]; rfl)
        simp [Map.apply, Map.set, hk]
      | delete k =>
        have hk : id ≠ k := fun e => hop (by rw [e]; rfl)
        simp [Map.apply, Map.remove, hk]
      | strict v => simp only [Map.apply]; split_ifs <;> simp

/-- **C101.** If, in addition, every id the block's calls are about was changed by the block (or not changed by others), then a successful commit
leaves what the calls would have made of the stored map had the whole block happened at the moment of the commit. -/
theorem block_serializable_partial (hV : AllTruthy V) {w : Shared V} (hw : SharedReach w) (i : Nat) (ms : List (Nat × Move V))
    (hm : ∀ x ∈ ms, LenientMove x.2) (ho : OnlyCalls i ms) (ok : Bool) (before other : Map V) :
    let w1 := ((w.move i .begin).2).moves ms
    (∀ id, w.disk.read id = .ok (before id)) → (∀ id, w1.disk.read id = .ok (other id)) →
    (w1.commit i ok).1 = .ok () →
    (∀ op ∈ ownOps i ms, ∀ id, opId op = some id → before.applyAll (ownOps i ms) id ≠ before id ∨ other id = before id) →
    ∀ id, (w1.commit i ok).2.disk.read id = .ok (other.applyAll (ownOps i ms) id) := by
  intro w1 hb hot hc htouch id
  obtain ⟨b, o, h1, h2, -, h4, -, h5, -⟩ := block_isolated hV hw i ms hm ho ok
  have e1 : b = before := by funext x; have := (h1 x).symm.trans (hb x); injection this
  have e2 : o = other := by funext x; have := (h2 x).symm.trans (hot x); injection this
  subst e1
  subst e2
  rw [h5 hc id]
  have hno := (h4 hc).2
  have hag : ∀ op ∈ ownOps i ms, ∀ id, opId op = some id → b id = o id := by
    intro op hop k hk
    rcases htouch op hop k hk with h | h
    · exact (hno k h).symm
    · exact h.symm
  obtain ⟨l1, l2⟩ := applyAll_local (ownOps i ms) b o hag
  have l3 := (applyAll_local (ownOps i ms) o b fun op hop k hk => (hag op hop k hk).symm).2
  congr 1
  by_cases hin : ∃ op ∈ ownOps i ms, opId op = some id
  · obtain ⟨op, hop, e⟩ := hin
    rw [← l1 op hop id e]
    by_cases hne : b.applyAll (ownOps i ms) id ≠ b id
    · rw [if_pos hne]
    · rw [if_neg hne]; push Not at hne; rw [hne]; exact (hag op hop id e).symm
  · have hn : ∀ op ∈ ownOps i ms, opId op ≠ some id := fun op hop e => hin ⟨op, hop, e⟩
    rw [l2 id hn, l3 id hn]; simp

/-- **C102.** Whatever other sessions do - committed or not - a session keeps reading what it read before, until it begins, commits or aborts. -/
theorem others_invisible (w : Shared V) (i : Nat) (ms : List (Nat × Move V)) (h : ∀ x ∈ ms, x.1 ≠ i) (id : String) :
    (w.moves ms).read i id = w.read i id := by
  induction ms generalizing w with
  | nil => rfl
  | cons x ms ih =>
    rcases x with ⟨j, mv⟩
    have hj : i ≠ j := fun e => h _ List.mem_cons_self e.symm
    have hs := sess_other w i j hj mv
    show ((w.move j mv).2.moves ms).read i id = _
    rw [ih _ fun y hy => h y (List.mem_cons_of_mem _ hy)]
    unfold Shared.read
    rw [hs]

end
end Verif.Props
