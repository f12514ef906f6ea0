import Verif.Props.Progress
import Verif.Props.Blocks

/-!
# A session can lose for ever (C149)
-/
namespace Verif.Props
open Verif Verif.Storage Verif.Spec Verif.Db
open scoped Classical
variable {V : Type}

namespace Progress

section
variable [Truthy V] [DecidableEq V]

/-- Session 0 and session 1 begin and both write the same object under the same id; session 0 commits first. -/
def contest (id : String) (x : V) : List (Nat × Move V) :=
  [(0, .begin), (1, .begin), (0, .run (.update id x)), (1, .run (.update id x)), (0, .commit true), (1, .commit true)]

theorem contest_lost (hV : AllTruthy V) {w : Shared V} (hw : SharedReach w) (id : String) (x : V) {cur : Option V} (hc : w.disk.read id = .ok cur) (hx : cur ≠ some x) :
    ∃ r1 r2 r3 r4, events w (contest id x) = [(0, .begin, r1), (1, .begin, r2), (0, .run (.update id x), r3), (1, .run (.update id x), r4), (0, .commit true, .ok .unit),
      (1, .commit true, .error .storageError)] := by
  have hw0 : SharedReach (w.move 0 .begin).2 := by
    obtain ⟨c0, m0, ms, h0, hm, rfl⟩ := hw
    refine ⟨c0, m0, ms ++ [(0, .begin)], h0, ?_, by rw [shared_moves_append]; rfl⟩
    intro y hy
    rcases List.mem_append.1 hy with hy | hy
    · exact hm y hy
    · rw [List.mem_singleton] at hy; subst hy; trivial
  obtain ⟨b0, o0, h1, h2, -, -, h5, h6, -⟩ := block_isolated hV hw 0 [(1, .begin), (0, .run (.update id x)), (1, .run (.update id x))]
    (by simp [LenientMove]) (by
      intro y hy h
      simp only [List.mem_cons, List.not_mem_nil, or_false] at hy
      rcases hy with rfl | rfl | rfl
      · cases h
      · exact ⟨_, rfl⟩
      · cases h) true
  obtain ⟨b1, o1, k1, k2, -, k4, -, -, k7⟩ := block_isolated hV hw0 1 [(0, .run (.update id x)), (1, .run (.update id x)), (0, .commit true)]
    (by simp [LenientMove]) (by
      intro y hy h
      simp only [List.mem_cons, List.not_mem_nil, or_false] at hy
      rcases hy with rfl | rfl | rfl
      · cases h
      · exact ⟨_, rfl⟩
      · cases h) true
  simp only [Shared.moves] at h2 h5 h6 k2 k4 k7
  have own0 : b0.applyAll (ownOps 0 [((1 : Nat), (.begin : Move V)), (0, .run (.update id x)), (1, .run (.update id x))]) = b0.set id x := by
    simp [ownOps, Map.applyAll, Map.apply]
  have own1 : b1.applyAll (ownOps 1 [((0 : Nat), (.run (.update id x) : Move V)), (1, .run (.update id x)), (0, .commit true)]) = b1.set id x := by
    simp [ownOps, Map.applyAll, Map.apply]
  rw [own0] at h5 h6
  rw [own1] at k4
  have hd : (((((w.move 0 .begin).2.move 1 .begin).2.move 0 (.run (.update id x))).2.move 1 (.run (.update id x))).2).disk = w.disk := by
    rw [move_disk _ _ (by intro ok v e; cases e), move_disk _ _ (by intro ok v e; cases e), move_disk _ _ (by intro ok v e; cases e), move_disk _ _ (by intro ok v e; cases e)]
  have e0 : ∀ i, o0 i = b0 i := fun i => by
    have := (h2 i).symm.trans ((by rw [hd] : _ = w.disk.read i).trans (h1 i)); injection this
  have ecur : b0 id = cur := by have := (h1 id).symm.trans hc; injection this
  have ecur1 : b1 id = cur := by
    have := (k1 id).symm.trans hc; injection this
  have win := h5 trivial (fun i _ => e0 i) (.inr (by simp [ownOps, Deletes]))
  have hset0 : b0.set id x id = some x := by simp [Map.set]
  have hset1 : b1.set id x id = some x := by simp [Map.set]
  have hst := h6 win id
  rw [if_pos (by rw [hset0, ecur]; exact fun h => hx h.symm), hset0] at hst
  have eo1 : o1 id = some x := by
    have := (k2 id).symm.trans hst; injection this
  have hl : ∀ u, (((((w.move 0 .begin).2.move 1 .begin).2.move 0 (.run (.update id x))).2.move 1 (.run (.update id x))).2.move 0 (.commit true)).2.commit 1 true ≠ (.ok (), u) := by
    intro u hu
    have := (k4 (by rw [hu])).2 id (by rw [hset1, ecur1]; exact fun h => hx h.symm)
    rw [eo1, ecur1] at this
    exact hx this.symm
  have hlose := (k7 fun e => hl _ (Prod.ext e rfl)).1
  set wa := ((((w.move 0 .begin).2.move 1 .begin).2.move 0 (.run (.update id x))).2.move 1 (.run (.update id x))).2 with hwa
  have a0 : (wa.move 0 (.commit true)).1 = .ok .unit := by
    show (wa.commit 0 true).1.map _ = _
    rw [win]; rfl
  have a1 : ((wa.move 0 (.commit true)).2.move 1 (.commit true)).1 = .error .storageError := by
    show ((wa.move 0 (.commit true)).2.commit 1 true).1.map _ = _
    rw [hlose]; rfl
  simp only [contest, events]
  rw [← hwa, a0, a1]
  exact ⟨_, _, _, _, rfl⟩

theorem events_append (ms ns : List (Nat × Move V)) : ∀ w : Shared V, events w (ms ++ ns) = events w ms ++ events (w.moves ms) ns := by
  induction ms with
  | nil => intro w; rfl
  | cons y ms ih => intro w; simp only [List.cons_append, events, Shared.moves, ih]

/-- C149: there is no bound without regard to the others: on every database in use, not in strict mode, and for every id a session can lose any number of times in a row, if another one always gets through before it.
So the bound of conflicts_bounded is reached. -/
theorem conflicts_unbounded (hV : AllTruthy V) {x y : V} (hxy : x ≠ y) {w : Shared V} (hw : SharedReach w) (id : String) (n : Nat) :
    ∃ ms : List (Nat × Move V), (∀ z ∈ ms, z.1 = 0 ∨ z.1 = 1) ∧ (events w ms).countP (lost 1) = n ∧ (events w ms).countP (othersWin 1) = n ∧
      ∀ e ∈ events w ms, ∀ v, e.1 = 1 → e.2.1 = .commit true → e.2.2 ≠ .ok v := by
  induction n generalizing w with
  | zero => exact ⟨[], by simp, rfl, rfl, by simp [events]⟩
  | succ n ih =>
    obtain ⟨f, s, hs⟩ := hw.same hV
    obtain ⟨z, hz⟩ : ∃ z : V, s.disk id ≠ some z := by
      by_cases h : s.disk id = some x
      · exact ⟨y, by rw [h]; exact fun e => hxy (by injection e)⟩
      · exact ⟨x, h⟩
    obtain ⟨r1, r2, r3, r4, hev⟩ := contest_lost hV hw id z (hs.disk.read hV id) hz
    have hw' : SharedReach (w.moves (contest id z)) := by
      obtain ⟨c0, m0, ms, h0, hm, rfl⟩ := hw
      refine ⟨c0, m0, ms ++ contest id z, h0, ?_, (shared_moves_append _ _ _).symm⟩
      intro y hy
      rcases List.mem_append.1 hy with hy | hy
      · exact hm y hy
      · simp only [contest, List.mem_cons, List.not_mem_nil, or_false] at hy
        rcases hy with rfl | rfl | rfl | rfl | rfl | rfl <;> trivial
    obtain ⟨ms, l1, l2, l3, l4⟩ := ih hw'
    refine ⟨contest id z ++ ms, ?_, ?_, ?_, ?_⟩
    · intro t ht
      rcases List.mem_append.1 ht with ht | ht
      · simp only [contest, List.mem_cons, List.not_mem_nil, or_false] at ht
        rcases ht with rfl | rfl | rfl | rfl | rfl | rfl <;> simp
      · exact l1 t ht
    · rw [events_append, List.countP_append, hev, l2]
      simp [lost, Nat.add_comm]
    · rw [events_append, List.countP_append, hev, l3]
      rw [Nat.add_comm]
      rfl
    · intro e he v h1 h2
      rw [events_append, hev] at he
      rcases List.mem_append.1 he with he | he
      · simp only [List.mem_cons, List.not_mem_nil, or_false] at he
        rcases he with rfl | rfl | rfl | rfl | rfl | rfl <;> simp at h1 h2 ⊢
      · exact l4 e he v h1 h2

end

/-- Two objects and a database to begin with exist. -/
example : let _ : Truthy Bool := ⟨fun _ => true⟩
    ∃ w : Shared Bool, SharedReach w ∧ AllTruthy Bool ∧ true ≠ false := by
  intro _
  obtain ⟨c0, h0, -⟩ := container_new (V := Bool) 2 1 false (by decide) (by decide)
  exact ⟨_, ⟨c0, Map.empty, [], ⟨2, 1, c0, [], h0, by simp, rfl, rfl⟩, by simp, rfl⟩, fun _ => rfl, by simp⟩

end Progress
end Verif.Props
