import Verif.Props.Crash
import Verif.Props.Blocks

/-!
# Crashes while several sessions work with transactions of several calls (C151)
-/
namespace Verif.Props
open Verif Verif.Storage Verif.Spec Verif.Db
open scoped Classical
variable {V : Type}

namespace CrashBlocks

/-! ### Specification -/

/-- Processes die: the commits that were under way are made or refused, one after the other; then the transactions of the sessions that died are gone, and they begin with what
is stored. -/
noncomputable def snapCrash (s : Snap V) (dies : List Nat) (landed : List (Nat × Bool)) : Snap V :=
  let t := landed.foldl (fun s x => s.move x.1 (.commit x.2)) s
  { disk := t.disk, tx := fun i => if i ∈ dies then ⟨t.disk, t.disk, false⟩ else t.tx i }

/-- At every moment of the history the database shows what the shared map says, and answers as it does; crashes too are crashes of the shared map.  With several groups the storage may
refuse a commit that the shared map would accept. -/
def SimulatesCrashes [Truthy V] [DecidableEq V] : List (Turmoil V) → Shared V → Snap V → Prop
  | [], w, s => ManyShows w s
  | .move i m :: es, w, s => ManyShows w s ∧ ∃ m', Refused m m' ∧ (m' ≠ m → 1 < w.disk.groups.length) ∧
      s.Answers i m' (w.move i m).1 ∧ SimulatesCrashes es (w.move i m).2 (s.move i m')
  | .crash dies landed :: es, w, s => ManyShows w s ∧ ∃ landed' : List (Nat × Bool), landed'.map Prod.fst = landed.filter (· ∈ dies) ∧
      ((∃ x ∈ landed', x.2 = false) → 1 < w.disk.groups.length) ∧ SimulatesCrashes es (w.crash dies landed) (snapCrash s dies landed')

/-- Nobody turns strict mode on or resizes. -/
def LenientEvent : Turmoil V → Prop
  | .move _ m => LenientMove m
  | .crash _ _ => True

/-- The same history without crashes: processes that die commit (or do not) and abort. -/
def asMoves : List (Turmoil V) → List (Nat × Move V)
  | [] => []
  | .move i m :: es => (i, m) :: asMoves es
  | .crash dies landed :: es => (landed.filter (· ∈ dies)).map (fun i => (i, .commit true)) ++ dies.map (fun i => (i, .abort)) ++ asMoves es

/-- Session `i` makes only calls, and does not die. -/
def OnlyCallsLives (i : Nat) (es : List (Turmoil V)) : Prop :=
  ∀ e ∈ es, match e with
    | .move j m => j = i → ∃ op, m = .run op
    | .crash dies _ => i ∉ dies

/-- The calls of session `i`. -/
def callsOf (i : Nat) : List (Turmoil V) → List (DbOp V)
  | [] => []
  | .move j (.run op) :: es => if j = i then op :: callsOf i es else callsOf i es
  | _ :: es => callsOf i es

/-! ### Proofs -/

section
variable [Truthy V] [DecidableEq V]

theorem abort_all (dies : List Nat) : ∀ w : Shared V, w.moves (dies.map fun i => (i, .abort)) = w.restart dies := by
  induction dies with
  | nil => intro w; simp [Shared.moves, Shared.restart]
  | cons i dies ih =>
    intro w
    show (w.abort i).moves _ = _
    rw [ih]
    unfold Shared.restart Shared.abort Shared.setSess
    congr 1
    funext j
    by_cases hj : j = i
    · subst hj; simp
    · simp [hj]

theorem land_moves (is : List Nat) : ∀ w : Shared V, w.moves (is.map fun i => (i, .commit true)) = is.foldl Shared.land w := by
  induction is with
  | nil => intro w; rfl
  | cons i is ih => intro w; exact ih _

/-- C151: for what is stored and seen a crash is the commits that were still written and an abort of the sessions that died. -/
theorem crash_is_moves (es : List (Turmoil V)) : ∀ w : Shared V, w.events es = w.moves (asMoves es) := by
  induction es with
  | nil => intro w; rfl
  | cons e es ih =>
    intro w
    cases e with
    | move i m => exact ih _
    | crash dies landed =>
      show (w.crash dies landed).events es = _
      rw [ih, asMoves, shared_moves_append, shared_moves_append, abort_all, land_moves]
      rfl

omit [Truthy V] [DecidableEq V] in
theorem asMoves_lenient {es : List (Turmoil V)} (h : ∀ e ∈ es, LenientEvent e) : ∀ x ∈ asMoves es, LenientMove x.2 := by
  induction es with
  | nil => intro x hx; simp [asMoves] at hx
  | cons e es ih =>
    have ih := ih fun e he => h e (List.mem_cons_of_mem _ he)
    have he := h e List.mem_cons_self
    intro x hx
    cases e with
    | move i m =>
      rcases List.mem_cons.1 hx with rfl | hx
      · exact he
      · exact ih x hx
    | crash dies landed =>
      simp only [asMoves, List.mem_append, List.mem_map] at hx
      rcases hx with (⟨i, -, rfl⟩ | ⟨i, -, rfl⟩) | hx
      · trivial
      · trivial
      · exact ih x hx

omit [Truthy V] [DecidableEq V] in
theorem asMoves_calls {i : Nat} {es : List (Turmoil V)} (h : OnlyCallsLives i es) : OnlyCalls i (asMoves es) ∧ ownOps i (asMoves es) = callsOf i es := by
  induction es with
  | nil => exact ⟨by intro x hx; simp [asMoves] at hx, rfl⟩
  | cons e es ih =>
    obtain ⟨h1, h2⟩ := ih fun e he => h e (List.mem_cons_of_mem _ he)
    have he := h e List.mem_cons_self
    cases e with
    | move j m =>
      refine ⟨fun x hx hi => ?_, ?_⟩
      · rcases List.mem_cons.1 hx with rfl | hx
        · exact he hi
        · exact h1 x hx hi
      · cases m <;> simp only [asMoves, ownOps, callsOf, h2]
    | crash dies landed =>
      have he : i ∉ dies := he
      refine ⟨fun x hx hi => ?_, ?_⟩
      · simp only [asMoves, List.mem_append, List.mem_map, List.mem_filter, decide_eq_true_eq] at hx
        rcases hx with (⟨j, hj, rfl⟩ | ⟨j, hj, rfl⟩) | hx
        · exact absurd (by rw [← hi]; exact hj.2) he
        · exact absurd (by rw [← hi]; exact hj) he
        · exact h1 x hx hi
      · simp only [callsOf, ← h2, asMoves]
        have skipC : ∀ (l : List Nat) (ms : List (Nat × Move V)), ownOps i (l.map (fun j => (j, (.commit true : Move V))) ++ ms) = ownOps i ms := by
          intro l ms
          induction l with
          | nil => rfl
          | cons j l ih => simpa [ownOps] using ih
        have skipA : ∀ (l : List Nat) (ms : List (Nat × Move V)), ownOps i (l.map (fun j => (j, (.abort : Move V))) ++ ms) = ownOps i ms := by
          intro l ms
          induction l with
          | nil => rfl
          | cons j l ih => simpa [ownOps] using ih
        rw [List.append_assoc, skipC, skipA]

theorem same_land (hV : AllTruthy V) {f : ShapeN V} (is : List Nat) : ∀ {w : Shared V} {s : Snap V}, SameMany f w s →
    ∃ landed' : List (Nat × Bool), landed'.map Prod.fst = is ∧ ((∃ x ∈ landed', x.2 = false) → f.rest ≠ []) ∧
      SameMany f (is.foldl Shared.land w) (landed'.foldl (fun s x => s.move x.1 (.commit x.2)) s) := by
  induction is with
  | nil => intro w s h; exact ⟨[], rfl, by simp, h⟩
  | cons i is ih =>
    intro w s h
    obtain ⟨ok, h1, -, -, h2⟩ := h.commit hV i true
    obtain ⟨l, k1, k2, k3⟩ := ih (w := Shared.land w i) h2
    refine ⟨(i, ok) :: l, by simp [k1], ?_, k3⟩
    rintro ⟨x, hx, hf⟩
    rcases List.mem_cons.1 hx with rfl | hx
    · obtain ⟨a, ha, -⟩ := h1 (by simpa using hf)
      exact List.ne_nil_of_mem ha
    · exact k2 ⟨x, hx, hf⟩

omit [DecidableEq V] [Truthy V] in
theorem same_restart {f : ShapeN V} {w : Shared V} {s : Snap V} (h : SameMany f w s) (dies : List Nat) :
    SameMany f (w.restart dies) { disk := s.disk, tx := fun i => if i ∈ dies then ⟨s.disk, s.disk, false⟩ else s.tx i } := by
  refine ⟨h.disk, fun i => ?_, fun i => ?_, fun i => ?_, fun i => ?_⟩ <;> by_cases hi : i ∈ dies <;>
    simp only [Shared.restart, hi, if_true, if_false]
  · exact h.disk
  · exact h.base i
  · exact h.disk
  · exact h.work i
  · rfl
  · exact h.broken i
  · exact ⟨Below.refl f _, Below.refl f _⟩
  · exact h.below i

theorem simulates_crashes (hV : AllTruthy V) {f : ShapeN V} (es : List (Turmoil V)) : ∀ {w : Shared V} {s : Snap V}, SameMany f w s →
    (∀ e ∈ es, LenientEvent e) → SimulatesCrashes es w s := by
  induction es with
  | nil => intro w s h _; exact h.shows hV
  | cons e es ih =>
    intro w s h he
    have he' := fun x hx => he x (List.mem_cons_of_mem _ hx)
    have hl : f.rest ≠ [] → 1 < w.disk.groups.length := by
      intro hr
      rw [h.disk.groups, List.length_cons]
      have := List.length_pos_of_ne_nil hr
      omega
    cases e with
    | move i m =>
      obtain ⟨m', h1, h2, h3, h4⟩ := h.move hV i m (he _ List.mem_cons_self)
      refine ⟨h.shows hV, m', h1, fun hne => hl ?_, h3, ih h4 he'⟩
      obtain ⟨a, ha, -⟩ := h2 hne
      exact List.ne_nil_of_mem ha
    | crash dies landed =>
      obtain ⟨l, h1, h2, h3⟩ := same_land hV (landed.filter (· ∈ dies)) h
      exact ⟨h.shows hV, l, h1, fun hx => hl (h2 hx), ih (same_restart h3 dies) he'⟩

/-- **C151.** Sessions of any number of processes work with transactions (blocks, calls, commits, aborts) on a database made by `Container.new`, used and resized in any way and not in strict
mode, and any of the processes die at any moments, some of them while committing: step by step the database is a map shared by transactions, of which a crash drops those of the processes that died and
nothing else. -/
theorem sessions_share_a_map_crashes (hV : AllTruthy V) {c0 : Container V} {m0 : Map V} (h0 : InUse c0 m0) (es : List (Turmoil V)) (he : ∀ e ∈ es, LenientEvent e) :
    SimulatesCrashes es (Shared.opened c0) (Snap.opened m0) := by
  obtain ⟨f, hf⟩ := many_of_inUse h0
  exact simulates_crashes hV es (opened_many hf) he

/-- A database after a history of moves and crashes. -/
def CrashReach (w : Shared V) : Prop :=
  ∃ c0 m0 es, InUse c0 m0 ∧ (∀ e ∈ es, LenientEvent e) ∧ w = (Shared.opened c0).events es

theorem CrashReach.shared {w : Shared V} (h : CrashReach w) : SharedReach w := by
  obtain ⟨c0, m0, es, h0, he, rfl⟩ := h
  exact ⟨c0, m0, asMoves es, h0, asMoves_lenient he, crash_is_moves es _⟩

/-- **C151.** A session begins a block and makes calls, while others do anything and die; then its process dies.  If it had not yet called commit, nothing of the block is
stored.  If it had, either nothing of the block is stored or all of it, on top of what the others have stored meanwhile; the latter only if nobody has changed an id that the block has changed.
Back again, the session sees what is stored. -/
theorem block_crash (hV : AllTruthy V) {w : Shared V} (hw : CrashReach w) (i : Nat) (es : List (Turmoil V)) (he : ∀ e ∈ es, LenientEvent e) (ho : OnlyCallsLives i es)
    (dies : List Nat) (hi : i ∈ dies) :
    ∃ before other : Map V,
      let w1 := ((w.move i .begin).2).events es
      let mine := before.applyAll (callsOf i es)
      (∀ id, w.disk.read id = .ok (before id)) ∧ (∀ id, w1.disk.read id = .ok (other id)) ∧
      (∀ id, (w1.crash dies []).disk.read id = .ok (other id)) ∧
      ((∀ id, (w1.crash dies [i]).disk.read id = .ok (other id)) ∨
        (∀ id, mine id ≠ before id → other id = before id) ∧ ∀ id, (w1.crash dies [i]).disk.read id = .ok (if mine id ≠ before id then mine id else other id)) ∧
      ∀ landed id, (w1.crash dies landed).read i id = (w1.crash dies landed).disk.read id := by
  obtain ⟨k1, k2⟩ := asMoves_calls ho
  obtain ⟨before, other, h1, h2, -, h4, -, h6, h7⟩ := block_isolated hV hw.shared i (asMoves es) (asMoves_lenient he) k1 true
  rw [← crash_is_moves] at h2 h4 h6 h7
  rw [k2] at h4 h6
  have hc : ((((w.move i .begin).2).events es).crash dies [i]).disk = ((((w.move i .begin).2).events es).commit i true).2.disk := by
    simp [Shared.crash, hi, Shared.restart, Shared.land]
  refine ⟨before, other, h1, h2, h2, ?_, fun landed id => ?_⟩
  · rw [hc]
    by_cases hr : ((((w.move i .begin).2).events es).commit i true).1 = .ok ()
    · exact .inr ⟨(h4 hr).2, h6 hr⟩
    · refine .inl fun id => ?_
      rw [(h7 hr).2]; exact h2 id
  · simp [Shared.crash, Shared.restart, Shared.read, hi, Sess.fresh]

end

/-! ### A concrete history -/

/-- Session 0 changes two objects in a block and its process dies while committing, session 1 dies in the middle of its block: the block of session 0 is there as a whole, nothing of that of session 1; session 2 works
on, sees its own snapshot and commits. -/
example :
    let w := (Shared.opened (soloBox (groupOf 5 false [("a", 1), ("b", 1), ("c", 1)]))).events [.move 0 .begin, .move 1 .begin, .move 2 .begin, .move 0 (.run (.update "a" 2)),
      .move 1 (.run (.update "c" 7)), .move 0 (.run (.delete "b")), .move 2 (.run (.create "d" 5)), .crash [0, 1] [0]]
    w.read 2 "a" = .ok (some 1) ∧ w.read 1 "a" = .ok (some 2) ∧ w.disk.read "a" = .ok (some 2) ∧ w.disk.read "b" = .ok none ∧ w.disk.read "c" = .ok (some 1) ∧
    (w.move 2 (.commit true)).2.disk.read "d" = .ok (some 5) ∧ (w.move 2 (.commit true)).2.disk.read "a" = .ok (some 2) := by
  refine ⟨by decide +kernel, by decide +kernel, by decide +kernel, by decide +kernel, by decide +kernel, by decide +kernel, by decide +kernel⟩

/-- Both outcomes of a crash during a commit are possible: here another session has changed the same id. -/
example :
    let w := (Shared.opened (soloBox (groupOf 5 false [("a", 1)]))).events [.move 0 .begin, .move 0 (.run (.update "a" 2)), .move 1 .begin, .move 1 (.run (.update "a" 3)), .move 1 (.commit true), .crash [0] [0]]
    w.disk.read "a" = .ok (some 3) := by
  decide +kernel

/-- Histories as in the theorem exist. -/
example : let _ : Truthy Unit := ⟨fun _ => true⟩
    ∃ (w : Shared Unit) (es : List (Turmoil Unit)), CrashReach w ∧ (∀ e ∈ es, LenientEvent e) ∧ OnlyCallsLives 0 es ∧ AllTruthy Unit ∧ callsOf 0 es ≠ [] := by
  intro _
  obtain ⟨c0, h0, -⟩ := container_new (V := Unit) 2 1 false (by decide) (by decide)
  refine ⟨_, [.move 0 (.run (.create "a" ())), .crash [1] [1]], ⟨c0, Map.empty, [.crash [0] []], ⟨2, 1, c0, [], h0, by simp, rfl, rfl⟩, by simp [LenientEvent], rfl⟩,
    by simp [LenientEvent, LenientMove], ?_, fun _ => rfl, by simp [callsOf]⟩
  intro e he
  simp only [List.mem_cons, List.not_mem_nil, or_false] at he
  rcases he with rfl | rfl
  · exact fun _ => ⟨_, rfl⟩
  · simp

end CrashBlocks
end Verif.Props
