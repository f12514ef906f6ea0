import Verif.Db.Live
import Verif.Spec.Store

/-!
# Changing objects that are in the database (C128)
-/
namespace Verif.Props.Live
open Verif Verif.Storage Verif.Spec Verif.Db Verif.Db.Live
set_option linter.unusedSectionVars false
variable {V R : Type} [DecidableEq R] {rec : String → R}

/-! ### Specification: the session as a transactional map of values -/

/-- The transactional map a session stands for: contents instead of objects. -/
def view (s : Session V R) : Store V := ⟨s.disk, fun id => (s.mem id).map s.heap, s.auto, s.failed⟩

/-- The call with the contents its object has now. -/
def valued (s : Session V R) : DbOp Addr → DbOp V
  | .create id a => .create id (s.heap a)
  | .update id a => .update id (s.heap a)
  | .delete id => .delete id
  | .strict b => .strict b

/-- What a call returned, with the contents of the objects. -/
def contents (heap : Addr → V) : DbRet Addr → DbRet V
  | .unit => .unit
  | .count n => .count n
  | .prev a => .prev (a.map heap)
  | .objs as => .objs (as.map heap)

/-- The event on the map of values; changing an object that is not in the database and dropping records are none. -/
def seenAs (s : Session V R) : LiveEvent V R → Option (Event V)
  | .call op ok => some (.call (valued s op) ok)
  | .setAutocommit b => some (.setAutocommit b)
  | .enter => some .enter
  | .exit r ok => some (.exit r ok)
  | .commit ok => some (.commit ok)
  | .abort => some .abort
  | .crash => some (.crash true)
  | .change _ _ => none
  | .evict _ => none

/-- All events of a history on the map of values. -/
def seenRun (rec : String → R) (s : Session V R) : List (LiveEvent V R) → List (Event V)
  | [] => []
  | e :: es => (seenAs s e).toList ++ seenRun rec (s.step rec e) es

/-- The object exists: objects are loaded in the past. -/
def Exists (s : Session V R) : Addr → Prop
  | .loaded t _ => t < s.time
  | .made _ => True

/-- The program behaves: it stores existing objects (and leaves strict mode alone), and changes no object that is in the database. -/
def Behaves (s : Session V R) : LiveEvent V R → Prop
  | .call (.create _ a) _ => Exists s a
  | .call (.update _ a) _ => Exists s a
  | .call (.strict _) _ => False
  | .change a _ => ∀ id, s.mem id ≠ some a
  | _ => True

/-- It behaves all the time. -/
def BehavesRun (rec : String → R) (s : Session V R) : List (LiveEvent V R) → Prop
  | [] => True
  | e :: es => Behaves s e ∧ BehavesRun rec (s.step rec e) es

/-- The session shows what is on disk, but for the records with noticed changes; the objects in the database exist. -/
structure Ok (rec : String → R) (s : Session V R) : Prop where
  clean : ∀ id, s.dirty (rec id) = false → (s.mem id).map s.heap = s.disk id
  old : ∀ id a, s.mem id = some a → Exists s a

/-! ### Proofs -/

theorem loadedHeap_old (s : Session V R) (drop : String → Bool) (a : Addr) (ha : Exists s a) :
    loadedHeap s.heap s.disk s.time drop a = s.heap a := by
  cases a with
  | made n => rfl
  | loaded t id =>
    have : t ≠ s.time := Nat.ne_of_lt ha
    show (if t = s.time ∧ drop id = true then _ else _) = _
    rw [if_neg fun h => this h.1]

/-- Loading again: the dropped records show what is on disk, the others what they showed. -/
theorem reload_read (s : Session V R) (h : Ok rec s) (which : R → Bool) (id : String) :
    ((s.reload rec which).mem id).map (s.reload rec which).heap = if which (rec id) then s.disk id else (s.mem id).map s.heap := by
  unfold Session.reload
  simp only
  by_cases hw : which (rec id) = true
  · rw [if_pos hw, if_pos hw]
    cases hd : s.disk id with
    | none => rfl
    | some v => simp [loadedHeap, hw, hd]
  · rw [if_neg hw, if_neg hw]
    cases hm : s.mem id with
    | none => rfl
    | some a => exact congrArg some (loadedHeap_old s _ a (h.old id a hm))

theorem reload_old (s : Session V R) (h : Ok rec s) (which : R → Bool) (id : String) (a : Addr)
    (ha : (s.reload rec which).mem id = some a) : Exists (s.reload rec which) a := by
  unfold Session.reload at ha ⊢
  simp only at ha
  split_ifs at ha
  · cases hd : s.disk id with
    | none => rw [hd] at ha; cases ha
    | some v =>
      rw [hd] at ha
      obtain rfl := Option.some.inj ha
      exact Nat.lt_succ_self _
  · have := h.old id a ha
    cases a with
    | made n => trivial
    | loaded t x => exact Nat.lt_succ_of_lt this

theorem reload_dirty_read (s : Session V R) (h : Ok rec s) (id : String) :
    ((s.reload rec s.dirty).mem id).map (s.reload rec s.dirty).heap = s.disk id := by
  rw [reload_read s h]
  cases hd : s.dirty (rec id) with
  | true => rfl
  | false => exact h.clean id hd

theorem ok_abort (s : Session V R) (h : Ok rec s) : Ok rec (s.abort rec) :=
  ⟨fun id _ => reload_dirty_read s h id, fun id a ha => reload_old s h _ id a ha⟩

theorem view_abort (s : Session V R) (h : Ok rec s) : view (s.abort rec) = { view s with mem := s.disk, broken := false } := by
  unfold view
  congr 1
  exact funext fun id => reload_dirty_read s h id

theorem commit_ok (s : Session V R) (h : Ok rec s) (ok : Bool) : Ok rec (s.commit rec ok).2 := by
  unfold Live.Session.commit
  split_ifs
  · exact h
  · refine ⟨fun id _ => ?_, h.old⟩
    show (s.mem id).map s.heap = if s.dirty (rec id) = true then (s.mem id).map s.heap else s.disk id
    split_ifs with hd
    · rfl
    · exact h.clean id (by simpa using hd)
  · exact ⟨fun id _ => reload_dirty_read s h id, fun id a ha => reload_old s h _ id a ha⟩

theorem view_commit (s : Session V R) (h : Ok rec s) (ok : Bool) : view (s.commit rec ok).2 = (view s).commit ok := by
  unfold Live.Session.commit Store.commit
  show view _ = if s.failed = true then _ else _
  by_cases hf : s.failed = true
  · rw [if_pos hf, if_pos hf]
  · rw [if_neg hf, if_neg hf]
    cases ok
    · simp only [Bool.false_eq_true, if_false]
      unfold view
      congr 1
      exact funext fun id => reload_dirty_read s h id
    · simp only [if_true]
      unfold view
      congr 1
      funext id
      show (if s.dirty (rec id) = true then (s.mem id).map s.heap else s.disk id) = (s.mem id).map s.heap
      split_ifs with hd
      · rfl
      · exact (h.clean id (by simpa using hd)).symm

theorem ok_put (s : Session V R) (h : Ok rec s) (id : String) (obj : Option Addr) (ho : ∀ a, obj = some a → Exists s a) : Ok rec (s.put rec id obj) := by
  refine ⟨fun x hx => ?_, fun x a hx => ?_⟩
  · by_cases hr : rec x = rec id
    · simp [Session.put, hr] at hx
    · have hne : x ≠ id := fun e => hr (by rw [e])
      simp only [Session.put, Function.update_of_ne hr] at hx
      simp only [Session.put, Function.update_of_ne hne]
      exact h.clean x hx
  · by_cases hne : x = id
    · subst hne
      simp only [Session.put, Function.update_self] at hx
      exact ho a hx
    · simp only [Session.put, Function.update_of_ne hne] at hx
      exact h.old x a hx

theorem view_put (s : Session V R) (id : String) (obj : Option Addr) :
    (view (s.put rec id obj)).mem = fun x => if x = id then obj.map s.heap else (s.mem x).map s.heap := by
  funext x
  by_cases hx : x = id
  · subst hx; simp [view, Session.put]
  · simp [view, Session.put, hx]

/-- The object given to the call exists. -/
def OpOk (s : Session V R) : DbOp Addr → Prop
  | .create _ a => Exists s a
  | .update _ a => Exists s a
  | .delete _ => True
  | .strict _ => False

/-- The bare call is the call on the map of values. -/
theorem fn_spec (s : Session V R) (h : Ok rec s) (op : DbOp Addr) (ho : OpOk s op) :
    let m : Map V := fun id => (s.mem id).map s.heap
    Ok rec (s.fn rec op).2 ∧ view (s.fn rec op).2 = { view s with mem := (m.apply (valued s op)).getD m } ∧
    m.Answers (valued s op) ((s.fn rec op).1.map (contents (s.fn rec op).2.heap)) ∧
    (m.apply (valued s op) = none ↔ ∃ e, (s.fn rec op).1 = .error e) := by
  intro m
  cases op with
  | create id a =>
    show Ok rec (match s.mem id with | none => _ | some _ => _ : Outcome (DbRet Addr) × Session V R).2 ∧ _
    cases hm : s.mem id with
    | none =>
      have hmi : m id = none := by simp only [m, hm]; rfl
      have ha : m.apply (valued s (.create id a)) = some (m.set id (s.heap a)) := if_pos hmi
      have hf : s.fn rec (.create id a) = (.ok (.count (some 1)), s.put rec id (some a)) := by
        show (match s.mem id with | none => _ | some _ => _ : Outcome (DbRet Addr) × Session V R) = _
        rw [hm]
      rw [hf, ha]
      refine ⟨ok_put s h id _ fun b hb => (by obtain rfl := Option.some.inj hb; exact ho), ?_, ?_, ?_⟩
      · have := view_put (rec := rec) s id (some a)
        exact congrArg (fun x => ({ view s with mem := x } : Store V)) this
      · show _ = if m id = none then _ else _
        rw [if_pos hmi]; rfl
      · exact ⟨fun h => (by cases h), fun ⟨_, h⟩ => (by cases h)⟩
    | some b =>
      have hmi : ¬ m id = none := by simp only [m, hm]; exact fun h => by cases h
      have ha : m.apply (valued s (.create id a)) = none := if_neg hmi
      have hf : s.fn rec (.create id a) = (.error .objectOverwrite, s) := by
        show (match s.mem id with | none => _ | some _ => _ : Outcome (DbRet Addr) × Session V R) = _
        rw [hm]
      rw [hf, ha]
      refine ⟨h, rfl, ?_, ⟨fun _ => ⟨_, rfl⟩, fun _ => rfl⟩⟩
      show _ = if m id = none then _ else _
      rw [if_neg hmi]; rfl
  | update id a =>
    refine ⟨ok_put s h id _ fun b hb => (by obtain rfl := Option.some.inj hb; exact ho), ?_, rfl, ?_⟩
    · have := view_put (rec := rec) s id (some a)
      exact congrArg (fun x => ({ view s with mem := x } : Store V)) this
    · exact ⟨fun h => (by cases h), fun ⟨_, h⟩ => (by cases h)⟩
  | delete id =>
    cases hm : s.mem id with
    | none =>
      have hf : s.fn rec (.delete id) = (.ok (.objs []), s) := by
        show (match s.mem id with | none => _ | some _ => _ : Outcome (DbRet Addr) × Session V R) = _
        rw [hm]
      rw [hf]
      refine ⟨h, ?_, ⟨[], rfl, ?_⟩, ⟨fun h => (by cases h), fun ⟨_, h⟩ => (by cases h)⟩⟩
      · unfold view
        congr 1
        funext x
        show _ = if x = id then none else _
        split_ifs with hx
        · rw [hx, hm]; rfl
        · rfl
      · show none = (s.mem id).map s.heap
        rw [hm]; rfl
    | some a =>
      have hf : s.fn rec (.delete id) = (.ok (.objs [a]), s.put rec id none) := by
        show (match s.mem id with | none => _ | some _ => _ : Outcome (DbRet Addr) × Session V R) = _
        rw [hm]
      rw [hf]
      refine ⟨ok_put s h id _ fun b hb => (by cases hb), ?_, ⟨[s.heap a], rfl, ?_⟩, ⟨fun h => (by cases h), fun ⟨_, h⟩ => (by cases h)⟩⟩
      · have := view_put (rec := rec) s id none
        exact congrArg (fun x => ({ view s with mem := x } : Store V)) this
      · show some (s.heap a) = (s.mem id).map s.heap
        rw [hm]; rfl
  | strict b => exact absurd ho id

theorem exists_abort (s : Session V R) (a : Addr) (h : Exists s a) : Exists (s.abort rec) a := by
  cases a with
  | made n => trivial
  | loaded t id => exact Nat.lt_succ_of_lt h

theorem valued_abort (s : Session V R) (op : DbOp Addr) (ho : OpOk s op) : valued (s.abort rec) op = valued s op := by
  cases op with
  | create id a => exact congrArg (DbOp.create id) (loadedHeap_old s _ a ho)
  | update id a => exact congrArg (DbOp.update id) (loadedHeap_old s _ a ho)
  | delete id => rfl
  | strict b => rfl

theorem opOk_abort (s : Session V R) (op : DbOp Addr) (ho : OpOk s op) : OpOk (s.abort rec) op := by
  cases op with
  | create id a => exact exists_abort s a ho
  | update id a => exact exists_abort s a ho
  | delete id => trivial
  | strict b => exact ho

theorem write_of_opOk (s : Session V R) (op : DbOp Addr) (ho : OpOk s op) : isWrite (valued s op) = true := by
  cases op <;> first | rfl | exact absurd ho id

theorem fn_flags (s : Session V R) (op : DbOp Addr) : (s.fn rec op).2.auto = s.auto ∧ (s.fn rec op).2.failed = s.failed := by
  cases op with
  | create id a =>
    show (match s.mem id with | none => _ | some _ => _ : Outcome (DbRet Addr) × Session V R).2.auto = _ ∧
      (match s.mem id with | none => _ | some _ => _ : Outcome (DbRet Addr) × Session V R).2.failed = _
    cases s.mem id <;> exact ⟨rfl, rfl⟩
  | update id a => exact ⟨rfl, rfl⟩
  | delete id =>
    show (match s.mem id with | none => _ | some _ => _ : Outcome (DbRet Addr) × Session V R).2.auto = _ ∧
      (match s.mem id with | none => _ | some _ => _ : Outcome (DbRet Addr) × Session V R).2.failed = _
    cases s.mem id <;> exact ⟨rfl, rfl⟩
  | strict b => exact ⟨rfl, rfl⟩

/-- **C128, one call.** The call with the contents its object has now, on the transactional map. -/
theorem call_spec (s : Session V R) (h : Ok rec s) (op : DbOp Addr) (ho : OpOk s op) (ok : Bool) :
    Ok rec (s.call rec op ok).2 ∧ view (s.call rec op ok).2 = (view s).call (valued s op) ok ∧
    (view s).Answers (valued s op) ok ((s.call rec op ok).1.map (contents (s.call rec op ok).2.heap)) := by
  have hw := write_of_opOk s op ho
  unfold Session.call
  cases ha : s.auto with
  | true =>
    have hav : (view s).auto = true := ha
    simp only [if_true]
    have h1 := ok_abort s h
    have hv1 := view_abort s h
    obtain ⟨k1, k2, k3, k4⟩ := fn_spec (s.abort rec) h1 op (opOk_abort s op ho)
    rw [valued_abort s op ho] at k2 k3 k4
    have hmem : (fun id => ((s.abort rec).mem id).map (s.abort rec).heap) = s.disk := funext fun id => reload_dirty_read s h id
    rw [hmem] at k2 k3 k4
    have hcall : (view s).call (valued s op) ok = if Map.apply s.disk (valued s op) = none then { view s with mem := s.disk, broken := false }
        else if ok then { view s with disk := (Map.apply s.disk (valued s op)).getD s.disk, mem := (Map.apply s.disk (valued s op)).getD s.disk, broken := false }
        else { view s with mem := s.disk, auto := false, broken := true } := by
      unfold Store.call; rw [if_pos ⟨hav, hw⟩]; rfl
    have hans : ∀ r, (view s).Answers (valued s op) ok r ↔ if Map.apply s.disk (valued s op) ≠ none ∧ ok = false then r = .error .storageError
        else Map.Answers s.disk (valued s op) r := by
      intro r; unfold Store.Answers; rw [if_pos ⟨hav, hw⟩]; exact Iff.rfl
    rw [hcall, hans]
    obtain ⟨f1, f2⟩ := fn_flags (rec := rec) (s.abort rec) op
    rcases hr : (s.abort rec).fn rec op with ⟨r, s'⟩
    rw [hr] at k1 k2 k3 k4 f1 f2
    simp only at k1 k2 k3 k4 f1 f2
    cases r with
    | error e =>
      have hn := k4.2 ⟨e, rfl⟩
      rw [if_pos hn, if_neg (fun hh => hh.1 hn)]
      refine ⟨ok_abort _ k1, ?_, k3⟩
      show view (s'.abort rec) = _
      rw [view_abort _ k1, k2, hv1]
      have : s'.disk = s.disk := by
        have := congrArg Store.disk k2
        rw [hv1] at this
        exact this
      rw [this]
    | ok r =>
      have hn : ¬ Map.apply s.disk (valued s op) = none := fun hh => by obtain ⟨e, he⟩ := k4.1 hh; cases he
      rw [if_neg hn]
      have hc1 := commit_ok s' k1 ok
      have hc2 := view_commit s' k1 ok
      have hfail : s'.failed = false := f2
      have goal : ∀ x : Outcome (DbRet Addr) × Session V R, s'.finish rec r ok = x →
          (Ok rec x.2 ∧ view x.2 = (if ok = true then
              { view s with disk := (Map.apply s.disk (valued s op)).getD s.disk, mem := (Map.apply s.disk (valued s op)).getD s.disk, broken := false }
            else { view s with mem := s.disk, auto := false, broken := true }) ∧
            if Map.apply s.disk (valued s op) ≠ none ∧ ok = false then x.1.map (contents x.2.heap) = .error .storageError
            else Map.Answers s.disk (valued s op) (x.1.map (contents x.2.heap))) := by
        rintro x rfl
        unfold Session.finish
        cases ok with
        | true =>
          have hcm : (s'.commit rec true).1 = .ok () := by unfold Live.Session.commit; rw [if_neg (by simp [hfail])]; rfl
          rcases hcc : s'.commit rec true with ⟨c, s''⟩
          rw [hcc] at hc1 hc2 hcm
          simp only at hc1 hc2 hcm
          subst hcm
          refine ⟨⟨hc1.clean, hc1.old⟩, ?_, ?_⟩
          · have e1 : view { s'' with auto := true } = { view s'' with auto := true } := rfl
            show view { s'' with auto := true } = _
            rw [e1, hc2, k2, hv1]
            unfold Store.commit view
            simp [ha]
          · rw [if_neg (by simp)]
            have hheap : s''.heap = s'.heap := by
              have := congrArg (fun x => x.2.heap) hcc
              simp only [Live.Session.commit, hfail, Bool.false_eq_true, if_false, if_true] at this
              exact this.symm
            show Map.Answers s.disk (valued s op) (.ok (contents s''.heap r))
            rw [hheap]; exact k3
        | false =>
          have hcm : (s'.commit rec false).1 = .error .storageError := by unfold Live.Session.commit; rw [if_neg (by simp [hfail])]; rfl
          rcases hcc : s'.commit rec false with ⟨c, s''⟩
          rw [hcc] at hc1 hc2 hcm
          simp only at hc1 hc2 hcm
          subst hcm
          refine ⟨⟨hc1.clean, hc1.old⟩, ?_, ?_⟩
          · have e1 : view { s'' with auto := false } = { view s'' with auto := false } := rfl
            show view { s'' with auto := false } = _
            rw [e1, hc2, k2, hv1]
            unfold Store.commit view
            simp
          · rw [if_pos ⟨hn, rfl⟩]; rfl
      exact goal _ rfl
  | false =>
    have hav : (view s).auto = false := ha
    simp only [Bool.false_eq_true, if_false]
    have hcall : (view s).call (valued s op) ok = if s.failed then view s else
        { view s with mem := ((view s).mem.apply (valued s op)).getD (view s).mem } := by
      unfold Store.call; rw [if_neg (by simp [hav])]; rfl
    have hans : ∀ r, (view s).Answers (valued s op) ok r ↔ if s.failed then r = .error .transactionFailed else (view s).mem.Answers (valued s op) r := by
      intro r; unfold Store.Answers; rw [if_neg (by simp [hav])]; exact Iff.rfl
    rw [hcall, hans]
    cases hf : s.failed with
    | true => exact ⟨h, rfl, rfl⟩
    | false =>
      simp only [Bool.false_eq_true, if_false]
      obtain ⟨k1, k2, k3, _⟩ := fn_spec s h op ho
      exact ⟨k1, k2, k3⟩

/-- One event of a program that behaves. -/
theorem step_spec (s : Session V R) (h : Ok rec s) (e : LiveEvent V R) (hb : Behaves s e) :
    Ok rec (s.step rec e) ∧ view (s.step rec e) = (view s).steps (seenAs s e).toList := by
  cases e with
  | call op ok =>
    have ho : OpOk s op := by cases op <;> exact hb
    obtain ⟨k1, k2, _⟩ := call_spec s h op ho ok
    exact ⟨k1, k2⟩
  | setAutocommit b => exact ⟨⟨h.clean, h.old⟩, rfl⟩
  | enter =>
    refine ⟨⟨(ok_abort s h).clean, (ok_abort s h).old⟩, ?_⟩
    have e1 : view { s.abort rec with auto := false } = { view (s.abort rec) with auto := false } := rfl
    show view { s.abort rec with auto := false } = _
    rw [e1, view_abort s h]; rfl
  | exit raised ok =>
    cases raised with
    | true =>
      refine ⟨⟨(ok_abort s h).clean, (ok_abort s h).old⟩, ?_⟩
      have e1 : view { s.abort rec with auto := true } = { view (s.abort rec) with auto := true } := rfl
      show view { s.abort rec with auto := true } = _
      rw [e1, view_abort s h]; rfl
    | false =>
      refine ⟨⟨(commit_ok s h ok).clean, (commit_ok s h ok).old⟩, ?_⟩
      have e1 : view { (s.commit rec ok).2 with auto := true } = { view (s.commit rec ok).2 with auto := true } := rfl
      show view { (s.commit rec ok).2 with auto := true } = _
      rw [e1, view_commit s h ok]; rfl
  | commit ok => exact ⟨commit_ok s h ok, view_commit s h ok⟩
  | abort => exact ⟨ok_abort s h, view_abort s h⟩
  | crash =>
    have hr := fun id => reload_read s h (fun _ => true) id
    refine ⟨⟨fun id _ => (hr id).trans (if_pos rfl), fun id a ha => reload_old s h (fun _ => true) id a ha⟩, ?_⟩
    show view _ = Store.mk s.disk s.disk true false
    unfold view
    congr 1
    exact funext fun id => (hr id).trans (if_pos rfl)
  | change a v =>
    have hsame : ∀ id, (s.mem id).map (Function.update s.heap a v) = (s.mem id).map s.heap := by
      intro id
      cases hm : s.mem id with
      | none => rfl
      | some b =>
        have : b ≠ a := fun e => hb id (by rw [hm, e])
        exact congrArg some (Function.update_of_ne this _ _)
    refine ⟨⟨fun id hd => (hsame id).trans (h.clean id hd), h.old⟩, ?_⟩
    show view _ = view s
    unfold view
    congr 1
    exact funext hsame
  | evict which =>
    have hr : ∀ id, ((s.step rec (.evict which)).mem id).map (s.step rec (.evict which)).heap = (s.mem id).map s.heap := by
      intro id
      have := reload_read s h (fun r => which r && !s.dirty r) id
      refine this.trans ?_
      split_ifs with hw
      · rw [Bool.and_eq_true, Bool.not_eq_true'] at hw
        exact (h.clean id hw.2).symm
      · rfl
    refine ⟨⟨fun id hd => (hr id).trans (h.clean id hd), fun id a ha => reload_old s h (fun r => which r && !s.dirty r) id a ha⟩, ?_⟩
    show view _ = view s
    unfold view
    congr 1
    exact funext hr

theorem store_steps_append (s : Store V) (a b : List (Event V)) : s.steps (a ++ b) = (s.steps a).steps b := by
  induction a generalizing s with
  | nil => rfl
  | cons e a ih => exact ih _

/-- **C128 (partial: objects in the database are not changed).** If the program changes no object while it is in the database, then
after every history of calls, blocks, commits, aborts, crashes, changes of other objects and caching, the session shows exactly what
the transactional map of C93 shows in which each object is stored with the contents it had when it was given to the call. -/
theorem live_store_partial (es : List (LiveEvent V R)) : ∀ (s : Session V R), Ok rec s → BehavesRun rec s es →
    view (s.steps rec es) = (view s).steps (seenRun rec s es) ∧ ∀ id, (s.steps rec es).read id = ((view s).steps (seenRun rec s es)).read id := by
  have key : ∀ (s : Session V R), Ok rec s → BehavesRun rec s es → view (s.steps rec es) = (view s).steps (seenRun rec s es) := by
    induction es with
    | nil => intro s _ _; rfl
    | cons e es ih =>
      intro s h hb
      obtain ⟨k1, k2⟩ := step_spec s h e hb.1
      show view ((s.step rec e).steps rec es) = (view s).steps ((seenAs s e).toList ++ seenRun rec (s.step rec e) es)
      rw [ih _ k1 hb.2, store_steps_append, k2]
  intro s h hb
  refine ⟨key s h hb, fun id => ?_⟩
  rw [← key s h hb]; rfl

/-! ### What is stored without a call -/

/-- The event is a call about an id of the record `r`. -/
def Names (rec : String → R) (r : R) : LiveEvent V R → Prop
  | .call (.create id _) _ => rec id = r
  | .call (.update id _) _ => rec id = r
  | .call (.delete id) _ => rec id = r
  | _ => False

theorem fn_unnamed (s : Session V R) (r : R) (op : DbOp Addr) (ok : Bool) (hn : ¬ Names (V := V) rec r (.call op ok)) :
    (s.fn rec op).2.dirty r = s.dirty r ∧ (s.fn rec op).2.disk = s.disk := by
  have hput : ∀ id obj, rec id ≠ r → (s.put rec id obj).dirty r = s.dirty r := fun id obj h => Function.update_of_ne (Ne.symm h) _ _
  cases op with
  | create id a =>
    show (match s.mem id with | none => _ | some _ => _ : Outcome (DbRet Addr) × Session V R).2.dirty r = _ ∧
      (match s.mem id with | none => _ | some _ => _ : Outcome (DbRet Addr) × Session V R).2.disk = _
    cases s.mem id with
    | none => exact ⟨hput id _ hn, rfl⟩
    | some _ => exact ⟨rfl, rfl⟩
  | update id a => exact ⟨hput id _ hn, rfl⟩
  | delete id =>
    show (match s.mem id with | none => _ | some _ => _ : Outcome (DbRet Addr) × Session V R).2.dirty r = _ ∧
      (match s.mem id with | none => _ | some _ => _ : Outcome (DbRet Addr) × Session V R).2.disk = _
    cases s.mem id with
    | none => exact ⟨rfl, rfl⟩
    | some _ => exact ⟨hput id _ hn, rfl⟩
  | strict b => exact ⟨rfl, rfl⟩

theorem commit_unnamed (s : Session V R) (r : R) (hd : s.dirty r = false) (ok : Bool) :
    (s.commit rec ok).2.dirty r = false ∧ ∀ id, rec id = r → (s.commit rec ok).2.disk id = s.disk id := by
  unfold Live.Session.commit
  split_ifs
  · exact ⟨hd, fun _ _ => rfl⟩
  · refine ⟨rfl, fun id hid => ?_⟩
    show (if s.dirty (rec id) = true then _ else s.disk id) = s.disk id
    rw [hid, hd]; rfl
  · exact ⟨rfl, fun _ _ => rfl⟩

theorem step_unnamed (s : Session V R) (r : R) (hd : s.dirty r = false) (e : LiveEvent V R) (hn : ¬ Names rec r e) :
    (s.step rec e).dirty r = false ∧ ∀ id, rec id = r → (s.step rec e).disk id = s.disk id := by
  cases e with
  | call op ok =>
    show (s.call rec op ok).2.dirty r = false ∧ ∀ id, rec id = r → (s.call rec op ok).2.disk id = s.disk id
    unfold Session.call
    by_cases ha : s.auto = true
    · rw [if_pos ha]
      obtain ⟨k1, k2⟩ := fn_unnamed (s.abort rec) r op ok hn
      rcases hf : (s.abort rec).fn rec op with ⟨o, s'⟩
      rw [hf] at k1 k2
      have k1' : s'.dirty r = false := k1
      have k2' : s'.disk = s.disk := k2
      cases o with
      | error e => exact ⟨rfl, fun id _ => congrFun k2' id⟩
      | ok o =>
        obtain ⟨c1, c2⟩ := commit_unnamed (rec := rec) s' r k1' ok
        show (s'.finish rec o ok).2.dirty r = false ∧ ∀ id, rec id = r → (s'.finish rec o ok).2.disk id = s.disk id
        unfold Session.finish
        rcases hc : s'.commit rec ok with ⟨o', s''⟩
        rw [hc] at c1 c2
        rw [← k2']
        cases o' <;> exact ⟨c1, c2⟩
    · rw [if_neg ha]
      split_ifs
      · exact ⟨hd, fun _ _ => rfl⟩
      · obtain ⟨k1, k2⟩ := fn_unnamed s r op ok hn
        exact ⟨k1.trans hd, fun id _ => congrFun k2 id⟩
  | setAutocommit b => exact ⟨hd, fun _ _ => rfl⟩
  | enter => exact ⟨rfl, fun _ _ => rfl⟩
  | exit raised ok =>
    cases raised with
    | true => exact ⟨rfl, fun _ _ => rfl⟩
    | false => exact commit_unnamed s r hd ok
  | commit ok => exact commit_unnamed s r hd ok
  | abort => exact ⟨rfl, fun _ _ => rfl⟩
  | crash => exact ⟨rfl, fun _ _ => rfl⟩
  | change a v => exact ⟨hd, fun _ _ => rfl⟩
  | evict which => exact ⟨hd, fun _ _ => rfl⟩

/-- **C128, what needs a call.** Whatever objects the program changes: as long as no call is about an id of a record (and none
was in the transaction under way), nothing stored in that record changes. -/
theorem disk_unchanged (r : R) (es : List (LiveEvent V R)) : ∀ (s : Session V R), s.dirty r = false → (∀ e ∈ es, ¬ Names rec r e) →
    ∀ id, rec id = r → (s.steps rec es).disk id = s.disk id := by
  induction es with
  | nil => intro s _ _ id _; rfl
  | cons e es ih =>
    intro s hd hn id hid
    obtain ⟨k1, k2⟩ := step_unnamed s r hd e (hn e List.mem_cons_self)
    exact (ih _ k1 (fun e' he' => hn e' (List.mem_cons_of_mem _ he')) id hid).trans (k2 id hid)

theorem abort_clean (s : Session V R) (hc : ∀ r, s.dirty r = false) :
    (s.abort rec).mem = s.mem ∧ (s.abort rec).heap = s.heap ∧ (s.abort rec).disk = s.disk ∧ (s.abort rec).failed = false := by
  refine ⟨funext fun id => ?_, funext fun a => ?_, rfl, rfl⟩
  · show (if s.dirty (rec id) = true then _ else s.mem id) = s.mem id
    rw [hc]; rfl
  · cases a with
    | made n => rfl
    | loaded t id =>
      show (if t = s.time ∧ s.dirty (rec id) = true then _ else _) = _
      rw [hc, if_neg (by simp)]

/-- An update in autocommit mode in a clean session: what is written and what is left. -/
theorem update_clean (s : Session V R) (hc : ∀ r, s.dirty r = false) (ha : s.auto = true) (y : String) (b : Addr) :
    (s.call rec (.update y b) true).1 = .ok (.prev (s.mem y)) ∧
    ∀ x, x ≠ y → (s.call rec (.update y b) true).2.disk x = (if rec x = rec y then (s.mem x).map s.heap else s.disk x) ∧
      (s.call rec (.update y b) true).2.read x = (s.mem x).map s.heap := by
  obtain ⟨h1, h2, h3, h4⟩ := abort_clean (rec := rec) s hc
  have hcall : s.call rec (.update y b) true = ((s.abort rec).put rec y (some b)).finish rec (.prev ((s.abort rec).mem y)) true := by
    unfold Session.call; rw [if_pos ha]; rfl
  rw [hcall]
  unfold Session.finish Live.Session.commit
  have hf : ¬ ((s.abort rec).put rec y (some b)).failed = true := by
    show ¬ (s.abort rec).failed = true
    rw [h4]; simp
  rw [if_neg hf]
  refine ⟨by rw [h1]; rfl, fun x hx => ⟨?_, ?_⟩⟩
  · show (if Function.update (fun _ => false) (rec y) true (rec x) = true then (Function.update (s.abort rec).mem y (some b) x).map (s.abort rec).heap
      else (s.abort rec).disk x) = _
    rw [h1, h2, h3, Function.update_of_ne hx]
    by_cases hr : rec x = rec y
    · rw [hr, Function.update_self, if_pos rfl, if_pos rfl]
    · rw [Function.update_of_ne hr, if_neg (by simp), if_neg hr]
  · show (Function.update (s.abort rec).mem y (some b) x).map (s.abort rec).heap = _
    rw [h1, h2, Function.update_of_ne hx]

theorem change_read (s : Session V R) (x : String) (a : Addr) (v : V) (hm : s.mem x = some a) :
    (s.mem x).map (Function.update s.heap a v) = some v := by rw [hm]; exact congrArg some (Function.update_self ..)

/-- **C128 is false: a stray change is stored.** For every session with nothing pending and every two ids of one record: the program
changes the object read for `x`, and calls nothing but `update` of `y`; then the change of `x` is on disk. -/
theorem stray_change_stored (s : Session V R) (hc : ∀ r, s.dirty r = false) (ha : s.auto = true) (x y : String) (hxy : x ≠ y)
    (hr : rec x = rec y) (a b : Addr) (hm : s.mem x = some a) (v : V) :
    (s.steps rec [.change a v, .call (.update y b) true]).disk x = some v := by
  have h := ((update_clean (rec := rec) { s with heap := Function.update s.heap a v } hc ha y b).2 x hxy).1
  refine h.trans ?_
  rw [if_pos hr]
  exact change_read s x a v hm

/-- **C128 is false: or it is not.** With the ids in two records the same program leaves the disk as it was, although it reads the
change, until the record is dropped from the cache: then the change is gone. -/
theorem stray_change_unstored (s : Session V R) (hc : ∀ r, s.dirty r = false) (ha : s.auto = true) (x y : String)
    (hr : rec x ≠ rec y) (a b : Addr) (hm : s.mem x = some a) (v : V) :
    (s.steps rec [.change a v, .call (.update y b) true]).disk x = s.disk x ∧
    (s.steps rec [.change a v, .call (.update y b) true]).read x = some v ∧
    (s.steps rec [.change a v, .call (.update y b) true, .evict fun r => decide (r = rec x)]).read x = s.disk x := by
  have hxy : x ≠ y := fun e => hr (by rw [e])
  have hu := (update_clean (rec := rec) { s with heap := Function.update s.heap a v } hc ha y b).2 x hxy
  have hdisk : (s.steps rec [.change a v, .call (.update y b) true]).disk x = s.disk x := hu.1.trans (if_neg hr)
  refine ⟨hdisk, hu.2.trans (change_read s x a v hm), ?_⟩
  obtain ⟨t, ht⟩ : ∃ t, t = s.steps rec [.change a v, .call (.update y b) true] := ⟨_, rfl⟩
  have hstep : s.steps rec [.change a v, .call (.update y b) true, .evict fun r => decide (r = rec x)] =
      t.step rec (.evict fun r => decide (r = rec x)) := by rw [ht]; rfl
  have htd : t.dirty (rec x) = false := by
    rw [ht]
    exact (step_unnamed { s with heap := Function.update s.heap a v } (rec x) (hc _) (.call (.update y b) true) (fun h => hr h.symm)).1
  rw [← ht] at hdisk
  rw [hstep, ← hdisk]
  show Option.map _ (if (decide (rec x = rec x) && !t.dirty (rec x)) = true then _ else _) = _
  rw [if_pos (by simp [htd])]
  cases hd : t.disk x with
  | none => rfl
  | some w => simp [Session.step, Session.reload, loadedHeap, htd, hd]

/-- **C128 is false: `abort` keeps a change.** Aborting the transaction does not undo the change of an object. -/
theorem abort_keeps_change (s : Session V R) (h : Ok rec s) (x : String) (hd : s.dirty (rec x) = false) (a : Addr) (hm : s.mem x = some a) (v : V) :
    (s.steps rec [.change a v, .abort]).read x = some v := by
  show Option.map (loadedHeap (Function.update s.heap a v) s.disk s.time fun id => s.dirty (rec id))
    (if s.dirty (rec x) = true then _ else s.mem x) = some v
  rw [hd, if_neg (by simp), hm]
  have he := h.old x a hm
  have := loadedHeap_old { s with heap := Function.update s.heap a v } (fun id => s.dirty (rec id)) a (by cases a <;> exact he)
  exact congrArg some (this.trans (Function.update_self ..))

/-- **C128 is false: `update` does not return what was stored.** The usual cycle of reading an object, changing it and calling `update`
with it returns as the previous object that object itself, with the new contents; what was stored cannot be had. -/
theorem update_previous (s : Session V R) (hc : ∀ r, s.dirty r = false) (ha : s.auto = true) (x : String) (a : Addr) (hm : s.mem x = some a) (v : V) :
    ((s.step rec (.change a v)).call rec (.update x a) true).1 = .ok (.prev (some a)) ∧ (s.step rec (.change a v)).heap a = v := by
  refine ⟨?_, Function.update_self ..⟩
  have := (update_clean (rec := rec) { s with heap := Function.update s.heap a v } hc ha x a).1
  rw [← hm]; exact this

/-! ### The hypotheses can be met -/

/-- A session with `"x"` and `"y"` stored. -/
def sample : Session Nat Bool where
  heap := fun a => if a = .loaded 0 "x" then 1 else 2
  mem := fun id => if id = "x" ∨ id = "y" then some (.loaded 0 id) else none
  disk := fun id => if id = "x" then some 1 else if id = "y" then some 2 else none
  dirty := fun _ => false
  time := 1

theorem sample_ok (rec : String → Bool) : Ok rec sample := by
  refine ⟨fun id _ => ?_, fun id a h => ?_⟩
  · by_cases hx : id = "x"
    · subst hx; rfl
    · by_cases hy : id = "y"
      · subst hy; rfl
      · simp [sample, hx, hy]
  · simp only [sample] at h
    split_ifs at h
    obtain rfl := Option.some.inj h
    exact Nat.lt_succ_self 0

/-- A program that behaves: it makes an object, stores it, and changes it after it was deleted. -/
example : BehavesRun (fun _ => true) sample
    [.change (.made 0) 7, .call (.create "z" (.made 0)) true, .call (.delete "z") true, .change (.made 0) 8, .call (.update "x" (.made 0)) true] := by
  refine ⟨fun id h => ?_, trivial, trivial, fun id h => ?_, trivial, trivial⟩
  · simp only [sample] at h; split_ifs at h; exact absurd (Option.some.inj h) (by simp)
  · by_cases hz : id = "z"
    · subst hz; exact absurd h (by decide)
    · simp [Session.step, Session.call, Session.abort, Session.reload, Session.fn, Session.finish, Live.Session.commit, Session.put, sample, hz] at h

example : (sample.steps (fun _ => true) [.change (.loaded 0 "x") 9, .call (.update "y" (.made 0)) true]).disk "x" = some 9 :=
  stray_change_stored sample (fun _ => rfl) rfl "x" "y" (by decide) rfl _ _ rfl 9

example : (sample.steps (fun id => id == "x") [.change (.loaded 0 "x") 9, .call (.update "y" (.made 0)) true]).disk "x" = some 1 :=
  (stray_change_unstored sample (fun _ => rfl) rfl "x" "y" (by decide) _ _ rfl 9).1

end Verif.Props.Live
