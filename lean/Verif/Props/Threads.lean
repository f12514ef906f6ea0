import Verif.Jsonld.Threads
import Verif.Props.Docloader

/-!
# Threads sharing an object's contexts (C105) and the document cache (C106)
-/
namespace Verif.Props
open Verif Verif.Jsonld

/-! ## C105 -/

/-- No thread is in a block. -/
def AllOutside (s : Threads) : Prop := ∀ i, s.phase i = .outside

/-- The thread has put something on the stack that it has not taken off. -/
def Owes : Phase → Prop
  | .pushed _ => True
  | .inside _ => True
  | .leaving => True
  | _ => False

/-- The invariant of all schedules: on top of the original stack there is one entry for each thread that owes one; all contexts around come from
the original one and the ones asked for (`P`). -/
structure StackInv (P : Ctx → Prop) (s0 : List Ctx) (s : Threads) : Prop where
  stack : ∃ (owing : List Nat) (top : List Ctx), owing.Nodup ∧ (∀ i, i ∈ owing ↔ Owes (s.phase i)) ∧ s.stack = top ++ s0 ∧
    top.length = owing.length ∧ ∀ x ∈ top, P x
  context : P s.context
  fine : ∀ i, s.phase i ≠ .raised ∧ s.phase i ≠ .leavingEmpty
  saved : ∀ i, (∀ w x, s.phase i = .entering w x → P w ∧ P x) ∧ (∀ w, s.phase i = .pushed w → P w) ∧ (∀ x, s.phase i = .popped x → P x)
  log : ∀ e ∈ s.log, P e.2.2

theorem owing_same {s : Threads} {i : Nat} {p : Phase} {owing : List Nat} (h : ∀ j, j ∈ owing ↔ Owes (s.phase j))
    (hp : Owes p ↔ Owes (s.phase i)) : ∀ j, j ∈ owing ↔ Owes (Function.update s.phase i p j) := by
  intro j
  by_cases hj : j = i
  · subst hj; rw [Function.update_self, h, hp]
  · rw [Function.update_of_ne hj, h]

theorem StackInv.act {P : Ctx → Prop} {s0 : List Ctx} {s : Threads} (h : StackInv P s0 s) (i : Nat) (d : Do)
    (hd : ∀ c, d = .enter c → P c) : StackInv P s0 (s.act i d) := by
  obtain ⟨⟨owing, top, h1, h2, h3, h4, h5⟩, hc, hf, hs, hl⟩ := h
  have fine' : ∀ p : Phase, p ≠ .raised → p ≠ .leavingEmpty → ∀ j, Function.update s.phase i p j ≠ .raised ∧
      Function.update s.phase i p j ≠ .leavingEmpty := by
    intro p hp1 hp2 j
    by_cases hj : j = i
    · subst hj; rw [Function.update_self]; exact ⟨hp1, hp2⟩
    · rw [Function.update_of_ne hj]; exact hf j
  have saved' : ∀ p : Phase, (∀ w x, p = .entering w x → P w ∧ P x) → (∀ w, p = .pushed w → P w) → (∀ x, p = .popped x → P x) →
      ∀ j, (∀ w x, Function.update s.phase i p j = .entering w x → P w ∧ P x) ∧ (∀ w, Function.update s.phase i p j = .pushed w → P w) ∧
        (∀ x, Function.update s.phase i p j = .popped x → P x) := by
    intro p a b c j
    by_cases hj : j = i
    · subst hj; rw [Function.update_self]; exact ⟨a, b, c⟩
    · rw [Function.update_of_ne hj]; exact hs j
  cases hp : s.phase i with
  | outside =>
    cases d with
    | enter c =>
      have e : s.act i (.enter c) = s.goto i (.entering c s.context) := by unfold Threads.act; rw [hp]
      rw [e]
      exact ⟨⟨owing, top, h1, owing_same h2 (by rw [hp]; simp [Owes]), h3, h4, h5⟩, hc, fine' _ (by simp) (by simp),
        saved' _ (by rintro w x ⟨⟩; exact ⟨hd c rfl, hc⟩) (by simp) (by simp), hl⟩
    | look =>
      have e : s.act i .look = { s with log := (i, none, s.context) :: s.log } := by unfold Threads.act; rw [hp]
      rw [e]; exact ⟨⟨owing, top, h1, h2, h3, h4, h5⟩, hc, hf, hs, by rintro x (_ | ⟨_, hx⟩); exacts [hc, hl x hx]⟩
    | step => have e : s.act i .step = s := by unfold Threads.act; rw [hp]
              rw [e]; exact ⟨⟨owing, top, h1, h2, h3, h4, h5⟩, hc, hf, hs, hl⟩
    | leave => have e : s.act i .leave = s := by unfold Threads.act; rw [hp]
               rw [e]; exact ⟨⟨owing, top, h1, h2, h3, h4, h5⟩, hc, hf, hs, hl⟩
  | entering w x =>
    cases d with
    | step =>
      have e : s.act i .step = ({ s with stack := x :: s.stack } : Threads).goto i (.pushed w) := by unfold Threads.act; rw [hp]
      rw [e]
      have hi : i ∉ owing := by rw [h2, hp]; simp [Owes]
      refine ⟨⟨i :: owing, x :: top, List.nodup_cons.2 ⟨hi, h1⟩, ?_, by simp [Threads.goto, h3], by simp [h4], ?_⟩, hc, fine' _ (by simp) (by simp),
        saved' _ (by simp) (by rintro w' ⟨⟩; exact ((hs i).1 w x hp).1) (by simp), hl⟩
      · intro j
        show _ ↔ Owes (Function.update s.phase i _ j)
        by_cases hj : j = i
        · subst hj; rw [Function.update_self]; simp [Owes]
        · rw [Function.update_of_ne hj, List.mem_cons, h2]; simp [hj]
      · intro y hy
        rcases List.mem_cons.1 hy with rfl | hy
        · exact ((hs i).1 w _ hp).2
        · exact h5 y hy
    | enter c => have e : s.act i (.enter c) = s := by unfold Threads.act; rw [hp]
                 rw [e]; exact ⟨⟨owing, top, h1, h2, h3, h4, h5⟩, hc, hf, hs, hl⟩
    | look => have e : s.act i .look = s := by unfold Threads.act; rw [hp]
              rw [e]; exact ⟨⟨owing, top, h1, h2, h3, h4, h5⟩, hc, hf, hs, hl⟩
    | leave => have e : s.act i .leave = s := by unfold Threads.act; rw [hp]
               rw [e]; exact ⟨⟨owing, top, h1, h2, h3, h4, h5⟩, hc, hf, hs, hl⟩
  | pushed w =>
    cases d with
    | step =>
      have e : s.act i .step = ({ s with context := w } : Threads).goto i (.inside w) := by unfold Threads.act; rw [hp]
      rw [e]
      exact ⟨⟨owing, top, h1, owing_same h2 (by rw [hp]; simp [Owes]), h3, h4, h5⟩, (hs i).2.1 w hp, fine' _ (by simp) (by simp),
        saved' _ (by simp) (by simp) (by simp), hl⟩
    | enter c => have e : s.act i (.enter c) = s := by unfold Threads.act; rw [hp]
                 rw [e]; exact ⟨⟨owing, top, h1, h2, h3, h4, h5⟩, hc, hf, hs, hl⟩
    | look => have e : s.act i .look = s := by unfold Threads.act; rw [hp]
              rw [e]; exact ⟨⟨owing, top, h1, h2, h3, h4, h5⟩, hc, hf, hs, hl⟩
    | leave => have e : s.act i .leave = s := by unfold Threads.act; rw [hp]
               rw [e]; exact ⟨⟨owing, top, h1, h2, h3, h4, h5⟩, hc, hf, hs, hl⟩
  | inside w =>
    cases d with
    | look =>
      have e : s.act i .look = { s with log := (i, some w, s.context) :: s.log } := by unfold Threads.act; rw [hp]
      rw [e]; exact ⟨⟨owing, top, h1, h2, h3, h4, h5⟩, hc, hf, hs, by rintro x (_ | ⟨_, hx⟩); exacts [hc, hl x hx]⟩
    | leave =>
      have hne : s.stack ≠ [] := by
        intro h0
        have hi : i ∈ owing := by rw [h2, hp]; trivial
        have : top = [] := (List.append_eq_nil_iff.1 (h3.symm.trans h0)).1
        rw [this] at h4
        rw [List.eq_nil_of_length_eq_zero h4.symm] at hi
        cases hi
      have e : s.act i .leave = s.goto i .leaving := by unfold Threads.act; rw [hp]; simp only [if_neg hne]
      rw [e]
      exact ⟨⟨owing, top, h1, owing_same h2 (by rw [hp]; simp [Owes]), h3, h4, h5⟩, hc, fine' _ (by simp) (by simp),
        saved' _ (by simp) (by simp) (by simp), hl⟩
    | enter c => have e : s.act i (.enter c) = s := by unfold Threads.act; rw [hp]
                 rw [e]; exact ⟨⟨owing, top, h1, h2, h3, h4, h5⟩, hc, hf, hs, hl⟩
    | step => have e : s.act i .step = s := by unfold Threads.act; rw [hp]
              rw [e]; exact ⟨⟨owing, top, h1, h2, h3, h4, h5⟩, hc, hf, hs, hl⟩
  | leaving =>
    cases d with
    | step =>
      have hi : i ∈ owing := by rw [h2, hp]; trivial
      cases top with
      | nil => rw [List.eq_nil_of_length_eq_zero h4.symm] at hi; cases hi
      | cons x top =>
        have hst : s.stack = x :: (top ++ s0) := h3
        have e : s.act i .step = ({ s with stack := top ++ s0 } : Threads).goto i (.popped x) := by
          unfold Threads.act; rw [hp]; simp only [Threads.pop, hst]
        rw [e]
        refine ⟨⟨owing.erase i, top, h1.erase i, ?_, rfl, ?_, fun y hy => h5 y (List.mem_cons_of_mem _ hy)⟩, hc, fine' _ (by simp) (by simp),
          saved' _ (by simp) (by simp) (by rintro y ⟨⟩; exact h5 _ List.mem_cons_self), hl⟩
        · intro j
          show _ ↔ Owes (Function.update s.phase i _ j)
          rw [h1.mem_erase_iff]
          by_cases hj : j = i
          · subst hj; rw [Function.update_self]; simp [Owes]
          · rw [Function.update_of_ne hj, h2]; simp [hj]
        · rw [List.length_erase_of_mem hi]
          simp only [List.length_cons] at h4
          omega
    | enter c => have e : s.act i (.enter c) = s := by unfold Threads.act; rw [hp]
                 rw [e]; exact ⟨⟨owing, top, h1, h2, h3, h4, h5⟩, hc, hf, hs, hl⟩
    | look => have e : s.act i .look = s := by unfold Threads.act; rw [hp]
              rw [e]; exact ⟨⟨owing, top, h1, h2, h3, h4, h5⟩, hc, hf, hs, hl⟩
    | leave => have e : s.act i .leave = s := by unfold Threads.act; rw [hp]
               rw [e]; exact ⟨⟨owing, top, h1, h2, h3, h4, h5⟩, hc, hf, hs, hl⟩
  | leavingEmpty => exact absurd hp (hf i).2
  | popped x =>
    cases d with
    | step =>
      have e : s.act i .step = ({ s with context := x } : Threads).goto i .outside := by unfold Threads.act; rw [hp]
      rw [e]
      exact ⟨⟨owing, top, h1, owing_same h2 (by rw [hp]; simp [Owes]), h3, h4, h5⟩, (hs i).2.2 x hp, fine' _ (by simp) (by simp),
        saved' _ (by simp) (by simp) (by simp), hl⟩
    | enter c => have e : s.act i (.enter c) = s := by unfold Threads.act; rw [hp]
                 rw [e]; exact ⟨⟨owing, top, h1, h2, h3, h4, h5⟩, hc, hf, hs, hl⟩
    | look => have e : s.act i .look = s := by unfold Threads.act; rw [hp]
              rw [e]; exact ⟨⟨owing, top, h1, h2, h3, h4, h5⟩, hc, hf, hs, hl⟩
    | leave => have e : s.act i .leave = s := by unfold Threads.act; rw [hp]
               rw [e]; exact ⟨⟨owing, top, h1, h2, h3, h4, h5⟩, hc, hf, hs, hl⟩
  | raised => exact absurd hp (hf i).1

theorem StackInv.acts {P : Ctx → Prop} {s0 : List Ctx} (ds : List (Nat × Do)) (hd : ∀ x ∈ ds, ∀ c, x.2 = .enter c → P c) :
    ∀ {s : Threads}, StackInv P s0 s → StackInv P s0 (s.acts ds) := by
  induction ds with
  | nil => intro s h; exact h
  | cons x ds ih =>
    intro s h
    rcases x with ⟨i, d⟩
    exact ih (fun y hy => hd y (List.mem_cons_of_mem _ hy)) (h.act i d (hd (i, d) List.mem_cons_self))

/-- **C105 (partial: what every schedule guarantees).** However the threads are interleaved: leaving a block never raises; when all threads have left
their blocks the stack is what it was, and the context is the original one or one of those that were asked for; and accesses only ever saw such
contexts.  Missing: that it is the original one, which is false (`context_stuck_counterexample`). -/
theorem threads_contexts_partial (c0 : Ctx) (s0 : List Ctx) (ds : List (Nat × Do)) :
    let s := Threads.acts ⟨c0, s0, fun _ => .outside, []⟩ ds
    let Known := fun c => c = c0 ∨ ∃ i, (i, Do.enter c) ∈ ds
    (∀ i, s.phase i ≠ .raised) ∧ Known s.context ∧ (∀ e ∈ s.log, Known e.2.2) ∧ (AllOutside s → s.stack = s0) := by
  intro s Known
  have h : StackInv Known s0 s := StackInv.acts ds (fun x hx c hc => by
      rcases x with ⟨i, d⟩
      simp only at hc
      subst hc
      exact .inr ⟨i, hx⟩)
    ⟨⟨[], [], List.nodup_nil, by simp [Owes], rfl, rfl, by simp⟩, .inl rfl, by simp, by simp, by simp⟩
  refine ⟨fun i => (h.fine i).1, h.context, h.log, ?_⟩
  intro ho
  obtain ⟨owing, top, -, h2, h3, h4, -⟩ := h.stack
  have : owing = [] := by
    rw [List.eq_nil_iff_forall_not_mem]
    intro i hi
    rw [h2, ho i] at hi
    exact hi
  rw [this] at h4
  rw [List.eq_nil_of_length_eq_zero h4] at h3
  exact h3

/-- **C105 is false**: two threads write the same object as JSON at the same time (each in the context `c`); afterwards the object is in the JSON
context for good. -/
theorem context_stuck_counterexample (c0 : Ctx) (s0 : List Ctx) (c : Ctx) :
    let s := Threads.acts ⟨c0, s0, fun _ => .outside, []⟩ [(0, .enter c), (0, .step), (0, .step), (1, .enter c), (1, .step), (1, .step),
      (0, .leave), (0, .step), (1, .leave), (1, .step), (1, .step), (0, .step)]
    AllOutside s ∧ s.context = c := by
  have hp : ∀ (f : Nat → Phase) (i : Nat) (p : Phase), Function.update f i p i = p := fun f i p => Function.update_self i p f
  have h01 : ∀ (f : Nat → Phase) (p : Phase), Function.update f 1 p 0 = f 0 := fun f p => Function.update_of_ne (by decide) p f
  have h10 : ∀ (f : Nat → Phase) (p : Phase), Function.update f 0 p 1 = f 1 := fun f p => Function.update_of_ne (by decide) p f
  simp only [Threads.acts, Threads.act, Threads.goto, Threads.pop, hp, h01, h10, if_neg (List.cons_ne_nil _ _), and_true]
  intro i
  by_cases h0 : i = 0
  · subst h0; simp
  · by_cases h1 : i = 1
    · subst h1; simp
    · simp [Function.update_of_ne h1, Function.update_of_ne h0]

/-- **C105 is false**: a thread in its block sees the original context although both threads use the same context. -/
theorem context_lost_counterexample :
    (Threads.acts ⟨none, [], fun _ => .outside, []⟩ [(0, .enter (some "json")), (1, .enter (some "json")), (0, .step), (1, .step), (0, .step), (1, .step),
      (0, .leave), (0, .step), (0, .step), (1, .look)]).log = [(1, some (some "json"), none)] := by decide +kernel

/-- **C105 is false**: a thread that only reads a property sees the JSON form while another one writes the object. -/
theorem outsider_sees_json_counterexample :
    (Threads.acts ⟨none, [], fun _ => .outside, []⟩ [(0, .enter (some "json")), (0, .step), (0, .step), (1, .look)]).log = [(1, none, some "json")] := by
  decide +kernel

/-! ### Switching under a lock -/

/-- Entering, leaving (each without interruption) and accesses. -/
inductive LockedDo where
  | enter (i : Nat) (c : Ctx)
  | look (i : Nat)
  | leave (i : Nat)

def LockedDo.steps : LockedDo → List (Nat × Do)
  | .enter i c => [(i, .enter c), (i, .step), (i, .step)]
  | .look i => [(i, .look)]
  | .leave i => [(i, .leave), (i, .step), (i, .step)]

theorem threads_acts_append (s : Threads) (a b : List (Nat × Do)) : s.acts (a ++ b) = (s.acts a).acts b := by
  induction a generalizing s with
  | nil => rfl
  | cons x a ih => exact ih _

/-- With uninterrupted switches: the context on top of the stack is a stack of blocks. -/
structure LockedInv (c0 : Ctx) (s0 : List Ctx) (wanted : Ctx → Prop) (s : Threads) : Prop where
  phase : ∀ i, s.phase i = .outside ∨ ∃ w, s.phase i = .inside w ∧ wanted w
  stack : ∃ (inside : List Nat) (top : List Ctx), inside.Nodup ∧ (∀ i, i ∈ inside ↔ s.phase i ≠ .outside) ∧
    s.context :: s.stack = top ++ c0 :: s0 ∧ top.length = inside.length ∧ ∀ x ∈ top, wanted x

theorem LockedInv.steps {c0 : Ctx} {s0 : List Ctx} {wanted : Ctx → Prop} {s : Threads} (h : LockedInv c0 s0 wanted s) (d : LockedDo)
    (hd : ∀ i c, d = .enter i c → wanted c) : LockedInv c0 s0 wanted (s.acts d.steps) ∧
      ((s.acts d.steps).log = s.log ∨ ∃ i, ((s.acts d.steps).log = (i, none, s.context) :: s.log ∧ s.phase i = .outside) ∨
        ∃ w, (s.acts d.steps).log = (i, some w, s.context) :: s.log ∧ s.phase i = .inside w) := by
  obtain ⟨hph, inside, top, h1, h2, h3, h4, h5⟩ := h
  cases d with
  | look i =>
    rcases hph i with hp | ⟨w, hp, -⟩
    · have e : s.acts (LockedDo.look i).steps = { s with log := (i, none, s.context) :: s.log } := by
        simp only [LockedDo.steps, Threads.acts, Threads.act, hp]
      rw [e]
      exact ⟨⟨hph, inside, top, h1, h2, h3, h4, h5⟩, .inr ⟨i, .inl ⟨rfl, hp⟩⟩⟩
    · have e : s.acts (LockedDo.look i).steps = { s with log := (i, some w, s.context) :: s.log } := by
        simp only [LockedDo.steps, Threads.acts, Threads.act, hp]
      rw [e]
      exact ⟨⟨hph, inside, top, h1, h2, h3, h4, h5⟩, .inr ⟨i, .inr ⟨w, rfl, hp⟩⟩⟩
  | enter i c =>
    rcases hph i with hp | ⟨w, hp, -⟩
    · have e : s.acts (LockedDo.enter i c).steps = { s with stack := s.context :: s.stack, context := c, phase := Function.update s.phase i (.inside c) } := by
        simp only [LockedDo.steps, Threads.acts, Threads.act, Threads.goto, hp, Function.update_self, Function.update_idem]
      rw [e]
      refine ⟨⟨?_, i :: inside, c :: top, List.nodup_cons.2 ⟨by rw [h2, hp]; simp, h1⟩, ?_, by simp [h3], by simp [h4], ?_⟩, .inl rfl⟩
      · intro j
        by_cases hj : j = i
        · subst hj; exact .inr ⟨c, Function.update_self .., hd _ _ rfl⟩
        · simp only [Function.update_of_ne hj]; exact hph j
      · intro j
        by_cases hj : j = i
        · subst hj; simp
        · simp only [Function.update_of_ne hj, List.mem_cons, hj, false_or, h2]
      · intro x hx
        rcases List.mem_cons.1 hx with rfl | hx
        · exact hd _ _ rfl
        · exact h5 x hx
    · have e : s.acts (LockedDo.enter i c).steps = s := by
        simp only [LockedDo.steps, Threads.acts, Threads.act, hp]
      rw [e]
      exact ⟨⟨hph, inside, top, h1, h2, h3, h4, h5⟩, .inl rfl⟩
  | leave i =>
    rcases hph i with hp | ⟨w, hp, -⟩
    · have e : s.acts (LockedDo.leave i).steps = s := by
        simp only [LockedDo.steps, Threads.acts, Threads.act, hp]
      rw [e]
      exact ⟨⟨hph, inside, top, h1, h2, h3, h4, h5⟩, .inl rfl⟩
    · have hi : i ∈ inside := by rw [h2, hp]; simp
      cases top with
      | nil => rw [List.eq_nil_of_length_eq_zero h4.symm] at hi; cases hi
      | cons x top =>
        simp only [List.cons_append, List.cons.injEq] at h3
        obtain ⟨-, h3⟩ := h3
        obtain ⟨y, ys, hy⟩ : ∃ y ys, s.stack = y :: ys := by
          cases hs : s.stack with
          | nil => rw [hs] at h3; cases top <;> cases h3
          | cons y ys => exact ⟨y, ys, rfl⟩
        have e : s.acts (LockedDo.leave i).steps = { s with stack := ys, context := y, phase := Function.update s.phase i .outside } := by
          simp only [LockedDo.steps, Threads.acts, Threads.act, Threads.goto, Threads.pop, hp, hy, if_neg (List.cons_ne_nil _ _), Function.update_self,
            Function.update_idem]
        rw [e]
        refine ⟨⟨?_, inside.erase i, top, h1.erase i, ?_, by simp only; rw [← hy]; exact h3, ?_, fun z hz => h5 z (List.mem_cons_of_mem _ hz)⟩, .inl rfl⟩
        · intro j
          by_cases hj : j = i
          · subst hj; exact .inl (Function.update_self ..)
          · simp only [Function.update_of_ne hj]; exact hph j
        · intro j
          rw [h1.mem_erase_iff]
          by_cases hj : j = i
          · subst hj; simp
          · simp only [Function.update_of_ne hj, h2]; simp [hj]
        · rw [List.length_erase_of_mem hi]
          simp only [List.length_cons] at h4
          omega

/-- **C105 (partial: entering and leaving are not interrupted, e.g. under a lock).** However the threads are interleaved: when all have left their
blocks, context and stack are the original ones; and if all blocks ask for the same context, every access in a block saw that context.  Missing:
interrupted switches, different contexts and accesses outside of blocks (counterexamples). -/
theorem locked_contexts_partial (c0 : Ctx) (s0 : List Ctx) (ds : List LockedDo) :
    let s := Threads.acts ⟨c0, s0, fun _ => .outside, []⟩ (ds.flatMap LockedDo.steps)
    (AllOutside s → s.context = c0 ∧ s.stack = s0) ∧
    (∀ c, (∀ i c', LockedDo.enter i c' ∈ ds → c' = c) → ∀ i w seen, (i, some w, seen) ∈ s.log → w = c ∧ seen = c) := by
  have run : ∀ (wanted : Ctx → Prop), (∀ i c, LockedDo.enter i c ∈ ds → wanted c) → ∀ s : Threads, LockedInv c0 s0 wanted s →
      LockedInv c0 s0 wanted (s.acts (ds.flatMap LockedDo.steps)) := by
    intro wanted
    induction ds with
    | nil => intro _ s h; exact h
    | cons d ds ih =>
      intro hw s h
      rw [List.flatMap_cons, threads_acts_append]
      refine ih (fun i c hc => hw i c (List.mem_cons_of_mem _ hc)) _ (h.steps d ?_).1
      intro i c hd
      exact hw i c (hd ▸ List.mem_cons_self)
  have h0 : ∀ wanted, LockedInv c0 s0 wanted ⟨c0, s0, fun _ => .outside, []⟩ := fun wanted =>
    ⟨fun _ => .inl rfl, [], [], List.nodup_nil, by simp, rfl, rfl, by simp⟩
  intro s
  constructor
  · intro ho
    obtain ⟨-, inside, top, -, h2, h3, h4, -⟩ := run (fun _ => True) (by simp) _ (h0 _)
    have : inside = [] := by
      rw [List.eq_nil_iff_forall_not_mem]
      intro i hi
      exact (h2 i).1 hi (ho i)
    rw [this] at h4
    rw [List.eq_nil_of_length_eq_zero h4] at h3
    simp only [List.nil_append, List.cons.injEq] at h3
    exact h3
  · intro c hc
    have key : ∀ s : Threads, LockedInv c0 s0 (· = c) s → (∀ i w seen, (i, some w, seen) ∈ s.log → w = c ∧ seen = c) →
        ∀ i w seen, (i, some w, seen) ∈ (s.acts (ds.flatMap LockedDo.steps)).log → w = c ∧ seen = c := by
      clear run h0
      clear s
      induction ds with
      | nil => intro s _ h; exact h
      | cons d ds ih =>
        intro s h hl
        rw [List.flatMap_cons, threads_acts_append]
        have hst := h.steps d fun i c' hd => hc i c' (hd ▸ List.mem_cons_self)
        refine ih (fun i c' hi => hc i c' (List.mem_cons_of_mem _ hi)) _ hst.1 ?_
        intro i w seen hm
        rcases hst.2 with e | ⟨j, ⟨e, -⟩ | ⟨w', e, hw'⟩⟩
        · rw [e] at hm; exact hl i w seen hm
        · rw [e] at hm
          rcases List.mem_cons.1 hm with hm | hm
          · cases hm
          · exact hl i w seen hm
        · rw [e] at hm
          rcases List.mem_cons.1 hm with hm | hm
          · have e1 : w = w' := by injection hm with _ hm; injection hm with hm _; injection hm
            have e2 : seen = s.context := by injection hm with _ hm; injection hm
            obtain ⟨hph, inside, top, -, h2, h3, h4, h5⟩ := h
            have hj : j ∈ inside := by rw [h2, hw']; simp
            cases top with
            | nil => rw [List.eq_nil_of_length_eq_zero h4.symm] at hj; cases hj
            | cons x top =>
              simp only [List.cons_append, List.cons.injEq] at h3
              refine ⟨?_, by rw [e2, h3.1]; exact h5 x List.mem_cons_self⟩
              rcases hph j with hp | ⟨v, hp, hv⟩
              · rw [hp] at hw'; cases hw'
              · rw [hp] at hw'; injection hw' with hw'; rw [e1, ← hw', hv]
          · exact hl i w seen hm
    exact key _ (h0 _) (by simp)

/-- Non-vacuity: two overlapping blocks. -/
example :
    let s := Threads.acts ⟨none, [], fun _ => .outside, []⟩ ([LockedDo.enter 0 (some "json"), .enter 1 (some "json"), .leave 0, .look 1, .leave 1,
      .look 1].flatMap LockedDo.steps)
    s.context = none ∧ s.stack = [] ∧ s.log = [(1, none, none), (1, some (some "json"), some "json")] := by decide +kernel

/-- **C105 is false** with uninterrupted switches, too, if the contexts differ: the class-change context is seen by a thread that writes JSON. -/
theorem locked_contexts_counterexample (a b : Ctx) :
    let s := Threads.acts ⟨none, [], fun _ => .outside, []⟩ ([LockedDo.enter 0 a, .enter 1 b, .look 0].flatMap LockedDo.steps)
    s.log = [(0, some a, b)] := by
  have hp : ∀ (f : Nat → Phase) (i : Nat) (p : Phase), Function.update f i p i = p := fun f i p => Function.update_self i p f
  have h01 : ∀ (f : Nat → Phase) (p : Phase), Function.update f 1 p 0 = f 0 := fun f p => Function.update_of_ne (by decide) p f
  have h10 : ∀ (f : Nat → Phase) (p : Phase), Function.update f 0 p 1 = f 1 := fun f p => Function.update_of_ne (by decide) p f
  simp only [List.flatMap_cons, List.flatMap_nil, List.append_nil, LockedDo.steps, List.cons_append, List.nil_append, Threads.acts, Threads.act,
    Threads.goto, hp, h01, h10]

end Verif.Props
