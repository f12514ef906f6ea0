import Verif.Jsonld.Context
import Mathlib.Data.List.Forall2

/-!
# Contexts (C49) and contextual properties (C50)
-/
namespace Verif.Props
open Verif Verif.Jsonld

/-! ### Specification: lexical scoping -/

/-- What code does under lexical scoping: every access sees the context of the innermost
enclosing block, and `c` outside of all blocks. -/
def lexical (c : Ctx) : Prog → Outcome Unit × List Ctx
  | .skip => (.ok (), [])
  | .observe => (.ok (), [c])
  | .raise e => (.error e, [])
  | .seq p q => match lexical c p with
    | (.ok _, l) => ((lexical c q).1, l ++ (lexical c q).2)
    | (.error e, l) => (.error e, l)
  | .block c' p => lexical c' p
  | .attempt p q => match lexical c p with
    | (.ok _, l) => (.ok (), l)
    | (.error _, l) => ((lexical c q).1, l ++ (lexical c q).2)

/-- **C49.** For any nesting of blocks and exceptions: accesses see the context of the innermost
block, and afterwards, also after an exception, the context (and everything saved for outer
blocks) is what it was before. -/
theorem context_balanced (p : Prog) (m : Manager) :
    (p.run m).1 = lexical m.context p ∧ (p.run m).2.context = m.context ∧
    (p.run m).2.stack = m.stack := by
  induction p generalizing m with
  | skip => exact ⟨rfl, rfl, rfl⟩
  | observe => exact ⟨rfl, rfl, rfl⟩
  | raise e => exact ⟨rfl, rfl, rfl⟩
  | seq p q ihp ihq =>
    obtain ⟨h1, h2, h3⟩ := ihp m
    unfold Prog.run lexical
    rw [← h1]
    rcases hr : p.run m with ⟨⟨r, l⟩, m1⟩
    rw [hr] at h2 h3
    cases r with
    | error e => exact ⟨rfl, h2, h3⟩
    | ok _ =>
      obtain ⟨g1, g2, g3⟩ := ihq m1
      simp only at h2 h3
      rw [h2] at g1 g2
      rw [h3] at g3
      exact ⟨by simp only [g1], g2, g3⟩
  | block c p ih =>
    obtain ⟨h1, h2, h3⟩ := ih (m.call c).enter
    unfold Prog.run lexical
    refine ⟨h1, ?_, ?_⟩
    · show ((p.run (m.call c).enter).2.exit).context = _
      unfold Manager.exit; rw [h3]; rfl
    · show ((p.run (m.call c).enter).2.exit).stack = _
      unfold Manager.exit; rw [h3]; rfl
  | attempt p q ihp ihq =>
    obtain ⟨h1, h2, h3⟩ := ihp m
    unfold Prog.run lexical
    rw [← h1]
    rcases hr : p.run m with ⟨⟨r, l⟩, m1⟩
    rw [hr] at h2 h3
    cases r with
    | ok _ => exact ⟨rfl, h2, h3⟩
    | error e =>
      obtain ⟨g1, g2, g3⟩ := ihq m1
      simp only at h2 h3
      rw [h2] at g1 g2
      rw [h3] at g3
      exact ⟨by simp only [g1], g2, g3⟩

/-- Non-vacuity: nested blocks, an exception in the inner one that is caught in the outer one. -/
example : (Prog.run (.block (some "a") (.seq .observe (.seq (.attempt (.block (some "b") (.seq .observe
    (.raise .valueError))) .observe) .observe))) {}).1 = (.ok (), [some "a", some "b", some "a", some "a"]) := by
  decide +kernel

/-- A limit of the code: the flag `active` of the manager is not balanced, it is False in the
rest of an outer block once an inner block has ended. -/
theorem context_active_counterexample (c c' : Ctx) (m : Manager) :
    (Prog.run (.block c' .skip) (m.call c).enter).2.active = false := rfl

/-! ### Contextual properties: specification -/

/-- A property as a table: for every kind of access the accessor registered for a context, if any;
the entry for None is the default. -/
abbrev Table (F : Type) := Kind → Ctx → Option F

/-- The accessor that must be used in context `c`. -/
def Table.pick {F : Type} (t : Table F) (k : Kind) (c : Ctx) : Outcome F :=
  match t k c with
  | some f => .ok f
  | none => match t k none with
    | some f => .ok f
    | none => .error .attributeError

/-- The same table with one entry changed. -/
def Table.put {F : Type} (t : Table F) (k : Kind) (c : Ctx) (f : F) : Table F :=
  fun k' c' => if k' = k ∧ c' = c then some f else t k' c'

/-- What the calls do to the tables of all properties. -/
def tableStep {F : Type} (s : List (Table F)) : PropOp F → List (Table F)
  | .new g e d => s ++ [fun (k : Kind) (c : Ctx) => match c, k with
      | none, .get => g
      | none, .set => e
      | none, .del => d
      | some _, _ => none]
  | .replace i k f => match s[i]? with
    | none => s
    | some t => s ++ [t.put k none f]
  | .register i k c f => match s[i]? with
    | none => s
    | some t => s.set i (t.put k c f)

/-- What a sequence of calls does to the tables. -/
def tables {F : Type} (ops : List (PropOp F)) : List (Table F) := ops.foldl tableStep []

/-- A property and its table agree. -/
def TableAgrees {F : Type} (p : CProp F) (t : Table F) : Prop :=
  ∀ k, (p.table k).WF ∧ none ∈ (p.table k).dkeys ∧
    ∀ c, t k c = ((p.table k).dget c).join ∧ (∀ x, (p.table k).dget (some x) ≠ some none)

section
variable {F : Type}

theorem table_withTable (p : CProp F) (d : PyDict Ctx (Option F)) (k k' : Kind) :
    (p.withTable d k).table k' = if k' = k then d else p.table k' := by
  cases k <;> cases k' <;> rfl

theorem TableAgrees.put {p : CProp F} {t : Table F} (h : TableAgrees p t) (k : Kind) (c : Ctx) (f : F) :
    TableAgrees (p.withTable ((p.table k).dset c (some f)) k) (t.put k c f) := by
  intro k'
  rw [table_withTable]
  by_cases hk : k' = k
  · subst hk
    rw [if_pos rfl]
    obtain ⟨h1, h2, h3⟩ := h k'
    refine ⟨PyDict.wf_dset h1 c _, ?_, fun x => ⟨?_, fun y => ?_⟩⟩
    · rw [PyDict.dkeys_dset]; split_ifs
      · exact h2
      · exact List.mem_append_left _ h2
    · rw [PyDict.dget_dset]
      unfold Table.put
      by_cases hx : x = c
      · simp [hx]
      · simp only [hx, and_false, if_false]; exact (h3 x).1
    · rw [PyDict.dget_dset]
      split_ifs
      · simp
      · exact (h3 none).2 y
  · rw [if_neg hk]
    obtain ⟨h1, h2, h3⟩ := h k'
    refine ⟨h1, h2, fun x => ⟨?_, (h3 x).2⟩⟩
    unfold Table.put
    simp only [hk, false_and, if_false]; exact (h3 x).1

theorem TableAgrees.dispatch {p : CProp F} {t : Table F} (h : TableAgrees p t) (k : Kind) (c : Ctx) :
    p.dispatch k c = t.pick k c := by
  obtain ⟨h1, h2, h3⟩ := h k
  unfold CProp.dispatch Table.pick
  rw [(h3 c).1, (h3 none).1]
  have hn : ∃ v, (p.table k).dget none = some v := Option.ne_none_iff_exists'.1 (PyDict.dget_ne_none.2 h2)
  obtain ⟨v, hv⟩ := hn
  by_cases hc : c ∈ (p.table k).dkeys
  · rw [if_pos hc]
    obtain ⟨w, hw⟩ := Option.ne_none_iff_exists'.1 (PyDict.dget_ne_none.2 hc)
    rw [hw, hv]
    cases w with
    | some f => rfl
    | none =>
      cases c with
      | some x => exact absurd hw ((h3 none).2 x)
      | none => rw [hv] at hw; injection hw with hw; subst hw; rfl
  · rw [if_neg hc, PyDict.dget_eq_none.2 hc, hv]
    cases v <;> rfl

theorem agrees_run (ops : List (PropOp F)) : List.Forall₂ TableAgrees (PropOp.run ops) (tables ops) := by
  unfold PropOp.run tables
  suffices ∀ (h : PropHeap F) (s : List (Table F)), List.Forall₂ TableAgrees h s →
      List.Forall₂ TableAgrees (ops.foldl PropOp.step h) (ops.foldl tableStep s) from this _ _ .nil
  induction ops with
  | nil => intro h s hs; exact hs
  | cons op ops ih =>
    intro h s hs
    refine ih _ _ ?_
    have hget : ∀ i : Nat, (h[i]? = none ∧ s[i]? = none) ∨ ∃ p t, h[i]? = some p ∧ s[i]? = some t ∧ TableAgrees p t := by
      intro i
      induction hs generalizing i with
      | nil => left; simp
      | cons ha _ ih => cases i with
        | zero => right; exact ⟨_, _, rfl, rfl, ha⟩
        | succ i => simpa using ih i
    have happ : ∀ (p : CProp F) (t : Table F), TableAgrees p t → List.Forall₂ TableAgrees (h ++ [p]) (s ++ [t]) :=
      fun p t hp => List.rel_append hs (.cons hp .nil)
    cases op with
    | new g e d =>
      refine happ _ _ ?_
      intro k
      cases k <;> refine ⟨by simp [CProp.new, CProp.table, List.WF, List.dkeys], by simp [CProp.new, CProp.table, List.dkeys],
        fun c => ⟨?_, by intro x; simp [CProp.new, CProp.table, List.dget]⟩⟩ <;>
        cases c <;> simp [CProp.new, CProp.table, List.dget, Option.join]
    | replace i k f =>
      simp only [PropOp.step, tableStep]
      rcases hget i with ⟨h1, h2⟩ | ⟨p, t, h1, h2, h3⟩
      · rw [h1, h2]; exact hs
      · rw [h1, h2]; exact happ _ _ (h3.put k none f)
    | register i k c f =>
      simp only [PropOp.step, tableStep]
      rcases hget i with ⟨h1, h2⟩ | ⟨p, t, h1, h2, h3⟩
      · rw [h1, h2]; exact hs
      · rw [h1, h2]
        show List.Forall₂ TableAgrees (h.set i _) (s.set i _)
        have hput := h3.put k c f
        clear hget happ ih h1 h2
        induction hs generalizing i with
        | nil => exact .nil
        | cons ha hr ih => cases i with
          | zero => exact .cons hput hr
          | succ i => exact .cons ha (ih i)

/-- **C50.** After any sequence of registrations, a property uses for get, set and delete the
accessor registered for the object's context and otherwise the default one, and raises
AttributeError if there is none. -/
theorem contextual_dispatch (ops : List (PropOp F)) :
    (PropOp.run ops).length = (tables ops).length ∧
    ∀ (i : Nat) (p : CProp F) (t : Table F), (PropOp.run ops)[i]? = some p → (tables ops)[i]? = some t →
      ∀ k c, p.dispatch k c = t.pick k c := by
  have h := agrees_run ops
  refine ⟨h.length_eq, fun i p t hp ht k c => ?_⟩
  generalize PropOp.run ops = H at h hp
  generalize tables ops = S at h ht
  induction h generalizing i with
  | nil => simp at hp
  | cons ha _ ih => cases i with
    | zero =>
      simp only [List.getElem?_cons_zero, Option.some.injEq] at hp ht
      subst hp ht; exact ha.dispatch k c
    | succ i => exact ih i (by simpa using hp) (by simpa using ht)

/-- **C50.** `getter`/`setter`/`deleter` return a new property: every existing property stays as it
is, and the new one differs from the old one only in the default accessor of that kind. -/
theorem contextual_replace (ops : List (PropOp F)) (i : Nat) (p : CProp F) (k : Kind) (f : F)
    (hp : (PropOp.run ops)[i]? = some p) :
    ∃ q, PropOp.run (ops ++ [.replace i k f]) = PropOp.run ops ++ [q] ∧
      ∀ (k' : Kind) (c : Ctx), q.dispatch k' c = if k' = k ∧ (c = none ∨ c ∉ (p.table k').dkeys) then .ok f else p.dispatch k' c := by
  refine ⟨p.withTable ((p.table k).dset none (some f)) k, ?_, ?_⟩
  · unfold PropOp.run
    rw [List.foldl_append]
    unfold PropOp.run at hp
    simp only [List.foldl_cons, List.foldl_nil, PropOp.step, hp]
  · intro k' c
    unfold CProp.dispatch
    rw [table_withTable]
    by_cases hk : k' = k
    · subst hk
      simp only [if_true, true_and]
      by_cases hc : c = none
      · subst hc
        simp [PyDict.dget_dset]
      · have hkey : c ∈ ((p.table k').dset none (some f)).dkeys ↔ c ∈ (p.table k').dkeys := by
          rw [PyDict.dkeys_dset]; split_ifs <;> simp [hc]
        by_cases hm : c ∈ (p.table k').dkeys
        · rw [if_pos (hkey.2 hm), if_pos hm, PyDict.dget_dset, if_neg hc]
          simp [hc, hm]
        · rw [if_neg (mt hkey.1 hm), if_neg hm, PyDict.dget_dset, if_pos rfl]
          simp [hm]
    · simp [hk]

/-- **C50.** Registering an accessor for one context of one property changes neither another
context, nor another kind of access, nor another property. -/
theorem contextual_register_frame (h : PropHeap F) (i : Nat) (p : CProp F) (k : Kind) (c : Ctx) (f : F)
    (hp : h[i]? = some p) :
    (∀ j, j ≠ i → (PropOp.step h (.register i k c f))[j]? = h[j]?) ∧
    ∃ q, (PropOp.step h (.register i k c f))[i]? = some q ∧ q.dispatch k c = .ok f ∧
      ∀ k' c', k' ≠ k ∨ (c' ≠ c ∧ c ≠ none) → q.dispatch k' c' = p.dispatch k' c' := by
  simp only [PropOp.step, hp]
  refine ⟨fun j hj => by rw [List.getElem?_set_ne (fun e => hj e.symm)], ?_⟩
  have hi : i < h.length := (List.getElem?_eq_some_iff.1 hp).1
  refine ⟨_, List.getElem?_set_self hi, ?_, ?_⟩
  · unfold CProp.dispatch
    rw [table_withTable, if_pos rfl]
    have : c ∈ ((p.table k).dset c (some f)).dkeys := by
      rw [PyDict.dkeys_dset]; split_ifs with hh
      · exact hh
      · simp
    rw [if_pos this, PyDict.dget_dset, if_pos rfl]
  · intro k' c' hor
    unfold CProp.dispatch
    rw [table_withTable]
    by_cases hk : k' = k
    · subst hk
      obtain ⟨h1, h2⟩ := hor.resolve_left (by simp)
      rw [if_pos rfl]
      have hkey : c' ∈ ((p.table k').dset c (some f)).dkeys ↔ c' ∈ (p.table k').dkeys := by
        rw [PyDict.dkeys_dset]; split_ifs <;> simp [h1]
      by_cases hm : c' ∈ (p.table k').dkeys
      · rw [if_pos (hkey.2 hm), if_pos hm, PyDict.dget_dset, if_neg h1]
      · rw [if_neg (mt hkey.1 hm), if_neg hm, PyDict.dget_dset, if_neg (fun e => h2 e.symm)]
    · rw [if_neg hk]

end

/-- Non-vacuity: a property with a default getter "g", a JSON getter "j" and no setter; a copy with a
setter "s". -/
example :
    let h := PropOp.run (F := String) [.new (some "g") none none, .register 0 .get (some "json") "j", .replace 0 .set "s"];
    (h.map fun p => (p.dispatch .get (some "json"), p.dispatch .get (some "x"), p.dispatch .get none, p.dispatch .set none)) =
      [(.ok "j", .ok "g", .ok "g", .error .attributeError), (.ok "j", .ok "g", .ok "g", .ok "s")] := by
  decide +kernel

end Verif.Props
