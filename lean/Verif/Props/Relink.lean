import Verif.Jsonld.Relink
import Mathlib.Data.List.Induction
import Mathlib.Data.List.Dedup

/-!
# C124: links can be changed after construction
-/
namespace Verif.Props
open Verif Verif.Jsonld Verif.Jsonld.Relink

variable {C R : Type} [DecidableEq C]

/-! ### Specification -/

/-- What class `c` itself has for the name `n` after a history: the last link or removal decides. -/
def ownAfter (start : C → PyDict String R) (c : C) (n : String) : List (Change C R) → Option R
  | [] => (start c).dget n
  | .link d m r :: h => if d = c ∧ m = n then some r else ownAfter start c n h
  | .remove d m :: h => if d = c ∧ m = n then none else ownAfter start c n h
  | .refresh _ :: h => ownAfter start c n h

/-- What an object of class `c` has for the name `n`: that of the first class of its mro that has something. -/
def hasAfter (mro : C → List C) (start : C → PyDict String R) (c : C) (n : String) (h : List (Change C R)) : Option R :=
  (mro c).findSome? fun d => ownAfter start d n h.reverse

/-- Writing an object of class `c` made now gives exactly the properties it has now. -/
def WritesAll (k : Classes C R) (c : C) : Prop :=
  ∃ l, written k c (listedBy k c) = .ok l ∧ (l.map Prod.fst).Nodup ∧ ∀ n r, (n, r) ∈ l ↔ lookup k c n = some r

/-! ### Proofs -/

theorem runAll_snoc (k : Classes C R) (h : List (Change C R)) (x : Change C R) : Change.runAll k (h ++ [x]) = (x.run (Change.runAll k h)).2 := by
  simp [Change.runAll]

theorem run_mro (k : Classes C R) (x : Change C R) : (x.run k).2.mro = k.mro := by
  cases x with
  | link c n r => rfl
  | remove c n => simp only [Change.run]; split_ifs <;> rfl
  | refresh c => rfl

theorem runAll_mro (k : Classes C R) (h : List (Change C R)) : (Change.runAll k h).mro = k.mro := by
  induction h using List.reverseRecOn with
  | nil => rfl
  | append_singleton h x ih => rw [runAll_snoc, run_mro, ih]

theorem run_wf (k : Classes C R) (hw : ∀ c, (k.own c).WF) (x : Change C R) (c : C) : ((x.run k).2.own c).WF := by
  cases x with
  | link d n r =>
    simp only [Change.run, Classes.put]
    split_ifs
    · exact PyDict.wf_dset (hw d) _ _
    · exact hw c
  | remove d n =>
    simp only [Change.run]
    split_ifs
    · simp only [Classes.put]
      split_ifs
      · exact PyDict.wf_ddel (hw d) _
      · exact hw c
    · exact hw c
  | refresh d => exact hw c

theorem runAll_wf (k : Classes C R) (hw : ∀ c, (k.own c).WF) (h : List (Change C R)) (c : C) : ((Change.runAll k h).own c).WF := by
  induction h using List.reverseRecOn generalizing c with
  | nil => exact hw c
  | append_singleton h x ih => rw [runAll_snoc]; exact run_wf _ ih x c

theorem runAll_own (k : Classes C R) (hw : ∀ c, (k.own c).WF) (h : List (Change C R)) (c : C) (n : String) :
    ((Change.runAll k h).own c).dget n = ownAfter k.own c n h.reverse := by
  induction h using List.reverseRecOn with
  | nil => rfl
  | append_singleton h x ih =>
    have hw' := runAll_wf k hw h
    rw [runAll_snoc, List.reverse_append, List.reverse_singleton, List.singleton_append]
    cases x with
    | link d m r =>
      simp only [Change.run, Classes.put, ownAfter, ← ih]
      by_cases hc : c = d
      · subst hc
        by_cases hm : n = m
        · subst hm; simp [PyDict.dget_dset]
        · simp [PyDict.dget_dset, hm, Ne.symm hm]
      · simp [hc, Ne.symm hc]
    | remove d m =>
      simp only [Change.run, ownAfter, ← ih]
      by_cases hk : m ∈ ((Change.runAll k h).own d).dkeys
      · simp only [hk, if_true, Classes.put]
        by_cases hc : c = d
        · subst hc
          by_cases hm : n = m
          · subst hm; simp [PyDict.dget_ddel (hw' c)]
          · simp [PyDict.dget_ddel (hw' c), hm, Ne.symm hm]
        · simp [hc, Ne.symm hc]
      · simp only [hk, if_false]
        by_cases hc : d = c ∧ m = n
        · obtain ⟨rfl, rfl⟩ := hc
          simp only [and_self, if_true]
          exact PyDict.dget_eq_none.mpr hk
        · simp [hc]
    | refresh d => simp only [Change.run, ownAfter, ← ih]

/-- **C124.** After every history of linking, updating and removing, an attribute is that of the first class of the mro that has it, where
the last change of that class decides; removing a link a class itself does not have raises AttributeError and changes nothing. -/
theorem relink_lookup (mro : C → List C) (own : C → PyDict String R) (hw : ∀ c, (own c).WF) (h : List (Change C R)) :
    (∀ c n, lookup (Change.runAll (built mro own) h) c n = hasAfter mro own c n h) ∧
      ∀ c n, ownAfter own c n h.reverse = none →
        (Change.remove c n).run (Change.runAll (built mro own) h) = (.error .attributeError, Change.runAll (built mro own) h) := by
  constructor
  · intro c n
    simp only [lookup, hasAfter, runAll_mro]
    congr 1
    funext d
    exact runAll_own (built mro own) hw h d n
  · intro c n hn
    have : n ∉ ((Change.runAll (built mro own) h).own c).dkeys := by
      rw [← PyDict.dget_eq_none, runAll_own (built mro own) hw h c n]
      exact hn
    simp only [Change.run, this, if_false]

omit [DecidableEq C] in
theorem mem_current (k : Classes C R) (c : C) (n : String) : n ∈ current k c ↔ ∃ r, lookup k c n = some r := by
  rw [← Option.isSome_iff_exists, lookup, List.findSome?_isSome_iff]
  simp only [current, List.mem_dedup, List.mem_flatMap, Option.isSome_iff_ne_none]
  refine exists_congr fun d => and_congr_right fun _ => ?_
  exact PyDict.dget_ne_none.symm

omit [DecidableEq C] in
theorem written_ok (k : Classes C R) (c : C) (ns : List String) (h : ∀ n ∈ ns, ∃ r, lookup k c n = some r) :
    ∃ l, written k c ns = .ok l ∧ l.map Prod.fst = ns ∧ ∀ p ∈ l, lookup k c p.1 = some p.2 := by
  induction ns with
  | nil => exact ⟨[], rfl, rfl, by simp⟩
  | cons n ns ih =>
    obtain ⟨l, hl, hk, hv⟩ := ih fun x hx => h x (List.mem_cons_of_mem _ hx)
    obtain ⟨r, hr⟩ := h n List.mem_cons_self
    exact ⟨(n, r) :: l, by simp only [written, hr, hl], by simp [hk], fun p hp => by
      rcases List.mem_cons.mp hp with rfl | hp
      · exact hr
      · exact hv p hp⟩

theorem writesAll_iff (k : Classes C R) (c : C) (hn : (k.cached c).Nodup) : WritesAll k c ↔ ∀ n, n ∈ k.cached c ↔ n ∈ current k c := by
  constructor
  · rintro ⟨l, hl, _, hm⟩ n
    have keys : ∀ (ns : List String) (l : List (String × R)), written k c ns = .ok l → l.map Prod.fst = ns := by
      intro ns
      induction ns with
      | nil => intro l h; cases h; rfl
      | cons n ns ih =>
        intro l h
        simp only [written] at h
        cases hr : lookup k c n with
        | none => simp [hr] at h
        | some r =>
          cases hw : written k c ns with
          | error e => simp [hr, hw] at h
          | ok l' =>
            simp only [hr, hw] at h
            cases h
            simp [ih l' hw]
    rw [mem_current, show k.cached c = listedBy k c from rfl, ← keys _ l hl]
    constructor
    · intro h
      obtain ⟨⟨n', r⟩, hp, rfl⟩ := List.mem_map.mp h
      exact ⟨r, (hm _ _).mp hp⟩
    · rintro ⟨r, hr⟩
      exact List.mem_map.mpr ⟨(n, r), (hm n r).mpr hr, rfl⟩
  · intro h
    obtain ⟨l, hl, hk, hv⟩ := written_ok k c (k.cached c) fun n hn => (mem_current k c n).mp ((h n).mp hn)
    refine ⟨l, hl, hk ▸ hn, fun n r => ⟨hv _, fun hr => ?_⟩⟩
    have hmem : n ∈ l.map Prod.fst := hk ▸ (h n).mpr ((mem_current k c n).mpr ⟨r, hr⟩)
    obtain ⟨⟨n', r'⟩, hp, rfl⟩ := List.mem_map.mp hmem
    have := hv _ hp
    rw [hr] at this
    rw [Option.some.inj this]
    exact hp

theorem cached_nodup (mro : C → List C) (own : C → PyDict String R) (h : List (Change C R)) (c : C) :
    ((Change.runAll (built mro own) h).cached c).Nodup := by
  induction h using List.reverseRecOn with
  | nil => exact List.nodup_dedup _
  | append_singleton h x ih =>
    rw [runAll_snoc]
    cases x with
    | link d n r => exact ih
    | remove d n => simp only [Change.run]; split_ifs <;> exact ih
    | refresh d =>
      simp only [Change.run]
      by_cases hc : c = d
      · rw [if_pos hc]; exact List.nodup_dedup _
      · rw [if_neg hc]; exact ih

/-- The names class `c` (with its ancestors) has after a history. -/
def NamesAfter (mro : C → List C) (own : C → PyDict String R) (c : C) (n : String) (h : List (Change C R)) : Prop :=
  ∃ r, hasAfter mro own c n h = some r

/-- The part of a history up to the last refresh of the class (its construction if there is none). -/
def upToRefresh (c : C) : List (Change C R) → List (Change C R)
  | [] => []
  | .refresh d :: h => if d = c then .refresh d :: h else upToRefresh c h
  | _ :: h => upToRefresh c h

theorem current_after (mro : C → List C) (own : C → PyDict String R) (hw : ∀ c, (own c).WF) (h : List (Change C R)) (c : C) (n : String) :
    n ∈ current (Change.runAll (built mro own) h) c ↔ NamesAfter mro own c n h := by
  rw [mem_current, (relink_lookup mro own hw h).1]
  rfl

theorem cached_after_relink (mro : C → List C) (own : C → PyDict String R) (hw : ∀ c, (own c).WF) (h : List (Change C R)) (c : C) (n : String) :
    n ∈ (Change.runAll (built mro own) h).cached c ↔ NamesAfter mro own c n (upToRefresh c h.reverse).reverse := by
  induction h using List.reverseRecOn with
  | nil => exact current_after mro own hw [] c n
  | append_singleton h x ih =>
    rw [runAll_snoc, List.reverse_append, List.reverse_singleton, List.singleton_append]
    cases x with
    | link d m r => exact ih
    | remove d m =>
      simp only [Change.run, upToRefresh]
      split_ifs <;> exact ih
    | refresh d =>
      simp only [Change.run, upToRefresh]
      by_cases hc : c = d
      · subst hc
        simp only [if_true, List.reverse_cons, List.reverse_reverse]
        rw [current_after mro own hw h c n, NamesAfter, NamesAfter]
        simp [hasAfter, ownAfter]
      · simp only [if_neg hc, if_neg (Ne.symm hc)]
        exact ih

/-- **C124 (partial).** Writing an object made now gives exactly the properties it has, if and only if the names of its class are those it had
when its list was made (at construction or at the last refresh of this very class).  Missing: the lists are not refreshed by linking
and removing. -/
theorem relink_written_partial (mro : C → List C) (own : C → PyDict String R) (hw : ∀ c, (own c).WF) (h : List (Change C R)) (c : C) :
    WritesAll (Change.runAll (built mro own) h) c ↔
      ∀ n, NamesAfter mro own c n (upToRefresh c h.reverse).reverse ↔ NamesAfter mro own c n h := by
  rw [writesAll_iff _ _ (cached_nodup mro own h c)]
  exact forall_congr' fun n => iff_congr (cached_after_relink mro own hw h c n) (current_after mro own hw h c n)

/-- In particular after construction, and after a refresh of the class. -/
theorem relink_refreshed (mro : C → List C) (own : C → PyDict String R) (hw : ∀ c, (own c).WF) (h : List (Change C R)) (c : C) :
    WritesAll (built mro own) c ∧ WritesAll (Change.runAll (built mro own) (h ++ [.refresh c])) c := by
  constructor
  · exact (relink_written_partial mro own hw [] c).mpr fun n => Iff.rfl
  · refine (relink_written_partial mro own hw _ c).mpr fun n => ?_
    simp [upToRefresh]

/-- **C124 (counterexample).** A property linked to a class that did not have one of this name: objects have it, but writing them leaves it out,
whatever was done before. -/
theorem link_counterexample (mro : C → List C) (own : C → PyDict String R) (hw : ∀ c, (own c).WF) (c : C) (n : String) (r : R)
    (hm : ∃ rest, mro c = c :: rest) (hn : lookup (built mro own) c n = none) :
    lookup (Change.runAll (built mro own) [.link c n r]) c n = some r ∧
      ∃ l, written (Change.runAll (built mro own) [.link c n r]) c (listedBy (Change.runAll (built mro own) [.link c n r]) c) = .ok l ∧
        n ∉ l.map Prod.fst := by
  have hl : lookup (Change.runAll (built mro own) [.link c n r]) c n = some r := by
    obtain ⟨rest, hr⟩ := hm
    rw [(relink_lookup mro own hw _).1]
    simp [hasAfter, hr, ownAfter]
  have hc : (Change.runAll (built mro own) [.link c n r]).cached c = (built mro own).cached c := rfl
  have hno : n ∉ (built mro own).cached c := by
    intro h
    obtain ⟨r', hr'⟩ := (mem_current (built mro own) c n).mp h
    rw [hn] at hr'
    cases hr'
  obtain ⟨l, h1, h2, _⟩ := written_ok (Change.runAll (built mro own) [.link c n r]) c ((built mro own).cached c) fun m hm' => by
    obtain ⟨r', hr'⟩ := (mem_current (built mro own) c m).mp hm'
    have hne : m ≠ n := fun e => hno (e ▸ hm')
    refine ⟨r', ?_⟩
    rw [(relink_lookup mro own hw _).1]
    have h0 := (relink_lookup mro own hw ([] : List (Change C R))).1 c m
    rw [← hr']
    refine Eq.trans ?_ h0.symm
    simp only [hasAfter]
    congr 1
    funext d
    simp [ownAfter, Ne.symm hne]
  refine ⟨hl, l, ?_, by rw [h2]; exact hno⟩
  simpa only [listedBy, hc] using h1

/-- **C124 (counterexample).** Removing a link that no ancestor has too: from then on writing an object of this class raises AttributeError,
whether the object was made before or after. -/
theorem unlink_counterexample (mro : C → List C) (own : C → PyDict String R) (hw : ∀ c, (own c).WF) (c : C) (n : String) (r : R)
    (hm : c ∈ mro c) (hr : (own c).dget n = some r) (ho : ∀ d ∈ mro c, d ≠ c → (own d).dget n = none) :
    ((Change.remove c n).run (built mro own)).1 = .ok () ∧
      written ((Change.remove c n).run (built mro own)).2 c (listedBy (built mro own) c) = .error .attributeError ∧
      written ((Change.remove c n).run (built mro own)).2 c (listedBy ((Change.remove c n).run (built mro own)).2 c) = .error .attributeError := by
  have hk : n ∈ (own c).dkeys := PyDict.dget_ne_none.mp (by rw [hr]; simp)
  have hrun : (Change.remove c n).run (built mro own) = (.ok (), (built mro own).put c ((own c).ddel n)) := by
    simp only [Change.run, built, hk, if_true]
  have hlist : listedBy ((Change.remove c n).run (built mro own)).2 c = listedBy (built mro own) c := by rw [hrun]; rfl
  have hl : lookup ((Change.remove c n).run (built mro own)).2 c n = none := by
    have h1 := (relink_lookup mro own hw [Change.remove (R := R) c n]).1 c n
    refine Eq.trans h1 ?_
    simp only [hasAfter, List.findSome?_eq_none_iff]
    intro d hd
    by_cases hc : d = c
    · subst hc; simp [ownAfter]
    · simp [ownAfter, Ne.symm hc, ho d hd hc]
  have hmem : n ∈ listedBy (built mro own) c := (mem_current (built mro own) c n).mpr ⟨r, by
    have h1 := (relink_lookup mro own hw ([] : List (Change C R))).1 c n
    cases hx : lookup (built mro own) c n with
    | none =>
      have := List.findSome?_eq_none_iff.mp hx c hm
      rw [show ((built mro own).own c).dget n = (own c).dget n from rfl, hr] at this
      cases this
    | some r' =>
      obtain ⟨d, hd, hd'⟩ := List.exists_of_findSome?_eq_some hx
      by_cases hc : d = c
      · subst hc
        exact congrArg some (Option.some.inj (hd'.symm.trans hr))
      · have := ho d hd hc
        rw [show (own d).dget n = some r' from hd'] at this
        cases this⟩
  have fails : ∀ ns : List String, n ∈ ns → written ((Change.remove c n).run (built mro own)).2 c ns = .error .attributeError := by
    intro ns
    induction ns with
    | nil => intro h; cases h
    | cons m ns ih =>
      intro h
      simp only [written]
      rcases List.mem_cons.mp h with rfl | h
      · simp only [hl]
      · cases lookup ((Change.remove c n).run (built mro own)).2 c m with
        | none => rfl
        | some r' => simp only [ih h]
  refine ⟨by rw [hrun], fails _ hmem, ?_⟩
  rw [hlist]
  exact fails _ hmem

/-- Non-vacuity: a class with a parent. -/
def linkedClasses : Bool → PyDict String Nat := fun b => if b then [("y", 1)] else [("x", 0)]

example : lookup (built (fun b => if b then [true, false] else [false]) linkedClasses) true "z" = none := by decide +kernel
example : (linkedClasses true).dget "y" = some 1 := rfl
example : ∀ c, (linkedClasses c).WF := by intro c; cases c <;> simp [linkedClasses, List.WF, List.dkeys]
example : written (Change.runAll (built (fun b => if b then [true, false] else [false]) linkedClasses) [.link false "x" 7]) true ["x", "y"] =
    .ok [("x", 7), ("y", 1)] := by rfl

end Verif.Props
