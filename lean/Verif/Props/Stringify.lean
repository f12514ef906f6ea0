import Verif.Jsonld.Stringify
import Verif.AS.Model
import Mathlib.Data.List.Induction
import Mathlib.Data.List.Forall2
import Mathlib.Data.List.Nodup

/-!
# C145: what `stringify` gives

`Plain` are the values `json.dumps` takes without help; `Printable` says which values can be converted.
-/
namespace Verif.Props.Stringify
open Verif.Jsonld

/-- A value made of texts, numbers, lists and dicts whose keys are distinct texts or numbers. -/
inductive Plain : SVal → Prop
  | int (i : Int) : Plain (.int i)
  | float (t : String) : Plain (.float t)
  | str (s : String) : Plain (.str s)
  | list (xs : List SVal) (h : ∀ x ∈ xs, Plain x) : Plain (.list xs)
  | dict (d : List (SKey × SVal)) (hk : (d.map Prod.fst).Nodup) (h : ∀ p ∈ d, Plain p.2) :
      Plain (.dict (d.map fun p => (p.1.val, p.2)))

/-- A value that has a text of its own: no container, and `str(...)` does not raise. -/
inductive Simple : SVal → Prop
  | none : Simple .none
  | bool (b : Bool) : Simple (.bool b)
  | int (i : Int) : Simple (.int i)
  | float (t : String) : Simple (.float t)
  | str (s : String) : Simple (.str s)
  | date (t : DateTime) : Simple (.date t)
  | delta (t : TimeDelta) : Simple (.delta t)
  | other (s : String) : Simple (.other (.ok s))

/-- Every value in it has a text, and no dict in it has a container (a tuple) as a key. -/
inductive Printable : SVal → Prop
  | simple (x : SVal) (h : Simple x) : Printable x
  | list (xs : List SVal) (h : ∀ x ∈ xs, Printable x) : Printable (.list xs)
  | tuple (xs : List SVal) (h : ∀ x ∈ xs, Printable x) : Printable (.tuple xs)
  | set (xs : List SVal) (h : ∀ x ∈ xs, Printable x) : Printable (.set xs)
  | dict (kvs : List (SVal × SVal)) (hk : ∀ p ∈ kvs, Simple p.1) (h : ∀ p ∈ kvs, Printable p.2) : Printable (.dict kvs)

/-! ### Sequences -/

theorem all_ok_iff {xs ys : List SVal} :
    stringifyAll xs = .ok ys ↔ List.Forall₂ (fun x y => stringify x = .ok y) xs ys := by
  induction xs generalizing ys with
  | nil => simp [stringifyAll, eq_comm]
  | cons x xs ih =>
    unfold stringifyAll
    cases hx : stringify x with
    | error e =>
      simp only [reduceCtorEq, false_iff]
      rintro (_ | ⟨h, _⟩); rw [hx] at h; cases h
    | ok y =>
      cases hxs : stringifyAll xs with
      | error e =>
        simp only [reduceCtorEq, false_iff]
        rintro (_ | ⟨h, h'⟩)
        rw [ih.2 h'] at hxs; cases hxs
      | ok zs =>
        simp only [Except.ok.injEq]
        constructor
        · rintro rfl
          exact .cons hx (ih.1 hxs)
        · rintro (_ | ⟨h, h'⟩)
          rw [hx] at h
          rw [ih.2 h'] at hxs
          cases h; cases hxs; rfl

/-! ### Dicts -/

theorem asKey_iff {v : SVal} {c : SKey} : asKey v = .ok c ↔ v = c.val := by
  cases v <;> cases c <;> simp [asKey, SKey.val]

theorem val_inj {a b : SKey} (h : a.val = b.val) : a = b := by
  have := asKey_iff.2 h
  rw [asKey_iff.2 rfl] at this
  exact Except.ok.inj this

/-- One entry of the given dict and what it becomes. -/
def Entry (p : SVal × SVal) (q : SKey × SVal) : Prop := stringify p.1 = .ok q.1.val ∧ stringify p.2 = .ok q.2

theorem dict_ok_iff {kvs : List (SVal × SVal)} : ∀ {d d' : List (SKey × SVal)},
    stringifyDict kvs d = .ok d' ↔
      ∃ ps, List.Forall₂ Entry kvs ps ∧ d' = ps.foldl (fun d p => putKey p.1 p.2 d) d := by
  induction kvs with
  | nil => intro d d'; simp [stringifyDict, eq_comm]
  | cons p r ih =>
    intro d d'
    obtain ⟨k, v⟩ := p
    unfold stringifyDict
    cases hk : stringify k with
    | error e =>
      simp only [reduceCtorEq, false_iff]
      rintro ⟨_, (_ | ⟨h, _⟩), _⟩
      have := h.1; rw [hk] at this; cases this
    | ok k' =>
      cases hv : stringify v with
      | error e =>
        simp only [reduceCtorEq, false_iff]
        rintro ⟨_, (_ | ⟨h, _⟩), _⟩
        have := h.2; rw [hv] at this; cases this
      | ok v' =>
        cases hc : asKey k' with
        | error e =>
          simp only [hc, reduceCtorEq, false_iff]
          rintro ⟨_, (_ | ⟨h, _⟩), _⟩
          have := h.1; rw [hk] at this
          rw [asKey_iff.2 (Except.ok.inj this)] at hc; cases hc
        | ok c =>
          simp only [hc]
          rw [ih]
          constructor
          · rintro ⟨ps, h, rfl⟩
            exact ⟨(c, v') :: ps, .cons ⟨by rw [hk, asKey_iff.1 hc], hv⟩ h, rfl⟩
          · rintro ⟨_, (_ | ⟨h, h'⟩), rfl⟩
            rename_i q qs
            obtain ⟨c', w⟩ := q
            have h1 := h.1; have h2 := h.2
            rw [hk] at h1; rw [hv] at h2
            have e1 : c = c' := by
              have := asKey_iff.2 (Except.ok.inj h1)
              rw [hc] at this; exact Except.ok.inj this
            have e2 : v' = w := Except.ok.inj h2
            subst e1; subst e2
            exact ⟨qs, h', rfl⟩

theorem mem_putKey {k : SKey} {v : SVal} {d : List (SKey × SVal)} (hd : (d.map Prod.fst).Nodup) {c : SKey} {w : SVal} :
    (c, w) ∈ putKey k v d ↔ (c = k ∧ w = v) ∨ (c ≠ k ∧ (c, w) ∈ d) := by
  induction d with
  | nil => simp [putKey]
  | cons p r ih =>
    obtain ⟨k', v'⟩ := p
    simp only [List.map_cons, List.nodup_cons] at hd
    unfold putKey
    split_ifs with h
    · subst h
      have hn : ∀ w, (k', w) ∉ r := fun w hw => hd.1 (List.mem_map.2 ⟨_, hw, rfl⟩)
      simp only [List.mem_cons, Prod.mk.injEq]
      by_cases hc : c = k'
      · subst hc; simp [hn]
      · simp [hc]
    · simp only [List.mem_cons, Prod.mk.injEq, ih hd.2]
      by_cases hc : c = k
      · subst hc; simp [Ne.symm h]
      · simp [hc]

theorem keys_putKey (k : SKey) (v : SVal) (d : List (SKey × SVal)) :
    (putKey k v d).map Prod.fst = if k ∈ d.map Prod.fst then d.map Prod.fst else d.map Prod.fst ++ [k] := by
  induction d with
  | nil => simp [putKey]
  | cons p r ih =>
    obtain ⟨k', v'⟩ := p
    unfold putKey
    by_cases h : k' = k
    · simp [h]
    · simp only [h, if_false, List.map_cons, ih, List.mem_cons]
      by_cases hm : k ∈ r.map Prod.fst
      · simp [hm]
      · simp [hm, Ne.symm h]

theorem nodup_putKey {k : SKey} {v : SVal} {d : List (SKey × SVal)} (hd : (d.map Prod.fst).Nodup) :
    ((putKey k v d).map Prod.fst).Nodup := by
  rw [keys_putKey]
  split_ifs with h
  · exact hd
  · exact List.Nodup.append hd (List.nodup_singleton k) (by simpa using h)

/-- The dict built from the entries `ps`. -/
def built (ps : List (SKey × SVal)) : List (SKey × SVal) := ps.foldl (fun d p => putKey p.1 p.2 d) []

theorem built_snoc (ps : List (SKey × SVal)) (p : SKey × SVal) : built (ps ++ [p]) = putKey p.1 p.2 (built ps) := by
  simp [built]

theorem nodup_built (ps : List (SKey × SVal)) : ((built ps).map Prod.fst).Nodup := by
  induction ps using List.reverseRecOn with
  | nil => simp [built]
  | append_singleton ps p ih => rw [built_snoc]; exact nodup_putKey ih

theorem mem_built {ps : List (SKey × SVal)} {c : SKey} {w : SVal} :
    (c, w) ∈ built ps ↔ ∃ l r, ps = l ++ (c, w) :: r ∧ ∀ p ∈ r, p.1 ≠ c := by
  induction ps using List.reverseRecOn with
  | nil => simp [built]
  | append_singleton ps p ih =>
    rw [built_snoc, mem_putKey (nodup_built ps), ih]
    constructor
    · rintro (⟨rfl, rfl⟩ | ⟨hc, l, r, rfl, h⟩)
      · exact ⟨ps, [], rfl, by simp⟩
      · refine ⟨l, r ++ [p], by simp, ?_⟩
        intro q hq
        rcases List.mem_append.1 hq with hq | hq
        · exact h q hq
        · rw [List.mem_singleton.1 hq]; exact Ne.symm hc
    · rintro ⟨l, r, h, hr⟩
      rcases List.eq_nil_or_concat r with rfl | ⟨r', q, rfl⟩
      · have := List.append_inj' h rfl
        simp only [List.cons.injEq, and_true] at this
        left; rw [this.2]; exact ⟨rfl, rfl⟩
      · right
        have e : ps ++ [p] = (l ++ (c, w) :: r') ++ [q] := by rw [h]; simp
        have e' := List.append_inj' e rfl
        simp only [List.cons.injEq, and_true] at e'
        obtain ⟨e1, rfl⟩ := e'
        exact ⟨Ne.symm (hr p (by simp)), l, r', e1, fun x hx => hr x (by simp [hx])⟩

theorem built_distinct {ps : List (SKey × SVal)} (h : (ps.map Prod.fst).Nodup) : built ps = ps := by
  induction ps using List.reverseRecOn with
  | nil => rfl
  | append_singleton ps p ih =>
    rw [List.map_append, List.nodup_append] at h
    rw [built_snoc, ih h.1]
    have hp : p.1 ∉ ps.map Prod.fst := fun hm => h.2.2 _ hm _ (by simp) rfl
    clear ih h
    induction ps with
    | nil => rfl
    | cons q r ih =>
      simp only [List.map_cons, List.mem_cons, not_or] at hp
      unfold putKey
      rw [if_neg (Ne.symm hp.1), ih hp.2]; rfl

theorem dict_ok {kvs : List (SVal × SVal)} {y : SVal} :
    stringify (.dict kvs) = .ok y ↔
      ∃ ps, List.Forall₂ Entry kvs ps ∧ y = .dict ((built ps).map fun p => (p.1.val, p.2)) := by
  unfold stringify
  cases h : stringifyDict kvs [] with
  | error e =>
    simp only [reduceCtorEq, false_iff]
    rintro ⟨ps, h', -⟩
    rw [dict_ok_iff.2 ⟨ps, h', rfl⟩] at h; cases h
  | ok d =>
    simp only [Except.ok.injEq]
    constructor
    · rintro rfl
      obtain ⟨ps, h', rfl⟩ := dict_ok_iff.1 h
      exact ⟨ps, h', rfl⟩
    · rintro ⟨ps, h', rfl⟩
      rw [dict_ok_iff.2 ⟨ps, h', rfl⟩] at h
      cases h; rfl

theorem seq_ok {xs : List SVal} {y : SVal} :
    ((match stringifyAll xs with | .ok ys => .ok (.list ys) | .error e => .error e : Outcome SVal) = .ok y) ↔
      ∃ ys, y = .list ys ∧ List.Forall₂ (fun x y => stringify x = .ok y) xs ys := by
  cases h : stringifyAll xs with
  | error e =>
    simp only [reduceCtorEq, false_iff]
    rintro ⟨ys, -, h'⟩
    rw [all_ok_iff.2 h'] at h; cases h
  | ok ys =>
    simp only [Except.ok.injEq]
    constructor
    · rintro rfl; exact ⟨ys, rfl, all_ok_iff.1 h⟩
    · rintro ⟨zs, rfl, h'⟩
      rw [all_ok_iff.2 h'] at h; cases h; rfl

theorem forall2_split {α β : Type} {R : α → β → Prop} : ∀ {l r : List α} {ys : List β}, List.Forall₂ R (l ++ r) ys →
    ∃ l' r', List.Forall₂ R r r' ∧ ys = l' ++ r'
  | [], _, ys, h => ⟨[], ys, h, rfl⟩
  | _ :: l, r, _, .cons (l₂ := ys) (b := y) _ h => by
    obtain ⟨l', r', h2, rfl⟩ := forall2_split (l := l) h
    exact ⟨y :: l', r', h2, rfl⟩

/-! ### Theorems -/

/-- A list, tuple or set becomes a list of the converted members, in iteration order. -/
theorem stringify_sequence (xs : List SVal) (y : SVal) (x : SVal) (hx : x = .list xs ∨ x = .tuple xs ∨ x = .set xs) :
    stringify x = .ok y ↔ ∃ ys, y = .list ys ∧ List.Forall₂ (fun x y => stringify x = .ok y) xs ys := by
  rcases hx with rfl | rfl | rfl <;> (conv_lhs => unfold stringify) <;> exact seq_ok

/-- The converted dict has, for each converted key, the converted value of the last entry whose key converts to it. -/
theorem stringify_dict (kvs : List (SVal × SVal)) (y : SVal) (h : stringify (.dict kvs) = .ok y) :
    ∃ d : List (SKey × SVal), y = .dict (d.map fun p => (p.1.val, p.2)) ∧ (d.map Prod.fst).Nodup ∧
      ∀ c w, (c, w) ∈ d ↔ ∃ l k v r, kvs = l ++ (k, v) :: r ∧ stringify k = .ok c.val ∧ stringify v = .ok w ∧
        ∀ p ∈ r, stringify p.1 ≠ .ok c.val := by
  obtain ⟨ps, hp, rfl⟩ := dict_ok.1 h
  clear h
  have h := hp
  clear hp
  refine ⟨built ps, rfl, nodup_built ps, fun c w => ?_⟩
  rw [mem_built]
  constructor
  · rintro ⟨l, r, rfl, hr⟩
    rw [List.forall₂_iff_get] at h
    obtain ⟨hl, hg⟩ := h
    have hn : l.length < kvs.length := by rw [hl]; simp
    refine ⟨kvs.take l.length, kvs[l.length].1, kvs[l.length].2, kvs.drop (l.length + 1), ?_, ?_, ?_, ?_⟩
    · rw [Prod.eta, ← List.drop_eq_getElem_cons hn, List.take_append_drop]
    · have := (hg l.length hn (by simp)).1; simpa using this
    · have := (hg l.length hn (by simp)).2; simpa using this
    · intro p hp e
      obtain ⟨i, hi, rfl⟩ := List.getElem_of_mem hp
      rw [List.length_drop] at hi
      have hi' : l.length + 1 + i < kvs.length := by omega
      have hi2 : l.length + 1 + i < (l ++ (c, w) :: r).length := by omega
      have hh := (hg _ hi' hi2).1
      rw [List.getElem_drop] at e
      simp only [List.get_eq_getElem] at hh
      rw [hh] at e
      have hir : i < r.length := by simp at hi2; omega
      have e2 : (l ++ (c, w) :: r)[l.length + 1 + i] = r[i] := by
        rw [List.getElem_append_right (by omega)]
        have : l.length + 1 + i - l.length = i + 1 := by omega
        simp [this]
      rw [e2] at e
      exact hr _ (List.getElem_mem hir) (val_inj (Except.ok.inj e))
  · rintro ⟨l, k, v, r, rfl, hk, hv, hr⟩
    obtain ⟨l', r', hr', rfl⟩ := forall2_split h
    cases hr' with
    | cons hq hrest =>
      rename_i q qs
      obtain ⟨c', w'⟩ := q
      have e1 := hq.1; have e2 := hq.2
      simp only [hk, hv, Except.ok.injEq] at e1 e2
      rw [← val_inj e1, ← e2]
      refine ⟨l', qs, rfl, ?_⟩
      intro p hp e
      rw [List.forall₂_iff_get] at hrest
      obtain ⟨i, hi, rfl⟩ := List.getElem_of_mem hp
      have hir : i < r.length := by have := hrest.1; omega
      have hh := (hrest.2 i hir hi).1
      simp only [List.get_eq_getElem] at hh
      exact hr _ (List.getElem_mem hir) (by rw [hh, e])

/-- If no two keys convert to the same thing, the converted dict has the entries one by one, in the same order. -/
theorem stringify_dict_distinct (kvs : List (SVal × SVal)) (y : SVal) (h : stringify (.dict kvs) = .ok y)
    (hd : kvs.Pairwise fun p q => stringify p.1 ≠ stringify q.1) :
    ∃ d : List (SVal × SVal), y = .dict d ∧
      List.Forall₂ (fun p q => stringify p.1 = .ok q.1 ∧ stringify p.2 = .ok q.2) kvs d := by
  obtain ⟨ps, hp, rfl⟩ := dict_ok.1 h
  clear h
  have h := hp
  clear hp
  have hn : (ps.map Prod.fst).Nodup := by
    induction h with
    | nil => simp
    | cons hq hr ih =>
      rename_i p q ps' qs
      rw [List.pairwise_cons] at hd
      rw [List.map_cons, List.nodup_cons]
      refine ⟨fun hm => ?_, ih hd.2⟩
      obtain ⟨x, hx, e⟩ := List.mem_map.1 hm
      rw [List.forall₂_iff_get] at hr
      obtain ⟨i, hi, rfl⟩ := List.getElem_of_mem hx
      have hir : i < ps'.length := by have := hr.1; omega
      have hh := (hr.2 i hir hi).1
      simp only [List.get_eq_getElem] at hh
      exact hd.1 _ (List.getElem_mem hir) (by rw [hh, hq.1, e])
  rw [built_distinct hn]
  refine ⟨_, rfl, ?_⟩
  rw [List.forall₂_map_right_iff]
  exact h

theorem forall2_right {α β : Type} {R : α → β → Prop} {P : β → Prop} {xs : List α} {ys : List β}
    (h : List.Forall₂ R xs ys) (hp : ∀ x ∈ xs, ∀ y, R x y → P y) : ∀ y ∈ ys, P y := by
  induction h with
  | nil => simp
  | cons h _ ih =>
    intro y hy
    rcases List.mem_cons.1 hy with rfl | hy
    · exact hp _ (by simp) _ h
    · exact ih (fun x hx => hp x (by simp [hx])) y hy

/-- Induction over a value and everything in it. -/
theorem SVal.induct {P : SVal → Prop} (h0 : ∀ x, Simple x → P x) (hf : ∀ e, P (.other (.error e)))
    (hl : ∀ xs, (∀ x ∈ xs, P x) → P (.list xs)) (ht : ∀ xs, (∀ x ∈ xs, P x) → P (.tuple xs))
    (hs : ∀ xs, (∀ x ∈ xs, P x) → P (.set xs))
    (hd : ∀ kvs, (∀ p ∈ kvs, P p.1 ∧ P p.2) → P (.dict kvs)) (x : SVal) : P x := by
  refine SVal.rec (motive_1 := P) (motive_2 := fun xs => ∀ x ∈ xs, P x)
    (motive_3 := fun kvs => ∀ p ∈ kvs, P p.1 ∧ P p.2) (motive_4 := fun p => P p.1 ∧ P p.2)
    (h0 _ .none) (fun b => h0 _ (.bool b)) (fun i => h0 _ (.int i)) (fun t => h0 _ (.float t))
    (fun s => h0 _ (.str s)) (fun t => h0 _ (.date t)) (fun t => h0 _ (.delta t))
    hl ht hs hd (fun t => ?_) (by simp) ?_ (by simp) ?_ (fun a b ha hb => ⟨ha, hb⟩) x
  · cases t with
    | ok s => exact h0 _ (.other s)
    | error e => exact hf e
  · intro x xs hx hxs y hy
    rcases List.mem_cons.1 hy with rfl | hy
    · exact hx
    · exact hxs y hy
  · intro p ps hp hps q hq
    rcases List.mem_cons.1 hq with rfl | hq
    · exact hp
    · exact hps q hq

theorem simple_ok {x : SVal} (h : Simple x) : ∃ c : SKey, stringify x = .ok c.val := by
  cases h with
  | none => exact ⟨.str _, rfl⟩
  | bool b => exact ⟨.str _, rfl⟩
  | int i => exact ⟨.int i, rfl⟩
  | float t => exact ⟨.float t, rfl⟩
  | str s => exact ⟨.str s, rfl⟩
  | date t => exact ⟨.str _, rfl⟩
  | delta t => exact ⟨.str _, rfl⟩
  | other s => exact ⟨.str s, rfl⟩

theorem plain_val (c : SKey) : Plain c.val := by cases c <;> constructor

/-- Whatever is converted, the result consists of texts, numbers, lists and dicts with text or number keys. -/
theorem stringify_plain (x : SVal) : ∀ y, stringify x = .ok y → Plain y := by
  induction x using SVal.induct with
  | h0 x hx =>
    intro y hy
    obtain ⟨c, hc⟩ := simple_ok hx
    rw [hc] at hy; cases hy; exact plain_val c
  | hf e => intro y hy; cases hy
  | hl xs ih =>
    intro y hy
    obtain ⟨ys, rfl, h⟩ := (stringify_sequence xs y _ (.inl rfl)).1 hy
    exact .list _ (forall2_right h ih)
  | ht xs ih =>
    intro y hy
    obtain ⟨ys, rfl, h⟩ := (stringify_sequence xs y _ (.inr (.inl rfl))).1 hy
    exact .list _ (forall2_right h ih)
  | hs xs ih =>
    intro y hy
    obtain ⟨ys, rfl, h⟩ := (stringify_sequence xs y _ (.inr (.inr rfl))).1 hy
    exact .list _ (forall2_right h ih)
  | hd kvs ih =>
    intro y hy
    obtain ⟨d, rfl, hn, h⟩ := stringify_dict kvs y hy
    refine .dict d hn fun p hp => ?_
    obtain ⟨l, k, v, r, rfl, -, hv, -⟩ := (h p.1 p.2).1 hp
    exact (ih (k, v) (by simp)).2 _ hv

/-- Converting a converted value changes nothing. -/
theorem stringify_plain_id (y : SVal) (h : Plain y) : stringify y = .ok y := by
  induction h with
  | int i => rfl
  | float t => rfl
  | str s => rfl
  | list xs _ ih =>
    refine (stringify_sequence xs _ _ (.inl rfl)).2 ⟨xs, rfl, ?_⟩
    rw [List.forall₂_same]; exact ih
  | dict d hk _ ih =>
    refine dict_ok.2 ⟨d, ?_, by rw [built_distinct hk]⟩
    rw [List.forall₂_map_left_iff, List.forall₂_same]
    intro p hp
    refine ⟨?_, ih p hp⟩
    cases p.1 <;> rfl

theorem stringify_idempotent (x y : SVal) (h : stringify x = .ok y) : stringify y = .ok y :=
  stringify_plain_id y (stringify_plain x y h)

theorem forall2_exists {α β : Type} {R : α → β → Prop} : ∀ {xs : List α}, (∀ x ∈ xs, ∃ y, R x y) → ∃ ys, List.Forall₂ R xs ys
  | [], _ => ⟨[], .nil⟩
  | x :: xs, h => by
    obtain ⟨y, hy⟩ := h x (by simp)
    obtain ⟨ys, hys⟩ := forall2_exists (xs := xs) fun z hz => h z (by simp [hz])
    exact ⟨y :: ys, .cons hy hys⟩

theorem forall2_left {α β : Type} {R : α → β → Prop} {xs : List α} {ys : List β}
    (h : List.Forall₂ R xs ys) : ∀ x ∈ xs, ∃ y, R x y := by
  induction h with
  | nil => simp
  | cons h _ ih =>
    intro x hx
    rcases List.mem_cons.1 hx with rfl | hx
    · exact ⟨_, h⟩
    · exact ih x hx

theorem key_simple {x : SVal} {c : SKey} (h : stringify x = .ok c.val) : Simple x := by
  have hl : ∀ xs, x = .list xs ∨ x = .tuple xs ∨ x = .set xs → False := by
    intro xs hx
    obtain ⟨ys, e, -⟩ := (stringify_sequence xs _ x hx).1 h
    cases c <;> cases e
  cases x with
  | none => constructor
  | bool b => constructor
  | int i => constructor
  | float t => constructor
  | str s => constructor
  | date t => constructor
  | delta t => constructor
  | list xs => exact (hl xs (.inl rfl)).elim
  | tuple xs => exact (hl xs (.inr (.inl rfl))).elim
  | set xs => exact (hl xs (.inr (.inr rfl))).elim
  | dict kvs =>
    obtain ⟨ps, -, e⟩ := dict_ok.1 h
    cases c <;> cases e
  | other t =>
    cases t with
    | ok s => constructor
    | error e => cases h

/-- The conversion succeeds exactly for the printable values. -/
theorem stringify_succeeds_iff (x : SVal) : (∃ y, stringify x = .ok y) ↔ Printable x := by
  induction x using SVal.induct with
  | h0 x hx =>
    obtain ⟨c, hc⟩ := simple_ok hx
    exact ⟨fun _ => .simple x hx, fun _ => ⟨_, hc⟩⟩
  | hf e =>
    constructor
    · rintro ⟨y, hy⟩; cases hy
    · rintro (⟨_, h⟩); cases h
  | hl xs ih =>
    constructor
    · rintro ⟨y, hy⟩
      obtain ⟨ys, rfl, h⟩ := (stringify_sequence xs y _ (.inl rfl)).1 hy
      exact .list _ fun x hx => (ih x hx).1 (forall2_left h x hx)
    · intro h
      have h' : ∀ x ∈ xs, Printable x := by
        cases h with
        | simple _ h => cases h
        | list _ h => exact h
      obtain ⟨ys, hys⟩ := forall2_exists fun x hx => (ih x hx).2 (h' x hx)
      exact ⟨_, (stringify_sequence xs _ _ (.inl rfl)).2 ⟨ys, rfl, hys⟩⟩
  | ht xs ih =>
    constructor
    · rintro ⟨y, hy⟩
      obtain ⟨ys, rfl, h⟩ := (stringify_sequence xs y _ (.inr (.inl rfl))).1 hy
      exact .tuple _ fun x hx => (ih x hx).1 (forall2_left h x hx)
    · intro h
      have h' : ∀ x ∈ xs, Printable x := by
        cases h with
        | simple _ h => cases h
        | tuple _ h => exact h
      obtain ⟨ys, hys⟩ := forall2_exists fun x hx => (ih x hx).2 (h' x hx)
      exact ⟨_, (stringify_sequence xs _ _ (.inr (.inl rfl))).2 ⟨ys, rfl, hys⟩⟩
  | hs xs ih =>
    constructor
    · rintro ⟨y, hy⟩
      obtain ⟨ys, rfl, h⟩ := (stringify_sequence xs y _ (.inr (.inr rfl))).1 hy
      exact .set _ fun x hx => (ih x hx).1 (forall2_left h x hx)
    · intro h
      have h' : ∀ x ∈ xs, Printable x := by
        cases h with
        | simple _ h => cases h
        | set _ h => exact h
      obtain ⟨ys, hys⟩ := forall2_exists fun x hx => (ih x hx).2 (h' x hx)
      exact ⟨_, (stringify_sequence xs _ _ (.inr (.inr rfl))).2 ⟨ys, rfl, hys⟩⟩
  | hd kvs ih =>
    constructor
    · rintro ⟨y, hy⟩
      obtain ⟨ps, h, -⟩ := dict_ok.1 hy
      refine .dict kvs (fun p hp => ?_) (fun p hp => ?_)
      · obtain ⟨q, hq⟩ := forall2_left h p hp
        exact key_simple hq.1
      · obtain ⟨q, hq⟩ := forall2_left h p hp
        exact ((ih p hp).2).1 ⟨_, hq.2⟩
    · intro h
      have h' : ∀ p ∈ kvs, Simple p.1 ∧ Printable p.2 := by
        cases h with
        | simple _ h => cases h
        | dict _ hk h => exact fun p hp => ⟨hk p hp, h p hp⟩
      have : ∀ p ∈ kvs, ∃ q, Entry p q := fun p hp => by
        obtain ⟨c, hc⟩ := simple_ok (h' p hp).1
        obtain ⟨w, hw⟩ := ((ih p hp).2).2 (h' p hp).2
        exact ⟨(c, w), hc, hw⟩
      obtain ⟨ps, hps⟩ := forall2_exists this
      exact ⟨_, dict_ok.2 ⟨ps, hps, rfl⟩⟩

/-- `y` is `x` or occurs somewhere in `x`, as a member, a key or a value. -/
inductive Inside (y : SVal) : SVal → Prop
  | self : Inside y y
  | list (xs : List SVal) (x : SVal) (hx : x ∈ xs) (h : Inside y x) : Inside y (.list xs)
  | tuple (xs : List SVal) (x : SVal) (hx : x ∈ xs) (h : Inside y x) : Inside y (.tuple xs)
  | set (xs : List SVal) (x : SVal) (hx : x ∈ xs) (h : Inside y x) : Inside y (.set xs)
  | key (kvs : List (SVal × SVal)) (p : SVal × SVal) (hp : p ∈ kvs) (h : Inside y p.1) : Inside y (.dict kvs)
  | value (kvs : List (SVal × SVal)) (p : SVal × SVal) (hp : p ∈ kvs) (h : Inside y p.2) : Inside y (.dict kvs)

theorem all_error {xs : List SVal} {e : PyErr} (h : stringifyAll xs = .error e) : ∃ x ∈ xs, stringify x = .error e := by
  induction xs with
  | nil => simp [stringifyAll] at h
  | cons x xs ih =>
    unfold stringifyAll at h
    cases hx : stringify x with
    | error e' =>
      simp only [hx, Except.error.injEq] at h
      subst h; exact ⟨x, by simp, hx⟩
    | ok y =>
      simp only [hx] at h
      cases hxs : stringifyAll xs with
      | error e' =>
        simp only [hxs, Except.error.injEq] at h
        subst h
        obtain ⟨z, hz, hz'⟩ := ih hxs
        exact ⟨z, by simp [hz], hz'⟩
      | ok ys => simp [hxs] at h

theorem asKey_error {v : SVal} {e : PyErr} (h : asKey v = .error e) : e = .typeError := by
  cases v <;> simp [asKey] at h <;> exact h.symm

theorem dict_error {kvs : List (SVal × SVal)} {e : PyErr} : ∀ {d}, stringifyDict kvs d = .error e →
    e = .typeError ∨ ∃ p ∈ kvs, stringify p.1 = .error e ∨ stringify p.2 = .error e := by
  induction kvs with
  | nil => intro d h; simp [stringifyDict] at h
  | cons p r ih =>
    intro d h
    obtain ⟨k, v⟩ := p
    unfold stringifyDict at h
    cases hk : stringify k with
    | error e' =>
      simp only [hk, Except.error.injEq] at h
      subst h; exact .inr ⟨(k, v), by simp, .inl hk⟩
    | ok k' =>
      simp only [hk] at h
      cases hv : stringify v with
      | error e' =>
        simp only [hv, Except.error.injEq] at h
        subst h; exact .inr ⟨(k, v), by simp, .inr hv⟩
      | ok v' =>
        simp only [hv] at h
        cases hc : asKey k' with
        | error e' =>
          simp only [hc, Except.error.injEq] at h
          subst h; exact .inl (asKey_error hc)
        | ok c =>
          simp only [hc] at h
          rcases ih h with h | ⟨p, hp, h⟩
          · exact .inl h
          · exact .inr ⟨p, by simp [hp], h⟩

theorem seq_error {xs : List SVal} {e : PyErr}
    (h : (match stringifyAll xs with | .ok ys => .ok (.list ys) | .error e => .error e : Outcome SVal) = .error e) :
    ∃ x ∈ xs, stringify x = .error e := by
  cases hx : stringifyAll xs with
  | error e' => rw [hx] at h; simp only [Except.error.injEq] at h; subst h; exact all_error hx
  | ok ys => rw [hx] at h; cases h

/-- A failure is the TypeError of a tuple used as a key, or was raised by `str` of something in the value. -/
theorem stringify_error (x : SVal) : ∀ e, stringify x = .error e → e = .typeError ∨ Inside (.other (.error e)) x := by
  induction x using SVal.induct with
  | h0 x hx =>
    intro e he
    obtain ⟨c, hc⟩ := simple_ok hx
    rw [hc] at he; cases he
  | hf e' => intro e he; cases he; exact .inr .self
  | hl xs ih =>
    intro e he; unfold stringify at he
    obtain ⟨x, hx, h⟩ := seq_error he
    exact (ih x hx e h).imp_right fun h => .list xs x hx h
  | ht xs ih =>
    intro e he; unfold stringify at he
    obtain ⟨x, hx, h⟩ := seq_error he
    exact (ih x hx e h).imp_right fun h => .tuple xs x hx h
  | hs xs ih =>
    intro e he; unfold stringify at he
    obtain ⟨x, hx, h⟩ := seq_error he
    exact (ih x hx e h).imp_right fun h => .set xs x hx h
  | hd kvs ih =>
    intro e he; unfold stringify at he
    cases hd : stringifyDict kvs [] with
    | ok d => rw [hd] at he; cases he
    | error e' =>
      rw [hd] at he; simp only [Except.error.injEq] at he; subst he
      rcases dict_error hd with h | ⟨p, hp, h | h⟩
      · exact .inl h
      · exact ((ih p hp).1 _ h).imp_right fun h => .key kvs p hp h
      · exact ((ih p hp).2 _ h).imp_right fun h => .value kvs p hp h

/-- The texts of the simple values: numbers and texts stay, the others become text. -/
theorem stringify_simple (i : Int) (f s t : String) (d : DateTime) (td : TimeDelta) :
    stringify .none = .ok (.str "None") ∧ stringify (.bool true) = .ok (.str "True") ∧
    stringify (.bool false) = .ok (.str "False") ∧ stringify (.int i) = .ok (.int i) ∧
    stringify (.float f) = .ok (.float f) ∧ stringify (.str s) = .ok (.str s) ∧
    stringify (.date d) = .ok (.str (String.ofList (datetimeStr d))) ∧
    stringify (.delta td) = .ok (.str (String.ofList (timedeltaStr td))) ∧
    stringify (.other (.ok t)) = .ok (.str t) :=
  ⟨rfl, rfl, rfl, rfl, rfl, rfl, rfl, rfl, rfl⟩

/-- The comment "every key and value has been converted to a string" is false: numbers stay numbers. -/
theorem stringify_numbers_counterexample (i j : Int) :
    stringify (.dict [(.int i, .int j)]) = .ok (.dict [(.int i, .int j)]) := rfl

/-- Two keys that read the same are merged: the first entry is lost (for all values that can be converted). -/
theorem stringify_merges_counterexample (a b y : SVal) (ha : ∃ z, stringify a = .ok z) (hb : stringify b = .ok y) :
    stringify (.dict [(.none, a), (.str "None", b)]) = .ok (.dict [(.str "None", y)]) := by
  obtain ⟨z, hz⟩ := ha
  exact dict_ok.2 ⟨[(.str "None", z), (.str "None", y)], .cons ⟨rfl, hz⟩ (.cons ⟨rfl, hb⟩ .nil), rfl⟩

/-- A dict with a tuple among its keys cannot be converted, whatever else is in it. -/
theorem stringify_tuple_key_counterexample (xs : List SVal) (v : SVal) (l r : List (SVal × SVal)) (y : SVal) :
    stringify (.dict (l ++ (.tuple xs, v) :: r)) ≠ .ok y := by
  intro h
  have := (stringify_succeeds_iff _).1 ⟨y, h⟩
  cases this with
  | simple _ h => cases h
  | dict _ hk _ => cases hk (.tuple xs, v) (by simp)

/-! ### The table of property conversions -/

/-- Every entry of the table except `acontext`, `attributedTo`, `items` and `result` converts the attribute of its
own name. -/
theorem transform_own_partial (self : SVal) (get : String → Outcome SVal) (name : String) (h : name ∈ transformPlain) (v : SVal)
    (hv : get name = .ok v) : transform self get name = stringify v := by
  have hn : name ≠ "acontext" ∧ name ≠ "attributedTo" ∧ name ≠ "items" ∧ name ≠ "result" := by
    clear hv
    revert name
    decide +kernel
  unfold transform
  rw [if_neg hn.1, if_neg hn.2.1, if_neg hn.2.2.1, if_neg hn.2.2.2, if_pos h]
  simp [stringifyAttr, hv]

/-- The context is handed on untouched; who wrote a thing is not repeated when it has an actor, nor its items when it
has ordered ones. -/
theorem transform_special (self : SVal) (get : String → Outcome SVal) :
    transform self get "acontext" = get "acontext" ∧
    (∀ a, get "actor" = .ok a → transform self get "attributedTo" = .ok .none) ∧
    (∀ v, get "actor" = .error .attributeError → get "attributedTo" = .ok v →
      transform self get "attributedTo" = stringify v) ∧
    (∀ a, get "orderedItems" = .ok a → transform self get "items" = .ok .none) ∧
    (∀ v, get "orderedItems" = .error .attributeError → get "items" = .ok v →
      transform self get "items" = stringify v) := by
  refine ⟨by simp [transform], ?_, ?_, ?_, ?_⟩
  · intro a h; simp [transform, stringifyUnless, hasAttr, h]
  · intro v h h'; simp [transform, stringifyUnless, hasAttr, h, stringifyAttr, h']
  · intro a h; simp [transform, stringifyUnless, hasAttr, h]
  · intro v h h'; simp [transform, stringifyUnless, hasAttr, h, stringifyAttr, h']

/-- The entry `result` does not look at the result: it gives the text of the object, whatever the result is. -/
theorem transform_result_counterexample (text : String) (get : String → Outcome SVal) :
    transform (.other (.ok text)) get "result" = .ok (.str text) := by
  simp [transform, stringify]

/-- The names with an entry in the table, in its order (jsonld/engine/utils.py:127-180). -/
def tableNames : List String :=
  ["accuracy", "acontext", "actor", "altitude", "anyOf", "attachment", "attributedTo", "audience", "bcc", "bto", "cc", "closed",
   "content", "context", "current", "duration", "endTime", "first", "generator", "height", "href", "hrefLang", "icon", "id", "image",
   "inReplyTo", "instrument", "items", "last", "location", "mediaType", "name", "next", "object", "oneOf", "orderedItems", "origin",
   "partOf", "prev", "preview", "published", "replies", "result", "startTime", "summary", "tag", "target", "to", "type", "updated", "url"]

/-- What the table has: every name in it but four converts the attribute of its own name, or fails as reading this attribute fails; a name that
is not in it is a KeyError. -/
theorem transform_table (self : SVal) (get : String → Outcome SVal) (name : String) :
    (name ∈ tableNames → name ∉ ["acontext", "attributedTo", "items", "result"] →
      (∀ v, get name = .ok v → transform self get name = stringify v) ∧ (∀ e, get name = .error e → transform self get name = .error e)) ∧
    (name ∉ tableNames → transform self get name = .error .keyError) := by
  have h1 : ∀ name ∈ tableNames, name ∉ ["acontext", "attributedTo", "items", "result"] → name ∈ transformPlain := by decide +kernel
  have h2 : ∀ name ∈ transformPlain, name ∈ tableNames := by decide +kernel
  constructor
  · intro ht hn
    have hp := h1 name ht hn
    simp only [List.mem_cons, List.not_mem_nil, or_false, not_or] at hn
    have he : transform self get name = stringifyAttr get name := by
      unfold transform
      rw [if_neg hn.1, if_neg hn.2.1, if_neg hn.2.2.1, if_neg hn.2.2.2, if_pos hp]
    rw [he]
    exact ⟨fun v h => by simp [stringifyAttr, h], fun e h => by simp [stringifyAttr, h]⟩
  · intro ht
    have hn : ∀ s ∈ tableNames, name ≠ s := fun s hs e => ht (e ▸ hs)
    unfold transform
    rw [if_neg (hn _ (by decide +kernel)), if_neg (hn _ (by decide +kernel)), if_neg (hn _ (by decide +kernel)), if_neg (hn _ (by decide +kernel)),
      if_neg fun h => ht (h2 _ h)]

/-- The two entries that ask for another attribute first: if reading that one fails otherwise than with AttributeError, so do they; if there is
neither that attribute nor their own, they raise AttributeError. -/
theorem transform_special_errors (self : SVal) (get : String → Outcome SVal) (e : PyErr) :
    (e ≠ .attributeError → get "actor" = .error e → transform self get "attributedTo" = .error e) ∧
    (e ≠ .attributeError → get "orderedItems" = .error e → transform self get "items" = .error e) ∧
    (get "actor" = .error .attributeError → get "attributedTo" = .error e → transform self get "attributedTo" = .error e) ∧
    (get "orderedItems" = .error .attributeError → get "items" = .error e → transform self get "items" = .error e) := by
  refine ⟨fun he h => ?_, fun he h => ?_, fun h h' => ?_, fun h h' => ?_⟩
  · cases e <;> first | exact absurd rfl he | simp [transform, stringifyUnless, hasAttr, h]
  · cases e <;> first | exact absurd rfl he | simp [transform, stringifyUnless, hasAttr, h]
  · simp [transform, stringifyUnless, hasAttr, h, stringifyAttr, h']
  · simp [transform, stringifyUnless, hasAttr, h, stringifyAttr, h']

/-- The table is not the one of the vocabulary: for these properties of the bundled package it has no entry, so converting them is a KeyError; and
its entry `hrefLang` is the name of no property (the property is `hreflang`). -/
theorem transform_vocabulary_counterexample :
    (∀ name, (name ∈ (AS.propTable.map (·.name)) ∧ name ∉ tableNames) ↔
      name ∈ ["unorderedItems", "hreflang", "latitude", "longitude", "radius", "rel", "startIndex", "totalItems", "units", "width", "subject",
        "relationship", "describes", "formerType", "deleted"]) ∧
    (∀ c ∈ AS.pkgClasses, "hrefLang" ∉ AS.propNames c) := by
  constructor
  · have h1 : ∀ name ∈ AS.propTable.map (·.name), name ∉ tableNames → name ∈ ["unorderedItems", "hreflang", "latitude", "longitude", "radius",
        "rel", "startIndex", "totalItems", "units", "width", "subject", "relationship", "describes", "formerType", "deleted"] := by decide +kernel
    have h2 : ∀ name ∈ ["unorderedItems", "hreflang", "latitude", "longitude", "radius", "rel", "startIndex", "totalItems", "units", "width",
        "subject", "relationship", "describes", "formerType", "deleted"], name ∈ AS.propTable.map (·.name) ∧ name ∉ tableNames := by decide +kernel
    exact fun name => ⟨fun h => h1 name h.1 h.2, fun h => h2 name h⟩
  · decide +kernel

/-! ### Examples -/

example : stringify (.dict [(.str "a", .tuple [.none, .bool true, .int 3]), (.date ⟨2024, 1, 2, 3, 4, 5, 6, none⟩, .set [])]) =
    .ok (.dict [(.str "a", .list [.str "None", .str "True", .int 3]), (.str "2024-01-02T03:04:05Z", .list [])]) := by
  rfl

example : Printable (.dict [(.none, .list [.other (.ok "x")]), (.str "b", .dict [])]) :=
  .dict _ (by intro p hp; simp at hp; rcases hp with rfl | rfl <;> constructor)
    (by
      intro p hp; simp at hp
      rcases hp with rfl | rfl
      · exact .list _ (by intro x hx; simp at hx; subst hx; exact .simple _ (.other _))
      · exact .dict _ (by simp) (by simp))

example : [(SVal.none, SVal.int 1), (.str "x", .int 2)].Pairwise fun p q => stringify p.1 ≠ stringify q.1 := by
  simp [stringify]

example : stringify (.list [.other (.error .userError), .int 1]) = .error .userError := rfl

end Verif.Props.Stringify
