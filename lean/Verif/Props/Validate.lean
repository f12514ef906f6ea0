import Verif.Jsonld.Validate
import Mathlib.Tactic.SplitIfs

/-!
# Setter validation (C51, C52)
-/
namespace Verif.Props
open Verif Verif.Jsonld

/-! ### Specification -/

/-- The items of a list, tuple or set. -/
def items? : Val → Option (List Val)
  | .list xs => some xs
  | .tuple xs => some xs
  | .set xs => some xs
  | _ => none

/-- The type of `v` is allowed: it is an instance of one of `types`, where non-functional properties
also take lists. -/
def TypeAllowed (mro : String → List String) (types : List String) (functional : Bool) (v : Val) : Prop :=
  ∃ c ∈ v.classes mro, c ∈ types ∨ (functional = false ∧ c = "list")

/-- What a validated setter may store: a value of an allowed type that passes all checks, or a
container of an allowed type all of whose items (at any depth) are like this. -/
inductive Accepted (mro : String → List String) (types : List String) (functional : Bool)
    (checks : List Validator) : Val → Prop
  | leaf (v : Val) : items? v = none → TypeAllowed mro types functional v → (∀ f ∈ checks, f v = .ok ()) →
      Accepted mro types functional checks v
  | items (v : Val) (xs : List Val) : items? v = some xs → TypeAllowed mro types functional v →
      (∀ x ∈ xs, Accepted mro types functional checks x) → Accepted mro types functional checks v

mutual
/-- The value with tuples and sets (at any depth of containers) replaced by lists. -/
def asLists : Val → Val
  | .list xs => .list (asListsAll xs)
  | .tuple xs => .list (asListsAll xs)
  | .set xs => .list (asListsAll xs)
  | v => v
/-- The same for every item. -/
def asListsAll : List Val → List Val
  | [] => []
  | x :: xs => asLists x :: asListsAll xs
end

/-- The value holds no tuple and no set inside its lists. -/
inductive OnlyLists : Val → Prop
  | leaf (v : Val) : items? v = none → OnlyLists v
  | list (xs : List Val) : (∀ x ∈ xs, OnlyLists x) → OnlyLists (.list xs)

/-! ### Proofs -/

theorem runAdditional_ok (fs : List Validator) (v : Val) :
    runAdditional fs v = .ok () ↔ ∀ f ∈ fs, f v = .ok () := by
  induction fs with
  | nil => simp [runAdditional]
  | cons f fs ih =>
    unfold runAdditional
    rcases h : f v with e | u
    · simp [h]
    · simp [h, ih]

theorem isinstance_eff (mro : String → List String) (types : List String) (functional : Bool) (v : Val) :
    v.isinstance mro (effTypes types functional) = true ↔ TypeAllowed mro types functional v := by
  unfold Val.isinstance TypeAllowed effTypes
  simp only [List.any_eq_true]
  constructor
  · rintro ⟨c, hc, h⟩
    refine ⟨c, hc, ?_⟩
    cases functional
    · simpa [or_comm] using h
    · by_cases hl : "list" ∈ types
      · simp [hl] at h; rcases h with h | h
        · subst h; exact .inl hl
        · exact .inl h
      · simp [hl] at h; exact .inl h
  · rintro ⟨c, hc, h⟩
    refine ⟨c, hc, ?_⟩
    cases functional
    · simpa [or_comm] using h
    · have h : c ∈ types := by simpa using h
      by_cases hl : "list" ∈ types <;> simp [hl, h]

theorem typeAllowed_eff (mro : String → List String) (types : List String) (functional : Bool) (v : Val) :
    TypeAllowed mro (effTypes types functional) functional v ↔ TypeAllowed mro types functional v := by
  unfold TypeAllowed effTypes
  cases functional
  · simp only [Bool.false_and, Bool.false_eq_true, if_false, List.mem_cons, true_and]
    constructor <;> rintro ⟨c, hc, h⟩ <;> refine ⟨c, hc, ?_⟩ <;> grind
  · by_cases hl : "list" ∈ types
    · simp only [hl, List.contains_eq_mem, decide_true, Bool.not_true, Bool.and_false, Bool.false_eq_true,
        if_false, List.mem_cons, Bool.true_eq_false, false_and, or_false]
      constructor <;> rintro ⟨c, hc, h⟩ <;> refine ⟨c, hc, ?_⟩
      · rcases h with h | h
        · subst h; exact hl
        · exact h
      · exact .inr h
    · simp [hl]

theorem accepted_eff (mro : String → List String) (types : List String) (functional : Bool)
    (checks : List Validator) (v : Val) :
    Accepted mro (effTypes types functional) functional checks v ↔ Accepted mro types functional checks v := by
  constructor
  · intro h
    induction h with
    | leaf v h1 h2 h3 => exact .leaf v h1 ((typeAllowed_eff ..).1 h2) h3
    | items v xs h1 h2 _ ih => exact .items v xs h1 ((typeAllowed_eff ..).1 h2) ih
  · intro h
    induction h with
    | leaf v h1 h2 h3 => exact .leaf v h1 ((typeAllowed_eff ..).2 h2) h3
    | items v xs h1 h2 _ ih => exact .items v xs h1 ((typeAllowed_eff ..).2 h2) ih

theorem accepted_items {mro : String → List String} {types : List String} {functional : Bool}
    {checks : List Validator} {v : Val} {xs : List Val} (h : items? v = some xs) :
    Accepted mro types functional checks v ↔
      TypeAllowed mro types functional v ∧ ∀ x ∈ xs, Accepted mro types functional checks x := by
  constructor
  · rintro (⟨_, h1, h2, h3⟩ | ⟨_, ys, h1, h2, h3⟩)
    · rw [h] at h1; cases h1
    · rw [h] at h1; cases h1; exact ⟨h2, h3⟩
  · rintro ⟨h1, h2⟩; exact .items _ _ h h1 h2

theorem accepted_leaf {mro : String → List String} {types : List String} {functional : Bool}
    {checks : List Validator} {v : Val} (h : items? v = none) :
    Accepted mro types functional checks v ↔
      TypeAllowed mro types functional v ∧ ∀ f ∈ checks, f v = .ok () := by
  constructor
  · rintro (⟨_, h1, h2, h3⟩ | ⟨_, ys, h1, h2, h3⟩)
    · exact ⟨h2, h3⟩
    · rw [h] at h1; cases h1
  · rintro ⟨h1, h2⟩; exact .leaf _ h h1 h2

theorem evaluate_leaf (mro : String → List String) (types : List String) (functional : Bool)
    (checks : List Validator) (v w : Val) (hv : items? v = none) (hl : asLists v = v)
    (he : evaluate mro functional checks types v =
      if !Val.isinstance mro v (effTypes types functional) then .error .valueError
      else match runAdditional checks v with
        | .error e => .error e
        | .ok _ => .ok v) :
    evaluate mro functional checks types v = .ok w ↔
      Accepted mro types functional checks v ∧ w = asLists v := by
  rw [he, hl, accepted_leaf hv, ← isinstance_eff, ← runAdditional_ok]
  by_cases hi : Val.isinstance mro v (effTypes types functional) = true
  · rw [hi]
    rcases runAdditional checks v with e | u
    · simp
    · simp [eq_comm]
  · simp [hi]

theorem evaluate_items (mro : String → List String) (types : List String) (functional : Bool)
    (checks : List Validator) (v w : Val) (xs : List Val) (hv : items? v = some xs)
    (hl : asLists v = .list (asListsAll xs))
    (he : evaluate mro functional checks types v =
      if !Val.isinstance mro v (effTypes types functional) then .error .valueError
      else match evaluateAll mro functional checks (effTypes types functional) xs with
        | .error e => .error e
        | .ok ys => .ok (.list ys))
    (ih : ∀ ys, evaluateAll mro functional checks (effTypes types functional) xs = .ok ys ↔
      (∀ x ∈ xs, Accepted mro (effTypes types functional) functional checks x) ∧ ys = asListsAll xs) :
    evaluate mro functional checks types v = .ok w ↔
      Accepted mro types functional checks v ∧ w = asLists v := by
  rw [he, hl, accepted_items hv, ← isinstance_eff]
  by_cases hi : Val.isinstance mro v (effTypes types functional) = true
  · rw [hi]
    have ih' := ih
    simp only [accepted_eff] at ih'
    simp only [Bool.not_true, Bool.false_eq_true, if_false, true_and]
    rcases h : evaluateAll mro functional checks (effTypes types functional) xs with e | ys
    · rw [h] at ih'
      simp only [reduceCtorEq, false_iff, not_and]
      intro ha
      exact absurd rfl ((fun hh => by have := (ih' _).2 ⟨ha, rfl⟩; cases this) : ¬ (asListsAll xs = asListsAll xs))
    · obtain ⟨h1, h2⟩ := (ih' ys).1 h
      subst h2
      simp only [Except.ok.injEq]
      constructor
      · intro e; exact ⟨h1, e.symm⟩
      · intro e; exact e.2.symm
  · simp [hi]

mutual
theorem evaluate_spec (mro : String → List String) (functional : Bool) (checks : List Validator) :
    ∀ (types : List String) (v w : Val), evaluate mro functional checks types v = .ok w ↔
      Accepted mro types functional checks v ∧ w = asLists v
  | types, .list xs, w => evaluate_items mro types functional checks _ w xs rfl rfl rfl
      (evaluateAll_spec mro functional checks _ xs)
  | types, .tuple xs, w => evaluate_items mro types functional checks _ w xs rfl rfl rfl
      (evaluateAll_spec mro functional checks _ xs)
  | types, .set xs, w => evaluate_items mro types functional checks _ w xs rfl rfl rfl
      (evaluateAll_spec mro functional checks _ xs)
  | types, .none, w => evaluate_leaf mro types functional checks _ w rfl rfl rfl
  | types, .bool _, w => evaluate_leaf mro types functional checks _ w rfl rfl rfl
  | types, .int _, w => evaluate_leaf mro types functional checks _ w rfl rfl rfl
  | types, .float _ _, w => evaluate_leaf mro types functional checks _ w rfl rfl rfl
  | types, .str _, w => evaluate_leaf mro types functional checks _ w rfl rfl rfl
  | types, .dict _, w => evaluate_leaf mro types functional checks _ w rfl rfl rfl
  | types, .iter _ _, w => evaluate_leaf mro types functional checks _ w rfl rfl rfl
  | types, .obj _ _, w => evaluate_leaf mro types functional checks _ w rfl rfl rfl
  | types, .other _ _, w => evaluate_leaf mro types functional checks _ w rfl rfl rfl
theorem evaluateAll_spec (mro : String → List String) (functional : Bool) (checks : List Validator) :
    ∀ (types : List String) (xs ys : List Val), evaluateAll mro functional checks types xs = .ok ys ↔
      (∀ x ∈ xs, Accepted mro types functional checks x) ∧ ys = asListsAll xs
  | types, [], ys => by simp [evaluateAll, asListsAll, eq_comm]
  | types, x :: xs, ys => by
    have h1 := evaluate_spec mro functional checks types x
    have h2 := evaluateAll_spec mro functional checks types xs
    unfold evaluateAll asListsAll
    rcases hx : evaluate mro functional checks types x with e | y
    · rw [hx] at h1
      simp only [reduceCtorEq, false_iff, not_and, List.mem_cons, forall_eq_or_imp]
      rintro ⟨ha, _⟩
      have := (h1 _).2 ⟨ha, rfl⟩; cases this
    · obtain ⟨ha, rfl⟩ := (h1 y).1 hx
      rcases hxs : evaluateAll mro functional checks types xs with e | zs
      · rw [hxs] at h2
        simp only [reduceCtorEq, false_iff, not_and, List.mem_cons, forall_eq_or_imp]
        rintro ⟨_, hb⟩
        have := (h2 _).2 ⟨hb, rfl⟩; cases this
      · obtain ⟨hb, rfl⟩ := (h2 zs).1 hxs
        simp only [Except.ok.injEq, List.mem_cons, forall_eq_or_imp]
        constructor
        · rintro rfl; exact ⟨⟨ha, hb⟩, rfl⟩
        · rintro ⟨_, rfl⟩; rfl
end

theorem onlyLists_asLists {v : Val} (h : OnlyLists v) : asLists v = v := by
  induction h with
  | leaf v hv => cases v <;> first | rfl | simp [items?] at hv
  | list xs _ ih =>
    have : asListsAll xs = xs := by
      clear * - ih
      induction xs with
      | nil => rfl
      | cons x xs ih2 =>
        rw [asListsAll, ih x (by simp), ih2 fun y hy => ih y (by simp [hy])]
    rw [asLists, this]

/-- The values a setter validator accepts. -/
def SetterAccepts (s : SetterValidator) (v : Val) (mro : String → List String) : Prop :=
  Accepted mro (if s.noneAllowed then "NoneType" :: s.types else s.types) s.functional s.additional v

/-- **C51.** An assignment through a validated setter succeeds exactly when the value is accepted; it
then stores the value (tuples and sets turned into lists), and otherwise raises and keeps
the old value. -/
theorem setter_validation (s : SetterValidator) (mro : String → List String) (slot v : Val) :
    ((s.assign mro slot v).1 = .ok () ↔ SetterAccepts s v mro) ∧
    ((s.assign mro slot v).1 = .ok () → (s.assign mro slot v).2 = asLists v) ∧
    ((s.assign mro slot v).1 = .ok () → OnlyLists v → (s.assign mro slot v).2 = v) ∧
    (∀ e, (s.assign mro slot v).1 = .error e → (s.assign mro slot v).2 = slot) := by
  have hs := evaluate_spec mro s.functional s.additional s.allTypes v
  unfold SetterAccepts
  unfold SetterValidator.assign
  unfold SetterValidator.allTypes at hs ⊢
  rcases h : evaluate mro s.functional s.additional (if s.noneAllowed then "NoneType" :: s.types else s.types) v with e | w
  · rw [h] at hs
    refine ⟨?_, by simp, by simp, by simp⟩
    simp only [reduceCtorEq, false_iff]
    intro ha
    have := (hs _).2 ⟨ha, rfl⟩; cases this
  · obtain ⟨h1, rfl⟩ := (hs w).1 h
    exact ⟨by simp [h1], by simp, fun _ ho => onlyLists_asLists ho, by simp⟩

/-- **C51.** A functional property that does not name list takes no list, a non-functional one takes a
list of accepted values, to any depth. -/
theorem setter_lists (s : SetterValidator) (mro : String → List String) (slot : Val) (xs : List Val) :
    (s.functional = true → "list" ∉ s.types → "object" ∉ s.types → (s.assign mro slot (.list xs)).1 ≠ .ok ()) ∧
    (s.functional = false → ((s.assign mro slot (.list xs)).1 = .ok () ↔ ∀ x ∈ xs, (s.assign mro slot x).1 = .ok ())) := by
  constructor
  · intro hf hl ho h
    have := (setter_validation s mro slot (.list xs)).1.1 h
    unfold SetterAccepts at this
    rw [accepted_items rfl] at this
    obtain ⟨⟨c, hc, hor⟩, _⟩ := this
    rcases hor with hor | hor
    · simp only [Val.classes, List.mem_cons, List.not_mem_nil, or_false] at hc
      rcases hc with rfl | rfl <;> split_ifs at hor <;> simp_all
    · rw [hf] at hor; exact absurd hor.1 (by simp)
  · intro hf
    rw [(setter_validation s mro slot (.list xs)).1]
    unfold SetterAccepts
    rw [accepted_items rfl]
    constructor
    · rintro ⟨_, h⟩ x hx; exact (setter_validation s mro slot x).1.2 (h x hx)
    · intro h
      exact ⟨⟨"list", by simp [Val.classes], .inr ⟨hf, rfl⟩⟩, fun x hx => (setter_validation s mro slot x).1.1 (h x hx)⟩

/-- Non-vacuity: a non-functional property for non-negative ints takes nested lists, refuses a
negative number in them, and keeps the old value then. -/
example : let s : SetterValidator := { types := ["int"], additional := [isNonnegative] };
    (s.assign (fun _ => []) .none (.list [.int 1, .list [.none, .int 2]])).1 = .ok () ∧
    (s.assign (fun _ => []) (.int 7) (.list [.int 1, .list [.none, .int (-2)]])).1 = .error .valueError ∧
    (s.assign (fun _ => []) (.int 7) (.str "x")).1 = .error .valueError := by decide +kernel

/-- A limit of the code: a property that allows tuples stores a list instead of the tuple. -/
theorem setter_tuple_counterexample :
    (SetterValidator.assign { types := ["tuple", "int"] } (fun _ => []) .none (.tuple [.int 1])).2 = .list [.int 1] := rfl

/-! ### C52 -/

/-- No negative number in the value, also not inside containers. -/
inductive NonNegative : Val → Prop
  | leaf (v : Val) : items? v = none → (∀ i, v = .int i → 0 ≤ i) → (∀ r, v ≠ .float true r) → NonNegative v
  | items (v : Val) (xs : List Val) : items? v = some xs → (∀ x ∈ xs, NonNegative x) → NonNegative v

theorem nonneg_accepted {mro : String → List String} {types : List String} {functional : Bool}
    {checks : List Validator} {v : Val} (hc : isNonnegative ∈ checks)
    (h : Accepted mro types functional checks v) : NonNegative (asLists v) := by
  induction h with
  | leaf v h1 h2 h3 =>
    have hv := h3 _ hc
    have : asLists v = v := by cases v <;> first | rfl | simp [items?] at h1
    rw [this]
    refine .leaf v h1 ?_ ?_
    · rintro i rfl
      by_contra hi
      simp [isNonnegative, show i < 0 by omega] at hv
    · rintro r rfl
      simp [isNonnegative] at hv
  | items v xs h1 _ _ ih =>
    have hl : asLists v = .list (asListsAll xs) := by
      cases v <;> simp [items?] at h1 <;> subst h1 <;> rfl
    rw [hl]
    refine .items _ (asListsAll xs) rfl ?_
    clear * - ih
    induction xs with
    | nil => simp [asListsAll]
    | cons x xs ih2 =>
      intro y hy
      rw [asListsAll, List.mem_cons] at hy
      rcases hy with rfl | hy
      · exact ih x (by simp)
      · exact ih2 (fun z hz => ih z (by simp [hz])) y hy

/-- **C52.** A property checked with `is_nonnegative` never holds a negative number, also not inside
lists, after any history of assignments starting from an unset property. -/
theorem nonnegative_history (s : SetterValidator) (hs : isNonnegative ∈ s.additional)
    (mro : String → List String) (vals : List Val) :
    NonNegative (vals.foldl (fun slot v => (s.assign mro slot v).2) .none) := by
  suffices ∀ slot, NonNegative slot → NonNegative (vals.foldl (fun slot v => (s.assign mro slot v).2) slot) from
    this _ (.leaf _ rfl (by simp) (by simp))
  induction vals with
  | nil => intro slot h; exact h
  | cons v vals ih =>
    intro slot h
    refine ih _ ?_
    show NonNegative (s.assign mro slot v).2
    obtain ⟨h1, h2, _, h4⟩ := setter_validation s mro slot v
    rcases hr : (s.assign mro slot v).1 with e | u
    · rw [h4 e hr]; exact h
    · rw [h2 hr]; exact nonneg_accepted hs (h1.1 hr)

/-- Non-vacuity: a history with accepted and refused assignments. -/
example : let s : SetterValidator := { types := ["int"], functional := true, additional := [isNonnegative] };
    [Val.int 3, .int (-4), .str "x", .list [.int 1]].foldl (fun slot v => (s.assign (fun _ => []) slot v).2) .none = .int 3 := by
  rfl

end Verif.Props
