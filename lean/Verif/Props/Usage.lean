import Verif.Storage.Usage
import Verif.Props.ContainerHistory
import Mathlib.Tactic.FieldSimp
import Mathlib.Tactic.Linarith
import Mathlib.Tactic.Positivity

/-!
# Usage figures (C107)
-/
namespace Verif.Props
open Verif.Storage Verif.Spec
variable {V : Type}

/-! ### Specification -/

/-- The alert level of a usage ratio: the greatest of 0, 60, 70, 80, 90 that is at most the percentage rounded up. -/
def IsLevel (u : ℚ) (l : Nat) : Prop :=
  l ∈ [0, 60, 70, 80, 90] ∧ (l : ℤ) ≤ ⌈u * 100⌉ ∧ ∀ l' : Nat, l' ∈ [0, 60, 70, 80, 90] → (l' : ℤ) ≤ ⌈u * 100⌉ → l' ≤ l

/-- The greatest of a list of ratios. -/
def Greatest (us : List ℚ) (u : ℚ) : Prop := u ∈ us ∧ ∀ x ∈ us, x ≤ u

/-- The least of a list of ratios. -/
def Least (us : List ℚ) (u : ℚ) : Prop := u ∈ us ∧ ∀ x ∈ us, u ≤ x

/-- The limit of a collection built with the given argument. -/
def limitOf : Option Nat → Nat
  | none => 5000
  | some 0 => 5000
  | some (n + 1) => n + 1

/-- A group built from one collection or more, each made by the constructor with any arguments, and then used through any calls. -/
def BuiltGroup (limits : List Nat) (g : CGroup V) : Prop :=
  ∃ (args : List (Nat × Option Nat × Bool)) (s : Bool) (g0 : CGroup V) (ops : List (GroupCall V)),
    args ≠ [] ∧ limits = args.map (fun a => limitOf a.2.1) ∧
      CGroup.init (args.map fun a => Collection.new a.1 a.2.1 a.2.2) s = .ok g0 ∧ g = (g0.run ops).2

/-! ### Lemmas -/

theorem new_limit (u : Nat) (ms : Option Nat) (s : Bool) : (Collection.new (V := V) u ms s).maxSize = limitOf ms := by
  cases ms with
  | none => rfl
  | some n => cases n <;> rfl

theorem limitOf_pos (ms : Option Nat) : 1 ≤ limitOf ms := by
  cases ms with
  | none => simp [limitOf]
  | some n => cases n <;> simp [limitOf]

theorem run_maxSizes (g0 : CGroup V) (ops : List (GroupCall V)) :
    (g0.run ops).2.collections.map Collection.maxSize = g0.collections.map Collection.maxSize := by
  induction ops generalizing g0 with
  | nil => rfl
  | cons op ops ih => exact (ih _).trans (CGroup.gcall_maxSizes g0 op)

theorem run_snoc (g0 : CGroup V) (ops : List (GroupCall V)) (op : GroupCall V) : (g0.run (ops ++ [op])).2 = ((g0.run ops).2.gcall op).2 := by
  induction ops generalizing g0 with
  | nil => rfl
  | cons o ops ih => exact ih (g0.gcall o).2

theorem card_set {m : Map V} {n : Nat} (h : m.Card n) {k : String} (v : V) (hk : m k = none) : (m.set k v).Card (n + 1) := by
  obtain ⟨ks, hn, hl, hm⟩ := h
  refine ⟨k :: ks, List.nodup_cons.2 ⟨fun hc => (hm k).1 hc hk, hn⟩, by simp [hl], fun x => ?_⟩
  unfold Map.set
  split_ifs with hx
  · simp [hx]
  · simp only [List.mem_cons, hx, false_or]; exact hm x

theorem BuiltGroup.limits_eq {limits : List Nat} {g : CGroup V} (h : BuiltGroup limits g) :
    g.collections.map Collection.maxSize = limits ∧ limits ≠ [] ∧ (∀ m ∈ limits, 1 ≤ m) ∧ GroupReach g := by
  obtain ⟨args, s, g0, ops, hne, rfl, h0, rfl⟩ := h
  refine ⟨?_, by simpa using hne, ?_, ⟨_, s, g0, ops, by simpa using hne, ?_, h0, rfl⟩⟩
  · rw [run_maxSizes]
    unfold CGroup.init at h0
    split_ifs at h0
    injection h0 with h0
    subst h0
    simp [Function.comp_def, new_limit]
  · intro m hm
    obtain ⟨a, _, rfl⟩ := List.mem_map.1 hm
    exact limitOf_pos _
  · intro c hc
    obtain ⟨a, _, rfl⟩ := List.mem_map.1 hc
    rfl

theorem foldl_max_rat (l : List ℚ) (a : ℚ) : Greatest (a :: l) (l.foldl max a) := by
  induction l generalizing a with
  | nil => exact ⟨by simp, by simp⟩
  | cons b l ih =>
    obtain ⟨h1, h2⟩ := ih (max a b)
    refine ⟨?_, ?_⟩
    · rcases List.mem_cons.1 h1 with h | h
      · rw [List.foldl_cons, h]
        rcases max_choice a b with h | h <;> simp [h]
      · exact List.mem_cons_of_mem _ (List.mem_cons_of_mem _ h)
    · have h0 := h2 _ List.mem_cons_self
      intro x hx
      simp only [List.mem_cons] at hx
      rcases hx with rfl | rfl | hx
      · exact (le_max_left _ _).trans h0
      · exact (le_max_right _ _).trans h0
      · exact h2 x (List.mem_cons_of_mem _ hx)

theorem foldl_min_rat (l : List ℚ) (a : ℚ) : Least (a :: l) (l.foldl min a) := by
  induction l generalizing a with
  | nil => exact ⟨by simp, by simp⟩
  | cons b l ih =>
    obtain ⟨h1, h2⟩ := ih (min a b)
    refine ⟨?_, ?_⟩
    · rcases List.mem_cons.1 h1 with h | h
      · rw [List.foldl_cons, h]
        rcases min_choice a b with h | h <;> simp [h]
      · exact List.mem_cons_of_mem _ (List.mem_cons_of_mem _ h)
    · have h0 := h2 _ List.mem_cons_self
      intro x hx
      simp only [List.mem_cons] at hx
      rcases hx with rfl | rfl | hx
      · exact h0.trans (min_le_left _ _)
      · exact h0.trans (min_le_right _ _)
      · exact h2 x (List.mem_cons_of_mem _ hx)

theorem statusOf_level (n m : Nat) (hm : 1 ≤ m) : IsLevel ((n : ℚ) / m) (Collection.statusOf n m) := by
  obtain ⟨h90, h80, h70, h60, h0⟩ := status_exact n m hm
  have hm' : (0 : ℚ) < m := by exact_mod_cast hm
  have key : ∀ j : Nat, ((j + 1 : Nat) : ℤ) ≤ ⌈(n : ℚ) / m * 100⌉ ↔ j * m < 100 * n := by
    intro j
    have e : ((j + 1 : Nat) : ℤ) ≤ ⌈(n : ℚ) / m * 100⌉ ↔ (j : ℤ) < ⌈(n : ℚ) / m * 100⌉ := by push_cast; omega
    rw [e, Int.lt_ceil, div_mul_eq_mul_div, lt_div_iff₀ hm']
    have : ((j : ℤ) : ℚ) * m < n * 100 ↔ ((j * m : Nat) : ℚ) < ((100 * n : Nat) : ℚ) := by push_cast; rw [mul_comm (100 : ℚ)]
    rw [this]
    exact Nat.cast_lt
  have k0 : (0 : ℤ) ≤ ⌈(n : ℚ) / m * 100⌉ := Int.ceil_nonneg (by positivity)
  have k60 := key 59
  have k70 := key 69
  have k80 := key 79
  have k90 := key 89
  norm_num at k60 k70 k80 k90
  unfold IsLevel
  simp only [List.mem_cons, List.not_mem_nil, or_false, forall_eq_or_imp, forall_eq]
  have cases5 : 100 * n ≤ 59 * m ∨ (59 * m < 100 * n ∧ 100 * n ≤ 69 * m) ∨ (69 * m < 100 * n ∧ 100 * n ≤ 79 * m) ∨
      (79 * m < 100 * n ∧ 100 * n ≤ 89 * m) ∨ 89 * m < 100 * n := by omega
  generalize ⌈(n : ℚ) / m * 100⌉ = q at *
  rcases cases5 with h | h | h | h | h
  · rw [h0.2 h]; refine ⟨by simp, by simpa using k0, ?_, ?_, ?_, ?_, ?_⟩ <;> intro _ <;> omega
  · rw [h60.2 h]; refine ⟨by simp, by omega, ?_, ?_, ?_, ?_, ?_⟩ <;> intro _ <;> omega
  · rw [h70.2 h]; refine ⟨by simp, by omega, ?_, ?_, ?_, ?_, ?_⟩ <;> intro _ <;> omega
  · rw [h80.2 h]; refine ⟨by simp, by omega, ?_, ?_, ?_, ?_, ?_⟩ <;> intro _ <;> omega
  · rw [h90.2 h]; refine ⟨by simp, by omega, ?_, ?_, ?_, ?_, ?_⟩ <;> intro _ <;> omega

theorem IsLevel.unique {u : ℚ} {a b : Nat} (ha : IsLevel u a) (hb : IsLevel u b) : a = b :=
  le_antisymm (hb.2.2 a ha.1 ha.2.1) (ha.2.2 b hb.1 hb.2.1)

theorem IsLevel.mono {u v : ℚ} {a b : Nat} (ha : IsLevel u a) (hb : IsLevel v b) (h : u ≤ v) : a ≤ b :=
  hb.2.2 a ha.1 (ha.2.1.trans (Int.ceil_mono (mul_le_mul_of_nonneg_right h (by norm_num))))

theorem mediant (cs : List (Collection V)) (hp : ∀ c ∈ cs, 1 ≤ c.maxSize) (lo hi : ℚ)
    (h : ∀ c ∈ cs, lo ≤ c.usage ∧ c.usage ≤ hi) :
    lo * ((cs.map Collection.maxSize).sum : ℕ) ≤ ((cs.map Collection.size).sum : ℕ) ∧
      (((cs.map Collection.size).sum : ℕ) : ℚ) ≤ hi * ((cs.map Collection.maxSize).sum : ℕ) := by
  induction cs with
  | nil => simp
  | cons c cs ih =>
    obtain ⟨i1, i2⟩ := ih (fun d hd => hp d (List.mem_cons_of_mem _ hd)) (fun d hd => h d (List.mem_cons_of_mem _ hd))
    obtain ⟨h1, h2⟩ := h c List.mem_cons_self
    have hm : (0 : ℚ) < c.maxSize := by exact_mod_cast hp c List.mem_cons_self
    unfold Collection.usage at h1 h2
    rw [le_div_iff₀ hm] at h1
    rw [div_le_iff₀ hm] at h2
    simp only [List.map_cons, List.sum_cons]
    push_cast at *
    constructor <;> linarith

/-- The figures of a group of collections with positive limits. -/
theorem group_figures {g : CGroup V} (hg : g.collections ≠ []) (hp : ∀ c ∈ g.collections, 1 ≤ c.maxSize) :
    ∃ u hi lo, g.usage = .ok u ∧ g.highestUsage = .ok hi ∧ g.lowestUsage = .ok lo ∧ u = (g.size : ℚ) / g.maxSize ∧ 1 ≤ g.maxSize ∧
      Greatest g.collectionUsage hi ∧ Least g.collectionUsage lo ∧ lo ≤ u ∧ u ≤ hi ∧ ∃ l, g.status = .ok l ∧ IsLevel hi l := by
  cases hc : g.collections with
  | nil => exact absurd hc hg
  | cons c cs =>
    have hmax : 1 ≤ g.maxSize := by
      unfold CGroup.maxSize
      rw [hc, List.map_cons, List.sum_cons]
      have := hp c (by rw [hc]; simp)
      omega
    have hcu : g.collectionUsage = c.usage :: cs.map Collection.usage := by unfold CGroup.collectionUsage; rw [hc]; rfl
    have hhi := foldl_max_rat (cs.map Collection.usage) c.usage
    have hlo := foldl_min_rat (cs.map Collection.usage) c.usage
    set hi := (cs.map Collection.usage).foldl max c.usage with ehi
    set lo := (cs.map Collection.usage).foldl min c.usage with elo
    rw [← hcu] at hhi hlo
    have hmem : ∀ d ∈ g.collections, d.usage ∈ g.collectionUsage := fun d hd => List.mem_map.2 ⟨d, hd, rfl⟩
    have hmed := mediant g.collections hp lo hi fun d hd => ⟨hlo.2 _ (hmem d hd), hhi.2 _ (hmem d hd)⟩
    have hmq : (0 : ℚ) < g.maxSize := by exact_mod_cast hmax
    refine ⟨(g.size : ℚ) / g.maxSize, hi, lo, ?_, ?_, ?_, rfl, hmax, hhi, hlo, ?_, ?_, ?_⟩
    · unfold CGroup.usage; rw [if_neg (by omega)]
    · unfold CGroup.highestUsage; rw [hcu]
    · unfold CGroup.lowestUsage; rw [hcu]
    · rw [le_div_iff₀ hmq]; exact hmed.1
    · rw [div_le_iff₀ hmq]; exact hmed.2
    · obtain ⟨l, hl, ⟨d, hd, hds⟩, hall⟩ := status_of_ne g hg
      refine ⟨l, hl, ?_⟩
      obtain ⟨e, he, heu⟩ := List.mem_map.1 hhi.1
      have le : IsLevel e.usage e.status := statusOf_level _ _ (hp e he)
      have ld : IsLevel d.usage d.status := statusOf_level _ _ (hp d hd)
      have : e.status = l := le_antisymm (hall e he) (by rw [← hds]; exact ld.mono le (by rw [heu]; exact hhi.2 _ (hmem d hd)))
      rw [← this, ← heu]; exact le

/-! ### C107 -/

/-- **C107 (groups).** The figures of a group are those of what it stores: `usage` is the number of stored ids over the sum of the limits its collections
were built with; `lowest_collection_usage` and `highest_collection_usage` are the least and the greatest of the collections' ratios and enclose it; `status`
is the level of the highest; `usage` is 0 exactly when nothing is stored. -/
theorem group_usage (limits : List Nat) (g : CGroup V) (h : BuiltGroup limits g) :
    ∃ (n : Nat) (u hi lo : ℚ) (l : Nat), Map.Card g.view n ∧ g.usage = .ok u ∧ g.highestUsage = .ok hi ∧ g.lowestUsage = .ok lo ∧ g.status = .ok l ∧
      u = (n : ℚ) / limits.sum ∧ Greatest g.collectionUsage hi ∧ Least g.collectionUsage lo ∧ lo ≤ u ∧ u ≤ hi ∧ IsLevel hi l ∧
      (u = 0 ↔ ∀ k, g.view k = none) := by
  obtain ⟨hlim, _, hpos, hr⟩ := h.limits_eq
  obtain ⟨u, hi, lo, h1, h2, h3, h4, h5, h6, h7, h8, h9, l, h10, h11⟩ := group_figures hr.inv.ne fun c hc =>
    hpos _ (by rw [← hlim]; exact List.mem_map.2 ⟨c, hc, rfl⟩)
  have hcard := group_size g hr
  refine ⟨g.size, u, hi, lo, l, hcard, h1, h2, h3, h10, ?_, h6, h7, h8, h9, h11, ?_⟩
  · rw [h4]; unfold CGroup.maxSize; rw [hlim]
  · have hmq : (g.maxSize : ℚ) ≠ 0 := by exact_mod_cast (by omega : g.maxSize ≠ 0)
    have e0 : u = 0 ↔ g.size = 0 := by rw [h4, div_eq_zero_iff]; simp [hmq]
    rw [e0]
    obtain ⟨ks, _, hl, hk⟩ := hcard
    rw [← hl, List.length_eq_zero_iff]
    constructor
    · rintro rfl k
      by_contra hne
      exact absurd ((hk k).2 hne) (by simp)
    · intro hn
      cases ks with
      | nil => rfl
      | cons k ks => exact absurd (hn k) ((hk k).1 List.mem_cons_self)

/-- C107: inserting an id that is not stored raises the usage by one over the sum of the limits; inserting a stored one changes nothing. -/
theorem group_usage_insert (limits : List Nat) (g : CGroup V) (h : BuiltGroup limits g) (k : String) (v : V) (n : Nat)
    (ho : (g.insert k v).1 = .ok n) : ∃ u, g.usage = .ok u ∧ (g.insert k v).2.usage = .ok (u + if g.view k = none then 1 / (limits.sum : ℚ) else 0) := by
  have h' : BuiltGroup limits (g.insert k v).2 := by
    obtain ⟨args, s, g0, ops, hne, hl, h0, rfl⟩ := h
    refine ⟨args, s, g0, ops ++ [GroupCall.map (.insert k v)], hne, hl, h0, ?_⟩
    rw [run_snoc]; rfl
  obtain ⟨m, u, _, _, _, hm, hu, _, _, _, eu, _⟩ := group_usage limits g h
  obtain ⟨m', u', _, _, _, hm', hu', _, _, _, eu', _⟩ := group_usage limits _ h'
  refine ⟨u, hu, ?_⟩
  rw [hu']
  refine congrArg Except.ok ?_
  rcases (CGroup.insert_ok h.limits_eq.2.2.2.inv ho).2 with ⟨hk, _, hv⟩ | ⟨hk, _, hv⟩
  · rw [hv] at hm'
    rw [if_pos hk, eu', eu, card_unique hm' (card_set hm v hk)]
    rw [Nat.cast_add, Nat.cast_one, add_div]
  · rw [hv] at hm'
    rw [if_neg hk, eu', eu, card_unique hm' hm, add_zero]

/-- C107: a group without collections has no figures. -/
theorem group_usage_none : (⟨[]⟩ : CGroup V).usage = .error .zeroDivision ∧ (⟨[]⟩ : CGroup V).highestUsage = .error .valueError ∧
    (⟨[]⟩ : CGroup V).lowestUsage = .error .valueError ∧ (⟨[]⟩ : CGroup V).status = .error .valueError := ⟨rfl, rfl, rfl, rfl⟩

/-! ### Containers -/

/-- Containers built from groups made by the constructors (of the limits `limits a`), or by `Container.new`, and used through any calls. -/
inductive BuiltContainer : Container V → Prop
  | init (heap : Nat → CGroup V) (next primary : Nat) (groups : List Nat) (s : Option Bool) (c : Container V) (limits : Nat → List Nat) :
      (∀ a ∈ primary :: groups, BuiltGroup (limits a) (heap a) ∧ a < next) → groups.Nodup →
      Container.init heap next primary groups s = .ok c → BuiltContainer c
  | new (capacity m : Nat) (s : Bool) (c : Container V) : Container.new capacity m s = .ok c → BuiltContainer c
  | call (c : Container V) (op : ContCall V) : BuiltContainer c → BuiltContainer (c.call op).2

theorem BuiltContainer.reach {c : Container V} (h : BuiltContainer c) : ContReach c := by
  induction h with
  | init heap next primary groups s c limits hall hnd h => exact .init heap next primary groups s c (fun a ha => ⟨(hall a ha).1.limits_eq.2.2.2, (hall a ha).2⟩) hnd h
  | new capacity m s c h => exact new_reach h
  | call c op _ ih => exact .call c op ih

/-- All limits are positive. -/
def PosLimits (g : CGroup V) : Prop := ∀ m ∈ g.collections.map Collection.maxSize, 1 ≤ m

/-- The groups of a container lie in a set of addresses whose groups have positive limits. -/
structure PosOn (S : Nat → Prop) (c : Container V) : Prop where
  prim : S c.primary
  grps : ∀ a ∈ c.groups, S a
  lims : ∀ a, S a → PosLimits (c.heap a)

theorem PosLimits.gcall {g : CGroup V} (h : PosLimits g) (op : GroupCall V) : PosLimits (g.gcall op).2 := by
  unfold PosLimits
  rw [CGroup.gcall_maxSizes]; exact h

theorem PosLimits.insert {g : CGroup V} (h : PosLimits g) (k : String) (v : V) : PosLimits (g.insert k v).2 := h.gcall (.map (.insert k v))

theorem PosLimits.pop {g : CGroup V} (h : PosLimits g) (k : String) (d : Option V) : PosLimits (g.pop k d).2 := h.gcall (.map (.pop k d))

theorem PosLimits.update {g : CGroup V} (h : PosLimits g) (d : List (String × V)) : PosLimits (g.update d).2 := h.gcall (.map (.update d))

section
variable {S : Nat → Prop}

theorem PosOn.put {c : Container V} (h : PosOn S c) {a : Nat} {g : CGroup V} (hg : PosLimits g) : PosOn S (c.put a g) := by
  refine ⟨h.prim, h.grps, fun b hb => ?_⟩
  by_cases hba : b = a
  · rw [hba, Container.heap_put_self]; exact hg
  · rw [Container.heap_put_ne _ _ hba]; exact h.lims b hb

theorem PosOn.insertPrimary {c : Container V} (h : PosOn S c) (k : String) (v : V) : PosOn S (c.insertPrimary k v).2 :=
  h.put ((h.lims _ h.prim).insert k v)

theorem PosOn.moveKey {c : Container V} (h : PosOn S c) (t : Bool) {a : Nat} (ha : S a) (k : String) : PosOn S (Container.moveKey t a k c).2 := by
  unfold Container.moveKey
  have hp : PosLimits ((c.heap a).pop k none).2 := (h.lims a ha).pop k none
  split_ifs
  · split
    · rename_i heq; rw [heq] at hp; exact h.put hp
    · rename_i heq; rw [heq] at hp; exact (h.put hp).insertPrimary k _
  · split
    · exact h
    · exact h
    · exact h.insertPrimary k _

theorem PosOn.moveKeys {t : Bool} {a : Nat} {ks : List String} {c : Container V} (h : PosOn S c) (ha : S a) :
    PosOn S (Container.moveKeys t a ks c).2 := by
  induction ks generalizing c with
  | nil => exact h
  | cons k ks ih =>
    have h1 := h.moveKey t ha k
    rw [Container.moveKeys]
    split
    · rename_i heq; rw [heq] at h1; exact h1
    · rename_i heq; rw [heq] at h1; exact ih h1

theorem PosOn.moveGroups {t : Bool} {as : List Nat} {c : Container V} (h : PosOn S c) (ha : ∀ a ∈ as, S a) :
    PosOn S (Container.moveGroups t as c).2 := by
  induction as generalizing c with
  | nil => exact h
  | cons a as ih =>
    have h1 := h.moveKeys (t := t) (ks := (c.heap a).keys) (ha a List.mem_cons_self)
    rw [Container.moveGroups]
    split
    · rename_i heq; rw [heq] at h1; exact h1
    · rename_i heq; rw [heq] at h1; exact ih h1 fun b hb => ha b (List.mem_cons_of_mem _ hb)

theorem PosOn.regroup {c : Container V} (h : PosOn S c) {as : List Nat} (ha : ∀ a ∈ as, S a) : PosOn S (c.withGroups as) := ⟨h.prim, ha, h.lims⟩

theorem PosOn.condense {c : Container V} (h : PosOn S c) (t : Bool) : PosOn S (c.condense t).2 := by
  unfold Container.condense
  have h1 := h.moveGroups (t := t) (as := c.groups.tail) fun a ha => h.grps a (List.mem_of_mem_tail ha)
  split
  · rename_i heq; rw [heq] at h1; exact h1
  · rename_i heq
    rw [heq] at h1
    split_ifs
    · unfold Container.dropSources
      split
      · exact h1
      · rename_i hg; exact h1.regroup fun a ha => h1.grps a (by rw [hg]; rw [List.mem_singleton.1 ha]; exact List.mem_cons_self)
    · exact h1

theorem PosOn.deleteLoop {id : String} {as : List Nat} {c : Container V} (h : PosOn S c) (ha : ∀ a ∈ as, S a) :
    PosOn S (Container.deleteLoop id as c).2 := by
  induction as generalizing c with
  | nil => exact h
  | cons a as ih =>
    have hp : PosLimits ((c.heap a).pop id none).2 := (h.lims a (ha a List.mem_cons_self)).pop id none
    rw [Container.deleteLoop]
    split
    · exact h
    · exact ih h fun b hb => ha b (List.mem_cons_of_mem _ hb)
    · split
      · rename_i heq; rw [heq] at hp; exact h.put hp
      · rename_i heq
        rw [heq] at hp
        have := ih (h.put (a := a) hp) fun b hb => ha b (List.mem_cons_of_mem _ hb)
        split <;> (rename_i heq2; rw [heq2] at this; exact this)

theorem makeGroup_pos {capacity m : Nat} {s : Bool} {g : CGroup V} (h : Container.makeGroup capacity m s = .ok g) : PosLimits g := by
  obtain ⟨hc, hm, _⟩ := makeGroup_inv h
  obtain ⟨n, h1, _, _, _⟩ := numberOfCollections_correct capacity m hm
  unfold Container.makeGroup at h
  rw [h1] at h
  simp only [CGroup.new] at h
  cases n with
  | zero => simp at h
  | succ n =>
    simp only at h
    split_ifs at h with _ h2 h2 <;>
    · unfold CGroup.init at h
      split_ifs at h
      injection h with h
      subst h
      intro x hx
      simp only [List.map_map, List.mem_map, Function.comp_apply, List.mem_range] at hx
      obtain ⟨i, _, rfl⟩ := hx
      rw [new_limit]
      exact limitOf_pos _

theorem PosOn.resize {c : Container V} (h : PosOn S c) (n m : Nat) (cd t : Bool) :
    ∃ S', PosOn S' (c.resize n m cd t).2 := by
  unfold Container.resize
  split
  · exact ⟨S, h⟩
  · rename_i g hg
    have h1 : PosOn (fun a => S a ∨ a = c.next) (c.pushPrimary g) := by
      refine ⟨.inr rfl, fun a ha => ?_, fun a ha => ?_⟩
      · rcases List.mem_cons.1 ha with ha | ha
        · exact .inr ha
        · exact .inl (h.grps a ha)
      · unfold Container.pushPrimary
        by_cases hn : a = c.next
        · simp only [hn, Function.update_self]; exact makeGroup_pos hg
        · simp only [Function.update_of_ne hn]
          exact h.lims a (ha.resolve_right hn)
    refine ⟨fun a => S a ∨ a = c.next, ?_⟩
    simp only
    split_ifs
    · exact h1.condense t
    · have h2 := (h1.regroup (as := (c.pushPrimary g).groups.take 2) fun a ha => h1.grps a (List.mem_of_mem_take ha)).condense t
      split
      · rename_i heq; rw [heq] at h2; exact h2
      · rename_i heq
        rw [heq] at h2
        refine h2.regroup fun a ha => ?_
        rcases List.mem_append.1 ha with ha | ha
        · exact h2.grps a ha
        · exact h1.grps a (List.mem_of_mem_drop ha)

theorem PosOn.write {c : Container V} (h : PosOn S c) (k : String) (v : V) : PosOn S (c.write k v).2 := by
  unfold Container.write
  have h1 := (h.lims _ h.prim).insert k v
  split
  · rename_i heq; rw [heq] at h1; exact h.put h1
  · rename_i heq; rw [heq] at h1; exact h.put h1
  · rename_i heq
    rw [heq] at h1
    have h2 := h1.update [(k, v)]
    split <;> (rename_i heq2; rw [heq2] at h2; exact h.put h2)

theorem PosOn.setStrict {c : Container V} (h : PosOn S c) (b : Option Bool) : PosOn S (c.setStrict b).2 := by
  cases b with
  | none => exact h
  | some b => exact h.put ((h.lims _ h.prim).gcall (.setStrict (some b)))

theorem init_pos {heap : Nat → CGroup V} {next primary : Nat} {groups : List Nat} {s : Option Bool} {c : Container V}
    (h : Container.init heap next primary groups s = .ok c) (hp : ∀ a ∈ primary :: groups, PosLimits (heap a)) :
    PosOn (fun a => a ∈ primary :: groups) c := by
  unfold Container.init at h
  have h0 : PosOn (fun a => a ∈ primary :: groups)
      (⟨heap, next, if primary ∈ groups then groups else primary :: groups, primary⟩ : Container V) := by
    refine ⟨List.mem_cons_self, fun a ha => ?_, hp⟩
    simp only at ha
    split_ifs at ha
    · exact List.mem_cons_of_mem _ ha
    · exact ha
  have h1 := h0.setStrict s
  simp only at h
  split at h
  · simp at h
  · rename_i heq
    injection h with h
    subst h
    rw [heq] at h1; exact h1

end

theorem BuiltContainer.pos {c : Container V} (h : BuiltContainer c) : ∃ S, PosOn S c := by
  induction h with
  | init heap next primary groups s c limits hall hnd h =>
    refine ⟨_, init_pos h fun a ha => ?_⟩
    obtain ⟨h1, _, h2, _⟩ := (hall a ha).1.limits_eq
    unfold PosLimits
    rw [h1]; exact h2
  | new capacity m s c h =>
    unfold Container.new at h
    split at h
    · simp at h
    · rename_i g hg
      exact ⟨_, init_pos h fun a _ => makeGroup_pos hg⟩
  | call c op _ ih =>
    obtain ⟨S, ih⟩ := ih
    cases op with
    | write k v => exact ⟨S, ih.write k v⟩
    | delete k => exact ⟨S, ih.deleteLoop ih.grps⟩
    | resize n m cd t => exact ih.resize n m cd t
    | condense t => exact ⟨S, ih.condense t⟩
    | setStrict b => exact ⟨S, ih.setStrict b⟩

/-- **C107 (containers).** `usage` of a container is the number of ids in its primary group over `capacity`, and `status` is the level of the fullest
collection of the primary group; with one group this is the number of stored ids over `max_size`. -/
theorem container_usage (c : Container V) (h : BuiltContainer c) :
    ∃ (n : Nat) (u hi : ℚ) (l : Nat), Map.Card (c.view c.primary) n ∧ c.usage = .ok u ∧ u = (n : ℚ) / c.capacity ∧
      Greatest (c.heap c.primary).collectionUsage hi ∧ u ≤ hi ∧ c.status = .ok l ∧ IsLevel hi l ∧
      (c.groups = [c.primary] → ∃ k, Map.Card c.first k ∧ u = (k : ℚ) / c.maxSize) := by
  obtain ⟨S, hp⟩ := h.pos
  have hinv := h.reach.inv
  have hl := hp.lims _ hp.prim
  obtain ⟨u, hi, lo, h1, _, _, h4, h5, h6, _, _, h9, l, h10, h11⟩ := group_figures hinv.pinv.ne fun d hd => hl _ (List.mem_map.2 ⟨d, hd, rfl⟩)
  refine ⟨(c.heap c.primary).size, u, hi, l, CGroup.card hinv.pinv, h1, h4, h6, h9, h10, h11, fun hg => ⟨c.size, container_size_single c h.reach hg, ?_⟩⟩
  rw [h4]
  unfold Container.size Container.maxSize
  rw [hg]
  simp

/-- A container of two groups: the primary one is empty, the other one holds two ids and is built for one. -/
def lopsided : Container Nat where
  heap a := if a = 0 then ⟨[Collection.new 0 (some 4) false]⟩ else ((⟨[Collection.new 0 (some 1) false]⟩ : CGroup Nat).run [.map (.insert "a" 1), .map (.insert "b" 2)]).2
  next := 2
  groups := [0, 1]
  primary := 0

theorem lopsided_built : BuiltContainer lopsided := by
  refine .init lopsided.heap 2 0 [0, 1] (some false) lopsided (fun a => if a = 0 then [4] else [1]) ?_ (by decide) ?_
  · intro a ha
    have : a = 0 ∨ a = 1 := by simpa using ha
    rcases this with rfl | rfl
    · exact ⟨⟨[(0, some 4, false)], false, ⟨[Collection.new 0 (some 4) false]⟩, [], by simp, rfl, rfl, rfl⟩, by omega⟩
    · exact ⟨⟨[(0, some 1, false)], false, ⟨[Collection.new 0 (some 1) false]⟩, [.map (.insert "a" 1), .map (.insert "b" 2)], by simp, rfl, rfl, rfl⟩, by omega⟩
  · have : Function.update lopsided.heap 0 (lopsided.heap 0) = lopsided.heap := Function.update_eq_self _ _
    change Except.ok (⟨Function.update lopsided.heap 0 (lopsided.heap 0), 2, [0, 1], 0⟩ : Container Nat) = _
    rw [this]; rfl

/-- **C107, what does not hold.** With more than one group `usage` is not the "percentage of the container's max_size that has been used" (the docstring of
`ContainerProperties.usage`, container.py:144-149) and `status` does not tell "how full the container is": here the second group is full and over, the
figures are those of the empty primary group. -/
theorem container_usage_counterexample : BuiltContainer lopsided ∧ lopsided.usage = .ok 0 ∧ lopsided.status = .ok 0 ∧ lopsided.size = 2 ∧
    lopsided.maxSize = 5 ∧ lopsided.first "a" = some 1 ∧ lopsided.first "b" = some 2 := by
  refine ⟨lopsided_built, ?_, by decide +kernel, by decide +kernel, by decide +kernel, by decide +kernel, by decide +kernel⟩
  obtain ⟨n, u, _, _, hc, hu, he, _⟩ := container_usage _ lopsided_built
  have : n = 0 := card_unique hc (CGroup.card lopsided_built.reach.inv.pinv)
  rw [hu, he, this]; simp

example : ∃ u l, (exampleGroup.run [.map (.insert "a" 1), .map (.insert "b" 2)]).2.usage = .ok u ∧ u = 2 / 5 ∧
    (exampleGroup.run [.map (.insert "a" 1), .map (.insert "b" 2)]).2.status = .ok l := by
  obtain ⟨n, u, _, _, l, hc, hu, _, _, hl, he, _⟩ := group_usage [2, 3] (exampleGroup.run [.map (.insert "a" 1), .map (.insert "b" 2)]).2
    ⟨[(0, some 2, false), (1, some 3, false)], false, exampleGroup, _, by simp, rfl, by decide, rfl⟩
  have : n = 2 := card_unique hc (group_size _ (exampleGroup_reach _))
  exact ⟨u, l, hu, by rw [he, this]; norm_num, hl⟩

end Verif.Props
