import Verif.Jsonld.Clone
import Mathlib.Data.List.Basic
import Mathlib.Data.List.Nodup

/-!
# Facts about C3 linearisation
-/
set_option linter.unusedSectionVars false

namespace Verif.Jsonld.Clone
open Verif

section
variable {X : Type} [DecidableEq X]

theorem inTail_iff {x : X} {ls : List (List X)} : inTail x ls = true ↔ ∃ l ∈ ls, x ∈ l.tail := by
  unfold inTail; simp [List.any_eq_true]

theorem goodHead_some {all ls : List (List X)} {x : X} (h : goodHead all ls = some x) :
    (∃ l ∈ ls, l.head? = some x) ∧ inTail x all = false := by
  induction ls with
  | nil => cases h
  | cons l ls ih =>
    cases l with
    | nil =>
      rw [goodHead] at h
      obtain ⟨⟨l, hl, h1⟩, h2⟩ := ih h
      exact ⟨⟨l, List.mem_cons_of_mem _ hl, h1⟩, h2⟩
    | cons y t =>
      rw [goodHead] at h
      split_ifs at h with hb
      · obtain ⟨⟨l, hl, h1⟩, h2⟩ := ih h
        exact ⟨⟨l, List.mem_cons_of_mem _ hl, h1⟩, h2⟩
      · injection h with h; subst h
        exact ⟨⟨_, List.mem_cons_self, rfl⟩, by simpa using hb⟩

theorem goodHead_isSome {all ls : List (List X)} {x : X} {l : List X} (hl : l ∈ ls) (hh : l.head? = some x)
    (hx : inTail x all = false) : ∃ y, goodHead all ls = some y := by
  induction ls with
  | nil => cases hl
  | cons k ls ih =>
    cases k with
    | nil =>
      rw [goodHead]
      rcases List.mem_cons.1 hl with rfl | hl
      · cases hh
      · exact ih hl
    | cons y t =>
      rw [goodHead]
      split_ifs with hb
      · rcases List.mem_cons.1 hl with rfl | hl
        · injection hh with hh; subst hh; rw [hx] at hb; cases hb
        · exact ih hl
      · exact ⟨y, rfl⟩

theorem dropIf_head (x : X) (t : List X) : dropIf x (x :: t) = t := by simp [dropIf]

theorem dropIf_of_ne {x : X} {l : List X} (h : l.head? ≠ some x) : dropIf x l = l := by
  cases l with
  | nil => rfl
  | cons y t =>
    have : y ≠ x := fun e => h (by rw [e]; rfl)
    rw [dropIf, if_neg this]

theorem length_dropIf_le (x : X) (l : List X) : (dropIf x l).length ≤ l.length := by
  cases l with
  | nil => exact Nat.le_refl _
  | cons y t => rw [dropIf]; split_ifs <;> simp

theorem total_dropIf {ls : List (List X)} {x : X} (h : ∃ l ∈ ls, l.head? = some x) :
    total (ls.map (dropIf x)) + 1 ≤ total ls := by
  have hle : ∀ ls : List (List X), total (ls.map (dropIf x)) ≤ total ls := by
    intro ls
    induction ls with
    | nil => exact Nat.le_refl _
    | cons l ls ih =>
      have := length_dropIf_le x l
      simp only [total, List.map_cons, List.sum_cons] at *
      omega
  induction ls with
  | nil => obtain ⟨l, hl, -⟩ := h; cases hl
  | cons k ls ih =>
    obtain ⟨l, hl, hh⟩ := h
    rcases List.mem_cons.1 hl with rfl | hl
    · cases l with
      | nil => cases hh
      | cons y t =>
        injection hh with hh; subst hh
        have := hle ls
        simp only [total, List.map_cons, List.sum_cons, dropIf_head, List.length_cons] at *
        omega
    · have h1 := ih ⟨l, hl, hh⟩
      have h2 := length_dropIf_le x k
      simp only [total, List.map_cons, List.sum_cons] at *
      omega

theorem total_eq_zero {ls : List (List X)} : total ls = 0 ↔ ls.all (·.isEmpty) = true := by
  unfold total
  induction ls with
  | nil => simp
  | cons l ls ih =>
    simp only [List.map_cons, List.sum_cons, List.all_cons, Bool.and_eq_true, ← ih, List.isEmpty_iff]
    rw [Nat.add_eq_zero_iff, List.length_eq_zero_iff]

/-- The step of `merge`, for any number that is large enough. -/
theorem merge_of_empty {ls : List (List X)} (h : ls.all (·.isEmpty) = true) (n : Nat) : merge n ls = .ok [] := by
  cases n with
  | zero => rfl
  | succ n => rw [merge, if_pos h]

theorem merge_step {ls : List (List X)} {x : X} (hx : goodHead ls ls = some x) {n : Nat} (hn : total ls ≤ n) :
    merge n ls = (match merge (n - 1) (ls.map (dropIf x)) with
      | .error e => .error e
      | .ok r => .ok (x :: r)) ∧ total (ls.map (dropIf x)) ≤ n - 1 := by
  have ht := total_dropIf (goodHead_some hx).1
  cases n with
  | zero => omega
  | succ n =>
    have hne : ¬ ls.all (·.isEmpty) = true := by
      rw [← total_eq_zero]; omega
    rw [merge, if_neg hne, hx]
    exact ⟨rfl, by simp; omega⟩

theorem merge_fail {ls : List (List X)} (hx : goodHead ls ls = none) (hne : ¬ ls.all (·.isEmpty) = true) {n : Nat} (hn : total ls ≤ n) :
    merge n ls = .error .typeError := by
  cases n with
  | zero => exact absurd (total_eq_zero.1 (Nat.le_zero.1 hn)) hne
  | succ n => rw [merge, if_neg hne, hx]

/-- The number of steps allowed does not matter once it is large enough. -/
theorem merge_fuel {ls : List (List X)} {n m : Nat} (hn : total ls ≤ n) (hm : total ls ≤ m) : merge n ls = merge m ls := by
  induction n generalizing ls m with
  | zero =>
    have := total_eq_zero.1 (Nat.le_zero.1 hn)
    rw [merge_of_empty this, merge_of_empty this]
  | succ n ih =>
    by_cases he : ls.all (·.isEmpty) = true
    · rw [merge_of_empty he, merge_of_empty he]
    · cases hx : goodHead ls ls with
      | none => rw [merge_fail hx he hn, merge_fail hx he hm]
      | some x =>
        obtain ⟨h1, h2⟩ := merge_step hx hn
        obtain ⟨h3, h4⟩ := merge_step hx hm
        simp only [Nat.add_sub_cancel] at h1 h2
        rw [h1, h3, ih (m := m - 1) h2 h4]

theorem mem_dropIf {x y : X} {l : List X} (h : y ∈ dropIf x l) : y ∈ l := by
  cases l with
  | nil => cases h
  | cons z t =>
    rw [dropIf] at h
    split_ifs at h with hz
    · exact List.mem_cons_of_mem _ h
    · exact h

theorem not_mem_dropIf {x : X} {l : List X} (h : x ∉ l.tail) : x ∉ dropIf x l := by
  cases l with
  | nil => simp [dropIf]
  | cons z t =>
    rw [dropIf]
    split_ifs with hz
    · exact h
    · intro hm
      rcases List.mem_cons.1 hm with e | hm
      · exact hz e.symm
      · exact h hm

theorem sublist_cons_dropIf {x : X} {l r : List X} (h : (dropIf x l).Sublist r) : l.Sublist (x :: r) := by
  cases l with
  | nil => exact List.nil_sublist _
  | cons z t =>
    rw [dropIf] at h
    split_ifs at h with hz
    · subst hz; exact h.cons_cons _
    · exact h.cons _

/-- What a linearisation contains: nothing twice, all lists in their order, nothing else. -/
theorem merge_sound {n : Nat} {ls : List (List X)} {r : List X} (hn : total ls ≤ n) (h : merge n ls = .ok r) :
    r.Nodup ∧ (∀ l ∈ ls, l.Sublist r) ∧ ∀ x ∈ r, ∃ l ∈ ls, x ∈ l := by
  induction n generalizing ls r with
  | zero =>
    have he := total_eq_zero.1 (Nat.le_zero.1 hn)
    rw [merge_of_empty he] at h; injection h with h; subst h
    refine ⟨List.nodup_nil, fun l hl => ?_, by simp⟩
    rw [List.all_eq_true] at he
    rw [List.isEmpty_iff.1 (he l hl)]
  | succ n ih =>
    by_cases he : ls.all (·.isEmpty) = true
    · rw [merge_of_empty he] at h; injection h with h; subst h
      refine ⟨List.nodup_nil, fun l hl => ?_, by simp⟩
      rw [List.all_eq_true] at he
      rw [List.isEmpty_iff.1 (he l hl)]
    · cases hx : goodHead ls ls with
      | none => rw [merge_fail hx he hn] at h; cases h
      | some x =>
        obtain ⟨h1, h2⟩ := merge_step hx hn
        rw [h1] at h
        simp only [Nat.add_sub_cancel] at h h2
        cases hm : merge n (ls.map (dropIf x)) with
        | error e => rw [hm] at h; cases h
        | ok r' =>
          rw [hm] at h; injection h with h; subst h
          obtain ⟨i1, i2, i3⟩ := ih h2 hm
          obtain ⟨⟨l0, hl0, hh0⟩, hgood⟩ := goodHead_some hx
          refine ⟨List.nodup_cons.2 ⟨fun hxr => ?_, i1⟩, fun l hl => ?_, fun y hy => ?_⟩
          · obtain ⟨l, hl, hxl⟩ := i3 x hxr
            obtain ⟨k, hk, rfl⟩ := List.mem_map.1 hl
            refine not_mem_dropIf (fun ht => ?_) hxl
            have := inTail_iff.2 ⟨k, hk, ht⟩
            rw [hgood] at this; cases this
          · exact sublist_cons_dropIf (i2 _ (List.mem_map_of_mem hl))
          · rcases List.mem_cons.1 hy with rfl | hy
            · exact ⟨l0, hl0, List.mem_of_mem_head? hh0⟩
            · obtain ⟨l, hl, hyl⟩ := i3 y hy
              obtain ⟨k, hk, rfl⟩ := List.mem_map.1 hl
              exact ⟨k, hk, mem_dropIf hyl⟩

theorem dropIf_sublist (x : X) (l : List X) : (dropIf x l).Sublist l := by
  cases l with
  | nil => exact List.Sublist.refl _
  | cons z t =>
    rw [dropIf]
    split_ifs
    · exact List.sublist_cons_self _ _
    · exact List.Sublist.refl _

/-- If all lists fit in one order, there is a linearisation. -/
theorem merge_ok {n : Nat} {ls : List (List X)} {T : List X} (hT : T.Nodup) (hsub : ∀ l ∈ ls, l.Sublist T)
    (hn : total ls ≤ n) : ∃ r, merge n ls = .ok r := by
  have hgood : ∀ (T : List X) (ls : List (List X)), T.Nodup → (∀ l ∈ ls, l.Sublist T) → ¬ ls.all (·.isEmpty) = true →
      ∃ x, goodHead ls ls = some x := by
    intro T
    induction T with
    | nil =>
      intro ls _ hs hne
      exact absurd (by rw [List.all_eq_true]; intro l hl; rw [List.isEmpty_iff]; exact List.sublist_nil.1 (hs l hl)) hne
    | cons a T ih =>
      intro ls hnd hs hne
      by_cases ha : ∃ l ∈ ls, a ∈ l
      · obtain ⟨l, hl, hal⟩ := ha
        have hhead : ∀ k ∈ ls, a ∉ k.tail := by
          intro k hk hak
          have := hs k hk
          cases k with
          | nil => cases hak
          | cons b t =>
            have ht : t.Sublist T := by
              cases this with
              | cons _ h => exact (List.sublist_of_cons_sublist h)
              | cons_cons _ h => exact h
            exact (List.nodup_cons.1 hnd).1 (ht.subset hak)
        have hl' : l.head? = some a := by
          cases l with
          | nil => cases hal
          | cons b t =>
            rcases List.mem_cons.1 hal with h | h
            · rw [h]; rfl
            · exact absurd h (hhead _ hl)
        refine goodHead_isSome hl hl' ?_
        rw [Bool.eq_false_iff]
        intro hh
        obtain ⟨k, hk, hak⟩ := inTail_iff.1 hh
        exact hhead k hk hak
      · refine ih ls (List.nodup_cons.1 hnd).2 (fun l hl => ?_) hne
        have := hs l hl
        cases this with
        | cons _ h => exact h
        | cons_cons _ h => exact absurd ⟨_, hl, List.mem_cons_self⟩ ha
  induction n generalizing ls with
  | zero => exact ⟨_, rfl⟩
  | succ n ih =>
    by_cases he : ls.all (·.isEmpty) = true
    · exact ⟨_, merge_of_empty he _⟩
    · obtain ⟨x, hx⟩ := hgood T ls hT hsub he
      obtain ⟨h1, h2⟩ := merge_step hx hn
      simp only [Nat.add_sub_cancel] at h1 h2
      obtain ⟨r, hr⟩ := ih (ls := ls.map (dropIf x)) (by
        intro l hl
        obtain ⟨k, hk, rfl⟩ := List.mem_map.1 hl
        exact (dropIf_sublist x k).trans (hsub k hk)) h2
      rw [h1, hr]; exact ⟨_, rfl⟩

/-- If one of the lists contains all others, it is the linearisation. -/
theorem merge_top {n : Nat} {ls : List (List X)} {T : List X} (hT : T.Nodup) (hsub : ∀ l ∈ ls, l.Sublist T)
    (hmem : T ∈ ls) (hn : total ls ≤ n) : merge n ls = .ok T := by
  obtain ⟨r, hr⟩ := merge_ok hT hsub hn
  obtain ⟨h1, h2, h3⟩ := merge_sound hn hr
  have hle : r.length ≤ T.length := by
    have : r ⊆ T := fun x hx => by
      obtain ⟨l, hl, hxl⟩ := h3 x hx
      exact (hsub l hl).subset hxl
    exact (List.subperm_of_subset h1 this).length_le
  rw [hr, (h2 T hmem).eq_of_length_le hle]

/-! ### Restriction to a set of classes that come first -/

/-- All elements with `P` come before all others. -/
def PFirst (P : X → Bool) (l : List X) : Prop := ∀ x t, (x :: t).Sublist l → P x = false → ∀ y ∈ t, P y = false

theorem PFirst.sublist {P : X → Bool} {l k : List X} (h : PFirst P l) (hk : k.Sublist l) : PFirst P k :=
  fun x t hx => h x t (hx.trans hk)

theorem PFirst.filter_cons {P : X → Bool} {x : X} {t : List X} (h : PFirst P (x :: t)) (hx : P x = false) :
    (x :: t).filter P = [] := by
  rw [List.filter_eq_nil_iff]
  intro y hy
  rcases List.mem_cons.1 hy with rfl | hy
  · rw [hx]; simp
  · rw [h x t (List.Sublist.refl _) hx y hy]; simp

theorem filter_dropIf {P : X → Bool} {x : X} {l : List X} (h : PFirst P l) (hx : P x = true) :
    (dropIf x l).filter P = dropIf x (l.filter P) := by
  cases l with
  | nil => rfl
  | cons y t =>
    by_cases hy : y = x
    · subst hy
      rw [dropIf_head, List.filter_cons_of_pos hx, dropIf_head]
    · rw [dropIf, if_neg hy]
      cases hP : P y with
      | true => rw [List.filter_cons_of_pos hP, dropIf, if_neg hy]
      | false => rw [h.filter_cons hP]; rfl

theorem inTail_filter {P : X → Bool} {ls : List (List X)} (h : ∀ l ∈ ls, PFirst P l) {y : X} (hy : P y = true) :
    inTail y (ls.map (List.filter P)) = inTail y ls := by
  rw [Bool.eq_iff_iff, inTail_iff, inTail_iff]
  constructor
  · rintro ⟨l, hl, hyl⟩
    obtain ⟨k, hk, rfl⟩ := List.mem_map.1 hl
    refine ⟨k, hk, ?_⟩
    cases k with
    | nil => cases hyl
    | cons z t =>
      cases hP : P z with
      | true => rw [List.filter_cons_of_pos hP] at hyl; exact (List.mem_filter.1 hyl).1
      | false => rw [(h _ hk).filter_cons hP] at hyl; cases hyl
  · rintro ⟨k, hk, hyk⟩
    refine ⟨k.filter P, List.mem_map_of_mem hk, ?_⟩
    cases k with
    | nil => cases hyk
    | cons z t =>
      cases hP : P z with
      | true => rw [List.filter_cons_of_pos hP]; exact List.mem_filter.2 ⟨hyk, hy⟩
      | false =>
        have := h _ hk z t (List.Sublist.refl _) hP y hyk
        rw [hy] at this; cases this

theorem goodHead_filter {P : X → Bool} {all ls : List (List X)} (hall : ∀ l ∈ all, PFirst P l) (h : ∀ l ∈ ls, PFirst P l)
    {x : X} (hx : P x = true) (hg : goodHead all ls = some x) :
    goodHead (all.map (List.filter P)) (ls.map (List.filter P)) = some x := by
  induction ls with
  | nil => cases hg
  | cons l ls ih =>
    have ih' := ih fun k hk => h k (List.mem_cons_of_mem _ hk)
    cases l with
    | nil => rw [goodHead] at hg; exact ih' hg
    | cons y t =>
      rw [goodHead] at hg
      rw [List.map_cons]
      split_ifs at hg with hb
      · cases hP : P y with
        | true =>
          rw [List.filter_cons_of_pos hP, goodHead, inTail_filter hall hP, if_pos hb]; exact ih' hg
        | false => rw [(h _ List.mem_cons_self).filter_cons hP, goodHead]; exact ih' hg
      · injection hg with hg; subst hg
        rw [List.filter_cons_of_pos hx, goodHead, inTail_filter hall hx, if_neg hb]

/-- If the elements with `P` come first in the linearisation, they are the linearisation of what the lists have
of them. -/
theorem merge_filter {P : X → Bool} {n m : Nat} {ls : List (List X)} {r : List X} (hn : total ls ≤ n) (h : merge n ls = .ok r)
    (hr : PFirst P r) (hm : total (ls.map (List.filter P)) ≤ m) : merge m (ls.map (List.filter P)) = .ok (r.filter P) := by
  induction n generalizing ls r m with
  | zero =>
    have he := total_eq_zero.1 (Nat.le_zero.1 hn)
    rw [merge_of_empty he] at h; injection h with h; subst h
    apply merge_of_empty
    rw [List.all_eq_true] at he ⊢
    intro l hl
    obtain ⟨k, hk, rfl⟩ := List.mem_map.1 hl
    rw [List.isEmpty_iff.1 (he k hk)]; rfl
  | succ n ih =>
    obtain ⟨s1, s2, s3⟩ := merge_sound hn h
    by_cases he : ls.all (·.isEmpty) = true
    · rw [merge_of_empty he] at h; injection h with h; subst h
      apply merge_of_empty
      rw [List.all_eq_true] at he ⊢
      intro l hl
      obtain ⟨k, hk, rfl⟩ := List.mem_map.1 hl
      rw [List.isEmpty_iff.1 (he k hk)]; rfl
    · cases hx : goodHead ls ls with
      | none => rw [merge_fail hx he hn] at h; cases h
      | some x =>
        obtain ⟨h1, h2⟩ := merge_step hx hn
        rw [h1] at h
        simp only [Nat.add_sub_cancel] at h h2
        cases hmm : merge n (ls.map (dropIf x)) with
        | error e => rw [hmm] at h; cases h
        | ok r' =>
          rw [hmm] at h; injection h with h; subst h
          have hls : ∀ l ∈ ls, PFirst P l := fun l hl => hr.sublist (s2 l hl)
          cases hP : P x with
          | true =>
            have hg := goodHead_filter hls hls hP hx
            obtain ⟨h3, h4⟩ := merge_step hg hm
            rw [h3]
            have hmap : (ls.map (List.filter P)).map (dropIf x) = (ls.map (dropIf x)).map (List.filter P) := by
              rw [List.map_map, List.map_map]
              refine List.map_congr_left fun l hl => ?_
              exact (filter_dropIf (hls l hl) hP).symm
            rw [hmap] at h4 ⊢
            rw [ih h2 hmm (hr.sublist (List.sublist_cons_self _ _)) h4, List.filter_cons_of_pos hP]
          | false =>
            rw [hr.filter_cons hP]
            apply merge_of_empty
            rw [List.all_eq_true]
            intro l hl
            obtain ⟨k, hk, rfl⟩ := List.mem_map.1 hl
            rw [List.isEmpty_iff, List.filter_eq_nil_iff]
            intro y hy
            have := List.filter_eq_nil_iff.1 (hr.filter_cons hP) y ((s2 k hk).subset hy)
            exact this

/-! ### Empty lists and renaming -/

theorem inTail_ne (ls : List (List X)) (x : X) : inTail x (ls.filter fun l => !l.isEmpty) = inTail x ls := by
  rw [Bool.eq_iff_iff, inTail_iff, inTail_iff]
  constructor
  · rintro ⟨l, hl, hx⟩; exact ⟨l, (List.mem_filter.1 hl).1, hx⟩
  · rintro ⟨l, hl, hx⟩
    refine ⟨l, List.mem_filter.2 ⟨hl, ?_⟩, hx⟩
    cases l with
    | nil => cases hx
    | cons => rfl

theorem goodHead_ne (all ls : List (List X)) :
    goodHead (all.filter fun l => !l.isEmpty) (ls.filter fun l => !l.isEmpty) = goodHead all ls := by
  induction ls with
  | nil => rfl
  | cons l ls ih =>
    cases l with
    | nil => rw [goodHead, ← ih]; rfl
    | cons y t =>
      have : (((y :: t) :: ls).filter fun l => !l.isEmpty) = (y :: t) :: ls.filter fun l => !l.isEmpty := rfl
      rw [this, goodHead, goodHead, inTail_ne, ih]

theorem total_ne (ls : List (List X)) : total (ls.filter fun l => !l.isEmpty) = total ls := by
  induction ls with
  | nil => rfl
  | cons l ls ih =>
    cases l with
    | nil =>
      have : (([] :: ls).filter fun l : List X => !l.isEmpty) = ls.filter fun l => !l.isEmpty := rfl
      rw [this, ih]; simp [total]
    | cons y t =>
      have : (((y :: t) :: ls).filter fun l => !l.isEmpty) = (y :: t) :: ls.filter fun l => !l.isEmpty := rfl
      rw [this]; simp only [total, List.map_cons, List.sum_cons] at *; omega

/-- Lists that differ in empty lists only have the same linearisation. -/
theorem merge_ne {n m : Nat} {ls ks : List (List X)}
    (h : (ls.filter fun l => !l.isEmpty) = ks.filter fun l => !l.isEmpty) (hn : total ls ≤ n) (hm : total ks ≤ m) :
    merge n ls = merge m ks := by
  have htot : total ls = total ks := by rw [← total_ne ls, h, total_ne]
  rw [merge_fuel hm (m := n) (by omega)]
  clear hm
  induction n generalizing ls ks with
  | zero => rfl
  | succ n ih =>
    have hg : goodHead ls ls = goodHead ks ks := by rw [← goodHead_ne ls ls, h, goodHead_ne]
    by_cases he : ls.all (·.isEmpty) = true
    · have he' : ks.all (·.isEmpty) = true := by rw [← total_eq_zero] at he ⊢; omega
      rw [merge_of_empty he, merge_of_empty he']
    · have he' : ¬ ks.all (·.isEmpty) = true := by rw [← total_eq_zero] at he ⊢; omega
      cases hx : goodHead ls ls with
      | none => rw [merge_fail hx he hn, merge_fail (hg ▸ hx) he' (by omega)]
      | some x =>
        obtain ⟨h1, h2⟩ := merge_step hx hn
        obtain ⟨h3, h4⟩ := merge_step (hg ▸ hx) (htot ▸ hn)
        simp only [Nat.add_sub_cancel] at h1 h2 h3 h4
        rw [h1, h3]
        have hd : ∀ ls : List (List X), ((ls.map (dropIf x)).filter fun l => !l.isEmpty) =
            ((ls.filter fun l => !l.isEmpty).map (dropIf x)).filter fun l => !l.isEmpty := by
          intro ls
          induction ls with
          | nil => rfl
          | cons l ls ih =>
            cases l with
            | nil => simpa [dropIf] using ih
            | cons y t =>
              have : (((y :: t) :: ls).filter fun l => !l.isEmpty) = (y :: t) :: ls.filter fun l => !l.isEmpty := rfl
              rw [this, List.map_cons, List.map_cons, List.filter_cons, List.filter_cons, ih]
        have heq := (hd ls).trans ((by rw [h] : _ = _).trans (hd ks).symm)
        rw [ih heq h2 (by rw [← total_ne (ls.map (dropIf x)), heq, total_ne])]

end

section
variable {X Y : Type} [DecidableEq X] [DecidableEq Y]

theorem merge_map {f : X → Y} (hf : Function.Injective f) (n : Nat) (ls : List (List X)) :
    merge n (ls.map (List.map f)) = (match merge n ls with
      | .error e => .error e
      | .ok r => .ok (r.map f)) := by
  have hin : ∀ (x : X) (ls : List (List X)), inTail (f x) (ls.map (List.map f)) = inTail x ls := by
    intro x ls
    rw [Bool.eq_iff_iff, inTail_iff, inTail_iff]
    constructor
    · rintro ⟨l, hl, hx⟩
      obtain ⟨k, hk, rfl⟩ := List.mem_map.1 hl
      rw [← List.map_tail] at hx
      obtain ⟨y, hy, e⟩ := List.mem_map.1 hx
      rw [hf e] at hy
      exact ⟨k, hk, hy⟩
    · rintro ⟨k, hk, hx⟩
      exact ⟨k.map f, List.mem_map_of_mem hk, by rw [← List.map_tail]; exact List.mem_map_of_mem hx⟩
  have hgood : ∀ all ls : List (List X), goodHead (all.map (List.map f)) (ls.map (List.map f)) = (goodHead all ls).map f := by
    intro all ls
    induction ls with
    | nil => rfl
    | cons l ls ih =>
      cases l with
      | nil => simpa [goodHead] using ih
      | cons y t =>
        simp only [List.map_cons, goodHead, hin]
        split_ifs
        · exact ih
        · rfl
  have hdrop : ∀ (x : X) (l : List X), dropIf (f x) (l.map f) = (dropIf x l).map f := by
    intro x l
    cases l with
    | nil => rfl
    | cons y t =>
      simp only [List.map_cons, dropIf]
      by_cases h : y = x
      · rw [if_pos h, if_pos (by rw [h])]
      · rw [if_neg h, if_neg fun e => h (hf e)]; rfl
  induction n generalizing ls with
  | zero => rfl
  | succ n ih =>
    have hemp : (ls.map (List.map f)).all (·.isEmpty) = ls.all (·.isEmpty) := by
      rw [List.all_map]; congr 1; funext l; simp
    rw [merge, merge, hemp, hgood]
    split_ifs with he
    · rfl
    · cases hx : goodHead ls ls with
      | none => rfl
      | some x =>
        simp only [Option.map_some]
        have : (ls.map (List.map f)).map (dropIf (f x)) = (ls.map (dropIf x)).map (List.map f) := by
          rw [List.map_map, List.map_map]
          exact List.map_congr_left fun l _ => hdrop x l
        rw [this, ih]
        cases merge n (ls.map (dropIf x)) <;> rfl

end

end Verif.Jsonld.Clone
