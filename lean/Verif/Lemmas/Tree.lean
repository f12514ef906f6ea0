import Verif.Storage.Tree
import Mathlib.Order.Defs.LinearOrder

/-! Lemmas about the BTree model. -/
namespace Verif.Storage.Tree
variable {K V : Type} [LinearOrder K]

@[simp] theorem get_nil (k : K) : get ([] : Tree K V) k = none := rfl

theorem get_cons (k' : K) (v : V) (t : Tree K V) (k : K) :
    get ((k', v) :: t) k = if k = k' then some v else get t k := rfl

theorem has_eq (t : Tree K V) (k : K) : t.has k = (t.get k).isSome := rfl

theorem get_put (t : Tree K V) (k : K) (v : V) (x : K) :
    (t.put k v).get x = if x = k then some v else t.get x := by
  induction t with
  | nil => simp [put, get]
  | cons p t ih =>
    obtain ⟨k', v'⟩ := p
    unfold put
    by_cases h1 : k < k'
    · simp [h1, get_cons]
    · by_cases h2 : k = k'
      · subst h2; simp [get_cons]; grind
      · simp only [h1, h2, if_false, get_cons, ih]
        grind

theorem get_eq_none_iff (t : Tree K V) (k : K) : t.get k = none ↔ k ∉ t.keys := by
  induction t with
  | nil => simp [keys]
  | cons p t ih =>
    obtain ⟨k', v'⟩ := p
    rw [get_cons]
    simp only [keys, List.map_cons, List.mem_cons, not_or] at *
    split_ifs with h <;> simp_all

theorem has_iff_mem (t : Tree K V) (k : K) : t.has k = true ↔ k ∈ t.keys := by
  rw [has_eq, ← not_iff_not]
  simp [get_eq_none_iff]

theorem mem_of_get {t : Tree K V} {k : K} {v : V} (h : t.get k = some v) : (k, v) ∈ t := by
  induction t with
  | nil => simp at h
  | cons p t ih =>
    obtain ⟨k', v'⟩ := p
    rw [get_cons] at h
    split_ifs at h with h1 <;> simp_all

theorem sorted_nil : Sorted ([] : Tree K V) := List.Pairwise.nil

theorem Sorted.tail {p : K × V} {t : Tree K V} (h : Sorted (p :: t)) : Sorted t :=
  (List.pairwise_cons.1 h).2

theorem get_of_mem {t : Tree K V} (hs : Sorted t) {k : K} {v : V} (h : (k, v) ∈ t) :
    t.get k = some v := by
  induction t with
  | nil => simp at h
  | cons p t ih =>
    obtain ⟨k', v'⟩ := p
    have hs' := List.pairwise_cons.1 hs
    rw [get_cons]
    rcases List.mem_cons.1 h with h | h
    · simp_all
    · have := hs'.1 _ h
      have hne : k ≠ k' := ne_of_gt this
      simp [hne, ih hs'.2 h]

theorem mem_iff_get {t : Tree K V} (hs : Sorted t) {k : K} {v : V} :
    (k, v) ∈ t ↔ t.get k = some v := ⟨get_of_mem hs, mem_of_get⟩

theorem keys_put (t : Tree K V) (k : K) (v : V) (x : K) :
    x ∈ (t.put k v).keys ↔ x = k ∨ x ∈ t.keys := by
  rw [← has_iff_mem, ← has_iff_mem, has_eq, has_eq, get_put]
  split_ifs with h <;> simp [h]

theorem mem_put {t : Tree K V} {k : K} {v : V} {p : K × V} (h : p ∈ t.put k v) :
    p = (k, v) ∨ p ∈ t := by
  induction t with
  | nil => simpa [put] using h
  | cons q t ih =>
    obtain ⟨k', v'⟩ := q
    unfold put at h
    split_ifs at h with h1 h2
    · simpa using h
    · rcases List.mem_cons.1 h with h | h
      · exact .inl h
      · exact .inr (List.mem_cons_of_mem _ h)
    · rcases List.mem_cons.1 h with h | h
      · exact .inr (by simp [h])
      · rcases ih h with h | h
        · exact .inl h
        · exact .inr (List.mem_cons_of_mem _ h)

theorem sorted_put {t : Tree K V} (hs : Sorted t) (k : K) (v : V) : Sorted (t.put k v) := by
  induction t with
  | nil => simp [put, Sorted]
  | cons p t ih =>
    obtain ⟨k', v'⟩ := p
    have hs' := List.pairwise_cons.1 hs
    unfold put
    split_ifs with h1 h2
    · refine List.pairwise_cons.2 ⟨?_, hs⟩
      intro a ha
      rcases List.mem_cons.1 ha with ha | ha
      · subst ha; exact h1
      · exact lt_trans h1 (hs'.1 a ha)
    · subst h2
      exact List.pairwise_cons.2 ⟨hs'.1, hs'.2⟩
    · refine List.pairwise_cons.2 ⟨?_, ih hs'.2⟩
      intro a ha
      rcases mem_put ha with rfl | ha
      · exact lt_of_le_of_ne (not_lt.1 h1) (Ne.symm h2)
      · exact hs'.1 a ha

theorem get_none_of_lt {t : Tree K V} {k : K} (h : ∀ p ∈ t, k < p.1) : t.get k = none := by
  rw [get_eq_none_iff]
  intro hm
  obtain ⟨p, hp, rfl⟩ := List.mem_map.1 hm
  exact lt_irrefl _ (h p hp)

theorem length_put {t : Tree K V} (hs : Sorted t) (k : K) (v : V) :
    (t.put k v).length = if t.has k then t.length else t.length + 1 := by
  induction t with
  | nil => simp [put, has, get]
  | cons p t ih =>
    obtain ⟨k', v'⟩ := p
    have hs' := List.pairwise_cons.1 hs
    unfold put
    by_cases h1 : k < k'
    · have : get ((k', v') :: t) k = none := get_none_of_lt (by
        intro p hp
        rcases List.mem_cons.1 hp with rfl | hp
        · exact h1
        · exact lt_trans h1 (hs'.1 p hp))
      simp [has_eq, this, h1]
    · by_cases h2 : k = k'
      · subst h2; simp [has_eq, get_cons]
      · have := ih hs'.2
        simp only [has_eq, get_cons, h1, h2, if_false, List.length_cons] at *
        rw [this]
        by_cases hg : (get t k).isSome = true <;> simp [hg]

theorem get_erase (t : Tree K V) (k x : K) :
    (t.erase k).get x = if x = k then none else t.get x := by
  induction t with
  | nil => simp [erase]
  | cons p t ih =>
    obtain ⟨k', v'⟩ := p
    simp only [erase, List.filter_cons] at *
    by_cases h : k' = k
    · subst h
      simp only [ne_eq, not_true_eq_false, decide_false, Bool.false_eq_true, if_false]
      rw [ih, get_cons]
      split_ifs <;> rfl
    · simp only [ne_eq, h, not_false_eq_true, decide_true, if_true, get_cons]
      rw [ih]
      split_ifs with h1 h2 <;> simp_all

theorem sorted_erase {t : Tree K V} (hs : Sorted t) (k : K) : Sorted (t.erase k) :=
  List.Pairwise.filter _ hs

theorem mem_erase {t : Tree K V} {k : K} {p : K × V} : p ∈ t.erase k ↔ p ∈ t ∧ p.1 ≠ k := by
  simp [erase]

theorem length_erase {t : Tree K V} (hs : Sorted t) (k : K) :
    (t.erase k).length = if t.has k then t.length - 1 else t.length := by
  induction t with
  | nil => simp [erase, has]
  | cons p t ih =>
    obtain ⟨k', v'⟩ := p
    have hs' := List.pairwise_cons.1 hs
    have ih := ih hs'.2
    simp only [erase, List.filter_cons, has_eq, get_cons] at *
    by_cases h : k = k'
    · subst h
      have hn : get t k = none := get_none_of_lt fun p hp => hs'.1 p hp
      simp [hn] at ih
      simpa using ih
    · have h' : k' ≠ k := Ne.symm h
      simp only [ne_eq, h', not_false_eq_true, decide_true, if_true, h, if_false,
        List.length_cons, ih]
      split_ifs with hg
      · have : t ≠ [] := by rintro rfl; simp at hg
        have := List.length_pos_iff.2 this
        simp [hg]; omega
      · simp [hg]

theorem sorted_update {t : Tree K V} (hs : Sorted t) (d : List (K × V)) : Sorted (t.update d) := by
  induction d generalizing t with
  | nil => exact hs
  | cons p d ih => exact ih (sorted_put hs p.1 p.2)

theorem get_update_nil (t : Tree K V) : t.update [] = t := rfl

theorem update_cons (t : Tree K V) (p : K × V) (d : List (K × V)) :
    t.update (p :: d) = (t.put p.1 p.2).update d := rfl

/-- Lookup in a Python dict given by its items. -/
theorem get_update {t : Tree K V} {d : List (K × V)} (hd : (d.map Prod.fst).Nodup) (x : K) :
    (t.update d).get x = (get d x).or (t.get x) := by
  induction d generalizing t with
  | nil => simp [update]
  | cons p d ih =>
    obtain ⟨k, v⟩ := p
    simp only [List.map_cons, List.nodup_cons] at hd
    rw [update_cons, ih hd.2, get_put, get_cons]
    by_cases h : x = k
    · subst h
      have : get d x = none := (get_eq_none_iff d x).2 hd.1
      simp [this]
    · simp [h]

theorem Sorted.nodup_keys {t : Tree K V} (hs : Sorted t) : t.keys.Nodup := by
  unfold keys
  rw [List.Nodup, List.pairwise_map]
  exact hs.imp fun h => ne_of_lt h

theorem Sorted.keys_sorted {t : Tree K V} (hs : Sorted t) : t.keys.Pairwise (· < ·) := by
  unfold keys
  rw [List.pairwise_map]
  exact hs

/-- Two trees with the same lookups are the same tree. -/
theorem ext {t u : Tree K V} (ht : Sorted t) (hu : Sorted u) (h : ∀ k, t.get k = u.get k) :
    t = u := by
  induction t generalizing u with
  | nil =>
    cases u with
    | nil => rfl
    | cons p u =>
      obtain ⟨k, v⟩ := p
      have := h k
      simp [get_cons] at this
  | cons p t ih =>
    obtain ⟨k, v⟩ := p
    have ht' := List.pairwise_cons.1 ht
    cases u with
    | nil => have := h k; simp [get_cons] at this
    | cons q u =>
      obtain ⟨k2, v2⟩ := q
      have hu' := List.pairwise_cons.1 hu
      have hk : k = k2 := by
        rcases lt_trichotomy k k2 with hlt | heq | hgt
        · have := h k
          rw [get_none_of_lt (t := (k2, v2) :: u)] at this
          · simp [get_cons] at this
          · intro p hp
            rcases List.mem_cons.1 hp with rfl | hp
            · exact hlt
            · exact lt_trans hlt (hu'.1 p hp)
        · exact heq
        · have := h k2
          rw [get_none_of_lt (t := (k, v) :: t)] at this
          · simp [get_cons] at this
          · intro p hp
            rcases List.mem_cons.1 hp with rfl | hp
            · exact hgt
            · exact lt_trans hgt (ht'.1 p hp)
      subst hk
      have hv : v = v2 := by simpa [get_cons] using h k
      subst hv
      congr 1
      apply ih ht'.2 hu'.2
      intro x
      by_cases hx : x = k
      · subst hx
        rw [get_none_of_lt fun p hp => ht'.1 p hp, get_none_of_lt fun p hp => hu'.1 p hp]
      · simpa [get_cons, hx] using h x

theorem mem_rangeItems {t : Tree K V} {mn mx : Option K} {p : K × V} :
    p ∈ t.rangeItems mn mx ↔ p ∈ t ∧ (∀ m, mn = some m → m ≤ p.1) ∧ (∀ m, mx = some m → p.1 ≤ m) := by
  unfold rangeItems
  rw [List.mem_filter]
  cases mn <;> cases mx <;> simp

theorem sorted_rangeItems {t : Tree K V} (hs : Sorted t) (mn mx : Option K) :
    Sorted (t.rangeItems mn mx) := List.Pairwise.filter _ hs

end Verif.Storage.Tree
