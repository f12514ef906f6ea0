import Verif.Lemmas.Group

/-! Lemmas about the merge loops of CGroup.iterkeys/itervalues/iteritems. -/
namespace Verif.Storage.CGroup
variable {K : Type} [LinearOrder K]

theorem minHead_none {ls : List (List K)} (h : minHead ls = none) : ls.flatten = [] := by
  induction ls with
  | nil => rfl
  | cons l ls ih =>
    cases l with
    | nil => simpa using ih h
    | cons k r =>
      unfold minHead at h
      split at h <;> simp at h

theorem minHead_some {ls : List (List K)} {k : K} (h : minHead ls = some k) :
    (∃ r, (k :: r) ∈ ls) ∧ ∀ x r, (x :: r) ∈ ls → k ≤ x := by
  induction ls generalizing k with
  | nil => simp [minHead] at h
  | cons l ls ih =>
    cases l with
    | nil =>
      obtain ⟨⟨r, h1⟩, h2⟩ := ih h
      refine ⟨⟨r, List.mem_cons_of_mem _ h1⟩, fun x r hx => ?_⟩
      rcases List.mem_cons.1 hx with hx | hx
      · simp at hx
      · exact h2 x r hx
    | cons a r0 =>
      unfold minHead at h
      split at h
      · rename_i hn
        injection h with h; subst h
        refine ⟨⟨r0, by simp⟩, fun x r hx => ?_⟩
        rcases List.mem_cons.1 hx with hx | hx
        · simp at hx; rw [hx.1]
        · have := minHead_none hn
          have hmem : x ∈ ls.flatten := List.mem_flatten.2 ⟨_, hx, by simp⟩
          rw [this] at hmem; simp at hmem
      · rename_i m hm
        injection h with h
        obtain ⟨⟨r, h1⟩, h2⟩ := ih hm
        split_ifs at h with hlt
        · subst h
          refine ⟨⟨r, List.mem_cons_of_mem _ h1⟩, fun x r hx => ?_⟩
          rcases List.mem_cons.1 hx with hx | hx
          · simp at hx; rw [hx.1]; exact le_of_lt hlt
          · exact h2 x r hx
        · subst h
          refine ⟨⟨r0, by simp⟩, fun x r hx => ?_⟩
          rcases List.mem_cons.1 hx with hx | hx
          · simp at hx; rw [hx.1]
          · exact le_trans (not_lt.1 hlt) (h2 x r hx)

theorem advance_perm {ls : List (List K)} {k : K} (h : ∃ r, (k :: r) ∈ ls) :
    ls.flatten.Perm (k :: (advance k ls).flatten) := by
  induction ls with
  | nil => simp at h
  | cons l ls ih =>
    cases l with
    | nil =>
      obtain ⟨r, hr⟩ := h
      have : ∃ r, (k :: r) ∈ ls := ⟨r, by simpa using hr⟩
      simpa [advance] using ih this
    | cons a r0 =>
      unfold advance
      split_ifs with ha
      · subst ha; simp
      · obtain ⟨r, hr⟩ := h
        have : ∃ r, (k :: r) ∈ ls := by
          refine ⟨r, ?_⟩
          rcases List.mem_cons.1 hr with hr | hr
          · simp at hr; exact absurd hr.1.symm ha
          · exact hr
        have := ih this
        simp only [List.flatten_cons, List.cons_append]
        refine (List.Perm.cons a ((this.append_left r0).trans List.perm_middle)).trans ?_
        exact List.Perm.swap _ _ _

theorem length_advance {ls : List (List K)} {k : K} (h : ∃ r, (k :: r) ∈ ls) :
    (ls.map List.length).sum = ((advance k ls).map List.length).sum + 1 := by
  have := (advance_perm h).length_eq
  simpa [List.length_flatten] using this

theorem advance_suffix {ls : List (List K)} {k : K} {l : List K} (h : l ∈ advance k ls) :
    ∃ l' ∈ ls, l <:+ l' := by
  induction ls with
  | nil => simp [advance] at h
  | cons m ls ih =>
    cases m with
    | nil =>
      unfold advance at h
      rcases List.mem_cons.1 h with rfl | h
      · exact ⟨[], by simp, List.suffix_refl _⟩
      · obtain ⟨l', h1, h2⟩ := ih h
        exact ⟨l', List.mem_cons_of_mem _ h1, h2⟩
    | cons a r =>
      unfold advance at h
      split_ifs at h
      · rcases List.mem_cons.1 h with rfl | h
        · exact ⟨a :: l, by simp, List.suffix_cons _ _⟩
        · exact ⟨l, List.mem_cons_of_mem _ h, List.suffix_refl _⟩
      · rcases List.mem_cons.1 h with rfl | h
        · exact ⟨_, List.mem_cons_self, List.suffix_refl _⟩
        · obtain ⟨l', h1, h2⟩ := ih h
          exact ⟨l', List.mem_cons_of_mem _ h1, h2⟩

theorem minHead_le_all {ls : List (List K)} {k : K} (h : minHead ls = some k)
    (hs : ∀ l ∈ ls, l.Pairwise (· ≤ ·)) : ∀ x ∈ ls.flatten, k ≤ x := by
  intro x hx
  obtain ⟨l, hl, hxl⟩ := List.mem_flatten.1 hx
  cases l with
  | nil => simp at hxl
  | cons a r =>
    have h1 := (minHead_some h).2 a r hl
    rcases List.mem_cons.1 hxl with rfl | hxr
    · exact h1
    · exact le_trans h1 ((List.pairwise_cons.1 (hs _ hl)).1 x hxr)

omit [LinearOrder K] in
theorem headTruthy_of_all [Truthy K] {ls : List (List K)} (h : ∀ x ∈ ls.flatten, truthy x = true)
    (hne : ls.flatten ≠ []) : headTruthy ls = true := by
  obtain ⟨x, hx⟩ := List.exists_mem_of_ne_nil _ hne
  obtain ⟨l, hl, hxl⟩ := List.mem_flatten.1 hx
  cases l with
  | nil => simp at hxl
  | cons a r =>
    refine List.any_eq_true.2 ⟨_, hl, ?_⟩
    exact h a (List.mem_flatten.2 ⟨_, hl, by simp⟩)

/-- All values truthy: the loop lists everything in order. -/
theorem mergeLoop_correct [Truthy K] (n : Nat) (ls : List (List K))
    (hn : (ls.map List.length).sum ≤ n) (hs : ∀ l ∈ ls, l.Pairwise (· ≤ ·))
    (ht : ∀ x ∈ ls.flatten, truthy x = true) :
    (mergeLoop n ls).Pairwise (· ≤ ·) ∧ (mergeLoop n ls).Perm ls.flatten := by
  induction n generalizing ls with
  | zero =>
    have : ls.flatten.length = 0 := by rw [List.length_flatten]; omega
    rw [List.length_eq_zero_iff] at this
    simp [mergeLoop, this]
  | succ n ih =>
    unfold mergeLoop
    by_cases hne : ls.flatten = []
    · have : headTruthy ls = false := by
        rw [Bool.eq_false_iff]; intro h
        obtain ⟨l, hl, hx⟩ := List.any_eq_true.1 h
        cases l with
        | nil => simp at hx
        | cons a r =>
          have : a ∈ ls.flatten := List.mem_flatten.2 ⟨_, hl, by simp⟩
          rw [hne] at this; simp at this
      rw [if_neg (by rw [this]; simp), hne]; simp
    · rw [if_pos (headTruthy_of_all ht hne)]
      cases hm : minHead ls with
      | none => exact absurd (minHead_none hm) hne
      | some k =>
        have hk := minHead_some hm
        have hp := advance_perm hk.1
        have hlen := length_advance hk.1
        have hs' : ∀ l ∈ advance k ls, l.Pairwise (· ≤ ·) := by
          intro l hl
          obtain ⟨l', h1, h2⟩ := advance_suffix hl
          exact (hs l' h1).sublist h2.sublist
        have ht' : ∀ x ∈ (advance k ls).flatten, truthy x = true := fun x hx =>
          ht x (hp.mem_iff.2 (List.mem_cons_of_mem _ hx))
        obtain ⟨h1, h2⟩ := ih (advance k ls) (by omega) hs' ht'
        refine ⟨List.pairwise_cons.2 ⟨fun x hx => ?_, h1⟩, (List.Perm.cons k h2).trans hp.symm⟩
        exact minHead_le_all hm hs x (hp.mem_iff.2 (List.mem_cons_of_mem _ (h2.mem_iff.1 hx)))

/-- The bound on the number of rounds is no restriction. -/
theorem mergeLoop_fuel [Truthy K] (n m : Nat) (ls : List (List K))
    (hn : (ls.map List.length).sum ≤ n) (hm : (ls.map List.length).sum ≤ m) :
    mergeLoop n ls = mergeLoop m ls := by
  induction n generalizing m ls with
  | zero =>
    cases m with
    | zero => rfl
    | succ m =>
      have : ls.flatten.length = 0 := by rw [List.length_flatten]; omega
      rw [List.length_eq_zero_iff] at this
      have hmin : minHead ls = none := by
        cases h : minHead ls with
        | none => rfl
        | some k =>
          obtain ⟨r, hr⟩ := (minHead_some h).1
          have hk : k ∈ ls.flatten := List.mem_flatten.2 ⟨_, hr, by simp⟩
          rw [this] at hk; simp at hk
      simp [mergeLoop, hmin]
  | succ n ih =>
    cases m with
    | zero =>
      have : ls.flatten.length = 0 := by rw [List.length_flatten]; omega
      rw [List.length_eq_zero_iff] at this
      have hmin : minHead ls = none := by
        cases h : minHead ls with
        | none => rfl
        | some k =>
          obtain ⟨r, hr⟩ := (minHead_some h).1
          have hk : k ∈ ls.flatten := List.mem_flatten.2 ⟨_, hr, by simp⟩
          rw [this] at hk; simp at hk
      simp [mergeLoop, hmin]
    | succ m =>
      unfold mergeLoop
      split_ifs
      · cases h : minHead ls with
        | none => rfl
        | some k =>
          have hlen := length_advance (minHead_some h).1
          simp only
          rw [ih m (advance k ls) (by omega) (by omega)]
      · rfl

/-- Only the least value may be falsy, it occurs once, and another current value is
truthy: still everything is listed in order. -/
theorem mergeLoop_correct_of_head [Truthy K] (n : Nat) (ls : List (List K))
    (hn : (ls.map List.length).sum ≤ n) (hs : ∀ l ∈ ls, l.Pairwise (· ≤ ·))
    (hd : ls.flatten.Nodup) (hh : headTruthy ls = true)
    (hf : ∀ x y : K, truthy x = false → truthy y = true → x < y)
    (hf1 : ∀ x y : K, truthy x = false → truthy y = false → x = y) :
    (mergeLoop n ls).Pairwise (· ≤ ·) ∧ (mergeLoop n ls).Perm ls.flatten := by
  cases n with
  | zero =>
    have : ls.flatten.length = 0 := by rw [List.length_flatten]; omega
    rw [List.length_eq_zero_iff] at this
    simp [mergeLoop, this]
  | succ n =>
    unfold mergeLoop
    rw [if_pos hh]
    cases hm : minHead ls with
    | none => rw [minHead_none hm]; simp
    | some k =>
      have hk := minHead_some hm
      have hp := advance_perm hk.1
      have hlen := length_advance hk.1
      have hs' : ∀ l ∈ advance k ls, l.Pairwise (· ≤ ·) := by
        intro l hl
        obtain ⟨l', h1, h2⟩ := advance_suffix hl
        exact (hs l' h1).sublist h2.sublist
      have hd' := hp.nodup_iff.1 hd
      rw [List.nodup_cons] at hd'
      have ht' : ∀ x ∈ (advance k ls).flatten, truthy x = true := by
        intro x hx
        by_contra hxf
        rw [Bool.not_eq_true] at hxf
        have hle := minHead_le_all hm hs x (hp.mem_iff.2 (List.mem_cons_of_mem _ hx))
        cases hkt : truthy k with
        | true => exact absurd (hf x k hxf hkt) (not_lt.2 hle)
        | false => rw [hf1 x k hxf hkt] at hx; exact hd'.1 hx
      obtain ⟨h1, h2⟩ := mergeLoop_correct n (advance k ls) (by omega) hs' ht'
      refine ⟨List.pairwise_cons.2 ⟨fun x hx => ?_, h1⟩, (List.Perm.cons k h2).trans hp.symm⟩
      exact minHead_le_all hm hs x (hp.mem_iff.2 (List.mem_cons_of_mem _ (h2.mem_iff.1 hx)))

theorem mergeLoop_nil_of_not_head [Truthy K] (n : Nat) (ls : List (List K))
    (hh : headTruthy ls = false) : mergeLoop n ls = [] := by
  cases n with
  | zero => rfl
  | succ n => unfold mergeLoop; rw [if_neg (by rw [hh]; simp)]

/-! ### iteritems -/
variable {V : Type}

theorem get_dictSet (d : List (String × V)) (k x : String) (v : V) :
    Tree.get (dictSet d k v) x = if x = k then some v else Tree.get d x := by
  unfold dictSet
  rw [Tree.get_cons]
  split_ifs with h
  · rfl
  · have := Tree.get_erase d k x
    unfold Tree.erase at this
    rw [this]; simp [h]

theorem advanceItem_keys (k : String) (ls : List (List (String × V))) :
    (advanceItem k ls).2.map (List.map Prod.fst) = advance k (ls.map (List.map Prod.fst)) := by
  induction ls with
  | nil => rfl
  | cons l ls ih =>
    cases l with
    | nil => simp [advanceItem, advance, ih]
    | cons p r =>
      simp only [advanceItem, List.map_cons, advance]
      split_ifs <;> simp [ih]

/-- The current item of some generator. -/
def isHead (ls : List (List (String × V))) (p : String × V) : Prop := ∃ r, (p :: r) ∈ ls

/-- What the dict must contain after advancing. -/
theorem advanceItem_heads {k : String} {ls : List (List (String × V))} {p : String × V}
    (hn : (ls.flatten.map Prod.fst).Nodup)
    (h : isHead (advanceItem k ls).2 p) : (advanceItem k ls).1 = some p ∨ (isHead ls p ∧ p.1 ≠ k) := by
  induction ls with
  | nil => obtain ⟨r, hr⟩ := h; simp [advanceItem] at hr
  | cons l ls ih =>
    have hn' : (ls.flatten.map Prod.fst).Nodup := by
      rw [List.flatten_cons, List.map_append] at hn
      exact (List.nodup_append.1 hn).2.1
    cases l with
    | nil =>
      obtain ⟨r, hr⟩ := h
      simp only [advanceItem, List.mem_cons, reduceCtorEq, false_or] at hr
      rcases ih hn' ⟨r, hr⟩ with h1 | ⟨⟨r', h1⟩, h2⟩
      · exact .inl h1
      · exact .inr ⟨⟨r', List.mem_cons_of_mem _ h1⟩, h2⟩
    | cons q r0 =>
      obtain ⟨r, hr⟩ := h
      unfold advanceItem at hr ⊢
      split_ifs at hr ⊢ with hq
      · simp only [List.mem_cons] at hr
        rcases hr with hr | hr
        · left; rw [← hr]; rfl
        · right
          refine ⟨⟨r, List.mem_cons_of_mem _ hr⟩, ?_⟩
          intro hpk
          rw [List.flatten_cons, List.cons_append, List.map_cons, List.nodup_cons] at hn
          apply hn.1
          rw [hq, ← hpk]
          refine List.mem_map.2 ⟨p, ?_, rfl⟩
          exact List.mem_append_right _ (List.mem_flatten.2 ⟨_, hr, by simp⟩)
      · simp only [List.mem_cons] at hr
        rcases hr with hr | hr
        · right
          injection hr with h1 h2
          subst h1; subst h2
          exact ⟨⟨r, by simp⟩, hq⟩
        · rcases ih hn' ⟨r, hr⟩ with h1 | ⟨⟨r', h1⟩, h2⟩
          · exact .inl h1
          · exact .inr ⟨⟨r', List.mem_cons_of_mem _ h1⟩, h2⟩

theorem advanceItem_next_head {k : String} {ls : List (List (String × V))} {p : String × V}
    (h : (advanceItem k ls).1 = some p) : isHead (advanceItem k ls).2 p := by
  induction ls with
  | nil => simp [advanceItem] at h
  | cons l ls ih =>
    cases l with
    | nil =>
      simp only [advanceItem] at h ⊢
      obtain ⟨r, hr⟩ := ih h
      exact ⟨r, List.mem_cons_of_mem _ hr⟩
    | cons q r0 =>
      unfold advanceItem at h ⊢
      split_ifs at h ⊢
      · cases r0 with
        | nil => simp at h
        | cons a r => simp at h; subst h; exact ⟨r, by simp⟩
      · obtain ⟨r, hr⟩ := ih h
        exact ⟨r, List.mem_cons_of_mem _ hr⟩

theorem advanceItem_sub {k : String} {ls : List (List (String × V))} :
    (advanceItem k ls).2.flatten.Sublist ls.flatten := by
  induction ls with
  | nil => simp [advanceItem]
  | cons l ls ih =>
    cases l with
    | nil => simpa [advanceItem] using ih
    | cons q r0 =>
      unfold advanceItem
      split_ifs
      · simp
      · simpa using ih

/-- `iteritems` yields the same keys as the key merge, each with its stored value, and
never raises. -/
theorem itemsLoop_correct (n : Nat) (ls : List (List (String × V))) (items : List (String × V))
    (hnd : (ls.flatten.map Prod.fst).Nodup)
    (hit : ∀ p, isHead ls p → Tree.get items p.1 = some p.2) :
    ∃ r, itemsLoop n ls items = .ok r ∧
      r.map Prod.fst = mergeLoop n (ls.map (List.map Prod.fst)) ∧ ∀ p ∈ r, p ∈ ls.flatten := by
  induction n generalizing ls items with
  | zero => exact ⟨[], rfl, rfl, by simp⟩
  | succ n ih =>
    unfold itemsLoop mergeLoop
    split_ifs with hh
    · cases hm : minHead (ls.map (List.map Prod.fst)) with
      | none => exact ⟨[], rfl, rfl, by simp⟩
      | some k =>
        simp only
        obtain ⟨⟨r0, hr0⟩, _⟩ := minHead_some hm
        obtain ⟨l, hl, hl2⟩ := List.mem_map.1 hr0
        cases l with
        | nil => simp at hl2
        | cons p r =>
          simp only [List.map_cons, List.cons.injEq] at hl2
          obtain ⟨hpk, _⟩ := hl2
          have hp : isHead ls p := ⟨r, hl⟩
          have hpf : p ∈ ls.flatten := List.mem_flatten.2 ⟨_, hl, by simp⟩
          have hgp := hit p hp
          have hnext : ∀ q, (advanceItem k ls).1 = some q → q.1 ≠ k := by
            intro q hq hqk
            obtain ⟨r', hr'⟩ := advanceItem_next_head hq
            -- q is in the advanced lists, whose keys are the others
            have hperm := advance_perm (k := k) (minHead_some hm).1
            have h1 : (ls.map (List.map Prod.fst)).flatten.Nodup := by
              rw [← List.map_flatten]; exact hnd
            have h2 := hperm.nodup_iff.1 h1
            rw [List.nodup_cons, ← advanceItem_keys, ← List.map_flatten] at h2
            apply h2.1
            exact List.mem_map.2 ⟨q, List.mem_flatten.2 ⟨_, hr', by simp⟩, hqk⟩
          generalize hitems : dictSetOpt items (advanceItem k ls).1 = items'
          have hgk : Tree.get items' k = some p.2 := by
            rw [← hitems]
            cases hnx : (advanceItem k ls).1 with
            | none => simp only [dictSetOpt]; rw [← hpk, hgp]
            | some q =>
              simp only [dictSetOpt]; rw [get_dictSet, if_neg (Ne.symm (hnext q hnx)), ← hpk, hgp]
          rw [hgk]
          simp only
          have hnd' : ((advanceItem k ls).2.flatten.map Prod.fst).Nodup :=
            hnd.sublist (advanceItem_sub.map _)
          have hit' : ∀ q, isHead (advanceItem k ls).2 q →
              Tree.get (Tree.erase items' k) q.1 = some q.2 := by
            intro q hq
            rw [Tree.get_erase]
            rcases advanceItem_heads hnd hq with h1 | ⟨h1, h2⟩
            · rw [if_neg (hnext q h1), ← hitems, h1]; simp only [dictSetOpt]; rw [get_dictSet]; simp
            · rw [if_neg h2, ← hitems]
              cases hnx : (advanceItem k ls).1 with
              | none => simp only [dictSetOpt]; exact hit q h1
              | some q' =>
                simp only [dictSetOpt]; rw [get_dictSet]
                split_ifs with hqq
                · -- same key, hence the same item
                  have hq'h : isHead (advanceItem k ls).2 q' := advanceItem_next_head hnx
                  obtain ⟨ra, ha⟩ := hq
                  obtain ⟨rb, hb⟩ := hq'h
                  have m1 : q ∈ (advanceItem k ls).2.flatten := List.mem_flatten.2 ⟨_, ha, by simp⟩
                  have m2 : q' ∈ (advanceItem k ls).2.flatten := List.mem_flatten.2 ⟨_, hb, by simp⟩
                  have := List.inj_on_of_nodup_map hnd' m1 m2 hqq
                  rw [this]
                · exact hit q h1
          obtain ⟨res, h1, h2, h3⟩ := ih (advanceItem k ls).2 (Tree.erase items' k) hnd' hit'
          rw [h1]
          refine ⟨(k, p.2) :: res, rfl, ?_, ?_⟩
          · simp [h2, advanceItem_keys]
          · intro x hx
            rcases List.mem_cons.1 hx with rfl | hx
            · rw [← hpk]; exact hpf
            · exact advanceItem_sub.subset (h3 x hx)
    · exact ⟨[], rfl, rfl, by simp⟩

theorem firstItems_dict (ls : List (List (String × V))) (d : List (String × V))
    (hnd : (ls.flatten.map Prod.fst).Nodup) (p : String × V) (hp : isHead ls p) :
    Tree.get ((firstItems ls).foldl (fun d p => dictSet d p.1 p.2) d) p.1 = some p.2 := by
  have hmem : ∀ ls : List (List (String × V)), ∀ p, p ∈ firstItems ls ↔ isHead ls p := by
    intro ls
    induction ls with
    | nil => intro p; simp [firstItems, isHead]
    | cons l ls ih =>
      intro p
      cases l with
      | nil => simp only [firstItems, ih, isHead, List.mem_cons, reduceCtorEq, false_or]
      | cons q r =>
        simp only [firstItems, List.mem_cons, ih, isHead]
        constructor
        · rintro (rfl | ⟨r', h⟩)
          · exact ⟨r, .inl rfl⟩
          · exact ⟨r', .inr h⟩
        · rintro ⟨r', h | h⟩
          · injection h with h1 h2; exact .inl h1
          · exact .inr ⟨r', h⟩
  have hsub : ∀ ls : List (List (String × V)), (firstItems ls).Sublist ls.flatten := by
    intro ls
    induction ls with
    | nil => simp [firstItems]
    | cons l ls ih =>
      cases l with
      | nil => simpa [firstItems] using ih
      | cons q r =>
        simp only [firstItems, List.flatten_cons, List.cons_append]
        exact (ih.trans (List.sublist_append_right _ _)).cons_cons q
  have hn2 : ((firstItems ls).map Prod.fst).Nodup := hnd.sublist ((hsub ls).map _)
  have hpm : p ∈ firstItems ls := (hmem ls p).2 hp
  generalize firstItems ls = f at hn2 hpm
  clear hnd hp hmem hsub
  induction f generalizing d with
  | nil => simp at hpm
  | cons q f ih =>
    simp only [List.map_cons, List.nodup_cons] at hn2
    rw [List.foldl_cons]
    rcases List.mem_cons.1 hpm with rfl | hpm
    · have : ∀ (f : List (String × V)) (d : List (String × V)), p.1 ∉ f.map Prod.fst →
          Tree.get (f.foldl (fun d p => dictSet d p.1 p.2) d) p.1 = Tree.get d p.1 := by
        intro f
        induction f with
        | nil => intro d _; rfl
        | cons a f ih2 =>
          intro d hf
          simp only [List.map_cons, List.mem_cons, not_or] at hf
          rw [List.foldl_cons, ih2 _ hf.2, get_dictSet, if_neg hf.1]
      rw [this f _ hn2.1, get_dictSet]; simp
    · exact ih _ hn2.2 hpm

end Verif.Storage.CGroup

namespace Verif.Storage.CGroup
variable {K : Type} [LinearOrder K]

/-- Without sortedness: everything is listed (in some order). -/
theorem mergeLoop_perm [Truthy K] (n : Nat) (ls : List (List K))
    (hn : (ls.map List.length).sum ≤ n) (ht : ∀ x ∈ ls.flatten, truthy x = true) :
    (mergeLoop n ls).Perm ls.flatten := by
  induction n generalizing ls with
  | zero =>
    have : ls.flatten.length = 0 := by rw [List.length_flatten]; omega
    rw [List.length_eq_zero_iff] at this
    simp [mergeLoop, this]
  | succ n ih =>
    unfold mergeLoop
    by_cases hne : ls.flatten = []
    · split_ifs
      · cases hm : minHead ls with
        | none => rw [hne]
        | some k =>
          obtain ⟨r, hr⟩ := (minHead_some hm).1
          have hk : k ∈ ls.flatten := List.mem_flatten.2 ⟨_, hr, by simp⟩
          rw [hne] at hk; simp at hk
      · rw [hne]
    · rw [if_pos (headTruthy_of_all ht hne)]
      cases hm : minHead ls with
      | none => exact absurd (minHead_none hm) hne
      | some k =>
        have hk := minHead_some hm
        have hp := advance_perm hk.1
        have hlen := length_advance hk.1
        have ht' : ∀ x ∈ (advance k ls).flatten, truthy x = true := fun x hx =>
          ht x (hp.mem_iff.2 (List.mem_cons_of_mem _ hx))
        exact (List.Perm.cons k (ih (advance k ls) (by omega) ht')).trans hp.symm

end Verif.Storage.CGroup
