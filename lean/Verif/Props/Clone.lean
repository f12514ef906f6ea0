import Verif.Lemmas.C3
import Verif.Props.Data
import Mathlib.Data.Fintype.Basic

/-!
# Cloning of classes (C65, C84)
-/
set_option linter.unusedSectionVars false

namespace Verif.Props
open Verif Verif.Jsonld Verif.Jsonld.Clone

variable {C : Type} [DecidableEq C]

/-! ### Specification -/

/-- The hierarchy is one Python accepts: every mro is the C3 linearisation of the class's bases. -/
def IsPython (h : Hier C) : Prop := ∀ c, linearize c ((h.bases c).map h.mro) (h.bases c) = .ok (h.mro c)

/-- `a` is an ancestor of `c` among the listed classes. -/
def PkgAncestor (h : Hier C) (classes : List C) (c a : C) : Prop := a ∈ classes ∧ a ∈ h.mro c ∧ a ≠ c

/-- `a` is a nearest ancestor of `c` among the listed classes: no other one is between them. -/
def Nearest (h : Hier C) (classes : List C) (c a : C) : Prop :=
  PkgAncestor h classes c a ∧ ∀ b, PkgAncestor h classes c b → b ≠ a → a ∉ h.mro b

/-! ### Facts about mros -/

/-- What Python guarantees about mros. -/
structure MroFacts (h : Hier C) : Prop where
  self : ∀ c, ∃ t, h.mro c = c :: t
  nodup : ∀ c, (h.mro c).Nodup
  mono : ∀ c d, d ∈ h.mro c → (h.mro d).Sublist (h.mro c)
  bases : ∀ c, (h.bases c).Sublist (h.mro c).tail
  fromBase : ∀ c d, d ∈ h.mro c → d ≠ c → ∃ b ∈ h.bases c, d ∈ h.mro b

theorem mroFacts {h : Hier C} (hp : IsPython h) : MroFacts h := by
  have hlin : ∀ c, ∃ r, h.mro c = c :: r ∧ r.Nodup ∧ (∀ b ∈ h.bases c, (h.mro b).Sublist r) ∧ (h.bases c).Sublist r ∧
      ∀ x ∈ r, (∃ b ∈ h.bases c, x ∈ h.mro b) ∨ x ∈ h.bases c := by
    intro c
    have := hp c
    unfold linearize at this
    cases hm : merge (total ((h.bases c).map h.mro ++ [h.bases c])) ((h.bases c).map h.mro ++ [h.bases c]) with
    | error e => rw [hm] at this; cases this
    | ok r =>
      rw [hm] at this; injection this with this
      obtain ⟨s1, s2, s3⟩ := merge_sound (Nat.le_refl _) hm
      refine ⟨r, this.symm, s1, fun b hb => s2 _ (by simp; exact Or.inl ⟨b, hb, rfl⟩), s2 _ (by simp), fun x hx => ?_⟩
      obtain ⟨l, hl, hxl⟩ := s3 x hx
      rcases List.mem_append.1 hl with hl | hl
      · obtain ⟨b, hb, rfl⟩ := List.mem_map.1 hl
        exact Or.inl ⟨b, hb, hxl⟩
      · rw [List.mem_singleton.1 hl] at hxl; exact Or.inr hxl
  have hself : ∀ c, ∃ t, h.mro c = c :: t := fun c => by obtain ⟨r, h1, -⟩ := hlin c; exact ⟨r, h1⟩
  have hfrom : ∀ c r, h.mro c = c :: r → ∀ x ∈ r, ∃ b ∈ h.bases c, x ∈ h.mro b := by
    intro c r hr x hx
    obtain ⟨r', h1, -, -, -, h5⟩ := hlin c
    rw [h1] at hr; injection hr with _ hr; subst hr
    rcases h5 x hx with h | h
    · exact h
    · obtain ⟨t, ht⟩ := hself x
      exact ⟨x, h, by rw [ht]; exact List.mem_cons_self⟩
  have hmono : ∀ n c, (h.mro c).length ≤ n → ∀ d ∈ h.mro c, (h.mro d).Sublist (h.mro c) := by
    intro n
    induction n with
    | zero =>
      intro c hc
      obtain ⟨t, ht⟩ := hself c
      rw [ht] at hc; simp at hc
    | succ n ih =>
      intro c hc d hd
      obtain ⟨r, h1, h2, h3, h4, h5⟩ := hlin c
      rw [h1] at hd
      rcases List.mem_cons.1 hd with rfl | hd
      · exact List.Sublist.refl _
      · obtain ⟨b, hb, hdb⟩ := hfrom c r h1 d hd
        have hsub := h3 b hb
        have hlen : (h.mro b).length ≤ n := by
          have := hsub.length_le
          rw [h1] at hc; simp at hc; omega
        rw [h1]
        exact ((ih b hlen d hdb).trans hsub).cons _
  refine ⟨hself, fun c => ?_, fun c d hd => hmono _ c (Nat.le_refl _) d hd, fun c => ?_, fun c d hd hne => ?_⟩
  · obtain ⟨r, h1, h2, h3, h4, h5⟩ := hlin c
    rw [h1, List.nodup_cons]
    refine ⟨fun hc => ?_, h2⟩
    obtain ⟨b, hb, hcb⟩ := hfrom c r h1 c hc
    have e1 := (hmono _ b (Nat.le_refl _) c hcb).length_le
    have e2 := (h3 b hb).length_le
    rw [h1] at e1; simp at e1; omega
  · obtain ⟨r, h1, h2, h3, h4, h5⟩ := hlin c
    rw [h1]; exact h4
  · obtain ⟨r, h1, -⟩ := hlin c
    rw [h1] at hd
    exact hfrom c r h1 d ((List.mem_cons.1 hd).resolve_left hne)

theorem mro_length_lt {h : Hier C} (hf : MroFacts h) {c d : C} (hd : d ∈ h.mro c) (hne : d ≠ c) :
    (h.mro d).length < (h.mro c).length := by
  rcases Nat.lt_or_ge (h.mro d).length (h.mro c).length with hl | hl
  · exact hl
  · have := (hf.mono c d hd).eq_of_length_le hl
    obtain ⟨t, ht⟩ := hf.self c
    obtain ⟨s, hs⟩ := hf.self d
    rw [ht, hs] at this
    injection this with e; exact absurd e hne

theorem mem_mro_self {h : Hier C} (hf : MroFacts h) (c : C) : c ∈ h.mro c := by
  obtain ⟨t, ht⟩ := hf.self c; rw [ht]; exact List.mem_cons_self

/-! ### The keys -/

theorem byKey_facts (f : C → Nat) (l : List C) :
    (∀ k, ((l.foldl (fun d c => d.dset (f c) ((d.dget (f c)).getD [] ++ [c])) ([] : PyDict Nat (List C))).dget k).getD [] =
      l.filter fun c => f c = k) ∧
    ∀ k, k ∈ (l.foldl (fun d c => d.dset (f c) ((d.dget (f c)).getD [] ++ [c])) ([] : PyDict Nat (List C))).dkeys ↔
      ∃ c ∈ l, f c = k := by
  induction l using List.reverseRecOn with
  | nil => simp [List.dget, List.dkeys]
  | append_singleton l a ih =>
    obtain ⟨i1, i2⟩ := ih
    rw [List.foldl_append]
    simp only [List.foldl_cons, List.foldl_nil]
    refine ⟨fun k => ?_, fun k => ?_⟩
    · rw [PyDict.dget_dset, List.filter_append]
      by_cases hk : k = f a
      · subst hk; simp [i1]
      · rw [if_neg hk, i1]
        have : ¬ f a = k := fun e => hk e.symm
        simp [this]
    · rw [← PyDict.dget_ne_none, PyDict.dget_dset]
      by_cases hk : k = f a
      · subst hk; simp
      · rw [if_neg hk, PyDict.dget_ne_none, i2]
        have : ¬ f a = k := fun e => hk e.symm
        simp [this]

theorem mem_refKeys (h : Hier C) (classes : List C) (c : C) : c ∈ refKeys h classes ↔ c ∈ classes := by
  have h1 : c ∈ sortedClasses h classes ↔ c ∈ classes := by
    unfold sortedClasses byDeps
    obtain ⟨k1, k2⟩ := byKey_facts (fun c => (deps h classes c).length) classes
    rw [List.mem_flatMap]
    constructor
    · rintro ⟨k, -, hk⟩
      rw [k1] at hk; exact (List.mem_filter.1 hk).1
    · intro hc
      refine ⟨(deps h classes c).length, ?_, ?_⟩
      · rw [List.mem_insertionSort, k2]; exact ⟨c, hc, rfl⟩
      · rw [k1]; simp [hc]
  rw [← h1]
  unfold refKeys
  constructor
  · intro hc
    obtain ⟨⟨a, u⟩, ha, rfl⟩ := List.mem_map.1 hc
    have := mem_dictOf ha
    obtain ⟨b, hb, e⟩ := List.mem_map.1 this
    injection e with e; rw [← e]; exact hb
  · intro hc
    have : (dictOf ((sortedClasses h classes).map fun c => (c, ()))).dget c = some () := by
      rw [dget_dictOf_iff]
      · exact List.mem_map_of_mem hc
      · intros; rfl
    exact PyDict.dget_ne_none.1 (by rw [this]; simp)

theorem nodup_refKeys (h : Hier C) (classes : List C) : (refKeys h classes).Nodup := wf_dictOf _

/-! ### Parents -/

theorem mem_parents {h : Hier C} {ref : List C} {c p : C} :
    p ∈ parents h ref c ↔ Nearest h ref c p := by
  unfold parents candidates Nearest PkgAncestor
  simp only [List.mem_filter, Bool.not_eq_true', List.any_eq_false, Bool.and_eq_true, bne_iff_ne, ne_eq,
    List.contains_iff_mem, not_and]
  constructor
  · rintro ⟨⟨h1, h2, h3⟩, h4⟩
    exact ⟨⟨h2, h1, fun e => h3 e.symm⟩, fun b hb hne => h4 b ⟨hb.2.1, hb.1, fun e => hb.2.2 e.symm⟩ fun e => hne e.symm⟩
  · rintro ⟨⟨h1, h2, h3⟩, h4⟩
    exact ⟨⟨h2, h1, fun e => h3 e.symm⟩, fun b hb hne => h4 b ⟨hb.2.1, hb.1, fun e => hb.2.2 e.symm⟩ fun e => hne e.symm⟩

theorem parents_sublist (h : Hier C) (ref : List C) (c : C) : (parents h ref c).Sublist (h.mro c) :=
  (List.filter_sublist).trans List.filter_sublist

/-- Every listed ancestor is a nearest one or an ancestor of a nearest one. -/
theorem exists_parent {h : Hier C} (hf : MroFacts h) {ref : List C} {c a : C} (ha : PkgAncestor h ref c a) :
    ∃ p ∈ parents h ref c, a ∈ h.mro p := by
  have key : ∀ n b, PkgAncestor h ref c b → (h.mro c).length - (h.mro b).length ≤ n → ∃ p ∈ parents h ref c, b ∈ h.mro p := by
    intro n
    induction n with
    | zero =>
      intro b hb hn
      have := mro_length_lt hf hb.2.1 hb.2.2
      omega
    | succ n ih =>
      intro b hb hn
      by_cases hnear : Nearest h ref c b
      · exact ⟨b, mem_parents.2 hnear, mem_mro_self hf b⟩
      · unfold Nearest at hnear
        push Not at hnear
        obtain ⟨d, hd, hdb, hbd⟩ := hnear hb
        have h1 := mro_length_lt hf hbd hdb.symm
        have h2 := mro_length_lt hf hd.2.1 hd.2.2
        obtain ⟨p, hp, hdp⟩ := ih d hd (by omega)
        exact ⟨p, hp, (hf.mono p d hdp).subset hbd⟩
  exact key _ a ha (Nat.le_refl _)

/-! ### The loop -/

/-- Everything comes after its parents. -/
def ParentsFirst (h : Hier C) (ref l : List C) : Prop :=
  ∀ l1 c l2, l = l1 ++ c :: l2 → ∀ p ∈ parents h ref c, p ∈ l1

theorem parentsFirst_append {h : Hier C} {ref l k : List C} (hl : ParentsFirst h ref l)
    (hk : ∀ c ∈ k, ∀ p ∈ parents h ref c, p ∈ l) : ParentsFirst h ref (l ++ k) := by
  intro l1 c l2 e p hp
  rcases List.append_eq_append_iff.1 e with ⟨m, e1, e2⟩ | ⟨m, e1, e2⟩
  · rw [e1]
    have : c ∈ k := by rw [e2]; simp
    exact List.mem_append_left _ (hk c this p hp)
  · cases m with
    | nil =>
      simp only [List.append_nil] at e1
      subst e1
      simp only [List.nil_append] at e2
      exact hk c (by rw [← e2]; exact List.mem_cons_self) p hp
    | cons x m =>
      rw [List.cons_append] at e2
      injection e2 with e3 e4
      subst e3
      exact hl l1 c m e1 p hp

theorem loop_facts {h : Hier C} (hf : MroFacts h) {ref : List C} (hnd : ref.Nodup) :
    ∀ n ordered, (ref.filter fun c => !ordered.contains c).length ≤ n → ordered.Nodup → (∀ c ∈ ordered, c ∈ ref) →
      ParentsFirst h ref ordered →
      ∃ l, loop h ref n ordered = some l ∧ l.Nodup ∧ (∀ c, c ∈ l ↔ c ∈ ref) ∧ ParentsFirst h ref l := by
  intro n
  induction n with
  | zero =>
    intro ordered hn h1 h2 h3
    have hall : ∀ c ∈ ref, c ∈ ordered := by
      intro c hc
      by_contra hno
      have : c ∈ ref.filter fun c => !ordered.contains c := by simp [hc, hno]
      rw [List.length_eq_zero_iff.1 (Nat.le_zero.1 hn)] at this; cases this
    refine ⟨ordered, ?_, h1, fun c => ⟨h2 c, hall c⟩, h3⟩
    rw [loop, if_neg]
    rw [List.any_eq_true]; rintro ⟨c, hc, hno⟩
    simp [hall c hc] at hno
  | succ n ih =>
    intro ordered hn h1 h2 h3
    rw [loop]
    by_cases hany : ref.any (fun n => !ordered.contains n) = true
    · rw [if_pos hany]
      have hpn : (pass h ref ordered).Nodup := by
        unfold pass
        refine List.nodup_append.2 ⟨h1, hnd.filter _, fun a ha b hb e => ?_⟩
        subst e
        have := (List.mem_filter.1 hb).2
        simp [ha] at this
      apply ih (pass h ref ordered)
      · -- some class is added
        obtain ⟨c0, hc0, hno0⟩ := List.any_eq_true.1 hany
        have hno0' : c0 ∉ ordered := by simpa using hno0
        have hmin : ∃ c ∈ ref, c ∉ ordered ∧ ∀ p ∈ parents h ref c, p ∈ ordered := by
          have key : ∀ m c, c ∈ ref → c ∉ ordered → (h.mro c).length ≤ m →
              ∃ c ∈ ref, c ∉ ordered ∧ ∀ p ∈ parents h ref c, p ∈ ordered := by
            intro m
            induction m with
            | zero =>
              intro c _ _ hm
              obtain ⟨t, ht⟩ := hf.self c
              rw [ht] at hm; simp at hm
            | succ m ihm =>
              intro c hc hno hm
              by_cases hp : ∀ p ∈ parents h ref c, p ∈ ordered
              · exact ⟨c, hc, hno, hp⟩
              · push Not at hp
                obtain ⟨p, hp, hpo⟩ := hp
                have hnear := (mem_parents.1 hp).1
                have := mro_length_lt hf hnear.2.1 hnear.2.2
                exact ihm p hnear.1 hpo (by omega)
          exact key _ c0 hc0 hno0' (Nat.le_refl _)
        obtain ⟨c, hc, hno, hp⟩ := hmin
        have hsub : (ref.filter fun c => !(pass h ref ordered).contains c).Sublist (ref.filter fun c => !ordered.contains c) := by
          apply List.monotone_filter_right
          intro a ha
          simp only [Bool.not_eq_true', ← Bool.not_eq_true, List.contains_iff_mem] at ha ⊢
          intro hao; apply ha; unfold pass; exact List.mem_append_left _ hao
        have hlt : (ref.filter fun c => !(pass h ref ordered).contains c).length < (ref.filter fun c => !ordered.contains c).length := by
          rcases Nat.lt_or_ge (ref.filter fun c => !(pass h ref ordered).contains c).length (ref.filter fun c => !ordered.contains c).length with hl | hl
          · exact hl
          · have := hsub.eq_of_length_le hl
            have hcm : c ∈ ref.filter fun c => !ordered.contains c := by simp [hc, hno]
            rw [← this] at hcm
            have hcp := (List.mem_filter.1 hcm).2
            simp only [Bool.not_eq_true', ← Bool.not_eq_true, List.contains_iff_mem] at hcp
            exfalso; apply hcp
            unfold pass
            refine List.mem_append_right _ (List.mem_filter.2 ⟨hc, ?_⟩)
            simp only [Bool.and_eq_true, List.all_eq_true, Bool.not_eq_true', ← Bool.not_eq_true, List.contains_iff_mem]
            exact ⟨hp, hno⟩
        omega
      · exact hpn
      · intro c hc
        unfold pass at hc
        rcases List.mem_append.1 hc with hc | hc
        · exact h2 c hc
        · exact (List.mem_filter.1 hc).1
      · unfold pass
        apply parentsFirst_append h3
        intro c hc p hp
        have := (List.mem_filter.1 hc).2
        simp only [Bool.and_eq_true, List.all_eq_true, List.contains_iff_mem] at this
        exact this.1 p hp
    · rw [if_neg hany]
      have hall : ∀ c ∈ ref, c ∈ ordered := by
        intro c hc
        by_contra hno
        exact hany (List.any_eq_true.2 ⟨c, hc, by simpa using hno⟩)
      exact ⟨ordered, rfl, h1, fun c => ⟨h2 c, hall c⟩, h3⟩

/-- All listed ancestors come before, not only the parents. -/
theorem ancestors_first {h : Hier C} (hf : MroFacts h) {ref l : List C} (hl : ParentsFirst h ref l) :
    ∀ l1 c l2, l = l1 ++ c :: l2 → ∀ a, PkgAncestor h ref c a → a ∈ l1 := by
  have key : ∀ n c, (h.mro c).length ≤ n → ∀ l1 l2, l = l1 ++ c :: l2 → ∀ a, PkgAncestor h ref c a → a ∈ l1 := by
    intro n
    induction n with
    | zero =>
      intro c hn
      obtain ⟨t, ht⟩ := hf.self c
      rw [ht] at hn; simp at hn
    | succ n ih =>
      intro c hn l1 l2 e a ha
      obtain ⟨p, hp, hap⟩ := exists_parent hf ha
      have hpl := hl l1 c l2 e p hp
      by_cases hpa : a = p
      · rw [hpa]; exact hpl
      · obtain ⟨k1, k2, rfl⟩ := List.append_of_mem hpl
        have hnear := (mem_parents.1 hp).1
        have hlt := mro_length_lt hf hnear.2.1 hnear.2.2
        have := ih p (by omega) k1 (k2 ++ c :: l2) (by rw [e]; simp) a ⟨ha.1, hap, hpa⟩
        exact List.mem_append_left _ this
  intro l1 c l2
  exact key _ c (Nat.le_refl _) l1 l2

/-- C65: for every hierarchy and every list of classes (in any order, with or without repetitions), the ordering loop ends after at
most as many passes as there are classes; every class is then listed exactly once, after all its listed ancestors. -/
theorem clone_order {h : Hier C} (hp : IsPython h) (classes : List C) :
    ∃ l, loop h (refKeys h classes) (refKeys h classes).length [] = some l ∧ l.Nodup ∧ (∀ c, c ∈ l ↔ c ∈ classes) ∧
      ∀ l1 c l2, l = l1 ++ c :: l2 → ∀ a, PkgAncestor h classes c a → a ∈ l1 := by
  have hf := mroFacts hp
  obtain ⟨l, h1, h2, h3, h4⟩ := loop_facts hf (nodup_refKeys h classes) (refKeys h classes).length []
    (by simp) List.nodup_nil (by simp) (by
      intro l1 c l2 e; simp at e)
  refine ⟨l, h1, h2, fun c => (h3 c).trans (mem_refKeys h classes c), ?_⟩
  intro l1 c l2 e a ha
  exact ancestors_first hf h4 l1 c l2 e a ⟨(mem_refKeys h classes a).2 ha.1, ha.2⟩

/-- The bases of the clone of a class: the clones of its nearest listed ancestors in the order of its mro, and the class itself. -/
def cloneBases (h : Hier C) (classes : List C) (c : C) : List (Node C) :=
  (parents h (refKeys h classes) c).map .clone ++ [.orig c]

/-- C65: the clones that `cloneBases` names are exactly those of the nearest listed ancestors, in mro order. -/
theorem cloneBases_nearest (h : Hier C) (classes : List C) (c : C) :
    ∃ ps : List C, cloneBases h classes c = ps.map .clone ++ [.orig c] ∧ ps.Sublist (h.mro c) ∧
      ∀ a, a ∈ ps ↔ Nearest h classes c a := by
  refine ⟨parents h (refKeys h classes) c, rfl, parents_sublist _ _ _, fun a => ?_⟩
  rw [mem_parents]
  have hiff : ∀ b, PkgAncestor h (refKeys h classes) c b ↔ PkgAncestor h classes c b := by
    intro b; unfold PkgAncestor; rw [mem_refKeys]
  unfold Nearest
  simp only [hiff]

theorem makeAll_facts {h : Hier C} {ref : List C} :
    ∀ (cs : List C) (made : PyDict C (List (Node C))) (res : PyDict C (List (Node C))),
      ParentsFirst h ref (made.dkeys ++ cs) → (made.dkeys ++ cs).Nodup → makeAll h ref cs made = .ok res →
      res.dkeys = made.dkeys ++ cs ∧ (∀ c ∈ made.dkeys, res.dget c = made.dget c) ∧
      ∀ c ∈ cs, ∃ m, res.dget c = some m ∧
        linearize (Node.clone c) (((parents h ref c).map Node.clone ++ [Node.orig c]).map (mroOf h res))
          ((parents h ref c).map .clone ++ [.orig c]) = .ok m := by
  intro cs
  induction cs with
  | nil =>
    intro made res _ _ hm
    rw [makeAll] at hm; injection hm with hm; subst hm
    exact ⟨by simp, fun _ _ => rfl, by simp⟩
  | cons c cs ih =>
    intro made res hpf hnd hm
    rw [makeAll] at hm
    have hbases : basesOf h ref made.dkeys c = (parents h ref c).map .clone ++ [.orig c] := by
      unfold basesOf
      congr 2
      rw [List.filter_eq_self]
      intro p hp
      rw [List.contains_iff_mem]
      exact hpf made.dkeys c cs rfl p hp
    cases hl : linearize (Node.clone c) ((basesOf h ref made.dkeys c).map (mroOf h made)) (basesOf h ref made.dkeys c) with
    | error e => rw [hl] at hm; cases hm
    | ok m =>
      rw [hl] at hm
      simp only [] at hm
      have hcn : c ∉ made.dkeys := by
        have := List.nodup_append.1 hnd
        intro hc; exact this.2.2 c hc c List.mem_cons_self rfl
      have hkeys : (made.dset c m).dkeys = made.dkeys ++ [c] := by
        rw [PyDict.dkeys_dset, if_neg hcn]
      obtain ⟨i1, i2, i3⟩ := ih (made.dset c m) res (by rw [hkeys]; simpa using hpf) (by rw [hkeys]; simpa using hnd) hm
      refine ⟨by rw [i1, hkeys]; simp, fun d hd => ?_, fun d hd => ?_⟩
      · rw [i2 d (by rw [hkeys]; simp [hd]), PyDict.dget_dset, if_neg]
        rintro rfl; exact hcn hd
      · rcases List.mem_cons.1 hd with rfl | hd
        · refine ⟨m, ?_, ?_⟩
          · rw [i2 d (by rw [hkeys]; simp), PyDict.dget_dset, if_pos rfl]
          · rw [← hl, hbases]
            congr 1
            refine List.map_congr_left fun x hx => ?_
            rcases List.mem_append.1 hx with hx | hx
            · obtain ⟨p, hp, rfl⟩ := List.mem_map.1 hx
              have hpm : p ∈ made.dkeys := hpf made.dkeys d cs rfl p hp
              have hpd : p ≠ d := fun e => hcn (e ▸ hpm)
              simp only [mroOf]
              rw [i2 p (by rw [hkeys]; simp [hpm]), PyDict.dget_dset, if_neg hpd]
            · rw [List.mem_singleton.1 hx]; rfl
        · exact i3 d hd

/-- C65: if cloning succeeds there is exactly one clone for each listed class, made after the clones of its listed ancestors,
and its mro is the one Python computes for the bases `cloneBases`. -/
theorem clone_each_once {h : Hier C} (hp : IsPython h) (classes : List C) (res : PyDict C (List (Node C)))
    (hres : cloneClasses h classes = some (.ok res)) :
    res.dkeys.Nodup ∧ (∀ c, c ∈ res.dkeys ↔ c ∈ classes) ∧
    (∀ l1 c l2, res.dkeys = l1 ++ c :: l2 → ∀ a, PkgAncestor h classes c a → a ∈ l1) ∧
    ∀ c ∈ classes, ∃ m, res.dget c = some m ∧
      linearize (.clone c) ((cloneBases h classes c).map (mroOf h res)) (cloneBases h classes c) = .ok m := by
  have hf := mroFacts hp
  obtain ⟨l, h1, h2, h3, h4⟩ := loop_facts hf (nodup_refKeys h classes) (refKeys h classes).length []
    (by simp) List.nodup_nil (by simp) (by
      intro l1 c l2 e; simp at e)
  unfold cloneClasses at hres
  rw [h1] at hres
  simp only [Option.map_some, Option.some.injEq] at hres
  obtain ⟨m1, m2, m3⟩ := makeAll_facts l [] res (by simpa [List.dkeys] using h4) (by simpa [List.dkeys] using h2) hres
  have hk : res.dkeys = l := by simpa [List.dkeys] using m1
  rw [hk]
  refine ⟨h2, fun c => (h3 c).trans (mem_refKeys h classes c), ?_, ?_⟩
  · intro l1 c l2 e a ha
    exact ancestors_first hf h4 l1 c l2 e a ⟨(mem_refKeys h classes a).2 ha.1, ha.2⟩
  · intro c hc
    exact m3 c ((h3 c).2 ((mem_refKeys h classes c).2 hc))

/-- C65: cloning ends for every hierarchy and list. -/
theorem clone_terminates {h : Hier C} (hp : IsPython h) (classes : List C) : ∃ r, cloneClasses h classes = some r := by
  obtain ⟨l, h1, -⟩ := clone_order hp classes
  unfold cloneClasses; rw [h1]; exact ⟨_, rfl⟩

/-! ### Packages whose classes come first -/

section
variable {X : Type} [DecidableEq X]

/-- Lists of clones followed by given classes: the clones are linearised first. -/
theorem merge_phases {isC : X → Bool} {o : X} {M' : List X} (hM : (o :: M').Nodup) (hMc : ∀ x ∈ o :: M', isC x = false) :
    ∀ (n1 : Nat) (front : List (List X × List X)) (A r1 : List X) (n : Nat),
      (∀ ab ∈ front, (∀ x ∈ ab.1, isC x = true) ∧ (∃ p t, ab.2 = p :: t ∧ p ∈ M') ∧ ab.2.Sublist (o :: M')) →
      (∀ x ∈ A, isC x = true) →
      total (front.map Prod.fst ++ [A]) ≤ n1 → merge n1 (front.map Prod.fst ++ [A]) = .ok r1 →
      total (front.map (fun ab => ab.1 ++ ab.2) ++ [o :: M', A ++ [o]]) ≤ n →
      merge n (front.map (fun ab => ab.1 ++ ab.2) ++ [o :: M', A ++ [o]]) = .ok (r1 ++ (o :: M')) := by
  have hempty : ∀ (front : List (List X × List X)) (A : List X) (n : Nat),
      (∀ ab ∈ front, (∀ x ∈ ab.1, isC x = true) ∧ (∃ p t, ab.2 = p :: t ∧ p ∈ M') ∧ ab.2.Sublist (o :: M')) →
      (front.map Prod.fst ++ [A]).all (·.isEmpty) = true →
      total (front.map (fun ab => ab.1 ++ ab.2) ++ [o :: M', A ++ [o]]) ≤ n →
      merge n (front.map (fun ab => ab.1 ++ ab.2) ++ [o :: M', A ++ [o]]) = .ok (o :: M') := by
    intro front A n hfr he hn
    rw [List.all_eq_true] at he
    have hA : A = [] := List.isEmpty_iff.1 (he A (by simp))
    apply merge_top hM _ (by simp) hn
    intro l hl
    rcases List.mem_append.1 hl with hl | hl
    · obtain ⟨ab, hab, rfl⟩ := List.mem_map.1 hl
      have : ab.1 = [] := List.isEmpty_iff.1 (he ab.1 (List.mem_append_left _ (List.mem_map_of_mem hab)))
      rw [this]; exact (hfr ab hab).2.2
    · simp only [List.mem_cons, List.not_mem_nil, or_false] at hl
      rcases hl with rfl | rfl
      · exact List.Sublist.refl _
      · rw [hA]; exact (List.nil_sublist _).cons_cons _
  intro n1
  induction n1 with
  | zero =>
    intro front A r1 n hfr hA hn1 hr1 hn
    have he := total_eq_zero.1 (Nat.le_zero.1 hn1)
    rw [merge_of_empty he] at hr1; injection hr1 with hr1; subst hr1
    exact hempty front A n hfr he hn
  | succ n1 ih =>
    intro front A r1 n hfr hA hn1 hr1 hn
    by_cases he : (front.map Prod.fst ++ [A]).all (·.isEmpty) = true
    · rw [merge_of_empty he] at hr1; injection hr1 with hr1; subst hr1
      exact hempty front A n hfr he hn
    · cases hx : goodHead (front.map Prod.fst ++ [A]) (front.map Prod.fst ++ [A]) with
      | none => rw [merge_fail hx he hn1] at hr1; cases hr1
      | some x =>
        obtain ⟨s1, s2⟩ := merge_step hx hn1
        rw [s1] at hr1
        simp only [Nat.add_sub_cancel] at hr1 s2
        cases hm : merge n1 ((front.map Prod.fst ++ [A]).map (dropIf x)) with
        | error e => rw [hm] at hr1; cases hr1
        | ok r' =>
          rw [hm] at hr1; injection hr1 with hr1; subst hr1
          -- x is a clone
          have hxc : isC x = true := by
            obtain ⟨⟨l, hl, hh⟩, -⟩ := goodHead_some hx
            rcases List.mem_append.1 hl with hl | hl
            · obtain ⟨ab, hab, rfl⟩ := List.mem_map.1 hl
              exact (hfr ab hab).1 x (List.mem_of_mem_head? hh)
            · rw [List.mem_singleton.1 hl] at hh
              exact hA x (List.mem_of_mem_head? hh)
          -- blocked clones
          have htail : ∀ y, isC y = true → inTail y (front.map (fun ab => ab.1 ++ ab.2) ++ [o :: M', A ++ [o]]) =
              inTail y (front.map Prod.fst ++ [A]) := by
            intro y hy
            have hb : ∀ a b : List X, (∀ z ∈ b, isC z = false) → (y ∈ (a ++ b).tail ↔ y ∈ a.tail) := by
              intro a b hbz
              cases a with
              | nil =>
                constructor
                · intro hyb
                  have := hbz y (List.mem_of_mem_tail hyb); rw [hy] at this; cases this
                · intro h; cases h
              | cons z t =>
                simp only [List.cons_append, List.tail_cons, List.mem_append]
                constructor
                · rintro (h | h)
                  · exact h
                  · have := hbz y h; rw [hy] at this; cases this
                · exact Or.inl
            rw [Bool.eq_iff_iff, inTail_iff, inTail_iff]
            constructor
            · rintro ⟨l, hl, hyl⟩
              rcases List.mem_append.1 hl with hl | hl
              · obtain ⟨ab, hab, rfl⟩ := List.mem_map.1 hl
                exact ⟨ab.1, List.mem_append_left _ (List.mem_map_of_mem hab),
                  (hb _ _ fun z hz => hMc z ((hfr ab hab).2.2.subset hz)).1 hyl⟩
              · simp only [List.mem_cons, List.not_mem_nil, or_false] at hl
                rcases hl with rfl | rfl
                · have := hMc y (List.mem_cons_of_mem _ hyl); rw [hy] at this; cases this
                · exact ⟨A, by simp, (hb A [o] (by intro z hz; rw [List.mem_singleton.1 hz]; exact hMc o List.mem_cons_self)).1 hyl⟩
            · rintro ⟨l, hl, hyl⟩
              rcases List.mem_append.1 hl with hl | hl
              · obtain ⟨ab, hab, rfl⟩ := List.mem_map.1 hl
                exact ⟨ab.1 ++ ab.2, List.mem_append_left _ (List.mem_map.2 ⟨ab, hab, rfl⟩),
                  (hb _ _ fun z hz => hMc z ((hfr ab hab).2.2.subset hz)).2 hyl⟩
              · rw [List.mem_singleton.1 hl] at hyl
                exact ⟨A ++ [o], by simp, (hb A [o] (by intro z hz; rw [List.mem_singleton.1 hz]; exact hMc o List.mem_cons_self)).2 hyl⟩
          have hgood : ∀ f : List (List X × List X), (∀ ab ∈ f, ab ∈ front) →
              goodHead (front.map Prod.fst ++ [A]) (f.map Prod.fst ++ [A]) = some x →
              goodHead (front.map (fun ab => ab.1 ++ ab.2) ++ [o :: M', A ++ [o]])
                (f.map (fun ab => ab.1 ++ ab.2) ++ [o :: M', A ++ [o]]) = some x := by
            intro f
            induction f with
            | nil =>
              intro _ hg
              cases hAe : A with
              | nil => subst hAe; cases hg
              | cons y t =>
                subst hAe
                simp only [List.map_nil, List.nil_append] at hg ⊢
                rw [goodHead] at hg
                split_ifs at hg with hb
                · cases hg
                · injection hg with hg; subst hg
                  have ho : inTail o (front.map (fun ab => ab.1 ++ ab.2) ++ [o :: M', (y :: t) ++ [o]]) = true :=
                    inTail_iff.2 ⟨(y :: t) ++ [o], by simp, by simp⟩
                  rw [goodHead, if_pos ho, List.cons_append, goodHead, if_neg]
                  have := htail y hxc
                  rw [List.cons_append] at this
                  rw [this]; exact hb
            | cons ab f ihf =>
              intro hsub hg
              have ihf' := ihf fun z hz => hsub z (List.mem_cons_of_mem _ hz)
              obtain ⟨a, b⟩ := ab
              have hab := hfr _ (hsub (a, b) List.mem_cons_self)
              cases a with
              | nil =>
                simp only [List.map_cons, List.cons_append, goodHead] at hg
                obtain ⟨-, ⟨p, t, hbp, hpM⟩, -⟩ := hab
                simp only at hbp
                have hb : inTail p (front.map (fun ab => ab.1 ++ ab.2) ++ [o :: M', A ++ [o]]) = true :=
                  inTail_iff.2 ⟨o :: M', by simp, hpM⟩
                simp only [List.map_cons, List.cons_append, List.nil_append, hbp]
                rw [goodHead, if_pos hb]
                exact ihf' hg
              | cons y t =>
                simp only [List.map_cons, List.cons_append, goodHead] at hg ⊢
                rw [htail y (hab.1 y List.mem_cons_self)]
                split_ifs at hg with hb
                · rw [if_pos hb]; exact ihf' hg
                · rw [if_neg hb]; exact hg
          have hgx := hgood front (fun _ h => h) hx
          obtain ⟨t1, t2⟩ := merge_step hgx hn
          -- dropping x
          have hdrop : ∀ a b : List X, (∀ z ∈ b, isC z = false) → dropIf x (a ++ b) = dropIf x a ++ b := by
            intro a b hb
            cases a with
            | nil =>
              simp only [List.nil_append, dropIf]
              apply dropIf_of_ne
              intro hh
              have := hb x (List.mem_of_mem_head? hh); rw [hxc] at this; cases this
            | cons y t =>
              simp only [List.cons_append, dropIf]
              split_ifs <;> rfl
          have hmap : (front.map (fun ab => ab.1 ++ ab.2) ++ [o :: M', A ++ [o]]).map (dropIf x) =
              (front.map fun ab => (dropIf x ab.1, ab.2)).map (fun ab => ab.1 ++ ab.2) ++ [o :: M', dropIf x A ++ [o]] := by
            rw [List.map_append, List.map_map, List.map_map]
            congr 1
            · refine List.map_congr_left fun ab hab => ?_
              exact hdrop _ _ fun z hz => hMc z ((hfr ab hab).2.2.subset hz)
            · simp only [List.map_cons, List.map_nil]
              rw [hdrop A [o] (by intro z hz; rw [List.mem_singleton.1 hz]; exact hMc o List.mem_cons_self)]
              rw [dropIf_of_ne (l := o :: M')]
              intro hh
              have := hMc x (List.mem_of_mem_head? hh); rw [hxc] at this; cases this
          have hmap1 : (front.map Prod.fst ++ [A]).map (dropIf x) =
              (front.map fun ab => (dropIf x ab.1, ab.2)).map Prod.fst ++ [dropIf x A] := by
            rw [List.map_append, List.map_map, List.map_map]; rfl
          rw [hmap1] at hm s2
          rw [hmap] at t1 t2
          rw [t1, ih _ _ r' (n - 1) ?_ ?_ s2 hm t2]
          · rfl
          · intro ab hab
            obtain ⟨cd, hcd, rfl⟩ := List.mem_map.1 hab
            exact ⟨fun z hz => (hfr cd hcd).1 z (mem_dropIf hz), (hfr cd hcd).2⟩
          · intro z hz; exact hA z (mem_dropIf hz)

end

/-- No class outside the package comes before a class of the package in the mro of a class of the package. -/
def PackageFirst (h : Hier C) (classes : List C) : Prop := ∀ c ∈ classes, ∀ a ∉ classes, ∀ b ∈ classes,
  ¬ [a, b].Sublist (h.mro c)

/-- No class has two bases one of which descends from the other. -/
def NoRedundantBases (h : Hier C) (classes : List C) : Prop := ∀ c ∈ classes, ∀ b ∈ h.bases c, ∀ b' ∈ h.bases c,
  b ≠ b' → b ∉ h.mro b'

/-- The mro a clone should have: the clones of the listed classes of its original's mro, in the same order, then
the original's mro. -/
def expectedMro (h : Hier C) (classes : List C) (c : C) : List (Node C) :=
  ((h.mro c).filter fun a => a ∈ classes).map .clone ++ (h.mro c).map .orig

theorem pfirst_of {h : Hier C} {classes : List C} (hpf : PackageFirst h classes) {c : C} (hc : c ∈ classes) :
    PFirst (fun a => decide (a ∈ classes)) (h.mro c) := by
  intro x t hs hx y hy
  by_contra hcon
  have hxc : x ∉ classes := by simpa using hx
  have hyc : y ∈ classes := by simpa using hcon
  refine hpf c hc x hxc y hyc (List.Sublist.trans ?_ hs)
  exact (List.singleton_sublist.2 hy).cons_cons _

theorem eq_filter_of_sublist {l a : List C} (hs : a.Sublist l) (hl : l.Nodup) : a = l.filter fun x => decide (x ∈ a) := by
  induction hs with
  | slnil => rfl
  | @cons l1 l2 x hs ih =>
    rw [List.nodup_cons] at hl
    have hx : x ∉ l1 := fun hx => hl.1 (hs.subset hx)
    rw [List.filter_cons_of_neg (by simpa using hx)]
    exact ih hl.2
  | @cons_cons l1 l2 x hs ih =>
    rw [List.nodup_cons] at hl
    rw [List.filter_cons_of_pos (by simp)]
    have hx2 : ∀ y ∈ l2, (decide (y ∈ x :: l1)) = decide (y ∈ l1) := by
      intro y hy
      have : y ≠ x := fun e => hl.1 (e ▸ hy)
      simp [this]
    rw [List.filter_congr hx2, ← ih hl.2]

theorem eq_of_sublist_same {l a b : List C} (hl : l.Nodup) (ha : a.Sublist l) (hb : b.Sublist l) (h : ∀ x, x ∈ a ↔ x ∈ b) : a = b := by
  rw [eq_filter_of_sublist ha hl, eq_filter_of_sublist hb hl]
  refine List.filter_congr fun x _ => ?_
  simp only [h]

theorem bases_mem {h : Hier C} (hf : MroFacts h) {c b : C} (hb : b ∈ h.bases c) : b ∈ h.mro c ∧ b ≠ c := by
  have hbt := (hf.bases c).subset hb
  obtain ⟨t, ht⟩ := hf.self c
  have hn := hf.nodup c
  rw [ht] at hbt hn ⊢
  refine ⟨List.mem_cons_of_mem _ hbt, ?_⟩
  rintro rfl
  exact (List.nodup_cons.1 hn).1 hbt

theorem before_of_mem {h : Hier C} (hf : MroFacts h) {c b a : C} (hb : b ∈ h.mro c) (ha : a ∈ h.mro b) (hne : a ≠ b) :
    [b, a].Sublist (h.mro c) := by
  refine List.Sublist.trans ?_ (hf.mono c b hb)
  obtain ⟨t, ht⟩ := hf.self b
  rw [ht] at ha ⊢
  exact (List.singleton_sublist.2 ((List.mem_cons.1 ha).resolve_left hne)).cons_cons _

theorem parents_eq_bases {h : Hier C} (hf : MroFacts h) {classes ref : List C} (href : ∀ c, c ∈ ref ↔ c ∈ classes)
    (hpf : PackageFirst h classes) (hnr : NoRedundantBases h classes) {c : C} (hc : c ∈ classes) :
    parents h ref c = (h.bases c).filter fun b => decide (b ∈ classes) := by
  apply eq_of_sublist_same (hf.nodup c) (parents_sublist h ref c)
  · exact (List.filter_sublist.trans (hf.bases c)).trans (List.tail_sublist _)
  intro p
  rw [mem_parents, List.mem_filter, decide_eq_true_eq]
  constructor
  · rintro ⟨⟨h1, h2, h3⟩, h4⟩
    have hpc := (href p).1 h1
    refine ⟨?_, hpc⟩
    obtain ⟨b, hb, hpb⟩ := hf.fromBase c p h2 h3
    by_cases hbp : b = p
    · rw [← hbp]; exact hb
    obtain ⟨hbm, hbc⟩ := bases_mem hf hb
    by_cases hbcl : b ∈ classes
    · exact absurd hpb (h4 b ⟨(href b).2 hbcl, hbm, hbc⟩ hbp)
    · exact absurd (before_of_mem hf hbm hpb (Ne.symm hbp)) (hpf c hc b hbcl p hpc)
  · rintro ⟨hb, hpc⟩
    obtain ⟨hbm, hbc⟩ := bases_mem hf hb
    refine ⟨⟨(href p).2 hpc, hbm, hbc⟩, fun b hb' hne hpb => ?_⟩
    obtain ⟨b', hb'', hbb'⟩ := hf.fromBase c b hb'.2.1 hb'.2.2
    have hpb' := (hf.mono b' b hbb').subset hpb
    by_cases e : p = b'
    · subst e
      have e1 := mro_length_lt hf hbb' hne
      have e2 := mro_length_lt hf hpb (Ne.symm hne)
      omega
    · exact hnr c hc p hb b' hb'' e hpb'

/-- The mro of one clone, given that of its parents. -/
theorem linearize_clone {h : Hier C} (hp : IsPython h) {classes ref : List C} (href : ∀ c, c ∈ ref ↔ c ∈ classes)
    (hpf : PackageFirst h classes) (hnr : NoRedundantBases h classes) {c : C} (hc : c ∈ classes)
    (made : PyDict C (List (Node C))) (hmade : ∀ p ∈ parents h ref c, made.dget p = some (expectedMro h classes p)) :
    linearize (Node.clone c) (((parents h ref c).map Node.clone ++ [Node.orig c]).map (mroOf h made))
      ((parents h ref c).map .clone ++ [.orig c]) = .ok (expectedMro h classes c) := by
  have hf := mroFacts hp
  have hpar := parents_eq_bases hf href hpf hnr hc
  obtain ⟨M, hM⟩ := hf.self c
  have hMnd := hf.nodup c
  rw [hM] at hMnd
  let P : C → Bool := fun a => decide (a ∈ classes)
  -- the merge for the class itself
  have horig : merge (total ((h.bases c).map h.mro ++ [h.bases c])) ((h.bases c).map h.mro ++ [h.bases c]) = .ok M := by
    have := hp c
    unfold linearize at this
    cases hm : merge (total ((h.bases c).map h.mro ++ [h.bases c])) ((h.bases c).map h.mro ++ [h.bases c]) with
    | error e => rw [hm] at this; cases this
    | ok r =>
      rw [hm] at this; injection this with this
      rw [hM] at this; injection this with _ this; rw [this]
  have hfirst : PFirst P M := (pfirst_of hpf hc).sublist (by rw [hM]; exact List.sublist_cons_self _ _)
  have hfil := merge_filter (P := P) (Nat.le_refl _) horig hfirst (Nat.le_refl _)
  -- bases outside the package contribute nothing
  have hout : ∀ b ∈ h.bases c, b ∉ classes → (h.mro b).filter P = [] := by
    intro b hb hbc
    rw [List.filter_eq_nil_iff]
    intro a ha hPa
    have hac : a ∈ classes := by simpa [P] using hPa
    have hne : a ≠ b := fun e => hbc (e ▸ hac)
    exact hpf c hc b hbc a hac (before_of_mem hf (bases_mem hf hb).1 ha hne)
  have hin : ∀ b ∈ classes, ((h.mro b).filter P).isEmpty = false := by
    intro b hb
    obtain ⟨t, ht⟩ := hf.self b
    rw [ht, List.filter_cons_of_pos (by simpa [P] using hb)]; rfl
  have hclean : ∀ bs : List C, (∀ b ∈ bs, b ∈ h.bases c) →
      ((bs.map h.mro).map (List.filter P)).filter (fun l => !l.isEmpty) = ((bs.filter P).map fun p => (h.mro p).filter P) := by
    intro bs
    induction bs with
    | nil => intro _; rfl
    | cons b bs ih =>
      intro hbs
      have ih' := ih fun x hx => hbs x (List.mem_cons_of_mem _ hx)
      by_cases hb : b ∈ classes
      · rw [List.map_cons, List.map_cons, List.filter_cons_of_pos (by rw [hin b hb]; rfl), ih',
          List.filter_cons_of_pos (by simpa [P] using hb), List.map_cons]
      · rw [List.map_cons, List.map_cons, hout b (hbs b List.mem_cons_self) hb, List.filter_cons_of_neg (by simp), ih',
          List.filter_cons_of_neg (by simpa [P] using hb)]
  have hself : ((h.bases c).filter P).map (fun p => (h.mro p).filter P) =
      (((h.bases c).filter P).map (fun p => (h.mro p).filter P)).filter (fun l => !l.isEmpty) := by
    symm
    rw [List.filter_eq_self]
    intro l hl
    obtain ⟨b, hb, rfl⟩ := List.mem_map.1 hl
    rw [hin b (by simpa [P] using (List.mem_filter.1 hb).2)]; rfl
  have hpk : merge (total ((parents h ref c).map (fun p => (h.mro p).filter P) ++ [parents h ref c]))
      ((parents h ref c).map (fun p => (h.mro p).filter P) ++ [parents h ref c]) = .ok (M.filter P) := by
    rw [← hfil]
    apply merge_ne _ (Nat.le_refl _) (Nat.le_refl _)
    rw [List.map_append, List.filter_append, List.filter_append, hclean _ (fun _ h => h), hpar]
    congr 1
    exact hself.symm
  have hinj : Function.Injective (Node.clone : C → Node C) := fun a b e => by injection e
  have hcl := merge_map hinj (total ((parents h ref c).map (fun p => (h.mro p).filter P) ++ [parents h ref c]))
    ((parents h ref c).map (fun p => (h.mro p).filter P) ++ [parents h ref c])
  rw [hpk] at hcl
  simp only at hcl
  -- the two phases
  let isC : Node C → Bool := fun x => match x with | .clone _ => true | .orig _ => false
  let front : List (List (Node C) × List (Node C)) :=
    (parents h ref c).map fun p => (((h.mro p).filter P).map Node.clone, (h.mro p).map Node.orig)
  have hfr1 : front.map Prod.fst ++ [(parents h ref c).map Node.clone] =
      ((parents h ref c).map (fun p => (h.mro p).filter P) ++ [parents h ref c]).map (List.map Node.clone) := by
    simp only [front, List.map_append, List.map_map, List.map_cons, List.map_nil]
    rfl
  have hfr2 : front.map (fun ab => ab.1 ++ ab.2) ++ [Node.orig c :: M.map Node.orig, (parents h ref c).map Node.clone ++ [Node.orig c]] =
      ((parents h ref c).map Node.clone ++ [Node.orig c]).map (mroOf h made) ++ [(parents h ref c).map .clone ++ [.orig c]] := by
    have e1 : front.map (fun ab => ab.1 ++ ab.2) = ((parents h ref c).map Node.clone).map (mroOf h made) := by
      simp only [front, List.map_map]
      refine List.map_congr_left fun p hpp => ?_
      simp only [Function.comp, mroOf, hmade p hpp, Option.getD_some, expectedMro]
      rfl
    have e2 : (Node.orig c :: M.map Node.orig) = mroOf h made (.orig c) := by rw [mroOf, hM]; rfl
    rw [e1, e2]; simp
  have hinjo : Function.Injective (Node.orig : C → Node C) := fun a b e => by injection e
  have htot : total (front.map Prod.fst ++ [(parents h ref c).map Node.clone]) ≤
      total ((parents h ref c).map (fun p => (h.mro p).filter P) ++ [parents h ref c]) := by
    rw [hfr1]
    unfold total
    rw [List.map_map]
    apply le_of_eq
    congr 1
    refine List.map_congr_left fun l _ => ?_
    simp
  have hres := merge_phases (isC := isC) (o := Node.orig c) (M' := M.map Node.orig)
    (by rw [← List.map_cons]; exact hMnd.map hinjo)
    (by
      intro x hx
      rw [← List.map_cons] at hx
      obtain ⟨y, -, rfl⟩ := List.mem_map.1 hx; rfl)
    _ front ((parents h ref c).map Node.clone) ((M.filter P).map Node.clone) _
    (by
      intro ab hab
      obtain ⟨p, hpp, rfl⟩ := List.mem_map.1 hab
      have hnear := (mem_parents.1 hpp).1
      refine ⟨?_, ?_, ?_⟩
      · intro x hx
        obtain ⟨y, -, rfl⟩ := List.mem_map.1 hx; rfl
      · obtain ⟨t, ht⟩ := hf.self p
        refine ⟨.orig p, t.map .orig, by rw [ht]; rfl, List.mem_map_of_mem ?_⟩
        have := hnear.2.1
        rw [hM] at this
        exact (List.mem_cons.1 this).resolve_left hnear.2.2
      · rw [← List.map_cons, ← hM]
        exact (hf.mono c p hnear.2.1).map _)
    (by
      intro x hx
      obtain ⟨y, -, rfl⟩ := List.mem_map.1 hx; rfl)
    htot (by rw [hfr1]; exact hcl) (Nat.le_refl _)
  unfold linearize
  rw [← hfr2, hres]
  simp only [expectedMro, hM]
  rw [List.filter_cons_of_pos (by simpa using hc)]
  rfl

theorem makeAll_ok {h : Hier C} (hp : IsPython h) {classes ref : List C} (href : ∀ c, c ∈ ref ↔ c ∈ classes)
    (hpf : PackageFirst h classes) (hnr : NoRedundantBases h classes) :
    ∀ (cs : List C) (made : PyDict C (List (Node C))),
      ParentsFirst h ref (made.dkeys ++ cs) → (made.dkeys ++ cs).Nodup → (∀ c ∈ cs, c ∈ classes) →
      (∀ c ∈ made.dkeys, made.dget c = some (expectedMro h classes c)) →
      ∃ res, makeAll h ref cs made = .ok res ∧ ∀ c ∈ made.dkeys ++ cs, res.dget c = some (expectedMro h classes c) := by
  intro cs
  induction cs with
  | nil => intro made _ _ _ hm; exact ⟨made, rfl, by simpa using hm⟩
  | cons c cs ih =>
    intro made hpfst hnd hcs hm
    have hbases : basesOf h ref made.dkeys c = (parents h ref c).map .clone ++ [.orig c] := by
      unfold basesOf
      congr 2
      rw [List.filter_eq_self]
      intro p hp
      rw [List.contains_iff_mem]
      exact hpfst made.dkeys c cs rfl p hp
    have hl := linearize_clone hp href hpf hnr (hcs c List.mem_cons_self) made
      fun p hpp => hm p (hpfst made.dkeys c cs rfl p hpp)
    have hcn : c ∉ made.dkeys := by
      have := List.nodup_append.1 hnd
      intro hc; exact this.2.2 c hc c List.mem_cons_self rfl
    have hkeys : (made.dset c (expectedMro h classes c)).dkeys = made.dkeys ++ [c] := by
      rw [PyDict.dkeys_dset, if_neg hcn]
    obtain ⟨res, h1, h2⟩ := ih (made.dset c (expectedMro h classes c)) (by rw [hkeys]; simpa using hpfst)
      (by rw [hkeys]; simpa using hnd) (fun d hd => hcs d (List.mem_cons_of_mem _ hd)) (by
        intro d hd
        rw [hkeys] at hd
        rw [PyDict.dget_dset]
        by_cases e : d = c
        · rw [if_pos e, e]
        · rw [if_neg e]
          apply hm
          rcases List.mem_append.1 hd with hd | hd
          · exact hd
          · exact absurd (List.mem_singleton.1 hd) e)
    refine ⟨res, ?_, ?_⟩
    · rw [makeAll, hbases, hl]; exact h1
    · rw [hkeys] at h2; simpa using h2

/-- C65: if the classes of the package come first in the mro of each of them and no class lists a base together with one of its ancestors,
cloning succeeds, and the mro of every clone is: the clones of the listed classes of its original's mro in the same order, then
the original's mro. -/
theorem clone_mro_partial {h : Hier C} (hp : IsPython h) (classes : List C) (hpf : PackageFirst h classes)
    (hnr : NoRedundantBases h classes) :
    ∃ res, cloneClasses h classes = some (.ok res) ∧ (∀ c, c ∈ res.dkeys ↔ c ∈ classes) ∧
      ∀ c ∈ classes, res.dget c = some (expectedMro h classes c) := by
  have hf := mroFacts hp
  obtain ⟨l, h1, h2, h3, h4⟩ := loop_facts hf (nodup_refKeys h classes) (refKeys h classes).length []
    (by simp) List.nodup_nil (by simp) (by
      intro l1 c l2 e; simp at e)
  have href := mem_refKeys h classes
  obtain ⟨res, r1, r2⟩ := makeAll_ok hp href hpf hnr l [] (by simpa [List.dkeys] using h4) (by simpa [List.dkeys] using h2)
    (fun c hc => (href c).1 ((h3 c).1 hc)) (by simp [List.dkeys])
  have hcl : cloneClasses h classes = some (.ok res) := by
    unfold cloneClasses; rw [h1, Option.map_some, r1]
  refine ⟨res, hcl, (clone_each_once hp classes res hcl).2.1, fun c hc => ?_⟩
  exact r2 c (by simpa [List.dkeys] using (h3 c).2 (href c |>.2 hc))

/-! ### Attribute resolution (C84) -/

/-- The given class behind a node: a clone's dictionary is a copy of its original's. -/
def Node.under : Node C → C
  | .orig c => c
  | .clone c => c

/-- Where an attribute is found: the first class of the mro whose dictionary has it (kamino.py:95 copies the dictionary, so a clone has the
attributes its original has). -/
def definer (has : C → Bool) (mro : List (Node C)) : Option (Node C) := mro.find? fun n => has (Node.under n)

theorem find_split {P : C → Bool} {l : List C} (hl : PFirst P l) : l = l.filter P ++ l.filter fun x => !P x := by
  induction l with
  | nil => rfl
  | cons x t ih =>
    cases hx : P x with
    | true =>
      rw [List.filter_cons_of_pos hx, List.filter_cons_of_neg (by simp [hx]), List.cons_append,
        ← ih (hl.sublist (List.sublist_cons_self _ _))]
    | false =>
      rw [hl.filter_cons hx, List.nil_append]
      symm
      rw [List.filter_eq_self]
      intro y hy
      have := List.filter_eq_nil_iff.1 (hl.filter_cons hx) y hy
      simpa using this

/-- C84: for such packages every attribute of a clone comes from (the clone of) the class it comes from in the original. -/
theorem clone_resolves_partial {h : Hier C} (hp : IsPython h) (classes : List C) (hpf : PackageFirst h classes)
    (hnr : NoRedundantBases h classes) :
    ∃ res, cloneClasses h classes = some (.ok res) ∧ ∀ c ∈ classes, ∃ m, res.dget c = some m ∧
      ∀ has : C → Bool, (definer has m).map Node.under = (h.mro c).find? has := by
  obtain ⟨res, h1, -, h3⟩ := clone_mro_partial hp classes hpf hnr
  refine ⟨res, h1, fun c hc => ⟨_, h3 c hc, fun has => ?_⟩⟩
  have hu : ∀ l : List C, ∀ f : C → Node C, (∀ x, Node.under (f x) = x) →
      ((l.map f).find? fun n => has (Node.under n)).map Node.under = l.find? has := by
    intro l f hf
    induction l with
    | nil => rfl
    | cons x t ih =>
      rw [List.map_cons, List.find?_cons, List.find?_cons, hf]
      cases has x
      · exact ih
      · simp [hf]
  unfold definer expectedMro
  rw [List.find?_append, Option.map_or, hu _ _ fun _ => rfl, hu _ _ fun _ => rfl]
  have hs := find_split (pfirst_of hpf hc)
  generalize hA : (h.mro c).filter (fun a => decide (a ∈ classes)) = A at hs ⊢
  rw [hs, List.find?_append]
  cases A.find? has <;> rfl

/-- A clone has the class behind it and every listed ancestor's clone among its ancestors, so `isinstance` against them
answers as for the original. -/
theorem clone_isinstance_partial {h : Hier C} (hp : IsPython h) (classes : List C) (hpf : PackageFirst h classes)
    (hnr : NoRedundantBases h classes) :
    ∃ res, cloneClasses h classes = some (.ok res) ∧ ∀ c ∈ classes, ∃ m, res.dget c = some m ∧
      (∀ a, Node.orig a ∈ m ↔ a ∈ h.mro c) ∧ ∀ a, Node.clone a ∈ m ↔ a ∈ h.mro c ∧ a ∈ classes := by
  obtain ⟨res, h1, -, h3⟩ := clone_mro_partial hp classes hpf hnr
  refine ⟨res, h1, fun c hc => ⟨_, h3 c hc, fun a => ?_, fun a => ?_⟩⟩
  · simp [expectedMro]
  · simp [expectedMro]

/-! ### Cases -/

/-- A hierarchy given by a table of bases and mros. -/
def tableHier (n : Nat) (t : List (List (Fin n) × List (Fin n))) : Hier (Fin n) :=
  ⟨fun c => (t.getD c ([], [])).1, fun c => (t.getD c ([], [])).2⟩

/-- object, Base(object), Object(Base), Collection(Object), OrderedCollection(Collection), CollectionPage(Collection),
OrderedCollectionPage(OrderedCollection, CollectionPage): the diamond of the shipped package. -/
def diamond : Hier (Fin 7) := tableHier 7
  [([], [0]), ([0], [1, 0]), ([1], [2, 1, 0]), ([2], [3, 2, 1, 0]), ([3], [4, 3, 2, 1, 0]), ([3], [5, 3, 2, 1, 0]),
    ([4, 5], [6, 4, 5, 3, 2, 1, 0])]

instance {C : Type} [DecidableEq C] [Fintype C] (h : Hier C) : Decidable (IsPython h) := by
  unfold IsPython; infer_instance

instance {C : Type} [DecidableEq C] (h : Hier C) (classes : List C) (c a : C) : Decidable (PkgAncestor h classes c a) := by
  unfold PkgAncestor; infer_instance

instance {C : Type} [DecidableEq C] [Fintype C] (h : Hier C) (classes : List C) (c a : C) : Decidable (Nearest h classes c a) := by
  unfold Nearest; infer_instance

instance {C : Type} [DecidableEq C] [Fintype C] (h : Hier C) (classes : List C) : Decidable (PackageFirst h classes) := by
  unfold PackageFirst; infer_instance

instance {C : Type} [DecidableEq C] (h : Hier C) (classes : List C) : Decidable (NoRedundantBases h classes) := by
  unfold NoRedundantBases; infer_instance

example : IsPython diamond ∧ PackageFirst diamond [6, 5, 4, 3, 2] ∧ NoRedundantBases diamond [6, 5, 4, 3, 2] := by decide +kernel

example : cloneClasses diamond [6, 5, 4, 3, 2] = some (.ok [
    (2, [.clone 2, .orig 2, .orig 1, .orig 0]),
    (3, [.clone 3, .clone 2, .orig 3, .orig 2, .orig 1, .orig 0]),
    (5, [.clone 5, .clone 3, .clone 2, .orig 5, .orig 3, .orig 2, .orig 1, .orig 0]),
    (4, [.clone 4, .clone 3, .clone 2, .orig 4, .orig 3, .orig 2, .orig 1, .orig 0]),
    (6, [.clone 6, .clone 4, .clone 5, .clone 3, .clone 2, .orig 6, .orig 4, .orig 5, .orig 3, .orig 2, .orig 1, .orig 0])]) := by
  decide +kernel

example : Nearest diamond [6, 5, 4, 3, 2] 6 4 ∧ PkgAncestor diamond [6, 5, 4, 3, 2] 6 2 ∧ ¬ Nearest diamond [6, 5, 4, 3, 2] 6 2 := by
  decide +kernel

/-- object, A, Y, X(A), Z(Y, A), P1(X, Z), P2(Y, A), K(P1, P2) -/
def tangled : Hier (Fin 8) := tableHier 8
  [([], [0]), ([0], [1, 0]), ([0], [2, 0]), ([1], [3, 1, 0]), ([2, 1], [4, 2, 1, 0]), ([3, 4], [5, 3, 4, 2, 1, 0]),
    ([2, 1], [6, 2, 1, 0]), ([5, 6], [7, 5, 3, 4, 6, 2, 1, 0])]

/-- C65: a package may be refused although Python accepts its classes: cloning P1 and K without Z asks for
an impossible order (TypeError). -/
theorem clone_can_fail : ∃ h : Hier (Fin 8), IsPython h ∧
    cloneClasses h [1, 2, 3, 5, 6, 7] = some (.error .typeError) := ⟨tangled, by decide +kernel, by decide +kernel⟩

/-- object, A, M(A), B(M) -/
def hidden : Hier (Fin 4) := tableHier 4 [([], [0]), ([0], [1, 0]), ([1], [2, 1, 0]), ([2], [3, 2, 1, 0])]

/-- C84: the claim is false without the condition: if M (not in the package) overrides a method of A, the clone of B(M) uses A's. -/
theorem clone_misresolves : IsPython hidden ∧ ∃ m, (cloneClasses hidden [1, 3]) = some (.ok [(1, [.clone 1, .orig 1, .orig 0]), (3, m)]) ∧
    (definer (fun c => c = 1 || c = 2) m).map Node.under = some 1 ∧ (hidden.mro 3).find? (fun c => c = 1 || c = 2) = some 2 :=
  ⟨by decide +kernel, [.clone 3, .clone 1, .orig 3, .orig 2, .orig 1, .orig 0], by decide +kernel, by decide +kernel, by decide +kernel⟩

/-- C65: from an iterator that can be run through once only, all classes but the first are dropped silently. -/
theorem clone_one_shot {h : Hier C} (hp : IsPython h) (a : C) (rest : List C) :
    ∃ res, cloneIter h (a :: rest) = some (.ok res) ∧ res.dkeys = [a] := by
  have hf := mroFacts hp
  have hk : refKeysIter h (a :: rest) = [a] := by
    unfold refKeysIter
    simp [byDepsIter, List.dset, List.dget, List.dkeys, dictOf]
  have hpar : parents h [a] a = [] := by
    unfold parents candidates
    have : ((h.mro a).filter fun i => [a].contains i && a != i) = [] := by
      rw [List.filter_eq_nil_iff]
      intro x _
      simp only [List.contains_iff_mem, Bool.and_eq_true, List.mem_singleton, bne_iff_ne, ne_eq, not_and, not_not]
      exact fun e => e.symm
    rw [this]; rfl
  have hloop : loop h [a] 1 [] = some [a] := by
    simp [loop, pass, hpar]
  have hinj : Function.Injective (Node.orig : C → Node C) := fun a b e => by injection e
  have hlin : linearize (Node.clone a) [(h.mro a).map Node.orig] [Node.orig a] = .ok (.clone a :: (h.mro a).map .orig) := by
    unfold linearize
    rw [merge_top (T := (h.mro a).map Node.orig) ((hf.nodup a).map hinj) _ (by simp) (Nat.le_refl _)]
    intro l hl
    simp only [List.cons_append, List.nil_append, List.mem_cons, List.not_mem_nil, or_false] at hl
    rcases hl with rfl | rfl
    · exact List.Sublist.refl _
    · rw [List.singleton_sublist]; exact List.mem_map_of_mem (mem_mro_self hf a)
  refine ⟨[(a, .clone a :: (h.mro a).map .orig)], ?_, rfl⟩
  unfold cloneIter
  rw [hk]
  simp only [List.length_singleton, hloop, Option.map_some, makeAll, basesOf, hpar, List.filter_nil, List.map_nil, List.nil_append,
    List.map_cons, mroOf, hlin]
  rfl

end Verif.Props
