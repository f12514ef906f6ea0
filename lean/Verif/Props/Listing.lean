import Verif.Props.Clone

/-!
# C143: the order of the classes of a package
-/
namespace Verif.Props.Listing
open Verif Verif.Jsonld Verif.Jsonld.Clone Verif.Props

variable {C : Type} [DecidableEq C]

/-! ### Specification -/

/-- How many of the listed classes are proper ancestors of `c` (a class listed twice counts twice). -/
def rank (h : Hier C) (classes : List C) (c : C) : Nat := classes.countP fun d => decide (d ∈ h.mro c ∧ d ≠ c)

/-- `a` is to be listed before `b`: it has fewer listed ancestors, or as many and was given first. -/
def Before (h : Hier C) (classes : List C) (a b : C) : Prop :=
  rank h classes a < rank h classes b ∨ rank h classes a = rank h classes b ∧ [a, b].Sublist classes

/-! ### Proofs -/

omit [DecidableEq C] in
theorem bucket_sorted (f : C → Nat) (l : List C) (ks : List Nat) (hk : ks.Pairwise (· < ·)) :
    (ks.flatMap fun k => l.filter fun c => f c = k).Pairwise fun a b => f a < f b ∨ f a = f b ∧ [a, b].Sublist l := by
  rw [List.pairwise_flatMap]
  refine ⟨fun k _ => ?_, hk.imp fun {a b} hab x hx y hy => ?_⟩
  · refine List.pairwise_of_forall_sublist fun {a b} hs => ?_
    have ha : a ∈ l.filter fun c => f c = k := hs.subset (by simp)
    have hb : b ∈ l.filter fun c => f c = k := hs.subset (by simp)
    simp only [List.mem_filter, decide_eq_true_eq] at ha hb
    exact .inr ⟨ha.2.trans hb.2.symm, hs.trans List.filter_sublist⟩
  · simp only [List.mem_filter, decide_eq_true_eq] at hx hy
    left; omega

theorem keys_sublist (l : List C) : (dictOf (l.map fun c => (c, ()))).dkeys.Sublist l := by
  induction l using List.reverseRecOn with
  | nil => exact List.Sublist.refl _
  | append_singleton l a ih =>
    have : dictOf ((l ++ [a]).map fun c => (c, ())) = (dictOf (l.map fun c => (c, ()))).dset a () := by
      unfold dictOf; rw [List.map_append, List.foldl_append]; rfl
    rw [this, PyDict.dkeys_dset]
    split_ifs
    · exact ih.trans (List.sublist_append_left _ _)
    · exact ih.append (List.Sublist.refl _)

omit [DecidableEq C] in
theorem byKey_wf (f : C → Nat) (l : List C) : ∀ d : PyDict Nat (List C), d.WF →
    List.WF (l.foldl (fun d c => d.dset (f c) ((d.dget (f c)).getD [] ++ [c])) d) := by
  induction l with
  | nil => intro d hd; exact hd
  | cons a l ih => intro d hd; exact ih _ (PyDict.wf_dset hd _ _)

theorem deps_rank (h : Hier C) (classes : List C) (c : C) : (deps h classes c).length = rank h classes c := by
  unfold deps rank
  rw [List.countP_eq_length_filter]
  congr 2
  funext d
  rw [Bool.decide_and]
  congr 1
  · simp
  · by_cases e : d = c <;> simp [e]

/-- **C143.** The classes of a package are listed each once, by their number of listed ancestors, and in the order they were given where this is the same. -/
theorem listing_order (h : Hier C) (classes : List C) :
    (listing h classes).Nodup ∧ (∀ c, c ∈ listing h classes ↔ c ∈ classes) ∧ (listing h classes).Pairwise (Before h classes) := by
  refine ⟨nodup_refKeys h classes, mem_refKeys h classes, ?_⟩
  refine List.Pairwise.sublist (keys_sublist _) ?_
  unfold sortedClasses byDeps
  obtain ⟨k1, k2⟩ := byKey_facts (fun c => (deps h classes c).length) classes
  simp only [k1]
  refine (bucket_sorted (fun c => (deps h classes c).length) classes _ ?_).imp fun {a b} hab => ?_
  · have hs := List.pairwise_insertionSort (fun a b : Nat => a ≤ b) (classes.foldl
      (fun d c => d.dset (deps h classes c).length ((d.dget (deps h classes c).length).getD [] ++ [c])) ([] : PyDict Nat (List C))).dkeys
    have hn : (List.insertionSort (fun a b : Nat => a ≤ b) (classes.foldl
      (fun d c => d.dset (deps h classes c).length ((d.dget (deps h classes c).length).getD [] ++ [c])) ([] : PyDict Nat (List C))).dkeys).Nodup :=
      (List.perm_insertionSort _ _).nodup_iff.2 (byKey_wf _ _ _ PyDict.wf_nil)
    exact (hs.and hn).imp fun h => Nat.lt_of_le_of_ne h.1 h.2
  · simp only [deps_rank] at hab
    exact hab

/-- A listed ancestor has fewer listed ancestors. -/
theorem rank_lt {h : Hier C} (hp : IsPython h) {classes : List C} {c a : C} (ha : PkgAncestor h classes c a) : rank h classes a < rank h classes c := by
  have hf := mroFacts hp
  obtain ⟨h1, h2, h3⟩ := ha
  have hsub : (classes.filter fun d => decide (d ∈ h.mro a ∧ d ≠ a)).Sublist (classes.filter fun d => decide (d ∈ h.mro c ∧ d ≠ c)) := by
    refine List.monotone_filter_right _ fun d hd => ?_
    simp only [decide_eq_true_eq] at hd ⊢
    refine ⟨(hf.mono c a h2).subset hd.1, ?_⟩
    rintro rfl
    have := mro_length_lt hf hd.1 hd.2
    have := mro_length_lt hf h2 h3
    omega
  unfold rank
  rw [List.countP_eq_length_filter, List.countP_eq_length_filter]
  refine Nat.lt_of_le_of_ne hsub.length_le fun e => ?_
  have := hsub.eq_of_length e
  have hm : a ∈ classes.filter fun d => decide (d ∈ h.mro c ∧ d ≠ c) := by simp [h1, h2, h3]
  rw [← this] at hm
  simp at hm

/-- **C143.** No class is listed before one of its ancestors. -/
theorem listing_ancestors {h : Hier C} (hp : IsPython h) (classes : List C) {c a : C} (hc : c ∈ classes) (ha : PkgAncestor h classes c a) :
    [a, c].Sublist (listing h classes) := by
  obtain ⟨-, h2, h3⟩ := listing_order h classes
  have hca := (h2 c).2 hc
  have haa := (h2 a).2 ha.1
  obtain ⟨l1, l2, e⟩ := List.append_of_mem hca
  rw [e] at haa h3 ⊢
  rcases List.mem_append.1 haa with h4 | h4
  · exact (List.singleton_sublist.2 h4).append (List.singleton_sublist.2 (by simp))
  · rcases List.mem_cons.1 h4 with h4 | h4
    · exact absurd h4 ha.2.2
    · have := (List.pairwise_cons.1 (List.pairwise_append.1 h3).2.1).1 a h4
      have := rank_lt hp ha
      rcases ‹Before h classes c a› with h5 | h5 <;> omega

theorem reverse_dget {K V : Type} [DecidableEq K] (l : List (K × V)) (k : K) (v : V) (h : l.reverse.dget k = some v) :
    ∃ l1 l2, l = l1 ++ (k, v) :: l2 ∧ ∀ p ∈ l2, p.1 ≠ k := by
  induction l using List.reverseRecOn with
  | nil => cases h
  | append_singleton l a ih =>
    obtain ⟨k', v'⟩ := a
    rw [List.reverse_append, List.reverse_singleton, List.singleton_append] at h
    by_cases e : k' = k
    · subst e
      rw [List.dget] at h
      simp at h
      subst h
      exact ⟨l, [], rfl, by simp⟩
    · have h' : l.reverse.dget k = some v := by simpa [List.dget, e, Ne.symm e] using h
      obtain ⟨l1, l2, rfl, h2⟩ := ih h'
      refine ⟨l1, l2 ++ [(k', v')], by simp, fun p hp => ?_⟩
      rcases List.mem_append.1 hp with hp | hp
      · exact h2 p hp
      · rw [List.mem_singleton.1 hp]; exact e

/-- Of the listed classes with a namespace, `c` is the one that comes last. -/
def Last (h : Hier C) (classes : List C) (ns : C → String) (key : String) (c : C) : Prop :=
  c ∈ classes ∧ ns c = key ∧ ∀ d ∈ classes, ns d = key → d ≠ c → Before h classes d c

theorem last_of (h : Hier C) (classes : List C) (ns : C → String) (key : String) (b : Bool) {l1 l2 : List (String × (Bool × C))} {c : C} {b' : Bool}
    (e : (listing h classes).map (fun c => (ns c, (b, c))) = l1 ++ (key, (b', c)) :: l2) (hl : ∀ p ∈ l2, p.1 ≠ key) :
    b' = b ∧ Last h classes ns key c := by
  obtain ⟨-, hm, hp⟩ := listing_order h classes
  obtain ⟨m1, m2, e1, rfl, e2⟩ := List.map_eq_append_iff.1 e
  obtain ⟨a, m3, rfl, e3, rfl⟩ := List.map_eq_cons_iff.1 e2
  injection e3 with e3 e4
  injection e4 with e4 e5
  subst e3 e4 e5
  refine ⟨rfl, (hm a).1 (by rw [e1]; simp), rfl, fun d hd hk hne => ?_⟩
  have hd' := (hm d).2 hd
  rw [e1] at hd' hp
  rcases List.mem_append.1 hd' with h1 | h1
  · exact (List.pairwise_append.1 hp).2.2 d h1 a (by simp)
  · rcases List.mem_cons.1 h1 with h1 | h1
    · exact absurd h1 hne
    · exact absurd hk (hl _ (List.mem_map_of_mem h1))

/-- Non-vacuity: the classes of the diamond, given bottom up, are listed top down; 4 and 5 have as many ancestors and stay in the order given. -/
example : IsPython diamond ∧ listing diamond [6, 5, 4, 3, 2] = [2, 3, 5, 4, 6] ∧ PkgAncestor diamond [6, 5, 4, 3, 2] 6 2 ∧
    Before diamond [6, 5, 4, 3, 2] 5 4 := ⟨by decide +kernel, by decide +kernel, by decide +kernel, .inr ⟨by decide +kernel, by decide +kernel⟩⟩

/-- **C143.** What `package[namespace]` is: the property of that namespace that is listed last, else the object class of that namespace that is listed last;
nothing iff no class has that namespace. -/
theorem package_lookup (h : Hier C) (ns : C → String) (objects properties : List C) (key : String) :
    (∀ b c, (packageRef h ns objects properties).dget key = some (b, c) →
      (b = true ∧ Last h properties ns key c) ∨ (b = false ∧ (∀ d ∈ properties, ns d ≠ key) ∧ Last h objects ns key c)) ∧
    ((packageRef h ns objects properties).dget key = none ↔ ∀ d, d ∈ objects ∨ d ∈ properties → ns d ≠ key) := by
  obtain ⟨-, ho, -⟩ := listing_order h objects
  obtain ⟨-, hp, -⟩ := listing_order h properties
  unfold packageRef
  rw [dget_dictOf]
  constructor
  · intro b c hc
    obtain ⟨l1, l2, e, hl⟩ := reverse_dget _ _ _ hc
    rcases List.append_eq_append_iff.1 e with ⟨m, rfl, e1⟩ | ⟨m, e1, e2⟩
    · left
      exact last_of h properties ns key true e1 hl
    · cases m with
      | nil =>
        rw [List.nil_append] at e2
        left
        exact last_of h properties ns key true (l1 := []) e2.symm hl
      | cons x m =>
        rw [List.cons_append] at e2
        injection e2 with e2 e3
        subst e2 e3
        obtain ⟨h1, h2⟩ := last_of h objects ns key false e1 fun p hp => hl p (List.mem_append_left _ hp)
        exact .inr ⟨h1, fun d hd => hl _ (List.mem_append_right _ (List.mem_map_of_mem ((hp d).2 hd))), h2⟩
  · rw [PyDict.dget_eq_none]
    constructor
    · rintro hn d hd rfl
      refine hn ?_
      rcases hd with hd | hd
      · exact List.mem_map.2 ⟨(ns d, (false, d)), by simp [ho, hd], rfl⟩
      · exact List.mem_map.2 ⟨(ns d, (true, d)), by simp [hp, hd], rfl⟩
    · intro hn hm
      obtain ⟨⟨k, b, c⟩, h1, rfl⟩ := List.mem_map.1 hm
      rw [List.mem_reverse] at h1
      rcases List.mem_append.1 h1 with h1 | h1
      · obtain ⟨d, hd, e⟩ := List.mem_map.1 h1
        exact hn d (.inl ((ho d).1 hd)) (by injection e)
      · obtain ⟨d, hd, e⟩ := List.mem_map.1 h1
        exact hn d (.inr ((hp d).1 hd)) (by injection e)

/-- C143: a subclass with the namespace of its ancestor hides it. -/
theorem subclass_hides {h : Hier C} (hp : IsPython h) (ns : C → String) (objects properties : List C) {c a : C} (hc : c ∈ objects)
    (ha : PkgAncestor h objects c a) (hn : ns c = ns a) : (packageRef h ns objects properties).dget (ns a) ≠ some (false, a) := by
  intro e
  rcases (package_lookup h ns objects properties (ns a)).1 _ _ e with ⟨h1, -⟩ | ⟨-, -, -, -, h1⟩
  · cases h1
  · have := rank_lt hp ha
    rcases h1 c hc hn ha.2.2.symm with h2 | h2 <;> omega

/-- Non-vacuity: 6 has the namespace of its ancestor 3, and is what the package finds. -/
example : (packageRef diamond (fun c => if c = 6 ∨ c = 3 then "x" else "y") [6, 5, 4, 3, 2] []).dget "x" = some (false, 6) ∧
    (packageRef diamond (fun c => if c = 6 ∨ c = 3 then "x" else "y") [6, 5, 4, 2] [3]).dget "x" = some (true, 3) := by
  constructor <;> decide +kernel

end Verif.Props.Listing
