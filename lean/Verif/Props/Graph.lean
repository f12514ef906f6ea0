import Verif.Jsonld.Graph
import Verif.Props.Data
import Mathlib.Order.WellFounded
import Mathlib.Data.Fintype.Order
import Mathlib.Logic.Relation

/-!
# C121: writing objects that refer to each other
-/
namespace Verif.Props
open Verif Verif.Jsonld Verif.Jsonld.Graph

/-! ### Specification -/

/-- The value at `r` contains the value at `s` in a way that is written: as an item, as a value of a dictionary, or as a property that
is selected for nested objects (not None, and its name is not part of "acontext"). -/
inductive Contains (m : Mem) : Nat → Nat → Prop where
  | item {r s rs} : m r = .seq rs → s ∈ rs → Contains m r s
  | value {r s kvs k} : m r = .dict kvs → (k, s) ∈ kvs → Contains m r s
  | property {r s fs p} : m r = .obj fs → (p, s) ∈ fs → m s ≠ .leaf .none → ¬ PartOf p "acontext" → Contains m r s

/-- The value at `r` has something written inside it `n` levels deep. -/
def Deep (m : Mem) : Nat → Nat → Prop
  | 0, _ => True
  | n + 1, r => ∃ s, Contains m r s ∧ Deep m n s

/-- The value at `r` contains itself, directly or inside others. -/
def Cyclic (m : Mem) (r : Nat) : Prop := Relation.TransGen (Contains m) r r

/-- The tree `v` is stored at `r`. -/
inductive Stored (m : Mem) : Nat → Val → Prop where
  | leaf {r v} : m r = .leaf v → Stored m r v
  | list {r rs xs} : m r = .seq rs → rs.length = xs.length →
      (∀ (i s : Nat) (x : Val), rs[i]? = some s → xs[i]? = some x → Stored m s x) → Stored m r (.list xs)
  | dict {r krs kvs} : m r = .dict krs → krs.map Prod.fst = kvs.map Prod.fst →
      (∀ (i : Nat) (k : Key) (s : Nat) (x : Val), krs[i]? = some (k, s) → kvs[i]? = some (k, x) → Stored m s x) → Stored m r (.dict kvs)
  | obj {r c prs fs} : m r = .obj prs → prs.map Prod.fst = fs.map Prod.fst →
      (∀ (i : Nat) (p : String) (s : Nat) (x : Val), prs[i]? = some (p, s) → fs[i]? = some (p, x) → Stored m s x) →
      Stored m r (.obj c fs)

/-! ### Proofs -/

theorem allSome_none {X : Type} (l : List (Option X)) : allSome l = none ↔ none ∈ l := by
  induction l with
  | nil => simp [allSome]
  | cons x l ih => cases x <;> simp [allSome, ih]

theorem allSome_some {X : Type} (l : List X) : allSome (l.map some) = some l := by
  induction l with
  | nil => rfl
  | cons x l ih => simp [allSome, ih]

theorem allSome_eq {X : Type} {l : List (Option X)} {r : List X} : allSome l = some r ↔ l = r.map some := by
  induction l generalizing r with
  | nil => cases r <;> simp [allSome]
  | cons x l ih =>
    cases x with
    | none => cases r <;> simp [allSome]
    | some x => cases r with
      | nil => simp [allSome]
      | cons y r => simp [allSome, ih, and_comm]

theorem cell_isNone (c : Cell) : c.isNone = true ↔ c = .leaf .none := by
  cases c with
  | leaf v => simp [Cell.isNone, isNone_iff]
  | _ => simp [Cell.isNone]

theorem mem_picked_nested {m : Mem} {fs : List (String × Nat)} {p : String} {s : Nat} :
    (p, s) ∈ picked m nestedArgs fs ↔ (p, s) ∈ fs ∧ m s ≠ .leaf .none ∧ ¬ PartOf p "acontext" := by
  have h1 : nestedArgs.includeNone = false := rfl
  have h2 : nestedArgs.include_.truthy = false := rfl
  have h3 : nestedArgs.exclude.truthy = true := rfl
  have h4 : nestedArgs.exclude.has p = true ↔ PartOf p "acontext" := has_iff _ _
  simp only [picked, List.mem_filter, picks, h1, h2, h3, Bool.false_or, Bool.not_false, Bool.true_or, Bool.and_true, Bool.true_and, Bool.and_eq_true,
    Bool.not_eq_true', ← cell_isNone, ← h4, ne_eq, Bool.not_eq_true]

theorem showAt_none (m : Mem) (n r : Nat) : showAt m n r = none ↔ Deep m n r := by
  induction n generalizing r with
  | zero => simp [showAt, Deep]
  | succ n ih =>
    simp only [showAt, Deep]
    cases hm : m r with
    | leaf v =>
      simp only [reduceCtorEq, false_iff, not_exists, not_and]
      intro s hs
      cases hs <;> simp_all
    | seq rs =>
      simp only [Option.map_eq_none_iff, allSome_none, List.mem_map]
      constructor
      · rintro ⟨s, hs, hn⟩
        exact ⟨s, .item hm hs, (ih s).mp hn⟩
      · rintro ⟨s, hs, hd⟩
        cases hs with
        | item h hs => rw [hm] at h; cases h; exact ⟨s, hs, (ih s).mpr hd⟩
        | value h _ => rw [hm] at h; cases h
        | property h _ _ _ => rw [hm] at h; cases h
    | dict kvs =>
      simp only [Option.map_eq_none_iff, allSome_none, List.mem_map]
      constructor
      · rintro ⟨⟨k, s⟩, hs, hn⟩
        exact ⟨s, .value hm hs, (ih s).mp hn⟩
      · rintro ⟨s, hs, hd⟩
        cases hs with
        | item h _ => rw [hm] at h; cases h
        | value h hs => rw [hm] at h; cases h; exact ⟨_, hs, (ih s).mpr hd⟩
        | property h _ _ _ => rw [hm] at h; cases h
    | obj fs =>
      simp only [Option.map_eq_none_iff, allSome_none, List.mem_map]
      constructor
      · rintro ⟨⟨p, s⟩, hs, hn⟩
        obtain ⟨a, b, c⟩ := mem_picked_nested.mp hs
        exact ⟨s, .property hm a b c, (ih s).mp hn⟩
      · rintro ⟨s, hs, hd⟩
        cases hs with
        | item h _ => rw [hm] at h; cases h
        | value h _ => rw [hm] at h; cases h
        | property h a b c => rw [hm] at h; cases h; exact ⟨_, mem_picked_nested.mpr ⟨a, b, c⟩, (ih s).mpr hd⟩

theorem mem_picked {m : Mem} {a : DataArgs} {fs : List (String × Nat)} {p : String} {s : Nat} :
    (p, s) ∈ picked m a fs ↔ (p, s) ∈ fs ∧ (a.includeNone = true ∨ m s ≠ .leaf .none) ∧ (Nothing a.include_ ∨ Named a.include_ p) ∧
      (Nothing a.exclude ∨ ¬ Named a.exclude p) := by
  simp only [picked, List.mem_filter, picks, Bool.and_eq_true, Bool.or_eq_true, Bool.not_eq_true', ← cell_isNone, ← has_iff, ← truthy_iff,
    Bool.and_eq_false_iff, and_assoc, ne_eq, Bool.not_eq_true]

/-- **C121 (partial).** `data` raises RecursionError exactly if something is written deeper than the recursion limit inside one of the
selected properties; the arguments decide which properties are looked at, at the top only. -/
theorem data_recursion_partial (m : Mem) (limit : Nat) (a : DataArgs) (fs : List (String × Nat)) :
    dataAt m limit a fs = none ↔
      ∃ p s, (p, s) ∈ fs ∧ (a.includeNone = true ∨ m s ≠ .leaf .none) ∧ (Nothing a.include_ ∨ Named a.include_ p) ∧
        (Nothing a.exclude ∨ ¬ Named a.exclude p) ∧ Deep m limit s := by
  simp only [dataAt, Option.map_eq_none_iff, allSome_none, List.mem_map, Prod.exists, showAt_none, mem_picked, and_assoc]

theorem deep_of_le {m : Mem} {n k r : Nat} (h : n ≤ k) (hd : Deep m k r) : Deep m n r := by
  induction n generalizing k r with
  | zero => trivial
  | succ n ih =>
    obtain ⟨k, rfl⟩ : ∃ j, k = j + 1 := ⟨k - 1, by omega⟩
    obtain ⟨s, hs, hd⟩ := hd
    exact ⟨s, hs, ih (by omega) hd⟩

theorem showAt_mono {m : Mem} {n k r : Nat} {v : Val} (h : n ≤ k) (hs : showAt m n r = some v) : showAt m k r = some v := by
  induction n generalizing k r v with
  | zero => simp [showAt] at hs
  | succ n ih =>
    obtain ⟨k, rfl⟩ : ∃ j, k = j + 1 := ⟨k - 1, by omega⟩
    have hk : n ≤ k := by omega
    have key : ∀ {Y : Type} (l : List (Y × Nat)) (f : Y × Nat → Val → Key × Val) (w : List (Key × Val)),
        allSome (l.map fun x => (showAt m n x.2).map (f x)) = some w → allSome (l.map fun x => (showAt m k x.2).map (f x)) = some w := by
      intro Y l f w hw
      induction l generalizing w with
      | nil => simpa using hw
      | cons x l ihl =>
        rw [allSome_eq] at hw ⊢
        cases w with
        | nil => simp at hw
        | cons y w =>
          simp only [List.map_cons, List.cons.injEq, Option.map_eq_some_iff] at hw ⊢
          obtain ⟨⟨u, hu, e⟩, hr⟩ := hw
          exact ⟨⟨u, ih hk hu, e⟩, allSome_eq.mp (ihl w (allSome_eq.mpr hr))⟩
    simp only [showAt] at hs ⊢
    cases hm : m r with
    | leaf w => simpa only [hm] using hs
    | seq rs =>
      simp only [hm] at hs ⊢
      obtain ⟨w, hw, rfl⟩ := Option.map_eq_some_iff.mp hs
      refine Option.map_eq_some_iff.mpr ⟨w, ?_, rfl⟩
      clear hs hm
      induction rs generalizing w with
      | nil => simpa using hw
      | cons x l ihl =>
        rw [allSome_eq] at hw ⊢
        cases w with
        | nil => simp at hw
        | cons y w =>
          simp only [List.map_cons, List.cons.injEq] at hw ⊢
          exact ⟨ih hk hw.1, allSome_eq.mp (ihl w (allSome_eq.mpr hw.2))⟩
    | dict kvs =>
      simp only [hm] at hs ⊢
      obtain ⟨w, hw, rfl⟩ := Option.map_eq_some_iff.mp hs
      exact Option.map_eq_some_iff.mpr ⟨w, key kvs (fun kr v => (kr.1, v)) w hw, rfl⟩
    | obj fs =>
      simp only [hm] at hs ⊢
      obtain ⟨w, hw, rfl⟩ := Option.map_eq_some_iff.mp hs
      exact Option.map_eq_some_iff.mpr ⟨w, key _ (fun pr v => (Key.str (nestedArgs.newName pr.1), v)) w hw, rfl⟩

/-- **C121.** A higher recursion limit never changes what is written. -/
theorem data_limit_irrelevant (m : Mem) (n k : Nat) (a : DataArgs) (fs : List (String × Nat)) (d : PyDict String Val) (h : n ≤ k)
    (hd : dataAt m n a fs = some d) : dataAt m k a fs = some d := by
  obtain ⟨w, hw, rfl⟩ := Option.map_eq_some_iff.mp hd
  refine Option.map_eq_some_iff.mpr ⟨w, ?_, rfl⟩
  generalize picked m a fs = l at hw
  clear hd
  induction l generalizing w with
  | nil => simpa using hw
  | cons x l ihl =>
    rw [allSome_eq] at hw ⊢
    cases w with
    | nil => simp at hw
    | cons y w =>
      simp only [List.map_cons, List.cons.injEq, Option.map_eq_some_iff] at hw ⊢
      obtain ⟨⟨u, hu, e⟩, hr⟩ := hw
      exact ⟨⟨u, showAt_mono h hu, e⟩, allSome_eq.mp (ihl w (allSome_eq.mpr hr))⟩

theorem stored_none {m : Mem} {r : Nat} {v : Val} (h : Stored m r v) : (m r).isNone = v.isNone := by
  cases h with
  | leaf h => simp [h, Cell.isNone]
  | list h _ _ => simp [h, Cell.isNone, Val.isNone]
  | dict h _ _ => simp [h, Cell.isNone, Val.isNone]
  | obj h _ _ => simp [h, Cell.isNone, Val.isNone]

/-- A property list and the trees stored there. -/
theorem stored_pairs {m : Mem} {n : Nat} {Y Z : Type} (g : Y → Z) (keep : Y → Bool → Bool) (prs : List (Y × Nat)) (fs : List (Y × Val))
    (hk : prs.map Prod.fst = fs.map Prod.fst)
    (hs : ∀ (i : Nat) (p : Y) (s : Nat) (x : Val), prs[i]? = some (p, s) → fs[i]? = some (p, x) →
      Stored m s x ∧ ∀ w, showAt m n s = some w → w = handler x) (w : List (Z × Val))
    (h : allSome ((prs.filter fun pr => keep pr.1 (m pr.2).isNone).map fun pr => (showAt m n pr.2).map fun v => (g pr.1, v)) = some w) :
    w = (fs.filter fun pv => keep pv.1 pv.2.isNone).map fun pv => (g pv.1, handler pv.2) := by
  induction prs generalizing fs w with
  | nil =>
    cases fs with
    | nil => simpa [allSome] using h.symm
    | cons f fs => simp at hk
  | cons pr prs ih =>
    cases fs with
    | nil => simp at hk
    | cons f fs =>
      obtain ⟨p, s⟩ := pr
      obtain ⟨q, x⟩ := f
      simp only [List.map_cons, List.cons.injEq] at hk
      obtain ⟨rfl, hk⟩ := hk
      have h0 := hs 0 p s x rfl rfl
      have ih' := ih fs hk fun i p' s' x' h1 h2 => hs (i + 1) p' s' x' h1 h2
      have hn := stored_none h0.1
      cases hc : keep p x.isNone with
      | false =>
        rw [List.filter_cons_of_neg (by simp [hn, hc])] at h
        rw [List.filter_cons_of_neg (by simp [hc])]
        exact ih' w h
      | true =>
        rw [List.filter_cons_of_pos (by simp [hn, hc])] at h
        rw [List.filter_cons_of_pos (by simp [hc])]
        rw [allSome_eq] at h
        cases w with
        | nil => simp at h
        | cons y w =>
          simp only [List.map_cons, List.cons.injEq, Option.map_eq_some_iff] at h ⊢
          obtain ⟨⟨u, hu, e⟩, hr⟩ := h
          refine ⟨?_, ih' w (allSome_eq.mpr hr)⟩
          rw [← e, h0.2 u hu]

theorem nested_selects (p : String) (v : Val) : nestedArgs.selects p v = (!v.isNone && !(nestedArgs.exclude.has p)) := by
  simp [DataArgs.selects, nestedArgs, Names.truthy]

theorem nested_picks (m : Mem) (p : String) (r : Nat) : picks m nestedArgs p r = (!(m r).isNone && !(nestedArgs.exclude.has p)) := by
  simp [picks, nestedArgs, Names.truthy]

theorem showAt_stored {m : Mem} {r : Nat} {v : Val} (h : Stored m r v) (n : Nat) (w : Val) (hw : showAt m n r = some w) : w = handler v := by
  induction h generalizing n w with
  | @leaf r v h =>
    cases n with
    | zero => simp [showAt] at hw
    | succ n => simpa [showAt, h] using hw.symm
  | @list r rs xs h hl hs ih =>
    cases n with
    | zero => simp [showAt] at hw
    | succ n =>
      simp only [showAt, h] at hw
      obtain ⟨ws, hws, rfl⟩ := Option.map_eq_some_iff.mp hw
      simp only [handler, handlerAll_map]
      refine congrArg Val.list ?_
      clear hw h hs
      induction rs generalizing xs ws with
      | nil =>
        obtain rfl : xs = [] := List.length_eq_zero_iff.mp hl.symm
        simpa [allSome] using hws.symm
      | cons s rs ihr =>
        cases xs with
        | nil => simp at hl
        | cons x xs =>
          rw [allSome_eq] at hws
          cases ws with
          | nil => simp at hws
          | cons y ws =>
            simp only [List.map_cons, List.cons.injEq] at hws ⊢
            refine ⟨ih 0 s x rfl rfl n y hws.1, ihr (by simpa using hl) (fun i s' x' h1 h2 => ih (i + 1) s' x' h1 h2) ws (allSome_eq.mpr hws.2)⟩
  | @dict r krs kvs h hk hs ih =>
    cases n with
    | zero => simp [showAt] at hw
    | succ n =>
      simp only [showAt, h] at hw
      obtain ⟨ws, hws, rfl⟩ := Option.map_eq_some_iff.mp hw
      simp only [handler, handlerDict_map]
      refine congrArg Val.dict ?_
      have := stored_pairs (m := m) (n := n) (id : Key → Key) (fun _ _ => true) krs kvs hk
        (fun i p s x h1 h2 => ⟨hs i p s x h1 h2, ih i p s x h1 h2 n⟩) ws (by simpa using hws)
      simpa using this
  | @obj r c prs fs h hk hs ih =>
    cases n with
    | zero => simp [showAt] at hw
    | succ n =>
      simp only [showAt, h] at hw
      obtain ⟨ws, hws, rfl⟩ := Option.map_eq_some_iff.mp hw
      simp only [handler, nestedPairs_map]
      refine congrArg (fun l : List (Key × Val) => Val.dict ((dictOf l).filter fun kv => !kv.2.isNone)) ?_
      have := stored_pairs (m := m) (n := n) (fun p : String => Key.str (nestedArgs.newName p)) (fun p b => !b && !(nestedArgs.exclude.has p)) prs fs hk
        (fun i p s x h1 h2 => ⟨hs i p s x h1 h2, ih i p s x h1 h2 n⟩) ws (by simpa only [picked, nested_picks] using hws)
      simpa only [nested_selects] using this

/-- **C121.** Where the values form trees, however they are shared, what is written is what `Data.lean` describes (C56, C57, C58). -/
theorem data_of_trees (m : Mem) (limit : Nat) (a : DataArgs) (hr : ∀ v, a.rejected v = false) (prs : List (String × Nat)) (fs : List (String × Val))
    (hk : prs.map Prod.fst = fs.map Prod.fst)
    (hs : ∀ (i : Nat) (p : String) (s : Nat) (x : Val), prs[i]? = some (p, s) → fs[i]? = some (p, x) → Stored m s x)
    (d : PyDict String Val) (h : dataAt m limit a prs = some d) : d = data a fs := by
  obtain ⟨ws, hws, rfl⟩ := Option.map_eq_some_iff.mp h
  simp only [data, dataPairs]
  refine congrArg (fun l : List (String × Val) => (dictOf l).filter fun kv => a.includeNone || !kv.2.isNone) ?_
  have := stored_pairs (m := m) (n := limit) a.newName
    (fun p b => (a.includeNone || !b) && (!a.include_.truthy || a.include_.has p) && !(a.exclude.truthy && a.exclude.has p)) prs fs hk
    (fun i p s x h1 h2 => ⟨hs i p s x h1 h2, fun w hw => showAt_stored (hs i p s x h1 h2) limit w hw⟩) ws hws
  simpa only [DataArgs.selects, hr, Bool.not_false, Bool.and_true] using this

/-! ### Termination -/

theorem contains_finite (m : Mem) (r : Nat) : {s | Contains m r s}.Finite := by
  cases hm : m r with
  | leaf v =>
    refine Set.Finite.subset Set.finite_empty fun s hs => ?_
    rcases hs with ⟨h, _⟩ | ⟨h, _⟩ | ⟨h, _⟩ <;> rw [hm] at h <;> cases h
  | seq rs =>
    refine Set.Finite.subset rs.finite_toSet fun s hs => ?_
    rcases hs with ⟨h, hs⟩ | ⟨h, _⟩ | ⟨h, _⟩ <;> rw [hm] at h <;> cases h
    exact hs
  | dict kvs =>
    refine Set.Finite.subset (kvs.map Prod.snd).finite_toSet fun s hs => ?_
    rcases hs with ⟨h, hs⟩ | ⟨h, hs⟩ | ⟨h, _⟩ <;> rw [hm] at h <;> cases h
    exact List.mem_map.mpr ⟨_, hs, rfl⟩
  | obj fs =>
    refine Set.Finite.subset (fs.map Prod.snd).finite_toSet fun s hs => ?_
    rcases hs with ⟨h, hs⟩ | ⟨h, hs⟩ | ⟨h, hs, _, _⟩ <;> rw [hm] at h <;> cases h
    exact List.mem_map.mpr ⟨_, hs, rfl⟩

/-- Nothing is infinitely deep inside `r` iff there is a bound. -/
theorem bounded_iff_acc (m : Mem) (r : Nat) : (∃ n, ¬ Deep m n r) ↔ Acc (fun s t => Contains m t s) r := by
  constructor
  · rintro ⟨n, hn⟩
    induction n generalizing r with
    | zero => exact absurd trivial hn
    | succ n ih =>
      refine Acc.intro r fun s hs => ih s fun hd => hn ⟨s, hs, hd⟩
  · intro h
    induction h with
    | intro r _ ih =>
      choose! f hf using ih
      obtain ⟨B, hB⟩ := ((contains_finite m r).image f).bddAbove
      refine ⟨B + 1, ?_⟩
      rintro ⟨s, hs, hd⟩
      exact hf s hs (deep_of_le (hB ⟨s, hs, rfl⟩) hd)

/-- What can be reached from `r`. -/
def Reaches (m : Mem) (r s : Nat) : Prop := Relation.ReflTransGen (Contains m) r s

theorem acc_iff_no_cycle (m : Mem) (r : Nat) (hf : {s | Reaches m r s}.Finite) :
    Acc (fun s t => Contains m t s) r ↔ ∀ s, Reaches m r s → ¬ Cyclic m s := by
  constructor
  · intro h
    induction h with
    | intro r _ ih =>
      intro s hs hc
      have cyc : ∀ s', Contains m r s' → {x | Reaches m s' x}.Finite := fun s' h' => hf.subset fun x hx => Relation.ReflTransGen.head h' hx
      rcases Relation.ReflTransGen.cases_head hs with rfl | ⟨t, ht, hts⟩
      · obtain ⟨t, ht, hts⟩ := Relation.TransGen.head'_iff.mp hc
        exact ih t ht (cyc t ht) t .refl (Relation.TransGen.tail'_iff.mpr ⟨r, hts, ht⟩)
      · exact ih t ht (cyc t ht) s hts hc
  · intro h
    have hwf : WellFounded (fun (x y : {s | Reaches m r s}) => Relation.TransGen (Contains m) y.1 x.1) := by
      have : Finite {s | Reaches m r s} := hf
      have : IsTrans {s | Reaches m r s} (fun x y => Relation.TransGen (Contains m) y.1 x.1) := ⟨fun _ _ _ h1 h2 => h2.trans h1⟩
      have : Std.Irrefl (fun (x y : {s | Reaches m r s}) => Relation.TransGen (Contains m) y.1 x.1) := ⟨fun x hx => h x.1 x.2 hx⟩
      exact Finite.wellFounded_of_trans_of_irrefl _
    have key : ∀ x : {s | Reaches m r s}, Acc (fun s t => Contains m t s) x.1 := by
      intro x
      induction x using hwf.induction with
      | _ x ih => exact Acc.intro _ fun y hy => ih ⟨y, Relation.ReflTransGen.tail x.2 hy⟩ (.single hy)
    exact key ⟨r, .refl⟩

/-- A property that is written: it is in the list, has a value (or None is wanted), is included and not excluded. -/
def Written (m : Mem) (a : DataArgs) (fs : List (String × Nat)) (s : Nat) : Prop :=
  ∃ p, (p, s) ∈ fs ∧ (a.includeNone = true ∨ m s ≠ .leaf .none) ∧ (Nothing a.include_ ∨ Named a.include_ p) ∧
    (Nothing a.exclude ∨ ¬ Named a.exclude p)

theorem dataAt_none (m : Mem) (limit : Nat) (a : DataArgs) (fs : List (String × Nat)) :
    dataAt m limit a fs = none ↔ ∃ s, Written m a fs s ∧ Deep m limit s := by
  rw [data_recursion_partial]
  constructor
  · rintro ⟨p, s, h1, h2, h3, h4, h5⟩
    exact ⟨s, ⟨p, h1, h2, h3, h4⟩, h5⟩
  · rintro ⟨s, ⟨p, h1, h2, h3, h4⟩, h5⟩
    exact ⟨p, s, h1, h2, h3, h4, h5⟩

/-- **C121 (partial).** With a recursion limit that is high enough `data` returns, exactly if nothing that is written contains itself. -/
theorem data_returns_partial (m : Mem) (a : DataArgs) (fs : List (String × Nat)) (hf : ∀ s, Written m a fs s → {t | Reaches m s t}.Finite) :
    (∃ limit d, dataAt m limit a fs = some d) ↔ ∀ s t, Written m a fs s → Reaches m s t → ¬ Cyclic m t := by
  constructor
  · rintro ⟨limit, d, h⟩ s t hs ht
    refine (acc_iff_no_cycle m s (hf s hs)).mp ((bounded_iff_acc m s).mp ⟨limit, fun hd => ?_⟩) t ht
    rw [(dataAt_none m limit a fs).mpr ⟨s, hs, hd⟩] at h
    cases h
  · intro h
    have hb : ∀ s, Written m a fs s → ∃ n, ¬ Deep m n s := fun s hs =>
      (bounded_iff_acc m s).mpr ((acc_iff_no_cycle m s (hf s hs)).mpr fun t ht => h s t hs ht)
    choose! f hf' using hb
    have hfin : {s | Written m a fs s}.Finite :=
      Set.Finite.subset (fs.map Prod.snd).finite_toSet fun s ⟨p, hp, _⟩ => List.mem_map.mpr ⟨_, hp, rfl⟩
    obtain ⟨B, hB⟩ := (hfin.image f).bddAbove
    refine ⟨B, Option.isSome_iff_exists.mp (Option.isSome_iff_ne_none.mpr fun hn => ?_)⟩
    obtain ⟨s, hs, hd⟩ := (dataAt_none m B a fs).mp hn
    exact hf' s hs (deep_of_le (hB ⟨s, hs, rfl⟩) hd)

theorem deep_of_cyclic {m : Mem} {r : Nat} (h : Cyclic m r) (n : Nat) : Deep m n r := by
  have : ∀ n r, (∃ t, Reaches m r t ∧ Cyclic m t) → Deep m n r := by
    intro n
    induction n with
    | zero => exact fun _ _ => trivial
    | succ n ih =>
      rintro r ⟨t, hrt, hc⟩
      rcases Relation.ReflTransGen.cases_head hrt with rfl | ⟨u, hu, hut⟩
      · obtain ⟨u, hu, hut⟩ := Relation.TransGen.head'_iff.mp hc
        exact ⟨u, hu, ih u ⟨u, .refl, Relation.TransGen.tail'_iff.mpr ⟨r, hut, hu⟩⟩⟩
      · exact ⟨u, hu, ih u ⟨t, hut, hc⟩⟩
  exact this n r ⟨r, .refl, h⟩

/-- **C121 (counterexample).** An object that is a value of one of its own properties (any but `context` and the like) can never be
written: whatever the recursion limit, `data()` raises RecursionError. -/
theorem data_self_counterexample (m : Mem) (limit r : Nat) (p : String) (fs : List (String × Nat)) (hr : m r = .obj fs) (hp : (p, r) ∈ fs)
    (hn : ¬ PartOf p "acontext") : dataAt m limit {} fs = none := by
  have hne : m r ≠ .leaf .none := by rw [hr]; simp
  refine (dataAt_none m limit {} fs).mpr ⟨r, ⟨p, hp, Or.inr hne, Or.inl rfl, Or.inl rfl⟩, deep_of_cyclic (.single (.property hr hp hne hn)) limit⟩

/-- The same for two objects that refer to each other (a note and the collection of its replies). -/
theorem data_mutual_counterexample (m : Mem) (limit r s : Nat) (p q : String) (fs gs : List (String × Nat)) (hr : m r = .obj fs) (hs : m s = .obj gs)
    (hp : (p, s) ∈ fs) (hq : (q, r) ∈ gs) (hpn : ¬ PartOf p "acontext") (hqn : ¬ PartOf q "acontext") : dataAt m limit {} fs = none := by
  have hne : m s ≠ .leaf .none := by rw [hs]; simp
  have hne' : m r ≠ .leaf .none := by rw [hr]; simp
  refine (dataAt_none m limit {} fs).mpr ⟨s, ⟨p, hp, Or.inr hne, Or.inl rfl, Or.inl rfl⟩, deep_of_cyclic ?_ limit⟩
  exact .head (.property hs hq hne' hqn) (.single (.property hr hp hne hpn))

/-- Objects 0, 1, ..., n, each the value of the `first` of the one before; the last one has no property. -/
def chainTo (n : Nat) : Mem := fun i => if i < n then .obj [("first", i + 1)] else .obj []

theorem chain_contains {n i s : Nat} (h : Contains (chainTo n) i s) : s = i + 1 ∧ i < n := by
  have hc : ∀ c, chainTo n i = c → (i < n ∧ c = .obj [("first", i + 1)]) ∨ c = .obj [] := by
    intro c hc
    unfold chainTo at hc
    by_cases hi : i < n
    · rw [if_pos hi] at hc; exact Or.inl ⟨hi, hc.symm⟩
    · rw [if_neg hi] at hc; exact Or.inr hc.symm
  cases h with
  | item h _ => rcases hc _ h with ⟨_, h⟩ | h <;> cases h
  | value h _ => rcases hc _ h with ⟨_, h⟩ | h <;> cases h
  | property h hs _ _ =>
    rcases hc _ h with ⟨hi, h⟩ | h <;> cases h
    · simp only [List.mem_singleton, Prod.mk.injEq] at hs
      exact ⟨hs.2, hi⟩
    · cases hs

theorem notPart_first : ¬ PartOf "first" "acontext" := by
  rw [← isSubstr_iff]
  decide +kernel

theorem chain_deep {n k i : Nat} (h : i + k ≤ n) : Deep (chainTo n) k i := by
  induction k generalizing i with
  | zero => trivial
  | succ k ih =>
    refine ⟨i + 1, .property (fs := [("first", i + 1)]) (p := "first") (if_pos (by omega)) (List.mem_singleton.mpr rfl) ?_ notPart_first, ih (by omega)⟩
    unfold chainTo
    split_ifs <;> simp

theorem chain_reaches {n i s : Nat} (h : Relation.TransGen (Contains (chainTo n)) i s) : i < s ∧ s ≤ n := by
  induction h with
  | single h => have := chain_contains h; omega
  | tail _ h ih => have := chain_contains h; omega

/-- **C121 (counterexample).** Nothing contains itself, but the chain of objects is longer than the recursion limit (1000 in CPython
unless changed): `data()` raises RecursionError. -/
theorem data_chain_counterexample (limit : Nat) :
    dataAt (chainTo (limit + 1)) limit {} [("first", 1)] = none ∧ chainTo (limit + 1) 0 = .obj [("first", 1)] ∧
      ∀ r, ¬ Cyclic (chainTo (limit + 1)) r := by
  refine ⟨?_, if_pos (by omega), fun r h => ?_⟩
  · refine (dataAt_none _ _ _ _).mpr ⟨1, ⟨"first", List.mem_singleton.mpr rfl, Or.inr ?_, Or.inl rfl, Or.inl rfl⟩, chain_deep (by omega)⟩
    unfold chainTo
    split_ifs <;> simp
  · have := chain_reaches h
    omega

/-- Non-vacuity of `data_returns_partial`: a shared object and a cycle through `context`, which is not written in nested objects. -/
def sharedMem : Mem := fun i => if i = 0 then .obj [("items", 1), ("first", 2)] else if i = 1 then .seq [2, 2]
  else if i = 2 then .obj [("id", 3), ("context", 0)] else .leaf (.str "x")

example : dataAt sharedMem 4 {} [("items", 1), ("first", 2)] =
    some [("items", .list [.dict [(.str "id", .str "x")], .dict [(.str "id", .str "x")]]), ("first", .dict [(.str "id", .str "x")])] := by rfl

/-- Non-vacuity of `data_of_trees`. -/
example : Stored sharedMem 3 (.str "x") := .leaf rfl
example : ¬ Cyclic sharedMem 3 := by
  intro h
  obtain ⟨t, ht, _⟩ := Relation.TransGen.head'_iff.mp h
  rcases ht with ⟨h, _⟩ | ⟨h, _⟩ | ⟨h, _⟩ <;> cases h

end Verif.Props
