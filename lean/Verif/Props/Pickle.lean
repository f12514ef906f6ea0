import Verif.Db.Pickle
import Verif.Props.Recover

/-!
# Storing objects whose classes come from a package (C127)
-/
namespace Verif.Props.Pickle
open Verif Verif.Storage Verif.Spec Verif.Db Verif.Db.Pickle Verif.Jsonld.Clone

/-! ### What occurs in a value -/

/-- `Occurs k v`: somewhere in `v`, at whatever depth, is an instance of the class `k`. -/
inductive Occurs {K : Type} (k : K) : Item K → Prop where
  | here (xs : List (Item K)) : Occurs k (.inst k xs)
  | state (j : K) (xs : List (Item K)) (x : Item K) : x ∈ xs → Occurs k x → Occurs k (.inst j xs)
  | part (xs : List (Item K)) (x : Item K) : x ∈ xs → Occurs k x → Occurs k (.many xs)

set_option linter.unusedSectionVars false
variable {K : Type} [DecidableEq K]

mutual
theorem loads_dumps (p : Program K) : ∀ (v : Item K) (b : Item Home), dumps p v = .ok b → loads p b = .ok v
  | .atom s, b, h => by rw [dumps] at h; obtain rfl := Except.ok.inj h; rw [loads]
  | .many xs, b, h => by
    rw [dumps] at h
    cases hx : dumpsAll p xs with
    | error e => rw [hx] at h; cases h
    | ok ys =>
      rw [hx] at h; obtain rfl := Except.ok.inj h
      rw [loads, loads_dumpsAll p xs ys hx]; rfl
  | .inst k xs, b, h => by
    rw [dumps] at h
    unfold saveGlobal at h
    by_cases hf : p.found (p.home k) = some k
    · rw [if_pos hf] at h
      cases hx : dumpsAll p xs with
      | error e => rw [hx] at h; cases h
      | ok ys =>
        rw [hx] at h; obtain rfl := Except.ok.inj h
        rw [loads]; unfold findClass; rw [hf]; simp only
        rw [loads_dumpsAll p xs ys hx]; rfl
    · rw [if_neg hf] at h; cases h
theorem loads_dumpsAll (p : Program K) : ∀ (xs : List (Item K)) (ys : List (Item Home)), dumpsAll p xs = .ok ys → loadsAll p ys = .ok xs
  | [], ys, h => by rw [dumpsAll] at h; obtain rfl := Except.ok.inj h; rw [loadsAll]
  | x :: xs, ys, h => by
    rw [dumpsAll] at h
    cases hx : dumps p x with
    | error e => rw [hx] at h; cases h
    | ok y =>
      rw [hx] at h; simp only at h
      cases hxs : dumpsAll p xs with
      | error e => rw [hxs] at h; cases h
      | ok zs =>
        rw [hxs] at h; obtain rfl := Except.ok.inj h
        rw [loadsAll, loads_dumps p x y hx]; simp only
        rw [loads_dumpsAll p xs zs hxs]; rfl
end

mutual
theorem dumps_iff (p : Program K) : ∀ v : Item K, (∃ b, dumps p v = .ok b) ↔ ∀ k, Occurs k v → p.found (p.home k) = some k
  | .atom s => by
    rw [dumps]
    exact ⟨fun _ k h => (by cases h), fun _ => ⟨_, rfl⟩⟩
  | .many xs => by
    rw [dumps]
    have ih := dumpsAll_iff p xs
    constructor
    · rintro ⟨b, h⟩ k hk
      cases hx : dumpsAll p xs with
      | error e => rw [hx] at h; cases h
      | ok ys =>
        cases hk with
        | part _ x hm ho => exact ih.1 ⟨ys, hx⟩ x hm k ho
    · intro h
      obtain ⟨ys, hy⟩ := ih.2 fun x hx k hk => h k (.part xs x hx hk)
      exact ⟨_, by rw [hy]; rfl⟩
  | .inst j xs => by
    rw [dumps]
    have ih := dumpsAll_iff p xs
    unfold saveGlobal
    constructor
    · rintro ⟨b, h⟩ k hk
      by_cases hf : p.found (p.home j) = some j
      · rw [if_pos hf] at h
        cases hx : dumpsAll p xs with
        | error e => rw [hx] at h; cases h
        | ok ys =>
          cases hk with
          | here => exact hf
          | state _ _ x hm ho => exact ih.1 ⟨ys, hx⟩ x hm k ho
      · rw [if_neg hf] at h; cases h
    · intro h
      obtain ⟨ys, hy⟩ := ih.2 fun x hx k hk => h k (.state j xs x hx hk)
      exact ⟨_, by rw [if_pos (h j (.here xs)), hy]; rfl⟩
theorem dumpsAll_iff (p : Program K) : ∀ xs : List (Item K),
    (∃ b, dumpsAll p xs = .ok b) ↔ ∀ x ∈ xs, ∀ k, Occurs k x → p.found (p.home k) = some k
  | [] => by
    rw [dumpsAll]
    exact ⟨fun _ x hx => absurd hx List.not_mem_nil, fun _ => ⟨_, rfl⟩⟩
  | x :: xs => by
    rw [dumpsAll]
    have h1 := dumps_iff p x
    have h2 := dumpsAll_iff p xs
    constructor
    · rintro ⟨b, h⟩
      cases hx : dumps p x with
      | error e => rw [hx] at h; cases h
      | ok y =>
        rw [hx] at h; simp only at h
        cases hxs : dumpsAll p xs with
        | error e => rw [hxs] at h; cases h
        | ok zs =>
          intro z hz
          rcases List.mem_cons.1 hz with rfl | hz
          · exact h1.1 ⟨y, hx⟩
          · exact h2.1 ⟨zs, hxs⟩ z hz
    · intro h
      obtain ⟨y, hy⟩ := h1.2 (h x List.mem_cons_self)
      obtain ⟨zs, hz⟩ := h2.2 fun z hz => h z (List.mem_cons_of_mem _ hz)
      exact ⟨y :: zs, by rw [hy, hz]; rfl⟩
end

theorem storable_iff_dumps (p : Program K) (v : Item K) : storable p v = true ↔ ∃ b, dumps p v = .ok b := by
  unfold storable
  cases dumps p v with
  | error e => exact ⟨fun h => (by cases h), fun ⟨_, h⟩ => (by cases h)⟩
  | ok b => exact ⟨fun _ => ⟨b, rfl⟩, fun _ => rfl⟩

/-- **C127.** A value can be stored exactly if every class with an instance anywhere in it is found under its own module and name; what is
stored then loads as the same value. -/
theorem storable_iff (p : Program K) (v : Item K) :
    (storable p v = true ↔ ∀ k, Occurs k v → p.found (p.home k) = some k) ∧
    ∀ b, dumps p v = .ok b → loads p b = .ok v :=
  ⟨(storable_iff_dumps p v).trans (dumps_iff p v), fun b => loads_dumps p v b⟩

variable {C : Type} [DecidableEq C]

/-- A value in which an instance of a packaged class occurs cannot be stored; one without can, if its own classes can. -/
theorem storable_clones (p : Program C) (v : Item (Node C)) :
    (∀ c, Occurs (.clone c) v → storable (withClones p) v = false) ∧
    ((∀ k, Occurs k v → ∃ c, k = .orig c ∧ p.found (p.home c) = some c) ↔ storable (withClones p) v = true) := by
  have key := (storable_iff (withClones p) v).1
  constructor
  · intro c hc
    by_contra hne
    have := key.1 (by simpa using hne) _ hc
    simp only [withClones, Option.map_eq_some_iff] at this
    obtain ⟨_, _, h⟩ := this
    cases h
  · rw [key]
    refine forall_congr' fun k => forall_congr' fun _ => ?_
    constructor
    · rintro ⟨c, rfl, hc⟩
      show (p.found (p.home c)).map Node.orig = _
      rw [hc]; rfl
    · intro h
      cases k with
      | orig c =>
        refine ⟨c, rfl, ?_⟩
        change (p.found (p.home c)).map Node.orig = some (.orig c) at h
        cases hf : p.found (p.home c) with
        | none => rw [hf] at h; cases h
        | some d => rw [hf] at h; cases h; rfl
      | clone c =>
        change (p.found (p.home c)).map Node.orig = some (.clone c) at h
        cases hf : p.found (p.home c) with
        | none => rw [hf] at h; cases h
        | some d => rw [hf] at h; cases h

mutual
/-- C127: a record can be read back iff the program has a class under each name in it; if not, reading raises AttributeError. -/
theorem loads_iff (p : Program K) : ∀ b : Item Home, ((∃ v, loads p b = .ok v) ↔ ∀ h, Occurs h b → p.found h ≠ none) ∧
    ∀ e, loads p b = .error e → e = .attributeError
  | .atom s => by
    rw [loads]
    exact ⟨⟨fun _ k h => (by cases h), fun _ => ⟨_, rfl⟩⟩, fun e h => (by cases h)⟩
  | .many xs => by
    rw [loads]
    obtain ⟨ih, ie⟩ := loadsAll_iff p xs
    refine ⟨⟨?_, ?_⟩, ?_⟩
    · rintro ⟨b, h⟩ k hk
      cases hx : loadsAll p xs with
      | error e => rw [hx] at h; cases h
      | ok ys =>
        cases hk with
        | part _ x hm ho => exact ih.1 ⟨ys, hx⟩ x hm k ho
    · intro h
      obtain ⟨ys, hy⟩ := ih.2 fun x hx k hk => h k (.part xs x hx hk)
      exact ⟨_, by rw [hy]; rfl⟩
    · intro e h
      cases hx : loadsAll p xs with
      | error e' => rw [hx] at h; cases h; exact ie _ hx
      | ok ys => rw [hx] at h; cases h
  | .inst j xs => by
    rw [loads]
    obtain ⟨ih, ie⟩ := loadsAll_iff p xs
    unfold findClass
    refine ⟨⟨?_, ?_⟩, ?_⟩
    · rintro ⟨b, h⟩ k hk
      cases hf : p.found j with
      | none => rw [hf] at h; cases h
      | some c =>
        rw [hf] at h
        cases hx : loadsAll p xs with
        | error e => rw [hx] at h; cases h
        | ok ys =>
          cases hk with
          | here => rw [hf]; simp
          | state _ _ x hm ho => exact ih.1 ⟨ys, hx⟩ x hm k ho
    · intro h
      obtain ⟨ys, hy⟩ := ih.2 fun x hx k hk => h k (.state j xs x hx hk)
      cases hf : p.found j with
      | none => exact absurd hf (h j (.here xs))
      | some c => exact ⟨_, by rw [hy]; rfl⟩
    · intro e h
      cases hf : p.found j with
      | none => rw [hf] at h; cases h; rfl
      | some c =>
        rw [hf] at h; simp only at h
        cases hx : loadsAll p xs with
        | error e' => rw [hx] at h; cases h; exact ie _ hx
        | ok ys => rw [hx] at h; cases h
theorem loadsAll_iff (p : Program K) : ∀ xs : List (Item Home),
    ((∃ b, loadsAll p xs = .ok b) ↔ ∀ x ∈ xs, ∀ k, Occurs k x → p.found k ≠ none) ∧ ∀ e, loadsAll p xs = .error e → e = .attributeError
  | [] => by
    rw [loadsAll]
    exact ⟨⟨fun _ x hx => absurd hx List.not_mem_nil, fun _ => ⟨_, rfl⟩⟩, fun e h => (by cases h)⟩
  | x :: xs => by
    rw [loadsAll]
    obtain ⟨h1, e1⟩ := loads_iff p x
    obtain ⟨h2, e2⟩ := loadsAll_iff p xs
    refine ⟨⟨?_, ?_⟩, ?_⟩
    · rintro ⟨b, h⟩
      cases hx : loads p x with
      | error e => rw [hx] at h; cases h
      | ok y =>
        rw [hx] at h; simp only at h
        cases hxs : loadsAll p xs with
        | error e => rw [hxs] at h; cases h
        | ok zs =>
          intro z hz
          rcases List.mem_cons.1 hz with rfl | hz
          · exact h1.1 ⟨y, hx⟩
          · exact h2.1 ⟨zs, hxs⟩ z hz
    · intro h
      obtain ⟨y, hy⟩ := h1.2 (h x List.mem_cons_self)
      obtain ⟨zs, hz⟩ := h2.2 fun z hz => h z (List.mem_cons_of_mem _ hz)
      exact ⟨y :: zs, by rw [hy, hz]; rfl⟩
    · intro e h
      cases hx : loads p x with
      | error e' => rw [hx] at h; cases h; exact e1 _ hx
      | ok y =>
        rw [hx] at h; simp only at h
        cases hxs : loadsAll p xs with
        | error e' => rw [hxs] at h; cases h; exact e2 _ hxs
        | ok zs => rw [hxs] at h; cases h
end

mutual
theorem loads_occurs (p : Program K) : ∀ (b : Item Home) (v : Item K), loads p b = .ok v → ∀ k, Occurs k v → ∃ h, p.found h = some k
  | .atom s, v, h => by rw [loads] at h; obtain rfl := Except.ok.inj h; intro k hk; cases hk
  | .many xs, v, h => by
    rw [loads] at h
    cases hx : loadsAll p xs with
    | error e => rw [hx] at h; cases h
    | ok ys =>
      rw [hx] at h; obtain rfl := Except.ok.inj h
      intro k hk
      cases hk with
      | part _ x hm ho => exact loadsAll_occurs p xs ys hx x hm k ho
  | .inst hh xs, v, h => by
    rw [loads] at h
    unfold findClass at h
    cases hf : p.found hh with
    | none => rw [hf] at h; cases h
    | some j =>
      rw [hf] at h; simp only at h
      cases hx : loadsAll p xs with
      | error e => rw [hx] at h; cases h
      | ok ys =>
        rw [hx] at h; obtain rfl := Except.ok.inj h
        intro k hk
        cases hk with
        | here => exact ⟨hh, hf⟩
        | state _ _ x hm ho => exact loadsAll_occurs p xs ys hx x hm k ho
theorem loadsAll_occurs (p : Program K) : ∀ (bs : List (Item Home)) (vs : List (Item K)), loadsAll p bs = .ok vs →
    ∀ x ∈ vs, ∀ k, Occurs k x → ∃ h, p.found h = some k
  | [], vs, h => by rw [loadsAll] at h; obtain rfl := Except.ok.inj h; intro x hx; cases hx
  | b :: bs, vs, h => by
    rw [loadsAll] at h
    cases hx : loads p b with
    | error e => rw [hx] at h; cases h
    | ok y =>
      rw [hx] at h; simp only at h
      cases hxs : loadsAll p bs with
      | error e => rw [hxs] at h; cases h
      | ok zs =>
        rw [hxs] at h; obtain rfl := Except.ok.inj h
        intro z hz
        rcases List.mem_cons.1 hz with rfl | hz
        · exact loads_occurs p b _ hx
        · exact loadsAll_occurs p bs zs hxs z hz
end

/-- Whatever bytes are loaded: the result holds no instance of a packaged class. -/
theorem loaded_unpackaged (p : Program C) (b : Item Home) (v : Item (Node C)) (h : loads (withClones p) b = .ok v) (c : C) :
    ¬ Occurs (.clone c) v := by
  intro ho
  obtain ⟨hh, hf⟩ := loads_occurs _ b v h _ ho
  simp only [withClones, Option.map_eq_some_iff] at hf
  obtain ⟨_, _, h⟩ := hf
  cases h

/-! ### The container -/

section values
variable {V : Type} {P : V → Prop}

/-- All objects in a group. -/
def Holds (P : V → Prop) (g : CGroup V) : Prop := ∀ x ∈ g.collections, ∀ q ∈ x.tree, P q.2

/-- All objects in the groups of a container. -/
def All (P : V → Prop) (c : Container V) : Prop := ∀ a, a = c.primary ∨ a ∈ c.groups → Holds P (c.heap a)

theorem holds_values (g : CGroup V) : Holds P g ↔ ∀ v ∈ g.values, P v := by
  unfold Holds CGroup.values Collection.values Tree.values
  constructor
  · intro h v hv
    obtain ⟨x, hx, hv⟩ := List.mem_flatMap.1 hv
    obtain ⟨q, hq, rfl⟩ := List.mem_map.1 hv
    exact h x hx q hq
  · intro h x hx q hq
    exact h _ (List.mem_flatMap.2 ⟨x, hx, List.mem_map_of_mem hq⟩)

theorem mem_put (t : Tree String V) (k : String) (v : V) (q : String × V) (h : q ∈ t.put k v) : q ∈ t ∨ q = (k, v) := by
  induction t with
  | nil => simp [Tree.put] at h; exact .inr h
  | cons r t ih =>
    unfold Tree.put at h
    split_ifs at h
    · rcases List.mem_cons.1 h with h | h
      · exact .inr h
      · exact .inl h
    · rcases List.mem_cons.1 h with h | h
      · exact .inr h
      · exact .inl (List.mem_cons_of_mem _ h)
    · rcases List.mem_cons.1 h with h | h
      · exact .inl (h ▸ List.mem_cons_self)
      · rcases ih h with h | h
        · exact .inl (List.mem_cons_of_mem _ h)
        · exact .inr h

theorem holds_route {α : Type} {g : CGroup V} (hg : Holds P g) (key : String) (fn : Collection V → Outcome α × Collection V)
    (hfn : ∀ x : Collection V, (∀ q ∈ x.tree, P q.2) → ∀ q ∈ (fn x).2.tree, P q.2) : Holds P (g.route key fn).2 := by
  unfold CGroup.route
  split
  · exact hg
  · split
    · exact hg
    · rename_i i _ x hx
      intro y hy
      rcases List.mem_or_eq_of_mem_set hy with hy | rfl
      · exact hg y hy
      · exact hfn x (hg x (List.mem_of_getElem? hx))

theorem holds_insert {g : CGroup V} (hg : Holds P g) (key : String) (v : V) (hv : P v) : Holds P (g.insert key v).2 := by
  unfold CGroup.insert
  split
  · exact hg
  · split_ifs
    · exact hg
    · refine holds_route hg key _ fun x hx => ?_
      unfold Collection.insert Tree.insert
      split_ifs
      · exact hx
      · exact hx
      · intro q hq
        rcases mem_put _ _ _ q hq with h | rfl
        · exact hx q h
        · exact hv

theorem holds_pop {g : CGroup V} (hg : Holds P g) (key : String) (d : Option V) : Holds P (g.pop key d).2 := by
  refine holds_route hg key _ fun x hx => ?_
  unfold Collection.pop
  split
  · intro q hq
    exact hx q (List.mem_of_mem_filter hq)
  · exact hx
  · exact hx

theorem mem_update (d : List (String × V)) : ∀ (t : Tree String V) (q : String × V), q ∈ t.update d → q ∈ t ∨ q ∈ d := by
  induction d with
  | nil => intro t q h; exact .inl h
  | cons r d ih =>
    intro t q h
    rcases ih _ q h with h | h
    · rcases mem_put t r.1 r.2 q h with h | h
      · exact .inl h
      · exact .inr (h ▸ List.mem_cons_self)
    · exact .inr (List.mem_cons_of_mem _ h)

theorem holds_updateLoop (n : Nat) (d : List (String × V)) (hd : ∀ q ∈ d, P q.2) : ∀ (cs : List (Collection V)) (i : Nat),
    (∀ x ∈ cs, ∀ q ∈ x.tree, P q.2) → ∀ x ∈ (CGroup.updateLoop n d i cs).2, ∀ q ∈ x.tree, P q.2 := by
  intro cs
  induction cs with
  | nil => intro i h x hx; exact absurd hx List.not_mem_nil
  | cons c cs ih =>
    intro i h
    have ht := ih (i + 1) fun x hx => h x (List.mem_cons_of_mem _ hx)
    have hc := h c List.mem_cons_self
    have hu : ∀ q ∈ (c.update (d.filter fun p => hashId p.1 % n = i)).2.tree, P q.2 := by
      unfold Collection.update
      simp only
      split_ifs
      · exact hc
      · intro q hq
        rcases mem_update _ _ q hq with hq | hq
        · exact hc q hq
        · exact hd q (List.mem_of_mem_filter hq)
    unfold CGroup.updateLoop
    simp only
    split_ifs
    · intro x hx
      rcases List.mem_cons.1 hx with rfl | hx
      · exact hc
      · exact ht x hx
    · rcases hr : c.update (d.filter fun p => hashId p.1 % n = i) with ⟨r, c'⟩
      rw [hr] at hu
      cases r with
      | error e =>
        intro x hx
        rcases List.mem_cons.1 hx with rfl | hx
        · exact hu
        · exact h x (List.mem_cons_of_mem _ hx)
      | ok u =>
        intro x hx
        rcases List.mem_cons.1 hx with rfl | hx
        · exact hu
        · exact ht x hx

theorem holds_update {g : CGroup V} (hg : Holds P g) (d : List (String × V)) (hd : ∀ q ∈ d, P q.2) : Holds P (g.update d).2 := by
  unfold CGroup.update
  simp only
  split_ifs
  · exact hg
  · exact hg
  · exact holds_updateLoop _ d hd g.collections 0 hg

theorem all_put {c : Container V} (h : All P c) (a : Nat) (g : CGroup V) (hg : Holds P g) : All P (c.put a g) := by
  intro b hb
  by_cases e : b = a
  · subst e; simp only [Container.put, Function.update_self]; exact hg
  · simp only [Container.put, Function.update_of_ne e]; exact h b hb

theorem all_write {c : Container V} (h : All P c) (id : String) (v : V) (hv : P v) : All P (c.write id v).2 := by
  have h0 := h _ (.inl rfl)
  have h1 := holds_insert h0 id v hv
  unfold Container.write
  rcases hr : (c.heap c.primary).insert id v with ⟨r, g⟩
  rw [hr] at h1
  rcases r with e | _ | n
  · exact all_put h _ _ h1
  · have h2 := holds_update h1 [(id, v)] fun q hq => by rw [List.mem_singleton] at hq; rw [hq]; exact hv
    simp only
    rcases hu : g.update [(id, v)] with ⟨r', g'⟩
    rw [hu] at h2
    cases r' <;> exact all_put h _ _ h2
  · exact all_put h _ _ h1

theorem all_deleteLoop (id : String) (as : List Nat) : ∀ c : Container V, All P c → (∀ a ∈ as, Holds P (c.heap a)) →
    All P (Container.deleteLoop id as c).2 := by
  induction as with
  | nil => intro c h _; exact h
  | cons a as ih =>
    intro c h ha
    have has := fun b hb => ha b (List.mem_cons_of_mem _ hb)
    have hp := holds_pop (ha a List.mem_cons_self) id none
    unfold Container.deleteLoop
    split
    · exact h
    · exact ih c h has
    · rcases hr : (c.heap a).pop id none with ⟨r, g⟩
      rw [hr] at hp
      cases r with
      | error e => exact all_put h a g hp
      | ok v =>
        have hrec := ih (c.put a g) (all_put h a g hp) fun b hb => by
          by_cases e : b = a
          · subst e; simp only [Container.put, Function.update_self]; exact hp
          · simp only [Container.put, Function.update_of_ne e]; exact has b hb
        simp only
        rcases hd : Container.deleteLoop id as (c.put a g) with ⟨r', c'⟩
        rw [hd] at hrec
        cases r' <;> exact hrec

/-- Does the call write the object `v`? -/
def Puts (op : DbOp V) (v : V) : Prop := ∃ id, op = .create id v ∨ op = .update id v

theorem all_effect [Truthy V] {c : Container V} (h : All P c) (op : DbOp V) (hop : ∀ v, Puts op v → P v) : All P (effect c op) := by
  cases op with
  | create id v =>
    have hw := all_write h id v (hop v ⟨id, .inl rfl⟩)
    show All P (createFn id v c).2
    unfold createFn
    split
    · exact h
    · exact hw
    · exact h
  | update id v =>
    have hw := all_write h id v (hop v ⟨id, .inr rfl⟩)
    show All P (updateFn id v c).2
    unfold updateFn
    split
    · exact h
    · exact hw
  | delete id => exact all_deleteLoop id c.groups c h fun a ha => h a (.inr ha)
  | strict b =>
    show All P (strictFn b c).2
    cases b with
    | none => exact h
    | some b =>
      refine all_put h _ _ ?_
      intro x hx
      obtain ⟨y, hy, rfl⟩ := List.mem_map.1 hx
      exact h _ (.inl rfl) y hy

/-- A create or update that returns has put its object in the container. -/
theorem put_present [Truthy V] {c : Container V} (hr : ContReach c) (op : DbOp V) (v : V) (hp : Puts op v) (r : DbRet V)
    (ho : (op.fn c).1 = .ok r) (ha : All P (effect c op)) : P v := by
  have hw : ∀ id n, (c.write id v).1 = .ok n → All P (c.write id v).2 → P v := by
    intro id n hn hall
    rcases Container.write_spec hr.inv.pinv id v with ⟨e, he, _⟩ | ⟨g, he, hg, _, hv⟩
    · rw [he] at hn; cases hn
    · rw [he] at hall
      have hh := hall c.primary (.inl rfl)
      simp only [Container.put, Function.update_self] at hh
      have hm : (id, v) ∈ g.items := (CGroup.mem_items hg id v).2 (by rw [hv]; simp [Map.set])
      obtain ⟨x, hx, hq⟩ := List.mem_flatMap.1 hm
      exact hh x hx _ hq
  obtain ⟨id, rfl | rfl⟩ := hp
  · have hall : All P (createFn id v c).2 := ha
    change (createFn id v c).1 = .ok r at ho
    unfold createFn at ho hall
    split at ho
    · cases ho
    · rename_i hz
      simp only [hz] at hall
      cases hn : (c.write id v).1 with
      | error e => simp only [hn] at ho; cases ho
      | ok n => exact hw id n hn hall
    · cases ho
  · have hall : All P (updateFn id v c).2 := ha
    change (updateFn id v c).1 = .ok r at ho
    unfold updateFn at ho hall
    split at ho
    · cases ho
    · rename_i hz
      simp only [hz] at hall
      cases hn : (c.write id v).1 with
      | error e => simp only [hn] at ho; cases ho
      | ok n => exact hw id n hn hall

end values

theorem writable_iff (p : Program K) (c : Container (Item K)) : writable p c = true ↔ All (fun v => storable p v = true) c := by
  unfold writable All
  rw [List.all_eq_true]
  constructor
  · intro h a ha
    rw [holds_values]
    exact List.all_eq_true.1 (h a (List.mem_cons.2 ha))
  · intro h a ha
    exact List.all_eq_true.2 ((holds_values _).1 (h a (List.mem_cons.1 ha)))

theorem read_holds {V : Type} [Truthy V] {P : V → Prop} {c : Container V} (hr : ContReach c) (h : All P c) (id : String) (v : V)
    (hv : c.read id = .ok (some v)) : P v := by
  rw [container_read_truthy c hr id] at hv
  obtain ⟨a, ha, hf⟩ := List.exists_of_findSome?_eq_some (Except.ok.inj hv)
  have hw : c.view a id = some v := by
    cases hx : c.view a id with
    | none => rw [hx] at hf; cases hf
    | some w =>
      rw [hx] at hf
      simp only [Option.filter] at hf
      split_ifs at hf
      exact hf
  have hm : (id, v) ∈ (c.heap a).items := (CGroup.mem_items (hr.inv.inv a ha) id v).2 hw
  obtain ⟨x, hx, hq⟩ := List.mem_flatMap.1 hm
  exact h a (.inr ha) x hx _ hq

section sessions
variable [Truthy (Item (Node C))]

/-- **C127 (counterexample).** With autocommit on, creating or updating an object in which an instance of a packaged class occurs raises,
whatever the disk does, and leaves on the disk and in the session what was stored before.  If the call would have worked
otherwise, the session has a failed transaction now: every further call raises (C73). -/
theorem packaged_call_counterexample (p : Program C) (c : Conn (Item (Node C))) (hr : ContReach c.tm.committed)
    (h : c.tm.autocommit = true) (op : DbOp (Item (Node C))) (v : Item (Node C)) (hp : Puts op v) (k : C) (hk : Occurs (.clone k) v) (disk : Bool) :
    let ok := disk && writable (withClones p) (op.fn c.tm.committed).2
    let after := (c.call op ok).2
    event (withClones p) c (.call op disk) = .call op ok ∧
    (∃ e, (c.call op ok).1 = .error e) ∧ after.tm.committed = c.tm.committed ∧ after.tm.log = c.tm.log ∧ after.tm.work = c.tm.committed ∧
    (∀ r, (op.fn c.tm.committed).1 = .ok r → (c.call op ok).1 = .error .storageError ∧ after.autocommit = c.autocommit ∧
      ∀ op' b, (after.call op' b).1 = .error .transactionFailed) := by
  intro ok after
  have hw : isWrite op = true := by obtain ⟨id, rfl | rfl⟩ := hp <;> rfl
  have hauto := connection_autocommit_call c h op hw ok
  have hno : ∀ r, (op.fn c.tm.committed).1 = .ok r → ok = false := by
    intro r ho
    by_contra hne
    have hwr : writable (withClones p) (op.fn c.tm.committed).2 = true := by
      cases disk <;> simp_all [ok]
    have := put_present (P := fun v => storable (withClones p) v = true) hr op v hp r ho ((writable_iff _ _).1 hwr)
    rw [(storable_clones p v).1 k hk] at this
    cases this
  have herr : ∃ e, (c.call op ok).1 = .error e := by
    cases ho : (op.fn c.tm.committed).1 with
    | error e => exact ⟨e, by rw [(call_on c h op hw ok).1 e ho]⟩
    | ok r => exact ⟨_, by rw [(call_on c h op hw ok).2.2 r ho (hno r ho)]⟩
  obtain ⟨e, he⟩ := herr
  obtain ⟨h1, h2, h3⟩ := hauto.2 e he
  refine ⟨rfl, ⟨e, he⟩, h1, h2, h3, fun r ho => ?_⟩
  have h4 := (call_on c h op hw ok).2.2 r ho (hno r ho)
  have hafter : after = _ := congrArg Prod.snd h4
  refine ⟨by rw [h4], by rw [hafter]; rfl, fun op' b => ?_⟩
  rw [call_failed after op' (.inl (by rw [hafter])) (by rw [hafter])]

/-- C127 (counterexample), blocks: if at the end of a `with` block an object with an instance of a packaged class is in the database, the
block raises and everything done in it is lost. -/
theorem packaged_block_counterexample (p : Program C) (c : Conn (Item (Node C))) (hr : ContReach c.tm.committed)
    (ops : List (DbOp (Item (Node C)) × Bool)) (id : String) (v : Item (Node C)) (k : C) (hk : Occurs (.clone k) v) (disk : Bool)
    (hin : (c.enter.steps (callEvents ops)).read id = .ok (some v)) :
    let inside := c.enter.steps (callEvents ops)
    let ok := disk && writable (withClones p) inside.tm.work
    event (withClones p) inside (.exit false disk) = .exit false ok ∧ (∃ e, (inside.exit false ok).1 = .error e) ∧
    (inside.exit false ok).2.tm.committed = c.tm.committed ∧ (inside.exit false ok).2.tm.work = c.tm.committed := by
  intro inside ok
  have hb := connection_block_atomic c ops
  have hwork : inside.tm.work = replay c.tm.committed (ops.map Prod.fst) := hb.2.2.2.1
  have hok : ok = false := by
    by_contra hne
    have hwr : writable (withClones p) inside.tm.work = true := by
      cases disk <;> simp_all [ok]
    have hrw : ContReach inside.tm.work := by rw [hwork]; exact replay_reach hr _
    have := read_holds (P := fun v => storable (withClones p) v = true) hrw ((writable_iff _ _).1 hwr) id v hin
    rw [(storable_clones p v).1 k hk] at this
    cases this
  refine ⟨rfl, ?_⟩
  rw [hok]
  exact hb.2.2.2.2.2.2

end sessions

section history
variable [Truthy (Item K)]

/-- What is and was on disk can be loaded. -/
def DiskOk (p : Program K) (c : Conn (Item K)) : Prop := writable p c.tm.committed = true ∧ ∀ x ∈ c.tm.log, writable p x = true

omit [Truthy (Item K)] in
theorem diskOk_commit (p : Program K) (t : Tm (Container (Item K))) (f f' : Bool) (h : DiskOk p ⟨t, f⟩) (ok : Bool) :
    DiskOk p ⟨(t.commit (ok && writable p t.work)).2, f'⟩ := by
  unfold Tm.commit
  split_ifs with h1 h2
  · exact h
  · have hw : writable p t.work = true := by
      rw [Bool.and_eq_true] at h2; exact h2.2
    exact ⟨hw, fun x hx => (List.mem_cons.1 hx).elim (fun e => e ▸ hw) (h.2 x)⟩
  · exact h

theorem diskOk_step (p : Program K) (c : Conn (Item K)) (h : DiskOk p c) (e : Event (Item K)) : DiskOk p (c.step (event p c e)) := by
  cases e with
  | call op ok =>
    show DiskOk p (c.call op (ok && writable p (op.fn c.tm.committed).2)).2
    generalize hok : (ok && writable p (op.fn c.tm.committed).2) = b
    by_cases hd : c.tm.autocommit = true ∧ isWrite op = true
    · obtain ⟨h1, h2, h3⟩ := call_on c hd.1 op hd.2 b
      cases ho : (op.fn c.tm.committed).1 with
      | error e => rw [h1 e ho]; exact h
      | ok r =>
        cases b with
        | true =>
          rw [h2 r ho rfl]
          have hw : writable p (op.fn c.tm.committed).2 = true := by rw [Bool.and_eq_true] at hok; exact hok.2
          exact ⟨hw, fun x hx => (List.mem_cons.1 hx).elim (fun e => e ▸ hw) (h.2 x)⟩
        | false => rw [h3 r ho rfl]; exact h
    · have hd' : c.tm.autocommit = false ∨ isWrite op = false := by
        cases ha : c.tm.autocommit <;> cases hb : isWrite op <;> simp_all
      cases hf : c.tm.failed with
      | true => rw [call_failed c op hd' hf]; exact h
      | false => rw [call_off c op hd' hf]; exact h
  | setAutocommit b => cases b <;> exact h
  | enter => exact h
  | exit raised ok =>
    show DiskOk p (c.exit raised (ok && writable p c.tm.work)).2
    unfold Conn.exit Tm.exit
    cases raised with
    | true => exact h
    | false =>
      have := diskOk_commit p { c.tm with autocommit := true } c.flag true h ok
      simp only [Bool.false_eq_true, if_false]
      rcases hr : Tm.commit { c.tm with autocommit := true } (ok && writable p c.tm.work) with ⟨r, t'⟩
      rw [hr] at this
      cases r <;> exact this
  | commit ok => exact diskOk_commit p c.tm c.flag c.flag h ok
  | abort => exact h
  | crash a => exact h

/-- **C127, every history.** Whatever calls, blocks, commits, aborts and crashes make up a session: all that is ever on disk can be
loaded, and loads as what was stored. -/
theorem stored_loads (p : Program K) (es : List (Event (Item K))) : ∀ (c : Conn (Item K)), DiskOk p c →
    DiskOk p (steps p c es) := by
  induction es with
  | nil => intro c h; exact h
  | cons e es ih => intro c h; exact ih _ (diskOk_step p c h e)

/-- The session reached is one of those of C33–C40, so that what they say holds for it. -/
theorem steps_reach (p : Program K) (es : List (Event (Item K))) : ∀ (c : Conn (Item K)), ConnReach c → ConnReach (steps p c es) := by
  induction es with
  | nil => intro c h; exact h
  | cons e es ih => intro c h; exact ih _ (.step c _ h)

/-- The object is written by one of the events. -/
def Given (es : List (Event (Item K))) (v : Item K) : Prop := ∃ op ok, Event.call op ok ∈ es ∧ Puts op v

/-- **C127 (partial: objects whose classes are found under their names).** If every object given to the session is storable, pickling changes
nothing: the session goes as it does in C33–C40, where any value can be stored. -/
theorem storable_history_partial (p : Program K) (es : List (Event (Item K))) : ∀ (c : Conn (Item K)),
    DiskOk p c → writable p c.tm.work = true → (∀ v, Given es v → storable p v = true) → steps p c es = c.steps es := by
  induction es with
  | nil => intro c _ _ _; rfl
  | cons e es ih =>
    intro c hd hw hg
    have heff : ∀ x op ok, e = .call op ok → writable p x = true → writable p (op.fn x).2 = true := by
      rintro x op ok rfl hx
      exact (writable_iff _ _).2 (all_effect ((writable_iff _ _).1 hx) op fun v hv => hg v ⟨op, ok, List.mem_cons_self, hv⟩)
    have he : event p c e = e := by
      cases e with
      | call op ok =>
        show Event.call op (ok && writable p (op.fn c.tm.committed).2) = _
        rw [heff _ op ok rfl hd.1, Bool.and_true]
      | exit r ok =>
        show Event.exit r (ok && writable p c.tm.work) = _
        rw [hw, Bool.and_true]
      | commit ok =>
        show Event.commit (ok && writable p c.tm.work) = _
        rw [hw, Bool.and_true]
      | _ => rfl
    have hdisk := diskOk_step p c hd e
    show steps p (c.step (event p c e)) es = (c.step e).steps es
    rw [he] at hdisk ⊢
    refine ih _ hdisk ?_ fun v hv => ?_
    · cases e with
      | call op ok =>
        show writable p (c.call op ok).2.tm.work = true
        by_cases hda : c.tm.autocommit = true ∧ isWrite op = true
        · obtain ⟨h1, h2, h3⟩ := call_on c hda.1 op hda.2 ok
          cases ho : (op.fn c.tm.committed).1 with
          | error e => rw [h1 e ho]; exact hd.1
          | ok r =>
            cases ok with
            | true => rw [h2 r ho rfl]; exact heff _ op true rfl hd.1
            | false => rw [h3 r ho rfl]; exact hd.1
        · have hd' : c.tm.autocommit = false ∨ isWrite op = false := by
            cases ha : c.tm.autocommit <;> cases hb : isWrite op <;> simp_all
          cases hf : c.tm.failed with
          | true => rw [call_failed c op hd' hf]; exact hw
          | false => rw [call_off c op hd' hf]; exact heff _ op ok rfl hw
      | setAutocommit b => cases b <;> exact hw
      | enter => exact hd.1
      | exit raised ok =>
        show writable p (c.exit raised ok).2.tm.work = true
        unfold Conn.exit Tm.exit Tm.commit
        cases raised with
        | true => exact hd.1
        | false =>
          simp only [Bool.false_eq_true, if_false]
          by_cases hf : c.tm.failed = true
          · simp only [hf, if_true]; exact hw
          · cases ok
            · simp only [hf, Bool.false_eq_true, if_false]; exact hd.1
            · simp only [hf, Bool.false_eq_true, if_false, if_true]; exact hw
      | commit ok =>
        show writable p (c.tm.commit ok).2.work = true
        unfold Tm.commit
        split_ifs
        · exact hw
        · exact hw
        · exact hd.1
      | abort => exact hd.1
      | crash a => exact hd.1
    · obtain ⟨op, ok, hm, hp⟩ := hv
      exact hg v ⟨op, ok, List.mem_cons_of_mem _ hm, hp⟩

end history

section loaded
variable [Truthy (Item (Node C))]

/-- **C127, what a reader gets.** After any session and a crash, no object read from the database has an instance of a packaged class in it. -/
theorem stored_unpackaged (p : Program C) (c : Conn (Item (Node C))) (hc : ConnReach c) (hd : DiskOk (withClones p) c)
    (es : List (Event (Item (Node C)))) (a : Bool) (id : String) (v : Item (Node C))
    (hv : ((steps (withClones p) c es).step (.crash a)).read id = .ok (some v)) : (∃ b, dumps (withClones p) v = .ok b ∧ loads (withClones p) b = .ok v) ∧
    ∀ k, ¬ Occurs (.clone k) v := by
  have h1 := stored_loads (withClones p) es c hd
  have h2 := (steps_reach (withClones p) es c hc).everywhere.committed
  have hs := read_holds (P := fun v => storable (withClones p) v = true) h2 ((writable_iff _ _).1 h1.1) id v hv
  obtain ⟨b, hb⟩ := (storable_iff_dumps _ _).1 hs
  refine ⟨⟨b, hb, loads_dumps _ _ _ hb⟩, fun k hk => ?_⟩
  rw [(storable_clones p v).1 k hk] at hs
  cases hs

end loaded

/-! ### An example: the classes 0 and 1 of one module -/

/-- Two classes in the module "models". -/
def twoClasses : Program Bool where
  home := fun c => ⟨"models", if c then "Note" else "Person"⟩
  found := fun h => if h = ⟨"models", "Note"⟩ then some true else if h = ⟨"models", "Person"⟩ then some false else none

/-- Every instance is true. -/
local instance : Truthy (Item (Node Bool)) := ⟨fun _ => true⟩

/-- A note by a packaged person. -/
def note (author : Node Bool) : Item (Node Bool) := .inst (.orig true) [.atom "hello", .many [.inst author [.atom "Sally"]]]

example : storable (withClones twoClasses) (note (.orig false)) = true ∧ storable (withClones twoClasses) (note (.clone false)) = false := by
  decide +kernel

example : Occurs (.clone false) (note (.clone false)) :=
  .state _ _ (.many [.inst (.clone false) [.atom "Sally"]]) (by simp) (.part _ _ List.mem_cons_self (.here _))

/-- An empty container with one group of one collection. -/
def emptyStore : Container (Item (Node Bool)) :=
  (Container.setStrict ⟨fun _ => ⟨[Collection.new 0 (some 10) false]⟩, 1, [0], 0⟩ (some false)).2

/-- A session on an empty database. -/
def emptySession : Conn (Item (Node Bool)) := ⟨{ work := emptyStore, committed := emptyStore }, true⟩

theorem emptySession_reach : ConnReach emptySession :=
  .init emptyStore true _ (.init (fun _ => ⟨[Collection.new 0 (some 10) false]⟩) 1 0 [0] (some false) _
    (by
      intro a ha
      simp only [List.mem_cons, List.not_mem_nil, or_false, or_self] at ha
      subst ha
      exact ⟨⟨[Collection.new 0 (some 10) false], false, _, [], by simp, by simp [Collection.new], rfl, rfl⟩, by decide⟩)
    (by decide) rfl) rfl

example : DiskOk (withClones twoClasses) emptySession := ⟨by decide +kernel, by intro x hx; exact absurd hx List.not_mem_nil⟩

example : let c := steps (withClones twoClasses) emptySession [.call (.create "a" (note (.orig false))) true, .call (.create "b" (note (.clone false))) true,
      .crash true]
    c.tm.work.has "a" = .ok 1 ∧ c.tm.work.has "b" = .ok 0 := by decide +kernel

end Verif.Props.Pickle
