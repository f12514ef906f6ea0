import Verif.Props.AliasBuild

/-!
# C134, continued: the setters with addresses do the same as the setters on contents

`AS/Property.lean` models the setters by the contents of values; nearly all theorems about properties are about that model.  Here it is shown that the
model with addresses stores the same contents, or raises the same.
-/
namespace Verif.Props.Alias
open Verif Verif.Jsonld Verif.AS Verif.Props.Mem

/-! ## Specification -/

/-- A value in memory and a value of the tree model look the same on the outside; their parts are related by `R`. -/
def Alike (R : Mem → Val → Pv → Prop) (m : Mem) : Val → Pv → Prop
  | .none, v => v = .none
  | .bool b, v => v = .bool b
  | .int i, v => v = .int i
  | .float n r, v => v = .float n r
  | .str s, v => v = .str s
  | .list xs, v => ∃ a ys, v = .ref a ∧ a < m.next ∧ m.node a = .list ys ∧ All (R m) xs ys
  | .tuple xs, v => ∃ a ys, v = .ref a ∧ a < m.next ∧ m.node a = .tuple ys ∧ All (R m) xs ys
  | .set xs, v => ∃ a ys, v = .ref a ∧ a < m.next ∧ m.node a = .set ys ∧ All (R m) xs ys
  | .dict kvs, v => ∃ a ys zs, v = .ref a ∧ a < m.next ∧ m.node a = .dict ys ∧ kvs = zs.map (fun p => (Key.str p.1, p.2)) ∧ Pairs (R m) zs ys
  | .obj c _, v => ∃ a attrs, v = .ref a ∧ a < m.next ∧ m.node a = .inst c attrs
  | .other c r, v => ∃ a, v = .ref a ∧ a < m.next ∧ m.node a = .other c r
  | .iter _ _, _ => False

/-- A way of seeing values in memory as values of the tree model; for objects only the class has to agree. -/
structure Sees (R : Mem → Val → Pv → Prop) : Prop extends View R where
  alike : ∀ m x v, R m x v → Alike R m x v
  other : ∀ m c r a, a < m.next → m.node a = .other c r → R m (.other c r) (.ref a)

mutual
/-- How deep lists are nested. -/
def nesting : Val → Nat
  | .list xs => nestingAll xs + 1
  | .tuple xs => nestingAll xs + 1
  | .set xs => nestingAll xs + 1
  | _ => 0
/-- The deepest item. -/
def nestingAll : List Val → Nat
  | [] => 0
  | x :: xs => max (nesting x) (nestingAll xs)
end

/-- The Link classes of the two models agree, and make no lists. -/
structure LinksAgree (R : Mem → Val → Pv → Prop) (mk : Ctor) (link : CtorIn) : Prop where
  same : ∀ kw vs m, Pairs (R m) kw vs → Same R (mk kw) (lifted (link vs m))
  no_list : ∀ kw x, mk kw = .ok x → nesting x = 0
  changes_nothing : ∀ args m, Extends m (link args m).2

/-! ## Single values -/

variable {R : Mem → Val → Pv → Prop}

theorem shape_classes (mro : String → List String) {m : Mem} {x : Val} {v : Pv} (h : Alike R m x v) : (shape m v).classes mro = x.classes mro := by
  cases x with
  | iter c xs => exact h.elim
  | list xs => obtain ⟨a, ys, rfl, _, hn, _⟩ := h; simp only [shape, hn]; rfl
  | tuple xs => obtain ⟨a, ys, rfl, _, hn, _⟩ := h; simp only [shape, hn]; rfl
  | set xs => obtain ⟨a, ys, rfl, _, hn, _⟩ := h; simp only [shape, hn]; rfl
  | dict xs => obtain ⟨a, ys, zs, rfl, _, hn, _⟩ := h; simp only [shape, hn]; rfl
  | obj c xs => obtain ⟨a, ys, rfl, _, hn⟩ := h; simp only [shape, hn]; rfl
  | other c r => obtain ⟨a, rfl, _, hn⟩ := h; simp only [shape, hn]
  | _ => cases h; rfl

theorem shape_isinstance (mro : String → List String) {m : Mem} {x : Val} {v : Pv} (h : Alike R m x v) (ts : List String) :
    (shape m v).isinstance mro ts = x.isinstance mro ts := by
  unfold Val.isinstance
  rw [shape_classes mro h]

theorem shape_check (env : Env) {m : Mem} {x : Val} {v : Pv} (h : Alike R m x v) (c : Check) : c.run env (shape m v) = c.run env x := by
  cases x with
  | iter c xs => exact h.elim
  | list xs => obtain ⟨a, ys, rfl, _, hn, _⟩ := h; simp only [shape, hn]; cases c <;> rfl
  | tuple xs => obtain ⟨a, ys, rfl, _, hn, _⟩ := h; simp only [shape, hn]; cases c <;> rfl
  | set xs => obtain ⟨a, ys, rfl, _, hn, _⟩ := h; simp only [shape, hn]; cases c <;> rfl
  | dict xs => obtain ⟨a, ys, zs, rfl, _, hn, _⟩ := h; simp only [shape, hn]; cases c <;> rfl
  | obj d xs => obtain ⟨a, ys, rfl, _, hn⟩ := h; simp only [shape, hn]; cases c <;> rfl
  | other d r => obtain ⟨a, rfl, _, hn⟩ := h; simp only [shape, hn]
  | _ => cases h; rfl

theorem shape_checks (env : Env) {m : Mem} {x : Val} {v : Pv} (h : Alike R m x v) (cs : List Check) :
    runAdditional (cs.map (Check.run env)) (shape m v) = runAdditional (cs.map (Check.run env)) x := by
  induction cs with
  | nil => rfl
  | cons c cs ih =>
    rw [List.map_cons, runAdditional, runAdditional, shape_check env h c, ih]

theorem All.empty {K : Type} {P : K → Pv → Prop} {xs : List K} {ys : List Pv} (h : All P xs ys) : xs.isEmpty = ys.isEmpty := by
  cases xs with
  | nil => cases h; rfl
  | cons x xs => obtain ⟨y, rest, rfl, _⟩ := h; rfl

theorem truthy_alike {m : Mem} {x : Val} {v : Pv} (h : Alike R m x v) : m.truthy v = AS.truthy x := by
  cases x with
  | iter c xs => exact h.elim
  | list xs => obtain ⟨a, ys, rfl, _, hn, ha⟩ := h; simp only [Mem.truthy, hn, AS.truthy, All.empty ha]
  | tuple xs => obtain ⟨a, ys, rfl, _, hn, ha⟩ := h; simp only [Mem.truthy, hn, AS.truthy, All.empty ha]
  | set xs => obtain ⟨a, ys, rfl, _, hn, ha⟩ := h; simp only [Mem.truthy, hn, AS.truthy, All.empty ha]
  | dict xs =>
    obtain ⟨a, ys, zs, rfl, _, hn, rfl, ha⟩ := h
    simp only [Mem.truthy, hn, AS.truthy]
    cases zs with
    | nil => cases ha; rfl
    | cons z zs => obtain ⟨y, rest, rfl, _⟩ := ha; rfl
  | obj d xs => obtain ⟨a, ys, rfl, _, hn⟩ := h; simp only [Mem.truthy, hn, AS.truthy]
  | other d r => obtain ⟨a, rfl, _, hn⟩ := h; simp only [Mem.truthy, hn, AS.truthy]
  | _ => cases h; rfl

theorem url_alike (env : Env) {m : Mem} {x : Val} {v : Pv} (h : Alike R m x v) : validateUrlIn env v = validateUrlVal env x := by
  cases x with
  | iter c xs => exact h.elim
  | list xs => obtain ⟨a, ys, rfl, _⟩ := h; rfl
  | tuple xs => obtain ⟨a, ys, rfl, _⟩ := h; rfl
  | set xs => obtain ⟨a, ys, rfl, _⟩ := h; rfl
  | dict xs => obtain ⟨a, ys, zs, rfl, _⟩ := h; rfl
  | obj d xs => obtain ⟨a, ys, rfl, _⟩ := h; rfl
  | other d r => obtain ⟨a, rfl, _⟩ := h; rfl
  | _ => cases h; rfl

theorem dget_keyed (zs : PyDict String Val) (k : String) : (zs.map fun p => (Key.str p.1, p.2)).dget (.str k) = zs.dget k := by
  induction zs with
  | nil => rfl
  | cons z zs ih =>
    obtain ⟨j, x⟩ := z
    rw [List.map_cons, List.dget, List.dget]
    by_cases hj : j = k
    · subst hj; simp
    · rw [if_neg (by simpa using hj), if_neg (by simpa using hj), ih]

theorem linkDict_alike (hR : Sees R) (env : Env) {m : Mem} {zs : PyDict String Val} {ys : PyDict String Pv} (h : Pairs (R m) zs ys) :
    linkDictIn env m ys = linkDict env (zs.map fun p => (Key.str p.1, p.2)) := by
  unfold linkDictIn linkDict dictHref
  rw [dget_keyed]
  have := hR.alike m _ _ (h.getD "href" (hR.none m))
  rw [truthy_alike this, url_alike env this]

theorem callWith_keyed (mk : Ctor) (zs : PyDict String Val) : callWith mk (zs.map fun p => (Key.str p.1, p.2)) = mk zs := by
  unfold callWith
  rw [if_pos (by simp [List.all_map])]
  congr 1
  rw [List.map_map]
  exact List.map_id zs

/-! ## Lists -/

theorem createLinks_sequence (env : Env) (mk : Ctor) : ∀ xs, createLinks env mk xs = sequence (xs.map (createLink env mk)) := by
  intro xs
  induction xs with
  | nil => rw [createLinks]; rfl
  | cons x xs ih =>
    rw [createLinks, List.map_cons]
    cases createLink env mk x with
    | error e => rfl
    | ok y => simp only [sequence, ih]; cases sequence (xs.map (createLink env mk)) <;> rfl

theorem evaluateAll_sequence (mro : String → List String) (functional : Bool) (additional : List Validator) (types : List String) :
    ∀ xs, evaluateAll mro functional additional types xs = sequence (xs.map (evaluate mro functional additional types)) := by
  intro xs
  induction xs with
  | nil => rw [evaluateAll]; rfl
  | cons x xs ih =>
    rw [evaluateAll, List.map_cons]
    cases evaluate mro functional additional types x with
    | error e => rfl
    | ok y => simp only [sequence, ih]; cases sequence (xs.map (evaluate mro functional additional types)) <;> rfl

theorem all_mem {K : Type} {P Q : K → Pv → Prop} : ∀ (xs : List K) ys, (∀ x ∈ xs, ∀ v, P x v → Q x v) → All P xs ys → All Q xs ys := by
  intro xs
  induction xs with
  | nil => intro ys _ h; exact h
  | cons x xs ih =>
    rintro ys hs ⟨y, rest, rfl, h2, h3⟩
    exact ⟨y, rest, rfl, hs x (by simp) y h2, ih rest (fun z hz => hs z (by simp [hz])) h3⟩

/-- The items of a list, one after the other. -/
theorem vitems_same (hR : View R) {act : Pv → Act Pv} {f : Val → Outcome Val} (hx : ∀ v m, Extends m (act v m).2) :
    ∀ xs, (∀ x ∈ xs, ∀ m v, R m x v → Same R (f x) (act v m)) → ∀ m ys, All (R m) xs ys →
      (∀ x, sequence (xs.map f) = .error x → (MemEngine.items act ys m).1 = .error (.raised x)) ∧
      (∀ rs, sequence (xs.map f) = .ok rs → ∃ vs, (MemEngine.items act ys m).1 = .ok vs ∧ All (R (MemEngine.items act ys m).2) rs vs) := by
  intro xs
  induction xs with
  | nil =>
    intro _ m ys h
    cases h
    refine ⟨fun x hx => (nomatch hx), fun rs hrs => ?_⟩
    cases Except.ok.inj hrs
    exact ⟨[], rfl, rfl⟩
  | cons x xs ih =>
    rintro hs m ys ⟨y, rest, rfl, h2, h3⟩
    have h1 := hs x (by simp) m y h2
    have hx1 := hx y m
    rw [MemEngine.items, List.map_cons]
    cases hact : act y m with
    | mk o m1 =>
      rw [hact] at h1 hx1
      cases hf : f x with
      | error e0 =>
        have := h1.1 e0 hf
        simp only at this
        subst this
        refine ⟨fun z hz => ?_, fun rs hrs => (nomatch hrs)⟩
        rw [sequence] at hz
        cases Except.error.inj hz
        rfl
      | ok x0 =>
        obtain ⟨v, hv, hr⟩ := h1.2 x0 hf
        simp only at hv
        subst hv
        have ih2 := ih (fun z hz => hs z (by simp [hz])) m1 rest (All.imp (fun x v => hR.mono _ _ x v hx1) _ _ h3)
        have hx2 := items_extends hx rest m1
        simp only [sequence]
        cases hrest : MemEngine.items act rest m1 with
        | mk o2 m2 =>
          rw [hrest] at ih2 hx2
          cases hseq : sequence (xs.map f) with
          | error e0 =>
            have := ih2.1 e0 hseq
            simp only at this
            subst this
            refine ⟨fun z hz => ?_, fun rs hrs => (nomatch hrs)⟩
            cases Except.error.inj hz
            rfl
          | ok rs0 =>
            obtain ⟨vs, hvs, hall⟩ := ih2.2 rs0 hseq
            simp only at hvs
            subst hvs
            refine ⟨fun z hz => (nomatch hz), fun rs hrs => ?_⟩
            cases Except.ok.inj hrs
            exact ⟨v :: vs, rfl, v, vs, rfl, hR.mono _ _ _ _ hx2 hr, hall⟩

/-- A new list. -/
theorem wrap_same (hR : View R) {act : Pv → Act Pv} {f : Val → Outcome Val} (hx : ∀ v m, Extends m (act v m).2) {xs : List Val} {ys : List Pv} {m : Mem}
    (hs : ∀ x ∈ xs, ∀ m v, R m x v → Same R (f x) (act v m)) (h : All (R m) xs ys) {o : Outcome Val}
    (ho : o = match sequence (xs.map f) with
      | .error e => .error e
      | .ok zs => .ok (.list zs)) :
    Same R o (MemEngine.wrap .list (MemEngine.items act ys m)) := by
  subst ho
  obtain ⟨h1, h2⟩ := vitems_same hR hx xs hs m ys h
  cases hi : MemEngine.items act ys m with
  | mk o m1 =>
    rw [hi] at h1 h2
    cases hseq : sequence (xs.map f) with
    | error e =>
      have := h1 e hseq
      simp only at this
      subst this
      exact ⟨fun x hx => by cases Except.error.inj hx; rfl, fun x hx => (nomatch hx)⟩
    | ok zs =>
      obtain ⟨vs, hvs, hall⟩ := h2 zs hseq
      simp only at hvs
      subst hvs
      refine ⟨fun x hx => (nomatch hx), fun x hx => ?_⟩
      cases Except.ok.inj hx
      exact ⟨.ref m1.next, rfl, hR.list _ _ _ _ (Nat.lt_succ_self _) (alloc_node ..)
        (All.imp (fun x v => hR.mono _ _ x v (extends_alloc ..)) _ _ hall)⟩

theorem nesting_mem {x : Val} {xs : List Val} (h : x ∈ xs) : nesting x ≤ nestingAll xs := by
  induction xs with
  | nil => cases h
  | cons y ys ih =>
    rw [nestingAll]
    rcases List.mem_cons.1 h with rfl | h
    · exact Nat.le_max_left _ _
    · exact Nat.le_trans (ih h) (Nat.le_max_right _ _)

theorem same_ok {x : Val} {v : Pv} {m : Mem} (h : R m x v) : Same R (.ok x) (.ok v, m) :=
  ⟨fun y hy => (nomatch hy), fun y hy => by cases Except.ok.inj hy; exact ⟨v, rfl, h⟩⟩

theorem same_error {e : PyErr} {m : Mem} : Same R (.error e) (.error (.raised e), m) :=
  ⟨fun y hy => by cases Except.error.inj hy; rfl, fun y hy => (nomatch hy)⟩

/-! ## Links -/

theorem extends_of_agree (env : Env) {mk : Ctor} {link : CtorIn} (hl : LinksAgree R mk link) (n : Nat) :
    ∀ v m, Extends m (createLinkIn env link n v m).2 := by
  have text : ∀ (n : Nat) s m, Extends m (createLinkIn env link n (.str s) m).2 := by
    intro n s m
    have hd : createLinkIn env link n (.str s) m = match linkable env s with
        | .error e => (.error (.raised e), m)
        | .ok true => lifted (link [("href", .str s)] m)
        | .ok false => (.ok (.str s), m) := by cases n <;> rfl
    rw [hd]
    split
    · exact Extends.refl m
    · exact lifted_extends (hl.changes_nothing _ _)
    · exact Extends.refl m
  induction n with
  | zero =>
    intro v m
    cases v with
    | str s => exact text 0 s m
    | _ => exact Extends.refl m
  | succ n ih =>
    intro v m
    cases v with
    | str s => exact text (n + 1) s m
    | ref a =>
      rw [createLinkIn]
      split
      · split
        · exact Extends.refl m
        · exact lifted_extends (hl.changes_nothing _ _)
        · exact Extends.refl m
      · exact wrap_extends _ m _ (items_extends ih _ m)
      · exact wrap_extends _ m _ (items_extends ih _ m)
      · exact wrap_extends _ m _ (items_extends ih _ m)
      · exact Extends.refl m
      · exact Extends.refl m
    | _ => exact Extends.refl m

theorem createLink_same (hR : Sees R) (env : Env) {mk : Ctor} {link : CtorIn} (hl : LinksAgree R mk link) (n : Nat) :
    ∀ x m v, nesting x ≤ n → R m x v → Same R (createLink env mk x) (createLinkIn env link (n + 1) v m) := by
  induction n with
  | zero => ?_
  | succ n ih => ?_
  all_goals
    intro x m v hd h
    have ha := hR.alike m x v h
    cases x with
    | iter c xs => exact ha.elim
    | str s =>
      cases ha
      rw [createLinkIn, createLink]
      cases linkable env s with
      | error e => exact same_error
      | ok b =>
        cases b with
        | false => exact same_ok h
        | true => exact hl.same _ _ m ⟨.str s, [], rfl, hR.str m s, rfl⟩
    | dict kvs =>
      obtain ⟨a, ys, zs, rfl, _, hn, rfl, hp⟩ := ha
      rw [createLinkIn, createLink]
      simp only [hn]
      rw [linkDict_alike hR env hp]
      cases linkDict env (zs.map fun p => (Key.str p.1, p.2)) with
      | error e => exact same_error
      | ok b =>
        cases b with
        | false => exact same_ok h
        | true =>
          simp only
          rw [callWith_keyed]
          exact hl.same _ _ m hp
    | obj c fs =>
      obtain ⟨a, ys, rfl, _, hn⟩ := ha
      rw [createLinkIn, createLink]
      · simp only [hn]
        exact same_ok h
      all_goals intros; simp_all
    | other c fs =>
      obtain ⟨a, rfl, _, hn⟩ := ha
      rw [createLinkIn, createLink]
      · simp only [hn]
        exact same_ok h
      all_goals intros; simp_all
    | none => cases ha; exact same_ok h
    | bool b => cases ha; exact same_ok h
    | int b => cases ha; exact same_ok h
    | float b r => cases ha; exact same_ok h
    | list xs =>
      first
      | (rw [nesting] at hd; omega)
      | (obtain ⟨a, ys, rfl, _, hn, hall⟩ := ha
         rw [createLinkIn, createLink, createLinks_sequence]
         simp only [hn]
         rw [nesting] at hd
         exact wrap_same hR.toView (extends_of_agree env hl (n + 1))
           (fun x hx m v hr => ih x m v (by have := nesting_mem hx; omega) hr) hall rfl)
    | tuple xs =>
      first
      | (rw [nesting] at hd; omega)
      | (obtain ⟨a, ys, rfl, _, hn, hall⟩ := ha
         rw [createLinkIn, createLink, createLinks_sequence]
         simp only [hn]
         rw [nesting] at hd
         exact wrap_same hR.toView (extends_of_agree env hl (n + 1))
           (fun x hx m v hr => ih x m v (by have := nesting_mem hx; omega) hr) hall rfl)
    | set xs =>
      first
      | (rw [nesting] at hd; omega)
      | (obtain ⟨a, ys, rfl, _, hn, hall⟩ := ha
         rw [createLinkIn, createLink, createLinks_sequence]
         simp only [hn]
         rw [nesting] at hd
         exact wrap_same hR.toView (extends_of_agree env hl (n + 1))
           (fun x hx m v hr => ih x m v (by have := nesting_mem hx; omega) hr) hall rfl)

/-! ## Checks -/

theorem evaluate_same (hR : Sees R) (env : Env) (functional : Bool) (cs : List Check) (n : Nat) :
    ∀ types x m v, nesting x ≤ n → R m x v →
      Same R (evaluate env.mro functional (cs.map (Check.run env)) types x) (evaluateIn env.mro functional (cs.map (Check.run env)) (n + 1) types v m) := by
  have single : ∀ (again : Pv → Act Pv) types x m v, R m x v → (∀ xs, ¬ (x = .list xs ∨ x = .tuple xs ∨ x = .set xs)) →
      Same R (if !Val.isinstance env.mro x (effTypes types functional) then .error .valueError
          else match runAdditional (cs.map (Check.run env)) x with
            | .error e => .error e
            | .ok _ => .ok x)
        (if !Val.isinstance env.mro (shape m v) (effTypes types functional) then (.error (.raised .valueError), m)
          else evaluateRest again (cs.map (Check.run env)) v m) := by
    intro again types x m v h hno
    have ha := hR.alike m x v h
    rw [shape_isinstance env.mro ha]
    split
    · exact same_error
    · have hone : evaluateRest again (cs.map (Check.run env)) v m = evaluateOne (cs.map (Check.run env)) v m := by
        unfold evaluateRest
        split
        · rename_i a
          have hnone : itemsOf (m.node a) = none := by
            cases x with
            | iter c xs => exact ha.elim
            | list xs => exact absurd (.inl rfl) (hno xs)
            | tuple xs => exact absurd (.inr (.inl rfl)) (hno xs)
            | set xs => exact absurd (.inr (.inr rfl)) (hno xs)
            | dict kvs => obtain ⟨b, ys, zs, hb, _, hn, _⟩ := ha; cases hb; rw [hn]; rfl
            | obj c fs => obtain ⟨b, ys, hb, _, hn⟩ := ha; cases hb; rw [hn]; rfl
            | other c r => obtain ⟨b, hb, _, hn⟩ := ha; cases hb; rw [hn]; rfl
            | _ => cases ha
          rw [hnone]
        · rfl
      rw [hone]
      unfold evaluateOne
      rw [shape_checks env ha cs]
      cases runAdditional (cs.map (Check.run env)) x with
      | error e => exact same_error
      | ok u => exact same_ok h
  have many : ∀ (again : Pv → Act Pv) (f : Val → Outcome Val) types x m v a xs ys, (x = .list xs ∨ x = .tuple xs ∨ x = .set xs) → v = .ref a →
      itemsOf (m.node a) = some ys → R m x v → (∀ v m, Extends m (again v m).2) → (∀ x ∈ xs, ∀ m v, R m x v → Same R (f x) (again v m)) →
      All (R m) xs ys →
      Same R (if !Val.isinstance env.mro x (effTypes types functional) then .error .valueError
          else match sequence (xs.map f) with
            | .error e => .error e
            | .ok zs => .ok (.list zs))
        (if !Val.isinstance env.mro (shape m v) (effTypes types functional) then (.error (.raised .valueError), m)
          else evaluateRest again (cs.map (Check.run env)) v m) := by
    intro again f types x m v a xs ys _ hv hi h hx hs hall
    subst hv
    have ha := hR.alike m x _ h
    rw [shape_isinstance env.mro ha]
    split
    · exact same_error
    · unfold evaluateRest
      simp only [hi]
      exact wrap_same hR.toView hx hs hall rfl
  induction n with
  | zero => ?_
  | succ n ih => ?_
  all_goals
    intro types x m v hd h
    have ha := hR.alike m x v h
    rw [evaluateIn]
    cases x with
    | iter c xs => exact ha.elim
    | list xs =>
      first
      | (rw [nesting] at hd; omega)
      | (obtain ⟨a, ys, rfl, _, hn, hall⟩ := ha
         rw [evaluate, evaluateAll_sequence]
         rw [nesting] at hd
         exact many _ _ types _ m _ a xs ys (.inl rfl) rfl (by rw [hn]; rfl) h (fun v m => evaluateIn_extends _ _ _ _ _ v m)
           (fun x hx m v hr => ih _ x m v (by have := nesting_mem hx; omega) hr) hall)
    | tuple xs =>
      first
      | (rw [nesting] at hd; omega)
      | (obtain ⟨a, ys, rfl, _, hn, hall⟩ := ha
         rw [evaluate, evaluateAll_sequence]
         rw [nesting] at hd
         exact many _ _ types _ m _ a xs ys (.inr (.inl rfl)) rfl (by rw [hn]; rfl) h (fun v m => evaluateIn_extends _ _ _ _ _ v m)
           (fun x hx m v hr => ih _ x m v (by have := nesting_mem hx; omega) hr) hall)
    | set xs =>
      first
      | (rw [nesting] at hd; omega)
      | (obtain ⟨a, ys, rfl, _, hn, hall⟩ := ha
         rw [evaluate, evaluateAll_sequence]
         rw [nesting] at hd
         exact many _ _ types _ m _ a xs ys (.inr (.inr rfl)) rfl (by rw [hn]; rfl) h (fun v m => evaluateIn_extends _ _ _ _ _ v m)
           (fun x hx m v hr => ih _ x m v (by have := nesting_mem hx; omega) hr) hall)
    | _ => exact single _ types _ m v h (by rintro xs (k | k | k) <;> cases k)

/-! ## Nesting -/

theorem sequence_nesting {f : Val → Outcome Val} : ∀ (xs : List Val) ys, (∀ x ∈ xs, ∀ y, f x = .ok y → nesting y ≤ nesting x) →
    sequence (xs.map f) = .ok ys → nestingAll ys ≤ nestingAll xs := by
  intro xs
  induction xs with
  | nil => intro ys _ h; cases Except.ok.inj h; exact Nat.le_refl _
  | cons x xs ih =>
    intro ys hs h
    rw [List.map_cons] at h
    cases hf : f x with
    | error e => rw [hf] at h; cases h
    | ok y =>
      rw [hf, sequence] at h
      split at h
      · cases h
      · rename_i zs hz
        cases Except.ok.inj h
        rw [nestingAll, nestingAll]
        have h1 := hs x (by simp) y hf
        have h2 := ih zs (fun z hz => hs z (by simp [hz])) hz
        omega

theorem createLink_nesting (env : Env) {mk : Ctor} {link : CtorIn} (hl : LinksAgree R mk link) (n : Nat) :
    ∀ x, nesting x ≤ n → ∀ y, createLink env mk x = .ok y → nesting y ≤ nesting x := by
  have made : ∀ kw y, mk kw = .ok y → nesting y ≤ 0 := fun kw y h => Nat.le_of_eq (hl.no_list kw y h)
  induction n with
  | zero => ?_
  | succ n ih => ?_
  all_goals
    intro x hd y h
    cases x with
    | str s =>
      rw [createLink] at h
      split at h
      · cases h
      · exact Nat.le_trans (made _ _ h) (Nat.zero_le _)
      · cases Except.ok.inj h; exact Nat.le_refl _
    | dict kvs =>
      rw [createLink] at h
      split at h
      · cases h
      · unfold callWith at h
        split at h
        · exact Nat.le_trans (made _ _ h) (Nat.zero_le _)
        · cases h
      · cases Except.ok.inj h; exact Nat.le_refl _
    | list xs =>
      first
      | (rw [nesting] at hd; omega)
      | (rw [createLink, createLinks_sequence] at h
         split at h
         · cases h
         · rename_i zs hz
           cases Except.ok.inj h
           rw [nesting] at hd ⊢
           rw [nesting]
           exact Nat.succ_le_succ (sequence_nesting xs zs (fun x hx y hy => ih x (by have := nesting_mem hx; omega) y hy) hz))
    | tuple xs =>
      first
      | (rw [nesting] at hd; omega)
      | (rw [createLink, createLinks_sequence] at h
         split at h
         · cases h
         · rename_i zs hz
           cases Except.ok.inj h
           rw [nesting] at hd ⊢
           rw [nesting]
           exact Nat.succ_le_succ (sequence_nesting xs zs (fun x hx y hy => ih x (by have := nesting_mem hx; omega) y hy) hz))
    | set xs =>
      first
      | (rw [nesting] at hd; omega)
      | (rw [createLink, createLinks_sequence] at h
         split at h
         · cases h
         · rename_i zs hz
           cases Except.ok.inj h
           rw [nesting] at hd ⊢
           rw [nesting]
           exact Nat.succ_le_succ (sequence_nesting xs zs (fun x hx y hy => ih x (by have := nesting_mem hx; omega) y hy) hz))
    | _ => cases Except.ok.inj (h : Except.ok _ = Except.ok y); exact Nat.le_refl _

/-! ## Setters -/

theorem parse_same (hR : Sees R) (env : Env) {x : Val} {m : Mem} {v : Pv} (h : R m x v) : Same R (parseVal env x) (parseIn env v m) := by
  have ha := hR.alike m x v h
  have rest : Same R (if isDate env x then .ok x else .error .typeError) (if isDate env (shape m v) then (.ok v, m) else (.error (.raised .typeError), m)) := by
    unfold isDate
    rw [shape_isinstance env.mro ha]
    split
    · exact same_ok h
    · exact same_error
  cases x with
  | none => cases ha; exact same_ok h
  | str s =>
    cases ha
    unfold parseVal parseIn
    simp only
    cases parseDatetime (.str s.toList) with
    | error e => exact same_error
    | ok t =>
      cases t with
      | dt t =>
        refine ⟨fun y hy => (nomatch hy), fun y hy => ?_⟩
        cases Except.ok.inj hy
        exact ⟨_, rfl, hR.other _ _ _ _ (Nat.lt_succ_self _) (alloc_node ..)⟩
      | _ => exact same_error
  | iter c xs => exact ha.elim
  | list xs => obtain ⟨a, ys, rfl, _⟩ := ha; exact rest
  | tuple xs => obtain ⟨a, ys, rfl, _⟩ := ha; exact rest
  | set xs => obtain ⟨a, ys, rfl, _⟩ := ha; exact rest
  | dict xs => obtain ⟨a, ys, zs, rfl, _⟩ := ha; exact rest
  | obj c xs => obtain ⟨a, ys, rfl, _⟩ := ha; exact rest
  | other c xs => obtain ⟨a, rfl, _⟩ := ha; exact rest
  | _ => cases ha; exact rest

theorem same_then {o : Outcome Val} {r : Except Exc Pv × Mem} (h : Same R o r) {f : Val → Outcome Val} {g : Pv → Act Pv}
    (hf : ∀ x m v, o = .ok x → R m x v → Same R (f x) (g v m)) {o' : Outcome Val} (he : ∀ e, o = .error e → o' = .error e)
    (hk : ∀ x, o = .ok x → o' = f x) : Same R o' (andThen r g) := by
  obtain ⟨r, m⟩ := r
  cases o with
  | error e =>
    have := h.1 e rfl
    simp only at this
    subst this
    rw [he e rfl]
    exact same_error
  | ok x =>
    obtain ⟨v, hv, hr⟩ := h.2 x rfl
    simp only at hv
    subst hv
    rw [hk x rfl]
    exact hf x m v rfl hr

/-- **C134 (i).** The setter with addresses raises what the setter on contents raises, and stores a value with the contents that one stores, if calls
may get one deeper than lists are nested in the value. -/
theorem stores_same (hR : Sees R) (env : Env) {mk : Ctor} {link : CtorIn} (hl : LinksAgree R mk link) (n : Nat) (r : PropRow) (x : Val) (v : Pv) (m : Mem)
    (hd : nesting x < n) (h : R m x v) : Same R (r.stores env mk x) (r.storesIn env link n v m) := by
  obtain ⟨n, rfl⟩ : ∃ k, n = k + 1 := ⟨n - 1, by omega⟩
  unfold PropRow.stores PropRow.storesIn
  have rest : ∀ u m1 v1, r.convert env mk x = .ok u → R m1 u v1 →
      Same R (match r.check env u with
        | .error e => .error e
        | .ok w => r.parsed env w)
        (andThen (evaluateIn env.mro r.functional (r.additional.map (Check.run env)) (n + 1) r.allTypes v1 m1) fun w m2 => r.parsedIn env w m2) := by
    intro u m1 v1 hu h1
    have hn : nesting u ≤ n := by
      unfold PropRow.convert at hu
      split at hu
      · exact Nat.le_trans (createLink_nesting env hl (nesting x) x (Nat.le_refl _) u hu) (by omega)
      · cases Except.ok.inj hu; omega
    refine same_then (o := r.check env u) (f := r.parsed env) (evaluate_same hR env r.functional r.additional n r.allTypes u m1 v1 hn h1) ?_ ?_ ?_
    · intro w m2 v2 _ h2
      unfold PropRow.parsed PropRow.parsedIn
      split
      · exact parse_same hR env h2
      · exact same_ok h2
    · intro e he; simp only [he]
    · intro w hw; simp only [hw]
  refine same_then (o := r.convert env mk x) ?_ rest ?_ ?_
  · unfold PropRow.convert PropRow.convertIn
    split
    · exact createLink_same hR env hl n x m v (by omega) h
    · exact same_ok h
  · intro e he; simp only [he]
  · intro w hw; simp only [hw]; cases r.check env w <;> rfl

/-! ## The hypotheses can be met -/

theorem all_of_means (m : Mem) : ∀ xs ys, MeansAll m xs ys → All (Means m) xs ys := by
  intro xs
  induction xs with
  | nil => intro ys k; rw [MeansAll] at k; exact k
  | cons x xs ih =>
    intro ys k
    rw [MeansAll] at k
    obtain ⟨y, rest, h1, h2, h3⟩ := k
    exact ⟨y, rest, h1, h2, ih _ h3⟩

theorem pairs_of_means (m : Mem) : ∀ (xs : List (Key × Val)) ys, MeansKeyed m xs ys →
    ∃ zs : PyDict String Val, xs = zs.map (fun p => (Key.str p.1, p.2)) ∧ Pairs (Means m) zs ys := by
  intro xs
  induction xs with
  | nil => intro ys k; rw [MeansKeyed] at k; exact ⟨[], rfl, k⟩
  | cons x xs ih =>
    intro ys k
    obtain ⟨key, x⟩ := x
    rw [MeansKeyed] at k
    obtain ⟨s, y, rest, rfl, h1, h2, h3⟩ := k
    obtain ⟨zs, rfl, hz⟩ := ih rest h3
    exact ⟨(s, x) :: zs, rfl, y, rest, h1, h2, hz⟩

theorem means_sees : Sees Means where
  toView := means_view
  alike m x v h := by
    cases x with
    | list xs => rw [Means] at h; obtain ⟨a, ys, h1, h2, h3, h4⟩ := h; exact ⟨a, ys, h1, h2, h3, all_of_means m xs ys h4⟩
    | tuple xs => rw [Means] at h; obtain ⟨a, ys, h1, h2, h3, h4⟩ := h; exact ⟨a, ys, h1, h2, h3, all_of_means m xs ys h4⟩
    | set xs => rw [Means] at h; obtain ⟨a, ys, h1, h2, h3, h4⟩ := h; exact ⟨a, ys, h1, h2, h3, all_of_means m xs ys h4⟩
    | dict xs =>
      rw [Means] at h
      obtain ⟨a, ys, h1, h2, h3, h4⟩ := h
      obtain ⟨zs, h5, h6⟩ := pairs_of_means m xs ys h4
      exact ⟨a, ys, zs, h1, h2, h3, h5, h6⟩
    | obj c xs => rw [Means] at h; obtain ⟨a, ys, h1, h2, h3, h4⟩ := h; exact ⟨a, ys, h1, h2, h3⟩
    | _ => rw [Means] at h; exact h
  other m c r a h1 h2 := by rw [Means]; exact ⟨a, rfl, h1, h2⟩

theorem plain_agree : LinksAgree Means plainLink keepLink where
  same kw vs m h := by
    refine ⟨fun x hx => (nomatch hx), fun x hx => ?_⟩
    cases Except.ok.inj hx
    refine ⟨.ref m.next, rfl, ?_⟩
    rw [Means]
    exact ⟨m.next, vs, rfl, Nat.lt_succ_self _, alloc_node _ _,
      meansFields_of _ _ _ (Pairs.imp (fun x v => Means.mono (extends_alloc _ _) x v) _ _ h)⟩
  no_list kw x h := by cases Except.ok.inj h; rfl
  changes_nothing args m := extends_alloc _ _

/-- A list with a text and a dictionary, in memory and as a tree: the contents stored are the same. -/
example : Means aliasMem (.list [.str "b", .dict [(.str "en", .str "c")]]) (.ref 2) ∧ nesting (.list [.str "b", .dict [(.str "en", .str "c")]]) < 3 ∧
    (rowOf "name").stores noteEnv plainLink (.list [.str "b", .dict [(.str "en", .str "c")]]) = .ok (.list [.str "b", .dict [(.str "en", .str "c")]]) := by
  refine ⟨?_, by decide, by rfl⟩
  rw [Means]
  refine ⟨2, _, rfl, by decide, rfl, ?_⟩
  rw [MeansAll]
  refine ⟨_, _, rfl, by rw [Means], ?_⟩
  rw [MeansAll]
  refine ⟨_, _, rfl, ?_, by rw [MeansAll]⟩
  rw [Means]
  refine ⟨3, _, rfl, by decide, rfl, ?_⟩
  rw [MeansKeyed]
  exact ⟨_, _, _, rfl, rfl, by rw [Means], by rw [MeansKeyed]⟩

theorem keepLink_decent : Decent keepLink where
  toMaker := keepLink_maker
  keeps args m v m' G h ht ha := (keeping_modest memSample rfl).keeps "Link" args m v m' G h ht ha

/-- Constructors that assign `name` and the context. -/
def sampleCtor (_cls : String) (args : PyDict String Pv) : List (Target × Pv) :=
  [(.prop (rowOf "name"), (args.dget "name").getD .none), (.plain "acontext", (args.dget "acontext").getD .none)]

theorem sampleCtor_fromArgs (cls : String) : FromArgs (sampleCtor cls) := by
  intro args p hp
  have key : ∀ k : String, (∃ q ∈ args, (args.dget k).getD .none = q.2) ∨ ∀ a, (args.dget k).getD .none ≠ .ref a := by
    intro k
    cases h : args.dget k with
    | none => exact .inr fun a ha => by cases ha
    | some v => exact .inl ⟨(k, v), PyDict.dget_mem h, rfl⟩
  simp only [sampleCtor, List.mem_cons, List.not_mem_nil, or_false] at hp
  rcases hp with rfl | rfl
  · exact key "name"
  · exact key "acontext"

/-- Such a constructor returns an object with a new list as name and the context it was given. -/
example : (buildIn noteEnv keepLink 3 "Note" (sampleCtor "Note") [("name", .ref 2), ("acontext", .ref 3)] aliasMem).1 = .ok (.ref 4) ∧
    (buildIn noteEnv keepLink 3 "Note" (sampleCtor "Note") [("name", .ref 2), ("acontext", .ref 3)] aliasMem).2.node 4 =
      .inst "Note" [("___name___", .ref 5), ("acontext", .ref 3)] := by decide +kernel

end Verif.Props.Alias
