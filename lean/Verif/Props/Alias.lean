import Verif.AS.Alias
import Verif.Props.Mem
import Verif.Props.Property

/-!
# C134: what assigning and reading a property copies and shares
-/
namespace Verif.Props.Alias
open Verif Verif.Jsonld Verif.AS Verif.Props.Mem

/-! ## Specification -/

/-- The value is a list, a tuple or a set, with these items. -/
def Items (m : Mem) (v : Pv) (xs : List Pv) : Prop :=
  ∃ a, v = .ref a ∧ a < m.next ∧ (m.node a = .list xs ∨ m.node a = .tuple xs ∨ m.node a = .set xs)

/-- `Copy m links m' v w`: `w` is the value `v` (of the memory `m`) with lists, tuples and sets copied into new lists, at every level, and everything
else the same; if `links` is true, new objects may take the place of texts and dictionaries. -/
inductive Copy (m : Mem) (links : Bool) (m' : Mem) : Pv → Pv → Prop
  | same (v : Pv) (h : ∀ xs, ¬ Items m v xs) : Copy m links m' v v
  | list (v : Pv) (b : Nat) (xs ys : List Pv) (h : Items m v xs) (hb : m.next ≤ b) (hb' : b < m'.next) (hn : m'.node b = .list ys)
      (hl : xs.length = ys.length) (hc : ∀ p ∈ xs.zip ys, Copy m links m' p.1 p.2) : Copy m links m' v (.ref b)
  | made (v : Pv) (b : Nat) (cls : String) (attrs : PyDict String Pv) (h : links = true)
      (hv : (∃ s, v = .str s) ∨ ∃ a kvs, v = .ref a ∧ m.node a = .dict kvs)
      (hb : m.next ≤ b) (hb' : b < m'.next) (hn : m'.node b = .inst cls attrs) : Copy m links m' v (.ref b)

/-- The Link class makes new objects and changes nothing. -/
structure Maker (link : CtorIn) : Prop where
  changes_nothing : ∀ args m, Extends m (link args m).2
  new : ∀ args m v m', link args m = (.ok v, m') → ∃ b cls attrs, v = .ref b ∧ m.next ≤ b ∧ b < m'.next ∧ m'.node b = .inst cls attrs

/-- The value exists. -/
def Exists (m : Mem) (v : Pv) : Prop := ∀ a, v = .ref a → a < m.next

/-! ## Nothing else is changed -/

theorem lifted_extends {r : Outcome Pv × Mem} {m : Mem} (h : Extends m r.2) : Extends m (lifted r).2 := by
  obtain ⟨o, m1⟩ := r
  cases o <;> exact h

theorem andThen_extends {α β : Type} {r : Except Exc α × Mem} {f : α → Act β} {m : Mem} (h : Extends m r.2) (hf : ∀ v m, Extends m (f v m).2) :
    Extends m (andThen r f).2 := by
  obtain ⟨o, m1⟩ := r
  cases o with
  | error e => exact h
  | ok v => exact h.trans (hf v m1)

theorem createLinkIn_extends (env : Env) {link : CtorIn} (hl : Maker link) (n : Nat) : ∀ v m, Extends m (createLinkIn env link n v m).2 := by
  have text : ∀ (n : Nat) s m, Extends m (createLinkIn env link n (.str s) m).2 := by
    intro n s m
    have hd : createLinkIn env link n (.str s) m = match linkable env s with
        | .error e => (.error (.raised e), m)
        | .ok true => lifted (link [("href", .str s)] m)
        | .ok false => (.ok (.str s), m) := by cases n <;> rfl
    rw [hd]
    split
    · exact Extends.refl m
    · exact lifted_extends (hl.changes_nothing _ _)
    · exact Extends.refl m
  induction n with
  | zero =>
    intro v m
    cases v with
    | str s => exact text 0 s m
    | _ => exact Extends.refl m
  | succ n ih =>
    intro v m
    cases v with
    | str s => exact text (n + 1) s m
    | ref a =>
      rw [createLinkIn]
      split
      · split
        · exact Extends.refl m
        · exact lifted_extends (hl.changes_nothing _ _)
        · exact Extends.refl m
      · exact wrap_extends _ m _ (items_extends ih _ m)
      · exact wrap_extends _ m _ (items_extends ih _ m)
      · exact wrap_extends _ m _ (items_extends ih _ m)
      · exact Extends.refl m
      · exact Extends.refl m
    | _ => exact Extends.refl m

theorem evaluateOne_mem (additional : List Validator) (v : Pv) (m : Mem) : (evaluateOne additional v m).2 = m := by
  unfold evaluateOne
  split <;> rfl

theorem evaluateRest_extends {again : Pv → Act Pv} (h : ∀ v m, Extends m (again v m).2) (additional : List Validator) (v : Pv) (m : Mem) :
    Extends m (evaluateRest again additional v m).2 := by
  have one : ∀ v, Extends m (evaluateOne additional v m).2 := fun v => by rw [evaluateOne_mem]; exact Extends.refl m
  unfold evaluateRest
  split
  · split
    · exact wrap_extends _ m _ (items_extends h _ m)
    · exact one _
  · exact one _

theorem evaluateIn_extends (mro : String → List String) (functional : Bool) (additional : List Validator) (n : Nat) :
    ∀ types v m, Extends m (evaluateIn mro functional additional n types v m).2 := by
  induction n with
  | zero => intro types v m; exact Extends.refl m
  | succ n ih =>
    intro types v m
    rw [evaluateIn]
    split
    · exact Extends.refl m
    · exact evaluateRest_extends (fun v m => ih _ v m) additional v m

theorem parseIn_extends (env : Env) (v : Pv) (m : Mem) : Extends m (parseIn env v m).2 := by
  unfold parseIn
  split
  · exact Extends.refl m
  · split
    · exact Extends.refl m
    · exact extends_alloc _ _
    · exact Extends.refl m
  · split <;> exact Extends.refl m

theorem storesIn_extends (env : Env) {link : CtorIn} (hl : Maker link) (n : Nat) (r : PropRow) (v : Pv) (m : Mem) :
    Extends m (r.storesIn env link n v m).2 := by
  unfold PropRow.storesIn
  refine andThen_extends ?_ fun u m1 => andThen_extends (evaluateIn_extends _ _ _ n _ u m1) fun w m2 => ?_
  · unfold PropRow.convertIn
    split
    · exact createLinkIn_extends env hl n v m
    · exact Extends.refl m
  · unfold PropRow.parsedIn
    split
    · exact parseIn_extends env w m2
    · exact Extends.refl m2

/-- **C134 (a).** Assigning to a property of the object at `o` changes no other object, and of that object only the attribute of the property; if the
assignment raises, nothing changes. -/
theorem assign_changes_only (env : Env) {link : CtorIn} (hl : Maker link) (n : Nat) (r : PropRow) (o : Nat) (v : Pv) (m : Mem) (ho : o < m.next)
    (c : String) (attrs : PyDict String Pv) (hn : m.node o = .inst c attrs) (out : Except Exc Unit) (m' : Mem)
    (h : r.setIn env link n o v m = (out, m')) :
    (∀ b, b < m.next → b ≠ o → m'.node b = m.node b) ∧
    (out ≠ .ok () → m'.node o = m.node o) ∧
    (out = .ok () → ∃ w m1, r.storesIn env link n v m = (.ok w, m1) ∧ m'.node o = .inst c (attrs.dset r.write w) ∧
      ∀ b, b ≠ o → m'.node b = m1.node b) := by
  have hx := storesIn_extends env hl n r v m
  unfold PropRow.setIn at h
  cases hs : r.storesIn env link n v m with
  | mk o1 m1 =>
    rw [hs] at h hx
    simp only at hx
    cases o1 with
    | error e =>
      obtain ⟨rfl, rfl⟩ := Prod.mk.inj h
      exact ⟨fun b hb _ => hx.same b hb, fun _ => hx.same o ho, fun hh => (nomatch hh)⟩
    | ok w =>
      obtain ⟨rfl, rfl⟩ := Prod.mk.inj h
      have ha : attrsAt m1 o = (c, attrs) := by unfold attrsAt; rw [hx.same o ho, hn]
      have hne : ∀ b, b ≠ o → (m1.write o (.inst (attrsAt m1 o).1 ((attrsAt m1 o).2.dset r.write w))).node b = m1.node b :=
        fun b hb => Function.update_of_ne hb ..
      refine ⟨fun b hb hbo => (hne b hbo).trans (hx.same b hb), fun hh => absurd rfl hh, fun _ => ⟨w, m1, rfl, ?_, hne⟩⟩
      rw [write_node, ha]

/-! ## Lists are copied, other things are not -/

theorem Items.mono {m m1 : Mem} (x : Extends m m1) {v : Pv} {xs : List Pv} (h : Items m v xs) : Items m1 v xs := by
  obtain ⟨a, h1, h2, h3⟩ := h
  exact ⟨a, h1, Nat.lt_of_lt_of_le h2 x.next, by rw [x.same a h2]; exact h3⟩

theorem Items.unique {m : Mem} {v : Pv} {xs ys : List Pv} (h : Items m v xs) (k : Items m v ys) : xs = ys := by
  obtain ⟨a, h1, _, h3⟩ := h
  obtain ⟨b, k1, _, k3⟩ := k
  rw [h1] at k1
  cases k1
  rcases h3 with h3 | h3 | h3 <;> rcases k3 with k3 | k3 | k3 <;> rw [h3] at k3 <;> cases k3 <;> rfl

/-- Only the memory in which the copy is matters for new objects; it may grow. -/
theorem Copy.mono {m m1 m2 : Mem} {links : Bool} (x : Extends m1 m2) {v w : Pv} (h : Copy m links m1 v w) : Copy m links m2 v w := by
  induction h with
  | same v h => exact .same v h
  | list v b xs ys h hb hb' hn hl _ ih => exact .list v b xs ys h hb (Nat.lt_of_lt_of_le hb' x.next) ((x.same b hb').trans hn) hl ih
  | made v b cls attrs h hv hb hb' hn => exact .made v b cls attrs h hv hb (Nat.lt_of_lt_of_le hb' x.next) ((x.same b hb').trans hn)

/-- `w` is `v`, or in it, in it in a list, and so on. -/
inductive ListInside (m : Mem) (v : Pv) : Pv → Prop
  | self : ListInside m v v
  | step (w x : Pv) (xs : List Pv) : ListInside m v w → Items m w xs → x ∈ xs → ListInside m v x

/-- The value, its items, their items and so on exist. -/
def Well (m : Mem) (v : Pv) : Prop := ∀ w, ListInside m v w → Exists m w

theorem ListInside.head {m : Mem} {v w : Pv} (h : ListInside m v w) : w = v ∨ ∃ xs x, Items m v xs ∧ x ∈ xs ∧ ListInside m x w := by
  induction h with
  | self => exact .inl rfl
  | step w y xs _ hi hy ih =>
    rcases ih with rfl | ⟨zs, z, h1, h2, h3⟩
    · exact .inr ⟨xs, y, hi, hy, .self⟩
    · exact .inr ⟨zs, z, h1, h2, .step w y xs h3 hi hy⟩

theorem ListInside.under {m : Mem} {v x w : Pv} {xs : List Pv} (h : Items m v xs) (hx : x ∈ xs) (k : ListInside m x w) : ListInside m v w := by
  induction k with
  | self => exact .step v x xs .self h hx
  | step w y ys _ hi hy ih => exact .step w y ys ih hi hy

theorem Well.item {m : Mem} {v x : Pv} {xs : List Pv} (h : Well m v) (hi : Items m v xs) (hx : x ∈ xs) : Well m x :=
  fun w hw => h w (ListInside.under hi hx hw)

theorem Items.mem {m : Mem} {v x : Pv} {xs : List Pv} (h : Items m v xs) (hx : x ∈ xs) (hc : Closed m) : Exists m x := by
  obtain ⟨a, _, h2, h3⟩ := h
  intro b hb
  refine hc a h2 b ?_
  rw [← hb]
  rcases h3 with h | h | h <;> rw [h] <;> exact hx

/-- If only existing objects are referred to, it is enough that the value exists. -/
theorem well_of_closed {m : Mem} (hc : Closed m) {v : Pv} (h : Exists m v) : Well m v := by
  intro w hw
  induction hw with
  | self => exact h
  | step w x xs _ hi hx _ => exact hi.mem hx hc

theorem Items.back {m m1 : Mem} (x : Extends m m1) {v : Pv} {xs : List Pv} (hv : Exists m v) (h : Items m1 v xs) : Items m v xs := by
  obtain ⟨a, rfl, _, hn⟩ := h
  exact ⟨a, rfl, hv a rfl, by rw [← x.same a (hv a rfl)]; exact hn⟩

/-- A copy exists in the memory it is made in. -/
theorem Copy.well {m m1 : Mem} {links : Bool} (x : Extends m m1) {v w : Pv} (h : Copy m links m1 v w) (hv : Well m v) : Well m1 w := by
  induction h with
  | same v h =>
    intro w hw
    rcases hw.head with rfl | ⟨xs, y, hi, _⟩
    · exact fun a ha => Nat.lt_of_lt_of_le (hv _ .self a ha) x.next
    · exact absurd (hi.back x (hv v .self)) (h xs)
  | list v b xs ys h hb hb' hn hl hcs ih =>
    intro w hw
    rcases hw.head with rfl | ⟨zs, y, hi, hy, hyw⟩
    · intro a ha; cases ha; exact hb'
    · have : zs = ys := hi.unique ⟨b, rfl, hb', .inl hn⟩
      subst this
      obtain ⟨i, hi1, rfl⟩ := List.mem_iff_getElem.1 hy
      have hi2 : i < xs.length := by omega
      have e1 : (xs[i], zs[i]) ∈ xs.zip zs := List.mem_iff_getElem.2 ⟨i, by simp; omega, by simp⟩
      exact ih _ e1 (hv.item h (List.getElem_mem hi2)) w hyw
  | made v b cls attrs h hk hb hb' hn =>
    intro w hw
    rcases hw.head with rfl | ⟨zs, y, ⟨a, ha, _, hi⟩, _⟩
    · intro a ha; cases ha; exact hb'
    · cases ha
      rw [hn] at hi
      rcases hi with h | h | h <;> cases h

/-- A copy of a copy. -/
theorem Copy.trans {m m1 m2 : Mem} {links : Bool} (x : Extends m m1) (x2 : Extends m1 m2) {u v w : Pv} (h : Copy m links m1 u v)
    (hu : Well m u) : Copy m1 false m2 v w → Copy m links m2 u w := by
  induction h generalizing w with
  | same v h =>
    intro k
    cases k with
    | same _ _ => exact .same v h
    | list _ b xs ys hk => exact absurd (hk.back x (hu v .self)) (h xs)
    | made _ _ _ _ h0 => cases h0
  | list v b xs ys h hb hb' hn hl hcs ih =>
    intro k
    cases k with
    | same _ hs => exact absurd ⟨b, rfl, hb', .inl hn⟩ (hs ys)
    | list _ c xs' zs hk hc hc' hn' hl' hcs' =>
      have : xs' = ys := hk.unique ⟨b, rfl, hb', .inl hn⟩
      subst this
      refine .list v c xs zs h (Nat.le_trans x.next hc) hc' hn' (hl.trans hl') ?_
      intro p hp
      obtain ⟨i, hi, hip⟩ := List.mem_iff_getElem.1 hp
      have hi1 : i < xs.length := by simp at hi; omega
      have hi2 : i < xs'.length := by simp at hi; omega
      have hi3 : i < zs.length := by simp at hi; omega
      have e1 : (xs[i], xs'[i]) ∈ xs.zip xs' := List.mem_iff_getElem.2 ⟨i, by simp; omega, by simp⟩
      have e2 : (xs'[i], zs[i]) ∈ xs'.zip zs := List.mem_iff_getElem.2 ⟨i, by simp; omega, by simp⟩
      have e3 : p = (xs[i], zs[i]) := by rw [← hip]; simp
      rw [e3]
      exact ih _ e1 (hu.item h (List.getElem_mem hi1)) (hcs' _ e2)
    | made _ _ _ _ h0 => cases h0
  | made v b cls attrs h hk hb hb' hn =>
    intro k
    cases k with
    | same _ _ => exact .made v b cls attrs h hk hb (Nat.lt_of_lt_of_le hb' x2.next) ((x2.same b hb').trans hn)
    | list _ c xs ys hk' =>
      obtain ⟨a, ha, _, hn'⟩ := hk'
      cases ha
      rw [hn] at hn'
      rcases hn' with h | h | h <;> cases h
    | made _ _ _ _ h0 => cases h0

/-- A list of copies. -/
theorem items_copy {m0 : Mem} {links : Bool} {act : Pv → Act Pv} (hx : ∀ v m, Extends m (act v m).2)
    (h : ∀ v m w m', Extends m0 m → Well m0 v → act v m = (.ok w, m') → Copy m0 links m' v w) :
    ∀ xs m ys m', Extends m0 m → (∀ v ∈ xs, Well m0 v) → MemEngine.items act xs m = (.ok ys, m') →
      xs.length = ys.length ∧ ∀ p ∈ xs.zip ys, Copy m0 links m' p.1 p.2 := by
  intro xs
  induction xs with
  | nil =>
    intro m ys m' _ _ heq
    rw [MemEngine.items] at heq
    obtain ⟨h1, _⟩ := Prod.mk.inj heq
    cases Except.ok.inj h1
    exact ⟨rfl, by simp⟩
  | cons x xs ih =>
    intro m ys m' hm hw heq
    rw [MemEngine.items] at heq
    cases hact : act x m with
    | mk o m1 =>
      rw [hact] at heq
      have hx1 := hx x m
      rw [hact] at hx1
      cases o with
      | error e => exact absurd (Prod.mk.inj heq).1 (by simp)
      | ok v =>
        simp only at heq
        cases hrest : MemEngine.items act xs m1 with
        | mk o2 m2 =>
          rw [hrest] at heq
          have hx2 := items_extends hx xs m1
          rw [hrest] at hx2
          cases o2 with
          | error e => exact absurd (Prod.mk.inj heq).1 (by simp)
          | ok vs =>
            obtain ⟨h1, h2⟩ := Prod.mk.inj heq
            cases Except.ok.inj h1
            subst h2
            obtain ⟨hl, hc⟩ := ih m1 vs m2 (hm.trans hx1) (fun v hv => hw v (by simp [hv])) hrest
            refine ⟨by simp [hl], fun p hp => ?_⟩
            rw [List.zip_cons_cons] at hp
            rcases List.mem_cons.1 hp with rfl | hp
            · exact (h x m v m1 hm (hw x (by simp)) hact).mono hx2
            · exact hc p hp

/-- A new list of copies is a copy. -/
theorem wrap_copy {m0 m : Mem} {links : Bool} {act : Pv → Act Pv} (hx : ∀ v m, Extends m (act v m).2)
    (h : ∀ v m w m', Extends m0 m → Well m0 v → act v m = (.ok w, m') → Copy m0 links m' v w) {v : Pv} {xs : List Pv} (hm : Extends m0 m)
    (hi : Items m0 v xs) (hw : Well m0 v) {w : Pv} {m' : Mem} (heq : MemEngine.wrap .list (MemEngine.items act xs m) = (.ok w, m')) :
    Copy m0 links m' v w := by
  have hx2 := items_extends hx xs m
  cases hit : MemEngine.items act xs m with
  | mk o m1 =>
    rw [hit] at heq hx2
    cases o with
    | error e => exact absurd (Prod.mk.inj heq).1 (by simp)
    | ok vs =>
      obtain ⟨h1, h2⟩ := Prod.mk.inj heq
      cases Except.ok.inj h1
      subst h2
      obtain ⟨hl, hc⟩ := items_copy hx h xs m vs m1 hm (fun x hx => hw.item hi hx) hit
      exact .list v m1.next xs vs hi (hm.trans hx2).next (Nat.lt_succ_self _) (alloc_node _ _) hl fun p hp => (hc p hp).mono (extends_alloc _ _)

theorem itemsOf_iff {m : Mem} {a : Nat} (ha : a < m.next) {xs : List Pv} : itemsOf (m.node a) = some xs ↔ Items m (.ref a) xs := by
  constructor
  · intro h
    refine ⟨a, rfl, ha, ?_⟩
    cases hn : m.node a <;> rw [hn] at h <;> simp only [itemsOf] at h <;> cases h <;> simp
  · rintro ⟨b, hb, _, h⟩
    cases hb
    rcases h with h | h | h <;> rw [h] <;> rfl

theorem evaluateOne_ok {additional : List Validator} {v w : Pv} {m m' : Mem} (h : evaluateOne additional v m = (.ok w, m')) : w = v ∧ m' = m := by
  unfold evaluateOne at h
  split at h
  · exact absurd (Prod.mk.inj h).1 (by simp)
  · obtain ⟨h1, h2⟩ := Prod.mk.inj h
    exact ⟨(Except.ok.inj h1).symm, h2.symm⟩

theorem evaluateIn_copy (mro : String → List String) (functional : Bool) (additional : List Validator) (m0 : Mem) (n : Nat) :
    ∀ types v m w m', Extends m0 m → Well m0 v → evaluateIn mro functional additional n types v m = (.ok w, m') → Copy m0 false m' v w := by
  induction n with
  | zero => intro types v m w m' _ _ h; exact absurd (Prod.mk.inj h).1 (by simp)
  | succ n ih =>
    intro types v m w m' hm hw h
    rw [evaluateIn] at h
    split at h
    · exact absurd (Prod.mk.inj h).1 (by simp)
    · unfold evaluateRest at h
      split at h
      · rename_i a _
        have ha := hw _ .self a rfl
        rw [hm.same a ha] at h
        split at h
        · rename_i xs hxs
          exact wrap_copy (fun v m => evaluateIn_extends _ _ _ n _ v m) (fun v m w m' h1 h2 h3 => ih _ v m w m' h1 h2 h3) hm
            ((itemsOf_iff ha).1 hxs) hw h
        · rename_i hxs
          obtain ⟨rfl, rfl⟩ := evaluateOne_ok h
          exact .same _ fun xs hx => by rw [(itemsOf_iff ha).2 hx] at hxs; cases hxs
      · rename_i hnr
        obtain ⟨rfl, rfl⟩ := evaluateOne_ok h
        exact .same _ fun xs ⟨a, ha, _⟩ => hnr a ha

theorem lifted_ok {r : Outcome Pv × Mem} {w : Pv} {m' : Mem} (h : lifted r = (.ok w, m')) : r = (.ok w, m') := by
  obtain ⟨o, m1⟩ := r
  cases o with
  | error e => exact absurd (Prod.mk.inj h).1 (by simp)
  | ok v => obtain ⟨h1, h2⟩ := Prod.mk.inj h; cases Except.ok.inj h1; subst h2; rfl

theorem basic_same {m0 m' : Mem} {links : Bool} {v : Pv} (h : ∀ a, v ≠ .ref a) : Copy m0 links m' v v :=
  .same v fun _ ⟨a, ha, _⟩ => h a ha

theorem createLinkIn_copy (env : Env) {link : CtorIn} (hl : Maker link) (m0 : Mem) (n : Nat) :
    ∀ v m w m', Extends m0 m → Well m0 v → createLinkIn env link n v m = (.ok w, m') → Copy m0 true m' v w := by
  have text : ∀ (n : Nat) s m w m', Extends m0 m → createLinkIn env link n (.str s) m = (.ok w, m') → Copy m0 true m' (.str s) w := by
    intro n s m w m' hm h
    have hd : createLinkIn env link n (.str s) m = match linkable env s with
        | .error e => (.error (.raised e), m)
        | .ok true => lifted (link [("href", .str s)] m)
        | .ok false => (.ok (.str s), m) := by cases n <;> rfl
    rw [hd] at h
    split at h
    · exact absurd (Prod.mk.inj h).1 (by simp)
    · obtain ⟨b, cls, attrs, rfl, hb, hb', hn⟩ := hl.new _ _ _ _ (lifted_ok h)
      exact .made _ b cls attrs rfl (.inl ⟨s, rfl⟩) (Nat.le_trans hm.next hb) hb' hn
    · obtain ⟨h1, _⟩ := Prod.mk.inj h
      cases Except.ok.inj h1
      exact basic_same fun a => by simp
  have basic : ∀ v w m m', (∀ a, v ≠ .ref a) → ((.ok v, m) : Except Exc Pv × Mem) = (.ok w, m') → Copy m0 true m' v w := by
    intro v w m m' hv h
    obtain ⟨h1, _⟩ := Prod.mk.inj h
    cases Except.ok.inj h1
    exact basic_same hv
  induction n with
  | zero =>
    intro v m w m' hm hw h
    cases v with
    | str s => exact text 0 s m w m' hm h
    | ref a => exact absurd (Prod.mk.inj h).1 (by simp)
    | _ => exact basic _ w m m' (by simp) h
  | succ n ih =>
    intro v m w m' hm hw h
    cases v with
    | str s => exact text (n + 1) s m w m' hm h
    | ref a =>
      have ha := hw _ .self a rfl
      rw [createLinkIn, hm.same a ha] at h
      have seq : ∀ xs, Items m0 (.ref a) xs → MemEngine.wrap .list (MemEngine.items (createLinkIn env link n) xs m) = (.ok w, m') →
          Copy m0 true m' (.ref a) w :=
        fun xs hi heq => wrap_copy (createLinkIn_extends env hl n) ih hm hi hw heq
      have leaf : (∀ xs, ¬ Items m0 (.ref a) xs) → ((.ok (.ref a), m) : Except Exc Pv × Mem) = (.ok w, m') → Copy m0 true m' (.ref a) w := by
        intro hi heq
        obtain ⟨h1, _⟩ := Prod.mk.inj heq
        cases Except.ok.inj h1
        exact .same _ hi
      cases hn : m0.node a with
      | list xs => rw [hn] at h; exact seq xs ⟨a, rfl, ha, .inl hn⟩ h
      | tuple xs => rw [hn] at h; exact seq xs ⟨a, rfl, ha, .inr (.inl hn)⟩ h
      | set xs => rw [hn] at h; exact seq xs ⟨a, rfl, ha, .inr (.inr hn)⟩ h
      | inst c at0 =>
        rw [hn] at h
        exact leaf (by rintro xs ⟨b, hb, _, hi⟩; cases hb; rw [hn] at hi; rcases hi with hi | hi | hi <;> cases hi) h
      | other c r =>
        rw [hn] at h
        exact leaf (by rintro xs ⟨b, hb, _, hi⟩; cases hb; rw [hn] at hi; rcases hi with hi | hi | hi <;> cases hi) h
      | dict kvs =>
        rw [hn] at h
        simp only at h
        split at h
        · exact absurd (Prod.mk.inj h).1 (by simp)
        · obtain ⟨b, cls, attrs, rfl, hb, hb', hnb⟩ := hl.new _ _ _ _ (lifted_ok h)
          exact .made _ b cls attrs rfl (.inr ⟨a, kvs, rfl, hn⟩) (Nat.le_trans hm.next hb) hb' hnb
        · exact leaf (by rintro xs ⟨b, hb, _, hi⟩; cases hb; rw [hn] at hi; rcases hi with hi | hi | hi <;> cases hi) h
    | _ => exact basic _ w m m' (by simp) h

theorem andThen_ok {α β : Type} {r : Except Exc α × Mem} {f : α → Act β} {w : β} {m' : Mem} (h : andThen r f = (.ok w, m')) :
    ∃ v m1, r = (.ok v, m1) ∧ f v m1 = (.ok w, m') := by
  obtain ⟨o, m1⟩ := r
  cases o with
  | error e => exact absurd (Prod.mk.inj h).1 (by simp)
  | ok v => exact ⟨v, m1, rfl, h⟩

/-- **C134 (b).** What a setter that does not parse dates stores is the value with all lists, tuples and sets copied into new lists, at every level;
everything else is kept as it is, but for texts and dictionaries that become Links. -/
theorem stored_copy (env : Env) {link : CtorIn} (hl : Maker link) (n : Nat) (r : PropRow) (hp : r.parse = false) (v : Pv) (m : Mem)
    (hw : Well m v) (w : Pv) (m' : Mem) (h : r.storesIn env link n v m = (.ok w, m')) : Copy m r.fromStr m' v w := by
  unfold PropRow.storesIn at h
  obtain ⟨u, m1, h1, h⟩ := andThen_ok h
  obtain ⟨x, m2, h2, h3⟩ := andThen_ok h
  have h3' : x = w ∧ m2 = m' := by
    unfold PropRow.parsedIn at h3
    rw [hp] at h3
    obtain ⟨a, b⟩ := Prod.mk.inj h3
    exact ⟨Except.ok.inj a, b⟩
  obtain ⟨rfl, rfl⟩ := h3'
  unfold PropRow.convertIn at h1
  have x2 := evaluateIn_extends env.mro r.functional (r.additional.map (Check.run env)) n r.allTypes u m1
  rw [h2] at x2
  cases hf : r.fromStr with
  | false =>
    rw [hf] at h1
    obtain ⟨ha, hb⟩ := Prod.mk.inj h1
    cases Except.ok.inj ha
    subst hb
    exact evaluateIn_copy _ _ _ m n _ _ m _ _ (Extends.refl m) hw h2
  | true =>
    rw [hf] at h1
    simp only [if_true] at h1
    have x1 := createLinkIn_extends env hl n v m
    rw [h1] at x1
    have c1 := createLinkIn_copy env hl m n v m u m1 (Extends.refl m) hw h1
    exact c1.trans x1 x2 hw (evaluateIn_copy _ _ _ m1 n _ _ m1 _ _ (Extends.refl m1) (c1.well x1 hw) h2)

/-- Every list in a copy is new: the value is a list itself, an item of such a list, and so on. -/
theorem copy_lists_new {m m' : Mem} {links : Bool} (x : Extends m m') {v w : Pv} (h : Copy m links m' v w) (hv : Well m v) :
    ∀ u xs, ListInside m' w u → Items m' u xs → ∃ b, u = .ref b ∧ m.next ≤ b := by
  induction h with
  | same v h =>
    intro u xs hu hi
    rcases hu.head with rfl | ⟨ys, y, hy, _⟩
    · exact absurd (hi.back x (hv _ .self)) (h xs)
    · exact absurd (hy.back x (hv v .self)) (h ys)
  | list v b xs ys h hb hb' hn hl hcs ih =>
    intro u zs hu hi
    rcases hu.head with rfl | ⟨ws, y, hw, hy, hyu⟩
    · exact ⟨b, rfl, hb⟩
    · have : ws = ys := hw.unique ⟨b, rfl, hb', .inl hn⟩
      subst this
      obtain ⟨i, hi1, rfl⟩ := List.mem_iff_getElem.1 hy
      have hi2 : i < xs.length := by omega
      have e1 : (xs[i], ws[i]) ∈ xs.zip ws := List.mem_iff_getElem.2 ⟨i, by simp; omega, by simp⟩
      exact ih _ e1 (hv.item h (List.getElem_mem hi2)) u zs hyu hi
  | made v b cls attrs h hk hb hb' hn =>
    intro u xs hu hi
    rcases hu.head with rfl | ⟨ys, y, ⟨a, ha, _, hy⟩, _⟩
    · exact ⟨b, rfl, hb⟩
    · cases ha
      rw [hn] at hy
      rcases hy with h | h | h <;> cases h

/-- **C134 (c).** After an assignment the caller may change its lists (or anything else that existed before, but the object itself): the value of the
property, with the lists in it, stays as it is. -/
theorem callers_lists_free (env : Env) {link : CtorIn} (hl : Maker link) (n : Nat) (r : PropRow) (hr : r.read = r.write) (hp : r.parse = false)
    (o : Nat) (v : Pv) (m : Mem) (ho : o < m.next) (c : String) (attrs : PyDict String Pv) (hn : m.node o = .inst c attrs) (hw : Well m v)
    (m' : Mem) (h : r.setIn env link n o v m = (.ok (), m')) (b : Nat) (hb : b < m.next) (hbo : b ≠ o) (x : Node) :
    ∃ w, r.storedIn m' o = .ok w ∧ r.storedIn (m'.write b x) o = .ok w ∧
      ∀ u xs, ListInside m' w u → Items m' u xs → Items (m'.write b x) u xs := by
  obtain ⟨_, _, h3⟩ := assign_changes_only env hl n r o v m ho c attrs hn _ _ h
  obtain ⟨w, m1, hs, hno, hrest⟩ := h3 rfl
  have hx := storesIn_extends env hl n r v m
  rw [hs] at hx
  have st : ∀ mm : Mem, mm.node o = .inst c (attrs.dset r.write w) → r.storedIn mm o = .ok w := by
    intro mm hmm
    unfold PropRow.storedIn attrsAt
    rw [hmm]
    simp only [hr, PyDict.dget_dset, if_true]
  refine ⟨w, st m' hno, st _ ?_, fun u xs hu hi => ?_⟩
  · rw [← hno]; exact Function.update_of_ne (Ne.symm hbo) ..
  · have hcopy := stored_copy env hl n r hp v m hw w m1 hs
    have conv : ∀ {u xs}, Items m' u xs → Items m1 u xs := by
      rintro u xs ⟨a, rfl, ha, hk⟩
      have hao : a ≠ o := by
        rintro rfl
        rw [hno] at hk
        rcases hk with hk | hk | hk <;> cases hk
      rw [hrest a hao] at hk
      refine ⟨a, rfl, ?_, hk⟩
      have hnext : m'.next = m1.next := by
        unfold PropRow.setIn at h
        rw [hs] at h
        obtain ⟨_, rfl⟩ := Prod.mk.inj h
        rfl
      rwa [← hnext]
    have hin : ListInside m1 w u := by
      clear hi
      induction hu with
      | self => exact .self
      | step y z zs _ hi hz ih => exact .step y z zs ih (conv hi) hz
    obtain ⟨a, rfl, ha⟩ := copy_lists_new hx hcopy hw u xs hin (conv hi)
    obtain ⟨a', hae, hlt, hk⟩ := hi
    cases hae
    refine ⟨a, rfl, hlt, ?_⟩
    have hne : a ≠ b := by omega
    have : (m'.write b x).node a = m'.node a := Function.update_of_ne hne ..
    rw [this]
    exact hk

/-- **C134 (d).** A dictionary that does not become a Link is not copied: changing it later changes the property. -/
theorem dictionary_shared (env : Env) {link : CtorIn} (hl : Maker link) (n : Nat) (r : PropRow) (hf : r.fromStr = false) (hp : r.parse = false)
    (a : Nat) (m : Mem) (ha : a < m.next) (kvs : PyDict String Pv) (hn : m.node a = .dict kvs) (w : Pv) (m' : Mem)
    (h : r.storesIn env link n (.ref a) m = (.ok w, m')) : w = .ref a := by
  have hno : ∀ xs, ¬ Items m (.ref a) xs := by
    rintro xs ⟨b, hb, _, hi⟩
    cases hb
    rw [hn] at hi
    rcases hi with hi | hi | hi <;> cases hi
  have hw : Well m (.ref a) := by
    intro u hu
    rcases hu.head with rfl | ⟨xs, _, hi, _⟩
    · intro b hb; cases hb; exact ha
    · exact absurd hi (hno xs)
  have := stored_copy env hl n r hp (.ref a) m hw w m' h
  cases this with
  | same _ _ => rfl
  | list _ b xs ys hi => exact absurd hi (hno xs)
  | made _ b cls at0 h0 => rw [hf] at h0; cases h0

/-! ## The stored list itself is handed out -/

/-- **C134 (e).** After a list is assigned, reading gives one list, which is not the one assigned; and whatever is done to the list that was read is
done to the property, without any check. -/
theorem list_read_is_stored (env : Env) {link : CtorIn} (hl : Maker link) (n : Nat) (r : PropRow) (hr : r.read = r.write) (hp : r.parse = false)
    (o : Nat) (a : Nat) (xs : List Pv) (m : Mem) (ho : o < m.next) (c : String) (attrs : PyDict String Pv) (hn : m.node o = .inst c attrs)
    (hw : Well m (.ref a)) (ha : m.node a = .list xs) (m' : Mem) (h : r.setIn env link n o (.ref a) m = (.ok (), m')) :
    ∃ b ys, r.storedIn m' o = .ok (.ref b) ∧ b ≠ a ∧ b ≠ o ∧ m'.node b = .list ys ∧ ys.length = xs.length ∧
      ∀ zs, r.storedIn (m'.write b (.list zs)) o = .ok (.ref b) ∧ (m'.write b (.list zs)).node b = .list zs := by
  obtain ⟨_, _, h3⟩ := assign_changes_only env hl n r o _ m ho c attrs hn _ _ h
  obtain ⟨w, m1, hs, hno, hrest⟩ := h3 rfl
  have hlt : a < m.next := hw _ .self a rfl
  have hi : Items m (.ref a) xs := ⟨a, rfl, hlt, .inl ha⟩
  have st : ∀ mm : Mem, mm.node o = .inst c (attrs.dset r.write w) → r.storedIn mm o = .ok w := by
    intro mm hmm
    unfold PropRow.storedIn attrsAt
    rw [hmm]
    simp only [hr, PyDict.dget_dset, if_true]
  have hcopy := stored_copy env hl n r hp _ m hw w m1 hs
  cases hcopy with
  | same _ hx => exact absurd hi (hx xs)
  | list _ b zs ys hi2 hb hb' hnb hlen hcs =>
    have : xs = zs := hi.unique hi2
    subst this
    have hbo : b ≠ o := by omega
    refine ⟨b, ys, st m' hno, by omega, hbo, (hrest b hbo).trans hnb, hlen.symm, fun ts => ⟨st _ ?_, write_node ..⟩⟩
    rw [← hno]
    exact Function.update_of_ne hbo.symm ..
  | made _ b cls at0 h0 hv =>
    rcases hv with ⟨s, hs0⟩ | ⟨a', kvs, ha', hk⟩
    · cases hs0
    · cases ha'
      rw [ha] at hk
      cases hk

/-- A Link class that keeps its arguments as attributes. -/
def keepLink : CtorIn := MemEngine.keeping "Link"

theorem keepLink_maker : Maker keepLink where
  changes_nothing args m := extends_alloc _ _
  new args m v m' h := by
    obtain ⟨h1, h2⟩ := Prod.mk.inj h
    cases Except.ok.inj h1
    subst h2
    exact ⟨m.next, "Link", args, rfl, Nat.le_refl _, Nat.lt_succ_self _, alloc_node ..⟩

/-- The row of `name`. -/
def nameRow : PropRow := rowOf "name"

/-- An object at 0, a list with one text at 1 and a list with a dictionary in it at 2, 3. -/
def aliasMem : Mem where
  node := fun
    | 0 => .inst "Note" []
    | 1 => .list [.str "a"]
    | 2 => .list [.str "b", .ref 3]
    | 3 => .dict [("en", .str "c")]
    | _ => .list []
  next := 4

theorem aliasMem_closed : Closed aliasMem := by
  intro a ha b hb
  match a, ha with
  | 0, _ => simp [aliasMem, refs] at hb
  | 1, _ => simp [aliasMem, refs] at hb
  | 2, _ => simp [aliasMem, refs] at hb; subst hb; decide
  | 3, _ => simp [aliasMem, refs] at hb

/-- The hypotheses of C134 (a), (b), (c) and (e) hold of an assignment of a list. -/
example : nameRow.read = nameRow.write ∧ nameRow.parse = false ∧ nameRow.name = "name" ∧ nameRow ∈ propTable ∧ aliasMem.node 0 = .inst "Note" [] ∧ 
    Well aliasMem (.ref 2) ∧ aliasMem.node 2 = .list [.str "b", .ref 3] ∧ (nameRow.setIn noteEnv keepLink 3 0 (.ref 2) aliasMem).1 = .ok () :=
  ⟨by decide +kernel, by decide +kernel, by decide +kernel, by decide +kernel, rfl, well_of_closed aliasMem_closed (fun a h => by cases h; decide), rfl,
    by decide +kernel⟩

/-- **C134 (f): that assigned values are checked does not mean that the values of properties are.** A list with a text is assigned to `name`, a
number is appended to the list that is read: it is then in the property, though the setter refuses such a list. -/
theorem validation_bypassed_counterexample :
    ∃ m1 b, nameRow.setIn noteEnv keepLink 3 0 (.ref 1) aliasMem = (.ok (), m1) ∧ nameRow.storedIn m1 0 = .ok (.ref b) ∧ m1.node b = .list [.str "a"] ∧
      ∃ m2, m2 = m1.write b (.list [.str "a", .int 5]) ∧ nameRow.storedIn m2 0 = .ok (.ref b) ∧
        (nameRow.setIn noteEnv keepLink 3 0 (.ref b) m2).1 = .error (.raised .valueError) := by
  refine ⟨(nameRow.setIn noteEnv keepLink 3 0 (.ref 1) aliasMem).2, 4, Prod.ext ?_ rfl, ?_, ?_, _, rfl, ?_, ?_⟩ <;> decide +kernel

end Verif.Props.Alias
