import Verif.Props.Alias

/-!
# C134, continued: constructors that assign properties change nothing

`Props/Mem.lean` (C132) assumes of the constructors of an engine that they make new objects and change nothing (`Modest`).  A constructor that makes
an object and assigns its arguments to properties is like that.
-/
namespace Verif.Props.Alias
open Verif Verif.Jsonld Verif.AS Verif.Props.Mem

/-! ## Specification -/

/-- A constructor that makes a new object, of its arguments and of what it makes. -/
structure Decent (link : CtorIn) : Prop extends Maker link where
  keeps : ∀ args m v m' G, link args m = (.ok v, m') → Tight m G → (∀ p ∈ args, In G p.2) →
    ∃ G' : Nat → Prop, (∀ a, G a → G' a) ∧ (∀ a, G' a → G a ∨ m.next ≤ a) ∧ Tight m' G' ∧ In G' v

/-- A plan that assigns arguments and texts (and other basic values). -/
def FromArgs (plan : PyDict String Pv → List (Target × Pv)) : Prop :=
  ∀ args, ∀ p ∈ plan args, (∃ q ∈ args, p.2 = q.2) ∨ ∀ a, p.2 ≠ .ref a

/-- The classes of an engine are constructors that assign properties. -/
def Builds (env : Env) (link : CtorIn) (n : Nat) (plan : String → PyDict String Pv → List (Target × Pv)) (e : MemEngine) : Prop :=
  ∀ cls args m, lift (e.construct cls args m) = buildIn env link n cls (plan cls) args m

/-! ## Closure -/

/-- What an action returns is made of what it was given and of what it made. -/
def Keeps (act : Pv → Act Pv) : Prop :=
  ∀ v m G r m', Tight m G → In G v → act v m = (.ok r, m') →
    ∃ G' : Nat → Prop, (∀ a, G a → G' a) ∧ (∀ a, G' a → G a ∨ m.next ≤ a) ∧ Tight m' G' ∧ In G' r

theorem Tight.mono {m m' : Mem} (x : Extends m m') {G : Nat → Prop} (h : Tight m G) : Tight m' G := fun a ha =>
  ⟨Nat.lt_of_lt_of_le (h a ha).1 x.next, by rw [x.same a (h a ha).1]; exact (h a ha).2⟩

theorem keeps_same {m m' : Mem} (x : Extends m m') {G : Nat → Prop} (ht : Tight m G) {v : Pv} (hv : In G v) :
    ∃ G' : Nat → Prop, (∀ a, G a → G' a) ∧ (∀ a, G' a → G a ∨ m.next ≤ a) ∧ Tight m' G' ∧ In G' v :=
  ⟨G, fun _ => id, fun _ => .inl, Tight.mono x ht, hv⟩

theorem tight_alloc {m : Mem} {G : Nat → Prop} (ht : Tight m G) (x : Node) (hr : ∀ v ∈ refs x, In G v) :
    Tight (m.alloc x) (fun a => G a ∨ a = m.next) := by
  rintro a (ha | rfl)
  · exact ⟨((Tight.mono (extends_alloc m x) ht) a ha).1, fun b hb => .inl (((Tight.mono (extends_alloc m x) ht) a ha).2 b hb)⟩
  · refine ⟨Nat.lt_succ_self _, fun b hb => ?_⟩
    rw [alloc_node] at hb
    exact .inl (hr _ hb b rfl)

theorem items_keeps {act : Pv → Act Pv} (hx : ∀ v m, Extends m (act v m).2) (h : Keeps act) :
    ∀ xs m G rs m', Tight m G → (∀ v ∈ xs, In G v) → MemEngine.items act xs m = (.ok rs, m') →
      ∃ G' : Nat → Prop, (∀ a, G a → G' a) ∧ (∀ a, G' a → G a ∨ m.next ≤ a) ∧ Tight m' G' ∧ ∀ r ∈ rs, In G' r := by
  intro xs
  induction xs with
  | nil =>
    intro m G rs m' ht _ heq
    rw [MemEngine.items] at heq
    obtain ⟨h1, h2⟩ := Prod.mk.inj heq
    cases Except.ok.inj h1
    subst h2
    exact ⟨G, fun _ => id, fun _ => .inl, ht, by simp⟩
  | cons x xs ih =>
    intro m G rs m' ht hv heq
    rw [MemEngine.items] at heq
    cases hact : act x m with
    | mk o m1 =>
      rw [hact] at heq
      have hx1 := hx x m
      rw [hact] at hx1
      cases o with
      | error e => exact absurd (Prod.mk.inj heq).1 (by simp)
      | ok v =>
        simp only at heq
        obtain ⟨G1, i1, j1, g1, n1⟩ := h x m G v m1 ht (hv x (by simp)) hact
        cases hrest : MemEngine.items act xs m1 with
        | mk o2 m2 =>
          rw [hrest] at heq
          cases o2 with
          | error e => exact absurd (Prod.mk.inj heq).1 (by simp)
          | ok vs =>
            obtain ⟨G2, i2, j2, g2, n2⟩ := ih m1 G1 vs m2 g1 (fun v hh => (hv v (by simp [hh])).mono i1) hrest
            obtain ⟨h1, h2⟩ := Prod.mk.inj heq
            cases Except.ok.inj h1
            subst h2
            refine ⟨G2, fun a ha => i2 a (i1 a ha), fun a ha => ?_, g2, ?_⟩
            · rcases j2 a ha with h | h
              · exact j1 a h
              · exact .inr (Nat.le_trans hx1.next h)
            · intro r hr
              rcases List.mem_cons.1 hr with rfl | hr
              · exact n1.mono i2
              · exact n2 r hr

theorem wrap_keeps {act : Pv → Act Pv} (hx : ∀ v m, Extends m (act v m).2) (h : Keeps act) {xs : List Pv} {m : Mem} {G : Nat → Prop} {r : Pv} {m' : Mem}
    (ht : Tight m G) (hv : ∀ v ∈ xs, In G v) (heq : MemEngine.wrap .list (MemEngine.items act xs m) = (.ok r, m')) :
    ∃ G' : Nat → Prop, (∀ a, G a → G' a) ∧ (∀ a, G' a → G a ∨ m.next ≤ a) ∧ Tight m' G' ∧ In G' r := by
  have hx1 := items_extends hx xs m
  cases hi : MemEngine.items act xs m with
  | mk o m1 =>
    rw [hi] at heq hx1
    cases o with
    | error e => exact absurd (Prod.mk.inj heq).1 (by simp)
    | ok vs =>
      obtain ⟨G1, i1, j1, g1, n1⟩ := items_keeps hx h xs m G vs m1 ht hv hi
      obtain ⟨h1, h2⟩ := Prod.mk.inj heq
      cases Except.ok.inj h1
      subst h2
      refine ⟨_, fun a ha => .inl (i1 a ha), ?_, tight_alloc g1 (.list vs) n1, fun a ha => ?_⟩
      · rintro a (ha | rfl)
        · exact j1 a ha
        · exact .inr hx1.next
      · cases ha
        exact .inr rfl

theorem in_items {m : Mem} {G : Nat → Prop} (ht : Tight m G) {a : Nat} (ha : G a) {xs : List Pv} (h : itemsOf (m.node a) = some xs) : ∀ v ∈ xs, In G v := by
  intro v hv b hb
  subst hb
  refine (ht a ha).2 b ?_
  unfold itemsOf at h
  split at h <;> simp_all [refs]

theorem evaluateIn_keeps (mro : String → List String) (functional : Bool) (additional : List Validator) (n : Nat) :
    ∀ types, Keeps (evaluateIn mro functional additional n types) := by
  induction n with
  | zero => intro types v m G r m' _ _ h; exact absurd (Prod.mk.inj h).1 (by simp)
  | succ n ih =>
    intro types v m G r m' ht hv h
    rw [evaluateIn] at h
    split at h
    · exact absurd (Prod.mk.inj h).1 (by simp)
    · unfold evaluateRest at h
      split at h
      · rename_i a _
        split at h
        · rename_i xs hxs
          exact wrap_keeps (fun v m => evaluateIn_extends _ _ _ n _ v m) (ih _) ht (in_items ht (hv a rfl) hxs) h
        · obtain ⟨rfl, rfl⟩ := evaluateOne_ok h
          exact keeps_same (Extends.refl _) ht hv
      · obtain ⟨rfl, rfl⟩ := evaluateOne_ok h
        exact keeps_same (Extends.refl _) ht hv

theorem createLinkIn_keeps (env : Env) {link : CtorIn} (hl : Decent link) (n : Nat) : Keeps (createLinkIn env link n) := by
  have text : ∀ (n : Nat) s m G r m', Tight m G → createLinkIn env link n (.str s) m = (.ok r, m') →
      ∃ G' : Nat → Prop, (∀ a, G a → G' a) ∧ (∀ a, G' a → G a ∨ m.next ≤ a) ∧ Tight m' G' ∧ In G' r := by
    intro n s m G r m' ht h
    have hd : createLinkIn env link n (.str s) m = match linkable env s with
        | .error e => (.error (.raised e), m)
        | .ok true => lifted (link [("href", .str s)] m)
        | .ok false => (.ok (.str s), m) := by cases n <;> rfl
    rw [hd] at h
    split at h
    · exact absurd (Prod.mk.inj h).1 (by simp)
    · exact hl.keeps _ _ _ _ G (lifted_ok h) ht (by simp [In])
    · obtain ⟨h1, h2⟩ := Prod.mk.inj h
      cases Except.ok.inj h1
      subst h2
      exact keeps_same (Extends.refl _) ht (fun a ha => by cases ha)
  have basic : ∀ {m m' : Mem} {v r : Pv} {G : Nat → Prop}, Tight m G → In G v → ((.ok v, m) : Except Exc Pv × Mem) = (.ok r, m') →
      ∃ G' : Nat → Prop, (∀ a, G a → G' a) ∧ (∀ a, G' a → G a ∨ m.next ≤ a) ∧ Tight m' G' ∧ In G' r := by
    intro m m' v r G ht hv h
    obtain ⟨h1, h2⟩ := Prod.mk.inj h
    cases Except.ok.inj h1
    subst h2
    exact keeps_same (Extends.refl _) ht hv
  induction n with
  | zero =>
    intro v m G r m' ht hv h
    cases v with
    | str s => exact text 0 s m G r m' ht h
    | ref a => exact absurd (Prod.mk.inj h).1 (by simp)
    | _ => exact basic ht hv h
  | succ n ih =>
    intro v m G r m' ht hv h
    cases v with
    | str s => exact text (n + 1) s m G r m' ht h
    | ref a =>
      rw [createLinkIn] at h
      split at h
      · rename_i kvs hk
        split at h
        · exact absurd (Prod.mk.inj h).1 (by simp)
        · refine hl.keeps _ _ _ _ G (lifted_ok h) ht fun p hp b hb => (ht a (hv a rfl)).2 b ?_
          rw [hk, ← hb]
          exact List.mem_map.2 ⟨p, hp, rfl⟩
        · exact basic ht hv h
      · rename_i xs hk
        exact wrap_keeps (createLinkIn_extends env hl.toMaker n) ih ht (in_items ht (hv a rfl) (by rw [hk]; rfl)) h
      · rename_i xs hk
        exact wrap_keeps (createLinkIn_extends env hl.toMaker n) ih ht (in_items ht (hv a rfl) (by rw [hk]; rfl)) h
      · rename_i xs hk
        exact wrap_keeps (createLinkIn_extends env hl.toMaker n) ih ht (in_items ht (hv a rfl) (by rw [hk]; rfl)) h
      · exact basic ht hv h
      · exact basic ht hv h
    | _ => exact basic ht hv h

theorem parseIn_keeps (env : Env) : Keeps (parseIn env) := by
  intro v m G r m' ht hv h
  unfold parseIn at h
  split at h
  · obtain ⟨h1, h2⟩ := Prod.mk.inj h
    cases Except.ok.inj h1
    subst h2
    exact keeps_same (Extends.refl _) ht hv
  · split at h
    · exact absurd (Prod.mk.inj h).1 (by simp)
    · obtain ⟨h1, h2⟩ := Prod.mk.inj h
      cases Except.ok.inj h1
      subst h2
      refine ⟨_, fun a ha => .inl ha, ?_, tight_alloc ht _ (by simp [refs]), fun a ha => ?_⟩
      · rintro a (ha | rfl)
        · exact .inl ha
        · exact .inr (Nat.le_refl _)
      · cases ha
        exact .inr rfl
    · exact absurd (Prod.mk.inj h).1 (by simp)
  · split at h
    · obtain ⟨h1, h2⟩ := Prod.mk.inj h
      cases Except.ok.inj h1
      subst h2
      exact keeps_same (Extends.refl _) ht hv
    · exact absurd (Prod.mk.inj h).1 (by simp)

theorem keeps_then {f g : Pv → Act Pv} (hx : ∀ v m, Extends m (f v m).2) (hf : Keeps f) (hg : Keeps g) : Keeps fun v m => andThen (f v m) g := by
  intro v m G r m' ht hv h
  obtain ⟨u, m1, h1, h2⟩ := andThen_ok h
  have x1 := hx v m
  rw [h1] at x1
  obtain ⟨G1, i1, j1, g1, n1⟩ := hf v m G u m1 ht hv h1
  obtain ⟨G2, i2, j2, g2, n2⟩ := hg u m1 G1 r m' g1 n1 h2
  refine ⟨G2, fun a ha => i2 a (i1 a ha), fun a ha => ?_, g2, n2⟩
  rcases j2 a ha with k | k
  · exact j1 a k
  · exact .inr (Nat.le_trans x1.next k)

theorem keeps_if {f : Pv → Act Pv} (hf : Keeps f) (b : Bool) : Keeps fun v m => if b then f v m else (.ok v, m) := by
  cases b with
  | true => exact hf
  | false =>
    intro v m G r m' ht hv h
    obtain ⟨h1, h2⟩ := Prod.mk.inj h
    cases Except.ok.inj h1
    subst h2
    exact keeps_same (Extends.refl _) ht hv

theorem storesIn_keeps (env : Env) {link : CtorIn} (hl : Decent link) (n : Nat) (r : PropRow) : Keeps (r.storesIn env link n) := by
  refine keeps_then (f := r.convertIn env link n) ?_ (keeps_if (createLinkIn_keeps env hl n) _)
    (keeps_then (f := evaluateIn env.mro r.functional (r.additional.map (Check.run env)) n r.allTypes) (fun v m => evaluateIn_extends _ _ _ n _ v m)
      (evaluateIn_keeps _ _ _ n _) (keeps_if (parseIn_keeps env) _))
  intro v m
  unfold PropRow.convertIn
  split
  · exact createLinkIn_extends env hl.toMaker n v m
  · exact Extends.refl m

/-! ## Assignments to a new object -/

/-- Objects before `k` stay as they are; the object at `o` stays an object. -/
structure Grows (k o : Nat) (m m' : Mem) : Prop where
  next : m.next ≤ m'.next
  same : ∀ a, a < k → m'.node a = m.node a

theorem tight_write {m : Mem} {G : Nat → Prop} (ht : Tight m G) {o : Nat} (ho : G o) {w : Pv} (hw : In G w) (k : String) :
    Tight (m.write o (.inst (attrsAt m o).1 ((attrsAt m o).2.dset k w))) G := by
  intro a ha
  refine ⟨(ht a ha).1, fun b hb => ?_⟩
  by_cases hao : a = o
  · subst hao
    rw [write_node] at hb
    obtain ⟨p, hp, hpb⟩ := List.mem_map.1 hb
    rcases dset_mem hp with hp | rfl
    · refine (ht a ha).2 b ?_
      rw [← hpb]
      unfold attrsAt at hp
      split at hp
      · rename_i c attrs hn
        rw [hn]
        exact List.mem_map.2 ⟨p, hp, rfl⟩
      · cases hp
    · exact hw b hpb
  · have : (m.write o (.inst (attrsAt m o).1 ((attrsAt m o).2.dset k w))).node a = m.node a := Function.update_of_ne hao ..
    rw [this] at hb
    exact (ht a ha).2 b hb

theorem set_grows (env : Env) {link : CtorIn} (hl : Maker link) (n : Nat) (o : Nat) (v : Pv) (t : Target) (m : Mem) (ho : o < m.next) :
    Grows o o m (t.setIn env link n o v m).2 := by
  have hwr : ∀ (m1 : Mem) (x : Node), Extends m m1 → Grows o o m (m1.write o x) := fun m1 x hx =>
    ⟨hx.next, fun a ha => (Function.update_of_ne (Nat.ne_of_lt ha) ..).trans (hx.same a (Nat.lt_trans ha ho))⟩
  cases t with
  | plain k => exact hwr m _ (Extends.refl m)
  | prop r =>
    have hx := storesIn_extends env hl n r v m
    show Grows o o m (r.setIn env link n o v m).2
    unfold PropRow.setIn
    cases hs : r.storesIn env link n v m with
    | mk out m1 =>
      rw [hs] at hx
      cases out with
      | error e => exact ⟨hx.next, fun a ha => hx.same a (Nat.lt_trans ha ho)⟩
      | ok w => exact hwr m1 _ hx

theorem assignAll_grows (env : Env) {link : CtorIn} (hl : Maker link) (n : Nat) (o : Nat) : ∀ plan m, o < m.next →
    Grows o o m (assignAll env link n o plan m).2 := by
  intro plan
  induction plan with
  | nil => intro m _; exact ⟨Nat.le_refl _, fun _ _ => rfl⟩
  | cons p rest ih =>
    intro m ho
    obtain ⟨t, v⟩ := p
    rw [assignAll]
    have h1 := set_grows env hl n o v t m ho
    cases hs : t.setIn env link n o v m with
    | mk out m1 =>
      rw [hs] at h1
      cases out with
      | error e => exact h1
      | ok u =>
        have h2 := ih m1 (Nat.lt_of_lt_of_le ho h1.next)
        exact ⟨Nat.le_trans h1.next h2.next, fun a ha => (h2.same a ha).trans (h1.same a ha)⟩

theorem set_keeps (env : Env) {link : CtorIn} (hl : Decent link) (n : Nat) (o : Nat) (v : Pv) (t : Target) (m : Mem) (G : Nat → Prop) (m' : Mem)
    (ht : Tight m G) (ho : G o) (hv : In G v) (h : t.setIn env link n o v m = (.ok (), m')) :
    ∃ G' : Nat → Prop, (∀ a, G a → G' a) ∧ (∀ a, G' a → G a ∨ m.next ≤ a) ∧ Tight m' G' := by
  cases t with
  | plain k =>
    obtain ⟨_, rfl⟩ := Prod.mk.inj h
    exact ⟨G, fun _ => id, fun _ => .inl, tight_write ht ho hv k⟩
  | prop r =>
    have h' : r.setIn env link n o v m = (.ok (), m') := h
    unfold PropRow.setIn at h'
    obtain ⟨w, m1, h1, h2⟩ := andThen_ok h'
    obtain ⟨_, rfl⟩ := Prod.mk.inj h2
    obtain ⟨G1, i1, j1, g1, n1⟩ := storesIn_keeps env hl n r v m G w m1 ht hv h1
    exact ⟨G1, i1, j1, tight_write g1 (i1 o ho) n1 r.write⟩

theorem assignAll_keeps (env : Env) {link : CtorIn} (hl : Decent link) (n : Nat) (o : Nat) : ∀ plan m (G : Nat → Prop) m', Tight m G → G o →
    (∀ p ∈ plan, In G p.2) → assignAll env link n o plan m = (.ok (), m') →
    ∃ G' : Nat → Prop, (∀ a, G a → G' a) ∧ (∀ a, G' a → G a ∨ m.next ≤ a) ∧ Tight m' G' := by
  intro plan
  induction plan with
  | nil =>
    intro m G m' ht _ _ h
    obtain ⟨_, rfl⟩ := Prod.mk.inj h
    exact ⟨G, fun _ => id, fun _ => .inl, ht⟩
  | cons p rest ih =>
    intro m G m' ht ho hp h
    obtain ⟨t, v⟩ := p
    rw [assignAll] at h
    obtain ⟨u, m1, h1, h2⟩ := andThen_ok h
    have x1 := set_grows env hl.toMaker n o v t m (ht o ho).1
    rw [h1] at x1
    obtain ⟨G1, i1, j1, g1⟩ := set_keeps env hl n o v t m G m1 ht ho (hp (t, v) (by simp)) h1
    obtain ⟨G2, i2, j2, g2⟩ := ih m1 G1 m' g1 (i1 o ho) (fun p hh => (hp p (by simp [hh])).mono i1) h2
    refine ⟨G2, fun a ha => i2 a (i1 a ha), fun a ha => ?_, g2⟩
    rcases j2 a ha with k | k
    · exact j1 a k
    · exact .inr (Nat.le_trans x1.next k)

/-- **C134 (g).** A constructor that makes an object and assigns properties changes nothing that was there, whether it returns or raises. -/
theorem build_changes_nothing (env : Env) {link : CtorIn} (hl : Maker link) (n : Nat) (cls : String) (plan : PyDict String Pv → List (Target × Pv))
    (args : PyDict String Pv) (m : Mem) : Extends m (buildIn env link n cls plan args m).2 := by
  have h := assignAll_grows env hl n m.next (plan args) (m.alloc (.inst cls [])) (Nat.lt_succ_self _)
  have hm : (buildIn env link n cls plan args m).2 = (assignAll env link n m.next (plan args) (m.alloc (.inst cls []))).2 := by
    unfold buildIn
    cases assignAll env link n m.next (plan args) (m.alloc (.inst cls [])) with
    | mk o m1 => cases o <;> rfl
  rw [hm]
  exact ⟨Nat.le_trans (Nat.le_succ _) h.next, fun a ha => (h.same a ha).trans ((extends_alloc m _).same a ha)⟩

/-- What it makes is made of its arguments and of new objects. -/
theorem build_keeps (env : Env) {link : CtorIn} (hl : Decent link) (n : Nat) (cls : String) (plan : PyDict String Pv → List (Target × Pv))
    (hp : FromArgs plan) (args : PyDict String Pv) (m : Mem) (v : Pv) (m' : Mem) (G : Nat → Prop) (h : buildIn env link n cls plan args m = (.ok v, m'))
    (ht : Tight m G) (ha : ∀ p ∈ args, In G p.2) :
    ∃ G' : Nat → Prop, (∀ a, G a → G' a) ∧ (∀ a, G' a → G a ∨ m.next ≤ a) ∧ Tight m' G' ∧ In G' v := by
  unfold buildIn at h
  obtain ⟨u, m1, h1, h2⟩ := andThen_ok h
  obtain ⟨h3, h4⟩ := Prod.mk.inj h2
  cases Except.ok.inj h3
  subst h4
  have hin : ∀ p ∈ plan args, In (fun a => G a ∨ a = m.next) p.2 := by
    intro p hpm
    rcases hp args p hpm with ⟨q, hq, he⟩ | he
    · rw [he]
      exact (ha q hq).mono fun _ => .inl
    · exact fun a hh => absurd hh (he a)
  obtain ⟨G1, i1, j1, g1⟩ := assignAll_keeps env hl n m.next (plan args) _ _ m1 (tight_alloc ht (.inst cls []) (by simp [refs])) (.inr rfl) hin h1
  refine ⟨G1, fun a k => i1 a (.inl k), fun a k => ?_, g1, fun a k => ?_⟩
  · rcases j1 a k with (k | rfl) | k
    · exact .inl k
    · exact .inr (Nat.le_refl _)
    · exact .inr (Nat.le_trans (Nat.le_succ _) k)
  · cases k
    exact i1 _ (.inr rfl)

/-- **C134 (h).** So the constructors of an engine whose classes assign properties are as C132 assumes. -/
theorem builds_modest (env : Env) {link : CtorIn} (hl : Decent link) (n : Nat) (plan : String → PyDict String Pv → List (Target × Pv))
    (hp : ∀ cls, FromArgs (plan cls)) (e : MemEngine) (he : Builds env link n plan e) : Modest e where
  changes_nothing cls args m := by
    have := build_changes_nothing env hl.toMaker n cls (plan cls) args m
    rwa [← he cls args m] at this
  keeps cls args m v m' G heq ht ha := by
    refine build_keeps env hl n cls (plan cls) (hp cls) args m v m' G ?_ ht ha
    rw [← he cls args m, heq]
    rfl

end Verif.Props.Alias
