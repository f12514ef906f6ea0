import Verif.Jsonld.Mem
import Verif.PyDict

/-!
# C132: loading a document leaves it as it is and shares only contexts with it
-/
namespace Verif.Props.Mem
open Verif.Jsonld hiding contextOf withContext
open Verif.Jsonld.MemEngine

/-! ## Specification -/

/-- `m'` is `m` with new objects: nothing that was there has changed. -/
structure Extends (m m' : Mem) : Prop where
  next : m.next ≤ m'.next
  same : ∀ a, a < m.next → m'.node a = m.node a

/-- What an object refers to. -/
def refs : Node → List Pv
  | .list xs => xs
  | .tuple xs => xs
  | .set xs => xs
  | .dict kvs => kvs.map Prod.snd
  | .inst _ attrs => attrs.map Prod.snd
  | .other _ _ => []

/-- `Inside m v w`: `w` is `v` or can be reached from it. -/
inductive Inside (m : Mem) (v : Pv) : Pv → Prop
  | self : Inside m v v
  | step (a : Nat) (w : Pv) : Inside m v (.ref a) → w ∈ refs (m.node a) → Inside m v w

/-- A value that is, or is inside, the `@context` of a dictionary of the document. -/
def InContext (m : Mem) (doc w : Pv) : Prop :=
  ∃ d kvs c, Inside m doc (.ref d) ∧ m.node d = .dict kvs ∧ kvs.dget "@context" = some c ∧ Inside m c w

/-- Only objects that exist are referred to. -/
def Closed (m : Mem) : Prop := ∀ a, a < m.next → ∀ b, Pv.ref b ∈ refs (m.node a) → b < m.next

/-- A set of objects that refer to each other only. -/
def Tight (m : Mem) (G : Nat → Prop) : Prop := ∀ a, G a → a < m.next ∧ ∀ b, Pv.ref b ∈ refs (m.node a) → G b

/-- The value is basic or in the set. -/
def In (G : Nat → Prop) (v : Pv) : Prop := ∀ a, v = .ref a → G a

/-- Constructors that change nothing: they make new objects, from their arguments and what they make. -/
structure Modest (e : MemEngine) : Prop where
  changes_nothing : ∀ cls args m, Extends m (e.construct cls args m).2
  keeps : ∀ cls args m v m' G, e.construct cls args m = (.ok v, m') → Tight m G → (∀ p ∈ args, In G p.2) →
    ∃ G' : Nat → Prop, (∀ a, G a → G' a) ∧ (∀ a, G' a → G a ∨ m.next ≤ a) ∧ Tight m' G' ∧ In G' v

/-! ## Nothing is changed -/

theorem Extends.refl (m : Mem) : Extends m m := ⟨Nat.le_refl _, fun _ _ => rfl⟩

theorem Extends.trans {a b c : Mem} (h : Extends a b) (k : Extends b c) : Extends a c :=
  ⟨Nat.le_trans h.next k.next, fun x hx => (k.same x (Nat.lt_of_lt_of_le hx h.next)).trans (h.same x hx)⟩

theorem extends_alloc (m : Mem) (x : Node) : Extends m (m.alloc x) :=
  ⟨Nat.le_succ _, fun _ ha => Function.update_of_ne (Nat.ne_of_lt ha) ..⟩

theorem alloc_node (m : Mem) (x : Node) : (m.alloc x).node m.next = x := Function.update_self ..

theorem write_node (m : Mem) (a : Nat) (x : Node) : (m.write a x).node a = x := Function.update_self ..

/-- The copy made by `from_json`, and its memory. -/
theorem normalize_spec (m : Mem) (kvs : PyDict String Pv) :
    Extends m (normalize (m.alloc (.dict kvs)) m.next kvs) ∧
    (normalize (m.alloc (.dict kvs)) m.next kvs).next = m.next + 1 ∧
    (normalize (m.alloc (.dict kvs)) m.next kvs).node m.next =
      .dict (if (m.alloc (.dict kvs)).truthy ((kvs.dget "@context").getD .none) then kvs else kvs.dset "@context" defaultCtx) := by
  unfold normalize
  by_cases h : (m.alloc (.dict kvs)).truthy ((kvs.dget "@context").getD .none) = true
  · rw [if_pos h, if_pos h]
    exact ⟨extends_alloc _ _, rfl, alloc_node _ _⟩
  · rw [if_neg h, if_neg h]
    refine ⟨⟨Nat.le_succ _, fun a ha => ?_⟩, rfl, write_node _ _ _⟩
    exact (Function.update_of_ne (Nat.ne_of_lt ha) ..).trans ((extends_alloc m _).same a ha)

theorem items_extends {act : Pv → Act Pv} (h : ∀ v m, Extends m (act v m).2) : ∀ xs m, Extends m (items act xs m).2 := by
  intro xs
  induction xs with
  | nil => intro m; exact Extends.refl m
  | cons x xs ih =>
    intro m
    have h1 := h x m
    rw [items]
    split
    · rename_i heq; rw [heq] at h1; exact h1
    · rename_i heq
      rw [heq] at h1
      rename_i m1
      have h2 := ih m1
      split <;> (rename_i heq2; rw [heq2] at h2; exact h1.trans h2)

theorem entries_extends {act : Pv → Act Pv} (h : ∀ v m, Extends m (act v m).2) : ∀ xs m, Extends m (entries act xs m).2 := by
  intro xs
  induction xs with
  | nil => intro m; exact Extends.refl m
  | cons x xs ih =>
    intro m
    obtain ⟨k, x⟩ := x
    have h1 := h x m
    rw [entries]
    split
    · rename_i heq; rw [heq] at h1; exact h1
    · rename_i heq
      rw [heq] at h1
      rename_i m1
      have h2 := ih m1
      split <;> (rename_i heq2; rw [heq2] at h2; exact h1.trans h2)

theorem filtered_extends {act : Pv → Act Pv} (h : ∀ v m, Extends m (act v m).2) (data : PyDict String Pv) :
    ∀ ps m, Extends m (filtered act data ps m).2 := by
  intro ps
  induction ps with
  | nil => intro m; exact Extends.refl m
  | cons p ps ih =>
    intro m
    have h1 := h ((data.dget p).getD .none) m
    rw [filtered]
    split
    · rename_i heq; rw [heq] at h1; exact h1
    · rename_i heq
      rw [heq] at h1
      rename_i m1
      have h2 := ih m1
      split <;> (rename_i heq2; rw [heq2] at h2; exact h1.trans h2)

theorem wrap_extends {α : Type} (f : α → Node) (m : Mem) (r : Except Exc α × Mem) (h : Extends m r.2) : Extends m (wrap f r).2 := by
  obtain ⟨r, m'⟩ := r
  cases r with
  | error x => exact h
  | ok v => exact h.trans (extends_alloc _ _)

theorem load_extends {e : MemEngine} (hc : ∀ cls args m, Extends m (e.construct cls args m).2) {unpack : Pv → Pv → Act Pv}
    (h : ∀ c v m, Extends m (unpack c v m).2) (a : Nat) (m : Mem) : Extends m (load e unpack a m).2 := by
  unfold load
  have h1 := (normalize_spec m (dictAt m a)).1
  simp only
  generalize normalize (m.alloc (.dict (dictAt m a))) m.next (dictAt m a) = m2 at h1 ⊢
  split
  · exact h1
  · exact h1
  · rename_i cls _
    have h2 := filtered_extends (h (contextOf (dictAt m a))) (dictAt m2 m.next) (e.props cls) m2
    split
    · rename_i heq; rw [heq] at h2; exact h1.trans h2
    · rename_i kw m3 heq
      rw [heq] at h2
      have h3 := hc cls (kw.dset "acontext" (contextOf (dictAt m a))) m3
      split <;> (rename_i heq2; rw [heq2] at h3; exact (h1.trans h2).trans h3)

theorem unpack_extends {e : MemEngine} (hc : ∀ cls args m, Extends m (e.construct cls args m).2) (n : Nat) :
    ∀ ctx v m, Extends m (unpack e n ctx v m).2 := by
  induction n with
  | zero => intro ctx v m; cases v <;> exact Extends.refl m
  | succ n ih =>
    intro ctx v m
    cases v with
    | ref a =>
      rw [unpack]
      split
      · exact Extends.refl m
      · exact Extends.refl m
      · exact wrap_extends _ m _ (items_extends (ih ctx) _ m)
      · exact wrap_extends _ m _ (items_extends (ih ctx) _ m)
      · exact wrap_extends _ m _ (items_extends (ih ctx) _ m)
      · rename_i kvs _
        have h1 := extends_alloc m (.dict (MemEngine.withContext ctx kvs))
        simp only
        split
        · exact h1
        · split
          · exact h1
          · exact h1
          · exact h1.trans (load_extends hc ih _ _)
        · exact wrap_extends _ m _ (h1.trans (entries_extends (ih ctx) _ _))
    | _ => exact Extends.refl m

/-- **C132 (a).** `from_json` changes nothing that was there before, whether it returns or raises: not the dictionary it is given, not what is in it,
and not objects made before. -/
theorem document_unchanged (e : MemEngine) (hc : ∀ cls args m, Extends m (e.construct cls args m).2) (n a : Nat) (m : Mem) :
    Extends m (e.fromJson n a m).2 :=
  load_extends hc (fun c v m => unpack_extends hc n c v m) a m


/-! ## What is shared -/

section Shared
variable {m0 : Mem} {doc : Pv}

/-- A value of the document (or a basic one). -/
def DocVal (m0 : Mem) (doc v : Pv) : Prop := ∀ a, v = .ref a → Inside m0 doc (.ref a)

/-- The context of a dictionary of the document, or something in it (or a basic value). -/
def CtxVal (m0 : Mem) (doc v : Pv) : Prop := ∀ a, v = .ref a → InContext m0 doc (.ref a)

/-- Objects the result may be made of: new ones and contexts. -/
structure Good (m0 : Mem) (doc : Pv) (m : Mem) (G : Nat → Prop) : Prop where
  tight : Tight m G
  allowed : ∀ a, G a → m0.next ≤ a ∨ InContext m0 doc (.ref a)
  contexts : ∀ a, InContext m0 doc (.ref a) → G a

theorem Inside.trans {m : Mem} {u v w : Pv} (h : Inside m u v) (k : Inside m v w) : Inside m u w := by
  induction k with
  | self => exact h
  | step a w _ hw ih => exact .step a w ih hw

theorem dget_ref {kvs : PyDict String Pv} {k : String} {v : Pv} (h : kvs.dget k = some v) : v ∈ kvs.map Prod.snd :=
  List.mem_map.2 ⟨_, PyDict.dget_mem h, rfl⟩

theorem dset_mem {kvs : PyDict String Pv} {k : String} {v : Pv} {p : String × Pv} (h : p ∈ kvs.dset k v) : p ∈ kvs ∨ p = (k, v) := by
  induction kvs with
  | nil => exact .inr (by simpa [List.dset] using h)
  | cons x xs ih =>
    obtain ⟨k', v'⟩ := x
    by_cases hk : k' = k
    · subst hk
      simp only [List.dset] at h
      rcases List.mem_cons.1 h with h | h
      · exact .inr h
      · exact .inl (List.mem_cons_of_mem _ h)
    · simp only [List.dset, hk] at h
      rcases List.mem_cons.1 h with h | h
      · exact .inl (h ▸ List.mem_cons_self)
      · exact (ih h).imp (List.mem_cons_of_mem _) id

theorem ddel_mem {kvs : PyDict String Pv} {k : String} {p : String × Pv} (h : p ∈ kvs.ddel k) : p ∈ kvs := by
  induction kvs with
  | nil => exact h
  | cons x xs ih =>
    obtain ⟨k', v'⟩ := x
    by_cases hk : k' = k
    · simp only [List.ddel, hk, if_true] at h
      exact List.mem_cons_of_mem _ h
    · simp only [List.ddel, hk, if_false] at h
      rcases List.mem_cons.1 h with h | h
      · exact h ▸ List.mem_cons_self
      · exact List.mem_cons_of_mem _ (ih h)

theorem InContext.inside {m : Mem} {doc w : Pv} (h : InContext m doc w) : Inside m doc w := by
  obtain ⟨d, kvs, c, h1, h2, h3, h4⟩ := h
  exact Inside.trans (.step d c h1 (by rw [h2]; exact dget_ref h3)) h4

theorem CtxVal.docVal {v : Pv} (h : CtxVal m0 doc v) : DocVal m0 doc v := fun a ha => (h a ha).inside

theorem inside_lt (hc : Closed m0) (hd : ∀ a, doc = .ref a → a < m0.next) {w : Pv} (h : Inside m0 doc w) :
    ∀ a, w = .ref a → a < m0.next := by
  induction h with
  | self => exact hd
  | step b w _ hw ih => intro a ha; subst ha; exact hc b (ih b rfl) a hw

theorem Good.mono {m m' : Mem} {G : Nat → Prop} (h : Good m0 doc m G) (x : Extends m m') : Good m0 doc m' G :=
  ⟨fun a ha => ⟨Nat.lt_of_lt_of_le (h.tight a ha).1 x.next, fun b hb => (h.tight a ha).2 b (by rwa [x.same a (h.tight a ha).1] at hb)⟩,
    h.allowed, h.contexts⟩

theorem In.mono {G G' : Nat → Prop} {v : Pv} (h : In G v) (k : ∀ a, G a → G' a) : In G' v := fun a ha => k a (h a ha)

/-- A new object made of allowed ones. -/
theorem Good.alloc {m : Mem} {G : Nat → Prop} (h : Good m0 doc m G) (hx : Extends m0 m) (x : Node) (hr : ∀ v ∈ refs x, In G v) :
    ∃ G' : Nat → Prop, (∀ a, G a → G' a) ∧ Good m0 doc (m.alloc x) G' ∧ In G' (.ref m.next) := by
  refine ⟨fun a => G a ∨ a = m.next, fun a ha => .inl ha, ⟨?_, ?_, fun a ha => .inl (h.contexts a ha)⟩, ?_⟩
  · rintro a (ha | rfl)
    · exact ⟨((h.mono (extends_alloc m x)).tight a ha).1, fun b hb => .inl (((h.mono (extends_alloc m x)).tight a ha).2 b hb)⟩
    · refine ⟨Nat.lt_succ_self _, fun b hb => ?_⟩
      rw [alloc_node] at hb
      exact .inl (hr _ hb b rfl)
  · rintro a (ha | rfl)
    · exact h.allowed a ha
    · exact .inl hx.next
  · intro a ha
    cases ha
    exact .inr rfl

/-- An action whose result is made of allowed objects when its argument is from the document. -/
def Fine (m0 : Mem) (doc : Pv) (act : Pv → Act Pv) : Prop :=
  ∀ v m G r m', DocVal m0 doc v → Extends m0 m → Good m0 doc m G → act v m = (.ok r, m') →
    ∃ G' : Nat → Prop, (∀ a, G a → G' a) ∧ Good m0 doc m' G' ∧ In G' r

theorem items_fine {act : Pv → Act Pv} (hx : ∀ v m, Extends m (act v m).2) (h : Fine m0 doc act) :
    ∀ xs m G rs m', (∀ v ∈ xs, DocVal m0 doc v) → Extends m0 m → Good m0 doc m G → items act xs m = (.ok rs, m') →
      ∃ G' : Nat → Prop, (∀ a, G a → G' a) ∧ Good m0 doc m' G' ∧ ∀ r ∈ rs, In G' r := by
  intro xs
  induction xs with
  | nil =>
    intro m G rs m' _ _ hG heq
    rw [items] at heq
    obtain ⟨h1, h2⟩ := Prod.mk.inj heq
    cases Except.ok.inj h1
    subst h2
    exact ⟨G, fun _ => id, hG, by simp⟩
  | cons x xs ih =>
    intro m G rs m' hv hm hG heq
    rw [items] at heq
    cases hact : act x m with
    | mk o m1 =>
      rw [hact] at heq
      have hx1 := hx x m
      rw [hact] at hx1
      cases o with
      | error e => exact absurd (Prod.mk.inj heq).1 (by simp)
      | ok v =>
        simp only at heq
        obtain ⟨G1, i1, g1, n1⟩ := h x m G v m1 (hv x (by simp)) hm hG hact
        cases hrest : items act xs m1 with
        | mk o2 m2 =>
          rw [hrest] at heq
          cases o2 with
          | error e => exact absurd (Prod.mk.inj heq).1 (by simp)
          | ok vs =>
            obtain ⟨G2, i2, g2, n2⟩ := ih m1 G1 vs m2 (fun v h => hv v (by simp [h])) (hm.trans hx1) g1 hrest
            obtain ⟨h1, h2⟩ := Prod.mk.inj heq
            cases Except.ok.inj h1
            subst h2
            refine ⟨G2, fun a ha => i2 a (i1 a ha), g2, ?_⟩
            intro r hr
            rcases List.mem_cons.1 hr with rfl | hr
            · exact n1.mono i2
            · exact n2 r hr

theorem entries_fine {act : Pv → Act Pv} (hx : ∀ v m, Extends m (act v m).2) (h : Fine m0 doc act) :
    ∀ (xs : PyDict String Pv) m G rs m', (∀ p ∈ xs, DocVal m0 doc p.2) → Extends m0 m → Good m0 doc m G → entries act xs m = (.ok rs, m') →
      ∃ G' : Nat → Prop, (∀ a, G a → G' a) ∧ Good m0 doc m' G' ∧ ∀ r ∈ rs, In G' r.2 := by
  intro xs
  induction xs with
  | nil =>
    intro m G rs m' _ _ hG heq
    rw [entries] at heq
    obtain ⟨h1, h2⟩ := Prod.mk.inj heq
    cases Except.ok.inj h1
    subst h2
    exact ⟨G, fun _ => id, hG, by simp⟩
  | cons x xs ih =>
    obtain ⟨k, x⟩ := x
    intro m G rs m' hv hm hG heq
    rw [entries] at heq
    cases hact : act x m with
    | mk o m1 =>
      rw [hact] at heq
      have hx1 := hx x m
      rw [hact] at hx1
      cases o with
      | error e => exact absurd (Prod.mk.inj heq).1 (by simp)
      | ok v =>
        simp only at heq
        obtain ⟨G1, i1, g1, n1⟩ := h x m G v m1 (hv (k, x) (by simp)) hm hG hact
        cases hrest : entries act xs m1 with
        | mk o2 m2 =>
          rw [hrest] at heq
          cases o2 with
          | error e => exact absurd (Prod.mk.inj heq).1 (by simp)
          | ok vs =>
            obtain ⟨G2, i2, g2, n2⟩ := ih m1 G1 vs m2 (fun v h => hv v (by simp [h])) (hm.trans hx1) g1 hrest
            obtain ⟨h1, h2⟩ := Prod.mk.inj heq
            cases Except.ok.inj h1
            subst h2
            refine ⟨G2, fun a ha => i2 a (i1 a ha), g2, ?_⟩
            intro r hr
            rcases List.mem_cons.1 hr with rfl | hr
            · exact n1.mono i2
            · exact n2 r hr

theorem filtered_fine {act : Pv → Act Pv} (hx : ∀ v m, Extends m (act v m).2) (h : Fine m0 doc act) (data : PyDict String Pv)
    (hv : ∀ p ∈ data, DocVal m0 doc p.2) :
    ∀ ps m G rs m', Extends m0 m → Good m0 doc m G → filtered act data ps m = (.ok rs, m') →
      ∃ G' : Nat → Prop, (∀ a, G a → G' a) ∧ Good m0 doc m' G' ∧ ∀ r ∈ rs, In G' r.2 := by
  intro ps
  induction ps with
  | nil =>
    intro m G rs m' _ hG heq
    rw [filtered] at heq
    obtain ⟨h1, h2⟩ := Prod.mk.inj heq
    cases Except.ok.inj h1
    subst h2
    exact ⟨G, fun _ => id, hG, by simp⟩
  | cons p ps ih =>
    intro m G rs m' hm hG heq
    rw [filtered] at heq
    have hd : DocVal m0 doc ((data.dget p).getD .none) := by
      cases hg : data.dget p with
      | none => intro a ha; cases ha
      | some v => exact hv _ (PyDict.dget_mem hg)
    cases hact : act ((data.dget p).getD .none) m with
    | mk o m1 =>
      rw [hact] at heq
      have hx1 := hx ((data.dget p).getD .none) m
      rw [hact] at hx1
      cases o with
      | error e => exact absurd (Prod.mk.inj heq).1 (by simp)
      | ok v =>
        simp only at heq
        obtain ⟨G1, i1, g1, n1⟩ := h _ m G v m1 hd hm hG hact
        cases hrest : filtered act data ps m1 with
        | mk o2 m2 =>
          rw [hrest] at heq
          cases o2 with
          | error e => exact absurd (Prod.mk.inj heq).1 (by simp)
          | ok vs =>
            obtain ⟨G2, i2, g2, n2⟩ := ih m1 G1 vs m2 (hm.trans hx1) g1 hrest
            obtain ⟨h1, h2⟩ := Prod.mk.inj heq
            cases Except.ok.inj h1
            subst h2
            refine ⟨G2, fun a ha => i2 a (i1 a ha), g2, ?_⟩
            intro r hr
            rcases List.mem_cons.1 hr with rfl | hr
            · exact n1.mono i2
            · exact n2 r hr

theorem wrap_fine {α : Type} (f : α → Node) {m : Mem} {G : Nat → Prop} {o : Except Exc α × Mem} {r : Pv} {m' : Mem} (hm : Extends m0 m)
    (hx : Extends m o.2)
    (h : ∀ v m1, o = (.ok v, m1) → ∃ G' : Nat → Prop, (∀ a, G a → G' a) ∧ Good m0 doc m1 G' ∧ ∀ w ∈ refs (f v), In G' w)
    (heq : wrap f o = (.ok r, m')) : ∃ G' : Nat → Prop, (∀ a, G a → G' a) ∧ Good m0 doc m' G' ∧ In G' r := by
  obtain ⟨o, m1⟩ := o
  cases o with
  | error e => exact absurd (Prod.mk.inj heq).1 (by simp)
  | ok v =>
    obtain ⟨G1, i1, g1, n1⟩ := h v m1 rfl
    obtain ⟨G2, i2, g2, n2⟩ := g1.alloc (hm.trans hx) (f v) n1
    obtain ⟨h1, h2⟩ := Prod.mk.inj heq
    cases Except.ok.inj h1
    subst h2
    exact ⟨G2, fun a ha => i2 a (i1 a ha), g2, n2⟩

theorem basic_ctx (s : String) : CtxVal m0 doc (.str s) := fun a ha => by cases ha

/-- `from_json` of a dictionary of values from the document. -/
theorem load_fine {e : MemEngine} (he : Modest e) {unpack : Pv → Pv → Act Pv} (hx : ∀ c v m, Extends m (unpack c v m).2)
    (hf : ∀ c, CtxVal m0 doc c → Fine m0 doc (unpack c)) {a : Nat} {m : Mem} (hv : ∀ p ∈ dictAt m a, DocVal m0 doc p.2)
    (hctx : ∀ c, (dictAt m a).dget "@context" = some c → CtxVal m0 doc c) {G : Nat → Prop} (hm : Extends m0 m) (hG : Good m0 doc m G)
    {r : Pv} {m' : Mem} (heq : load e unpack a m = (.ok r, m')) :
    ∃ G' : Nat → Prop, (∀ a, G a → G' a) ∧ Good m0 doc m' G' ∧ In G' r := by
  have hc : CtxVal m0 doc (contextOf (dictAt m a)) := by
    unfold contextOf
    cases hg : (dictAt m a).dget "@context" with
    | none => exact basic_ctx _
    | some c => exact hctx c hg
  unfold load at heq
  obtain ⟨x2, _, hn⟩ := normalize_spec m (dictAt m a)
  simp only at heq
  have hd : ∀ p ∈ dictAt (normalize (m.alloc (.dict (dictAt m a))) m.next (dictAt m a)) m.next, DocVal m0 doc p.2 := by
    intro p hp
    rw [dictAt, hn] at hp
    simp only at hp
    split at hp
    · exact hv p hp
    · rcases dset_mem hp with h | h
      · exact hv p h
      · rw [h]; exact (basic_ctx _).docVal
  generalize normalize (m.alloc (.dict (dictAt m a))) m.next (dictAt m a) = m2 at heq hd x2
  cases hcls : e.getObjectClass m2 m.next with
  | error x => rw [hcls] at heq; exact absurd (Prod.mk.inj heq).1 (by simp)
  | ok o =>
    rw [hcls] at heq
    cases o with
    | none => exact absurd (Prod.mk.inj heq).1 (by simp)
    | some cls =>
      simp only at heq
      have xf := filtered_extends (hx (contextOf (dictAt m a))) (dictAt m2 m.next) (e.props cls) m2
      cases hfil : filtered (unpack (contextOf (dictAt m a))) (dictAt m2 m.next) (e.props cls) m2 with
      | mk o m3 =>
        rw [hfil] at heq xf
        cases o with
        | error x => exact absurd (Prod.mk.inj heq).1 (by simp)
        | ok kw =>
          simp only at heq xf
          obtain ⟨G1, i1, g1, n1⟩ := filtered_fine (hx _) (hf _ hc) _ hd _ _ _ _ _ (hm.trans x2) (hG.mono x2) hfil
          cases hcon : e.construct cls (kw.dset "acontext" (contextOf (dictAt m a))) m3 with
          | mk o m4 =>
            rw [hcon] at heq
            cases o with
            | error x => exact absurd (Prod.mk.inj heq).1 (by simp)
            | ok v =>
              simp only at heq
              obtain ⟨h1, h2⟩ := Prod.mk.inj heq
              cases Except.ok.inj h1
              subst h2
              obtain ⟨G2, i2, b2, t2, n2⟩ := he.keeps cls _ m3 _ m4 G1 hcon g1.tight (by
                intro p hp
                rcases dset_mem hp with h | h
                · exact n1 p h
                · rw [h]; exact fun b hb => g1.contexts b (hc b hb))
              refine ⟨G2, fun a ha => i2 a (i1 a ha), ⟨t2, ?_, fun b hb => i2 b (g1.contexts b hb)⟩, n2⟩
              intro b hb
              rcases b2 b hb with h | h
              · exact g1.allowed b h
              · exact .inl (Nat.le_trans ((hm.trans x2).trans xf).next h)

theorem unpack_fine {e : MemEngine} (he : Modest e) (hcl : Closed m0) (hdoc : ∀ a, doc = .ref a → a < m0.next) (n : Nat) :
    ∀ ctx, CtxVal m0 doc ctx → Fine m0 doc (unpack e n ctx) := by
  induction n with
  | zero =>
    intro ctx _ v m G r m' _ _ hG heq
    cases v with
    | ref a => exact absurd (Prod.mk.inj heq).1 (by simp)
    | _ =>
      obtain ⟨h1, h2⟩ := Prod.mk.inj heq
      cases Except.ok.inj h1
      subst h2
      exact ⟨G, fun _ => id, hG, fun b hb => by cases hb⟩
  | succ n ih =>
    intro ctx hctx v m G r m' hv hm hG heq
    cases v with
    | ref a =>
      have hin := hv a rfl
      have hlt := inside_lt hcl hdoc hin a rfl
      have hsame := hm.same a hlt
      rw [unpack, hsame] at heq
      cases hnode : m0.node a with
      | inst cls attrs =>
        rw [hnode] at heq
        obtain ⟨h1, h2⟩ := Prod.mk.inj heq
        cases Except.ok.inj h1
        subst h2
        exact ⟨G, fun _ => id, hG, fun b hb => by cases hb⟩
      | other cls rep =>
        rw [hnode] at heq
        obtain ⟨h1, h2⟩ := Prod.mk.inj heq
        cases Except.ok.inj h1
        subst h2
        exact ⟨G, fun _ => id, hG, fun b hb => by cases hb⟩
      | list xs =>
        rw [hnode] at heq
        simp only at heq
        have hxs : ∀ v ∈ xs, DocVal m0 doc v := by
          intro v hv b hb
          subst hb
          exact .step a _ hin (by rw [hnode]; exact hv)
        exact wrap_fine Node.list hm (items_extends (unpack_extends he.changes_nothing n ctx) xs m)
          (fun vs m1 ho => items_fine (unpack_extends he.changes_nothing n ctx) (ih ctx hctx) xs m G vs m1 hxs hm hG ho) heq
      | tuple xs =>
        rw [hnode] at heq
        simp only at heq
        have hxs : ∀ v ∈ xs, DocVal m0 doc v := by
          intro v hv b hb
          subst hb
          exact .step a _ hin (by rw [hnode]; exact hv)
        exact wrap_fine Node.list hm (items_extends (unpack_extends he.changes_nothing n ctx) xs m)
          (fun vs m1 ho => items_fine (unpack_extends he.changes_nothing n ctx) (ih ctx hctx) xs m G vs m1 hxs hm hG ho) heq
      | set xs =>
        rw [hnode] at heq
        simp only at heq
        have hxs : ∀ v ∈ xs, DocVal m0 doc v := by
          intro v hv b hb
          subst hb
          exact .step a _ hin (by rw [hnode]; exact hv)
        exact wrap_fine Node.list hm (items_extends (unpack_extends he.changes_nothing n ctx) xs m)
          (fun vs m1 ho => items_fine (unpack_extends he.changes_nothing n ctx) (ih ctx hctx) xs m G vs m1 hxs hm hG ho) heq
      | dict kvs =>
        rw [hnode] at heq
        simp only at heq
        have hxs : ∀ p ∈ kvs, DocVal m0 doc p.2 := by
          intro p hp b hb
          exact .step a _ hin (by rw [hnode, ← hb]; exact List.mem_map.2 ⟨p, hp, rfl⟩)
        have hown : ∀ c, kvs.dget "@context" = some c → CtxVal m0 doc c := by
          intro c hc b hb
          exact ⟨a, kvs, c, hin, hnode, hc, by rw [hb]; exact .self⟩
        have hx1 := extends_alloc m (.dict (MemEngine.withContext ctx kvs))
        have hdict : dictAt (m.alloc (.dict (MemEngine.withContext ctx kvs))) m.next = MemEngine.withContext ctx kvs := by
          rw [dictAt, alloc_node]
        have hwc : CtxVal m0 doc ((kvs.dget "@context").getD ctx) := by
          cases hg : kvs.dget "@context" with
          | none => exact hctx
          | some c => exact hown c hg
        generalize m.alloc (.dict (MemEngine.withContext ctx kvs)) = m1 at heq hx1 hdict
        cases hex : e.expand m1 m.next with
        | error x => rw [hex] at heq; exact absurd (Prod.mk.inj heq).1 (by simp)
        | ok ex =>
          rw [hex] at heq
          have plain : wrap Node.dict (entries (unpack e n ctx) kvs m1) = (.ok r, m') →
              ∃ G' : Nat → Prop, (∀ a, G a → G' a) ∧ Good m0 doc m' G' ∧ In G' r := by
            intro heq
            refine wrap_fine Node.dict (m := m1) (hm.trans hx1) (entries_extends (unpack_extends he.changes_nothing n ctx) kvs m1) ?_ heq
            intro vs m2 ho
            obtain ⟨G', i, g, k⟩ := entries_fine (unpack_extends he.changes_nothing n ctx) (ih ctx hctx) kvs m1 G vs m2 hxs
              (hm.trans hx1) (hG.mono hx1) ho
            refine ⟨G', i, g, ?_⟩
            intro w hw
            obtain ⟨p, hp, rfl⟩ := List.mem_map.1 hw
            exact k p hp
          cases ex with
          | empty => exact plain heq
          | untyped => exact plain heq
          | typed ts =>
            simp only at heq
            cases hcls : e.getObjectClass m1 m.next with
            | error x => rw [hcls] at heq; exact absurd (Prod.mk.inj heq).1 (by simp)
            | ok o =>
              rw [hcls] at heq
              cases o with
              | none =>
                obtain ⟨h1, h2⟩ := Prod.mk.inj heq
                cases Except.ok.inj h1
                subst h2
                exact ⟨G, fun _ => id, hG.mono hx1, fun b hb => by cases hb⟩
              | some cls =>
                simp only at heq
                refine load_fine he (unpack_extends he.changes_nothing n) ih ?_ ?_ (hm.trans hx1) (hG.mono hx1) heq
                · intro p hp
                  rw [hdict] at hp
                  rcases List.mem_cons.1 hp with h | h
                  · rw [h]; exact hwc.docVal
                  · exact hxs p (ddel_mem h)
                · intro c hc
                  rw [hdict] at hc
                  have : c = (kvs.dget "@context").getD ctx := by
                    simpa [MemEngine.withContext, List.dget] using hc.symm
                  rw [this]; exact hwc
    | _ =>
      obtain ⟨h1, h2⟩ := Prod.mk.inj heq
      cases Except.ok.inj h1
      subst h2
      exact ⟨G, fun _ => id, hG, fun b hb => by cases hb⟩

end Shared

/-- **C132 (b).** The loaded object and everything in it are new, or are (part of) the `@context` of a dictionary of the document. -/
theorem shares_only_context (e : MemEngine) (he : Modest e) (n a : Nat) (m : Mem) (hm : Closed m) (ha : a < m.next) (v : Pv) (m' : Mem)
    (h : e.fromJson n a m = (.ok v, m')) :
    ∀ b, Inside m' v (.ref b) → m.next ≤ b ∨ InContext m (.ref a) (.ref b) := by
  have hdoc : ∀ b, Pv.ref a = .ref b → b < m.next := by intro b hb; cases hb; exact ha
  have hctx : ∀ b, InContext m (.ref a) (.ref b) → b < m.next := fun b hb => inside_lt hm hdoc hb.inside b rfl
  have hG : Good m (.ref a) m (fun b => InContext m (.ref a) (.ref b)) :=
    ⟨fun b hb => ⟨hctx b hb, fun c hc => by
      obtain ⟨d, kvs, x, h1, h2, h3, h4⟩ := hb
      exact ⟨d, kvs, x, h1, h2, h3, .step b _ h4 hc⟩⟩, fun b hb => .inr hb, fun _ => id⟩
  have hd : ∀ p ∈ dictAt m a, DocVal m (.ref a) p.2 := by
    intro p hp b hb
    rw [dictAt] at hp
    split at hp
    · rename_i kvs hk
      exact .step a _ .self (by rw [hk, ← hb]; exact List.mem_map.2 ⟨p, hp, rfl⟩)
    · cases hp
  have hc : ∀ c, (dictAt m a).dget "@context" = some c → CtxVal m (.ref a) c := by
    intro c hc b hb
    rw [dictAt] at hc
    split at hc
    · rename_i kvs hk
      exact ⟨a, kvs, c, .self, hk, hc, by rw [hb]; exact .self⟩
    · cases hc
  obtain ⟨G, _, g, k⟩ := load_fine he (unpack_extends he.changes_nothing n) (fun c hc => unpack_fine he hm hdoc n c hc) hd hc (Extends.refl m) hG h
  have all : ∀ w, Inside m' v w → In G w := by
    intro w hw
    induction hw with
    | self => exact k
    | step b w _ hw ih => intro c hc; subst hc; exact (g.tight b (ih b rfl)).2 c hw
  exact fun b hb => g.allowed b (all _ hb b rfl)

/-! ## The memory model and the tree model give the same results -/

mutual
/-- How deep a document is nested. -/
def depth : Tree → Nat
  | .arr xs => depthAll xs + 1
  | .obj kvs => depthPairs kvs + 1
  | _ => 0
/-- Lists. -/
def depthAll : List Tree → Nat
  | [] => 0
  | x :: xs => max (depth x) (depthAll xs)
/-- Dictionaries. -/
def depthPairs : List (String × Tree) → Nat
  | [] => 0
  | (_, x) :: kvs => max (depth x) (depthPairs kvs)
end

mutual
/-- The value `v` is the document `t`. -/
def Denotes (m : Mem) : Tree → Pv → Prop
  | .null, v => v = .none
  | .bool b, v => v = .bool b
  | .int i, v => v = .int i
  | .float n r, v => v = .float n r
  | .str s, v => v = .str s
  | .arr xs, v => ∃ a ys, v = .ref a ∧ a < m.next ∧ m.node a = .list ys ∧ DenotesAll m xs ys
  | .obj kvs, v => ∃ a ps, v = .ref a ∧ a < m.next ∧ m.node a = .dict ps ∧ DenotesPairs m kvs ps
/-- Lists. -/
def DenotesAll (m : Mem) : List Tree → List Pv → Prop
  | [], ys => ys = []
  | x :: xs, ys => ∃ y rest, ys = y :: rest ∧ Denotes m x y ∧ DenotesAll m xs rest
/-- Dictionaries: the same keys in the same order. -/
def DenotesPairs (m : Mem) : List (String × Tree) → PyDict String Pv → Prop
  | [], ys => ys = []
  | (k, x) :: xs, ys => ∃ y rest, ys = (k, y) :: rest ∧ Denotes m x y ∧ DenotesPairs m xs rest
end

/-- The same keys, with values that are related. -/
def Pairs {K : Type} (R : K → Pv → Prop) : PyDict String K → PyDict String Pv → Prop
  | [], ys => ys = []
  | (k, x) :: xs, ys => ∃ y rest, ys = (k, y) :: rest ∧ R x y ∧ Pairs R xs rest

/-- Related lists. -/
def All {K : Type} (R : K → Pv → Prop) : List K → List Pv → Prop
  | [], ys => ys = []
  | x :: xs, ys => ∃ y rest, ys = y :: rest ∧ R x y ∧ All R xs rest

/-- A way of seeing values in memory as values of the tree model; for objects it is open. -/
structure View (R : Mem → Val → Pv → Prop) : Prop where
  mono : ∀ m m' x v, Extends m m' → R m x v → R m' x v
  none : ∀ m, R m .none .none
  bool : ∀ m b, R m (.bool b) (.bool b)
  int : ∀ m i, R m (.int i) (.int i)
  float : ∀ m n r, R m (.float n r) (.float n r)
  str : ∀ m s, R m (.str s) (.str s)
  list : ∀ m xs ys a, a < m.next → m.node a = .list ys → All (R m) xs ys → R m (.list xs) (.ref a)
  dict : ∀ m (xs : PyDict String Val) ys a, a < m.next → m.node a = .dict ys → Pairs (R m) xs ys →
    R m (.dict (xs.map fun p => (Key.str p.1, p.2))) (.ref a)

/-- The same outcome. -/
def Same (R : Mem → Val → Pv → Prop) (o : Outcome Val) (r : Except Exc Pv × Mem) : Prop :=
  (∀ x, o = .error x → r.1 = .error (.raised x)) ∧ (∀ x, o = .ok x → ∃ v, r.1 = .ok v ∧ R r.2 x v)

/-- An outcome of a constructor as an outcome of a call. -/
def lift (r : Outcome Pv × Mem) : Except Exc Pv × Mem := (r.1.mapError .raised, r.2)

/-- Two engines with the same classes whose `expand` and constructors agree. -/
structure Agree (R : Mem → Val → Pv → Prop) (e : Engine) (h : MemEngine) : Prop where
  registry : h.registry = e.registry
  props : h.props = e.props
  no_context : ∀ cls, "@context" ∉ e.props cls
  expand : ∀ m kvs a, Denotes m (.obj kvs) (.ref a) → h.expand m a = e.expand (.obj kvs)
  construct : ∀ cls args vs m, Pairs (R m) args vs → Same R (e.construct cls args) (lift (h.construct cls vs m))
  changes_nothing : ∀ cls args m, Extends m (h.construct cls args m).2

theorem denotesAll_iff (m : Mem) : ∀ xs ys, DenotesAll m xs ys ↔ All (Denotes m) xs ys := by
  intro xs
  induction xs with
  | nil => intro ys; rw [DenotesAll, All]
  | cons x xs ih => intro ys; rw [DenotesAll, All]; simp only [ih]

theorem denotesPairs_iff (m : Mem) : ∀ xs ys, DenotesPairs m xs ys ↔ Pairs (Denotes m) xs ys := by
  intro xs
  induction xs with
  | nil => intro ys; rw [DenotesPairs, Pairs]
  | cons x xs ih => obtain ⟨k, x⟩ := x; intro ys; rw [DenotesPairs, Pairs]; simp only [ih]

mutual
theorem Denotes.mono {m m' : Mem} (h : Extends m m') : ∀ t v, Denotes m t v → Denotes m' t v
  | .null, v, k => by rw [Denotes] at k ⊢; exact k
  | .bool b, v, k => by rw [Denotes] at k ⊢; exact k
  | .int i, v, k => by rw [Denotes] at k ⊢; exact k
  | .float n r, v, k => by rw [Denotes] at k ⊢; exact k
  | .str s, v, k => by rw [Denotes] at k ⊢; exact k
  | .arr xs, v, k => by
    rw [Denotes] at k ⊢
    obtain ⟨a, ys, h1, h2, h3, h4⟩ := k
    exact ⟨a, ys, h1, Nat.lt_of_lt_of_le h2 h.next, (h.same a h2).trans h3, DenotesAll.mono h xs ys h4⟩
  | .obj kvs, v, k => by
    rw [Denotes] at k ⊢
    obtain ⟨a, ys, h1, h2, h3, h4⟩ := k
    exact ⟨a, ys, h1, Nat.lt_of_lt_of_le h2 h.next, (h.same a h2).trans h3, DenotesPairs.mono h kvs ys h4⟩
theorem DenotesAll.mono {m m' : Mem} (h : Extends m m') : ∀ t v, DenotesAll m t v → DenotesAll m' t v
  | [], v, k => by rw [DenotesAll] at k ⊢; exact k
  | x :: xs, v, k => by
    rw [DenotesAll] at k ⊢
    obtain ⟨y, rest, h1, h2, h3⟩ := k
    exact ⟨y, rest, h1, Denotes.mono h x y h2, DenotesAll.mono h xs rest h3⟩
theorem DenotesPairs.mono {m m' : Mem} (h : Extends m m') : ∀ t v, DenotesPairs m t v → DenotesPairs m' t v
  | [], v, k => by rw [DenotesPairs] at k ⊢; exact k
  | (s, x) :: xs, v, k => by
    rw [DenotesPairs] at k ⊢
    obtain ⟨y, rest, h1, h2, h3⟩ := k
    exact ⟨y, rest, h1, Denotes.mono h x y h2, DenotesPairs.mono h xs rest h3⟩
end

section Agreement
variable {K : Type} {R : K → Pv → Prop}

theorem Pairs.imp {R' : K → Pv → Prop} (h : ∀ x v, R x v → R' x v) : ∀ xs ys, Pairs R xs ys → Pairs R' xs ys := by
  intro xs
  induction xs with
  | nil => intro ys k; exact k
  | cons x xs ih =>
    obtain ⟨k, x⟩ := x
    rintro ys ⟨y, rest, h1, h2, h3⟩
    exact ⟨y, rest, h1, h _ _ h2, ih _ h3⟩

theorem All.imp {R' : K → Pv → Prop} (h : ∀ x v, R x v → R' x v) : ∀ xs ys, All R xs ys → All R' xs ys := by
  intro xs
  induction xs with
  | nil => intro ys k; exact k
  | cons x xs ih =>
    rintro ys ⟨y, rest, h1, h2, h3⟩
    exact ⟨y, rest, h1, h _ _ h2, ih _ h3⟩

/-- Both dictionaries have the key, with related values, or neither has. -/
theorem Pairs.dget {xs : PyDict String K} {ys : PyDict String Pv} (h : Pairs R xs ys) (k : String) :
    (xs.dget k = none ∧ ys.dget k = none) ∨ ∃ x y, xs.dget k = some x ∧ ys.dget k = some y ∧ R x y := by
  induction xs generalizing ys with
  | nil => cases h; exact .inl ⟨rfl, rfl⟩
  | cons x xs ih =>
    obtain ⟨k', x⟩ := x
    obtain ⟨y, rest, rfl, h2, h3⟩ := h
    by_cases hk : k' = k
    · exact .inr ⟨x, y, by rw [List.dget, if_pos hk], by rw [List.dget, if_pos hk], h2⟩
    · rw [List.dget, List.dget, if_neg hk, if_neg hk]
      exact ih h3

theorem Pairs.getD {xs : PyDict String K} {ys : PyDict String Pv} (h : Pairs R xs ys) (k : String) {x : K} {y : Pv} (hd : R x y) :
    R ((xs.dget k).getD x) ((ys.dget k).getD y) := by
  rcases h.dget k with ⟨h1, h2⟩ | ⟨a, b, h1, h2, h3⟩
  · rw [h1, h2]; exact hd
  · rw [h1, h2]; exact h3

theorem Pairs.ddel {xs : PyDict String K} {ys : PyDict String Pv} (h : Pairs R xs ys) (k : String) : Pairs R (xs.ddel k) (ys.ddel k) := by
  induction xs generalizing ys with
  | nil => cases h; exact rfl
  | cons x xs ih =>
    obtain ⟨k', x⟩ := x
    obtain ⟨y, rest, rfl, h2, h3⟩ := h
    by_cases hk : k' = k
    · rw [List.ddel, List.ddel, if_pos hk, if_pos hk]; exact h3
    · rw [List.ddel, List.ddel, if_neg hk, if_neg hk]
      exact ⟨y, _, rfl, h2, ih h3⟩

theorem Pairs.dset {xs : PyDict String K} {ys : PyDict String Pv} (h : Pairs R xs ys) (k : String) {x : K} {y : Pv} (hd : R x y) :
    Pairs R (xs.dset k x) (ys.dset k y) := by
  induction xs generalizing ys with
  | nil => cases h; exact ⟨y, [], rfl, hd, rfl⟩
  | cons p xs ih =>
    obtain ⟨k', z⟩ := p
    obtain ⟨w, rest, rfl, h2, h3⟩ := h
    by_cases hk : k' = k
    · rw [List.dset, List.dset, if_pos hk, if_pos hk]; exact ⟨y, rest, rfl, hd, h3⟩
    · rw [List.dset, List.dset, if_neg hk, if_neg hk]
      exact ⟨w, _, rfl, h2, ih h3⟩

end Agreement

theorem dget_ddel_ne {K : Type} (d : PyDict String K) {k p : String} (h : p ≠ k) : (d.ddel k).dget p = d.dget p := by
  induction d with
  | nil => rfl
  | cons x xs ih =>
    obtain ⟨k', x⟩ := x
    by_cases hk : k' = k
    · subst hk
      rw [List.ddel, if_pos rfl, List.dget, if_neg (Ne.symm h)]
    · rw [List.ddel, if_neg hk, List.dget, List.dget, ih]

theorem depth_mem {x : Tree} {xs : List Tree} (h : x ∈ xs) : depth x ≤ depthAll xs := by
  induction xs with
  | nil => cases h
  | cons y ys ih =>
    rw [depthAll]
    rcases List.mem_cons.1 h with rfl | h
    · exact Nat.le_max_left _ _
    · exact Nat.le_trans (ih h) (Nat.le_max_right _ _)

theorem depth_mem_pairs {p : String × Tree} {xs : List (String × Tree)} (h : p ∈ xs) : depth p.2 ≤ depthPairs xs := by
  induction xs with
  | nil => cases h
  | cons y ys ih =>
    obtain ⟨k, y⟩ := y
    rw [depthPairs]
    rcases List.mem_cons.1 h with rfl | h
    · exact Nat.le_max_left _ _
    · exact Nat.le_trans (ih h) (Nat.le_max_right _ _)

theorem unpackAll_map (e : Engine) (ctx : Tree) : ∀ xs, e.unpackAll ctx xs = xs.map (e.unpack ctx) := by
  intro xs
  induction xs with
  | nil => rw [Engine.unpackAll]; rfl
  | cons x xs ih => rw [Engine.unpackAll, ih]; rfl

theorem unpackPairs_map (e : Engine) (ctx : Tree) : ∀ xs, e.unpackPairs ctx xs = xs.map fun p => (p.1, e.unpack ctx p.2) := by
  intro xs
  induction xs with
  | nil => rw [Engine.unpackPairs]; rfl
  | cons x xs ih => obtain ⟨k, x⟩ := x; rw [Engine.unpackPairs, ih]; rfl

theorem dget_map {A B : Type} (f : A → B) (d : PyDict String A) (k : String) :
    List.dget (d.map fun p => (p.1, f p.2)) k = (d.dget k).map f := by
  induction d with
  | nil => rfl
  | cons p d ih =>
    obtain ⟨k', x⟩ := p
    by_cases hk : k' = k
    · simp [List.dget, hk]
    · simp only [List.map_cons, List.dget, hk, if_false]; exact ih

theorem truthy_same {m : Mem} {t : Tree} {v : Pv} (h : Denotes m t v) : m.truthy v = t.truthy := by
  cases t with
  | arr xs =>
    rw [Denotes] at h
    obtain ⟨a, ys, rfl, _, h3, h4⟩ := h
    rw [Mem.truthy, h3, Tree.truthy]
    cases xs with
    | nil => rw [DenotesAll] at h4; subst h4; rfl
    | cons x xs => rw [DenotesAll] at h4; obtain ⟨y, r, rfl, _⟩ := h4; rfl
  | obj xs =>
    rw [Denotes] at h
    obtain ⟨a, ys, rfl, _, h3, h4⟩ := h
    rw [Mem.truthy, h3, Tree.truthy]
    cases xs with
    | nil => rw [DenotesPairs] at h4; subst h4; rfl
    | cons x xs => obtain ⟨k, x⟩ := x; rw [DenotesPairs] at h4; obtain ⟨y, r, rfl, _⟩ := h4; rfl
  | _ => rw [Denotes] at h; subst h; rfl

variable {R : Mem → Val → Pv → Prop}

mutual
theorem toVal_view (hR : View R) (m : Mem) : ∀ t v, Denotes m t v → R m t.toVal v
  | .null, v, k => by rw [Denotes] at k; rw [k, Tree.toVal]; exact hR.none m
  | .bool b, v, k => by rw [Denotes] at k; rw [k, Tree.toVal]; exact hR.bool m b
  | .int i, v, k => by rw [Denotes] at k; rw [k, Tree.toVal]; exact hR.int m i
  | .float n r, v, k => by rw [Denotes] at k; rw [k, Tree.toVal]; exact hR.float m n r
  | .str s, v, k => by rw [Denotes] at k; rw [k, Tree.toVal]; exact hR.str m s
  | .arr xs, v, k => by
    rw [Denotes] at k
    obtain ⟨a, ys, rfl, h2, h3, h4⟩ := k
    rw [Tree.toVal]
    exact hR.list m _ ys a h2 h3 (toVals_view hR m xs ys h4)
  | .obj kvs, v, k => by
    rw [Denotes] at k
    obtain ⟨a, ys, rfl, h2, h3, h4⟩ := k
    rw [Tree.toVal]
    obtain ⟨zs, hz, hp⟩ := toPairs_view hR m kvs ys h4
    rw [hz]
    exact hR.dict m zs ys a h2 h3 hp
theorem toVals_view (hR : View R) (m : Mem) : ∀ ts vs, DenotesAll m ts vs → All (R m) (toVals ts) vs
  | [], vs, k => by rw [DenotesAll] at k; rw [toVals]; exact k
  | x :: xs, vs, k => by
    rw [DenotesAll] at k
    obtain ⟨y, rest, h1, h2, h3⟩ := k
    rw [toVals]
    exact ⟨y, rest, h1, toVal_view hR m x y h2, toVals_view hR m xs rest h3⟩
theorem toPairs_view (hR : View R) (m : Mem) : ∀ ts vs, DenotesPairs m ts vs →
    ∃ zs : PyDict String Val, toPairs ts = zs.map (fun p => (Key.str p.1, p.2)) ∧ Pairs (R m) zs vs
  | [], vs, k => by rw [DenotesPairs] at k; rw [toPairs]; exact ⟨[], rfl, k⟩
  | (s, x) :: xs, vs, k => by
    rw [DenotesPairs] at k
    obtain ⟨y, rest, h1, h2, h3⟩ := k
    rw [toPairs]
    obtain ⟨zs, hz, hp⟩ := toPairs_view hR m xs rest h3
    exact ⟨(s, x.toVal) :: zs, by rw [hz]; rfl, y, rest, h1, toVal_view hR m x y h2, hp⟩
end

/-- Lists of outcomes. -/
theorem items_same (hR : View R) {m0 : Mem} {act : Pv → Act Pv} {f : Tree → Outcome Val} (hx : ∀ v m, Extends m (act v m).2) :
    ∀ xs, (∀ x ∈ xs, ∀ m v, Extends m0 m → Denotes m x v → Same R (f x) (act v m)) → ∀ m ys, Extends m0 m → All (Denotes m) xs ys →
      (∀ x, sequence (xs.map f) = .error x → (items act ys m).1 = .error (.raised x)) ∧
      (∀ rs, sequence (xs.map f) = .ok rs → ∃ vs, (items act ys m).1 = .ok vs ∧ All (R (items act ys m).2) rs vs) := by
  intro xs
  induction xs with
  | nil =>
    intro _ m ys _ h
    cases h
    refine ⟨fun x hx => (nomatch hx), fun rs hrs => ?_⟩
    cases Except.ok.inj hrs
    exact ⟨[], rfl, rfl⟩
  | cons x xs ih =>
    rintro hs m ys hm ⟨y, rest, rfl, h2, h3⟩
    have h1 := hs x (by simp) m y hm h2
    have hx1 := hx y m
    rw [items, List.map_cons]
    cases hact : act y m with
    | mk o m1 =>
      rw [hact] at h1 hx1
      cases hf : f x with
      | error e0 =>
        have := h1.1 e0 hf
        simp only at this
        subst this
        refine ⟨fun z hz => ?_, fun rs hrs => (nomatch hrs)⟩
        rw [sequence] at hz
        cases Except.error.inj hz
        rfl
      | ok x0 =>
        obtain ⟨v, hv, hr⟩ := h1.2 x0 hf
        simp only at hv
        subst hv
        have ih2 := ih (fun z hz => hs z (by simp [hz])) m1 rest (hm.trans hx1) (All.imp (fun x v => Denotes.mono hx1 x v) _ _ h3)
        have hx2 := items_extends hx rest m1
        simp only [sequence]
        cases hrest : items act rest m1 with
        | mk o2 m2 =>
          rw [hrest] at ih2 hx2
          cases hseq : sequence (xs.map f) with
          | error e0 =>
            have := ih2.1 e0 hseq
            simp only at this
            subst this
            refine ⟨fun z hz => ?_, fun rs hrs => (nomatch hrs)⟩
            cases Except.error.inj hz
            rfl
          | ok rs0 =>
            obtain ⟨vs, hvs, hall⟩ := ih2.2 rs0 hseq
            simp only at hvs
            subst hvs
            refine ⟨fun z hz => (nomatch hz), fun rs hrs => ?_⟩
            cases Except.ok.inj hrs
            exact ⟨v :: vs, rfl, v, vs, rfl, hR.mono _ _ _ _ hx2 hr, hall⟩

/-- Dictionaries of outcomes. -/
theorem entries_same (hR : View R) {m0 : Mem} {act : Pv → Act Pv} {f : Tree → Outcome Val} (hx : ∀ v m, Extends m (act v m).2) :
    ∀ xs : List (String × Tree), (∀ x ∈ xs, ∀ m v, Extends m0 m → Denotes m x.2 v → Same R (f x.2) (act v m)) →
      ∀ m ys, Extends m0 m → Pairs (Denotes m) xs ys →
      (∀ x, sequenceDict (xs.map fun p => (p.1, f p.2)) = .error x → (entries act ys m).1 = .error (.raised x)) ∧
      (∀ rs, sequenceDict (xs.map fun p => (p.1, f p.2)) = .ok rs → ∃ vs zs, (entries act ys m).1 = .ok vs ∧
        rs = zs.map (fun p => (Key.str p.1, p.2)) ∧ Pairs (R (entries act ys m).2) zs vs) := by
  intro xs
  induction xs with
  | nil =>
    intro _ m ys _ h
    cases h
    refine ⟨fun x hx => (nomatch hx), fun rs hrs => ?_⟩
    cases Except.ok.inj hrs
    exact ⟨[], [], rfl, rfl, rfl⟩
  | cons x xs ih =>
    obtain ⟨k, x⟩ := x
    rintro hs m ys hm ⟨y, rest, rfl, h2, h3⟩
    have h1 := hs (k, x) (by simp) m y hm h2
    have hx1 := hx y m
    rw [entries, List.map_cons]
    cases hact : act y m with
    | mk o m1 =>
      rw [hact] at h1 hx1
      simp only at h1
      cases hf : f x with
      | error e0 =>
        have := h1.1 e0 hf
        simp only at this
        subst this
        refine ⟨fun z hz => ?_, fun rs hrs => ?_⟩
        · simp only [sequenceDict] at hz
          cases Except.error.inj hz
          rfl
        · simp only [sequenceDict] at hrs
          exact nomatch hrs
      | ok x0 =>
        obtain ⟨v, hv, hr⟩ := h1.2 x0 hf
        simp only at hv
        subst hv
        have ih2 := ih (fun z hz => hs z (by simp [hz])) m1 rest (hm.trans hx1) (Pairs.imp (fun x v => Denotes.mono hx1 x v) _ _ h3)
        have hx2 := entries_extends hx rest m1
        simp only [sequenceDict]
        cases hrest : entries act rest m1 with
        | mk o2 m2 =>
          rw [hrest] at ih2 hx2
          cases hseq : sequenceDict (xs.map fun p => (p.1, f p.2)) with
          | error e0 =>
            have := ih2.1 e0 hseq
            simp only at this
            subst this
            refine ⟨fun z hz => ?_, fun rs hrs => (nomatch hrs)⟩
            cases Except.error.inj hz
            rfl
          | ok rs0 =>
            obtain ⟨vs, zs, hvs, rfl, hall⟩ := ih2.2 rs0 hseq
            simp only at hvs
            subst hvs
            refine ⟨fun z hz => (nomatch hz), fun rs hrs => ?_⟩
            cases Except.ok.inj hrs
            exact ⟨(k, v) :: vs, (k, x0) :: zs, rfl, rfl, v, vs, rfl, hR.mono _ _ _ _ hx2 hr, hall⟩

/-- The values of the properties. -/
theorem filtered_same (hR : View R) {m0 : Mem} {act : Pv → Act Pv} {f : Tree → Outcome Val} (hx : ∀ v m, Extends m (act v m).2)
    (hnone : ∀ m, Same R (.ok .none) (act .none m)) (kvs : List (String × Tree)) (data : PyDict String Pv) :
    ∀ ps, (∀ p ∈ ps, ∀ x, kvs.dget p = some x → ∀ m v, Extends m0 m → Denotes m x v → Same R (f x) (act v m)) → ∀ m, Extends m0 m →
      (∀ p ∈ ps, (kvs.dget p = none ∧ data.dget p = none) ∨ ∃ x y, kvs.dget p = some x ∧ data.dget p = some y ∧ Denotes m x y) →
      (∀ x, collect ps (kvs.map fun p => (p.1, f p.2)) = .error x → (filtered act data ps m).1 = .error (.raised x)) ∧
      (∀ rs, collect ps (kvs.map fun p => (p.1, f p.2)) = .ok rs →
        ∃ vs, (filtered act data ps m).1 = .ok vs ∧ Pairs (R (filtered act data ps m).2) rs vs) := by
  intro ps
  induction ps with
  | nil =>
    intro _ m _ _
    refine ⟨fun x hx => (nomatch hx), fun rs hrs => ?_⟩
    cases Except.ok.inj hrs
    exact ⟨[], rfl, rfl⟩
  | cons p ps ih =>
    intro hs m hm hd
    have h1 : Same R (((List.dget (kvs.map fun p => (p.1, f p.2)) p)).getD (.ok .none)) (act ((data.dget p).getD .none) m) := by
      rw [dget_map]
      rcases hd p (by simp) with ⟨h1, h2⟩ | ⟨x, y, h1, h2, h3⟩
      · rw [h1, h2]; exact hnone m
      · rw [h1, h2]; exact hs p (by simp) x h1 m y hm h3
    have hx1 := hx ((data.dget p).getD .none) m
    rw [filtered, collect]
    cases hact : act ((data.dget p).getD .none) m with
    | mk o m1 =>
      rw [hact] at h1 hx1
      cases hf : (List.dget (kvs.map fun p => (p.1, f p.2)) p).getD (.ok .none) with
      | error e0 =>
        have := h1.1 e0 hf
        simp only at this
        subst this
        refine ⟨fun z hz => ?_, fun rs hrs => (nomatch hrs)⟩
        cases Except.error.inj hz
        rfl
      | ok x0 =>
        obtain ⟨v, hv, hr⟩ := h1.2 x0 hf
        simp only at hv
        subst hv
        have ih2 := ih (fun q hq => hs q (by simp [hq])) m1 (hm.trans hx1) (by
          intro q hq
          rcases hd q (by simp [hq]) with h | ⟨x, y, h1, h2, h3⟩
          · exact .inl h
          · exact .inr ⟨x, y, h1, h2, Denotes.mono hx1 x y h3⟩)
        have hx2 := filtered_extends hx data ps m1
        simp only
        cases hrest : filtered act data ps m1 with
        | mk o2 m2 =>
          rw [hrest] at ih2 hx2
          cases hseq : collect ps (kvs.map fun p => (p.1, f p.2)) with
          | error e0 =>
            have := ih2.1 e0 hseq
            simp only at this
            subst this
            refine ⟨fun z hz => ?_, fun rs hrs => (nomatch hrs)⟩
            cases Except.error.inj hz
            rfl
          | ok rs0 =>
            obtain ⟨vs, hvs, hall⟩ := ih2.2 rs0 hseq
            simp only at hvs
            subst hvs
            refine ⟨fun z hz => (nomatch hz), fun rs hrs => ?_⟩
            cases Except.ok.inj hrs
            exact ⟨(p, v) :: vs, rfl, v, vs, rfl, hR.mono _ _ _ _ hx2 hr, hall⟩

theorem getObjectClass_same {e : Engine} {h : MemEngine} (ha : Agree R e h) {m : Mem} {kvs : List (String × Tree)} {a : Nat}
    (hd : Denotes m (.obj kvs) (.ref a)) : h.getObjectClass m a = e.getObjectClass kvs := by
  have hc : ∀ t, h.classFor t = e.classFor t := by intro t; rw [MemEngine.classFor, Engine.classFor, ha.registry]
  rw [MemEngine.getObjectClass, Engine.getObjectClass, ha.expand m kvs a hd]
  cases e.expand (.obj kvs) with
  | error x => rfl
  | ok ex =>
    cases ex with
    | empty => simp only [hc]
    | untyped => simp only [hc]
    | typed ts => cases ts with
      | nil => rfl
      | cons t ts => simp only [hc]

theorem withContext_denotes {m : Mem} {ctx : Tree} {c : Pv} (hc : Denotes m ctx c) {kvs : List (String × Tree)} {ps : PyDict String Pv}
    (h : Pairs (Denotes m) kvs ps) : Pairs (Denotes m) (Jsonld.withContext ctx kvs) (MemEngine.withContext c ps) :=
  ⟨_, _, rfl, h.getD _ hc, h.ddel _⟩

theorem contextOf_denotes {m : Mem} {kvs : List (String × Tree)} {ps : PyDict String Pv} (h : Pairs (Denotes m) kvs ps) :
    Denotes m (Jsonld.contextOf kvs) (MemEngine.contextOf ps) :=
  h.getD _ (by rw [defaultContext, Denotes]; rfl)

theorem denotes_obj {m : Mem} {kvs : List (String × Tree)} {a : Nat} {ps : PyDict String Pv} (ha : a < m.next) (hn : m.node a = .dict ps)
    (h : Pairs (Denotes m) kvs ps) : Denotes m (.obj kvs) (.ref a) := by
  rw [Denotes]
  exact ⟨a, ps, rfl, ha, hn, (denotesPairs_iff _ _ _).2 h⟩

/-- The end of `from_json`. -/
theorem load_same (hR : View R) {e : Engine} {h : MemEngine} (ha : Agree R e h) {unpack : Pv → Pv → Act Pv} {f : Tree → Tree → Outcome Val}
    (hx : ∀ c v m, Extends m (unpack c v m).2) (hnone : ∀ c m, unpack c .none m = (.ok .none, m)) (kvs full : List (String × Tree))
    (hfull : ∀ p, p ≠ "@context" → full.dget p = kvs.dget p) (m : Mem) (a : Nat) (hd : Denotes m (.obj full) (.ref a))
    (hs : ∀ p ∈ kvs, ∀ ctx cv m' v, Extends m m' → Denotes m' ctx cv → Denotes m' p.2 v → Same R (f ctx p.2) (unpack cv v m')) :
    Same R (e.finish full (kvs.map fun p => (p.1, f (Jsonld.contextOf full) p.2))) (load h unpack a m) := by
  rw [Denotes] at hd
  obtain ⟨a', ps, hae, hlt, hnode, hpairs⟩ := hd
  cases hae
  rw [denotesPairs_iff] at hpairs
  have hdict : dictAt m a = ps := by rw [dictAt, hnode]
  unfold load
  simp only [hdict]
  obtain ⟨x2, n2, hn⟩ := normalize_spec m ps
  have htr : (m.alloc (.dict ps)).truthy ((ps.dget "@context").getD .none) = ((full.dget "@context").getD .null).truthy :=
    truthy_same (Denotes.mono (extends_alloc m _) _ _ (hpairs.getD _ (by rw [Denotes])))
  have hnorm : Pairs (Denotes m) (normalized full)
      (if (m.alloc (.dict ps)).truthy ((ps.dget "@context").getD .none) = true then ps else ps.dset "@context" defaultCtx) := by
    rw [htr, normalized]
    split
    · exact hpairs
    · exact hpairs.dset _ (by rw [defaultContext, Denotes]; rfl)
  have hget : ∀ p, p ≠ "@context" →
      List.dget (if (m.alloc (.dict ps)).truthy ((ps.dget "@context").getD .none) = true then ps else ps.dset "@context" defaultCtx) p = ps.dget p := by
    intro p hp
    split
    · rfl
    · rw [PyDict.dget_dset, if_neg hp]
  generalize (if (m.alloc (.dict ps)).truthy ((ps.dget "@context").getD .none) = true then ps else ps.dset "@context" defaultCtx) = ps2 at hn hnorm hget
  generalize normalize (m.alloc (.dict ps)) m.next ps = m2 at x2 n2 hn
  have hd2 : Denotes m2 (.obj (normalized full)) (.ref m.next) :=
    denotes_obj (by rw [n2]; exact Nat.lt_succ_self _) hn (Pairs.imp (fun x v => Denotes.mono x2 x v) _ _ hnorm)
  have hdict2 : dictAt m2 m.next = ps2 := by rw [dictAt, hn]
  rw [hdict2, getObjectClass_same ha hd2, Engine.finish]
  cases e.getObjectClass (normalized full) with
  | error x => exact ⟨fun y hy => by cases hy; rfl, fun y hy => (nomatch hy)⟩
  | ok o =>
    cases o with
    | none => exact ⟨fun y hy => by cases hy; rfl, fun y hy => (nomatch hy)⟩
    | some cls =>
      simp only
      have hctx := contextOf_denotes hpairs
      have key := filtered_same hR (m0 := m2) (f := f (Jsonld.contextOf full)) (hx (MemEngine.contextOf ps))
        (fun m => by rw [hnone]; exact ⟨fun y hy => (nomatch hy), fun y hy => ⟨.none, rfl, by cases Except.ok.inj hy; exact hR.none m⟩⟩) kvs ps2 (e.props cls)
        (fun p _ x hp m' v hm' hv => hs (p, x) (PyDict.dget_mem hp) _ _ m' v (x2.trans hm') (Denotes.mono (x2.trans hm') _ _ hctx) hv) m2
        (Extends.refl m2) (by
          intro p hp
          have hne : p ≠ "@context" := fun hh => ha.no_context cls (hh ▸ hp)
          rw [hget p hne, ← hfull p hne]
          rcases hpairs.dget p with k | ⟨x, y, h1, h2, h3⟩
          · exact .inl k
          · exact .inr ⟨x, y, h1, h2, Denotes.mono x2 _ _ h3⟩)
      have hxf := filtered_extends (hx (MemEngine.contextOf ps)) ps2 (e.props cls) m2
      rw [← ha.props] at key hxf ⊢
      cases hfil : filtered (unpack (MemEngine.contextOf ps)) ps2 (h.props cls) m2 with
      | mk o m3 =>
        rw [hfil] at key hxf
        cases hcol : collect (h.props cls) (kvs.map fun p => (p.1, f (Jsonld.contextOf full) p.2)) with
        | error x =>
          have := key.1 x hcol
          simp only at this
          subst this
          exact ⟨fun y hy => by cases hy; rfl, fun y hy => (nomatch hy)⟩
        | ok kw =>
          obtain ⟨vs, hvs, hp⟩ := key.2 kw hcol
          simp only at hvs
          subst hvs
          simp only
          have hcon := ha.construct cls (kw.dset "acontext" (Jsonld.contextOf full).toVal) (vs.dset "acontext" (MemEngine.contextOf ps)) m3
            (hp.dset _ (toVal_view hR m3 _ _ (Denotes.mono (x2.trans hxf) _ _ hctx)))
          cases hc : h.construct cls (vs.dset "acontext" (MemEngine.contextOf ps)) m3 with
          | mk o m4 =>
            rw [hc] at hcon
            cases o <;> exact hcon

theorem unpack_none (h : MemEngine) (n : Nat) (c : Pv) (m : Mem) : MemEngine.unpack h n c .none m = (.ok .none, m) := by
  cases n <;> rfl

/-- `_unpack_objects` in both models. -/
theorem unpack_same (hR : View R) {e : Engine} {h : MemEngine} (ha : Agree R e h) (n : Nat) :
    ∀ t, depth t ≤ n → ∀ ctx cv v m, Denotes m ctx cv → Denotes m t v → Same R (e.unpack ctx t) (MemEngine.unpack h n cv v m) := by
  have hx := fun n => unpack_extends ha.changes_nothing n
  induction n with
  | zero =>
    intro t ht ctx cv v m _ hv
    cases t with
    | arr xs => rw [depth] at ht; omega
    | obj kvs => rw [depth] at ht; omega
    | null => rw [Denotes] at hv; subst hv; rw [Engine.unpack]; exact ⟨fun y hy => (nomatch hy), fun y hy => ⟨_, rfl, by cases Except.ok.inj hy; exact hR.none m⟩⟩
    | bool b => rw [Denotes] at hv; subst hv; rw [Engine.unpack]; exact ⟨fun y hy => (nomatch hy), fun y hy => ⟨_, rfl, by cases Except.ok.inj hy; exact hR.bool m b⟩⟩
    | int i => rw [Denotes] at hv; subst hv; rw [Engine.unpack]; exact ⟨fun y hy => (nomatch hy), fun y hy => ⟨_, rfl, by cases Except.ok.inj hy; exact hR.int m i⟩⟩
    | float s r => rw [Denotes] at hv; subst hv; rw [Engine.unpack]; exact ⟨fun y hy => (nomatch hy), fun y hy => ⟨_, rfl, by cases Except.ok.inj hy; exact hR.float m s r⟩⟩
    | str s => rw [Denotes] at hv; subst hv; rw [Engine.unpack]; exact ⟨fun y hy => (nomatch hy), fun y hy => ⟨_, rfl, by cases Except.ok.inj hy; exact hR.str m s⟩⟩
  | succ n ih =>
    intro t ht ctx cv v m hc hv
    cases t with
    | null => rw [Denotes] at hv; subst hv; rw [Engine.unpack]; exact ⟨fun y hy => (nomatch hy), fun y hy => ⟨_, rfl, by cases Except.ok.inj hy; exact hR.none m⟩⟩
    | bool b => rw [Denotes] at hv; subst hv; rw [Engine.unpack]; exact ⟨fun y hy => (nomatch hy), fun y hy => ⟨_, rfl, by cases Except.ok.inj hy; exact hR.bool m b⟩⟩
    | int i => rw [Denotes] at hv; subst hv; rw [Engine.unpack]; exact ⟨fun y hy => (nomatch hy), fun y hy => ⟨_, rfl, by cases Except.ok.inj hy; exact hR.int m i⟩⟩
    | float s r => rw [Denotes] at hv; subst hv; rw [Engine.unpack]; exact ⟨fun y hy => (nomatch hy), fun y hy => ⟨_, rfl, by cases Except.ok.inj hy; exact hR.float m s r⟩⟩
    | str s => rw [Denotes] at hv; subst hv; rw [Engine.unpack]; exact ⟨fun y hy => (nomatch hy), fun y hy => ⟨_, rfl, by cases Except.ok.inj hy; exact hR.str m s⟩⟩
    | arr xs =>
      rw [depth] at ht
      rw [Denotes] at hv
      obtain ⟨a, ys, rfl, hlt, hnode, hall⟩ := hv
      rw [denotesAll_iff] at hall
      rw [Engine.unpack, unpackAll_map, MemEngine.unpack, hnode]
      simp only
      have key := items_same hR (m0 := m) (f := e.unpack ctx) (hx n cv) xs
        (fun x hx' m' v' hm' hd' => ih x (by have := depth_mem hx'; omega) ctx cv v' m' (Denotes.mono hm' _ _ hc) hd') m ys (Extends.refl m) hall
      cases hit : items (MemEngine.unpack h n cv) ys m with
      | mk o m1 =>
        rw [hit] at key
        cases hseq : sequence (xs.map (e.unpack ctx)) with
        | error x =>
          have := key.1 x hseq
          simp only at this
          subst this
          exact ⟨fun y hy => by cases hy; rfl, fun y hy => (nomatch hy)⟩
        | ok rs =>
          obtain ⟨vs, hvs, hp⟩ := key.2 rs hseq
          simp only at hvs
          subst hvs
          refine ⟨fun y hy => (nomatch hy), fun y hy => ?_⟩
          cases Except.ok.inj hy
          exact ⟨_, rfl, hR.list _ _ vs _ (Nat.lt_succ_self _) (alloc_node _ _) (All.imp (fun x v => hR.mono _ _ x v (extends_alloc _ _)) _ _ hp)⟩
    | obj kvs =>
      rw [depth] at ht
      rw [Denotes] at hv
      obtain ⟨a, ps, rfl, hlt, hnode, hpairs⟩ := hv
      rw [denotesPairs_iff] at hpairs
      rw [Engine.unpack, MemEngine.unpack, hnode]
      simp only
      have hx1 := extends_alloc m (.dict (MemEngine.withContext cv ps))
      have hd1 : Denotes (m.alloc (.dict (MemEngine.withContext cv ps))) (.obj (Jsonld.withContext ctx kvs)) (.ref m.next) :=
        denotes_obj (Nat.lt_succ_self _) (alloc_node _ _)
          (Pairs.imp (fun x v => Denotes.mono hx1 x v) _ _ (withContext_denotes hc hpairs))
      generalize m.alloc (.dict (MemEngine.withContext cv ps)) = m1 at hx1 hd1
      rw [Engine.unpackObj, ha.expand m1 _ _ hd1]
      have ihk : ∀ p ∈ kvs, ∀ ctx cv m' v, Denotes m' ctx cv → Denotes m' p.2 v → Same R (e.unpack ctx p.2) (MemEngine.unpack h n cv v m') :=
        fun p hp ctx cv m' v h1 h2 => ih p.2 (by have := depth_mem_pairs hp; omega) ctx cv v m' h1 h2
      have plain : Same R (match sequenceDict (e.unpackPairs ctx kvs) with | .error x => .error x | .ok d => .ok (.dict d))
          (wrap Node.dict (entries (MemEngine.unpack h n cv) ps m1)) := by
        rw [unpackPairs_map]
        have key := entries_same hR (m0 := m1) (f := e.unpack ctx) (hx n cv) kvs
          (fun p hp m' v' hm' hd' => ihk p hp ctx cv m' v' (Denotes.mono (hx1.trans hm') _ _ hc) hd') m1 ps (Extends.refl m1)
          (Pairs.imp (fun x v => Denotes.mono hx1 x v) _ _ hpairs)
        cases hit : entries (MemEngine.unpack h n cv) ps m1 with
        | mk o m2 =>
          rw [hit] at key
          cases hseq : sequenceDict (kvs.map fun p => (p.1, e.unpack ctx p.2)) with
          | error x =>
            have := key.1 x hseq
            simp only at this
            subst this
            exact ⟨fun y hy => by cases hy; rfl, fun y hy => (nomatch hy)⟩
          | ok rs =>
            obtain ⟨vs, zs, hvs, rfl, hp⟩ := key.2 rs hseq
            simp only at hvs
            subst hvs
            refine ⟨fun y hy => (nomatch hy), fun y hy => ?_⟩
            cases Except.ok.inj hy
            exact ⟨_, rfl, hR.dict _ zs vs _ (Nat.lt_succ_self _) (alloc_node _ _)
              (Pairs.imp (fun x v => hR.mono _ _ x v (extends_alloc _ _)) _ _ hp)⟩
      cases e.expand (.obj (Jsonld.withContext ctx kvs)) with
      | error x => exact ⟨fun y hy => by cases hy; rfl, fun y hy => (nomatch hy)⟩
      | ok ex =>
        cases ex with
        | empty => exact plain
        | untyped => exact plain
        | typed ts =>
          simp only
          rw [getObjectClass_same ha hd1]
          cases e.getObjectClass (Jsonld.withContext ctx kvs) with
          | error x => exact ⟨fun y hy => by cases hy; rfl, fun y hy => (nomatch hy)⟩
          | ok o =>
            cases o with
            | none => exact ⟨fun y hy => (nomatch hy), fun y hy => ⟨_, rfl, by cases Except.ok.inj hy; exact hR.none _⟩⟩
            | some cls =>
              simp only
              rw [unpackPairs_map]
              refine load_same hR ha (hx n) (unpack_none h n) kvs (Jsonld.withContext ctx kvs) ?_ m1 m.next hd1
                (fun p hp ctx cv m' v _ h1 h2 => ihk p hp ctx cv m' v h1 h2)
              intro p hp
              rw [Jsonld.withContext, List.dget, if_neg (Ne.symm hp), dget_ddel_ne _ hp]

/-- **C132 (c).** For a document nested at most `n + 1` deep, `from_json` in memory gives what `from_json` of the tree model gives: the same
exception, or an object the view relates to the same value. -/
theorem same_result (hR : View R) (e : Engine) (h : MemEngine) (ha : Agree R e h) (n : Nat) (kvs : List (String × Tree)) (a : Nat) (m : Mem)
    (hd : Denotes m (.obj kvs) (.ref a)) (hn : depth (.obj kvs) ≤ n + 1) : Same R (e.fromJson kvs) (h.fromJson n a m) := by
  rw [depth] at hn
  rw [Engine.fromJson, unpackPairs_map, MemEngine.fromJson]
  exact load_same hR ha (unpack_extends ha.changes_nothing n) (unpack_none h n) kvs kvs (fun _ _ => rfl) m a hd
    (fun p hp ctx cv m' v _ h1 h2 => unpack_same hR ha n p.2 (by have := depth_mem_pairs hp; omega) ctx cv v m' h1 h2)

/-! ## Objects that keep what they are given -/

/-- An engine whose objects keep what they are given meets the hypotheses of (a) and (b). -/
theorem keeping_modest (e : MemEngine) (h : e.construct = keeping) : Modest e := by
  constructor
  · intro cls args m
    rw [h]
    exact extends_alloc _ _
  · intro cls args m v m' G heq ht hargs
    rw [h] at heq
    obtain ⟨h1, h2⟩ := Prod.mk.inj heq
    cases Except.ok.inj h1
    subst h2
    refine ⟨fun a => G a ∨ a = m.next, fun a ha => .inl ha, fun a ha => ha.imp id (fun k => Nat.le_of_eq k.symm), ?_, ?_⟩
    · rintro a (ha | rfl)
      · refine ⟨Nat.lt_succ_of_lt (ht a ha).1, fun b hb => .inl ((ht a ha).2 b ?_)⟩
        rwa [(extends_alloc m (.inst cls args)).same a (ht a ha).1] at hb
      · refine ⟨Nat.lt_succ_self _, fun b hb => .inl ?_⟩
        rw [alloc_node] at hb
        obtain ⟨p, hp, hpb⟩ := List.mem_map.1 hb
        exact hargs p hp b hpb
    · intro a ha
      cases ha
      exact .inr rfl

/-- The context is shared: the `acontext` of the object is the document's `@context` itself, not a copy. -/
theorem context_shared (e : MemEngine) (he : e.construct = keeping) (n a : Nat) (m : Mem) (kvs : PyDict String Pv) (hk : m.node a = .dict kvs)
    (c : Pv) (hc : kvs.dget "@context" = some c) (v : Pv) (m' : Mem) (h : e.fromJson n a m = (.ok v, m')) :
    ∃ b cls attrs, v = .ref b ∧ m'.node b = .inst cls attrs ∧ attrs.dget "acontext" = some c := by
  unfold MemEngine.fromJson load at h
  have hd : dictAt m a = kvs := by rw [dictAt, hk]
  simp only [hd] at h
  have hctx : MemEngine.contextOf kvs = c := by rw [MemEngine.contextOf, hc]; rfl
  rw [hctx] at h
  generalize normalize (m.alloc (.dict kvs)) m.next kvs = m2 at h
  cases hcls : e.getObjectClass m2 m.next with
  | error x => rw [hcls] at h; exact absurd (Prod.mk.inj h).1 (by simp)
  | ok o =>
    rw [hcls] at h
    cases o with
    | none => exact absurd (Prod.mk.inj h).1 (by simp)
    | some cls =>
      simp only at h
      cases hfil : filtered (MemEngine.unpack e n c) (dictAt m2 m.next) (e.props cls) m2 with
      | mk o m3 =>
        rw [hfil] at h
        cases o with
        | error x => exact absurd (Prod.mk.inj h).1 (by simp)
        | ok kw =>
          simp only [he, keeping] at h
          obtain ⟨h1, h2⟩ := Prod.mk.inj h
          cases Except.ok.inj h1
          subst h2
          exact ⟨m3.next, cls, kw.dset "acontext" c, rfl, alloc_node _ _, by rw [PyDict.dget_dset, if_pos rfl]⟩

theorem result_old (e : MemEngine) (he : e.construct = keeping) (n a : Nat) (m : Mem) (b : Nat) (m' : Mem)
    (h : e.fromJson n a m = (.ok (.ref b), m')) : b < m'.next := by
  unfold MemEngine.fromJson load at h
  simp only at h
  generalize normalize (m.alloc (.dict (dictAt m a))) m.next (dictAt m a) = m2 at h
  cases hcls : e.getObjectClass m2 m.next with
  | error x => rw [hcls] at h; exact absurd (Prod.mk.inj h).1 (by simp)
  | ok o =>
    rw [hcls] at h
    cases o with
    | none => exact absurd (Prod.mk.inj h).1 (by simp)
    | some cls =>
      simp only at h
      cases hfil : filtered (MemEngine.unpack e n (MemEngine.contextOf (dictAt m a))) (dictAt m2 m.next) (e.props cls) m2 with
      | mk o m3 =>
        rw [hfil] at h
        cases o with
        | error x => exact absurd (Prod.mk.inj h).1 (by simp)
        | ok kw =>
          simp only [he, keeping] at h
          obtain ⟨h1, h2⟩ := Prod.mk.inj h
          cases Except.ok.inj h1
          subst h2
          exact Nat.lt_succ_self _

/-- Two objects loaded from one document have its context, the same object, as their `acontext`: changing it in place for one of them changes it for
the other and in the document. -/
theorem context_shared_twice (e : MemEngine) (he : e.construct = keeping) (n a : Nat) (m : Mem) (kvs : PyDict String Pv) (hk : m.node a = .dict kvs)
    (ha : a < m.next) (c : Nat) (hc : kvs.dget "@context" = some (.ref c)) (v w : Pv) (m1 m2 : Mem) (h1 : e.fromJson n a m = (.ok v, m1))
    (h2 : e.fromJson n a m1 = (.ok w, m2)) :
    m2.node a = .dict kvs ∧
    (∃ b cls attrs, v = .ref b ∧ m2.node b = .inst cls attrs ∧ attrs.dget "acontext" = some (.ref c)) ∧
    (∃ b cls attrs, w = .ref b ∧ m2.node b = .inst cls attrs ∧ attrs.dget "acontext" = some (.ref c)) := by
  have x1 : Extends m m1 := by
    have := document_unchanged e (keeping_modest e he).changes_nothing n a m
    rwa [h1] at this
  have x2 : Extends m1 m2 := by
    have := document_unchanged e (keeping_modest e he).changes_nothing n a m1
    rwa [h2] at this
  have hk1 : m1.node a = .dict kvs := (x1.same a ha).trans hk
  have hk2 : m2.node a = .dict kvs := (x2.same a (Nat.lt_of_lt_of_le ha x1.next)).trans hk1
  obtain ⟨b1, cls1, at1, rfl, nb1, g1⟩ := context_shared e he n a m kvs hk _ hc v m1 h1
  have hb : b1 < m1.next := result_old e he n a m b1 m1 h1
  exact ⟨hk2, ⟨b1, cls1, at1, rfl, (x2.same b1 hb).trans nb1, g1⟩, context_shared e he n a m1 kvs hk1 _ hc w m2 h2⟩

/-! ## Concrete engines -/

mutual
/-- Values in memory as values of the tree model; objects have their attributes as fields. -/
def Means (m : Mem) : Val → Pv → Prop
  | .none, v => v = .none
  | .bool b, v => v = .bool b
  | .int i, v => v = .int i
  | .float n r, v => v = .float n r
  | .str s, v => v = .str s
  | .list xs, v => ∃ a ys, v = .ref a ∧ a < m.next ∧ m.node a = .list ys ∧ MeansAll m xs ys
  | .dict kvs, v => ∃ a ys, v = .ref a ∧ a < m.next ∧ m.node a = .dict ys ∧ MeansKeyed m kvs ys
  | .obj cls fs, v => ∃ a ys, v = .ref a ∧ a < m.next ∧ m.node a = .inst cls ys ∧ MeansFields m fs ys
  | .tuple xs, v => ∃ a ys, v = .ref a ∧ a < m.next ∧ m.node a = .tuple ys ∧ MeansAll m xs ys
  | .set xs, v => ∃ a ys, v = .ref a ∧ a < m.next ∧ m.node a = .set ys ∧ MeansAll m xs ys
  | .other c r, v => ∃ a, v = .ref a ∧ a < m.next ∧ m.node a = .other c r
  | .iter _ _, _ => False
/-- Lists. -/
def MeansAll (m : Mem) : List Val → List Pv → Prop
  | [], ys => ys = []
  | x :: xs, ys => ∃ y rest, ys = y :: rest ∧ Means m x y ∧ MeansAll m xs rest
/-- Dictionaries. -/
def MeansKeyed (m : Mem) : List (Key × Val) → PyDict String Pv → Prop
  | [], ys => ys = []
  | (k, x) :: xs, ys => ∃ s y rest, k = .str s ∧ ys = (s, y) :: rest ∧ Means m x y ∧ MeansKeyed m xs rest
/-- Attributes. -/
def MeansFields (m : Mem) : List (String × Val) → PyDict String Pv → Prop
  | [], ys => ys = []
  | (k, x) :: xs, ys => ∃ y rest, ys = (k, y) :: rest ∧ Means m x y ∧ MeansFields m xs rest
end

mutual
theorem Means.mono {m m' : Mem} (h : Extends m m') : ∀ t v, Means m t v → Means m' t v
  | .none, v, k => by rw [Means] at k ⊢; exact k
  | .bool b, v, k => by rw [Means] at k ⊢; exact k
  | .int i, v, k => by rw [Means] at k ⊢; exact k
  | .float n r, v, k => by rw [Means] at k ⊢; exact k
  | .str s, v, k => by rw [Means] at k ⊢; exact k
  | .list xs, v, k => by
    rw [Means] at k ⊢
    obtain ⟨a, ys, h1, h2, h3, h4⟩ := k
    exact ⟨a, ys, h1, Nat.lt_of_lt_of_le h2 h.next, (h.same a h2).trans h3, MeansAll.mono h xs ys h4⟩
  | .dict kvs, v, k => by
    rw [Means] at k ⊢
    obtain ⟨a, ys, h1, h2, h3, h4⟩ := k
    exact ⟨a, ys, h1, Nat.lt_of_lt_of_le h2 h.next, (h.same a h2).trans h3, MeansKeyed.mono h kvs ys h4⟩
  | .obj cls fs, v, k => by
    rw [Means] at k ⊢
    obtain ⟨a, ys, h1, h2, h3, h4⟩ := k
    exact ⟨a, ys, h1, Nat.lt_of_lt_of_le h2 h.next, (h.same a h2).trans h3, MeansFields.mono h fs ys h4⟩
  | .tuple xs, v, k => by
    rw [Means] at k ⊢
    obtain ⟨a, ys, h1, h2, h3, h4⟩ := k
    exact ⟨a, ys, h1, Nat.lt_of_lt_of_le h2 h.next, (h.same a h2).trans h3, MeansAll.mono h xs ys h4⟩
  | .set xs, v, k => by
    rw [Means] at k ⊢
    obtain ⟨a, ys, h1, h2, h3, h4⟩ := k
    exact ⟨a, ys, h1, Nat.lt_of_lt_of_le h2 h.next, (h.same a h2).trans h3, MeansAll.mono h xs ys h4⟩
  | .other c r, v, k => by
    rw [Means] at k ⊢
    obtain ⟨a, h1, h2, h3⟩ := k
    exact ⟨a, h1, Nat.lt_of_lt_of_le h2 h.next, (h.same a h2).trans h3⟩
  | .iter c xs, v, k => by rw [Means] at k; exact k.elim
theorem MeansAll.mono {m m' : Mem} (h : Extends m m') : ∀ t v, MeansAll m t v → MeansAll m' t v
  | [], v, k => by rw [MeansAll] at k ⊢; exact k
  | x :: xs, v, k => by
    rw [MeansAll] at k ⊢
    obtain ⟨y, rest, h1, h2, h3⟩ := k
    exact ⟨y, rest, h1, Means.mono h x y h2, MeansAll.mono h xs rest h3⟩
theorem MeansKeyed.mono {m m' : Mem} (h : Extends m m') : ∀ t v, MeansKeyed m t v → MeansKeyed m' t v
  | [], v, k => by rw [MeansKeyed] at k ⊢; exact k
  | (s, x) :: xs, v, k => by
    rw [MeansKeyed] at k ⊢
    obtain ⟨s', y, rest, h0, h1, h2, h3⟩ := k
    exact ⟨s', y, rest, h0, h1, Means.mono h x y h2, MeansKeyed.mono h xs rest h3⟩
theorem MeansFields.mono {m m' : Mem} (h : Extends m m') : ∀ t v, MeansFields m t v → MeansFields m' t v
  | [], v, k => by rw [MeansFields] at k ⊢; exact k
  | (s, x) :: xs, v, k => by
    rw [MeansFields] at k ⊢
    obtain ⟨y, rest, h1, h2, h3⟩ := k
    exact ⟨y, rest, h1, Means.mono h x y h2, MeansFields.mono h xs rest h3⟩
end

theorem meansAll_of (m : Mem) : ∀ xs ys, All (Means m) xs ys → MeansAll m xs ys := by
  intro xs
  induction xs with
  | nil => intro ys k; rw [MeansAll]; exact k
  | cons x xs ih =>
    rintro ys ⟨y, rest, h1, h2, h3⟩
    rw [MeansAll]
    exact ⟨y, rest, h1, h2, ih _ h3⟩

theorem meansKeyed_of (m : Mem) : ∀ (xs : PyDict String Val) ys, Pairs (Means m) xs ys → MeansKeyed m (xs.map fun p => (Key.str p.1, p.2)) ys := by
  intro xs
  induction xs with
  | nil => intro ys k; rw [List.map_nil, MeansKeyed]; exact k
  | cons x xs ih =>
    obtain ⟨k, x⟩ := x
    rintro ys ⟨y, rest, h1, h2, h3⟩
    rw [List.map_cons, MeansKeyed]
    exact ⟨k, y, rest, rfl, h1, h2, ih _ h3⟩

theorem meansFields_of (m : Mem) : ∀ (xs : PyDict String Val) ys, Pairs (Means m) xs ys → MeansFields m xs ys := by
  intro xs
  induction xs with
  | nil => intro ys k; rw [MeansFields]; exact k
  | cons x xs ih =>
    obtain ⟨k, x⟩ := x
    rintro ys ⟨y, rest, h1, h2, h3⟩
    rw [MeansFields]
    exact ⟨y, rest, h1, h2, ih _ h3⟩

theorem means_view : View Means where
  mono m m' x v h k := Means.mono h x v k
  none m := by rw [Means]
  bool m b := by rw [Means]
  int m i := by rw [Means]
  float m n r := by rw [Means]
  str m s := by rw [Means]
  list m xs ys a h1 h2 h3 := by rw [Means]; exact ⟨a, ys, rfl, h1, h2, meansAll_of m xs ys h3⟩
  dict m xs ys a h1 h2 h3 := by rw [Means]; exact ⟨a, ys, rfl, h1, h2, meansKeyed_of m xs ys h3⟩

/-- `expand` that goes by the key "type" only. -/
def sampleExpand : Option Tree → Outcome Expansion
  | some (.str s) => .ok (.typed [s])
  | some .null => .ok .untyped
  | none => .ok .untyped
  | _ => .error .jsonLd

/-- The same in memory. -/
def sampleExpandMem : Option Pv → Outcome Expansion
  | some (.str s) => .ok (.typed [s])
  | some .none => .ok .untyped
  | none => .ok .untyped
  | _ => .error .jsonLd

/-- A tree engine. -/
def treeSample : Engine where
  expand t := match t with
    | .obj kvs => sampleExpand (kvs.dget "type")
    | _ => .ok .empty
  registry := [("Note", "Note"), ("default", "Object")]
  props cls := if cls = "Note" then ["id", "tag", "inReplyTo"] else ["id"]
  construct cls args := .ok (.obj cls args)

/-- The engine in memory. -/
def memSample : MemEngine where
  expand m a := sampleExpandMem ((dictAt m a).dget "type")
  registry := treeSample.registry
  props := treeSample.props
  construct := keeping

/-- The hypotheses of (c) can be met. -/
theorem sample_agree : Agree Means treeSample memSample where
  registry := rfl
  props := rfl
  no_context cls := by
    show "@context" ∉ (if cls = "Note" then ["id", "tag", "inReplyTo"] else ["id"])
    split <;> decide
  expand m kvs a h := by
    rw [Denotes] at h
    obtain ⟨b, ps, hb, _, hn, hp⟩ := h
    cases hb
    rw [denotesPairs_iff] at hp
    show sampleExpandMem ((dictAt m a).dget "type") = sampleExpand (kvs.dget "type")
    rw [dictAt, hn]
    rcases hp.dget "type" with ⟨h1, h2⟩ | ⟨x, y, h1, h2, h3⟩
    · simp only [h1, h2]; rfl
    · simp only [h1, h2]
      cases x with
      | arr xs => rw [Denotes] at h3; obtain ⟨_, _, rfl, _⟩ := h3; rfl
      | obj xs => rw [Denotes] at h3; obtain ⟨_, _, rfl, _⟩ := h3; rfl
      | _ => rw [Denotes] at h3; subst h3; rfl
  construct cls args vs m h := by
    refine ⟨fun x hx => (nomatch hx), fun x hx => ?_⟩
    cases Except.ok.inj hx
    refine ⟨.ref m.next, rfl, ?_⟩
    rw [Means]
    exact ⟨m.next, vs, rfl, Nat.lt_succ_self _, alloc_node _ _,
      meansFields_of _ _ _ (Pairs.imp (fun x v => Means.mono (extends_alloc _ _) x v) _ _ h)⟩
  changes_nothing := (keeping_modest memSample rfl).changes_nothing

/-- A memory with a document: a note with a context of its own, a list as tag, and a note it replies to, which has no context. -/
def sampleMem : Mem where
  node
    | 0 => .dict [("@context", .ref 1), ("type", .str "Note"), ("tag", .ref 2), ("inReplyTo", .ref 3)]
    | 1 => .dict [("as", .str "https://www.w3.org/ns/activitystreams#")]
    | 2 => .list [.str "a", .ref 4]
    | 3 => .dict [("type", .str "Note"), ("id", .int 7)]
    | 4 => .dict [("x", .bool true)]
    | _ => .list []
  next := 5

/-- The document as a tree. -/
def sampleTree : List (String × Tree) :=
  [("@context", .obj [("as", .str "https://www.w3.org/ns/activitystreams#")]), ("type", .str "Note"),
    ("tag", .arr [.str "a", .obj [("x", .bool true)]]), ("inReplyTo", .obj [("type", .str "Note"), ("id", .int 7)])]

example : Closed sampleMem := by
  intro a ha b hb
  match a, ha with
  | 0, _ => simp [sampleMem, refs] at hb; show b < 5; omega
  | 1, _ => simp [sampleMem, refs] at hb
  | 2, _ => simp [sampleMem, refs] at hb; show b < 5; omega
  | 3, _ => simp [sampleMem, refs] at hb
  | 4, _ => simp [sampleMem, refs] at hb
  | n + 5, h => exact absurd h (by show ¬ n + 5 < 5; omega)

example : Denotes sampleMem (.obj sampleTree) (.ref 0) ∧ depth (.obj sampleTree) ≤ 3 := by
  refine ⟨?_, by decide⟩
  simp [sampleTree, sampleMem, Denotes, DenotesAll, DenotesPairs]

/-- Both notes have the same object as `acontext`, the context of the document. -/
example : ∃ v m' b attrs c more, memSample.fromJson 2 0 sampleMem = (.ok v, m') ∧ v = .ref b ∧ m'.node b = .inst "Note" attrs ∧
    attrs.dget "acontext" = some (.ref 1) ∧ attrs.dget "inReplyTo" = some (.ref c) ∧ m'.node c = .inst "Note" more ∧
    more.dget "acontext" = some (.ref 1) := by
  refine ⟨_, _, _, _, _, _, rfl, rfl, rfl, rfl, rfl, rfl, rfl⟩

/-- A document that is nested too deep for the interpreter. -/
example : (memSample.fromJson 1 0 sampleMem).1 = .error .tooDeep := by rfl

end Verif.Props.Mem
