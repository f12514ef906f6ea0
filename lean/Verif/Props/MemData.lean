import Verif.Jsonld.MemData
import Verif.Props.Mem

/-!
# C135: what data() makes is new
-/
namespace Verif.Props.MemData
open Verif Verif.Jsonld Verif.Jsonld.MemEngine Verif.Props.Mem

/-! ## Nothing is changed -/

theorem dataWith_extends {h : Pv → Act Pv} (hx : ∀ v m, Extends m (h v m).2) (a : DataArgs) (rejected : Pv → Bool) (fs : PyDict String Pv) (m : Mem) :
    Extends m (dataWith h a rejected fs m).2 :=
  wrap_extends _ m _ (entries_extends hx _ m)

theorem handlerIn_extends (n : Nat) : ∀ v m, Extends m (handlerIn n v m).2 := by
  induction n with
  | zero => intro v m; cases v <;> exact Extends.refl m
  | succ n ih =>
    intro v m
    cases v with
    | ref a =>
      rw [handlerIn]
      split
      · exact wrap_extends _ m _ (items_extends ih _ m)
      · exact wrap_extends _ m _ (items_extends ih _ m)
      · exact wrap_extends _ m _ (items_extends ih _ m)
      · exact wrap_extends _ m _ (entries_extends ih _ m)
      · exact dataWith_extends ih _ _ _ m
      · exact Extends.refl m
    | _ => exact Extends.refl m

/-- **C135 (a).** `data` changes no object, list or dictionary, whether it returns or raises. -/
theorem data_changes_nothing (n : Nat) (a : DataArgs) (rejected : Mem → Pv → Bool) (o : Nat) (m : Mem) : Extends m (dataIn n a rejected o m).2 := by
  unfold dataIn
  split
  · exact dataWith_extends (handlerIn_extends n) a _ _ m
  · exact Extends.refl m

/-! ## The result is new -/

/-- The addresses from `k` on refer to such addresses only. -/
def NewOnly (k : Nat) (m : Mem) : Prop := ∀ a, k ≤ a → a < m.next → ∀ b, Pv.ref b ∈ refs (m.node a) → k ≤ b ∧ b < m.next

/-- A basic value or a new object. -/
def Fresh (k : Nat) (m : Mem) (v : Pv) : Prop := ∀ a, v = .ref a → k ≤ a ∧ a < m.next

/-- An action that gives new things. -/
def Renews (k : Nat) (act : Pv → Act Pv) : Prop :=
  ∀ v m r m', k ≤ m.next → NewOnly k m → act v m = (.ok r, m') → NewOnly k m' ∧ Fresh k m' r

theorem Fresh.mono {k : Nat} {m m' : Mem} (x : Extends m m') {v : Pv} (h : Fresh k m v) : Fresh k m' v := fun a ha =>
  ⟨(h a ha).1, Nat.lt_of_lt_of_le (h a ha).2 x.next⟩

theorem newOnly_alloc {k : Nat} {m : Mem} (hk : NewOnly k m) (x : Node) (hr : ∀ v ∈ refs x, Fresh k m v) : NewOnly k (m.alloc x) := by
  intro a ha hlt b hb
  by_cases hn : a = m.next
  · subst hn
    rw [alloc_node] at hb
    exact (hr _ hb).mono (extends_alloc m x) b rfl
  · have hlt' : a < m.next := by
      have : a < m.next + 1 := hlt
      omega
    rw [(extends_alloc m x).same a hlt'] at hb
    have := hk a ha hlt' b hb
    exact ⟨this.1, Nat.lt_succ_of_lt this.2⟩

theorem items_renews {k : Nat} {act : Pv → Act Pv} (hx : ∀ v m, Extends m (act v m).2) (h : Renews k act) :
    ∀ xs m rs m', k ≤ m.next → NewOnly k m → items act xs m = (.ok rs, m') → NewOnly k m' ∧ ∀ r ∈ rs, Fresh k m' r := by
  intro xs
  induction xs with
  | nil =>
    intro m rs m' _ hm heq
    rw [items] at heq
    obtain ⟨h1, h2⟩ := Prod.mk.inj heq
    cases Except.ok.inj h1
    subst h2
    exact ⟨hm, by simp⟩
  | cons x xs ih =>
    intro m rs m' hk hm heq
    rw [items] at heq
    cases hact : act x m with
    | mk o m1 =>
      rw [hact] at heq
      have hx1 := hx x m
      rw [hact] at hx1
      cases o with
      | error e => exact absurd (Prod.mk.inj heq).1 (by simp)
      | ok v =>
        simp only at heq
        obtain ⟨n1, f1⟩ := h x m v m1 hk hm hact
        have hx2 := items_extends hx xs m1
        cases hrest : items act xs m1 with
        | mk o2 m2 =>
          rw [hrest] at heq hx2
          cases o2 with
          | error e => exact absurd (Prod.mk.inj heq).1 (by simp)
          | ok vs =>
            obtain ⟨n2, f2⟩ := ih m1 vs m2 (Nat.le_trans hk hx1.next) n1 hrest
            obtain ⟨h1, h2⟩ := Prod.mk.inj heq
            cases Except.ok.inj h1
            subst h2
            refine ⟨n2, fun r hr => ?_⟩
            rcases List.mem_cons.1 hr with rfl | hr
            · exact f1.mono hx2
            · exact f2 r hr

theorem entries_renews {k : Nat} {act : Pv → Act Pv} (hx : ∀ v m, Extends m (act v m).2) (h : Renews k act) :
    ∀ (xs : PyDict String Pv) m rs m', k ≤ m.next → NewOnly k m → entries act xs m = (.ok rs, m') → NewOnly k m' ∧ ∀ r ∈ rs, Fresh k m' r.2 := by
  intro xs
  induction xs with
  | nil =>
    intro m rs m' _ hm heq
    rw [entries] at heq
    obtain ⟨h1, h2⟩ := Prod.mk.inj heq
    cases Except.ok.inj h1
    subst h2
    exact ⟨hm, by simp⟩
  | cons x xs ih =>
    obtain ⟨key, x⟩ := x
    intro m rs m' hk hm heq
    rw [entries] at heq
    cases hact : act x m with
    | mk o m1 =>
      rw [hact] at heq
      have hx1 := hx x m
      rw [hact] at hx1
      cases o with
      | error e => exact absurd (Prod.mk.inj heq).1 (by simp)
      | ok v =>
        simp only at heq
        obtain ⟨n1, f1⟩ := h x m v m1 hk hm hact
        have hx2 := entries_extends hx xs m1
        cases hrest : entries act xs m1 with
        | mk o2 m2 =>
          rw [hrest] at heq hx2
          cases o2 with
          | error e => exact absurd (Prod.mk.inj heq).1 (by simp)
          | ok vs =>
            obtain ⟨n2, f2⟩ := ih m1 vs m2 (Nat.le_trans hk hx1.next) n1 hrest
            obtain ⟨h1, h2⟩ := Prod.mk.inj heq
            cases Except.ok.inj h1
            subst h2
            refine ⟨n2, fun r hr => ?_⟩
            rcases List.mem_cons.1 hr with rfl | hr
            · exact f1.mono hx2
            · exact f2 r hr

theorem wrap_renews {α : Type} (f : α → Node) {k : Nat} {m : Mem} {o : Except Exc α × Mem} (hx : Extends m o.2) (hk : k ≤ m.next) {r : Pv} {m' : Mem}
    (h : ∀ v m1, o = (.ok v, m1) → NewOnly k m1 ∧ ∀ w ∈ refs (f v), Fresh k m1 w) (heq : wrap f o = (.ok r, m')) : NewOnly k m' ∧ Fresh k m' r := by
  obtain ⟨o, m1⟩ := o
  cases o with
  | error e => exact absurd (Prod.mk.inj heq).1 (by simp)
  | ok v =>
    obtain ⟨h1, h2⟩ := Prod.mk.inj heq
    cases Except.ok.inj h1
    subst h2
    obtain ⟨n1, f1⟩ := h v m1 rfl
    exact ⟨newOnly_alloc n1 _ f1, fun a ha => by cases ha; exact ⟨Nat.le_trans hk hx.next, Nat.lt_succ_self _⟩⟩

theorem dictOf_mem {kvs : List (String × Pv)} {p : String × Pv} (h : p ∈ dictOf kvs) : p ∈ kvs := by
  have key : ∀ (l : List (String × Pv)) (d : PyDict String Pv), p ∈ l.foldl (fun d q => d.dset q.1 q.2) d → p ∈ d ∨ p ∈ l := by
    intro l
    induction l with
    | nil => intro d hd; exact .inl hd
    | cons q l ih =>
      intro d hd
      rcases ih _ hd with h | h
      · have : p ∈ d ∨ p = (q.1, q.2) := dset_mem h
        rcases this with h | h
        · exact .inl h
        · exact .inr (by rw [h]; exact List.mem_cons_self ..)
      · exact .inr (List.mem_cons_of_mem _ h)
  rcases key kvs [] h with h | h
  · cases h
  · exact h

theorem dataWith_renews {k : Nat} {act : Pv → Act Pv} (hx : ∀ v m, Extends m (act v m).2) (h : Renews k act) (a : DataArgs) (rejected : Pv → Bool)
    (fs : PyDict String Pv) {m : Mem} (hk : k ≤ m.next) (hm : NewOnly k m) {r : Pv} {m' : Mem} (heq : dataWith act a rejected fs m = (.ok r, m')) :
    NewOnly k m' ∧ Fresh k m' r := by
  refine wrap_renews (finish a) (entries_extends hx _ m) hk (fun v m1 ho => ?_) heq
  obtain ⟨n1, f1⟩ := entries_renews hx h _ m v m1 hk hm ho
  refine ⟨n1, fun w hw => ?_⟩
  obtain ⟨p, hp, rfl⟩ := List.mem_map.1 hw
  exact f1 p (dictOf_mem (List.mem_of_mem_filter hp))

theorem handlerIn_renews (k n : Nat) : Renews k (handlerIn n) := by
  have basic : ∀ {v r : Pv} {m m' : Mem}, (∀ a, v ≠ .ref a) → NewOnly k m → ((.ok v, m) : Except Exc Pv × Mem) = (.ok r, m') →
      NewOnly k m' ∧ Fresh k m' r := by
    intro v r m m' hv hm heq
    obtain ⟨h1, h2⟩ := Prod.mk.inj heq
    cases Except.ok.inj h1
    subst h2
    exact ⟨hm, fun a ha => absurd ha (hv a)⟩
  induction n with
  | zero =>
    intro v m r m' hk hm heq
    cases v with
    | ref a => exact absurd (Prod.mk.inj heq).1 (by simp)
    | _ => exact basic (fun a ha => by cases ha) hm heq
  | succ n ih =>
    intro v m r m' hk hm heq
    have hx := handlerIn_extends n
    have seq : ∀ {xs : List Pv}, wrap .list (items (handlerIn n) xs m) = (.ok r, m') → NewOnly k m' ∧ Fresh k m' r := fun {xs} he =>
      wrap_renews Node.list (items_extends hx _ m) hk (fun v m1 ho => items_renews hx ih xs m v m1 hk hm ho) he
    cases v with
    | ref a =>
      rw [handlerIn] at heq
      split at heq
      · exact seq heq
      · exact seq heq
      · exact seq heq
      · refine wrap_renews Node.dict (entries_extends hx _ m) hk (fun v m1 ho => ?_) heq
        obtain ⟨n1, f1⟩ := entries_renews hx ih _ m v m1 hk hm ho
        refine ⟨n1, fun w hw => ?_⟩
        obtain ⟨p, hp, rfl⟩ := List.mem_map.1 hw
        exact f1 p hp
      · exact dataWith_renews hx ih _ _ _ hk hm heq
      · exact basic (fun a ha => by cases ha) hm heq
    | _ => exact basic (fun a ha => by cases ha) hm heq

theorem inside_fresh {k : Nat} {m : Mem} (hm : NewOnly k m) {v w : Pv} (hv : Fresh k m v) (h : Inside m v w) : Fresh k m w := by
  induction h with
  | self => exact hv
  | step a w _ hw ih =>
    intro b hb
    subst hb
    exact hm a (ih a rfl).1 (ih a rfl).2 b hw

theorem dataIn_fresh (n : Nat) (a : DataArgs) (rejected : Mem → Pv → Bool) (o : Nat) (m : Mem) (v : Pv) (m' : Mem)
    (h : dataIn n a rejected o m = (.ok v, m')) : NewOnly m.next m' ∧ Fresh m.next m' v := by
  unfold dataIn at h
  split at h
  · exact dataWith_renews (handlerIn_extends n) (handlerIn_renews m.next n) a _ _ (Nat.le_refl _) (fun b h1 h2 => absurd h2 (by omega)) h
  · exact absurd (Prod.mk.inj h).1 (by simp)

/-- **C135 (b).** Everything in the result of `data`, at every depth, is new: it shares no list and no dictionary with the object or anything else that
existed. -/
theorem result_is_new (n : Nat) (a : DataArgs) (rejected : Mem → Pv → Bool) (o : Nat) (m : Mem) (v : Pv) (m' : Mem)
    (h : dataIn n a rejected o m = (.ok v, m')) (b : Nat) (hb : Inside m' v (.ref b)) : m.next ≤ b ∧ b < m'.next := by
  obtain ⟨h1, h2⟩ := dataIn_fresh n a rejected o m v m' h
  exact inside_fresh h1 h2 hb b rfl

/-- **C135 (c).** So changing anything in the result, at any depth, changes nothing that existed before the call; in particular another call gives the
same again. -/
theorem result_may_be_changed (n : Nat) (a : DataArgs) (rejected : Mem → Pv → Bool) (o : Nat) (m : Mem) (v : Pv) (m' : Mem)
    (h : dataIn n a rejected o m = (.ok v, m')) (b : Nat) (hb : Inside m' v (.ref b)) (x : Node) (c : Nat) (hc : c < m.next) :
    (m'.write b x).node c = m.node c := by
  have hnew := (result_is_new n a rejected o m v m' h b hb).1
  have hx := data_changes_nothing n a rejected o m
  rw [h] at hx
  have hne : c ≠ b := by omega
  exact (Function.update_of_ne hne ..).trans (hx.same c hc)

/-- The result is a dictionary. -/
theorem result_is_dict (n : Nat) (a : DataArgs) (rejected : Mem → Pv → Bool) (o : Nat) (m : Mem) (v : Pv) (m' : Mem)
    (h : dataIn n a rejected o m = (.ok v, m')) : ∃ b kvs, v = .ref b ∧ m'.node b = .dict kvs := by
  unfold dataIn at h
  split at h
  · unfold dataWith at h
    rename_i c fs _
    cases he : entries (handlerIn n) (pickedIn a (rejected m) fs) m with
    | mk out m1 =>
      rw [he] at h
      cases out with
      | error e => exact absurd (Prod.mk.inj h).1 (by simp)
      | ok kvs =>
        obtain ⟨h1, h2⟩ := Prod.mk.inj h
        cases Except.ok.inj h1
        subst h2
        exact ⟨m1.next, _, rfl, alloc_node ..⟩
  · exact absurd (Prod.mk.inj h).1 (by simp)

/-- **C135 (d).** The results of two calls have nothing in common. -/
theorem results_disjoint (n : Nat) (a a' : DataArgs) (rejected rejected' : Mem → Pv → Bool) (o o' : Nat) (m : Mem) (v w : Pv) (m1 m2 : Mem)
    (h1 : dataIn n a rejected o m = (.ok v, m1)) (h2 : dataIn n a' rejected' o' m1 = (.ok w, m2)) (b : Nat) :
    ¬ (Inside m2 v (.ref b) ∧ Inside m2 w (.ref b)) := by
  rintro ⟨hv, hw⟩
  have new := (result_is_new n a' rejected' o' m1 w m2 h2 b hw).1
  obtain ⟨hn, hf⟩ := dataIn_fresh n a rejected o m v m1 h1
  have hx := data_changes_nothing n a' rejected' o' m1
  rw [h2] at hx
  have old : ∀ u, Inside m2 v u → Fresh m.next m1 u := by
    intro u hu
    induction hu with
    | self => exact hf
    | step c u _ hmem ih =>
      intro d hd
      subst hd
      rw [hx.same c (ih c rfl).2] at hmem
      exact hn c (ih c rfl).1 (ih c rfl).2 d hmem
  have := (old _ hv b rfl).2
  omega

/-! ## The same contents as in the model on contents -/

mutual
/-- How deep values are nested. -/
def height : Val → Nat
  | .list xs => heightAll xs + 1
  | .tuple xs => heightAll xs + 1
  | .set xs => heightAll xs + 1
  | .dict kvs => heightKeyed kvs + 1
  | .obj _ fs => heightFields fs + 1
  | .iter _ xs => heightAll xs + 1
  | .other _ _ => 1
  | _ => 0
/-- The items of lists. -/
def heightAll : List Val → Nat
  | [] => 0
  | x :: xs => max (height x) (heightAll xs)
/-- The values of dictionaries. -/
def heightKeyed : List (Key × Val) → Nat
  | [] => 0
  | (_, x) :: xs => max (height x) (heightKeyed xs)
/-- The attributes of objects. -/
def heightFields : List (String × Val) → Nat
  | [] => 0
  | (_, x) :: xs => max (height x) (heightFields xs)
end

theorem heightAll_mem {x : Val} {xs : List Val} (h : x ∈ xs) : height x ≤ heightAll xs := by
  induction xs with
  | nil => cases h
  | cons y ys ih =>
    rw [heightAll]
    rcases List.mem_cons.1 h with rfl | h
    · exact Nat.le_max_left _ _
    · exact Nat.le_trans (ih h) (Nat.le_max_right _ _)

theorem heightKeyed_mem {p : Key × Val} {xs : List (Key × Val)} (h : p ∈ xs) : height p.2 ≤ heightKeyed xs := by
  induction xs with
  | nil => cases h
  | cons y ys ih =>
    obtain ⟨k, y⟩ := y
    rw [heightKeyed]
    rcases List.mem_cons.1 h with rfl | h
    · exact Nat.le_max_left _ _
    · exact Nat.le_trans (ih h) (Nat.le_max_right _ _)

theorem heightFields_mem {p : String × Val} {xs : List (String × Val)} (h : p ∈ xs) : height p.2 ≤ heightFields xs := by
  induction xs with
  | nil => cases h
  | cons y ys ih =>
    obtain ⟨k, y⟩ := y
    rw [heightFields]
    rcases List.mem_cons.1 h with rfl | h
    · exact Nat.le_max_left _ _
    · exact Nat.le_trans (ih h) (Nat.le_max_right _ _)

/-- The action gives a value with these contents. -/
def Gives (x : Val) (r : Except Exc Pv × Mem) : Prop := ∃ v, r.1 = .ok v ∧ Means r.2 x v

theorem items_gives {act : Pv → Act Pv} {f : Val → Val} (hx : ∀ v m, Extends m (act v m).2) :
    ∀ xs, (∀ x ∈ xs, ∀ m v, Means m x v → Gives (f x) (act v m)) → ∀ m ys, All (Means m) xs ys →
      ∃ vs, (items act ys m).1 = .ok vs ∧ All (Means (items act ys m).2) (xs.map f) vs := by
  intro xs
  induction xs with
  | nil =>
    intro _ m ys h
    cases h
    exact ⟨[], rfl, rfl⟩
  | cons x xs ih =>
    rintro hs m ys ⟨y, rest, rfl, h2, h3⟩
    obtain ⟨v, hv, hm⟩ := hs x (by simp) m y h2
    have hx1 := hx y m
    rw [items]
    cases hact : act y m with
    | mk o m1 =>
      rw [hact] at hv hm hx1
      simp only at hv
      subst hv
      obtain ⟨vs, hvs, hall⟩ := ih (fun z hz => hs z (by simp [hz])) m1 rest (All.imp (fun x v => Means.mono hx1 x v) _ _ h3)
      have hx2 := items_extends hx rest m1
      simp only
      cases hrest : items act rest m1 with
      | mk o2 m2 =>
        rw [hrest] at hvs hall hx2
        simp only at hvs
        subst hvs
        exact ⟨v :: vs, rfl, v, vs, rfl, Means.mono hx2 _ _ hm, hall⟩

theorem entries_gives {act : Pv → Act Pv} {f : Val → Val} (hx : ∀ v m, Extends m (act v m).2) :
    ∀ xs : PyDict String Val, (∀ x ∈ xs, ∀ m v, Means m x.2 v → Gives (f x.2) (act v m)) → ∀ m ys, Pairs (Means m) xs ys →
      ∃ vs, (entries act ys m).1 = .ok vs ∧ Pairs (Means (entries act ys m).2) (xs.map fun p => (p.1, f p.2)) vs := by
  intro xs
  induction xs with
  | nil =>
    intro _ m ys h
    cases h
    exact ⟨[], rfl, rfl⟩
  | cons x xs ih =>
    obtain ⟨k, x⟩ := x
    rintro hs m ys ⟨y, rest, rfl, h2, h3⟩
    obtain ⟨v, hv, hm⟩ := hs (k, x) (by simp) m y h2
    have hx1 := hx y m
    rw [entries]
    cases hact : act y m with
    | mk o m1 =>
      rw [hact] at hv hm hx1
      simp only at hv
      subst hv
      obtain ⟨vs, hvs, hall⟩ := ih (fun z hz => hs z (by simp [hz])) m1 rest (Pairs.imp (fun x v => Means.mono hx1 x v) _ _ h3)
      have hx2 := entries_extends hx rest m1
      simp only
      cases hrest : entries act rest m1 with
      | mk o2 m2 =>
        rw [hrest] at hvs hall hx2
        simp only at hvs
        subst hvs
        exact ⟨(k, v) :: vs, rfl, v, vs, rfl, Means.mono hx2 _ _ hm, hall⟩

theorem isNone_means {m : Mem} {x : Val} {v : Pv} (h : Means m x v) : (v != .none) = !x.isNone := by
  cases x with
  | none => rw [Means] at h; subst h; rfl
  | bool b => rw [Means] at h; subst h; rfl
  | int b => rw [Means] at h; subst h; rfl
  | float b r => rw [Means] at h; subst h; rfl
  | str b => rw [Means] at h; subst h; rfl
  | iter c xs => rw [Means] at h; exact h.elim
  | other c r => rw [Means] at h; obtain ⟨a, rfl, _⟩ := h; rfl
  | _ => rw [Means] at h; obtain ⟨a, ys, rfl, _⟩ := h; rfl

theorem pairs_filter {R : Val → Pv → Prop} {p : String × Val → Bool} {q : String × Pv → Bool} (hpq : ∀ k x v, R x v → p (k, x) = q (k, v)) :
    ∀ xs ys, Pairs R xs ys → Pairs R (xs.filter p) (ys.filter q) := by
  intro xs
  induction xs with
  | nil => intro ys h; cases h; rfl
  | cons x xs ih =>
    obtain ⟨k, x⟩ := x
    rintro ys ⟨y, rest, rfl, h2, h3⟩
    rw [List.filter_cons, List.filter_cons, hpq k x y h2]
    split
    · exact ⟨y, _, rfl, h2, ih rest h3⟩
    · exact ih rest h3

theorem pairs_rename {R : Val → Pv → Prop} (f : String → String) : ∀ xs ys, Pairs R xs ys →
    Pairs R (xs.map fun p => (f p.1, p.2)) (ys.map fun p => (f p.1, p.2)) := by
  intro xs
  induction xs with
  | nil => intro ys h; cases h; rfl
  | cons x xs ih =>
    obtain ⟨k, x⟩ := x
    rintro ys ⟨y, rest, rfl, h2, h3⟩
    exact ⟨y, _, rfl, h2, ih rest h3⟩

theorem pairs_dictOf {R : Val → Pv → Prop} {xs : PyDict String Val} {ys : PyDict String Pv} (h : Pairs R xs ys) : Pairs R (dictOf xs) (dictOf ys) := by
  have key : ∀ (xs : PyDict String Val) (ys : PyDict String Pv) d e, Pairs R xs ys → Pairs R d e →
      Pairs R (xs.foldl (fun d q => d.dset q.1 q.2) d) (ys.foldl (fun d q => d.dset q.1 q.2) e) := by
    intro xs
    induction xs with
    | nil => intro ys d e h hd; cases h; exact hd
    | cons x xs ih =>
      obtain ⟨k, x⟩ := x
      rintro ys d e ⟨y, rest, rfl, h2, h3⟩ hd
      exact ih rest _ _ h3 (hd.dset k h2)
  exact key xs ys [] [] h rfl

theorem dataWith_gives {act : Pv → Act Pv} (hx : ∀ v m, Extends m (act v m).2) (a : DataArgs) (rejected : Pv → Bool) (fs : PyDict String Val)
    (ps : PyDict String Pv) (m : Mem) (hs : ∀ x ∈ fs, ∀ m v, Means m x.2 v → Gives (handler x.2) (act v m)) (h : Pairs (Means m) fs ps)
    (hr : ∀ x v, Means m x v → a.rejected x = rejected v) :
    ∃ kvs, (dataWith act a rejected ps m).1 = .ok (.ref kvs) ∧ kvs < (dataWith act a rejected ps m).2.next ∧
      ∃ ys, (dataWith act a rejected ps m).2.node kvs = .dict ys ∧ Pairs (Means (dataWith act a rejected ps m).2) (data a fs) ys := by
  have hsel : Pairs (Means m) ((fs.filter fun pv => a.selects pv.1 pv.2).map fun pv => (a.newName pv.1, pv.2)) (pickedIn a rejected ps) := by
    refine pairs_rename a.newName _ _ (pairs_filter ?_ _ _ h)
    intro k x v hxv
    unfold DataArgs.selects picksIn
    rw [isNone_means hxv, hr x v hxv]
  obtain ⟨vs, hvs, hp⟩ := entries_gives (f := handler) hx _ (fun x hx m v hm => by
    obtain ⟨p, hp, rfl⟩ := List.mem_map.1 hx
    exact hs p (List.mem_of_mem_filter hp) m v hm) m _ hsel
  unfold dataWith
  cases he : entries act (pickedIn a rejected ps) m with
  | mk o m1 =>
    rw [he] at hvs hp
    simp only at hvs
    subst hvs
    refine ⟨m1.next, rfl, Nat.lt_succ_self _, _, alloc_node .., ?_⟩
    refine Pairs.imp (fun x v hh => Means.mono (extends_alloc m1 (finish a vs)) x v hh) _ _ ?_
    have hd : data a fs = (dictOf (((fs.filter fun pv => a.selects pv.1 pv.2).map fun pv => (a.newName pv.1, pv.2)).map
        fun p => (p.1, handler p.2))).filter fun kv => a.includeNone || !kv.2.isNone := by
      unfold data dataPairs
      rw [List.map_map]
      rfl
    rw [hd]
    exact pairs_filter (fun k x v hxv => by rw [isNone_means hxv]) _ _ (pairs_dictOf hp)

theorem fields_of_means (m : Mem) : ∀ (xs : PyDict String Val) ys, MeansFields m xs ys → Pairs (Means m) xs ys := by
  intro xs
  induction xs with
  | nil => intro ys k; rw [MeansFields] at k; exact k
  | cons x xs ih =>
    obtain ⟨key, x⟩ := x
    intro ys k
    rw [MeansFields] at k
    obtain ⟨y, rest, h1, h2, h3⟩ := k
    exact ⟨y, rest, h1, h2, ih _ h3⟩

theorem all_of_means (m : Mem) : ∀ xs ys, MeansAll m xs ys → All (Means m) xs ys := by
  intro xs
  induction xs with
  | nil => intro ys k; rw [MeansAll] at k; exact k
  | cons x xs ih =>
    intro ys k
    rw [MeansAll] at k
    obtain ⟨y, rest, h1, h2, h3⟩ := k
    exact ⟨y, rest, h1, h2, ih _ h3⟩

theorem pairs_of_means (m : Mem) : ∀ (xs : List (Key × Val)) ys, MeansKeyed m xs ys →
    ∃ zs : PyDict String Val, xs = zs.map (fun p => (Key.str p.1, p.2)) ∧ Pairs (Means m) zs ys := by
  intro xs
  induction xs with
  | nil => intro ys k; rw [MeansKeyed] at k; exact ⟨[], rfl, k⟩
  | cons x xs ih =>
    intro ys k
    obtain ⟨key, x⟩ := x
    rw [MeansKeyed] at k
    obtain ⟨s, y, rest, rfl, h1, h2, h3⟩ := k
    obtain ⟨zs, rfl, hz⟩ := ih rest h3
    exact ⟨(s, x) :: zs, rfl, y, rest, h1, h2, hz⟩

theorem handlerAll_map : ∀ xs, handlerAll xs = xs.map handler := by
  intro xs
  induction xs with
  | nil => rw [handlerAll]; rfl
  | cons x xs ih => rw [handlerAll, ih]; rfl

theorem handlerDict_map : ∀ zs : PyDict String Val, handlerDict (zs.map fun p => (Key.str p.1, p.2)) =
    (zs.map fun p => (p.1, handler p.2)).map fun p => (Key.str p.1, p.2) := by
  intro xs
  induction xs with
  | nil => rw [List.map_nil, handlerDict]; rfl
  | cons x xs ih => rw [List.map_cons, handlerDict, ih]; rfl

/-- What a nested object becomes, by `data`. -/
theorem handler_obj (c : String) (fs : PyDict String Val) : handler (.obj c fs) = .dict ((data nestedArgs fs).map fun p => (Key.str p.1, p.2)) := by
  have pairs : nestedPairs fs = (dataPairs nestedArgs fs).map fun p => (Key.str p.1, p.2) := by
    induction fs with
    | nil => rw [nestedPairs]; rfl
    | cons f fs ih =>
      obtain ⟨p, v⟩ := f
      rw [nestedPairs]
      unfold dataPairs
      rw [List.filter_cons]
      split
      · rw [ih]; rfl
      · rw [ih]; rfl
  have keyed : ∀ (l : List (String × Val)) (d : PyDict String Val),
      (l.map fun p => (Key.str p.1, p.2)).foldl (fun d q => d.dset q.1 q.2) (d.map fun p => (Key.str p.1, p.2)) =
        (l.foldl (fun d q => d.dset q.1 q.2) d).map fun p => (Key.str p.1, p.2) := by
    intro l
    induction l with
    | nil => intro d; rfl
    | cons q l ih =>
      intro d
      rw [List.map_cons, List.foldl_cons, List.foldl_cons, ← ih]
      congr 1
      induction d with
      | nil => rfl
      | cons e d ihd =>
        obtain ⟨k, v⟩ := e
        rw [List.map_cons, List.dset, List.dset]
        by_cases hk : k = q.1
        · subst hk; simp
        · rw [if_neg (by simpa using hk), if_neg (by simpa using hk), ihd]; rfl
  have hd : dictOf (nestedPairs fs) = (dictOf (dataPairs nestedArgs fs)).map fun p => (Key.str p.1, p.2) := by
    rw [pairs]
    exact keyed (dataPairs nestedArgs fs) []
  rw [handler, hd]
  congr 1
  unfold data
  rw [List.filter_map]
  rfl

theorem gives_dict {kvs : PyDict String Val} {r : Except Exc Pv × Mem} {b : Nat} {ys : PyDict String Pv} (h1 : r.1 = .ok (.ref b)) (h2 : b < r.2.next)
    (h3 : r.2.node b = .dict ys) (h4 : Pairs (Means r.2) kvs ys) : Gives (.dict (kvs.map fun p => (Key.str p.1, p.2))) r :=
  ⟨.ref b, h1, by rw [Means]; exact ⟨b, ys, rfl, h2, h3, meansKeyed_of _ _ _ h4⟩⟩

theorem wrap_gives_list {r : Except Exc (List Pv) × Mem} {xs : List Val} {vs : List Pv} (h : r.1 = .ok vs) (hall : All (Means r.2) xs vs) :
    Gives (.list xs) (wrap .list r) := by
  obtain ⟨o, m1⟩ := r
  simp only at h
  subst h
  refine ⟨.ref m1.next, rfl, ?_⟩
  rw [Means]
  exact ⟨m1.next, vs, rfl, Nat.lt_succ_self _, alloc_node .., meansAll_of _ _ _ (All.imp (fun x v => Means.mono (extends_alloc ..) x v) _ _ hall)⟩

theorem handler_gives (n : Nat) : ∀ x m v, height x ≤ n → Means m x v → Gives (handler x) (handlerIn n v m) := by
  have basic : ∀ {n : Nat} {x : Val} {v : Pv} {m : Mem} {w : Pv}, handlerIn n v m = (.ok w, m) → Means m (handler x) w → Gives (handler x) (handlerIn n v m) := by
    intro n x v m w h1 h2
    rw [h1]
    exact ⟨w, rfl, h2⟩
  have simple : ∀ (n : Nat) x m v, height x = 0 → Means m x v → Gives (handler x) (handlerIn n v m) := by
    intro n x m v h0 h
    cases x with
    | none => rw [Means] at h; subst h; exact basic (w := .str "None") (by cases n <;> rfl) (by rw [handler, Means])
    | bool b =>
      rw [Means] at h; subst h
      exact basic (w := .str (if b then "True" else "False")) (by cases n <;> rfl) (by rw [handler, Means])
    | int i => rw [Means] at h; subst h; exact basic (w := .int i) (by cases n <;> rfl) (by rw [handler, Means])
    | float b r => rw [Means] at h; subst h; exact basic (w := .float b r) (by cases n <;> rfl) (by rw [handler, Means])
    | str s => rw [Means] at h; subst h; exact basic (w := .str s) (by cases n <;> rfl) (by rw [handler, Means])
    | _ => rw [height] at h0; omega
  induction n with
  | zero => intro x m v hd h; exact simple 0 x m v (by omega) h
  | succ n ih =>
    intro x m v hd h
    have hx := handlerIn_extends n
    cases x with
    | list xs =>
      rw [Means] at h
      obtain ⟨a, ys, rfl, ha, hn, hall⟩ := h
      rw [height] at hd
      rw [handlerIn, hn, handler, handlerAll_map]
      obtain ⟨vs, h1, h2⟩ := items_gives (f := handler) hx xs (fun x hm m v hr => ih x m v (by have := heightAll_mem hm; omega) hr) m ys
        (all_of_means m xs ys hall)
      exact wrap_gives_list h1 h2
    | tuple xs =>
      rw [Means] at h
      obtain ⟨a, ys, rfl, ha, hn, hall⟩ := h
      rw [height] at hd
      rw [handlerIn, hn, handler, handlerAll_map]
      obtain ⟨vs, h1, h2⟩ := items_gives (f := handler) hx xs (fun x hm m v hr => ih x m v (by have := heightAll_mem hm; omega) hr) m ys
        (all_of_means m xs ys hall)
      exact wrap_gives_list h1 h2
    | set xs =>
      rw [Means] at h
      obtain ⟨a, ys, rfl, ha, hn, hall⟩ := h
      rw [height] at hd
      rw [handlerIn, hn, handler, handlerAll_map]
      obtain ⟨vs, h1, h2⟩ := items_gives (f := handler) hx xs (fun x hm m v hr => ih x m v (by have := heightAll_mem hm; omega) hr) m ys
        (all_of_means m xs ys hall)
      exact wrap_gives_list h1 h2
    | dict kvs =>
      rw [Means] at h
      obtain ⟨a, ys, rfl, ha, hn, hall⟩ := h
      obtain ⟨zs, rfl, hz⟩ := pairs_of_means m kvs ys hall
      rw [height] at hd
      rw [handlerIn, hn, handler, handlerDict_map]
      obtain ⟨vs, h1, h2⟩ := entries_gives (f := handler) hx zs (fun x hm m v hr => ih x.2 m v (by
        have := heightKeyed_mem (List.mem_map.2 ⟨x, hm, rfl⟩ : (Key.str x.1, x.2) ∈ zs.map fun p => (Key.str p.1, p.2)); simp only at this; omega) hr) m ys hz
      simp only
      cases he : entries (handlerIn n) ys m with
      | mk o m1 =>
        rw [he] at h1 h2
        simp only at h1
        subst h1
        exact gives_dict (b := m1.next) rfl (Nat.lt_succ_self _) (alloc_node ..) (Pairs.imp (fun x v => Means.mono (extends_alloc ..) x v) _ _ h2)
    | obj c fs =>
      rw [Means] at h
      obtain ⟨a, ys, rfl, ha, hn, hall⟩ := h
      rw [height] at hd
      rw [handlerIn, hn, handler_obj]
      obtain ⟨b, h1, h2, zs, h3, h4⟩ := dataWith_gives hx nestedArgs (fun _ => false) fs ys m
        (fun x hm m v hr => ih x.2 m v (by have := heightFields_mem hm; omega) hr) (fields_of_means m fs ys hall) (fun _ _ _ => rfl)
      exact gives_dict h1 h2 h3 h4
    | other c r =>
      rw [Means] at h
      obtain ⟨a, rfl, ha, hn⟩ := h
      rw [handlerIn, hn, handler]
      exact ⟨.str r, rfl, by rw [Means]⟩
    | iter c xs => rw [Means] at h; exact h.elim
    | _ => exact simple (n + 1) _ m v rfl h

/-- **C135 (e).** The result has the contents that the model on contents gives, if calls may get as deep as the values are nested. -/
theorem same_contents (n : Nat) (a : DataArgs) (rejected : Mem → Pv → Bool) (cls : String) (fs : PyDict String Val) (o : Nat) (m : Mem)
    (h : Means m (.obj cls fs) (.ref o)) (hd : heightFields fs ≤ n) (hr : ∀ x v, Means m x v → a.rejected x = rejected m v) :
    ∃ v m', dataIn n a rejected o m = (.ok v, m') ∧ Means m' (.dict ((data a fs).map fun p => (Key.str p.1, p.2))) v := by
  rw [Means] at h
  obtain ⟨a', ys, he, ha, hn, hall⟩ := h
  cases he
  obtain ⟨b, h1, h2, zs, h3, h4⟩ := dataWith_gives (handlerIn_extends n) a (rejected m) fs ys m
    (fun x hm m v hr => handler_gives n x.2 m v (by have := heightFields_mem hm; omega) hr) (fields_of_means m fs ys hall) hr
  obtain ⟨v, hv, hm⟩ := gives_dict h1 h2 h3 h4
  refine ⟨v, _, ?_, hm⟩
  unfold dataIn
  rw [hn]
  exact Prod.ext hv rfl

/-! ## A concrete case -/

/-- An object whose context is a list and which has another object as a property. -/
def outMem : Mem where
  node
    | 0 => .inst "Note" [("acontext", .ref 1), ("tag", .ref 2), ("inReplyTo", .ref 3), ("name", .none)]
    | 1 => .list [.str "https://www.w3.org/ns/activitystreams#", .ref 4]
    | 2 => .list [.str "a", .ref 4]
    | 3 => .inst "Note" [("acontext", .ref 1), ("content", .str "c")]
    | 4 => .dict [("x", .bool true)]
    | _ => .list []
  next := 5

/-- Its data: the same dictionary appears twice in the object, but not in the result. -/
example : (dataIn 4 {} (fun _ _ => false) 0 outMem).1 = .ok (.ref 10) ∧
    (dataIn 4 {} (fun _ _ => false) 0 outMem).2.node 10 = .dict [("@context", .ref 6), ("tag", .ref 8), ("inReplyTo", .ref 9)] ∧
    (dataIn 4 {} (fun _ _ => false) 0 outMem).2.node 6 = .list [.str "https://www.w3.org/ns/activitystreams#", .ref 5] ∧
    (dataIn 4 {} (fun _ _ => false) 0 outMem).2.node 8 = .list [.str "a", .ref 7] ∧
    (dataIn 4 {} (fun _ _ => false) 0 outMem).2.node 9 = .dict [("content", .str "c")] ∧
    (dataIn 4 {} (fun _ _ => false) 0 outMem).2.node 7 = .dict [("x", .str "True")] := by decide +kernel

/-- Something inside the result. -/
example : Inside (dataIn 4 {} (fun _ _ => false) 0 outMem).2 (.ref 10) (.ref 7) := by
  refine .step 8 _ (.step 10 _ .self ?_) ?_ <;> decide +kernel

end Verif.Props.MemData
