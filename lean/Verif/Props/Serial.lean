import Verif.Props.ConcurrentStrict
import Verif.Props.Blocks

/-!
# Transactions that do not overlap (C103, C104, C110)
-/
namespace Verif.Props
open Verif Verif.Storage Verif.Spec Verif.Db
variable {V : Type}

/-! ### Specification -/

/-- What a session does in a transaction. -/
inductive TxCall (V : Type) where
  | call (op : DbOp V)
  | resize (capacity maxCollectionSize : Nat) (condense transfer : Bool)

/-- One call by the only user of a container. -/
def TxCall.on [Truthy V] (c : Container V) : TxCall V → Container V
  | .call op => (op.fn c).2
  | .resize n mc cd t => (c.resize n mc cd t).2

/-- Calls by the only user of a container, one after the other. -/
def execAll [Truthy V] (c : Container V) (calls : List (TxCall V)) : Container V := calls.foldl TxCall.on c

/-- A transaction: the calls whose effects were stored when it began, its own calls, and whether its commit has failed. -/
structure TrailTx (V : Type) where
  seen : List (TxCall V)
  own : List (TxCall V) := []
  broken : Bool := false

/-- The calls of the committed transactions, in the order of the commits, and one transaction per session. -/
structure Trail (V : Type) where
  done : List (TxCall V)
  tx : Nat → TrailTx V

namespace Trail

/-- All transactions begin. -/
def opened : Trail V := { done := [], tx := fun _ => { seen := [] } }

/-- A transaction begins. -/
def fresh (t : Trail V) (i : Nat) : Trail V := { t with tx := Function.update t.tx i { seen := t.done } }

/-- The session makes a call. -/
def more (t : Trail V) (i : Nat) (c : TxCall V) : Trail V := { t with tx := Function.update t.tx i { t.tx i with own := (t.tx i).own ++ [c] } }

/-- The session commits. -/
def commit (t : Trail V) (i : Nat) : Trail V :=
  { done := t.done ++ (t.tx i).own, tx := Function.update t.tx i { seen := t.done ++ (t.tx i).own } }

/-- The storage refuses the commit. -/
def fail (t : Trail V) (i : Nat) : Trail V := { t with tx := Function.update t.tx i { seen := (t.tx i).seen, broken := true } }

/-- Book-keeping of the calls. -/
def move (t : Trail V) (i : Nat) : Move V → Trail V
  | .begin => t.fresh i
  | .abort => t.fresh i
  | .run op => if (t.tx i).broken then t else t.more i (.call op)
  | .resize n mc cd tr => if (t.tx i).broken then t else t.more i (.resize n mc cd tr)
  | .commit ok => if (t.tx i).broken then t else if ok then t.commit i else t.fail i

/-- What session `i` sees if all committed transactions and its own one are executed one after the other by the only user of a container. -/
def sees [Truthy V] (t : Trail V) (c0 : Container V) (i : Nat) : Container V := execAll c0 ((t.tx i).seen ++ (t.tx i).own)

/-- The answers of the only user's calls; commits are refused by the storage only. -/
def Answers [Truthy V] (t : Trail V) (c0 : Container V) (i : Nat) (m : Move V) (r : Outcome (DbRet V)) : Prop :=
  match m with
  | .begin => r = .ok .unit
  | .abort => r = .ok .unit
  | .run op => r = if (t.tx i).broken then .error .transactionFailed else (op.fn (t.sees c0 i)).1
  | .resize n mc cd tr => r = if (t.tx i).broken then .error .transactionFailed else ((t.sees c0 i).resize n mc cd tr).1.map fun _ => .unit
  | .commit ok => r = if (t.tx i).broken then .error .transactionFailed else if ok then .ok .unit else .error .storageError

def moves (t : Trail V) : List (Nat × Move V) → Trail V
  | [] => t
  | (i, m) :: ms => (t.move i m).moves ms

end Trail

/-- No transaction is committed if another one was committed since it began.  `stale`: the sessions for which this has happened. -/
def Apart : (Nat → Bool) → List (Nat × Move V) → Prop
  | _, [] => True
  | stale, (i, .begin) :: ms => Apart (Function.update stale i false) ms
  | stale, (i, .abort) :: ms => Apart (Function.update stale i false) ms
  | stale, (i, .commit true) :: ms => stale i = false ∧ Apart (fun j => decide (j ≠ i)) ms
  | stale, _ :: ms => Apart stale ms

/-- The database is that of the serial execution. -/
structure InStep [Truthy V] (c0 : Container V) (w : Shared V) (t : Trail V) : Prop where
  stored : w.disk = execAll c0 t.done
  sees : ∀ i, (w.sess i).work = t.sees c0 i

/-- The calls one after the other on a map: resizing changes nothing. -/
def Map.after (m : Map V) : List (TxCall V) → Map V
  | [] => m
  | .call op :: calls => Map.after ((m.apply op).getD m) calls
  | .resize _ _ _ _ :: calls => Map.after m calls

/-- So at every step, and the answers are those of the serial execution. -/
def Serially [Truthy V] [DecidableEq V] (c0 : Container V) : List (Nat × Move V) → Shared V → Trail V → Prop
  | [], w, t => InStep c0 w t
  | (i, m) :: ms, w, t => InStep c0 w t ∧ t.Answers c0 i m (w.move i m).1 ∧ Serially c0 ms (w.move i m).2 (t.move i m)

/-! ### Proofs: what calls leave alone -/

/-- The same collection with other items. -/
structure Kin (x y : Collection V) : Prop where
  uuid : y.uuid = x.uuid
  max : y.maxSize = x.maxSize
  sorted : x.Sorted → y.Sorted

theorem Kin.refl (x : Collection V) : Kin x x := ⟨rfl, rfl, id⟩
theorem Kin.trans {x y z : Collection V} (h : Kin x y) (h' : Kin y z) : Kin x z :=
  ⟨h'.uuid.trans h.uuid, h'.max.trans h.max, fun s => h'.sorted (h.sorted s)⟩

/-- The same group with other items. -/
def GKin (g h : CGroup V) : Prop := List.Forall₂ Kin g.collections h.collections

theorem GKin.refl (g : CGroup V) : GKin g g := List.forall₂_same.2 fun x _ => Kin.refl x

theorem forall2_trans {l m n : List (Collection V)} (h : List.Forall₂ Kin l m) (h' : List.Forall₂ Kin m n) : List.Forall₂ Kin l n := by
  induction h generalizing n with
  | nil => exact h'
  | cons hx _ ih =>
    cases h' with
    | cons hy h' => exact .cons (hx.trans hy) (ih h')

theorem GKin.trans {g h k : CGroup V} (h1 : GKin g h) (h2 : GKin h k) : GKin g k := forall2_trans h1 h2

theorem forall2_set {l : List (Collection V)} {i : Nat} {x y : Collection V} (hx : l[i]? = some x) (h : Kin x y) : List.Forall₂ Kin l (l.set i y) := by
  induction l generalizing i with
  | nil => simp at hx
  | cons z l ih =>
    cases i with
    | zero =>
      simp only [List.getElem?_cons_zero, Option.some.injEq] at hx
      subst hx
      exact .cons h (List.forall₂_same.2 fun x _ => Kin.refl x)
    | succ i => exact .cons (Kin.refl z) (ih hx)

theorem kin_route {α : Type} (g : CGroup V) (k : String) (fn : Collection V → Outcome α × Collection V) (h : ∀ x, Kin x (fn x).2) :
    GKin g (g.route k fn).2 := by
  unfold CGroup.route
  split
  · exact GKin.refl g
  · split
    · exact GKin.refl g
    · rename_i hx
      exact forall2_set hx (h _)

theorem kin_insert (c : Collection V) (k : String) (v : V) : Kin c (c.insert k v).2 := by
  refine ⟨?_, ?_, fun h => Collection.insert_sorted h k v⟩ <;> (unfold Collection.insert; split_ifs <;> rfl)

theorem kin_update (c : Collection V) (d : List (String × V)) : Kin c (c.update d).2 := by
  refine ⟨?_, ?_, fun h => Collection.update_sorted h d⟩ <;> (unfold Collection.update; simp only; split_ifs <;> rfl)

theorem kin_pop (c : Collection V) (k : String) (d : Option V) : Kin c (c.pop k d).2 := by
  refine ⟨?_, ?_, fun h => Collection.pop_sorted h k d⟩ <;> (unfold Collection.pop; split <;> rfl)

theorem gkin_insert (g : CGroup V) (k : String) (v : V) : GKin g (g.insert k v).2 := by
  unfold CGroup.insert
  split
  · exact GKin.refl g
  · split_ifs
    · exact GKin.refl g
    · exact kin_route g k _ fun x => kin_insert x k v

theorem gkin_pop (g : CGroup V) (k : String) (d : Option V) : GKin g (g.pop k d).2 := kin_route g k _ fun x => kin_pop x k d

theorem kin_updateLoop (n : Nat) (d : List (String × V)) (cs : List (Collection V)) : ∀ i, List.Forall₂ Kin cs (CGroup.updateLoop n d i cs).2 := by
  induction cs with
  | nil => intro i; exact .nil
  | cons c cs ih =>
    intro i
    unfold CGroup.updateLoop
    simp only
    split_ifs
    · exact .cons (Kin.refl c) (ih _)
    · have hk := kin_update c (d.filter fun p => hashId p.1 % n = i)
      split
      · rename_i heq
        rw [heq] at hk
        exact .cons hk (List.forall₂_same.2 fun x _ => Kin.refl x)
      · rename_i heq
        rw [heq] at hk
        exact .cons hk (ih _)

theorem gkin_update (g : CGroup V) (d : List (String × V)) : GKin g (g.update d).2 := by
  unfold CGroup.update
  simp only
  split_ifs
  · exact GKin.refl g
  · exact GKin.refl g
  · exact kin_updateLoop _ _ _ _

theorem gkin_setStrict (g : CGroup V) (b : Option Bool) : GKin g (g.setStrict b).2 := by
  cases b with
  | none => exact GKin.refl g
  | some b =>
    show List.Forall₂ Kin g.collections (g.collections.map fun c => { c with strict := b })
    rw [List.forall₂_map_right_iff, List.forall₂_same]
    exact fun x _ => ⟨rfl, rfl, id⟩

/-- All trees are sorted and all groups have been allocated. -/
structure Tidy (c : Container V) : Prop where
  sorted : ∀ a, ∀ x ∈ (c.heap a).collections, x.Sorted
  groups : ∀ a ∈ c.groups, a < c.next
  primary : c.primary < c.next

/-- `w` has the groups of `b` with other items, and maybe new ones. -/
structure From (b w : Container V) : Prop where
  kin : ∀ a < b.next, GKin (b.heap a) (w.heap a)
  next : b.next ≤ w.next
  above : w.next = b.next → ∀ a, b.next ≤ a → w.heap a = b.heap a

theorem From.refl (b : Container V) : From b b := ⟨fun _ _ => GKin.refl _, le_rfl, fun _ _ _ => rfl⟩

theorem From.trans {b w x : Container V} (h : From b w) (h' : From w x) : From b x := by
  refine ⟨fun a ha => (h.kin a ha).trans (h'.kin a (lt_of_lt_of_le ha h.next)), h.next.trans h'.next, fun e a ha => ?_⟩
  have e1 : w.next = b.next := le_antisymm (by rw [← e]; exact h'.next) h.next
  rw [h'.above (e.trans e1.symm) a (by rw [e1]; exact ha), h.above e1 a ha]

/-- A step of a tidy container. -/
def Goes (c d : Container V) : Prop := Tidy c → Tidy d ∧ From c d

theorem Goes.refl (c : Container V) : Goes c c := fun h => ⟨h, From.refl c⟩

theorem Goes.trans {c d e : Container V} (h : Goes c d) (h' : Goes d e) : Goes c e := fun hc =>
  ⟨(h' (h hc).1).1, (h hc).2.trans (h' (h hc).1).2⟩

theorem GKin.sorted {g h : CGroup V} (hk : GKin g h) (hs : ∀ x ∈ g.collections, x.Sorted) : ∀ x ∈ h.collections, x.Sorted := by
  unfold GKin at hk
  generalize g.collections = l at hk hs
  generalize h.collections = m at hk
  induction hk with
  | nil => intro x hx; simp at hx
  | cons hx _ ih =>
    intro y hy
    rcases List.mem_cons.1 hy with rfl | hy
    · exact hx.sorted (hs _ List.mem_cons_self)
    · exact ih (fun z hz => hs z (List.mem_cons_of_mem _ hz)) y hy

theorem goes_put {c : Container V} {a : Nat} {g : CGroup V} (ha : a < c.next) (hk : GKin (c.heap a) g) : Goes c (c.put a g) := by
  intro h
  refine ⟨⟨fun b x hx => ?_, h.groups, h.primary⟩, ⟨fun b _ => ?_, le_rfl, fun _ b hb => ?_⟩⟩
  · by_cases hb : b = a
    · subst hb; rw [Container.heap_put_self] at hx; exact hk.sorted (h.sorted b) x hx
    · rw [Container.heap_put_ne _ _ hb] at hx; exact h.sorted b x hx
  · by_cases hb : b = a
    · subst hb; rw [Container.heap_put_self]; exact hk
    · rw [Container.heap_put_ne _ _ hb]; exact GKin.refl _
  · have hb' : c.next ≤ b := hb
    rw [Container.heap_put_ne _ _ (by omega)]

theorem goes_putPrimary {c : Container V} {g : CGroup V} (hk : GKin (c.heap c.primary) g) : Goes c (c.put c.primary g) := fun h =>
  goes_put h.primary hk h

theorem goes_write (c : Container V) (k : String) (v : V) : Goes c (c.write k v).2 := by
  have h1 := gkin_insert (c.heap c.primary) k v
  unfold Container.write
  split
  · rename_i heq; rw [heq] at h1; exact goes_putPrimary h1
  · rename_i heq; rw [heq] at h1; exact goes_putPrimary h1
  · rename_i g heq
    rw [heq] at h1
    have h2 := gkin_update g [(k, v)]
    split
    · rename_i heq'; rw [heq'] at h2; exact goes_putPrimary (h1.trans h2)
    · rename_i heq'; rw [heq'] at h2; exact goes_putPrimary (h1.trans h2)

theorem goes_deleteLoop (k : String) (as : List Nat) : ∀ c : Container V, (∀ a ∈ as, a < c.next) → Goes c (Container.deleteLoop k as c).2 := by
  induction as with
  | nil => intro c _; exact Goes.refl c
  | cons a as ih =>
    intro c ha
    have has : ∀ x ∈ as, x < c.next := fun x hx => ha x (List.mem_cons_of_mem _ hx)
    unfold Container.deleteLoop
    split
    · exact Goes.refl c
    · exact ih c has
    · have h1 := gkin_pop (c.heap a) k none
      split
      · rename_i heq; rw [heq] at h1; exact goes_put (ha a List.mem_cons_self) h1
      · rename_i v g heq
        rw [heq] at h1
        have h2 := ih (c.put a g) has
        have h3 := goes_put (c := c) (ha a List.mem_cons_self) h1
        split
        · rename_i heq'; rw [heq'] at h2; exact h3.trans h2
        · rename_i heq'; rw [heq'] at h2; exact h3.trans h2

theorem goes_delete (c : Container V) (k : String) : Goes c (c.delete k).2 := fun h => goes_deleteLoop k c.groups c h.groups h

theorem goes_setStrict (c : Container V) (b : Option Bool) : Goes c (c.setStrict b).2 := by
  cases b with
  | none => exact Goes.refl c
  | some b => exact goes_putPrimary (gkin_setStrict _ _)

theorem goes_insertPrimary (c : Container V) (k : String) (v : V) : Goes c (c.insertPrimary k v).2 := goes_putPrimary (gkin_insert _ _ _)

theorem goes_moveKey (t : Bool) (a : Nat) (k : String) (c : Container V) (ha : a < c.next) : Goes c (Container.moveKey t a k c).2 := by
  unfold Container.moveKey
  split_ifs
  · have h1 := gkin_pop (c.heap a) k none
    split
    · rename_i heq; rw [heq] at h1; exact goes_put ha h1
    · rename_i heq; rw [heq] at h1; exact (goes_put ha h1).trans (goes_insertPrimary _ _ _)
  · split
    · exact Goes.refl c
    · exact Goes.refl c
    · exact goes_insertPrimary _ _ _

theorem goes_moveKeys (t : Bool) (a : Nat) (ks : List String) : ∀ c : Container V, Tidy c → a < c.next →
    Tidy (Container.moveKeys t a ks c).2 ∧ From c (Container.moveKeys t a ks c).2 := by
  induction ks with
  | nil => intro c h _; exact Goes.refl c h
  | cons k ks ih =>
    intro c h ha
    obtain ⟨h1, h2⟩ := goes_moveKey t a k c ha h
    unfold Container.moveKeys
    split
    · rename_i heq; rw [heq] at h1 h2; exact ⟨h1, h2⟩
    · rename_i heq
      rw [heq] at h1 h2
      obtain ⟨h3, h4⟩ := ih _ h1 (lt_of_lt_of_le ha h2.next)
      exact ⟨h3, h2.trans h4⟩

theorem goes_moveGroups (t : Bool) (as : List Nat) : ∀ c : Container V, Tidy c → (∀ a ∈ as, a < c.next) →
    Tidy (Container.moveGroups t as c).2 ∧ From c (Container.moveGroups t as c).2 := by
  induction as with
  | nil => intro c h _; exact Goes.refl c h
  | cons a as ih =>
    intro c h ha
    obtain ⟨h1, h2⟩ := goes_moveKeys t a (c.heap a).keys c h (ha a List.mem_cons_self)
    unfold Container.moveGroups
    split
    · rename_i heq; rw [heq] at h1 h2; exact ⟨h1, h2⟩
    · rename_i heq
      rw [heq] at h1 h2
      obtain ⟨h3, h4⟩ := ih _ h1 fun x hx => lt_of_lt_of_le (ha x (List.mem_cons_of_mem _ hx)) h2.next
      exact ⟨h3, h2.trans h4⟩

theorem goes_withGroups (c : Container V) (gs : List Nat) (h : ∀ a ∈ gs, a ∈ c.groups) : Goes c (c.withGroups gs) := fun hc =>
  ⟨⟨hc.sorted, fun a ha => hc.groups a (h a ha), hc.primary⟩, ⟨fun _ _ => GKin.refl _, le_rfl, fun _ _ _ => rfl⟩⟩

theorem goes_condense (c : Container V) (t : Bool) : Goes c (c.condense t).2 := by
  intro h
  obtain ⟨h1, h2⟩ := goes_moveGroups t c.groups.tail c h fun a ha => h.groups a (List.mem_of_mem_tail ha)
  unfold Container.condense
  split
  · rename_i heq; rw [heq] at h1 h2; exact ⟨h1, h2⟩
  · rename_i c' heq
    rw [heq] at h1 h2
    split_ifs
    · unfold Container.dropSources
      split
      · exact ⟨h1, h2⟩
      · rename_i a as hg
        obtain ⟨h3, h4⟩ := goes_withGroups c' [a] (by rw [hg]; simp) h1
        exact ⟨h3, h2.trans h4⟩
    · exact ⟨h1, h2⟩

theorem goes_pushPrimary (c : Container V) {g : CGroup V} (hg : g.Inv) : Goes c (c.pushPrimary g) := by
  intro h
  refine ⟨⟨fun a x hx => ?_, fun a ha => ?_, Nat.lt_succ_self _⟩, ⟨fun a ha => ?_, Nat.le_succ _, fun e => absurd e (by simp [Container.pushPrimary])⟩⟩
  · by_cases ha : a = c.next
    · subst ha
      simp only [Container.pushPrimary, Function.update_self] at hx
      exact hg.sorted x hx
    · simp only [Container.pushPrimary, Function.update_of_ne ha] at hx
      exact h.sorted a x hx
  · rcases List.mem_cons.1 ha with rfl | ha
    · exact Nat.lt_succ_self _
    · exact Nat.lt_succ_of_lt (h.groups a ha)
  · have : a ≠ c.next := by omega
    simp only [Container.pushPrimary, Function.update_of_ne this]
    exact GKin.refl _

theorem goes_resize (c : Container V) (n mc : Nat) (cd t : Bool) : Goes c (c.resize n mc cd t).2 := by
  unfold Container.resize
  cases hg : Container.makeGroup (V := V) n mc c.strict with
  | error e => exact Goes.refl c
  | ok g =>
    have h1 := goes_pushPrimary c (makeGroup_inv hg).2.2.1
    simp only
    split_ifs
    · exact h1.trans (goes_condense _ _)
    · intro hc
      obtain ⟨t1, f1⟩ := h1 hc
      obtain ⟨t2, f2⟩ := goes_withGroups _ ((c.pushPrimary g).groups.take 2) (fun a ha => List.mem_of_mem_take ha) t1
      obtain ⟨t3, f3⟩ := goes_condense ((c.pushPrimary g).withGroups ((c.pushPrimary g).groups.take 2)) t t2
      have f := (f1.trans f2).trans f3
      split
      · rename_i heq; rw [heq] at t3 f; exact ⟨t3, f⟩
      · rename_i c2 heq
        rw [heq] at t3 f3 f
        refine ⟨⟨t3.sorted, fun a ha => ?_, t3.primary⟩, ⟨f.kin, f.next, f.above⟩⟩
        rcases List.mem_append.1 ha with ha | ha
        · exact t3.groups a ha
        · exact lt_of_lt_of_le (t1.groups a (List.mem_of_mem_drop ha)) f3.next

theorem goes_call (c : Container V) (op : ContCall V) : Goes c (c.call op).2 := by
  cases op with
  | write k v => exact goes_write c k v
  | delete k => exact goes_delete c k
  | resize n m cd t => exact goes_resize c n m cd t
  | condense t => exact goes_condense c t
  | setStrict b => exact goes_setStrict c b

theorem goes_on [Truthy V] (c : Container V) (call : TxCall V) : Goes c (TxCall.on c call) := by
  cases call with
  | resize n m cd t => exact goes_resize c n m cd t
  | call op =>
    cases op with
    | create id obj =>
      show Goes c (createFn id obj c).2
      unfold createFn
      split
      · exact Goes.refl c
      · exact goes_write c id obj
      · exact Goes.refl c
    | update id obj =>
      show Goes c (updateFn id obj c).2
      unfold updateFn
      split
      · exact Goes.refl c
      · exact goes_write c id obj
    | delete id => exact goes_delete c id
    | strict b =>
      cases b with
      | none => exact Goes.refl c
      | some b => exact goes_setStrict c (some b)

theorem tidy_of_new {capacity mc : Nat} {s : Bool} {c : Container V} (h : Container.new capacity mc s = .ok c) : Tidy c := by
  unfold Container.new at h
  cases hg : Container.makeGroup (V := V) capacity mc s with
  | error e => rw [hg] at h; simp at h
  | ok g =>
    rw [hg] at h
    simp only [Container.init, List.not_mem_nil, if_false] at h
    have h0 : Tidy (⟨fun _ => g, 1, [0], 0⟩ : Container V) := ⟨fun _ => (makeGroup_inv hg).2.2.1.sorted, by simp, Nat.one_pos⟩
    have h1 := (goes_setStrict _ (some s) h0).1
    injection h with h
    subst h
    exact h1

theorem tidy_of_reach {c : Container V} (h : NewReach c) : Tidy c := by
  obtain ⟨_, _, _, c0, ops, h1, rfl⟩ := h
  have key : ∀ (ops : List (ContCall V)) (c : Container V), Tidy c → Tidy (c.run ops).2 := by
    intro ops
    induction ops with
    | nil => intro c h; exact h
    | cons op ops ih => intro c h; exact ih _ (goes_call c op h).1
  exact key ops c0 (tidy_of_new h1)

/-! ### Proofs: commits without interference -/

section
variable [DecidableEq V]

theorem mergeCollection_alone {b w : Collection V} (h : Kin b w) (hs : b.Sorted) : mergeCollection b w b = some w := by
  unfold mergeCollection
  rw [mergeTree_alone hs (h.sorted hs)]
  have : mergeUnit b.strict w.strict b.strict = some w.strict := by
    unfold mergeUnit
    by_cases e : w.strict = b.strict
    · rw [if_pos e, e]
    · rw [if_neg e, if_pos rfl]
  rw [this]
  have e : w = { b with tree := w.tree, strict := w.strict } := by
    rcases b with ⟨u, t, m, s⟩
    rcases w with ⟨u', t', m', s'⟩
    have h1 : u' = u := h.uuid
    have h2 : m' = m := h.max
    subst h1; subst h2; rfl
  exact congrArg some e.symm

theorem mergeGroup_alone {b w : CGroup V} (h : GKin b w) (hs : ∀ x ∈ b.collections, x.Sorted) : mergeGroup b w b = some w := by
  rw [mergeGroup_eq]
  have : mergeList b.collections w.collections b.collections = some w.collections := by
    unfold GKin at h
    generalize b.collections = l at h hs
    generalize w.collections = m at h
    induction h with
    | nil => rfl
    | @cons x y l m hx _ ih =>
      rw [mergeList_cons, mergeCollection_alone hx (hs x List.mem_cons_self), ih fun z hz => hs z (List.mem_cons_of_mem _ hz)]
      rfl
  rw [this]; rfl

/-- A session that commits without interference stores exactly what it sees. -/
theorem merge_alone {b w : Container V} (hb : Tidy b) (h : From b w) : Db.merge b w b = some w := by
  have hrec : mergeUnit (record b) (record w) (record b) = some (record w) := by
    unfold mergeUnit
    by_cases e : record w = record b
    · rw [if_pos e, e]
    · rw [if_neg e, if_pos rfl]
  have hg : ∀ a < b.next, mergeGroup (b.heap a) (w.heap a) (b.heap a) = some (w.heap a) := fun a ha => mergeGroup_alone (h.kin a ha) (hb.sorted a)
  unfold Db.merge
  rw [hrec]
  simp only [record]
  rw [if_neg]
  · refine congrArg some ?_
    have : mergeAt b w b = w.heap := by
      funext a
      unfold mergeAt
      split_ifs with h1 h2
      · rw [hg a h1]; rfl
      · have : w.next = b.next := by
          have := congrArg (fun r => r.2.2) h2
          exact this
        rw [h.above this a (by omega)]
      · rfl
    rw [this]
  · rw [List.any_eq_true]
    rintro ⟨a, ha, hn⟩
    rw [hg a (List.mem_range.1 ha)] at hn
    cases hn

omit [DecidableEq V] in
theorem goes_execAll [Truthy V] (calls : List (TxCall V)) : ∀ c : Container V, Goes c (execAll c calls) := by
  induction calls with
  | nil => intro c; exact Goes.refl c
  | cons x calls ih => intro c; exact (goes_on c x).trans (ih _)

omit [DecidableEq V] in
theorem execAll_append [Truthy V] (c : Container V) (x y : List (TxCall V)) : execAll c (x ++ y) = execAll (execAll c x) y := by
  unfold execAll; rw [List.foldl_append]

/-- The sessions follow the trail. -/
structure Follows [Truthy V] (c0 : Container V) (stale : Nat → Bool) (w : Shared V) (t : Trail V) : Prop where
  step : InStep c0 w t
  base : ∀ i, (w.sess i).base = execAll c0 (t.tx i).seen
  broken : ∀ i, (w.sess i).failed = (t.tx i).broken
  fresh : ∀ i, stale i = false → (t.tx i).seen = t.done

omit [DecidableEq V] in
theorem Follows.set [Truthy V] {c0 : Container V} {stale : Nat → Bool} {w : Shared V} {t : Trail V} (h : Follows c0 stale w t) (i : Nat) {x : Sess V}
    {y : TrailTx V} (h1 : x.work = execAll c0 (y.seen ++ y.own)) (h2 : x.base = execAll c0 y.seen) (h3 : x.failed = y.broken)
    {stale' : Nat → Bool} (h4 : stale' i = false → y.seen = t.done) (h5 : ∀ j, j ≠ i → stale' j = stale j) :
    Follows c0 stale' (w.setSess i x) { t with tx := Function.update t.tx i y } := by
  refine ⟨⟨h.step.stored, fun j => ?_⟩, fun j => ?_, fun j => ?_, fun j => ?_⟩
  all_goals
    try unfold Shared.setSess
    try unfold Trail.sees
    by_cases hj : j = i
    · subst hj; simp only [Function.update_self]; assumption
    · simp only [Function.update_of_ne hj]
      first | exact h.step.sees j | exact h.base j | exact h.broken j | (rw [h5 j hj]; exact h.fresh j)

theorem Follows.serially [Truthy V] {c0 : Container V} (h0 : Tidy c0) (ms : List (Nat × Move V)) : ∀ {stale : Nat → Bool} {w : Shared V} {t : Trail V},
    Follows c0 stale w t → Apart stale ms → Serially c0 ms w t ∧ InStep c0 (w.moves ms) (t.moves ms) := by
  induction ms with
  | nil => intro stale w t h _; exact ⟨h.step, h.step⟩
  | cons x ms ih =>
    intro stale w t h ha
    rcases x with ⟨i, m⟩
    suffices hs : t.Answers c0 i m (w.move i m).1 ∧ ∃ stale', Follows c0 stale' (w.move i m).2 (t.move i m) ∧ Apart stale' ms by
      obtain ⟨hans, stale', hf, hap⟩ := hs
      obtain ⟨i1, i2⟩ := ih hf hap
      exact ⟨⟨h.step, hans, i1⟩, i2⟩
    have fresh : Follows c0 (Function.update stale i false) (w.setSess i (.fresh w.disk)) (t.fresh i) := by
      refine h.set i (x := .fresh w.disk) (y := { seen := t.done }) ?_ ?_ rfl (fun _ => rfl) fun j hj => Function.update_of_ne hj _ _
      · show w.disk = _
        rw [List.append_nil]; exact h.step.stored
      · exact h.step.stored
    have own : ∀ (r : Container V) (call : TxCall V), r = TxCall.on (w.sess i).work call → (w.sess i).failed = false →
        Follows c0 stale (w.setSess i { w.sess i with work := r }) (t.more i call) := by
      intro r call hr _
      refine h.set i (x := { w.sess i with work := r }) (y := { t.tx i with own := (t.tx i).own ++ [call] }) ?_ (h.base i) (h.broken i) (h.fresh i) fun _ _ => rfl
      show r = execAll c0 ((t.tx i).seen ++ ((t.tx i).own ++ [call]))
      rw [← List.append_assoc, execAll_append, hr, h.step.sees i]
      rfl
    have hbr := h.broken i
    cases m with
    | begin => exact ⟨rfl, _, fresh, ha⟩
    | abort => exact ⟨rfl, _, fresh, ha⟩
    | run op =>
      cases hb : (t.tx i).broken with
      | true =>
        rw [hb] at hbr
        have e : w.move i (.run op) = (.error .transactionFailed, w) := by unfold Shared.move Shared.run; simp [hbr]
        have e' : t.move i (.run op) = t := by unfold Trail.move; simp [hb]
        rw [e, e']
        exact ⟨by simp [Trail.Answers, hb], stale, h, ha⟩
      | false =>
        rw [hb] at hbr
        have e : w.move i (.run op) = ((op.fn (w.sess i).work).1, w.setSess i { w.sess i with work := (op.fn (w.sess i).work).2 }) := by
          unfold Shared.move Shared.run; simp [hbr]
        have e' : t.move i (.run op) = t.more i (.call op) := by unfold Trail.move; simp [hb]
        rw [e, e']
        refine ⟨?_, stale, own _ (.call op) rfl hbr, ha⟩
        simp only [Trail.Answers, hb, Bool.false_eq_true, if_false]
        rw [h.step.sees i]
    | resize n mc cd tr =>
      cases hb : (t.tx i).broken with
      | true =>
        rw [hb] at hbr
        have e : w.move i (.resize n mc cd tr) = (.error .transactionFailed, w) := by unfold Shared.move Shared.resize; simp [hbr]
        have e' : t.move i (.resize n mc cd tr) = t := by unfold Trail.move; simp [hb]
        rw [e, e']
        exact ⟨by simp [Trail.Answers, hb], stale, h, ha⟩
      | false =>
        rw [hb] at hbr
        have e : w.move i (.resize n mc cd tr) = (((w.sess i).work.resize n mc cd tr).1.map fun _ => .unit, w.setSess i { w.sess i with work := ((w.sess i).work.resize n mc cd tr).2 }) := by
          unfold Shared.move Shared.resize; simp [hbr]
        have e' : t.move i (.resize n mc cd tr) = t.more i (.resize n mc cd tr) := by unfold Trail.move; simp [hb]
        rw [e, e']
        refine ⟨?_, stale, own _ (.resize n mc cd tr) rfl hbr, ha⟩
        simp only [Trail.Answers, hb, Bool.false_eq_true, if_false]
        rw [h.step.sees i]
    | commit ok =>
      show (w.commit i ok).1.map _ = _ ∧ ∃ stale', Follows c0 stale' (w.commit i ok).2 _ ∧ _
      cases hb : (t.tx i).broken with
      | true =>
        unfold Shared.commit Trail.move
        simp only
        rw [hbr, hb]
        refine ⟨rfl, ?_⟩
        cases ok with
        | false => exact ⟨stale, h, ha⟩
        | true =>
          refine ⟨_, ⟨h.step, h.base, h.broken, fun j hj => ?_⟩, ha.2⟩
          have : j = i := by simpa using hj
          subst this
          exact h.fresh j ha.1
      | false =>
        have hwf : (w.sess i).failed = false := by rw [hbr, hb]
        cases ok with
        | false =>
          rw [commit_refused hwf (.inl rfl)]
          unfold Trail.move
          simp only [hb, Bool.false_eq_true, if_false]
          refine ⟨rfl, stale, ?_, ha⟩
          refine h.set i (x := { base := (w.sess i).base, work := (w.sess i).base, failed := true }) (y := { seen := (t.tx i).seen, broken := true })
            ?_ (h.base i) rfl (h.fresh i) fun _ _ => rfl
          show (w.sess i).base = execAll c0 ((t.tx i).seen ++ [])
          rw [List.append_nil]; exact h.base i
        | true =>
          have hseen := h.fresh i ha.1
          have hbase : (w.sess i).base = w.disk := by rw [h.base i, hseen, h.step.stored]
          have hwork : (w.sess i).work = execAll c0 (t.done ++ (t.tx i).own) := by
            rw [h.step.sees i]; unfold Trail.sees; rw [hseen]
          have hm : Db.merge (w.sess i).base (w.sess i).work w.disk = some (w.sess i).work := by
            rw [hbase]
            have htidy : Tidy w.disk := by rw [h.step.stored]; exact (goes_execAll _ c0 h0).1
            refine merge_alone htidy ?_
            rw [hwork, execAll_append, ← h.step.stored]
            exact (goes_execAll _ _ htidy).2
          rw [commit_accepted hwf hm]
          unfold Trail.move
          simp only [hb, Bool.false_eq_true, if_false, if_true]
          refine ⟨rfl, _, ⟨⟨hwork, fun j => ?_⟩, fun j => ?_, fun j => ?_, fun j hj => ?_⟩, ha.2⟩
          all_goals
            unfold Trail.commit
            try unfold Trail.sees
            by_cases hj : j = i
            · subst hj; simp only [Function.update_self, Sess.fresh, List.append_nil]
              try exact hwork
            · simp only [Function.update_of_ne hj]
              first | exact h.step.sees j | exact h.base j | exact h.broken j | (exfalso; simp [hj] at *)

omit [DecidableEq V] in
theorem opened_follows [Truthy V] (c0 : Container V) : Follows c0 (fun _ => false) (Shared.opened c0) Trail.opened :=
  ⟨⟨rfl, fun _ => rfl⟩, fun _ => rfl, fun _ => rfl, fun _ _ => rfl⟩

/-- **C110.** Sessions that do not commit while others are in between their begin and their commit: whatever they do - create, update, delete, resize,
assign strict -, the database is, step by step, that of the serial execution of the committed transactions, in the order of the commits; no commit is
refused but by the storage. -/
theorem apart_is_serial [Truthy V] {c0 : Container V} (h0 : NewReach c0) (ms : List (Nat × Move V)) (hm : Apart (fun _ => false) ms) :
    Serially c0 ms (Shared.opened c0) Trail.opened :=
  ((opened_follows c0).serially (tidy_of_reach h0) ms hm).1

/-- The state at the end. -/
theorem apart_state [Truthy V] {c0 : Container V} (h0 : NewReach c0) (ms : List (Nat × Move V)) (hm : Apart (fun _ => false) ms) :
    InStep c0 ((Shared.opened c0).moves ms) (Trail.opened.moves ms) :=
  ((opened_follows c0).serially (tidy_of_reach h0) ms hm).2

/-! ### C103 and C104 for transactions that do not overlap -/

/-- The call that a move makes. -/
def moveCall : Move V → Option (TxCall V)
  | .run op => some (.call op)
  | .resize n mc cd t => some (.resize n mc cd t)
  | _ => none

/-- All calls in the trail are good. -/
def Trail.All (P : TxCall V → Prop) (t : Trail V) : Prop := (∀ c ∈ t.done, P c) ∧ ∀ i, ∀ c ∈ (t.tx i).seen ++ (t.tx i).own, P c

omit [DecidableEq V] in
theorem Trail.All.set {P : TxCall V → Prop} {t : Trail V} (h : t.All P) (i : Nat) {y : TrailTx V} {d : List (TxCall V)} (hd : ∀ c ∈ d, P c)
    (hy : ∀ c ∈ y.seen ++ y.own, P c) : Trail.All P { done := d, tx := Function.update t.tx i y } := by
  refine ⟨hd, fun j => ?_⟩
  by_cases hj : j = i
  · subst hj; simp only [Function.update_self]; exact hy
  · simp only [Function.update_of_ne hj]; exact h.2 j

omit [DecidableEq V] in
theorem Trail.All.move {P : TxCall V → Prop} {t : Trail V} (h : t.All P) (i : Nat) (m : Move V) (hm : ∀ c, moveCall m = some c → P c) : (t.move i m).All P := by
  have more : ∀ c, P c → (t.more i c).All P := fun c hc => h.set i h.1 fun x hx => by
    rw [← List.append_assoc] at hx
    rcases List.mem_append.1 hx with hx | hx
    · exact h.2 i x hx
    · rw [List.mem_singleton.1 hx]; exact hc
  have fresh : (t.fresh i).All P := h.set i h.1 fun x hx => h.1 x (by simpa using hx)
  have own : ∀ c ∈ t.done ++ (t.tx i).own, P c := fun x hx => by
    rcases List.mem_append.1 hx with hx | hx
    · exact h.1 x hx
    · exact h.2 i x (List.mem_append_right _ hx)
  cases m with
  | begin => exact fresh
  | abort => exact fresh
  | run op =>
    unfold Trail.move; simp only
    split_ifs
    · exact h
    · exact more _ (hm _ rfl)
  | resize n mc cd tr =>
    unfold Trail.move; simp only
    split_ifs
    · exact h
    · exact more _ (hm _ rfl)
  | commit ok =>
    unfold Trail.move; simp only
    split_ifs
    · exact h
    · exact h.set i own fun x hx => own x (by simpa using hx)
    · exact h.set i h.1 fun x hx => h.2 i x (List.mem_append_left _ (by simpa using hx))

omit [DecidableEq V] in
theorem Trail.All.moves {P : TxCall V → Prop} (ms : List (Nat × Move V)) : ∀ {t : Trail V}, t.All P → (∀ x ∈ ms, ∀ c, moveCall x.2 = some c → P c) →
    (t.moves ms).All P := by
  induction ms with
  | nil => intro t h _; exact h
  | cons x ms ih =>
    intro t h hm
    exact ih (h.move x.1 x.2 (hm x List.mem_cons_self)) fun y hy => hm y (List.mem_cons_of_mem _ hy)

omit [DecidableEq V] in
theorem InUse.reach {c : Container V} {m : Map V} (h : InUse c m) : NewReach c := by
  obtain ⟨n, mc, c0, ops, h1, -, h2, -⟩ := h
  exact ⟨n, mc, false, c0, ops, h1, h2⟩

omit [DecidableEq V] in
theorem InUse.execAll [Truthy V] (hV : AllTruthy V) (calls : List (TxCall V)) : ∀ {c : Container V} {m : Map V}, InUse c m →
    (∀ x ∈ calls, x ≠ .call (.strict (some true))) → InUse (execAll c calls) (Map.after m calls) := by
  induction calls with
  | nil => intro c m h _; exact h
  | cons x calls ih =>
    intro c m h hx
    have hx' : ∀ y ∈ calls, y ≠ .call (.strict (some true)) := fun y hy => hx y (List.mem_cons_of_mem _ hy)
    cases x with
    | call op =>
      have hop : op ≠ .strict (some true) := fun e => hx _ List.mem_cons_self (by rw [e])
      exact ih (c := (op.fn c).2) (m := (m.apply op).getD m) (in_use_fn hV h op hop).2.1 hx'
    | resize n mc cd t => exact ih (c := (c.resize n mc cd t).2) (h.resize n mc cd t) hx'

/-- **C103 (partial).** If transactions do not overlap, nothing is lost, however often sessions resize: what is stored, and what every session reads, is
what the calls of the committed transactions (and the session's own ones), one after the other, make of the map. -/
theorem resize_apart_partial [Truthy V] (hV : AllTruthy V) {c0 : Container V} {m0 : Map V} (h0 : InUse c0 m0) (ms : List (Nat × Move V))
    (hm : Apart (fun _ => false) ms) (hl : ∀ x ∈ ms, x.2 ≠ .run (.strict (some true))) :
    let w := (Shared.opened c0).moves ms
    let t := Trail.opened.moves ms
    (∀ id, w.disk.read id = .ok (Map.after m0 t.done id)) ∧ ∀ i id, w.read i id = .ok (Map.after m0 ((t.tx i).seen ++ (t.tx i).own) id) := by
  intro w t
  have hs : InStep c0 w t := apart_state h0.reach ms hm
  have ha : t.All fun c => c ≠ .call (.strict (some true)) := by
    refine Trail.All.moves ms (t := Trail.opened) ⟨by simp [Trail.opened], by simp [Trail.opened]⟩ fun x hx c hc e => ?_
    subst e
    refine hl x hx ?_
    cases hx2 : x.2 <;> simp_all [moveCall]
  refine ⟨fun id => ?_, fun i id => ?_⟩
  · rw [hs.stored]
    exact (in_use_reads hV (h0.execAll hV t.done ha.1) id).1
  · show (w.sess i).work.read id = _
    rw [hs.sees i]
    exact (in_use_reads hV (h0.execAll hV _ (ha.2 i)) id).1

omit [DecidableEq V] in
theorem execAll_run [Truthy V] (calls : List (TxCall V)) (hc : ∀ x ∈ calls, ∃ op, x = .call op ∧ ∀ v, op ≠ .strict v) :
    ∀ c : Container V, ∃ ops, (∀ op ∈ ops, ContCall.writeOrDelete op) ∧ execAll c calls = (c.run ops).2 := by
  induction calls with
  | nil => intro c; exact ⟨[], by simp, rfl⟩
  | cons x calls ih =>
    intro c
    obtain ⟨op, rfl, hop⟩ := hc x List.mem_cons_self
    have ih := ih fun y hy => hc y (List.mem_cons_of_mem _ hy)
    have key : (op.fn c).2 = c ∨ ∃ o : ContCall V, ContCall.writeOrDelete o ∧ (op.fn c).2 = (c.call o).2 := by
      cases op with
      | create id obj =>
        show (createFn id obj c).2 = c ∨ ∃ o : ContCall V, _ ∧ (createFn id obj c).2 = _
        unfold createFn
        split
        · exact .inl rfl
        · exact .inr ⟨.write id obj, trivial, rfl⟩
        · exact .inl rfl
      | update id obj =>
        show (updateFn id obj c).2 = c ∨ ∃ o : ContCall V, _ ∧ (updateFn id obj c).2 = _
        unfold updateFn
        split
        · exact .inl rfl
        · exact .inr ⟨.write id obj, trivial, rfl⟩
      | delete id => exact .inr ⟨.delete id, trivial, rfl⟩
      | strict v => exact absurd rfl (hop v)
    rcases key with e | ⟨o, ho, e⟩
    · obtain ⟨ops, h1, h2⟩ := ih c
      refine ⟨ops, h1, ?_⟩
      show execAll (op.fn c).2 calls = _
      rw [e, h2]
    · obtain ⟨ops, h1, h2⟩ := ih (c.call o).2
      refine ⟨o :: ops, ?_, ?_⟩
      · intro x hx
        rcases List.mem_cons.1 hx with rfl | hx
        · exact ho
        · exact h1 x hx
      · show execAll (op.fn c).2 calls = _
        rw [e, h2]; rfl

/-- **C104 (partial).** If transactions do not overlap, a database made strict stays within its limits: what is stored, and what every session sees. -/
theorem strict_limit_apart_partial [Truthy V] (capacity mc : Nat) (c0 : Container V) (h0 : Container.new capacity mc true = .ok c0)
    (ms : List (Nat × Move V)) (hm : Apart (fun _ => false) ms) (hl : ∀ x ∈ ms, NoResize x.2 ∧ ∀ v, x.2 ≠ .run (.strict v)) :
    let w := (Shared.opened c0).moves ms
    ∀ c : Container V, (c = w.disk ∨ ∃ i, c = (w.sess i).work) →
      c.used ≤ c.capacity ∧ c.capacity = c0.capacity ∧ c.strict = true ∧ ∀ x ∈ (c.heap c.primary).collections, x.size ≤ x.maxSize := by
  intro w c hc
  have hs : InStep c0 w (Trail.opened.moves ms) := apart_state ⟨capacity, mc, true, c0, [], h0, rfl⟩ ms hm
  have ha : (Trail.opened.moves ms).All fun c : TxCall V => ∃ op, c = .call op ∧ ∀ v, op ≠ .strict v := by
    refine Trail.All.moves ms (t := Trail.opened) ⟨by simp [Trail.opened], by simp [Trail.opened]⟩ fun x hx c hc => ?_
    obtain ⟨h1, h2⟩ := hl x hx
    cases hx2 : x.2 with
    | run op =>
      rw [hx2] at hc h2
      injection hc with hc
      exact ⟨op, hc.symm, fun v e => h2 v (by rw [e])⟩
    | resize _ _ _ _ => rw [hx2] at h1; exact h1.elim
    | _ => rw [hx2] at hc; cases hc
  obtain ⟨calls, hcalls, rfl⟩ : ∃ calls, (∀ x ∈ calls, ∃ op, x = .call op ∧ ∀ v, op ≠ .strict v) ∧ c = execAll c0 calls := by
    rcases hc with rfl | ⟨i, rfl⟩
    · exact ⟨_, ha.1, hs.stored⟩
    · exact ⟨_, ha.2 i, hs.sees i⟩
  obtain ⟨ops, h1, h2⟩ := execAll_run calls hcalls c0
  rw [h2]
  obtain ⟨k1, k2, k3, k4, -⟩ := container_strict_limit capacity mc c0 h0 ops h1
  exact ⟨k1, k2, k3, k4⟩

end

/-! ### Concrete schedules -/

/-- Sessions 0 and 1 write, session 2 resizes and session 0 writes again; session 1 reads an old state in between and begins anew before it writes. -/
example : Apart (V := Nat) (fun _ => false) [(0, .begin), (1, .begin), (0, .run (.create "a" 1)), (0, .commit true), (2, .begin),
    (2, .resize 7 3 true true), (2, .commit true), (1, .run (.create "b" 2)), (1, .abort), (1, .run (.create "b" 2)), (1, .commit true), (0, .begin),
    (0, .run (.update "a" 3)), (0, .commit true)] := by
  simp [Apart]

/-- What session 0 of the schedule has made of the empty map at the end. -/
example : Map.after (Map.empty : Map Nat) [.call (.create "a" 1), .resize 7 3 true true, .call (.create "b" 2), .call (.update "a" 3)] "a" = some 3 := by
  simp [Map.after, Map.apply, Map.empty, Map.set]

/-- The schedule of `resize_loses_write_counterexample` overlaps. -/
example (id : String) (obj : Nat) (n : Nat) : ¬ Apart (fun _ => false) [(0, .begin), (1, .begin), (0, .run (.create id obj)), (1, .resize n 3 true true),
    (1, .commit true), (0, .commit true)] := by
  simp [Apart]

end Verif.Props
