import Verif.Db.Figures
import Verif.Props.Usage
import Verif.Props.Falsy

/-!
# C131: the figures of a connection
-/
namespace Verif.Props.Figures
open Verif.Storage Verif.Db Verif.Spec Verif.Props
variable {V : Type} [Truthy V]

/-! ## Specification -/

/-- There are `n` ids that `conn[id]` knows (it raises no KeyError). -/
def Counts (c : Conn V) (n : Nat) : Prop := ∃ ids : List String, ids.Nodup ∧ ids.length = n ∧ ∀ id, id ∈ ids ↔ c.getItem id ≠ .error .keyError

/-! ## Calls change no limits and no groups -/

/-- Same groups with the same limits. -/
structure Kept (c c' : Container V) : Prop where
  primary : c'.primary = c.primary
  groups : c'.groups = c.groups
  limits : ∀ a, (c'.heap a).collections.map Collection.maxSize = (c.heap a).collections.map Collection.maxSize

omit [Truthy V] in
theorem Kept.refl (c : Container V) : Kept c c := ⟨rfl, rfl, fun _ => rfl⟩

omit [Truthy V] in
theorem Kept.put {c c' : Container V} (h : Kept c c') {a : Nat} {g : CGroup V} (hg : g.collections.map Collection.maxSize = (c'.heap a).collections.map Collection.maxSize) :
    Kept c (c'.put a g) := by
  refine ⟨h.primary, h.groups, fun b => ?_⟩
  show ((Function.update c'.heap a g) b).collections.map Collection.maxSize = _
  by_cases hb : b = a
  · subst hb; rw [Function.update_self, hg]; exact h.limits b
  · rw [Function.update_of_ne hb]; exact h.limits b

omit [Truthy V] in
theorem insert_limits (g : CGroup V) (k : String) (v : V) : (g.insert k v).2.collections.map Collection.maxSize = g.collections.map Collection.maxSize :=
  CGroup.gcall_maxSizes g (.map (.insert k v))

omit [Truthy V] in
theorem update_limits (g : CGroup V) (d : List (String × V)) : (g.update d).2.collections.map Collection.maxSize = g.collections.map Collection.maxSize :=
  CGroup.gcall_maxSizes g (.map (.update d))

omit [Truthy V] in
theorem pop_limits (g : CGroup V) (k : String) (o : Option V) : (g.pop k o).2.collections.map Collection.maxSize = g.collections.map Collection.maxSize :=
  CGroup.gcall_maxSizes g (.map (.pop k o))

omit [Truthy V] in
theorem kept_write (c : Container V) (k : String) (v : V) : Kept c (c.write k v).2 := by
  unfold Container.write
  have h1 := insert_limits (c.heap c.primary) k v
  split
  · rename_i heq; rw [heq] at h1; exact (Kept.refl c).put h1
  · rename_i heq; rw [heq] at h1; exact (Kept.refl c).put h1
  · rename_i heq
    rw [heq] at h1
    have h2 := update_limits _ [(k, v)] |>.trans h1
    split <;> (rename_i heq2; rw [heq2] at h2; exact (Kept.refl c).put h2)

omit [Truthy V] in
theorem kept_deleteLoop (id : String) (c0 : Container V) : ∀ (as : List Nat) (c : Container V), Kept c0 c → Kept c0 (Container.deleteLoop id as c).2 := by
  intro as
  induction as with
  | nil => intro c h; exact h
  | cons a as ih =>
    intro c h
    have hp := pop_limits (c.heap a) id none
    rw [Container.deleteLoop]
    split
    · exact h
    · exact ih c h
    · split
      · rename_i heq; rw [heq] at hp; exact h.put hp
      · rename_i heq
        rw [heq] at hp
        have := ih _ (h.put (a := a) hp)
        split <;> (rename_i heq2; rw [heq2] at this; exact this)

omit [Truthy V] in
theorem kept_setStrict (c : Container V) (b : Option Bool) : Kept c (c.setStrict b).2 := by
  cases b with
  | none => exact Kept.refl c
  | some b => exact (Kept.refl c).put (CGroup.gcall_maxSizes _ (.setStrict (some b)))

/-- Containers of databases: one group, and `K` is what its limits add up to. -/
structure One (K : Nat) (c : Container V) : Prop where
  built : BuiltContainer c
  single : c.groups = [c.primary]
  capacity : c.capacity = K

omit [Truthy V] in
theorem One.kept {K : Nat} {c c' : Container V} (h : One K c) (hb : BuiltContainer c') (hk : Kept c c') : One K c' := by
  refine ⟨hb, ?_, ?_⟩
  · rw [hk.groups, hk.primary]; exact h.single
  · rw [← h.capacity]
    show ((c'.heap c'.primary).collections.map Collection.maxSize).sum = ((c.heap c.primary).collections.map Collection.maxSize).sum
    rw [hk.primary, hk.limits]

theorem One.fn {K : Nat} {c : Container V} (h : One K c) (op : DbOp V) : One K (op.fn c).2 := by
  cases op with
  | create id obj =>
    show One K (createFn id obj c).2
    unfold createFn
    split
    · exact h
    · exact h.kept (.call c (.write id obj) h.built) (kept_write c id obj)
    · exact h
  | update id obj =>
    show One K (updateFn id obj c).2
    unfold updateFn
    split
    · exact h
    · exact h.kept (.call c (.write id obj) h.built) (kept_write c id obj)
  | delete id => exact h.kept (.call c (.delete id) h.built) (kept_deleteLoop id c c.groups c (Kept.refl c))
  | strict value =>
    cases value with
    | none => exact h
    | some b => exact h.kept (.call c (.setStrict (some b)) h.built) (kept_setStrict c (some b))

/-! ## Sessions -/

/-- A property of containers that calls keep is kept by sessions, for what is seen and for what is stored. -/
theorem session_keeps {P : Container V → Prop} {Q : DbOp V → Prop} (hP : ∀ c op, Q op → P c → P (DbOp.fn op c).2) (es : List (Event V)) :
    (∀ op ok, Event.call op ok ∈ es → Q op) →
    ∀ c : Conn V, P c.tm.work → P c.tm.committed → P (c.steps es).tm.work ∧ P (c.steps es).tm.committed := by
  induction es with
  | nil => intro _ c hw hc; exact ⟨hw, hc⟩
  | cons e es ih =>
    intro hQ c hw hc
    have hcommit : ∀ (t : Tm (Container V)) ok, P t.work → P t.committed → P (t.commit ok).2.work ∧ P (t.commit ok).2.committed := by
      intro t ok h1 h2
      unfold Tm.commit
      split_ifs <;> first | exact ⟨h1, h2⟩ | exact ⟨h1, h1⟩ | exact ⟨h2, h2⟩
    have hstep : P (c.step e).tm.work ∧ P (c.step e).tm.committed := by
      cases e with
      | call op ok =>
        have hq : Q op := hQ op ok List.mem_cons_self
        show P (c.call op ok).2.tm.work ∧ P (c.call op ok).2.tm.committed
        by_cases hd : isWrite op = true ∧ c.tm.autocommit = true
        · obtain ⟨k1, k2, k3⟩ := call_on c hd.2 op hd.1 ok
          cases hr : (op.fn c.tm.committed).1 with
          | error x => rw [k1 x hr]; exact ⟨hc, hc⟩
          | ok v =>
            cases ok with
            | true => rw [k2 v hr rfl]; exact ⟨hP _ op hq hc, hP _ op hq hc⟩
            | false => rw [k3 v hr rfl]; exact ⟨hc, hc⟩
        · have ho : c.tm.autocommit = false ∨ isWrite op = false := by
            cases ha : c.tm.autocommit with
            | false => exact .inl rfl
            | true => exact .inr (by cases hw' : isWrite op with | false => rfl | true => exact absurd ⟨hw', ha⟩ hd)
          cases hf : c.tm.failed with
          | true => rw [call_failed c op ho hf ok]; exact ⟨hw, hc⟩
          | false => rw [call_off c op ho hf ok]; exact ⟨hP _ op hq hw, hc⟩
      | setAutocommit value => cases value <;> exact ⟨hw, hc⟩
      | enter => exact ⟨hc, hc⟩
      | exit raised ok =>
        cases raised with
        | true => exact ⟨hc, hc⟩
        | false =>
          have := hcommit { c.tm with autocommit := true } ok hw hc
          show P (({ c.tm with autocommit := true } : Tm _).exit false ok).2.work ∧ P (({ c.tm with autocommit := true } : Tm _).exit false ok).2.committed
          unfold Tm.exit
          simp only [Bool.false_eq_true, if_false]
          split <;> (rename_i heq; rw [heq] at this; exact this)
      | commit ok => exact hcommit c.tm ok hw hc
      | abort => exact ⟨hc, hc⟩
      | crash a => exact ⟨hc, hc⟩
    exact ih (fun op ok h => hQ op ok (List.mem_cons_of_mem _ h)) (c.step e) hstep.1 hstep.2

/-- `conn[id]` knows the ids that are stored. -/
theorem getItem_knows (c : Conn V) (h : ContReach c.tm.work) (id : String) : c.getItem id ≠ .error .keyError ↔ c.tm.work.first id ≠ none := by
  obtain ⟨n, hn, hz⟩ := Container.has_pos h.inv id
  unfold Conn.getItem
  rw [hn]
  cases n with
  | zero => simp only [ne_eq, not_true_eq_false, false_iff, not_not]; exact by simpa using hz
  | succ n =>
    simp only
    rw [Container.read_eq h.inv]
    simp only [ne_eq, reduceCtorEq, not_false_eq_true, true_iff]
    exact by simpa using hz

/-- The figures of a container of one group. -/
theorem one_figures {K : Nat} (c : Conn V) (h : One K c.tm.work) :
    c.capacity = K ∧ Counts c c.used ∧ c.usage = .ok ((c.used : ℚ) / K) ∧
    ∃ hi l, Greatest (c.tm.work.heap c.tm.work.primary).collectionUsage hi ∧ (c.used : ℚ) / K ≤ hi ∧ c.status = .ok l ∧ IsLevel hi l := by
  obtain ⟨n, u, hi, l, k1, k2, k3, k4, k5, k6, k7, k8⟩ := container_usage c.tm.work h.built
  have hn : n = c.used := card_unique k1 (container_sizes c.tm.work h.built.reach).2.2.1
  subst hn
  rw [h.capacity] at k3
  refine ⟨h.capacity, ?_, by rw [← k3]; exact k2, hi, l, k4, by rw [← k3]; exact k5, k6, k7⟩
  have hcard := container_size_single c.tm.work h.built.reach h.single
  have hs : c.tm.work.size = c.used := by
    show ((c.tm.work.groups).map fun a => (c.tm.work.heap a).size).sum = _
    rw [h.single]; simp; rfl
  rw [hs] at hcard
  obtain ⟨ks, h1, h2, h3⟩ := hcard
  exact ⟨ks, h1, h2, fun id => (h3 id).trans (getItem_knows c h.built.reach id).symm⟩

/-- A new database: its container, and the connection. -/
theorem new_connection (d : Disk V) (capacity : Nat) (hcap : 1 ≤ capacity) (create strict a : Bool) :
    ∃ conn c', (newDb d capacity create strict).1.result = .ok () ∧
      connect ((newDb d capacity create strict).1.final (newDb d capacity create strict).2) a = .ok conn ∧
      Container.new (V := V) capacity = .ok c' ∧ conn = { tm := { work := c', committed := c' }, flag := a } ∧ One c'.capacity c' ∧
      capacity ≤ c'.capacity ∧ (capacity ≤ 5000 → c'.capacity = capacity) ∧ c'.size = 0 := by
  obtain ⟨conn, h1, h2, -⟩ := Falsy.database_all_objects d capacity hcap create strict a ([] : List (Event V)) (by simp)
  obtain ⟨c0, g0, g1, g2⟩ := createDb_spec (V := V) d capacity create strict hcap
  obtain ⟨c', n1, n2, n3, n4, n5, n6, n7, -⟩ := container_new (V := V) capacity defaultCollectionSize false hcap (by decide)
  have hc : conn = { tm := { work := c0, committed := c0 }, flag := a } := by
    have hnew : newDb d capacity create strict = loadAfter (createDb d capacity create strict) := rfl
    unfold loadAfter at hnew
    rw [g1] at hnew
    simp only at hnew
    unfold Opened.final at g2
    have hop := openDb_some (V := V) { container := some c0, others := if create then [] else (d.map Root.others).getD [] }
    rw [← g2] at hop
    rw [hop] at hnew
    simp only [List.append_nil] at hnew
    rw [hnew] at h2
    unfold Opened.final at h2
    rw [g2] at h2
    have : Conn.init (some c0) a = .ok conn := h2
    unfold Conn.init at this
    injection this with this
    subst this
    rfl
  rw [n1] at g0
  injection g0 with g0
  subst g0
  have hone : One c'.capacity c' := ⟨.new capacity defaultCollectionSize false c' n1, n2, rfl⟩
  exact ⟨conn, c', h1, h2, n1, hc, hone, n6, n7, n3⟩

/-- **C131.** A database made by `ContainerDb.new`: after every session (calls, blocks, commits that succeed or fail, crashes, strict or not), `capacity`
is what it was at the beginning, at least the capacity asked for; `used` is the number of ids that `conn[id]` knows; `usage` is their ratio and
`status` the alert level of the fullest collection, which is at least as full.  If strict mode is never turned on, `used` is the number of ids in
the transactional map. -/
theorem database_figures (d : Disk V) (capacity : Nat) (hcap : 1 ≤ capacity) (create strict a : Bool) (es : List (Event V)) :
    ∃ conn K, (newDb d capacity create strict).1.result = .ok () ∧
      connect ((newDb d capacity create strict).1.final (newDb d capacity create strict).2) a = .ok conn ∧
      capacity ≤ K ∧ (capacity ≤ 5000 → K = capacity) ∧
      let c := conn.steps es
      c.capacity = K ∧ Counts c c.used ∧ c.usage = .ok ((c.used : ℚ) / K) ∧
      (∃ hi l, Greatest (c.tm.work.heap c.tm.work.primary).collectionUsage hi ∧ (c.used : ℚ) / K ≤ hi ∧ c.status = .ok l ∧ IsLevel hi l) ∧
      ((∀ e ∈ es, Lenient e) → Map.Card (Store.steps ⟨Map.empty, Map.empty, true, false⟩ es).mem c.used) := by
  obtain ⟨conn, c', h1, h2, -, hc, hone, n6, n7, -⟩ := new_connection d capacity hcap create strict a
  have hkeep := session_keeps (P := One c'.capacity) (Q := fun _ => True) (fun c op _ h => h.fn op) es (fun _ _ _ => trivial) conn (by rw [hc]; exact hone) (by rw [hc]; exact hone)
  obtain ⟨f1, f2, f3, f4⟩ := one_figures (conn.steps es) hkeep.1
  refine ⟨conn, c'.capacity, h1, h2, n6, n7, f1, f2, f3, f4, fun hes => ?_⟩
  obtain ⟨conn', -, k2, k3⟩ := Falsy.database_all_objects d capacity hcap create strict a es hes
  rw [h2] at k2
  injection k2 with k2
  subst k2
  obtain ⟨ks, q1, q2, q3⟩ := f2
  refine ⟨ks, q1, q2, fun id => (q3 id).trans ?_⟩
  rw [k3.item id]
  by_cases hm : (Store.steps ⟨Map.empty, Map.empty, true, false⟩ es).mem id = none
  · simp [hm]
  · simp [hm]

/-! ## Strict mode -/

/-- Everything in the primary group is strict and within its limit. -/
def Within (c : Container V) : Prop := BuiltContainer c ∧ c.groups = [c.primary] ∧ WithinLimits (c.heap c.primary)

omit [Truthy V] in
theorem within_put {c : Container V} {g : CGroup V} (hb : BuiltContainer (c.put c.primary g)) (h : Within c) (hg : WithinLimits g) : Within (c.put c.primary g) := by
  refine ⟨hb, h.2.1, ?_⟩
  show WithinLimits (Function.update c.heap c.primary g c.primary)
  rw [Function.update_self]; exact hg

omit [Truthy V] in
theorem within_write {c : Container V} (h : Within c) (k : String) (v : V) : Within (c.write k v).2 := by
  have hb : BuiltContainer (c.write k v).2 := .call c (.write k v) h.1
  have hi := h.1.reach.inv.pinv
  have h1 : WithinLimits ((c.heap c.primary).insert k v).2 := gcall_limits hi h.2.2 (.map (.insert k v)) trivial
  have i1 : CGroup.Inv ((c.heap c.primary).insert k v).2 := CGroup.gcall_inv hi (.map (.insert k v))
  unfold Container.write at hb ⊢
  split at hb
  · rename_i heq; rw [heq] at h1; exact within_put hb h h1
  · rename_i heq; rw [heq] at h1; exact within_put hb h h1
  · rename_i heq
    rw [heq] at h1 i1
    have h2 : WithinLimits (CGroup.update _ [(k, v)]).2 := gcall_limits i1 h1 (.map (.update [(k, v)])) trivial
    split at hb <;> (rename_i heq2; rw [heq2] at h2; exact within_put hb h h2)

omit [Truthy V] in
theorem within_delete {c : Container V} (h : Within c) (id : String) : Within (c.delete id).2 := by
  have hb : BuiltContainer (c.delete id).2 := .call c (.delete id) h.1
  have hi := h.1.reach.inv.pinv
  have h1 : WithinLimits ((c.heap c.primary).pop id none).2 := gcall_limits hi h.2.2 (.map (.pop id none)) trivial
  unfold Container.delete at hb ⊢
  rw [h.2.1] at hb ⊢
  rw [Container.deleteLoop] at hb ⊢
  split at hb
  · exact h
  · exact h
  · split at hb
    · rename_i heq; rw [heq] at h1; exact within_put hb h h1
    · rename_i heq
      rw [heq] at h1
      exact within_put hb h h1

theorem within_fn {c : Container V} (h : Within c) (op : DbOp V) (hop : op ≠ .strict (some false)) : Within (op.fn c).2 := by
  cases op with
  | create id obj =>
    show Within (createFn id obj c).2
    unfold createFn
    split
    · exact h
    · exact within_write h id obj
    · exact h
  | update id obj =>
    show Within (updateFn id obj c).2
    unfold updateFn
    split
    · exact h
    · exact within_write h id obj
  | delete id => exact within_delete h id
  | strict value =>
    match value with
    | none => exact h
    | some true => exact within_put (.call c (.setStrict (some true)) h.1) h (gcall_limits h.1.reach.inv.pinv h.2.2 (.setStrict (some true)) (by simp [GroupCall.keepsStrict]))
    | some false => exact absurd rfl hop

omit [Truthy V] in
theorem within_used {c : Container V} (h : Within c) : c.used ≤ c.capacity := by
  have hl := h.2.2
  show ((c.heap c.primary).collections.map Collection.size).sum ≤ ((c.heap c.primary).collections.map Collection.maxSize).sum
  have : ∀ x ∈ (c.heap c.primary).collections, x.size ≤ x.maxSize := fun x hx => (hl x hx).2
  generalize (c.heap c.primary).collections = l at this
  induction l with
  | nil => simp
  | cons x l ih =>
    simp only [List.map_cons, List.sum_cons]
    have h1 := this x List.mem_cons_self
    have h2 := ih fun d hd => this d (List.mem_cons_of_mem _ hd)
    omega

/-- **C131 (strict).** If strict mode is turned on in a new database and committed, and not turned off again, then after every session `used` is at most
`capacity`, and `strict` is True. -/
theorem database_strict_figures (d : Disk V) (capacity : Nat) (hcap : 1 ≤ capacity) (create strict a : Bool) (es : List (Event V))
    (hes : ∀ ok, .call (.strict (some false)) ok ∉ es) :
    ∃ conn, connect ((newDb d capacity create strict).1.final (newDb d capacity create strict).2) a = .ok conn ∧
      let c := conn.steps (.call (.strict (some true)) true :: .commit true :: es)
      c.strict = true ∧ c.used ≤ c.capacity := by
  obtain ⟨conn, c', -, h2, n1, hc, hone, -, -, n3⟩ := new_connection d capacity hcap create strict a
  have hw : Within (c'.setStrict (some true)).2 := by
    refine ⟨.call c' (.setStrict (some true)) hone.built, hone.single, ?_⟩
    show WithinLimits (Function.update c'.heap c'.primary _ c'.primary)
    rw [Function.update_self]
    have hz : (c'.heap c'.primary).size = 0 := by
      have := n3
      unfold Container.size at this
      rw [hone.single] at this
      simpa using this
    intro x hx
    obtain ⟨y, hy, rfl⟩ := List.mem_map.1 hx
    refine ⟨rfl, ?_⟩
    have : y.size = 0 := by
      unfold CGroup.size at hz
      exact List.sum_eq_zero_iff.1 hz _ (List.mem_map.2 ⟨y, hy, rfl⟩)
    show y.size ≤ y.maxSize
    omega
  refine ⟨conn, h2, ?_⟩
  have h0 : ((conn.step (.call (.strict (some true)) true)).step (.commit true)).tm.work = (c'.setStrict (some true)).2 ∧
      ((conn.step (.call (.strict (some true)) true)).step (.commit true)).tm.committed = (c'.setStrict (some true)).2 := by
    rw [hc]; exact ⟨rfl, rfl⟩
  have hkeep := session_keeps (P := Within) (Q := fun op => op ≠ .strict (some false)) (fun c op hq h => within_fn h op hq) es
    (fun op ok hm he => hes ok (he ▸ hm)) _ (by rw [h0.1]; exact hw) (by rw [h0.2]; exact hw)
  refine ⟨?_, within_used hkeep.1⟩
  have hl := hkeep.1.2.2
  exact List.all_eq_true.2 fun x hx => (hl x hx).1

local instance : Truthy Nat := ⟨fun n => n != 0⟩

/-- Non-vacuity: two ids are created, a third one in a block that is undone, one is deleted: `used` is 1 and `usage` 1/100. -/
example (d : Disk Nat) : let es : List (Event Nat) := [.call (.create "a" 0) true, .call (.create "b" 1) true, .call (.create "b" 2) true, .enter,
      .call (.create "c" 3) true, .exit true true, .call (.delete "a") true]
    ∃ conn, connect ((newDb d 100).1.final (newDb d 100).2) true = .ok conn ∧ (conn.steps es).used = 1 ∧ (conn.steps es).usage = .ok (1 / 100) := by
  intro es
  obtain ⟨conn, K, -, h2, -, h4, -, -, h7, -, h9⟩ := database_figures d 100 (by omega) false false true es
  have hle : ∀ e ∈ es, Lenient e := by
    intro e he
    simp only [es, List.mem_cons, List.not_mem_nil, or_false] at he
    rcases he with rfl | rfl | rfl | rfl | rfl | rfl | rfl <;> trivial
  have hm : (Store.steps ⟨Map.empty, Map.empty, true, false⟩ es).mem = (Map.empty.set "b" 1) := by
    funext id
    by_cases ha : id = "a"
    · subst ha; decide +kernel
    · by_cases hb : id = "b"
      · subst hb; decide +kernel
      · simp [es, Store.steps, Store.step, Store.call, Store.abort, isWrite, Map.apply, Map.set, Map.empty, Map.remove, ha, hb]
  have hcard : Map.Card (Map.empty.set "b" 1) 1 := ⟨["b"], by simp, rfl, fun k => by by_cases hk : k = "b" <;> simp [Map.set, Map.empty, hk]⟩
  have h9 := h9 hle
  rw [hm] at h9
  have hu := card_unique h9 hcard
  refine ⟨conn, h2, hu, ?_⟩
  rw [h7, hu, h4 (by omega)]
  norm_num

/-- Non-vacuity: a strict database of capacity 2 never shows more than 2, whatever is created. -/
example (d : Disk Nat) (ids : List String) : ∃ conn, connect ((newDb d 2).1.final (newDb d 2).2) true = .ok conn ∧
    (conn.steps (.call (.strict (some true)) true :: .commit true :: ids.map fun id => .call (.create id 1) true)).used ≤ 2 := by
  obtain ⟨conn, h1, h2, h3⟩ := database_strict_figures d 2 (by omega) false false true (ids.map fun id => .call (.create id 1) true) (by simp)
  obtain ⟨conn', K, -, k2, -, k4, k5, -⟩ := database_figures d 2 (by omega) false false true
    (.call (.strict (some true)) true :: .commit true :: ids.map fun id => .call (.create id 1) true)
  rw [h1] at k2
  injection k2 with k2
  subst k2
  refine ⟨conn, h1, ?_⟩
  rw [k5, k4 (by omega)] at h3
  exact h3

end Verif.Props.Figures
