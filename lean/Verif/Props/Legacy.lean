import Verif.Db.Legacy
import Verif.Spec.Map
import Verif.Props.Connection

/-!
# The legacy containers and connections (C43-C47)
-/
namespace Verif.Props
open Verif Verif.Storage Verif.Spec Verif.Db
variable {V : Type}

/-! ### The routing invariant of a DbContainer -/

/-- `c` has the sub-containers 0..n-1 and every id is stored in its own one. -/
structure DbContainer.Inv (c : DbContainer V) (n : Nat) : Prop where
  keys : c.containers.dkeys = List.range n
  pos : 1 ≤ n
  sub : ∀ k d, c.containers.dget k = some d → d.WF ∧ ∀ id ∈ d.dkeys, hashId id % n = k

namespace DbContainer.Inv
open Verif.Db.DbContainer
variable {c : DbContainer V} {n : Nat}

theorem size_eq (h : Inv c n) : c.containersSize = n := by
  unfold containersSize; rw [h.keys, List.length_range]

theorem wf (h : Inv c n) : c.containers.WF := by
  unfold List.WF; rw [h.keys]; exact List.nodup_range

theorem dget_some (h : Inv c n) {k : Nat} (hk : k < n) : ∃ d, c.containers.dget k = some d := by
  apply Option.ne_none_iff_exists'.1
  rw [PyDict.dget_ne_none, h.keys, List.mem_range]; exact hk

theorem locate_eq (h : Inv c n) (id : String) :
    ∃ d, c.containers.dget (hashId id % n) = some d ∧ c.locate id = .ok (hashId id % n, d) := by
  obtain ⟨d, hd⟩ := h.dget_some (Nat.mod_lt (hashId id) h.pos)
  refine ⟨d, hd, ?_⟩
  have hp := h.pos
  unfold DbContainer.locate
  rw [h.size_eq, if_neg (by omega), hd]

/-- What is stored under an id. -/
def _root_.Verif.Db.DbContainer.view (c : DbContainer V) (n : Nat) (id : String) : Option V :=
  ((c.containers.dget (hashId id % n)).getD []).dget id

theorem read_eq (h : Inv c n) (id : String) : c.read id = .ok (c.view n id) := by
  obtain ⟨d, h1, h2⟩ := h.locate_eq id
  unfold DbContainer.read DbContainer.view
  rw [h2, h1]; rfl

theorem has_eq (h : Inv c n) (id : String) : c.has id = .ok (c.view n id).isSome := by
  obtain ⟨d, h1, h2⟩ := h.locate_eq id
  unfold DbContainer.has DbContainer.view
  rw [h2, h1]
  show Except.ok _ = Except.ok _
  congr 1
  show decide (id ∈ d.dkeys) = (d.dget id).isSome
  rw [Bool.eq_iff_iff, decide_eq_true_iff, Option.isSome_iff_ne_none, PyDict.dget_ne_none]

theorem put (h : Inv c n) {k : Nat} (hk : k < n) {d : PyDict String V} (hd : d.WF)
    (hr : ∀ id ∈ d.dkeys, hashId id % n = k) : Inv ⟨c.containers.dset k d⟩ n := by
  refine ⟨?_, h.pos, ?_⟩
  · rw [PyDict.dkeys_dset, if_pos (by rw [h.keys, List.mem_range]; exact hk), h.keys]
  · intro k' d' hg
    simp only [PyDict.dget_dset] at hg
    split_ifs at hg with hk'
    · injection hg with hg; subst hg hk'; exact ⟨hd, hr⟩
    · exact h.sub k' d' hg

theorem write_spec (h : Inv c n) (id : String) (obj : V) :
    (c.write id obj).1 = .ok () ∧ Inv (c.write id obj).2 n ∧
    (c.write id obj).2.view n = Map.set (c.view n) id obj := by
  obtain ⟨d, h1, h2⟩ := h.locate_eq id
  have hlt := Nat.mod_lt (hashId id) h.pos
  obtain ⟨hd, hr⟩ := h.sub _ d h1
  unfold DbContainer.write
  rw [h2]
  refine ⟨rfl, h.put hlt (PyDict.wf_dset hd id obj) ?_, ?_⟩
  · intro x hx
    rw [PyDict.dkeys_dset] at hx
    split_ifs at hx
    · exact hr x hx
    · rcases List.mem_append.1 hx with hx | hx
      · exact hr x hx
      · rw [List.mem_singleton.1 hx]
  · funext x
    unfold DbContainer.view Map.set
    simp only [PyDict.dget_dset]
    by_cases hx : hashId x % n = hashId id % n
    · rw [if_pos hx, hx, h1]
      exact PyDict.dget_dset d id obj x
    · rw [if_neg hx, if_neg (fun e => hx (by rw [e]))]

theorem delete_miss (h : Inv c n) (id : String) (hv : c.view n id = none) :
    c.delete id = (.error .keyError, c) := by
  obtain ⟨d, h1, h2⟩ := h.locate_eq id
  unfold DbContainer.view at hv
  rw [h1] at hv
  unfold DbContainer.delete
  rw [h2]
  simp only [Option.getD_some] at hv
  simp only [hv]

theorem delete_hit (h : Inv c n) (id : String) (hv : c.view n id ≠ none) :
    (c.delete id).1 = .ok () ∧ Inv (c.delete id).2 n ∧
    (c.delete id).2.view n = Map.remove (c.view n) id := by
  obtain ⟨d, h1, h2⟩ := h.locate_eq id
  have hlt := Nat.mod_lt (hashId id) h.pos
  obtain ⟨hd, hr⟩ := h.sub _ d h1
  unfold DbContainer.view at hv
  rw [h1] at hv
  obtain ⟨v, hv⟩ := Option.ne_none_iff_exists'.1 hv
  simp only [Option.getD_some] at hv
  unfold DbContainer.delete
  rw [h2]
  simp only [hv]
  refine ⟨trivial, h.put hlt (PyDict.wf_ddel hd id) ?_, ?_⟩
  · intro x hx
    rw [PyDict.dkeys_ddel hd] at hx
    exact hr x (List.mem_of_mem_erase hx)
  · funext x
    unfold DbContainer.view Map.remove
    simp only [PyDict.dget_dset]
    by_cases hx : hashId x % n = hashId id % n
    · rw [if_pos hx, hx, h1]
      exact PyDict.dget_ddel hd id x
    · rw [if_neg hx, if_neg (fun e => hx (by rw [e]))]

theorem size_card (h : Inv c n) : Map.Card (c.view n) c.size := by
  refine ⟨c.containers.flatMap fun p => p.2.dkeys, ?_, ?_, ?_⟩
  · rw [List.nodup_flatMap]
    have hwf := h.wf
    refine ⟨fun p hp => (h.sub p.1 p.2 (PyDict.dget_of_mem hwf hp)).1, ?_⟩
    have hp : c.containers.Pairwise (fun a b => a.1 ≠ b.1) := List.pairwise_map.1 hwf
    refine (List.pairwise_iff_forall_sublist.2 ?_)
    intro a b hab x hx hy
    have ha : a ∈ c.containers := hab.subset (by simp)
    have hb : b ∈ c.containers := hab.subset (by simp)
    have hne := List.pairwise_iff_forall_sublist.1 hp hab
    have e1 := (h.sub a.1 a.2 (PyDict.dget_of_mem hwf ha)).2 x hx
    have e2 := (h.sub b.1 b.2 (PyDict.dget_of_mem hwf hb)).2 x hy
    exact hne (e1.symm.trans e2)
  · rw [List.length_flatMap]; rfl
  · intro id
    rw [List.mem_flatMap]
    constructor
    · rintro ⟨p, hp, hid⟩
      have hg := PyDict.dget_of_mem h.wf hp
      have := (h.sub p.1 p.2 hg).2 id hid
      unfold DbContainer.view
      rw [this, hg]
      exact PyDict.dget_ne_none.2 hid
    · intro hv
      unfold DbContainer.view at hv
      obtain ⟨d, h1, _⟩ := h.locate_eq id
      rw [h1] at hv
      exact ⟨_, PyDict.dget_mem h1, PyDict.dget_ne_none.1 hv⟩

end DbContainer.Inv

/-! ### C43 -/

/-- What a history of writes and deletes means for a plain map. -/
def legacyMap : Map V → List (DbContainer.Call V) → Map V
  | m, [] => m
  | m, .write id obj :: ops => legacyMap (m.set id obj) ops
  | m, .delete id :: ops => legacyMap (m.remove id) ops

/-- The container after a history. -/
def legacyRun : DbContainer V → List (DbContainer.Call V) → DbContainer V
  | c, [] => c
  | c, op :: ops => legacyRun (c.call op).2 ops

/-- DbContainers made by the constructor and `expand_size`, still empty. -/
inductive Fresh : DbContainer V → Prop
  | new : Fresh (DbContainer.new none)
  | expand (c : DbContainer V) (k : Int) : Fresh c → Fresh (c.expandSize k).2

theorem dget_range {α : Type} (f : Nat → α) (n k : Nat) :
    List.dget ((List.range n).map fun k => (k, f k)) k = if k < n then some (f k) else none := by
  induction n with
  | zero => simp [List.dget]
  | succ n ih =>
    have happ : ∀ (a b : PyDict Nat α), List.dget (a ++ b) k =
        match List.dget a k with | some v => some v | none => List.dget b k := by
      intro a b
      induction a with
      | nil => rfl
      | cons p a ih =>
        obtain ⟨x, v⟩ := p
        simp only [List.cons_append, List.dget]
        split_ifs <;> simp_all
    rw [List.range_succ, List.map_append, happ, ih]
    split_ifs with h1 h2 h2
    · rfl
    · omega
    · have : n = k := by omega
      subst this; simp [List.dget]
    · have : n ≠ k := by omega
      simp [List.dget, this]

theorem expand_inv_empty {c : DbContainer V} {n : Nat} (h : DbContainer.Inv c n)
    (he : ∀ id, c.view n id = none) (k : Int) :
    ∃ m, DbContainer.Inv (c.expandSize k).2 m ∧ ∀ id, (c.expandSize k).2.view m id = none := by
  unfold DbContainer.expandSize
  rw [h.size_eq]
  split_ifs with hk
  · exact ⟨n, h, he⟩
  · have hempty : ∀ j d, c.containers.dget j = some d → d = [] := by
      intro j d hd
      cases d with
      | nil => rfl
      | cons p d =>
        have hr := (h.sub j _ hd).2 p.1 (by simp [List.dkeys])
        have := he p.1
        unfold DbContainer.view at this
        rw [hr, hd] at this
        simp [List.dget] at this
    have hsub : ∀ j, (c.containers.dget j).getD [] = [] := by
      intro j
      cases hj : c.containers.dget j with
      | none => rfl
      | some d => exact hempty j d hj
    have hp := h.pos
    refine ⟨k.toNat, ⟨?_, by omega, ?_⟩, ?_⟩
    · simp [List.dkeys, Function.comp_def]
    · intro j d hd
      simp only [dget_range] at hd
      split_ifs at hd
      injection hd with hd
      rw [hsub] at hd
      subst hd
      exact ⟨PyDict.wf_nil, by simp [List.dkeys]⟩
    · intro id
      unfold DbContainer.view
      simp only [dget_range]
      split_ifs
      · simp [hsub, List.dget]
      · rfl

theorem Fresh.inv {c : DbContainer V} (h : Fresh c) :
    ∃ n, DbContainer.Inv c n ∧ ∀ id, c.view n id = none := by
  induction h with
  | new =>
    refine ⟨1, ⟨rfl, le_refl 1, ?_⟩, ?_⟩
    · intro k d hd
      by_cases hk : k = 0
      · subst hk
        simp only [DbContainer.new, List.dget, if_true] at hd
        injection hd with hd; subst hd
        exact ⟨PyDict.wf_nil, by simp [List.dkeys]⟩
      · simp only [DbContainer.new, List.dget] at hd
        rw [if_neg (fun e => hk e.symm)] at hd; simp at hd
    · intro id; unfold DbContainer.view; simp [DbContainer.new, Nat.mod_one, List.dget]
  | expand c k _ ih =>
    obtain ⟨n, h1, h2⟩ := ih
    exact expand_inv_empty h1 h2 k

theorem call_legacy {c : DbContainer V} {n : Nat} (h : DbContainer.Inv c n) (op : DbContainer.Call V) :
    DbContainer.Inv (c.call op).2 n ∧ (c.call op).2.view n = legacyMap (c.view n) [op] := by
  cases op with
  | write id obj => exact (h.write_spec id obj).2
  | delete id =>
    by_cases hv : c.view n id = none
    · show DbContainer.Inv (c.delete id).2 n ∧ _
      rw [show c.call (.delete id) = c.delete id from rfl, h.delete_miss id hv]
      refine ⟨h, ?_⟩
      funext x
      show c.view n x = Map.remove (c.view n) id x
      unfold Map.remove
      split_ifs with hx
      · rw [hx, hv]
      · rfl
    · exact (h.delete_hit id hv).2

theorem run_legacy {n : Nat} (ops : List (DbContainer.Call V)) : ∀ {c : DbContainer V}, DbContainer.Inv c n →
    DbContainer.Inv (legacyRun c ops) n ∧ (legacyRun c ops).view n = legacyMap (c.view n) ops := by
  induction ops with
  | nil => intro c h; exact ⟨h, rfl⟩
  | cons op ops ih =>
    intro c h
    obtain ⟨h1, h2⟩ := call_legacy h op
    obtain ⟨h3, h4⟩ := ih h1
    refine ⟨h3, h4.trans ?_⟩
    rw [h2]
    cases op <;> rfl

/-- **C43.** After any history of writes and deletes on a DbContainer with any number of
sub-containers, `read`, `has` and `size` answer as the plain map of that history; a write
returns, a delete returns if the id is stored and otherwise raises KeyError and changes
nothing. -/
theorem dbcontainer_refines_map (c0 : DbContainer V) (h0 : Fresh c0) (ops : List (DbContainer.Call V)) :
    let c := legacyRun c0 ops
    let m := legacyMap Map.empty ops
    (∀ id, c.read id = .ok (m id)) ∧ (∀ id, c.has id = .ok (m id).isSome) ∧ Map.Card m c.size ∧
    (∀ id obj, (c.write id obj).1 = .ok ()) ∧
    (∀ id, m id ≠ none → (c.delete id).1 = .ok ()) ∧
    (∀ id, m id = none → c.delete id = (.error .keyError, c)) := by
  intro c m
  obtain ⟨n, h1, h2⟩ := h0.inv
  obtain ⟨h3, h4⟩ := run_legacy ops h1
  have hm : c.view n = m := by
    rw [show c.view n = _ from h4, show c0.view n = Map.empty from funext h2]
  refine ⟨fun id => ?_, fun id => ?_, ?_, fun id obj => (h3.write_spec id obj).1, ?_, ?_⟩
  · rw [← hm]; exact h3.read_eq id
  · rw [← hm]; exact h3.has_eq id
  · rw [← hm]; exact h3.size_card
  · intro id hv; exact (h3.delete_hit id (by rw [show DbContainer.view _ n id = m id from congrFun hm id]; exact hv)).1
  · intro id hv; exact h3.delete_miss id ((congrFun hm id).trans hv)

/-- Non-vacuity: three sub-containers, overwriting, deleting. -/
example : let c0 := ((DbContainer.new (V := Nat)).expandSize 3).2
    Fresh c0 ∧ c0.containersSize = 3 ∧
    (legacyRun c0 [.write "a" 1, .write "b" 2, .write "a" 3, .delete "b", .delete "x"]).read "a" = .ok (some 3) ∧
    (legacyRun c0 [.write "a" 1, .write "b" 2, .write "a" 3, .delete "b", .delete "x"]).size = 1 :=
  ⟨.expand _ 3 .new, by decide +kernel, by decide +kernel, by decide +kernel⟩

/-! ### C44 -/

/-- **C44 (partial).** `expand_size(k)` raises ValueError and changes nothing unless `k` is
larger than the number of sub-containers; then there are `k` of them, the number of stored
objects is unchanged, and an id is still found (with its object) exactly when its hash has the same
remainder for both sizes; every other id now reads as absent. -/
theorem dbcontainer_expand_partial (c0 : DbContainer V) (h0 : Fresh c0) (ops : List (DbContainer.Call V))
    (k : Int) :
    let c := legacyRun c0 ops
    let m := legacyMap Map.empty ops
    (k ≤ c.containersSize → c.expandSize k = (.error .valueError, c)) ∧
    (c.containersSize < k → (c.expandSize k).1 = .ok () ∧
      ((c.expandSize k).2.containersSize : Int) = k ∧ (c.expandSize k).2.size = c.size ∧
      (∀ id, (c.expandSize k).2.read id = .ok
        (if hashId id % k.toNat = hashId id % c.containersSize then m id else none)) ∧
      (∀ id, m id ≠ none → hashId id % k.toNat ≠ hashId id % c.containersSize →
        (c.expandSize k).2.read id = .ok none)) := by
  intro c m
  obtain ⟨n, h1, h2⟩ := h0.inv
  obtain ⟨h3, h4⟩ := run_legacy ops h1
  have hm : ∀ id, c.view n id = m id := fun id => by
    rw [show c.view n = _ from h4, show c0.view n = Map.empty from funext h2]
  have hs : c.containersSize = n := h3.size_eq
  have hp := h3.pos
  constructor
  · intro hk; unfold DbContainer.expandSize; rw [if_pos hk]
  · intro hk
    have hks : (k.toNat : Int) = k := Int.toNat_of_nonneg (by omega)
    have hnk : n < k.toNat := by omega
    have he : c.expandSize k = (.ok (), ⟨(List.range k.toNat).map fun j => (j, (c.containers.dget j).getD [])⟩) := by
      unfold DbContainer.expandSize; rw [if_neg (by omega)]
    have hread : ∀ id, (c.expandSize k).2.read id = .ok
        (if hashId id % k.toNat = hashId id % c.containersSize then m id else none) := by
      intro id
      rw [he]
      have hlen : DbContainer.containersSize ⟨(List.range k.toNat).map fun j => (j, (c.containers.dget j).getD [])⟩ = k.toNat := by
        simp [DbContainer.containersSize, List.dkeys]
      have hlt := Nat.mod_lt (hashId id) (show 0 < k.toNat by omega)
      unfold DbContainer.read DbContainer.locate
      simp only [hlen, dget_range]
      rw [if_neg (by omega), if_pos hlt]
      simp only [hs]
      congr 1
      split_ifs with hb
      · rw [← hm, DbContainer.view, hb]
      · by_cases hlt' : hashId id % k.toNat < n
        · obtain ⟨d, hd⟩ := h3.dget_some hlt'
          have hd' : c.containers.dget (hashId id % k.toNat) = some d := hd
          rw [hd', Option.getD_some, PyDict.dget_eq_none]
          intro hmem
          exact hb ((h3.sub _ d hd).2 id hmem).symm
        · have : c.containers.dget (hashId id % k.toNat) = none := by
            rw [PyDict.dget_eq_none]
            have := h3.keys
            rw [show c.containers.dkeys = _ from this, List.mem_range]; exact hlt'
          rw [this]; rfl
    refine ⟨by rw [he], ?_, ?_, hread, ?_⟩
    · rw [he]; simp only [DbContainer.containersSize, List.dkeys, List.length_map, List.length_range]; exact hks
    · rw [he]
      have hmapeq : c.containers = (List.range n).map fun j => (j, (c.containers.dget j).getD []) := by
        have hw := h3.wf
        have hkeys : c.containers.map Prod.fst = List.range n := h3.keys
        rw [← hkeys, List.map_map]
        conv_lhs => rw [← List.map_id c.containers]
        apply List.map_congr_left
        intro p hp
        have := PyDict.dget_of_mem hw hp
        show p = (p.1, (c.containers.dget p.1).getD [])
        rw [show c.containers.dget p.1 = some p.2 from this]; rfl
      unfold DbContainer.size
      conv_rhs => rw [hmapeq]
      simp only [List.map_map, Function.comp_def]
      obtain ⟨t, ht⟩ : ∃ t, k.toNat = n + t := ⟨k.toNat - n, by omega⟩
      rw [ht]
      clear hnk ht
      induction t with
      | zero => rfl
      | succ t ih =>
        rw [← Nat.add_assoc, List.range_succ, List.map_append, List.sum_append, ih]
        have : c.containers.dget (n + t) = none := by
          rw [PyDict.dget_eq_none, show c.containers.dkeys = _ from h3.keys, List.mem_range]; omega
        simp [this, List.dkeys]
    · intro id _ hne
      rw [hread, if_neg hne]

/-- **C44 (counterexample).** One object in the default container; after expanding to two
sub-containers it cannot be read any more, although it is still stored. -/
theorem dbcontainer_expand_counterexample :
    let c := (legacyRun (DbContainer.new (V := Nat)) [.write "a" 1])
    c.read "a" = .ok (some 1) ∧ (c.expandSize 2).1 = .ok () ∧
    (c.expandSize 2).2.read "a" = .ok none ∧ (c.expandSize 2).2.size = 1 := by decide +kernel

/-! ### C45 -/

/-- Calls on a legacy connection. -/
inductive LegacyOp (V : Type) where
  | create (id : String) (obj : V)
  | update (id : String) (obj : V)
  | delete (id : String)

/-- A call (dispatch only). -/
def legacyCall (c : LegacyConn V) (ok : Bool) : LegacyOp V → Outcome Unit × LegacyConn V
  | .create id obj => c.create id obj ok
  | .update id obj => c.update id obj ok
  | .delete id => c.delete id ok

/-- What the call does to the container. -/
def LegacyOp.toCall : LegacyOp V → DbContainer.Call V
  | .create id obj => .write id obj
  | .update id obj => .write id obj
  | .delete id => .delete id

theorem legacyCall_eq (c : LegacyConn V) (ok : Bool) (op : LegacyOp V) :
    legacyCall c ok op = c.decorated (fun s => s.call op.toCall) ok := by cases op <;> rfl

/-- A history of calls whose commits succeed. -/
def legacyCalls : LegacyConn V → List (LegacyOp V) → LegacyConn V
  | c, [] => c
  | c, op :: ops => legacyCalls (legacyCall c true op).2 ops

/-- **C45 (counterexample).** With the default transaction manager every create, update and
delete raises AttributeError, on every database, and nothing is ever stored. -/
theorem legacy_default_manager_counterexample (s : DbContainer V) (ops : List (LegacyOp V)) :
    let c := legacyCalls (LegacyConn.init s false) ops
    c = LegacyConn.init s false ∧ ∀ op ok, (legacyCall c ok op).1 = .error .attributeError := by
  have key : ∀ (op : LegacyOp V) ok, legacyCall (LegacyConn.init s false) ok op =
      (.error .attributeError, LegacyConn.init s false) := by
    intro op ok; rw [legacyCall_eq]; rfl
  intro c
  have hc : c = LegacyConn.init s false := by
    show legacyCalls _ ops = _
    induction ops with
    | nil => rfl
    | cons op ops ih => show legacyCalls (legacyCall _ true op).2 ops = _; rw [key]; exact ih
  refine ⟨hc, ?_⟩
  intro op ok; rw [hc, key]

/-- **C45, one call** with a CitrineTransactionManager: a call that returns is on disk, a call
that raises changes nothing on disk, and the session sees what is on disk. -/
theorem legacy_call_durable (c : LegacyConn V) (ht : c.threaded = false) (ha : c.tm.autocommit = true)
    (op : LegacyOp V) (ok : Bool) :
    ((legacyCall c ok op).1 = .ok () →
      (legacyCall c ok op).2.tm.committed = (c.tm.committed.call op.toCall).2 ∧
      (legacyCall c ok op).2.tm.autocommit = true) ∧
    (∀ e, (legacyCall c ok op).1 = .error e → (legacyCall c ok op).2.tm.committed = c.tm.committed) ∧
    (legacyCall c ok op).2.tm.work = (legacyCall c ok op).2.tm.committed ∧
    (legacyCall c ok op).2.threaded = false := by
  rw [legacyCall_eq]
  unfold LegacyConn.decorated
  rw [ht]
  simp only [Bool.false_eq_true, if_false]
  rw [autocommitted_on _ ha]
  rcases hr : (c.tm.committed.call op.toCall).1 with e | v
  · simp
  · cases ok
    · simp
    · simp [ha]

/-- **C45.** With a CitrineTransactionManager, after any history of create/update/delete whose
commits succeed, disk and session agree and answer as the plain map of the history; a
delete of a missing id raises KeyError and changes nothing; `conn[id]` is `read`,
`conn[ids]` the list of reads, slices raise TypeError. Missing: the default manager
(`legacy_default_manager_counterexample`). -/
theorem legacy_connection_partial (c0 : DbContainer V) (h0 : Fresh c0) (ops : List (LegacyOp V)) :
    let c := legacyCalls (LegacyConn.init c0 true) ops
    let m := legacyMap Map.empty (ops.map LegacyOp.toCall)
    c.tm.work = c.tm.committed ∧ (∀ id, c.read id = .ok (m id)) ∧
    (∀ id, c.tm.committed.read id = .ok (m id)) ∧ Map.Card m c.tm.committed.size ∧
    (∀ id obj, (c.create id obj).1 = .ok () ∧ (c.update id obj).1 = .ok ()) ∧
    (∀ id, m id = none → (c.delete id).1 = .error .keyError ∧ (c.delete id).2.tm.committed = c.tm.committed ∧
      (c.delete id).2.tm.work = c.tm.work) ∧
    (∀ id, m id ≠ none → (c.delete id).1 = .ok ()) ∧
    (∀ id, c.subscript (.str id) = .ok (.inl (m id))) ∧
    (∀ ids, c.subscript (.iter ids) = .ok (.inr (ids.map m))) ∧
    c.subscript .slice = .error .typeError := by
  have key : ∀ (ops : List (LegacyOp V)) (c : LegacyConn V), c.threaded = false → c.tm.autocommit = true →
      c.tm.work = c.tm.committed →
      let c' := legacyCalls c ops
      c'.threaded = false ∧ c'.tm.autocommit = true ∧ c'.tm.work = c'.tm.committed ∧
      c'.tm.committed = legacyRun c.tm.committed (ops.map LegacyOp.toCall) := by
    intro ops
    induction ops with
    | nil => intro c h1 h2 h3; exact ⟨h1, h2, h3, rfl⟩
    | cons op ops ih =>
      intro c h1 h2 h3
      obtain ⟨k1, k2, k3, k4⟩ := legacy_call_durable c h1 h2 op true
      have hauto : (legacyCall c true op).2.tm.autocommit = true ∧
          (legacyCall c true op).2.tm.committed = (c.tm.committed.call op.toCall).2 := by
        rcases hr : (legacyCall c true op).1 with e | v
        · -- the container call raised
          have hd : legacyCall c true op = _ := legacyCall_eq c true op
          unfold LegacyConn.decorated at hd
          rw [h1] at hd
          simp only [Bool.false_eq_true, if_false] at hd
          rw [autocommitted_on _ h2] at hd
          rcases hx : (c.tm.committed.call op.toCall).1 with e' | v'
          · rw [hx] at hd
            simp only at hd
            rw [hd]
            refine ⟨h2, ?_⟩
            show c.tm.committed = _
            cases op with
            | create id obj =>
              show c.tm.committed = (c.tm.committed.write id obj).2
              have hx' : (c.tm.committed.write id obj).1 = .error e' := hx
              unfold DbContainer.write at hx' ⊢
              split at hx' <;> simp_all
            | update id obj =>
              show c.tm.committed = (c.tm.committed.write id obj).2
              have hx' : (c.tm.committed.write id obj).1 = .error e' := hx
              unfold DbContainer.write at hx' ⊢
              split at hx' <;> simp_all
            | delete id =>
              show c.tm.committed = (c.tm.committed.delete id).2
              have hx' : (c.tm.committed.delete id).1 = .error e' := hx
              unfold DbContainer.delete at hx' ⊢
              split at hx'
              · simp_all
              · split at hx' <;> simp_all
          · rw [hx] at hd
            simp only at hd
            rw [hd] at hr; simp at hr
        · exact ⟨(k1 hr).2, (k1 hr).1⟩
      obtain ⟨j1, j2, j3, j4⟩ := ih _ k4 hauto.1 k3
      refine ⟨j1, j2, j3, j4.trans ?_⟩
      rw [hauto.2]; rfl
  intro c m
  obtain ⟨k1, k2, k3, k4⟩ := key ops (LegacyConn.init c0 true) rfl rfl rfl
  have k4' : c.tm.committed = legacyRun c0 (ops.map LegacyOp.toCall) := k4
  obtain ⟨m1, _, m3, m4, m5, m6⟩ := dbcontainer_refines_map c0 h0 (ops.map LegacyOp.toCall)
  have hrd : ∀ id, c.read id = .ok (m id) := fun id => by
    show c.tm.work.read id = _
    rw [show c.tm.work = c.tm.committed from k3, k4']; exact m1 id
  have hcall : ∀ op, (legacyCall c true op).1 = (c.tm.committed.call op.toCall).1 := by
    intro op
    rw [legacyCall_eq]
    unfold LegacyConn.decorated
    rw [show c.threaded = false from k1]
    simp only [Bool.false_eq_true, if_false]
    rw [autocommitted_on _ (show c.tm.autocommit = true from k2)]
    rcases hx : (c.tm.committed.call op.toCall).1 with e | v <;> rfl
  refine ⟨k3, hrd, fun id => by rw [k4']; exact m1 id, by rw [k4']; exact m3, ?_, ?_, ?_, ?_, ?_, rfl⟩
  · intro id obj
    refine ⟨(hcall (.create id obj)).trans ?_, (hcall (.update id obj)).trans ?_⟩ <;>
      (rw [k4']; exact m4 id obj)
  · intro id hv
    have h1 := (hcall (.delete id)).trans (show ((c.tm.committed.delete id)).1 = .error .keyError by
      rw [k4', m6 id hv])
    obtain ⟨_, d2, d3, _⟩ := legacy_call_durable c k1 k2 (.delete id) true
    have := d2 _ h1
    exact ⟨h1, this, d3.trans (this.trans (show c.tm.work = c.tm.committed from k3).symm)⟩
  · intro id hv
    refine (hcall (.delete id)).trans ?_
    rw [k4']; exact m5 id hv
  · intro id
    show Except.map Sum.inl (c.read id) = _
    rw [hrd]; rfl
  · intro ids
    show Except.map Sum.inr (ids.mapM fun id => c.read id) = _
    have : (ids.mapM fun id => c.read id) = .ok (ids.map m) := by
      induction ids with
      | nil => rfl
      | cons id ids ih => rw [List.mapM_cons, ih, hrd]; rfl
    rw [this]; rfl

/-- Non-vacuity. -/
example : let c := legacyCalls (LegacyConn.init (DbContainer.new (V := Nat)) true) [.create "a" 1, .update "b" 2,
        .create "a" 3, .delete "b"];
    c.read "a" = .ok (some 3) ∧ c.tm.committed.read "b" = .ok none := by decide +kernel

/-- C44/C45: `expand_containers(num)` is one transaction: for `num ≤ 0` it raises ValueError and
leaves the disk unchanged, otherwise the expanded container is on disk; if the commit fails
nothing is. -/
theorem legacy_expand (c : LegacyConn V) (num : Int) :
    (num ≤ 0 → ∀ ok, (c.expandContainers num ok).1 = .error .valueError ∧
      (c.expandContainers num ok).2.tm.committed = c.tm.committed ∧
      (c.expandContainers num ok).2.tm.work = c.tm.committed) ∧
    (0 < num → (c.expandContainers num true).1 = .ok () ∧
      (c.expandContainers num true).2.tm.committed =
        (c.tm.committed.expandSize (c.tm.committed.containersSize + num)).2 ∧
      (c.expandContainers num false).2.tm.committed = c.tm.committed ∧
      ∃ e, (c.expandContainers num false).1 = .error e) := by
  have hw : c.tm.enter.work = c.tm.committed := rfl
  constructor
  · intro hn ok
    have he : c.tm.committed.expandSize (c.tm.committed.containersSize + num) = (.error .valueError, c.tm.committed) := by
      unfold DbContainer.expandSize; rw [if_pos (by omega)]
    unfold LegacyConn.expandContainers
    simp only [hw, he]
    exact ⟨trivial, rfl, rfl⟩
  · intro hn
    have he : (c.tm.committed.expandSize (c.tm.committed.containersSize + num)).1 = .ok () := by
      unfold DbContainer.expandSize; rw [if_neg (by omega)]
    unfold LegacyConn.expandContainers
    simp only [hw, he]
    exact ⟨rfl, rfl, rfl, _, rfl⟩

/-! ### C46 -/

/-- The map meaning of a registry history. -/
def registryMap : Map RegEntry → List Registry.Call → Map RegEntry
  | m, [] => m
  | m, .write id r :: ops => registryMap (m.set id (.record r)) ops
  | m, .delete id :: ops => registryMap (m.remove id) ops
  | m, .expand _ :: ops => registryMap m ops

/-- The registry after a history. -/
def registryRun : Registry → List Registry.Call → Registry
  | r, [] => r
  | r, op :: ops => registryRun (r.call op) ops

/-- **C46.** After any history on a registry (empty, or made from a dict of modules), `read`
and `has` answer as the plain map of the history: a written id holds the record (name,
path) of its module; `delete` of a missing id raises KeyError and changes nothing;
`expand_size` changes nothing. -/
theorem registry_refines_map (mods : Option (PyDict String RegEntry)) (hm : ∀ d, mods = some d → d.WF)
    (ops : List Registry.Call) :
    let r := registryRun (Registry.new mods) ops
    let m := registryMap (fun id => (mods.getD []).dget id) ops
    (∀ id, r.read id = m id) ∧ (∀ id, r.has id = (m id).isSome) ∧
    (∀ id x, (r.write id x).read id = some (.record x) ∧ ∀ y, y ≠ id → (r.write id x).read y = r.read y) ∧
    (∀ id, m id = none → r.delete id = (.error .keyError, r)) ∧
    (∀ id, m id ≠ none → (r.delete id).1 = .ok () ∧ (r.delete id).2.read id = none ∧
      ∀ y, y ≠ id → (r.delete id).2.read y = r.read y) ∧
    (∀ n, r.expandSize n = r) := by
  have h0 : (Registry.new mods).modules.WF ∧ ∀ id, (Registry.new mods).read id = (mods.getD []).dget id := by
    rcases mods with _ | d
    · exact ⟨PyDict.wf_nil, fun _ => rfl⟩
    · cases d with
      | nil => exact ⟨PyDict.wf_nil, fun _ => rfl⟩
      | cons p ps => exact ⟨hm _ rfl, fun _ => rfl⟩
  have key : ∀ (ops : List Registry.Call) (r : Registry) (m : Map RegEntry), r.modules.WF → (∀ id, r.read id = m id) →
      (registryRun r ops).modules.WF ∧ ∀ id, (registryRun r ops).read id = registryMap m ops id := by
    intro ops
    induction ops with
    | nil => intro r m h1 h2; exact ⟨h1, h2⟩
    | cons op ops ih =>
      intro r m h1 h2
      cases op with
      | write id x =>
        refine ih (r.write id x) (m.set id (.record x)) (PyDict.wf_dset h1 _ _) fun y => ?_
        show List.dget _ y = _
        unfold Registry.write Map.set
        rw [PyDict.dget_dset, ← h2]; rfl
      | delete id =>
        refine ih (r.delete id).2 (m.remove id) ?_ ?_
        · unfold Registry.delete; split
          · exact h1
          · exact PyDict.wf_ddel h1 _
        · intro y
          unfold Registry.delete Map.remove
          split
          · rename_i hn
            split_ifs with hy
            · rw [hy]; exact hn
            · exact h2 y
          · show List.dget _ y = _
            rw [PyDict.dget_ddel h1, ← h2]; rfl
      | expand n => exact ih r m h1 h2
  intro r m
  obtain ⟨hw, hr⟩ := key ops _ _ h0.1 h0.2
  have hr' : ∀ id, r.modules.dget id = m id := hr
  refine ⟨hr, ?_, ?_, ?_, ?_, fun _ => rfl⟩
  · intro id
    unfold Registry.has
    rw [Bool.eq_iff_iff, decide_eq_true_iff, Option.isSome_iff_ne_none, ← PyDict.dget_ne_none, hr']
  · intro id x
    refine ⟨?_, fun y hy => ?_⟩
    · show List.dget _ id = _
      unfold Registry.write; rw [PyDict.dget_dset, if_pos rfl]
    · show List.dget _ y = _
      unfold Registry.write; rw [PyDict.dget_dset, if_neg hy]; rfl
  · intro id hn
    unfold Registry.delete; rw [hr', hn]
  · intro id hn
    obtain ⟨v, hv⟩ := Option.ne_none_iff_exists'.1 hn
    unfold Registry.delete
    rw [hr', hv]
    refine ⟨rfl, ?_, fun y hy => ?_⟩
    · show List.dget _ id = _
      rw [PyDict.dget_ddel hw, if_pos rfl]
    · show List.dget _ y = _
      rw [PyDict.dget_ddel hw, if_neg hy]; rfl

example : (registryRun (Registry.new none) [.write "a" ⟨"n", "p"⟩, .write "b" ⟨"x", "y"⟩, .delete "b"]).read "a"
    = some (.record ⟨"n", "p"⟩) := by decide +kernel

/-! ### C47 -/

theorem runTasks_get (conns : List (String → Outcome (Option V))) (id : String) (order : List Nat) :
    ∀ (rs : List (Option (Outcome (Option V)))), rs.length = conns.length → ∀ i (hi : i < conns.length),
    (runTasks conns id order rs)[i]? = if i ∈ order then some (some (conns[i] id)) else rs[i]? := by
  induction order with
  | nil => intro rs _ i _; simp [runTasks]
  | cons t order ih =>
    intro rs hl i hi
    unfold runTasks
    by_cases ht : t < conns.length
    · rw [List.getElem?_eq_getElem ht]
      simp only
      rw [ih _ (by simpa using hl) i hi, List.getElem?_set]
      by_cases hit : t = i
      · subst hit
        simp [hl, hi]
      · have : i ≠ t := fun e => hit e.symm
        simp [hit, this]
    · rw [show conns[t]? = none from List.getElem?_eq_none (by omega)]
      simp only
      rw [ih _ hl i hi]
      have : i ≠ t := by omega
      simp [this]

theorem runTasks_length (conns : List (String → Outcome (Option V))) (id : String) (order : List Nat) :
    ∀ rs, (runTasks conns id order rs).length = rs.length := by
  induction order with
  | nil => intro rs; rfl
  | cons t order ih =>
    intro rs
    unfold runTasks
    split
    · exact ih rs
    · rw [ih, List.length_set]

theorem runTasks_all (conns : List (String → Outcome (Option V))) (id : String) (order : List Nat)
    (ho : ∀ i < conns.length, i ∈ order) :
    runTasks conns id order (conns.map fun _ => none) = conns.map fun r => some (r id) := by
  apply List.ext_getElem?
  intro i
  by_cases hi : i < conns.length
  · rw [runTasks_get conns id order _ (by simp) i hi, if_pos (ho i hi)]
    simp [hi]
  · rw [List.getElem?_eq_none (by rw [runTasks_length]; simp; omega), List.getElem?_eq_none (by simp; omega)]

theorem collect_ok (conns : List (String → Outcome (Option V))) (id : String)
    (f : (String → Outcome (Option V)) → Option V) (hok : ∀ r ∈ conns, r id = .ok (f r)) :
    collect (conns.map fun r => some (r id)) = .ok (conns.filterMap f) := by
  induction conns with
  | nil => rfl
  | cons r conns ih =>
    rw [List.map_cons, hok r List.mem_cons_self]
    unfold collect
    rw [ih fun x hx => hok x (List.mem_cons_of_mem _ hx), List.filterMap_cons]
    simp only
    cases f r <;> rfl

/-- **C47 (partial).** Without timeout and with `multiple=False`: whatever order the tasks run
in, the result is the object of the first database (in the given order) that has the id,
and None if none has it. Missing: the error for duplicates, `multiple=True` and timeouts
(counterexamples below). -/
theorem group_read_partial (conns : List (String → Outcome (Option V))) (order : List Nat)
    (ho : ∀ i < conns.length, i ∈ order) (id : String)
    (f : (String → Outcome (Option V)) → Option V) (hok : ∀ r ∈ conns, r id = .ok (f r)) :
    groupRead conns order id = .ok (conns.findSome? f) := by
  unfold groupRead
  rw [runTasks_all conns id order ho, collect_ok conns id f hok]
  simp only [Option.getD_none, ne_eq, not_true_eq_false, if_false, Bool.false_eq_true]
  rw [List.head?_filterMap]

/-- Non-vacuity: three databases, tasks finishing in reverse order. -/
example : groupRead (V := Nat) [fun _ => .ok none, fun _ => .ok (some 7), fun _ => .ok (some 8)] [2, 1, 0] "x"
    = .ok (some 7) := by decide +kernel

/-- **C47 (counterexample).** Two databases have the id and no error is raised. -/
theorem group_read_duplicate_counterexample (a b : V) (order : List Nat) (h0 : 0 ∈ order) (h1 : 1 ∈ order)
    (id : String) :
    groupRead [fun _ => .ok (some a), fun _ => .ok (some b)] order id = .ok (some a) := by
  have := group_read_partial [fun _ => .ok (some a), fun _ => .ok (some b)] order
    (by intro i hi; have : i = 0 ∨ i = 1 := by simp at hi; omega
        rcases this with rfl | rfl <;> assumption) id
    (fun r => match r id with | .ok v => v | .error _ => none) (by simp)
  rw [this]; rfl

/-- **C47 (counterexample).** `multiple=True` always raises AttributeError (with at least one
database), and any timeout raises TypeError. -/
theorem group_read_multiple_counterexample (conns : List (String → Outcome (Option V))) (order : List Nat)
    (ho : ∀ i < conns.length, i ∈ order) (id : String) (hne : conns ≠ [])
    (f : (String → Outcome (Option V)) → Option V) (hok : ∀ r ∈ conns, r id = .ok (f r)) :
    groupRead conns order id (multiple := true) = .error .attributeError ∧
    ∀ t m, t ≠ 0 → groupRead conns order id (timeout := some t) (multiple := m) = .error .typeError := by
  constructor
  · unfold groupRead
    rw [runTasks_all conns id order ho, collect_ok conns id f hok]
    cases conns with
    | nil => exact absurd rfl hne
    | cons _ _ => rfl
  · intro t m ht
    unfold groupRead
    rw [if_pos (by simpa using ht)]

end Verif.Props
