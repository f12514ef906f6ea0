import Verif.Props.ContainerTx
import Verif.Props.ContainerHistory

/-!
# Containers made by `Container.new` and used without strict mode (C89 - C92)
-/
namespace Verif.Props
open Verif.Storage Verif.Spec
variable {V : Type}

/-! ### Specification -/

/-- The container `c` was made by `Container.new`, and any calls were made on it that do not turn strict mode on; `m` has the object last
written under every id that was not deleted since. -/
def InUse (c : Container V) (m : Map V) : Prop :=
  ∃ capacity mc c0 ops, Container.new capacity mc false = .ok c0 ∧ (∀ op ∈ ops, op ≠ .setStrict (some true)) ∧
    c = (c0.run ops).2 ∧ m = latest Map.empty ops (c0.run ops).1

/-- Every id is read from `c` as `m` says. -/
def Reads [Truthy V] (c : Container V) (m : Map V) : Prop := ∀ id, c.read id = .ok (m id) ∧ (c.has id = .ok 0 ↔ m id = none)

/-! ### Proofs -/

theorem new_nonstrict {capacity mc : Nat} {c0 : Container V} (h0 : Container.new capacity mc false = .ok c0) :
    (c0.heap c0.primary).NonStrict := by
  by_cases hz : capacity = 0 ∨ mc = 0
  · obtain ⟨e, he⟩ := (container_new_errors (V := V) capacity mc false).2 hz
    rw [he] at h0; simp at h0
  · unfold Container.new at h0
    cases hg : Container.makeGroup (V := V) capacity mc false with
    | error e => rw [hg] at h0; simp at h0
    | ok g =>
      rw [hg] at h0
      simp only [Container.init, Container.setStrict, List.not_mem_nil, if_false] at h0
      injection h0 with h0
      subst h0
      intro x hx
      simp only [Container.put, Function.update_self] at hx
      obtain ⟨d, _, rfl⟩ := List.mem_map.1 hx; rfl

theorem InUse.hist {c : Container V} {m : Map V} (h : InUse c m) : Hist c m ∧ (c.heap c.primary).NonStrict := by
  obtain ⟨capacity, mc, c0, ops, h0, hops, rfl, rfl⟩ := h
  have key : ∀ (ops : List (ContCall V)) (c : Container V) (m : Map V), Hist c m → (c.heap c.primary).NonStrict →
      (∀ op ∈ ops, op ≠ .setStrict (some true)) →
      Hist (c.run ops).2 (latest m ops (c.run ops).1) ∧ ((c.run ops).2.heap (c.run ops).2.primary).NonStrict := by
    intro ops
    induction ops with
    | nil => intro c m h hn _; exact ⟨h, hn⟩
    | cons op ops ih =>
      intro c m h hn hall
      exact ih _ _ (h.step op fun _ _ => hn) (h.nonstrict hn op (hall op List.mem_cons_self)).1 fun o ho => hall o (List.mem_cons_of_mem _ ho)
  exact key ops c0 Map.empty (Hist.new h0) (new_nonstrict h0) hops

theorem Hist.reads [Truthy V] (hV : AllTruthy V) {c : Container V} {m : Map V} (h : Hist c m) : Reads c m := by
  intro id
  obtain ⟨h1, -, h2⟩ := container_read_partial hV c h.reach id
  rw [h.first] at h1 h2
  exact ⟨h1, h2.symm⟩

theorem SameData.reads [Truthy V] (hV : AllTruthy V) {c x : Container V} {m : Map V} (h : SameData c x) (hh : Hist c m) : Reads x m := by
  intro id
  obtain ⟨-, ⟨n, n', h1, h2, h3⟩, h4⟩ := h id
  obtain ⟨r1, r2⟩ := hh.reads hV id
  refine ⟨by rw [(h4 _ hV).2, hh.first], ?_⟩
  rw [← r2, h1, h2]
  simpa using h3

/-- C89: reading gives the object last written, and `has` tells whether there is one, after any history. -/
theorem in_use_reads [Truthy V] (hV : AllTruthy V) {c : Container V} {m : Map V} (h : InUse c m) : Reads c m := h.hist.1.reads hV

/-- C90: writing never fails, tells whether the id is new, and changes what is read for this id only. -/
theorem in_use_write [Truthy V] (hV : AllTruthy V) {c : Container V} {m : Map V} (h : InUse c m) (id : String) (obj : V) :
    (c.write id obj).1 = .ok (if m id = none then some 1 else none) ∧
    Reads (c.write id obj).2 (fun x => if x = id then some obj else m x) := by
  obtain ⟨hh, hn⟩ := h.hist
  have hw : (c.write id obj).1 = .ok (if m id = none then some 1 else none) := by
    rcases container_write_partial c hh.reach hh.head id obj with ⟨e, -, -, x, hx, hs⟩ | ⟨h1, -⟩
    · rw [hn x hx] at hs; cases hs
    · rw [h1, hh.shows]
  refine ⟨hw, ?_⟩
  have := (hh.step (.write id obj) fun _ h => by cases h).reads hV
  have hret : Returned (c.call (.write id obj)).1 = true := by
    unfold Container.call
    simp only
    rw [hw]; rfl
  rw [hret, if_pos rfl] at this
  exact this

/-- C91: deleting never fails, gives the objects that were removed (none if the id is absent, otherwise the one that was read comes first),
and changes what is read for this id only. -/
theorem in_use_delete [Truthy V] (hV : AllTruthy V) {c : Container V} {m : Map V} (h : InUse c m) (id : String) :
    (∃ vs, (c.delete id).1 = .ok vs ∧ vs.head? = m id) ∧ Reads (c.delete id).2 (fun x => if x = id then none else m x) := by
  obtain ⟨hh, hn⟩ := h.hist
  have hd := (container_delete_partial c hh.reach id (hh.chain.imp fun hab => hab id)).1
  refine ⟨⟨_, hd, ?_⟩, ?_⟩
  · rw [List.head?_filterMap, ← hh.first id]
    rfl
  · have := (hh.step (.delete id) fun _ h => by cases h).reads hV
    have hret : Returned (c.call (.delete id)).1 = true := by
      unfold Container.call
      simp only
      rw [hd]; rfl
    rw [hret, if_pos rfl] at this
    exact this

/-- C92: condensing never fails and leaves everything readable, also on disk at every point in between, whichever commits take effect;
what is left is the primary group. -/
theorem in_use_condense [Truthy V] (hV : AllTruthy V) {c : Container V} {m : Map V} (h : InUse c m) :
    (∃ l, (c.condense true).1 = .ok l) ∧ Reads (c.condense true).2 m ∧ (c.condense true).2.groups = [c.primary] ∧
    ∀ eff, (∃ l, (Session.condense eff (cleanSession c) true).1 = .ok l) ∧
      ∀ x, x ∈ (Session.condense eff (cleanSession c) true).2.log ∨ x = (Session.condense eff (cleanSession c) true).2.committed →
        Reads x m := by
  obtain ⟨hh, hn⟩ := h.hist
  obtain ⟨c1, c2, -⟩ := container_condense_partial c hh.reach hh.head hn
  refine ⟨⟨_, c1⟩, ?_, c2, fun eff => ?_⟩
  · have := (hh.step (.condense true) fun _ _ => hn).reads hV
    have happ : (if Returned (c.call (.condense true)).1 then applyCall m (.condense true) else m) = m := by split_ifs <;> rfl
    rw [happ] at this
    exact this
  · obtain ⟨d1, d2, -, d4⟩ := container_condense_crash_partial c hh.reach hh.head eff true
    refine ⟨?_, ?_⟩
    · cases hr : (Session.condense eff (cleanSession c) true).1 with
      | ok l => exact ⟨l, rfl⟩
      | error e =>
        obtain ⟨x, hx, hs⟩ := d4 e hr
        rw [hn x hx] at hs; cases hs
    · rintro x (hx | rfl) id
      · exact (d1 x hx).reads hV hh id
      · exact d2.reads hV hh id

/-- C92: resizing, likewise, if all groups are condensed or none is transferred, or there is just one group (as there is if `resize` is always
called with its default flags). -/
theorem in_use_resize [Truthy V] (hV : AllTruthy V) {c : Container V} {m : Map V} (h : InUse c m) (n mc : Nat) (h1 : 1 ≤ n) (h2 : 1 ≤ mc)
    (cd t : Bool) (hcase : cd = true ∨ t = false ∨ c.groups.length ≤ 1) :
    (∃ l, (c.resize n mc cd t).1 = .ok l) ∧ n ≤ (c.resize n mc cd t).2.capacity ∧ Reads (c.resize n mc cd t).2 m ∧
    ∀ eff, (∃ l, (Session.resize eff (cleanSession c) n mc cd t).1 = .ok l) ∧
      ∀ x, x ∈ (Session.resize eff (cleanSession c) n mc cd t).2.log ∨ x = (Session.resize eff (cleanSession c) n mc cd t).2.committed →
        Reads x m := by
  obtain ⟨hh, hn⟩ := h.hist
  obtain ⟨r1, r2⟩ := (container_resize c hh.reach n mc cd t).1 ⟨h1, h2⟩
  refine ⟨r1, r2, ?_, fun eff => ?_⟩
  · have := (hh.step (.resize n mc cd t) fun _ h => by cases h).reads hV
    have happ : (if Returned (c.call (.resize n mc cd t)).1 then applyCall m (.resize n mc cd t) else m) = m := by split_ifs <;> rfl
    rw [happ] at this
    exact this
  · obtain ⟨d1, d2, d3, -⟩ := container_resize_crash_partial c hh.reach eff n mc cd t hcase
    refine ⟨?_, ?_⟩
    · cases hr : (Session.resize eff (cleanSession c) n mc cd t).1 with
      | ok l => exact ⟨l, rfl⟩
      | error e =>
        have := d3.1 ⟨e, hr⟩
        omega
    · rintro x (hx | rfl) id
      · exact (d1 x hx).reads hV hh id
      · exact d2.reads hV hh id

/-- C92: without strict mode, `resize` with its default flags leaves a container with one group with one group. -/
theorem in_use_default_groups {c : Container V} {m : Map V} (h : InUse c m) (n mc : Nat) (h1 : 1 ≤ n) (h2 : 1 ≤ mc) (hg : c.groups.length ≤ 1) :
    (c.resize n mc false true).2.groups.length ≤ 1 := by
  obtain ⟨-, -, -, -, -, -, r7, -⟩ := resize_spec h.hist.1.reach.inv n mc false true h1 h2
  rw [r7]
  simp
  omega

/-! Such containers stay such containers. -/

theorem latest_snoc (m : Map V) (c : Container V) (ops : List (ContCall V)) (op : ContCall V) :
    (c.run (ops ++ [op])).2 = ((c.run ops).2.call op).2 ∧
    latest m (ops ++ [op]) (c.run (ops ++ [op])).1 =
      if Returned ((c.run ops).2.call op).1 then applyCall (latest m ops (c.run ops).1) op else latest m ops (c.run ops).1 := by
  induction ops generalizing c m with
  | nil => exact ⟨rfl, rfl⟩
  | cons o ops ih => exact ⟨(ih m _).1, (ih _ _).2⟩

theorem InUse.call {c : Container V} {m : Map V} (h : InUse c m) (op : ContCall V) (hop : op ≠ .setStrict (some true)) :
    InUse (c.call op).2 (if Returned (c.call op).1 then applyCall m op else m) := by
  obtain ⟨capacity, mc, c0, ops, h0, hops, rfl, rfl⟩ := h
  refine ⟨capacity, mc, c0, ops ++ [op], h0, ?_, (latest_snoc Map.empty c0 ops op).1.symm, (latest_snoc Map.empty c0 ops op).2.symm⟩
  intro o ho
  rcases List.mem_append.1 ho with ho | ho
  · exact hops o ho
  · rw [List.mem_singleton.1 ho]; exact hop

theorem InUse.write [Truthy V] (hV : AllTruthy V) {c : Container V} {m : Map V} (h : InUse c m) (id : String) (obj : V) :
    InUse (c.write id obj).2 (fun x => if x = id then some obj else m x) := by
  have := h.call (.write id obj) (by simp)
  have hret : Returned (c.call (.write id obj)).1 = true := by
    unfold Container.call
    simp only
    rw [(in_use_write hV h id obj).1]; rfl
  rw [hret, if_pos rfl] at this
  exact this

theorem InUse.delete [Truthy V] (hV : AllTruthy V) {c : Container V} {m : Map V} (h : InUse c m) (id : String) :
    InUse (c.delete id).2 (fun x => if x = id then none else m x) := by
  have := h.call (.delete id) (by simp)
  have hret : Returned (c.call (.delete id)).1 = true := by
    obtain ⟨vs, hd, -⟩ := (in_use_delete hV h id).1
    unfold Container.call
    simp only
    rw [hd]; rfl
  rw [hret, if_pos rfl] at this
  exact this

theorem InUse.resize {c : Container V} {m : Map V} (h : InUse c m) (n mc : Nat) (cd t : Bool) : InUse (c.resize n mc cd t).2 m := by
  have := h.call (.resize n mc cd t) (by simp)
  have happ : (if Returned (c.call (.resize n mc cd t)).1 then applyCall m (.resize n mc cd t) else m) = m := by split_ifs <;> rfl
  rw [happ] at this
  exact this

local instance : Truthy Unit := ⟨fun _ => true⟩

/-- Non-vacuity: a container with two groups, after writes, a delete, and a resize that keeps the old group. -/
example : ∃ c : Container Unit, ∃ m, InUse c m ∧ c.groups.length = 2 ∧ m "a" = some () ∧ m "b" = none ∧ m "c" = none := by
  obtain ⟨c0, h0, hg, -⟩ := container_new (V := Unit) 2 1 false (by decide) (by decide)
  have hV : AllTruthy Unit := fun _ => rfl
  have h1 : InUse c0 Map.empty := ⟨2, 1, c0, [], h0, by simp, rfl, rfl⟩
  have h2 := (h1.resize 5 2 false false)
  have h3 := (h2.write hV "a" ()).write hV "b" ()
  refine ⟨_, _, h3.delete hV "b", ?_, rfl, rfl, rfl⟩
  have g1 := (resize_spec h1.hist.1.reach.inv 5 2 false false (by decide) (by decide)).2.2.2.2.2.2.1
  simp only [Bool.false_eq_true, if_false, hg] at g1
  have g2 : ((c0.resize 5 2 false false).2.write "a" ()).2.groups = (c0.resize 5 2 false false).2.groups := by
    rcases container_write_partial _ h2.hist.1.reach h2.hist.1.head "a" () with ⟨e, h, -⟩ | ⟨-, -, h, -⟩
    · rw [h]
    · exact h
  have h2a := h2.write hV "a" ()
  have g3 : (((c0.resize 5 2 false false).2.write "a" ()).2.write "b" ()).2.groups = (c0.resize 5 2 false false).2.groups := by
    rw [← g2]
    rcases container_write_partial _ h2a.hist.1.reach h2a.hist.1.head "b" () with ⟨e, h, -⟩ | ⟨-, -, h, -⟩
    · rw [h]
    · exact h
  rw [(container_delete_partial _ h3.hist.1.reach "b" (h3.hist.1.chain.imp fun hab => hab "b")).2.1, g3, g1]
  rfl

end Verif.Props
