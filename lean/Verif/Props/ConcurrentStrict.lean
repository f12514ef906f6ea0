import Verif.Props.ConcurrentLimits
import Verif.Props.StrictMode

/-!
# Several sessions, in strict mode or not (C109)
-/
namespace Verif.Props
open Verif Verif.Storage Verif.Spec Verif.Db
variable {V : Type}

/-! ### Specification -/

/-- The `strict` flag as a shared register: what is stored, and for every session the value when its transaction began and the value it sees. -/
structure Flag where
  disk : Bool
  tx : Nat → Bool × Bool

/-- All transactions begin. -/
def Flag.opened (b : Bool) : Flag := { disk := b, tx := fun _ => (b, b) }

/-- begin and abort start from the stored value; an assignment changes the session's own value; a commit that succeeds stores the value if the session has
changed it; one that fails puts back the old one. -/
def Flag.move (s : Flag) (i : Nat) (m : Move V) (r : Outcome (DbRet V)) : Flag :=
  match m, r with
  | .begin, _ => { s with tx := Function.update s.tx i (s.disk, s.disk) }
  | .abort, _ => { s with tx := Function.update s.tx i (s.disk, s.disk) }
  | .run (.strict (some b)), .ok _ => { s with tx := Function.update s.tx i ((s.tx i).1, b) }
  | .commit _, .ok _ =>
    let b := if (s.tx i).2 ≠ (s.tx i).1 then (s.tx i).2 else s.disk
    { disk := b, tx := Function.update s.tx i (b, b) }
  | .commit _, .error .storageError => { s with tx := Function.update s.tx i ((s.tx i).1, (s.tx i).1) }
  | _, _ => s

/-- The session and others have changed the flag since its transaction began. -/
def Flag.Conflict (s : Flag) (i : Nat) : Prop := (s.tx i).2 ≠ (s.tx i).1 ∧ s.disk ≠ (s.tx i).1

/-- The database shows the flag. -/
structure FlagShows (w : Shared V) (s : Flag) : Prop where
  sees : ∀ i, (w.sess i).work.strict = (s.tx i).2
  stored : w.disk.strict = s.disk

/-- The move writes an object. -/
def Writes (m : Move V) : Prop := (∃ id obj, m = .run (.create id obj)) ∨ ∃ id obj, m = .run (.update id obj)

section
variable [DecidableEq V]

/-- At every step of the schedule the database shows what the shared map and the shared flag say, and answers as the map does; but a session that sees the
flag set may be refused a write, with no effect, and the storage may refuse a commit if there are several groups or the flag was changed by both sides. -/
def SimulatesAny [Truthy V] : List (Nat × Move V) → Shared V → Snap V → Flag → Prop
  | [], w, s, b => ManyShows w s ∧ FlagShows w b
  | (i, m) :: ms, w, s, b => ManyShows w s ∧ FlagShows w b ∧
      ((∃ m', Refused m m' ∧ (m' ≠ m → 1 < w.disk.groups.length ∨ b.Conflict i) ∧ s.Answers i m' (w.move i m).1 ∧
          SimulatesAny ms (w.move i m).2 (s.move i m') (b.move i m (w.move i m).1)) ∨
        (NoRoom (w.move i m).1 ∧ (b.tx i).2 = true ∧ Writes m ∧ SimulatesAny ms (w.move i m).2 s b))

end

/-! ### Groups and containers that differ in their flags -/

theorem relax_eq_setStrict (g : CGroup V) : CGroup.relax g = (g.setStrict (some false)).2 := rfl

theorem inv_of_relax {g : CGroup V} (h : (CGroup.relax g).Inv) : g.Inv := by
  refine ⟨fun h0 => h.ne (by simp [CGroup.relax, h0]), fun c hc => ?_, fun i c hi k hk => ?_⟩
  · exact h.sorted (Collection.relax c) (List.mem_map.2 ⟨c, hc, rfl⟩)
  · have := h.routed i (Collection.relax c) (by simp [CGroup.relax, hi]) k hk
    rwa [relax_length] at this

theorem relax_inv {g : CGroup V} (h : g.Inv) : (CGroup.relax g).Inv := (CGroup.setStrict_view h (some false)).1

theorem relax_view {g : CGroup V} (h : g.Inv) : (CGroup.relax g).view = g.view := (CGroup.setStrict_view h (some false)).2

theorem cinv_of_relax {c : Container V} (h : (Container.relax c).Inv) : c.Inv :=
  ⟨fun a ha => inv_of_relax (h.inv a ha), inv_of_relax h.pinv, h.fresh, h.pfresh, h.nodup⟩

/-- The flags of the collections. -/
def stricts (g : CGroup V) : List Bool := g.collections.map Collection.strict

theorem stricts_of_flags {g h : CGroup V} (e : g.flags = h.flags) : stricts g = stricts h := by
  have : ∀ x : CGroup V, stricts x = x.flags.map Prod.snd := fun x => by simp [stricts, CGroup.flags, Function.comp_def]
  rw [this, this, e]

/-- All collections of the primary group have the flag `b`; the other groups have the flags `fl`. -/
structure Flagged (p n : Nat) (fl : Nat → List Bool) (x : Container V) (b : Bool) : Prop where
  primary : x.primary = p
  main : stricts (x.heap p) = List.replicate (n + 1) b
  rest : ∀ a, a ≠ p → stricts (x.heap a) = fl a

theorem Flagged.strict {p n : Nat} {fl : Nat → List Bool} {x : Container V} {b : Bool} (h : Flagged p n fl x b) : x.strict = b := by
  unfold Container.strict CGroup.strict
  rw [h.primary]
  have : ∀ l : List (Collection V), l.all Collection.strict = (l.map Collection.strict).all id := fun l => by simp [List.all_map]
  rw [this]
  show (stricts (x.heap p)).all id = b
  rw [h.main]
  simp

theorem Flagged.put {p n : Nat} {fl : Nat → List Bool} {x : Container V} {b b' : Bool} (h : Flagged p n fl x b) {g : CGroup V}
    (hg : stricts g = List.replicate (n + 1) b') : Flagged p n fl (x.put p g) b' := by
  refine ⟨h.primary, ?_, fun a ha => ?_⟩
  · rw [Container.heap_put_self]; exact hg
  · rw [Container.heap_put_ne _ _ ha]; exact h.rest a ha

theorem Flagged.same {p n : Nat} {fl : Nat → List Bool} {x y : Container V} {b : Bool} (h : Flagged p n fl x b) (hp : y.primary = x.primary)
    (hf : ∀ a, (y.heap a).flags = (x.heap a).flags) : Flagged p n fl y b :=
  ⟨hp.trans h.primary, (stricts_of_flags (hf p)).trans h.main, fun a ha => (stricts_of_flags (hf a)).trans (h.rest a ha)⟩

theorem Flagged.write {p n : Nat} {fl : Nat → List Bool} {x : Container V} {b : Bool} (h : Flagged p n fl x b) (hi : x.Inv) (k : String) (v : V) :
    Flagged p n fl (x.write k v).2 b := by
  rcases Container.write_spec hi.pinv k v with ⟨e, he, _⟩ | ⟨g, he, _, hf, _⟩
  · rw [he]; exact h
  · rw [he]
    rw [h.primary] at hf
    simp only [h.primary]
    exact h.put ((stricts_of_flags hf).trans h.main)

theorem Flagged.delete {p n : Nat} {fl : Nat → List Bool} {x : Container V} {b : Bool} (h : Flagged p n fl x b) (hi : x.Inv) (k : String) :
    Flagged p n fl (x.delete k).2 b := by
  obtain ⟨h1, _⟩ := Container.delete_spec hi k
  exact h.same h1.primary h1.flags

theorem Flagged.setStrict {p n : Nat} {fl : Nat → List Bool} {x : Container V} {b : Bool} (h : Flagged p n fl x b) (b' : Bool) :
    Flagged p n fl (x.setStrict (some b')).2 b' := by
  show Flagged p n fl (x.put x.primary ((x.heap x.primary).setStrict (some b')).2) b'
  rw [h.primary]
  refine h.put ?_
  have h1 : stricts ((x.heap p).setStrict (some b')).2 = List.replicate (stricts (x.heap p)).length b' := by
    unfold stricts CGroup.setStrict
    simp [Function.comp_def, List.map_const']
  rw [h1, h.main, List.length_replicate]

/-! ### One call -/

/-- A call of a session with `strict` or without: refused with no effect, or as without. -/
theorem relax_fn [Truthy V] {c : Container V} (hi : c.Inv) (op : DbOp V) (hop : ∀ b, op ≠ .strict b) :
    (NoRoom (op.fn c).1 ∧ (op.fn c).2 = c ∧ Writes (.run op) ∧ ¬ (c.heap c.primary).NonStrict) ∨
      op.fn (Container.relax c) = ((op.fn c).1, Container.relax (op.fn c).2) := by
  have hw : ∀ k v, (NoRoom (c.write k v).1 ∧ (c.write k v).2 = c ∧ ¬ (c.heap c.primary).NonStrict) ∨
      (Container.relax c).write k v = ((c.write k v).1, Container.relax (c.write k v).2) := by
    intro k v
    rcases Container.write_spec hi.pinv k v with ⟨e, he, he', hns⟩ | ⟨g, he, _⟩
    · left; rw [he]
      refine ⟨?_, rfl, hns⟩
      rcases he' with rfl | rfl
      · exact .inr rfl
      · exact .inl rfl
    · rcases relax_write c k v with h | h
      · rw [he] at h; simp [NoRoom] at h
      · exact .inr h
  cases op with
  | create id obj =>
    show (NoRoom (createFn id obj c).1 ∧ _) ∨ createFn id obj (Container.relax c) = _
    unfold DbOp.fn
    simp only
    unfold createFn
    rw [relax_has]
    cases hh : c.has id with
    | error e => exact .inr rfl
    | ok k =>
      cases k with
      | zero =>
        rcases hw id obj with ⟨h1, h2, h3⟩ | h
        · left; exact ⟨noRoom_map.2 h1, h2, .inl ⟨_, _, rfl⟩, h3⟩
        · right; simp only [h]
      | succ k => exact .inr rfl
  | update id obj =>
    show (NoRoom (updateFn id obj c).1 ∧ _) ∨ updateFn id obj (Container.relax c) = _
    unfold DbOp.fn
    simp only
    unfold updateFn
    rw [relax_read]
    cases hh : c.read id with
    | error e => exact .inr rfl
    | ok o =>
      rcases hw id obj with ⟨h1, h2, h3⟩ | h
      · left; exact ⟨noRoom_map.2 h1, h2, .inr ⟨_, _, rfl⟩, h3⟩
      · right; simp only [h]
  | delete id =>
    right
    show deleteFn id (Container.relax c) = ((deleteFn id c).1, Container.relax (deleteFn id c).2)
    unfold deleteFn
    rw [relax_delete]
  | strict b => exact absurd rfl (hop b)

theorem relax_setStrict (c : Container V) (b : Bool) : Container.relax (c.setStrict (some b)).2 = Container.relax c := by
  show Container.relax (c.put c.primary ((c.heap c.primary).setStrict (some b)).2) = _
  rw [← relax_put]
  have : CGroup.relax ((c.heap c.primary).setStrict (some b)).2 = (Container.relax c).heap c.primary := by
    show _ = CGroup.relax (c.heap c.primary)
    unfold CGroup.relax CGroup.setStrict
    simp [Function.comp_def, Collection.relax]
  rw [this, Container.put_same]

/-! ### Merging -/

section
variable [DecidableEq V]

theorem relax_mergeCollection (b w d : Collection V) : mergeCollection (Collection.relax b) (Collection.relax w) (Collection.relax d) =
    (mergeTree b.tree w.tree d.tree).map fun t => Collection.relax { d with tree := t } := by
  unfold mergeCollection Collection.relax mergeUnit
  simp only [if_true]
  cases mergeTree b.tree w.tree d.tree <;> rfl

theorem mergeCollection_some {b w d c : Collection V} (h : mergeCollection b w d = some c) :
    mergeCollection (Collection.relax b) (Collection.relax w) (Collection.relax d) = some (Collection.relax c) ∧
      mergeUnit b.strict w.strict d.strict = some c.strict := by
  rw [relax_mergeCollection]
  unfold mergeCollection at h
  cases ht : mergeTree b.tree w.tree d.tree with
  | none => rw [ht] at h; cases h
  | some t =>
    cases hs : mergeUnit b.strict w.strict d.strict with
    | none => rw [ht, hs] at h; cases h
    | some s => rw [ht, hs] at h; injection h with h; subst h; exact ⟨rfl, rfl⟩

theorem mergeCollection_none {b w d : Collection V} (h : mergeCollection b w d = none) :
    mergeCollection (Collection.relax b) (Collection.relax w) (Collection.relax d) = none ∨ mergeUnit b.strict w.strict d.strict = none := by
  rw [relax_mergeCollection]
  unfold mergeCollection at h
  cases ht : mergeTree b.tree w.tree d.tree with
  | none => exact .inl rfl
  | some t =>
    right
    cases hs : mergeUnit b.strict w.strict d.strict with
    | none => rfl
    | some s => rw [ht, hs] at h; cases h

/-- The merge of lists of collections. -/
def mergeList (b w d : List (Collection V)) : Option (List (Collection V)) :=
  (b.zip (w.zip d)).mapM fun p => mergeCollection p.1 p.2.1 p.2.2

theorem mergeList_cons (b w d : Collection V) (bs ws ds : List (Collection V)) :
    mergeList (b :: bs) (w :: ws) (d :: ds) = (mergeCollection b w d).bind fun c => (mergeList bs ws ds).map fun cs => c :: cs := by
  unfold mergeList
  rw [List.zip_cons_cons, List.zip_cons_cons, List.mapM_cons]
  cases mergeCollection b w d <;> simp [Option.map_eq_bind]

theorem mergeGroup_eq (b w d : CGroup V) :
    mergeGroup b w d = (mergeList b.collections w.collections d.collections).map fun cs => { collections := cs } := by
  unfold mergeGroup mergeList
  cases (b.collections.zip (w.collections.zip d.collections)).mapM fun p => mergeCollection p.1 p.2.1 p.2.2 <;> rfl

theorem mergeList_some : ∀ {b w d c : List (Collection V)}, b.length = d.length → w.length = d.length → mergeList b w d = some c →
    mergeList (b.map Collection.relax) (w.map Collection.relax) (d.map Collection.relax) = some (c.map Collection.relax) ∧
      c.length = d.length ∧
      (∀ (i : Nat) (x y z : Bool), (b.map Collection.strict)[i]? = some x → (w.map Collection.strict)[i]? = some y → (d.map Collection.strict)[i]? = some z →
        mergeUnit x y z = (c.map Collection.strict)[i]?)
  | [], [], [], c, _, _, h => by
    have : c = [] := by simpa [mergeList] using h.symm
    subst this
    exact ⟨rfl, rfl, by simp⟩
  | [], _, _ :: _, _, h1, _, _ => by simp at h1
  | _ :: _, _, [], _, h1, _, _ => by simp at h1
  | [], _ :: _, [], _, _, h2, _ => by simp at h2
  | _ :: _, [], _ :: _, _, _, h2, _ => by simp at h2
  | b :: bs, w :: ws, d :: ds, c, h1, h2, h => by
    rw [mergeList_cons] at h
    cases hc : mergeCollection b w d with
    | none => rw [hc] at h; cases h
    | some e =>
      cases hl : mergeList bs ws ds with
      | none => rw [hc, hl] at h; cases h
      | some es =>
        rw [hc, hl] at h
        injection h with h
        subst h
        obtain ⟨e1, e2⟩ := mergeCollection_some hc
        obtain ⟨i1, i2, i3⟩ := mergeList_some (by simpa using h1) (by simpa using h2) hl
        refine ⟨?_, by simp [i2], ?_⟩
        · simp only [List.map_cons]
          rw [mergeList_cons, e1, i1]; rfl
        · intro i x y z hx hy hz
          cases i with
          | zero =>
            simp only [List.map_cons, List.getElem?_cons_zero, Option.some.injEq] at hx hy hz ⊢
            rw [← hx, ← hy, ← hz, e2]
          | succ i =>
            simp only [List.map_cons, List.getElem?_cons_succ] at hx hy hz ⊢
            exact i3 i x y z hx hy hz

theorem mergeList_none : ∀ {b w d : List (Collection V)}, b.length = d.length → w.length = d.length → mergeList b w d = none →
    mergeList (b.map Collection.relax) (w.map Collection.relax) (d.map Collection.relax) = none ∨
      ∃ (i : Nat) (x y z : Bool), (b.map Collection.strict)[i]? = some x ∧ (w.map Collection.strict)[i]? = some y ∧ (d.map Collection.strict)[i]? = some z ∧
        mergeUnit x y z = none
  | [], [], [], _, _, h => by simp [mergeList] at h
  | [], _, _ :: _, h1, _, _ => by simp at h1
  | _ :: _, _, [], h1, _, _ => by simp at h1
  | [], _ :: _, [], _, h2, _ => by simp at h2
  | _ :: _, [], _ :: _, _, h2, _ => by simp at h2
  | b :: bs, w :: ws, d :: ds, h1, h2, h => by
    rw [mergeList_cons] at h
    simp only [List.map_cons]
    rw [mergeList_cons]
    cases hc : mergeCollection b w d with
    | none =>
      rcases mergeCollection_none hc with e | e
      · left; rw [e]; rfl
      · exact .inr ⟨0, _, _, _, rfl, rfl, rfl, e⟩
    | some e =>
      rw [hc] at h
      cases hl : mergeList bs ws ds with
      | some es => rw [hl] at h; cases h
      | none =>
        rcases mergeList_none (by simpa using h1) (by simpa using h2) hl with i1 | ⟨i, x, y, z, i1, i2, i3, i4⟩
        · left; rw [i1]; cases mergeCollection (Collection.relax b) (Collection.relax w) (Collection.relax d) <;> rfl
        · exact .inr ⟨i + 1, x, y, z, i1, i2, i3, i4⟩

theorem mergeGroup_some {b w d g : CGroup V} (h1 : b.collections.length = d.collections.length) (h2 : w.collections.length = d.collections.length)
    (h : mergeGroup b w d = some g) : mergeGroup (CGroup.relax b) (CGroup.relax w) (CGroup.relax d) = some (CGroup.relax g) ∧
      (stricts g).length = (stricts d).length ∧
      (∀ (i : Nat) (x y z : Bool), (stricts b)[i]? = some x → (stricts w)[i]? = some y → (stricts d)[i]? = some z → mergeUnit x y z = (stricts g)[i]?) := by
  rw [mergeGroup_eq] at h
  cases hl : mergeList b.collections w.collections d.collections with
  | none => rw [hl] at h; cases h
  | some cs =>
    rw [hl] at h
    injection h with h
    subst h
    obtain ⟨i1, i2, i3⟩ := mergeList_some h1 h2 hl
    refine ⟨?_, by simpa [stricts] using i2, i3⟩
    rw [mergeGroup_eq]
    unfold CGroup.relax
    simp only
    rw [i1]; rfl

theorem mergeGroup_none {b w d : CGroup V} (h1 : b.collections.length = d.collections.length) (h2 : w.collections.length = d.collections.length)
    (h : mergeGroup b w d = none) : mergeGroup (CGroup.relax b) (CGroup.relax w) (CGroup.relax d) = none ∨
      ∃ (i : Nat) (x y z : Bool), (stricts b)[i]? = some x ∧ (stricts w)[i]? = some y ∧ (stricts d)[i]? = some z ∧ mergeUnit x y z = none := by
  rw [mergeGroup_eq] at h
  cases hl : mergeList b.collections w.collections d.collections with
  | some cs => rw [hl] at h; cases h
  | none =>
    rcases mergeList_none h1 h2 hl with i1 | i1
    · left
      rw [mergeGroup_eq]
      unfold CGroup.relax
      simp only
      rw [i1]; rfl
    · exact .inr i1

omit [DecidableEq V] in
theorem Flagged.length {p n : Nat} {fl : Nat → List Bool} {x y : Container V} {b b' : Bool} (h : Flagged p n fl x b) (h' : Flagged p n fl y b') (a : Nat) :
    (x.heap a).collections.length = (y.heap a).collections.length := by
  have e : ∀ g : CGroup V, g.collections.length = (stricts g).length := fun g => by simp [stricts]
  rw [e, e]
  by_cases ha : a = p
  · rw [ha, h.main, h'.main]; simp
  · rw [h.rest a ha, h'.rest a ha]

omit [DecidableEq V] in
theorem record_relax (x : Container V) : record (Container.relax x) = record x := rfl

theorem mergeUnit_same {α : Type} [DecidableEq α] (x : α) : mergeUnit x x x = some x := by simp [mergeUnit]

/-- Containers that differ in their flags merge like the same containers without, unless both sides have changed the flag. -/
theorem Flagged.merge {p n : Nat} {fl : Nat → List Bool} {b w d : Container V} {bb bw bd : Bool} (hb : Flagged p n fl b bb) (hw : Flagged p n fl w bw)
    (hd : Flagged p n fl d bd) (hp : p < b.next) (hr : record w = record b) (hr' : record d = record b) :
    (∀ c, Db.merge b w d = some c → Db.merge (Container.relax b) (Container.relax w) (Container.relax d) = some (Container.relax c) ∧
      Flagged p n fl c (if bw ≠ bb then bw else bd)) ∧
    (Db.merge b w d = none → Db.merge (Container.relax b) (Container.relax w) (Container.relax d) = none ∨ (bw ≠ bb ∧ bd ≠ bb)) := by
  have some_ : ∀ a g, mergeGroup (b.heap a) (w.heap a) (d.heap a) = some g → _ := fun a g h =>
    mergeGroup_some (hb.length hd a) (hw.length hd a) h
  have none_ : ∀ a, mergeGroup (b.heap a) (w.heap a) (d.heap a) = none → _ := fun a h =>
    mergeGroup_none (hb.length hd a) (hw.length hd a) h
  unfold Db.merge
  simp only [record_relax]
  have hrec : mergeUnit (record b) (record w) (record d) = some (record b) := by rw [hr, hr']; exact mergeUnit_same _
  rw [hrec]
  simp only [record]
  have hnext : (Container.relax b).next = b.next := rfl
  rw [hnext]
  by_cases hany : ((List.range b.next).any fun a => (mergeGroup (b.heap a) (w.heap a) (d.heap a)).isNone) = true
  · rw [if_pos hany]
    refine ⟨by simp, fun _ => ?_⟩
    rw [List.any_eq_true] at hany
    obtain ⟨a, ha0, ha⟩ := hany
    rw [Option.isNone_iff_eq_none] at ha
    rcases none_ a ha with h | ⟨i, x, y, z, h1, h2, h3, h4⟩
    · left
      rw [if_pos]
      exact List.any_eq_true.2 ⟨a, ha0, by rw [Option.isNone_iff_eq_none]; exact h⟩
    · right
      by_cases hap : a = p
      · subst hap
        rw [hb.main] at h1; rw [hw.main] at h2; rw [hd.main] at h3
        have rep : ∀ {c : Bool} {v}, (List.replicate (n + 1) c)[i]? = some v → v = c := fun {c v} h => by
          rw [List.getElem?_replicate] at h; split_ifs at h; injection h with h; exact h.symm
        rw [rep h1, rep h2, rep h3] at h4
        unfold mergeUnit at h4
        split_ifs at h4 with e1 e2
        exact ⟨e1, e2⟩
      · rw [hb.rest a hap] at h1; rw [hw.rest a hap, h1] at h2; rw [hd.rest a hap, h1] at h3
        injection h2 with h2; injection h3 with h3
        subst h2; subst h3
        rw [mergeUnit_same] at h4; cases h4
  · rw [if_neg hany]
    refine ⟨fun c h => ?_, by simp⟩
    injection h with h
    have noNone : ∀ a < b.next, ∃ g, mergeGroup (b.heap a) (w.heap a) (d.heap a) = some g := by
      intro a ha
      cases hm : mergeGroup (b.heap a) (w.heap a) (d.heap a) with
      | some g => exact ⟨g, rfl⟩
      | none => exact absurd (List.any_eq_true.2 ⟨a, List.mem_range.2 ha, by rw [hm]; rfl⟩) hany
    constructor
    · rw [if_neg]
      · rw [← h]
        refine congrArg some ?_
        unfold Container.relax
        simp only [Container.mk.injEq, and_true]
        funext a
        unfold mergeAt
        simp only
        by_cases ha : a < b.next
        · obtain ⟨g, hg⟩ := noNone a ha
          rw [if_pos ha, if_pos ha, hg, (some_ a g hg).1]; rfl
        · rw [if_neg ha, if_neg ha]
          have : record (Container.relax w) = record (Container.relax b) := hr
          rw [if_pos hr]
          exact if_pos this
      · rw [List.any_eq_true]
        rintro ⟨a, ha, h2⟩
        obtain ⟨g, hg⟩ := noNone a (List.mem_range.1 ha)
        rw [Option.isNone_iff_eq_none] at h2
        have := (some_ a g hg).1
        have e : mergeGroup (CGroup.relax (b.heap a)) (CGroup.relax (w.heap a)) (CGroup.relax (d.heap a)) = none := h2
        rw [this] at e; cases e
    · have heap : ∀ a, c.heap a = mergeAt b w d a := fun a => by rw [← h]
      refine ⟨by rw [← h]; exact hb.primary, ?_, fun a ha => ?_⟩
      · obtain ⟨g, hg⟩ := noNone p hp
        rw [heap]
        unfold mergeAt
        rw [if_pos hp, hg]
        simp only [Option.getD_some]
        obtain ⟨-, l, s⟩ := some_ p g hg
        rw [hd.main, List.length_replicate] at l
        refine List.ext_getElem? fun i => ?_
        rw [List.getElem?_replicate]
        split_ifs with hi hc
        · have := s i bb bw bd (by rw [hb.main, List.getElem?_replicate, if_pos hi]) (by rw [hw.main, List.getElem?_replicate, if_pos hi])
            (by rw [hd.main, List.getElem?_replicate, if_pos hi])
          rw [← this]
          unfold mergeUnit
          rw [if_neg hc]
          rw [if_pos]
          by_contra hne
          have s0 := s 0 bb bw bd (by rw [hb.main]; rfl) (by rw [hw.main]; rfl) (by rw [hd.main]; rfl)
          unfold mergeUnit at s0
          rw [if_neg hc, if_neg hne] at s0
          have := List.getElem?_eq_none_iff.1 s0.symm
          omega
        · have := s i bb bw bd (by rw [hb.main, List.getElem?_replicate, if_pos hi]) (by rw [hw.main, List.getElem?_replicate, if_pos hi])
            (by rw [hd.main, List.getElem?_replicate, if_pos hi])
          rw [← this]
          unfold mergeUnit
          push Not at hc
          rw [if_pos hc]
        all_goals exact List.getElem?_eq_none_iff.2 (by omega)
      · rw [heap]
        unfold mergeAt
        split_ifs with h1
        · obtain ⟨g, hg⟩ := noNone a h1
          rw [hg]
          simp only [Option.getD_some]
          obtain ⟨-, l, s⟩ := some_ a g hg
          refine List.ext_getElem? fun i => ?_
          rw [hd.rest a ha] at l
          rw [hb.rest a ha, hw.rest a ha, hd.rest a ha] at s
          cases hx : (fl a)[i]? with
          | none => exact List.getElem?_eq_none_iff.2 (by rw [l]; exact List.getElem?_eq_none_iff.1 hx)
          | some x => rw [← s i x x x hx hx hx, mergeUnit_same]
        · exact hd.rest a ha

/-! ### The shared map and the shared flag -/

/-- The same database with `strict` off everywhere. -/
def relaxAll (w : Shared V) : Shared V :=
  { disk := Container.relax w.disk
    sess := fun i => { base := Container.relax (w.sess i).base, work := Container.relax (w.sess i).work, failed := (w.sess i).failed } }

/-- The sessions and the shared map hold the same, and so do the flags. -/
structure SameAny (f : ShapeN V) (n : Nat) (fl : Nat → List Bool) (w : Shared V) (s : Snap V) (b : Flag) : Prop where
  same : SameMany f (relaxAll w) s
  disk : Flagged f.p n fl w.disk b.disk
  base : ∀ i, Flagged f.p n fl (w.sess i).base (b.tx i).1
  work : ∀ i, Flagged f.p n fl (w.sess i).work (b.tx i).2

omit [DecidableEq V] in
theorem relaxAll_setSess (w : Shared V) (i : Nat) (x : Sess V) : relaxAll (w.setSess i x) =
    (relaxAll w).setSess i { base := Container.relax x.base, work := Container.relax x.work, failed := x.failed } := by
  unfold relaxAll Shared.setSess
  simp only [Shared.mk.injEq, true_and]
  funext j
  by_cases hj : j = i
  · subst hj; simp only [Function.update_self]
  · simp only [Function.update_of_ne hj]

omit [DecidableEq V] in
theorem SameAny.set {f : ShapeN V} {n : Nat} {fl : Nat → List Bool} {w : Shared V} {s s' : Snap V} {b : Flag} (h : SameAny f n fl w s b) (i : Nat)
    {x : Sess V} {t : Bool × Bool} (hs : SameMany f (relaxAll (w.setSess i x)) s') (h1 : Flagged f.p n fl x.base t.1) (h2 : Flagged f.p n fl x.work t.2) :
    SameAny f n fl (w.setSess i x) s' { b with tx := Function.update b.tx i t } := by
  refine ⟨hs, h.disk, fun j => ?_, fun j => ?_⟩
  all_goals
    unfold Shared.setSess
    by_cases hj : j = i
    · subst hj; simp only [Function.update_self]; assumption
    · simp only [Function.update_of_ne hj]
      first | exact h.base j | exact h.work j

omit [DecidableEq V] in
theorem SameAny.shows [Truthy V] (hV : AllTruthy V) {f : ShapeN V} {n : Nat} {fl : Nat → List Bool} {w : Shared V} {s : Snap V} {b : Flag}
    (h : SameAny f n fl w s b) : ManyShows w s ∧ FlagShows w b := by
  refine ⟨⟨fun i id => ?_, fun id => ?_⟩, ⟨fun i => (h.work i).strict, h.disk.strict⟩⟩
  · have := (h.same.shows hV).read i id
    exact (relax_read _ id).symm.trans this
  · have := (h.same.shows hV).stored id
    exact (relax_read _ id).symm.trans this

omit [DecidableEq V] in
theorem SameAny.inv {f : ShapeN V} {n : Nat} {fl : Nat → List Bool} {w : Shared V} {s : Snap V} {b : Flag} (h : SameAny f n fl w s b) (i : Nat) :
    (w.sess i).work.Inv := cinv_of_relax (h.same.work i).cinv

omit [DecidableEq V] in
theorem not_nonStrict {p n : Nat} {fl : Nat → List Bool} {x : Container V} {b : Bool} (h : Flagged p n fl x b) (hn : ¬ (x.heap x.primary).NonStrict) :
    b = true := by
  by_contra hb
  rw [Bool.not_eq_true] at hb
  subst hb
  refine hn fun c hc => ?_
  have : c.strict ∈ stricts (x.heap x.primary) := List.mem_map.2 ⟨c, hc, rfl⟩
  rw [h.primary, h.main] at this
  exact List.eq_of_mem_replicate this

/-- Moves that do not resize. -/
def NoResize : Move V → Prop
  | .resize _ _ _ _ => False
  | _ => True

theorem SameAny.move [Truthy V] (hV : AllTruthy V) {f : ShapeN V} {n : Nat} {fl : Nat → List Bool} {w : Shared V} {s : Snap V} {b : Flag}
    (h : SameAny f n fl w s b) (i : Nat) (m : Move V) (hm : NoResize m) :
    (∃ m', Refused m m' ∧ (m' ≠ m → 1 < w.disk.groups.length ∨ b.Conflict i) ∧ s.Answers i m' (w.move i m).1 ∧
      SameAny f n fl (w.move i m).2 (s.move i m') (b.move i m (w.move i m).1)) ∨
    (NoRoom (w.move i m).1 ∧ (b.tx i).2 = true ∧ Writes m ∧ SameAny f n fl (w.move i m).2 s b) := by
  have many : (∃ a, a ∈ f.rest) → 1 < w.disk.groups.length := by
    rintro ⟨a, ha⟩
    have : w.disk.groups = f.p :: f.rest := h.same.disk.groups
    rw [this, List.length_cons]
    have := List.length_pos_of_mem ha
    omega
  cases m with
  | begin =>
    obtain ⟨m', h1, -, h3, h4⟩ := h.same.move hV i .begin trivial
    left
    rcases h1 with rfl | ⟨ok, h1, -⟩
    · refine ⟨_, .inl rfl, fun hn => absurd rfl hn, h3, ?_⟩
      refine h.set i (x := .fresh w.disk) (t := (b.disk, b.disk)) ?_ h.disk h.disk
      rw [relaxAll_setSess]; exact h4
    · cases h1
  | abort =>
    obtain ⟨m', h1, -, h3, h4⟩ := h.same.move hV i .abort trivial
    left
    rcases h1 with rfl | ⟨ok, h1, -⟩
    · refine ⟨_, .inl rfl, fun hn => absurd rfl hn, h3, ?_⟩
      refine h.set i (x := .fresh w.disk) (t := (b.disk, b.disk)) ?_ h.disk h.disk
      rw [relaxAll_setSess]; exact h4
    · cases h1
  | resize c mc cd t => exact hm.elim
  | run op =>
    have hbr : (w.sess i).failed = (s.tx i).broken := h.same.broken i
    cases hf : (w.sess i).failed with
    | true =>
      left
      refine ⟨_, .inl rfl, fun hn => absurd rfl hn, ?_⟩
      have e : w.move i (.run op) = (.error .transactionFailed, w) := by unfold Shared.move Shared.run; simp [hf]
      rw [e]
      rw [hf] at hbr
      constructor
      · show (if (s.tx i).broken then _ else _)
        rw [← hbr]; rfl
      · have e1 : s.move i (.run op) = s := by
          show (if (s.tx i).broken then _ else _) = s
          rw [← hbr]; rfl
        have e2 : b.move i (.run op) (.error .transactionFailed) = b := by
          cases op with
          | strict v => cases v <;> rfl
          | _ => rfl
        rw [e1, e2]; exact h
    | false =>
      have e : w.move i (.run op) = ((op.fn (w.sess i).work).1, w.setSess i { w.sess i with work := (op.fn (w.sess i).work).2 }) := by
        unfold Shared.move Shared.run; simp [hf]
      rw [hf] at hbr
      by_cases hop : ∃ v, op = .strict v
      · obtain ⟨v, rfl⟩ := hop
        left
        refine ⟨_, .inl rfl, fun hn => absurd rfl hn, ?_⟩
        rw [e]
        have e1 : s.move i (.run (.strict v)) = s := by
          show (if (s.tx i).broken then _ else _) = s
          rw [← hbr]
          simp only [Bool.false_eq_true, if_false]
          have : ((s.tx i).mem.apply (.strict v)).getD (s.tx i).mem = (s.tx i).mem := by cases v <;> rfl
          rw [this]
          unfold Snap.setTx
          have : Function.update s.tx i (s.tx i) = s.tx := Function.update_eq_self i s.tx
          rw [this]
        constructor
        · show (if (s.tx i).broken then _ else _)
          rw [← hbr]
          cases v <;> rfl
        · rw [e1]
          cases v with
          | none =>
            have e3 : w.setSess i { w.sess i with work := ((DbOp.strict none).fn (w.sess i).work).2 } = w := by
              unfold Shared.setSess
              have : Function.update w.sess i { w.sess i with work := ((DbOp.strict none).fn (w.sess i).work).2 } = w.sess :=
                Function.update_eq_self i w.sess
              rw [this]
            rw [e3]; exact h
          | some v =>
            refine h.set i (t := ((b.tx i).1, v)) ?_ (h.base i) ((h.work i).setStrict v)
            rw [relaxAll_setSess]
            have : Container.relax ((DbOp.strict (some v)).fn (w.sess i).work).2 = Container.relax (w.sess i).work := relax_setStrict _ v
            simp only [this]
            have : (relaxAll w).setSess i ((relaxAll w).sess i) = relaxAll w := by
              unfold Shared.setSess
              have : Function.update (relaxAll w).sess i ((relaxAll w).sess i) = (relaxAll w).sess := Function.update_eq_self i _
              rw [this]
            rw [show (relaxAll w).setSess i { base := Container.relax (w.sess i).base, work := Container.relax (w.sess i).work, failed := (w.sess i).failed } =
              (relaxAll w).setSess i ((relaxAll w).sess i) from rfl, this]
            exact h.same
      · have hop' : ∀ v, op ≠ .strict v := fun v e => hop ⟨v, e⟩
        rcases relax_fn (h.inv i) op hop' with ⟨r1, r2, r3, r4⟩ | r
        · right
          rw [e]
          refine ⟨r1, not_nonStrict (h.work i) r4, r3, ?_⟩
          simp only [r2]
          have : w.setSess i { w.sess i with work := (w.sess i).work } = w := by
            unfold Shared.setSess
            have : Function.update w.sess i { w.sess i with work := (w.sess i).work } = w.sess := Function.update_eq_self i w.sess
            rw [this]
          rw [this]; exact h
        · left
          have lm : LenientMove (.run op) := by
            cases op with
            | strict v => exact absurd rfl (hop' v)
            | _ => trivial
          obtain ⟨m', h1, -, h3, h4⟩ := h.same.move hV i (.run op) lm
          have hfl : Flagged f.p n fl (op.fn (w.sess i).work).2 (b.tx i).2 := by
            cases op with
            | strict v => exact absurd rfl (hop' v)
            | create id obj =>
              show Flagged _ _ _ (createFn id obj _).2 _
              unfold createFn
              split
              · exact h.work i
              · exact (h.work i).write (h.inv i) _ _
              · exact h.work i
            | update id obj =>
              show Flagged _ _ _ (updateFn id obj _).2 _
              unfold updateFn
              split
              · exact h.work i
              · exact (h.work i).write (h.inv i) _ _
            | delete id => exact (h.work i).delete (h.inv i) _
          have e' : (relaxAll w).move i (.run op) = ((w.move i (.run op)).1, relaxAll (w.move i (.run op)).2) := by
            rw [e, relaxAll_setSess]
            unfold Shared.move Shared.run
            have hf' : ((relaxAll w).sess i).failed = false := hf
            rw [hf']
            simp only [Bool.false_eq_true, if_false]
            have : op.fn ((relaxAll w).sess i).work = ((op.fn (w.sess i).work).1, Container.relax (op.fn (w.sess i).work).2) := r
            rw [this]
            rfl
          rw [e'] at h3 h4
          rcases h1 with rfl | ⟨ok, h1, -⟩
          · refine ⟨_, .inl rfl, fun hn => absurd rfl hn, h3, ?_⟩
            rw [e] at h4 ⊢
            have e2 : b.move i (.run op) (op.fn (w.sess i).work).1 = b := by
              cases op with
              | strict v => exact absurd rfl (hop' v)
              | _ => rfl
            rw [e2]
            have := h.set i (t := b.tx i) h4 (h.base i) hfl
            rwa [Function.update_eq_self] at this
          · cases h1
  | commit ok =>
    left
    have hbr : (w.sess i).failed = (s.tx i).broken := h.same.broken i
    cases hf : (w.sess i).failed with
    | true =>
      refine ⟨_, .inl rfl, fun hn => absurd rfl hn, ?_⟩
      have e : w.move i (.commit ok) = (.error .transactionFailed, w) := by
        unfold Shared.move Shared.commit; simp [hf, Except.map]
      rw [e]
      rw [hf] at hbr
      constructor
      · show (if (s.tx i).broken then _ else _)
        rw [← hbr]; rfl
      · have e1 : s.move i (.commit ok) = s := by
          show (if (s.tx i).broken then _ else _) = s
          rw [← hbr]; rfl
        rw [e1]; exact h
    | false =>
      have hf' : ((relaxAll w).sess i).failed = false := hf
      have hrec : ∀ {x : Container V} {m : Map V}, Many f (Container.relax x) m → record x = (f.p :: f.rest, f.p, f.next) := by
        intro x m hx
        rw [← record_relax]
        unfold record; rw [hx.groups, hx.primary, hx.next]
      have rb := hrec (h.same.base i)
      have rw_ := hrec (h.same.work i)
      have rd := hrec h.same.disk
      have hp : f.p < (w.sess i).base.next := by
        have := (h.same.base i).next
        have e : (w.sess i).base.next = f.next := this
        rw [e]; exact (h.same.base i).fresh _ List.mem_cons_self
      obtain ⟨m1, m2⟩ := (h.base i).merge (h.work i) h.disk hp (rw_.trans rb.symm) (rd.trans rb.symm)
      -- a commit that is refused on both sides
      have refuse : ∀ ok', w.commit i ok = (.error .storageError, w.setSess i { base := (w.sess i).base, work := (w.sess i).base, failed := true }) →
          (ok' = false ∨ Db.merge (Container.relax (w.sess i).base) (Container.relax (w.sess i).work) (Container.relax w.disk) = none) →
          (ok' ≠ ok → ok' = false ∧ b.Conflict i) →
          ∃ m', Refused (.commit ok) m' ∧ (m' ≠ .commit ok → 1 < w.disk.groups.length ∨ b.Conflict i) ∧ s.Answers i m' (w.move i (.commit ok)).1 ∧
            SameAny f n fl (w.move i (.commit ok)).2 (s.move i m') (b.move i (.commit ok) (w.move i (.commit ok)).1) := by
        intro ok' hc hr hne
        have hc' := commit_refused (w := relaxAll w) (ok := ok') hf' hr
        have e : w.move i (.commit ok) = (.error .storageError, w.setSess i { base := (w.sess i).base, work := (w.sess i).base, failed := true }) := by
          unfold Shared.move; simp only [hc]; rfl
        have e' : (relaxAll w).move i (.commit ok') = ((w.move i (.commit ok)).1, relaxAll (w.move i (.commit ok)).2) := by
          rw [e, relaxAll_setSess]
          unfold Shared.move; simp only [hc']; rfl
        obtain ⟨m', h1, h2, h3, h4⟩ := h.same.move hV i (.commit ok') trivial
        rw [e'] at h3 h4
        refine ⟨m', ?_, fun hn => ?_, h3, ?_⟩
        · rcases h1 with rfl | ⟨k, h1, rfl⟩
          · by_cases hk : ok' = ok
            · exact .inl (by rw [hk])
            · exact .inr ⟨ok, rfl, by rw [(hne hk).1]⟩
          · exact .inr ⟨ok, rfl, rfl⟩
        · by_cases hk : ok' = ok
          · subst hk
            obtain ⟨a, ha, -⟩ := h2 hn
            exact .inl (many ⟨a, ha⟩)
          · exact .inr (hne hk).2
        · rw [e] at h4 ⊢
          exact h.set i (t := ((b.tx i).1, (b.tx i).1)) h4 (h.base i) (h.base i)
      cases ok with
      | false => exact refuse false (commit_refused hf (.inl rfl)) (.inl rfl) fun hn => absurd rfl hn
      | true =>
        cases hg : Db.merge (w.sess i).base (w.sess i).work w.disk with
        | none =>
          have hc := commit_refused (ok := true) hf (.inr hg)
          rcases m2 hg with hr | hcon
          · exact refuse true hc (.inr hr) fun hn => absurd rfl hn
          · exact refuse false hc (.inl rfl) fun _ => ⟨rfl, hcon⟩
        | some c =>
          obtain ⟨r1, r2⟩ := m1 c hg
          have hc := commit_accepted hf hg
          have hc' := commit_accepted (w := relaxAll w) hf' r1
          have e : w.move i (.commit true) = (.ok .unit, { disk := c, sess := Function.update w.sess i (.fresh c) }) := by
            unfold Shared.move; simp only [hc]; rfl
          have e' : (relaxAll w).move i (.commit true) = ((w.move i (.commit true)).1, relaxAll (w.move i (.commit true)).2) := by
            rw [e]
            unfold Shared.move; simp only [hc']
            refine Prod.ext rfl ?_
            unfold relaxAll
            simp only [Shared.mk.injEq, true_and]
            funext j
            by_cases hj : j = i
            · subst hj; simp only [Function.update_self]; rfl
            · simp only [Function.update_of_ne hj]
          obtain ⟨m', h1, h2, h3, h4⟩ := h.same.move hV i (.commit true) trivial
          rw [e'] at h3 h4
          refine ⟨m', h1, fun hn => ?_, h3, ?_⟩
          · obtain ⟨a, ha, -⟩ := h2 hn
            exact .inl (many ⟨a, ha⟩)
          · rw [e] at h4 ⊢
            refine ⟨h4, r2, fun j => ?_, fun j => ?_⟩
            all_goals
              unfold Flag.move
              simp only
              by_cases hj : j = i
              · subst hj; simp only [Function.update_self]; exact r2
              · simp only [Function.update_of_ne hj]
                first | exact h.base j | exact h.work j

theorem SameAny.simulates [Truthy V] (hV : AllTruthy V) {f : ShapeN V} {n : Nat} {fl : Nat → List Bool} (ms : List (Nat × Move V)) :
    ∀ {w : Shared V} {s : Snap V} {b : Flag}, SameAny f n fl w s b → (∀ x ∈ ms, NoResize x.2) → SimulatesAny ms w s b := by
  induction ms with
  | nil => intro w s b h _; exact h.shows hV
  | cons x ms ih =>
    intro w s b h hm
    have hm' : ∀ y ∈ ms, NoResize y.2 := fun y hy => hm y (List.mem_cons_of_mem _ hy)
    refine ⟨(h.shows hV).1, (h.shows hV).2, ?_⟩
    rcases h.move hV x.1 x.2 (hm x List.mem_cons_self) with ⟨m', h1, h2, h3, h4⟩ | ⟨h1, h2, h3, h4⟩
    · exact .inl ⟨m', h1, h2, h3, ih h4 hm'⟩
    · exact .inr ⟨h1, h2, h3, ih h4 hm'⟩

omit [DecidableEq V] in
theorem Many.relax {f : ShapeN V} {c : Container V} {m : Map V} (h : Many f c m) :
    Many { f with fl := fun a => (CGroup.relax (c.heap a)).flags, other := fun a => CGroup.relax (f.other a) } (Container.relax c) m := by
  have v : ∀ a ∈ f.p :: f.rest, (CGroup.relax (c.heap a)).view = (c.heap a).view := fun a ha => relax_view (h.inv a ha)
  refine ⟨h.groups, h.primary, h.next, h.fresh, h.nodup, fun a ha => relax_inv (h.inv a ha), fun _ _ => rfl, ?_, ?_, ?_, ?_, ?_⟩
  · intro x hx
    obtain ⟨y, -, rfl⟩ := List.mem_map.1 hx
    rfl
  · exact (v _ List.mem_cons_self).trans h.view
  · refine h.chain.imp_of_mem fun {a b} ha hb hab k hk => ?_
    have hk' : (CGroup.relax (c.heap b)).view k ≠ none := hk
    rw [v b hb] at hk'
    show (CGroup.relax (c.heap a)).view k ≠ none
    rw [v a ha]; exact hab k hk'
  · intro a ha k
    show (CGroup.relax (c.heap a)).view k = none ∨ (CGroup.relax (c.heap a)).view k = _
    rw [v a (List.mem_cons_of_mem _ ha)]; exact h.old a ha k
  · intro a ha
    show CGroup.relax (c.heap a) = CGroup.relax (f.other a)
    rw [h.other a ha]

/-- **C109.** Sessions on a database that was made by `Container.new` and used and resized in any way before, with `strict` on or off, some of them
assigning `strict`: for every schedule of their moves the database is, step by step, a map shared by transactions with snapshot isolation and a flag
shared in the same way; a session that sees the flag set may be refused writes, with no effect. -/
theorem sessions_share_map_and_flag [Truthy V] (hV : AllTruthy V) {c : Container V} {m0 : Map V} (h0 : InUse c m0) (b : Bool)
    (ms : List (Nat × Move V)) (hm : ∀ x ∈ ms, NoResize x.2) :
    SimulatesAny ms (Shared.opened (c.setStrict (some b)).2) (Snap.opened m0) (Flag.opened b) := by
  obtain ⟨f, hf⟩ := many_of_inUse h0
  have hlen : (c.heap f.p).collections.length ≠ 0 := fun e => (hf.inv _ List.mem_cons_self).ne (List.length_eq_zero_iff.1 e)
  obtain ⟨n, hn⟩ := Nat.exists_eq_succ_of_ne_zero hlen
  have hfl : Flagged f.p n (fun a => stricts (c.heap a)) (c.setStrict (some b)).2 b := by
    show Flagged f.p n _ (c.put c.primary ((c.heap c.primary).setStrict (some b)).2) b
    rw [hf.primary]
    refine ⟨hf.primary, ?_, fun a ha => ?_⟩
    · rw [Container.heap_put_self]
      have h1 : stricts ((c.heap f.p).setStrict (some b)).2 = List.replicate (c.heap f.p).collections.length b := by
        unfold stricts CGroup.setStrict
        simp [Function.comp_def, List.map_const']
      rw [h1, hn]
    · rw [Container.heap_put_ne _ _ ha]
  have hs : SameAny { f with fl := fun a => (CGroup.relax (c.heap a)).flags, other := fun a => CGroup.relax (f.other a) } n (fun a => stricts (c.heap a)) (Shared.opened (c.setStrict (some b)).2) (Snap.opened m0) (Flag.opened b) :=
    ⟨by
      have := opened_many hf.relax
      have e : relaxAll (Shared.opened (c.setStrict (some b)).2) = Shared.opened (Container.relax c) := by
        unfold relaxAll Shared.opened Sess.fresh
        simp only [relax_setStrict]
      rw [e]; exact this, hfl, fun _ => hfl, fun _ => hfl⟩
  exact hs.simulates hV ms hm

end

/-! ### Concrete databases -/

/-- Every new container meets the hypotheses. -/
example (b : Bool) (capacity mc : Nat) (hc : 1 ≤ capacity) (hm : 1 ≤ mc) : ∃ c0 : Container Bool, Container.new capacity mc false = .ok c0 ∧
    ∀ [Truthy Bool], AllTruthy Bool → ∀ ms, (∀ x ∈ ms, NoResize x.2) →
      SimulatesAny ms (Shared.opened (c0.setStrict (some b)).2) (Snap.opened Map.empty) (Flag.opened b) := by
  obtain ⟨c0, h1, h2, -⟩ := new_shared (V := Bool) capacity mc hc hm
  exact ⟨c0, h1, fun hV ms hms => sessions_share_map_and_flag hV h2 b ms hms⟩

/-- Session 0 turns strict mode on while session 1 has begun: session 1 still writes over the limit and commits; session 2, which begins later, is refused
with no effect, turns strict mode off again and writes. -/
example :
    let w := (Shared.opened (soloBox (groupOf 1 false [("z", 9)]))).moves [(0, .begin), (1, .begin), (0, .run (.strict (some true))), (0, .commit true),
      (1, .run (.create "a" 1)), (1, .commit true), (2, .begin)]
    w.disk.read "a" = .ok (some 1) ∧ w.disk.strict = true ∧ shape (w.move 2 (.run (.create "b" 2))).1 = (some .groupCapacity, []) ∧
    shape ((w.move 2 (.run (.strict (some false)))).2.move 2 (.run (.create "b" 2))).1 = (none, [1]) := by
  refine ⟨by decide +kernel, by decide +kernel, by decide +kernel, by decide +kernel⟩

/-- Refused commits by the flag alone do happen: two sessions turn strict mode on and write different ids; the second one cannot commit, although
both want the same. -/
theorem strict_conflict_counterexample :
    let w := (Shared.opened (soloBox (groupOf 5 false []))).moves [(0, .begin), (1, .begin), (0, .run (.strict (some true))), (0, .run (.create "a" 1)),
      (1, .run (.strict (some true))), (1, .run (.create "b" 2)), (0, .commit true)]
    w.disk.strict = true ∧ (w.sess 1).work.strict = true ∧ (w.commit 1 true).1 = .error .storageError := by
  refine ⟨by decide +kernel, by decide +kernel, by decide +kernel⟩

end Verif.Props
