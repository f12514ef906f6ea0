import Verif.Props.ContainerHistory

/-!
# Strict mode only adds refusals (C108)
-/
namespace Verif.Props
open Verif Verif.Storage Verif.Spec
variable {V : Type}

/-! ### Specification -/

/-- The same collection with `strict` off. -/
def Collection.relax (c : Collection V) : Collection V := { c with strict := false }

/-- The same group with `strict` off in all collections. -/
def CGroup.relax (g : CGroup V) : CGroup V := { collections := g.collections.map Collection.relax }

/-- The same container with `strict` off in all groups. -/
def Container.relax (c : Container V) : Container V := { c with heap := fun a => CGroup.relax (c.heap a) }

/-- A call was refused for lack of room. -/
def NoRoom {α : Type} (r : Outcome α) : Prop := r = .error .collectionCapacity ∨ r = .error .groupCapacity

instance {α : Type} (r : Outcome α) : Decidable (NoRoom r) :=
  match r with
  | .ok _ => isFalse (by simp [NoRoom])
  | .error e => decidable_of_iff (e = .collectionCapacity ∨ e = .groupCapacity) (by simp [NoRoom])

/-- The calls of a history that were not refused. -/
def granted {C R : Type} : List C → List (Outcome R) → List C
  | op :: ops, r :: rs => if NoRoom r then granted ops rs else op :: granted ops rs
  | _, _ => []

/-- Their answers. -/
def answered {R : Type} (rs : List (Outcome R)) : List (Outcome R) := rs.filter fun r => ¬ NoRoom r

/-! ### Collections -/

theorem relax_insert (c : Collection V) (k : String) (v : V) :
    c.insert k v = (.error .collectionCapacity, c) ∨ (Collection.relax c).insert k v = ((c.insert k v).1, Collection.relax (c.insert k v).2) := by
  unfold Collection.insert
  split_ifs with h1 h2 h2
  · exact .inl rfl
  · exact .inl rfl
  · exact absurd h2.2 (by simp [Collection.relax])
  · exact .inr rfl

theorem relax_update (c : Collection V) (d : List (String × V)) :
    c.update d = (.error .collectionCapacity, c) ∨ (Collection.relax c).update d = ((c.update d).1, Collection.relax (c.update d).2) := by
  unfold Collection.update
  simp only
  split_ifs with h1 h2 h2
  · exact .inl rfl
  · exact .inl rfl
  · exact absurd h2.2 (by simp [Collection.relax])
  · exact .inr rfl

theorem relax_pop (c : Collection V) (k : String) (d : Option V) :
    (Collection.relax c).pop k d = ((c.pop k d).1, Collection.relax (c.pop k d).2) := by
  have : (Collection.relax c).tree = c.tree := rfl
  unfold Collection.pop
  rw [this]
  split <;> rfl

theorem relax_popitem (c : Collection V) : (Collection.relax c).popitem = (c.popitem.1, Collection.relax c.popitem.2) := by
  have : (Collection.relax c).tree = c.tree := rfl
  unfold Collection.popitem
  rw [this]
  split <;> rfl

theorem relax_setdefault (c : Collection V) (k : String) (v : V) :
    (Collection.relax c).setdefault k v = ((c.setdefault k v).1, Collection.relax (c.setdefault k v).2) := by
  have : (Collection.relax c).tree = c.tree := rfl
  unfold Collection.setdefault
  rw [this]
  split <;> rfl

theorem relax_relax (c : Collection V) : Collection.relax (Collection.relax c) = Collection.relax c := rfl

/-- C108: one call on a collection. -/
theorem collection_strict_call (c : Collection V) (op : CollCall V) :
    (NoRoom (c.call op).1 ∧ (c.call op).2 = c) ∨ (Collection.relax c).call op = ((c.call op).1, Collection.relax (c.call op).2) := by
  cases op with
  | insert k v =>
    rcases relax_insert c k v with h | h
    · left; simp [Collection.call, h, NoRoom, Except.map]
    · right; simp [Collection.call, h]
  | update d =>
    rcases relax_update c d with h | h
    · left; simp [Collection.call, h, NoRoom, Except.map]
    · right; simp [Collection.call, h]
  | pop k d => right; simp [Collection.call, relax_pop]
  | popitem => right; simp [Collection.call, relax_popitem]
  | setdefault k v => right; simp [Collection.call, relax_setdefault]
  | clear => right; rfl

theorem relaxed_not_refused (c : Collection V) (op : CollCall V) : ¬ NoRoom ((Collection.relax c).call op).1 := by
  cases op with
  | insert k v => simp [Collection.call, Collection.insert, Collection.relax, NoRoom, Except.map]
  | update d => simp [Collection.call, Collection.update, Collection.relax, NoRoom, Except.map]
  | pop k d =>
    simp only [Collection.call, Collection.pop]
    split <;> simp [NoRoom, Except.map]
  | popitem =>
    simp only [Collection.call, Collection.popitem]
    split <;> simp [NoRoom, Except.map]
  | setdefault k v =>
    simp only [Collection.call, Collection.setdefault]
    split <;> simp [NoRoom, Except.map]
  | clear => simp [Collection.call, NoRoom]

/-- **C108 (collections).** A history on a strict collection is the history of its calls that are not refused on the same collection with `strict` off:
the same answers, the same items at the end. -/
theorem collection_strict_history (c : Collection V) (ops : List (CollCall V)) :
    (Collection.relax c).run (granted ops (c.run ops).1) = (answered (c.run ops).1, Collection.relax (c.run ops).2) := by
  induction ops generalizing c with
  | nil => rfl
  | cons op ops ih =>
    have hr : c.run (op :: ops) = ((c.call op).1 :: ((c.call op).2.run ops).1, ((c.call op).2.run ops).2) := rfl
    rw [hr]
    simp only [granted, answered]
    by_cases hn : NoRoom (c.call op).1
    · rw [if_pos hn, List.filter_cons_of_neg (by simpa using hn)]
      rcases collection_strict_call c op with ⟨_, h⟩ | h
      · rw [h]; exact ih c
      · exact absurd hn (by have := relaxed_not_refused c op; rw [h] at this; exact this)
    · rw [if_neg hn, List.filter_cons_of_pos (by simpa using hn)]
      rcases collection_strict_call c op with ⟨h, _⟩ | h
      · exact absurd h hn
      · have hc : (Collection.relax c).run (op :: granted ops ((c.call op).2.run ops).1) =
          (((Collection.relax c).call op).1 :: (((Collection.relax c).call op).2.run (granted ops ((c.call op).2.run ops).1)).1,
            (((Collection.relax c).call op).2.run (granted ops ((c.call op).2.run ops).1)).2) := rfl
        rw [hc, h]
        simp only
        rw [ih]
        rfl

/-! ### Groups -/

theorem relax_length (g : CGroup V) : (CGroup.relax g).collections.length = g.collections.length := by simp [CGroup.relax]

theorem relax_keys (g : CGroup V) : (CGroup.relax g).keys = g.keys := by
  simp [CGroup.relax, CGroup.keys, List.flatMap_map]; rfl

theorem relax_notStrict (g : CGroup V) (hne : g.collections ≠ []) : (CGroup.relax g).strict = false := by
  unfold CGroup.strict CGroup.relax
  cases hc : g.collections with
  | nil => exact absurd hc hne
  | cons c cs => simp [Collection.relax]

theorem relax_route {α : Type} (g : CGroup V) (k : String) (fn : Collection V → Outcome α × Collection V)
    (hfn : ∀ c, fn c = (.error .collectionCapacity, c) ∨ fn (Collection.relax c) = ((fn c).1, Collection.relax (fn c).2)) :
    g.route k fn = (.error .collectionCapacity, g) ∨ (CGroup.relax g).route k fn = ((g.route k fn).1, CGroup.relax (g.route k fn).2) := by
  unfold CGroup.route
  rw [relax_length]
  cases hgi : groupIndex k g.collections.length with
  | error e => exact .inr rfl
  | ok i =>
    have hget : (CGroup.relax g).collections[i]? = (g.collections[i]?).map Collection.relax := by simp [CGroup.relax]
    simp only [hget]
    cases hci : g.collections[i]? with
    | none => exact .inr rfl
    | some c =>
      rcases hfn c with h | h
      · left
        simp only [h]
        have hset : g.collections.set i c = g.collections := by
          obtain ⟨hl, he⟩ := List.getElem?_eq_some_iff.1 hci
          rw [← he]; exact List.set_getElem_self _
        rw [hset]
      · right
        simp only [Option.map_some, h]
        simp [CGroup.relax, List.map_set]

theorem relax_route_eq {α : Type} (g : CGroup V) (k : String) (fn : Collection V → Outcome α × Collection V)
    (hfn : ∀ c, fn (Collection.relax c) = ((fn c).1, Collection.relax (fn c).2)) :
    (CGroup.relax g).route k fn = ((g.route k fn).1, CGroup.relax (g.route k fn).2) := by
  unfold CGroup.route
  rw [relax_length]
  cases hgi : groupIndex k g.collections.length with
  | error e => rfl
  | ok i =>
    have hget : (CGroup.relax g).collections[i]? = (g.collections[i]?).map Collection.relax := by simp [CGroup.relax]
    simp only [hget]
    cases hci : g.collections[i]? with
    | none => rfl
    | some c => simp [hfn, CGroup.relax, List.map_set]

theorem relax_updateLoop (n : Nat) (d : List (String × V)) (cs : List (Collection V)) : ∀ i,
    (CGroup.updateLoop n d i cs).1 = .error .collectionCapacity ∨
      CGroup.updateLoop n d i (cs.map Collection.relax) = ((CGroup.updateLoop n d i cs).1, (CGroup.updateLoop n d i cs).2.map Collection.relax) := by
  induction cs with
  | nil => intro i; exact .inr rfl
  | cons c cs ih =>
    intro i
    simp only [List.map_cons, CGroup.updateLoop]
    split_ifs with hs
    · rcases ih (i + 1) with h | h
      · exact .inl h
      · right; rw [h]; rfl
    · rcases relax_update c (d.filter fun p => hashId p.1 % n = i) with h | h
      · left; rw [h]
      · rw [h]
        cases hc : c.update (d.filter fun p => hashId p.1 % n = i) with
        | mk r c' =>
          cases r with
          | error e => exact .inr rfl
          | ok u =>
            rcases ih (i + 1) with h | h
            · exact .inl h
            · right; simp only [h]; rfl

theorem relax_size (g : CGroup V) : (CGroup.relax g).size = g.size := by
  simp [CGroup.relax, CGroup.size, Function.comp_def]; rfl

theorem relax_maxSize (g : CGroup V) : (CGroup.relax g).maxSize = g.maxSize := by
  simp [CGroup.relax, CGroup.maxSize, Function.comp_def]; rfl

theorem relax_ginsert (g : CGroup V) (k : String) (v : V) :
    (NoRoom (g.insert k v).1 ∧ (g.insert k v).2 = g) ∨ (CGroup.relax g).insert k v = ((g.insert k v).1, CGroup.relax (g.insert k v).2) := by
  have hr := relax_route g k (fun c => c.insert k v) fun c => relax_insert c k v
  unfold CGroup.insert
  rw [relax_length, relax_size, relax_maxSize, relax_keys]
  cases hgi : groupIndex k g.collections.length with
  | error e => exact .inr rfl
  | ok i =>
    have hne : g.collections ≠ [] := by
      intro h0
      rw [h0] at hgi
      simp [groupIndex] at hgi
    simp only [relax_notStrict g hne]
    split_ifs with h1 h2 h2
    · exact .inl ⟨.inr rfl, rfl⟩
    · exact .inl ⟨.inr rfl, rfl⟩
    · simp at h2
    · rcases hr with h | h
      · left; rw [h]; exact ⟨.inl rfl, rfl⟩
      · exact .inr h

theorem relax_gupdate (g : CGroup V) (d : List (String × V)) :
    (NoRoom (g.update d).1 ∧ ((g.update d).1 = .error .groupCapacity → (g.update d).2 = g)) ∨
      (CGroup.relax g).update d = ((g.update d).1, CGroup.relax (g.update d).2) := by
  have hl := relax_updateLoop g.collections.length d g.collections 0
  have hc : (CGroup.relax g).collections = g.collections.map Collection.relax := rfl
  unfold CGroup.update
  simp only
  rw [relax_length, relax_size, relax_maxSize, relax_keys]
  by_cases h1 : ((d.map Prod.fst).filter fun k => k ∉ g.keys).length + g.size > g.maxSize ∧ g.strict = true
  · rw [if_pos h1]; exact .inl ⟨.inr rfl, fun _ => rfl⟩
  · rw [if_neg h1]
    by_cases h2 : g.collections.length = 0 ∧ d ≠ []
    · rw [if_pos h2, if_pos h2]
      by_cases h3 : ((d.map Prod.fst).filter fun k => k ∉ g.keys).length + g.size > g.maxSize ∧ (CGroup.relax g).strict = true
      · exfalso
        refine h1 ⟨h3.1, ?_⟩
        have : g.collections = [] := List.length_eq_zero_iff.1 h2.1
        simp [CGroup.strict, this]
      · rw [if_neg h3]; exact .inr rfl
    · rw [if_neg h2]
      have h3 : ¬ (((d.map Prod.fst).filter fun k => k ∉ g.keys).length + g.size > g.maxSize ∧ (CGroup.relax g).strict = true) := by
        rintro ⟨h3, h4⟩
        by_cases hne : g.collections = []
        · refine h1 ⟨h3, by simp [CGroup.strict, hne]⟩
        · rw [relax_notStrict g hne] at h4; simp at h4
      rw [if_neg h3, if_neg h2, hc]
      rcases hl with h | h
      · left
        refine ⟨.inl h, fun hg => ?_⟩
        simp only at hg
        rw [h] at hg; simp at hg
      · right
        rw [h]; rfl

theorem relax_gpop (g : CGroup V) (k : String) (d : Option V) : (CGroup.relax g).pop k d = ((g.pop k d).1, CGroup.relax (g.pop k d).2) :=
  relax_route_eq g k _ fun c => relax_pop c k d

theorem relax_gsetdefault (g : CGroup V) (k : String) (v : V) :
    (CGroup.relax g).setdefault k v = ((g.setdefault k v).1, CGroup.relax (g.setdefault k v).2) := relax_route_eq g k _ fun c => relax_setdefault c k v

theorem relax_minKey (g : CGroup V) (mn : Option String) : (CGroup.relax g).minKey mn = g.minKey mn := by
  unfold CGroup.minKey
  have : (CGroup.relax g).collections.mapM (fun c => c.minKey mn) = g.collections.mapM (fun c => c.minKey mn) := by
    simp only [CGroup.relax, List.mapM_map]; rfl
  rw [this]

theorem relax_gpopitem (g : CGroup V) : (CGroup.relax g).popitem = (g.popitem.1, CGroup.relax g.popitem.2) := by
  unfold CGroup.popitem
  rw [relax_minKey]
  cases hm : g.minKey none with
  | error e => rfl
  | ok k =>
    simp only [relax_gpop]
    cases hp : g.pop k none with
    | mk r g' => cases r <;> rfl

/-- C108: one call on a group.  Only a refused `update` can have had an effect (some of the collections had room). -/
theorem group_strict_call (g : CGroup V) (op : CollCall V) :
    (NoRoom (g.call op).1 ∧ ((∃ d, op = .update d ∧ (g.call op).1 = .error .collectionCapacity) ∨ (g.call op).2 = g)) ∨
      (CGroup.relax g).call op = ((g.call op).1, CGroup.relax (g.call op).2) := by
  cases op with
  | insert k v =>
    rcases relax_ginsert g k v with ⟨h1 | h1, h2⟩ | h
    · left; refine ⟨.inl ?_, .inr h2⟩; simp [CGroup.call, h1, Except.map]
    · left; refine ⟨.inr ?_, .inr h2⟩; simp [CGroup.call, h1, Except.map]
    · right; simp [CGroup.call, h]
  | update d =>
    rcases relax_gupdate g d with ⟨h1 | h1, h2⟩ | h
    · left
      have : (g.call (.update d)).1 = .error .collectionCapacity := by simp [CGroup.call, h1, Except.map]
      exact ⟨.inl this, .inl ⟨d, rfl, this⟩⟩
    · left; refine ⟨.inr ?_, .inr (h2 h1)⟩; simp [CGroup.call, h1, Except.map]
    · right; simp [CGroup.call, h]
  | pop k d => right; simp [CGroup.call, relax_gpop]
  | popitem => right; simp [CGroup.call, relax_gpopitem]
  | setdefault k v => right; simp [CGroup.call, relax_gsetdefault]
  | clear => right; simp [CGroup.call, CGroup.clear, CGroup.relax, Collection.clear, Collection.relax]

theorem group_refused_no_effect (g : CGroup V) (op : CollCall V) (hn : NoRoom (g.call op).1)
    (hop : ∀ d, op = .update d → (g.call op).1 ≠ .error .collectionCapacity) : (g.call op).2 = g := by
  by_cases hu : ∃ d, op = .update d
  · obtain ⟨d, rfl⟩ := hu
    have h1 : (g.update d).1 = .error .groupCapacity := by
      have : (g.call (.update d)).1 = (g.update d).1.map fun _ => .unit := rfl
      rw [this] at hn
      have h' := hop d rfl
      rw [this] at h'
      cases hr : (g.update d).1 with
      | ok u => rw [hr] at hn; simp [NoRoom, Except.map] at hn
      | error e =>
        rw [hr] at hn h'
        simp [NoRoom, Except.map] at hn h'
        rw [hn.resolve_left h']
    show (g.update d).2 = g
    unfold CGroup.update at h1 ⊢
    simp only at h1 ⊢
    split_ifs at h1 ⊢
    · rfl
    · rfl
    · exfalso
      have key : ∀ (cs : List (Collection V)) i n, (CGroup.updateLoop n d i cs).1 ≠ .error .groupCapacity := by
        intro cs
        induction cs with
        | nil => intro i n; simp [CGroup.updateLoop]
        | cons c cs ih =>
          intro i n
          simp only [CGroup.updateLoop]
          split_ifs
          · exact ih _ _
          · unfold Collection.update
            simp only
            split_ifs
            · simp
            · exact ih _ _
      exact key _ _ _ h1
  · rcases hn with hn | hn
    · exact group_error_no_effect_partial g op _ (fun d h => hu ⟨d, h⟩) hn
    · exact group_error_no_effect_partial g op _ (fun d h => hu ⟨d, h⟩) hn

/-- Calls on a group, as in `CGroup.run`, without assignments to `strict`. -/
def runMap (g : CGroup V) (ops : List (CollCall V)) : List (Outcome (Ret V)) × CGroup V := g.run (ops.map .map)

/-- No `update` of the history was stopped half-way by a full collection. -/
def WholeUpdates (ops : List (CollCall V)) (rs : List (Outcome (Ret V))) : Prop :=
  ∀ p ∈ ops.zip rs, ∀ d, p.1 = .update d → p.2 ≠ .error .collectionCapacity

/-- **C108 (groups).** The same for groups, if no `update` was stopped half-way by a full collection. -/
theorem group_strict_history_partial (g : CGroup V) (ops : List (CollCall V)) (hw : WholeUpdates ops (runMap g ops).1) :
    runMap (CGroup.relax g) (granted ops (runMap g ops).1) = (answered (runMap g ops).1, CGroup.relax (runMap g ops).2) := by
  induction ops generalizing g with
  | nil => rfl
  | cons op ops ih =>
    have hr : ∀ (x : CGroup V) (o : CollCall V) os, runMap x (o :: os) =
        ((x.call o).1 :: (runMap (x.call o).2 os).1, (runMap (x.call o).2 os).2) := fun x o os => rfl
    rw [hr] at hw ⊢
    have h0 : ∀ d, op = .update d → (g.call op).1 ≠ .error .collectionCapacity := hw _ List.mem_cons_self
    have hw' : WholeUpdates ops (runMap (g.call op).2 ops).1 := fun p hp => hw p (List.mem_cons_of_mem _ hp)
    simp only [granted, answered]
    by_cases hn : NoRoom (g.call op).1
    · rw [if_pos hn, List.filter_cons_of_neg (by simpa using hn)]
      rw [group_refused_no_effect g op hn h0] at hw' ⊢
      exact ih g hw'
    · rw [if_neg hn, List.filter_cons_of_pos (by simpa using hn)]
      rcases group_strict_call g op with ⟨h, _⟩ | h
      · exact absurd h hn
      · rw [hr, h]
        simp only
        rw [ih _ hw']
        rfl

/-! ### Containers -/

theorem relax_gget (g : CGroup V) (k : String) : (CGroup.relax g).get k = g.get k := by
  unfold CGroup.get CGroup.routeRead
  rw [relax_length]
  cases groupIndex k g.collections.length with
  | error e => rfl
  | ok i =>
    have hget : (CGroup.relax g).collections[i]? = (g.collections[i]?).map Collection.relax := by simp [CGroup.relax]
    simp only [hget]
    cases g.collections[i]? <;> rfl

theorem relax_ghasKey (g : CGroup V) (k : String) : (CGroup.relax g).hasKey k = g.hasKey k := by
  unfold CGroup.hasKey CGroup.routeRead
  rw [relax_length]
  cases groupIndex k g.collections.length with
  | error e => rfl
  | ok i =>
    have hget : (CGroup.relax g).collections[i]? = (g.collections[i]?).map Collection.relax := by simp [CGroup.relax]
    simp only [hget]
    cases g.collections[i]? <;> rfl

theorem relax_read [Truthy V] (c : Container V) (id : String) : (Container.relax c).read id = c.read id := by
  have key : ∀ as, (Container.relax c).readLoop id as = c.readLoop id as := by
    intro as
    induction as with
    | nil => rfl
    | cons a as ih =>
      simp only [Container.readLoop]
      have : ((Container.relax c).heap a).get id = (c.heap a).get id := relax_gget _ _
      rw [this, ih]
  exact key c.groups

theorem relax_has (c : Container V) (id : String) : (Container.relax c).has id = c.has id := by
  have key : ∀ as, (Container.relax c).hasLoop id as = c.hasLoop id as := by
    intro as
    induction as with
    | nil => rfl
    | cons a as ih =>
      simp only [Container.hasLoop]
      have : ((Container.relax c).heap a).hasKey id = (c.heap a).hasKey id := relax_ghasKey _ _
      rw [this, ih]
  exact key c.groups

theorem relax_put (c : Container V) (a : Nat) (g : CGroup V) : (Container.relax c).put a (CGroup.relax g) = Container.relax (c.put a g) := by
  unfold Container.put Container.relax
  simp only [Container.mk.injEq, and_true]
  funext b
  by_cases h : b = a
  · subst h; simp
  · simp [Function.update_of_ne h]

theorem relax_delete (c : Container V) (id : String) : (Container.relax c).delete id = ((c.delete id).1, Container.relax (c.delete id).2) := by
  have key : ∀ as (c : Container V), Container.deleteLoop id as (Container.relax c) =
      ((Container.deleteLoop id as c).1, Container.relax (Container.deleteLoop id as c).2) := by
    intro as
    induction as with
    | nil => intro c; rfl
    | cons a as ih =>
      intro c
      simp only [Container.deleteLoop]
      rw [relax_has]
      cases hh : c.has id with
      | error e => rfl
      | ok n =>
        cases n with
        | zero => exact ih c
        | succ n =>
          have h1 : ((Container.relax c).heap a).pop id none = (((c.heap a).pop id none).1, CGroup.relax ((c.heap a).pop id none).2) := relax_gpop _ _ _
          simp only [h1]
          cases hp : (c.heap a).pop id none with
          | mk r g =>
            cases r with
            | error e => simp only [relax_put]
            | ok v =>
              simp only [relax_put, ih]
              cases Container.deleteLoop id as (c.put a g) with
              | mk r c' => cases r <;> rfl
  exact key c.groups c

theorem relax_insertPrimary (c : Container V) (k : String) (v : V) : NoRoom (c.insertPrimary k v).1 ∨
    (Container.relax c).insertPrimary k v = ((c.insertPrimary k v).1, Container.relax (c.insertPrimary k v).2) := by
  rcases relax_ginsert (c.heap c.primary) k v with ⟨h | h, _⟩ | h
  · left; left; simp [Container.insertPrimary, h, Except.map]
  · left; right; simp [Container.insertPrimary, h, Except.map]
  · right
    have h' : ((Container.relax c).heap (Container.relax c).primary).insert k v =
      (((c.heap c.primary).insert k v).1, CGroup.relax ((c.heap c.primary).insert k v).2) := h
    unfold Container.insertPrimary
    rw [h']
    have : (Container.relax c).primary = c.primary := rfl
    simp only [this, relax_put]

theorem relax_moveKey (t : Bool) (a : Nat) (k : String) (c : Container V) : NoRoom (Container.moveKey t a k c).1 ∨
    Container.moveKey t a k (Container.relax c) = ((Container.moveKey t a k c).1, Container.relax (Container.moveKey t a k c).2) := by
  have h1 : ((Container.relax c).heap a).pop k none = (((c.heap a).pop k none).1, CGroup.relax ((c.heap a).pop k none).2) := relax_gpop _ _ _
  have h2 : ((Container.relax c).heap a).get k = (c.heap a).get k := relax_gget _ _
  unfold Container.moveKey
  rw [h1, h2]
  split_ifs
  · cases hp : (c.heap a).pop k none with
    | mk r g =>
      cases r with
      | error e => right; simp only [relax_put]
      | ok v => simp only [relax_put]; exact relax_insertPrimary (c.put a g) k v
  · cases hg : (c.heap a).get k with
    | error e => exact .inr rfl
    | ok o =>
      cases o with
      | none => exact .inr rfl
      | some v => exact relax_insertPrimary c k v

theorem relax_moveKeys (t : Bool) (a : Nat) (ks : List String) (c : Container V) : NoRoom (Container.moveKeys t a ks c).1 ∨
    Container.moveKeys t a ks (Container.relax c) = ((Container.moveKeys t a ks c).1, Container.relax (Container.moveKeys t a ks c).2) := by
  induction ks generalizing c with
  | nil => exact .inr rfl
  | cons k ks ih =>
    simp only [Container.moveKeys]
    have h := relax_moveKey t a k c
    cases hm : Container.moveKey t a k c with
    | mk r c' =>
      rw [hm] at h
      cases r with
      | error e =>
        rcases h with h | h
        · left; exact h
        · right; simp only [h]
      | ok u =>
        rcases h with h | h
        · simp [NoRoom] at h
        · simp only [h]; exact ih c'

theorem relax_moveGroups (t : Bool) (as : List Nat) (c : Container V) : NoRoom (Container.moveGroups t as c).1 ∨
    Container.moveGroups t as (Container.relax c) = ((Container.moveGroups t as c).1, Container.relax (Container.moveGroups t as c).2) := by
  induction as generalizing c with
  | nil => exact .inr rfl
  | cons a as ih =>
    simp only [Container.moveGroups]
    have hk : ((Container.relax c).heap a).keys = (c.heap a).keys := relax_keys _
    rw [hk]
    have h := relax_moveKeys t a (c.heap a).keys c
    cases hm : Container.moveKeys t a (c.heap a).keys c with
    | mk r c' =>
      rw [hm] at h
      cases r with
      | error e =>
        rcases h with h | h
        · left; exact h
        · right; simp only [h]
      | ok u =>
        rcases h with h | h
        · simp [NoRoom] at h
        · simp only [h]; exact ih c'

theorem relax_condense (c : Container V) (t : Bool) : NoRoom (c.condense t).1 ∨
    (Container.relax c).condense t = ((c.condense t).1, Container.relax (c.condense t).2) := by
  have h := relax_moveGroups t c.groups.tail c
  unfold Container.condense
  have hg : (Container.relax c).groups = c.groups := rfl
  rw [hg]
  cases hm : Container.moveGroups t c.groups.tail c with
  | mk r c' =>
    rw [hm] at h
    cases r with
    | error e =>
      rcases h with h | h
      · left; simpa [NoRoom] using h
      · right; simp only [h]
    | ok u =>
      rcases h with h | h
      · simp [NoRoom] at h
      · simp only [h]
        right
        split_ifs
        · unfold Container.dropSources
          have hg' : (Container.relax c').groups = c'.groups := rfl
          rw [hg']
          cases c'.groups <;> rfl
        · rfl

theorem relax_nonstrict {g : CGroup V} (h : g.NonStrict) : CGroup.relax g = g := by
  obtain ⟨cs⟩ := g
  unfold CGroup.relax
  simp only [CGroup.mk.injEq]
  conv_rhs => rw [← List.map_id cs]
  refine List.map_congr_left fun c hc => ?_
  have := h c hc
  obtain ⟨u, t, m, s⟩ := c
  simp only at this
  subst this
  rfl

theorem relax_resize (c : Container V) (n m : Nat) (cd t : Bool) : NoRoom (c.resize n m cd t).1 ∨
    (Container.relax c).resize n m cd t = ((c.resize n m cd t).1, Container.relax (c.resize n m cd t).2) := by
  unfold Container.resize
  have hs : Container.makeGroup (V := V) n m (Container.relax c).strict = Container.makeGroup n m c.strict := rfl
  rw [hs]
  cases hm : Container.makeGroup (V := V) n m c.strict with
  | error e => exact .inr rfl
  | ok g =>
    have hpush : (Container.relax c).pushPrimary g = Container.relax (c.pushPrimary g) := by
      unfold Container.pushPrimary Container.relax
      simp only [Container.mk.injEq, and_true]
      funext b
      by_cases h : b = c.next
      · subst h; simp [relax_nonstrict (makeGroup_inv hm).2.2.2.1]
      · simp [Function.update_of_ne h]
    simp only [hpush]
    split_ifs
    · exact relax_condense _ t
    · have hw : ∀ (x : Container V) gs, (Container.relax x).withGroups gs = Container.relax (x.withGroups gs) := fun _ _ => rfl
      have hgs : (Container.relax (c.pushPrimary g)).groups = (c.pushPrimary g).groups := rfl
      rw [hgs, hw]
      have h := relax_condense ((c.pushPrimary g).withGroups ((c.pushPrimary g).groups.take 2)) t
      cases hc : ((c.pushPrimary g).withGroups ((c.pushPrimary g).groups.take 2)).condense t with
      | mk r c' =>
        rw [hc] at h
        cases r with
        | error e =>
          rcases h with h | h
          · left; simpa [NoRoom] using h
          · right; simp only [h]
        | ok r =>
          rcases h with h | h
          · simp [NoRoom] at h
          · right; simp only [h]; rfl

theorem relax_write (c : Container V) (k : String) (v : V) : NoRoom (c.write k v).1 ∨
    (Container.relax c).write k v = ((c.write k v).1, Container.relax (c.write k v).2) := by
  unfold Container.write
  have hp : (Container.relax c).primary = c.primary := rfl
  have hh : (Container.relax c).heap c.primary = CGroup.relax (c.heap c.primary) := rfl
  rw [hp, hh]
  have h := relax_ginsert (c.heap c.primary) k v
  cases hi : (c.heap c.primary).insert k v with
  | mk r g =>
    rw [hi] at h
    cases r with
    | error e =>
      rcases h with h | h
      · left; simpa [NoRoom] using h.1
      · right; simp only [h, relax_put]
    | ok n =>
      rcases h with h | h
      · simp [NoRoom] at h
      · cases n with
        | succ n => right; simp only [h, relax_put]
        | zero =>
          simp only [h]
          have h2 := relax_gupdate g [(k, v)]
          cases hu : g.update [(k, v)] with
          | mk r g' =>
            rw [hu] at h2
            cases r with
            | error e =>
              rcases h2 with h2 | h2
              · left; simpa [NoRoom] using h2.1
              · right; simp only [h2, relax_put]
            | ok u =>
              rcases h2 with h2 | h2
              · simp [NoRoom] at h2
              · right; simp only [h2, relax_put]

theorem noRoom_map {α β : Type} {r : Outcome α} {f : α → β} : NoRoom (r.map f) ↔ NoRoom r := by
  cases r <;> simp [NoRoom, Except.map]

/-- **C108 (containers, one call).** Any call (but an assignment to `strict`) on a container either raises a capacity error or answers and does what it does
when `strict` is off in all groups; if it is a write or a delete, the capacity error comes with no effect. -/
theorem container_strict_call (c : Container V) (op : ContCall V) (hop : ∀ b, op ≠ .setStrict b) :
    NoRoom (c.call op).1 ∨ (Container.relax c).call op = ((c.call op).1, Container.relax (c.call op).2) := by
  cases op with
  | write k v =>
    rcases relax_write c k v with h | h
    · exact .inl (noRoom_map.2 h)
    · right; simp [Container.call, h]
  | delete k => right; simp [Container.call, relax_delete]
  | resize n m cd t =>
    rcases relax_resize c n m cd t with h | h
    · exact .inl (noRoom_map.2 h)
    · right; simp [Container.call, h]
  | condense t =>
    rcases relax_condense c t with h | h
    · exact .inl (noRoom_map.2 h)
    · right; simp [Container.call, h]
  | setStrict b => exact absurd rfl (hop b)

theorem container_refused_no_effect {c : Container V} (hr : ContReach c) (op : ContCall V) (hn : NoRoom (c.call op).1)
    (hop : (∃ k v, op = .write k v) ∨ ∃ k, op = .delete k) : (c.call op).2 = c := by
  rcases hop with ⟨k, v, rfl⟩ | ⟨k, rfl⟩
  · rcases Container.write_spec hr.inv.pinv k v with ⟨e, h, _⟩ | ⟨g, h, _⟩
    · simp [Container.call, h]
    · simp [Container.call, h, NoRoom, Except.map] at hn
  · obtain ⟨_, h, _⟩ := container_delete_error c hr k
    exfalso
    have hn' : NoRoom (c.delete k).1 := noRoom_map.1 hn
    rcases hn' with hn' | hn' <;> have := h _ hn' <;> simp at this

/-- The history assigns no `strict`, and none of its reorganisations was refused (stopped half-way). -/
def WholeMoves (ops : List (ContCall V)) (rs : List (Outcome (ContRet V))) : Prop :=
  (∀ op ∈ ops, ∀ b, op ≠ .setStrict b) ∧
    ∀ p ∈ ops.zip rs, NoRoom p.2 → (∃ k v, p.1 = .write k v) ∨ ∃ k, p.1 = .delete k

/-- **C108 (containers).** A history on a container is the history of its calls that are not refused on the same container with `strict` off: the same
answers, and the same objects in the same groups at the end. -/
theorem container_strict_history_partial (c : Container V) (hr : ContReach c) (ops : List (ContCall V)) (hw : WholeMoves ops (c.run ops).1) :
    (Container.relax c).run (granted ops (c.run ops).1) = (answered (c.run ops).1, Container.relax (c.run ops).2) := by
  induction ops generalizing c with
  | nil => rfl
  | cons op ops ih =>
    have hrun : ∀ (x : Container V) (o : ContCall V) os, x.run (o :: os) = ((x.call o).1 :: ((x.call o).2.run os).1, ((x.call o).2.run os).2) :=
      fun x o os => rfl
    rw [hrun] at hw ⊢
    have h0 : NoRoom (c.call op).1 → (∃ k v, op = .write k v) ∨ ∃ k, op = .delete k := hw.2 _ List.mem_cons_self
    have hw' : WholeMoves ops ((c.call op).2.run ops).1 :=
      ⟨fun o ho => hw.1 o (List.mem_cons_of_mem _ ho), fun p hp => hw.2 p (List.mem_cons_of_mem _ hp)⟩
    simp only [granted, answered]
    by_cases hn : NoRoom (c.call op).1
    · rw [if_pos hn, List.filter_cons_of_neg (by simpa using hn)]
      rw [container_refused_no_effect hr op hn (h0 hn)] at hw' ⊢
      exact ih c hr hw'
    · rw [if_neg hn, List.filter_cons_of_pos (by simpa using hn)]
      rcases container_strict_call c op (hw.1 op List.mem_cons_self) with h | h
      · exact absurd h hn
      · rw [hrun, h]
        simp only
        rw [ih _ (.call c op hr) hw']
        rfl

/-- C108: what is read does not depend on `strict`. -/
theorem strict_reads [Truthy V] (c : Container V) (id : String) :
    (Container.relax c).read id = c.read id ∧ (Container.relax c).has id = c.has id ∧ (Container.relax c).size = c.size ∧
      (Container.relax c).maxSize = c.maxSize ∧ ∀ a k, ((Container.relax c).heap a).get k = (c.heap a).get k := by
  refine ⟨relax_read c id, relax_has c id, ?_, ?_, fun a k => relax_gget _ _⟩
  · show (c.groups.map fun a => (CGroup.relax (c.heap a)).size).sum = _
    simp only [relax_size]; rfl
  · show (c.groups.map fun a => (CGroup.relax (c.heap a)).maxSize).sum = _
    simp only [relax_maxSize]; rfl

/-- **C108 (counterexample).** Without the hypothesis on `update` the statement is false for groups: a refused `update` has stored "b". -/
theorem group_strict_history_counterexample :
    ∃ (g : CGroup Nat) (ops : List (CollCall Nat)), GroupReach g ∧
      (runMap (CGroup.relax g) (granted ops (runMap g ops).1)).2.get "b" = .ok none ∧ (runMap g ops).2.get "b" = .ok (some 1) := by
  refine ⟨(strictGroup.run []).2, [.update [("b", 1), ("a", 2), ("c", 3)]], strictGroup_reach _, ?_, ?_⟩ <;> decide +kernel

/-- **C108 (counterexample).** Without the hypothesis on reorganisations it is false for containers: the refused `condense` has removed "b". -/
theorem container_strict_history_counterexample :
    ∃ (c : Container Nat) (ops : List (ContCall Nat)), ContReach c ∧
      ((Container.relax c).run (granted ops (c.run ops).1)).2.read "b" = .ok (some 2) ∧ (c.run ops).2.read "b" = .ok none := by
  obtain ⟨c, hr, h1, h2, h3, _⟩ := container_condense_strict_counterexample
  have hrun : c.run [.condense true] = ([(c.condense true).1.map .groups], (c.condense true).2) := rfl
  have hn : NoRoom (c.condense true).1 := .inr h2
  refine ⟨c, [.condense true], hr, ?_, ?_⟩
  · rw [hrun]
    simp only [granted]
    rw [if_pos (noRoom_map.2 hn)]
    show (Container.relax c).read "b" = _
    rw [relax_read, h1]
  · rw [hrun]; exact h3

/-- Non-vacuity: the third write is refused, the other calls are as without `strict`. -/
example : ∃ ops : List (CollCall Nat), (granted ops ((Collection.new 0 (some 2) true).run ops).1).length = 3 ∧ ops.length = 4 ∧
    ((Collection.new 0 (some 2) true).run ops).2.keys = ["b"] :=
  ⟨[.insert "a" 1, .insert "b" 2, .insert "c" 3, .pop "a" none], by decide +kernel, rfl, by decide +kernel⟩

/-- Non-vacuity (groups): the second insert is refused. -/
example : WholeUpdates [CollCall.insert "a" 1, .insert "c" 2, .update [("b", 3)]] (runMap strictGroup [.insert "a" 1, .insert "c" 2, .update [("b", 3)]]).1 ∧
    (runMap strictGroup [.insert "a" 1, .insert "c" 2, .update [("b", 3)]]).1 = [.ok (.num 1), .error .collectionCapacity, .ok .unit] := by
  have h : (runMap strictGroup [.insert "a" 1, .insert "c" 2, .update [("b", 3)]]).1 = [.ok (.num 1), .error .collectionCapacity, .ok .unit] := by
    decide +kernel
  refine ⟨?_, h⟩
  rw [h]
  intro p hp d hd
  simp only [List.zip_cons_cons, List.zip_nil_right, List.mem_cons, List.not_mem_nil, or_false] at hp
  rcases hp with rfl | rfl | rfl
  · simp
  · simp at hd
  · simp

/-- Non-vacuity (containers): a refused write between a delete and a write. -/
example : WholeMoves [ContCall.write "x" 1, .delete "a", .write "x" 1] (fullContainer.run [.write "x" 1, .delete "a", .write "x" 1]).1 ∧
    (fullContainer.run [.write "x" 1, .delete "a", .write "x" 1]).1 = [.error .groupCapacity, .ok (.objs [1]), .ok (.count (some 1))] := by
  have h : (fullContainer.run [.write "x" 1, .delete "a", .write "x" 1]).1 = [.error .groupCapacity, .ok (.objs [1]), .ok (.count (some 1))] := by
    decide +kernel
  refine ⟨⟨by simp, ?_⟩, h⟩
  rw [h]
  intro p hp _
  simp only [List.zip_cons_cons, List.zip_nil_right, List.mem_cons, List.not_mem_nil, or_false] at hp
  rcases hp with rfl | rfl | rfl
  · exact .inl ⟨_, _, rfl⟩
  · exact .inr ⟨_, rfl⟩
  · exact .inl ⟨_, _, rfl⟩

end Verif.Props
