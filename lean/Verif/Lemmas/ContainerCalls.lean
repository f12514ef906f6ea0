import Verif.Lemmas.Container

namespace Verif.Storage
open Verif.Spec
variable {V : Type}

/-! ### write -/

theorem updateLoop_no_error (n : Nat) (d : List (String × V)) (i : Nat) (cs : List (Collection V))
    (h : ∀ j c, cs[j]? = some c → share n d (i + j) ≠ [] → (c.update (share n d (i + j))).1 = .ok ()) :
    (CGroup.updateLoop n d i cs).1 = .ok () := by
  induction cs generalizing i with
  | nil => rfl
  | cons c cs ih =>
    have ih := ih (i + 1) fun j c' hj hs => by
      have := h (j + 1) c' (by simpa using hj)
      rw [show i + (j + 1) = i + 1 + j by omega] at this
      exact this hs
    unfold CGroup.updateLoop
    dsimp only
    split_ifs with hs
    · exact ih
    · have h0 := h 0 c rfl (by
        intro h0; exact hs (List.isEmpty_iff.2 h0))
      rw [Nat.add_zero] at h0
      unfold share at h0
      split
      · rename_i e c' he; rw [he] at h0; simp at h0
      · exact ih

/-- Replacing a stored object through `update` after `insert` found it present. -/
theorem CGroup.rewrite_spec {g : CGroup V} (hi : g.Inv) {k : String} {v : V}
    (h : (g.insert k v).1 = .ok 0) :
    (g.insert k v).2 = g ∧
    ((∃ u, (g.update [(k, v)]).1 = .ok u ∧ (g.update [(k, v)]).2.view = Map.set g.view k v) ∨
      ((g.update [(k, v)]) = (.error .groupCapacity, g) ∧ g.strict = true)) := by
  have hk : g.view k ≠ none := by
    rcases (CGroup.insert_ok hi h).2 with h | h
    · simp at h
    · exact h.1
  have hmem : k ∈ g.keys := (CGroup.mem_keys hi k).2 hk
  have hidx : groupIndex k g.collections.length = .ok (hashId k % g.collections.length) := by
    unfold groupIndex; rw [if_neg]; intro h; exact hi.ne (List.length_eq_zero_iff.1 h)
  obtain ⟨c, hc⟩ := CGroup.coll_exists hi.ne k
  have hck : c.get k ≠ none := by rw [← CGroup.view_eq hc]; exact hk
  have hins : (c.insert k v).1 = .ok 0 ∧ (g.insert k v).2 =
      { collections := g.collections.set (hashId k % g.collections.length) (c.insert k v).2 } := by
    unfold CGroup.insert at h ⊢
    rw [hidx] at h ⊢
    simp only [hmem, not_true_eq_false, false_and, and_false, if_false] at h ⊢
    rw [CGroup.route_eq hc] at h ⊢
    exact ⟨h, rfl⟩
  have hfull : ¬ (c.size ≥ c.maxSize ∧ c.strict = true) := by
    intro hf
    have := hins.1
    unfold Collection.insert at this
    rw [if_pos hf] at this; simp at this
  have hhas : c.tree.has k = true := by
    unfold Tree.has
    exact Option.isSome_iff_ne_none.2 hck
  constructor
  · rw [hins.2]
    have : (c.insert k v).2 = c := by
      unfold Collection.insert
      rw [if_neg hfull]
      simp only [Tree.insert, hhas, if_true]
    rw [this]
    have hl := List.getElem?_eq_some_iff.1 hc
    obtain ⟨hl, he⟩ := hl
    cases g with
    | mk cs =>
      simp only [CGroup.mk.injEq]
      conv_lhs => rw [← he]
      exact List.set_getElem_self _
  · by_cases hcap : g.size > g.maxSize ∧ g.strict = true
    · right
      refine ⟨?_, hcap.2⟩
      unfold CGroup.update
      simp [hmem, hcap]
    · left
      have hok : (g.update [(k, v)]).1 = .ok () := by
        unfold CGroup.update
        have hl0 : g.collections.length ≠ 0 := by
          intro h; exact hi.ne (List.length_eq_zero_iff.1 h)
        have hnk : (List.map Prod.fst [(k, v)]).filter (fun k => decide (k ∉ g.keys)) = [] := by
          simp [hmem]
        simp only [hnk, List.length_nil, Nat.zero_add, if_neg hcap]
        simp only [hl0, false_and, if_false]
        apply updateLoop_no_error
        intro j c' hj hs
        rw [Nat.zero_add] at hs ⊢
        have hjk : hashId k % g.collections.length = j := by
          by_contra hne
          apply hs; unfold share; simp [hne]
        rw [← hjk, hc] at hj; injection hj with hj; subst hj
        have hsh : share g.collections.length [(k, v)] j = [(k, v)] := by
          unfold share; simp [hjk]
        rw [hsh]
        unfold Collection.update
        simp only [List.map_cons, List.map_nil, List.filter_cons, hhas, Bool.not_true,
          Bool.false_eq_true, if_false, List.filter_nil, List.length_nil, Nat.add_zero]
        rw [if_neg]
        intro h; exact hfull ⟨le_of_lt h.1, h.2⟩
      exact ⟨(), hok, by rw [CGroup.update_view hi _ hok]; rfl⟩

/-- The three outcomes of `write`. -/
theorem Container.write_spec {c : Container V} (hp : (c.heap c.primary).Inv) (k : String) (v : V) :
    (∃ e, c.write k v = (.error e, c) ∧ (e = .groupCapacity ∨ e = .collectionCapacity) ∧
      ¬ (c.heap c.primary).NonStrict) ∨
    (∃ g, c.write k v = (.ok (if c.view c.primary k = none then some 1 else none), c.put c.primary g) ∧
      g.Inv ∧ g.flags = (c.heap c.primary).flags ∧
      g.view = Map.set (c.view c.primary) k v) := by
  unfold Container.write
  rcases hr : (c.heap c.primary).insert k v with ⟨r, g⟩
  have hr1 : ((c.heap c.primary).insert k v).1 = r := by rw [hr]
  have hr2 : ((c.heap c.primary).insert k v).2 = g := by rw [hr]
  cases r with
  | error e =>
    obtain ⟨h1, h2, h3⟩ := CGroup.insert_error hp hr1
    left
    refine ⟨e, ?_, h1, h3⟩
    simp only
    rw [← hr2, h2, Container.put_same]
  | ok n =>
    obtain ⟨h1, h2⟩ := CGroup.insert_ok hp hr1
    cases n with
    | succ n =>
      right
      rcases h2 with ⟨h2, h3, h4⟩ | ⟨_, h3, _⟩
      · refine ⟨g, ?_, hr2 ▸ h1, ?_, hr2 ▸ h4⟩
        · simp only
          rw [if_pos (show c.view c.primary k = none from h2), h3]
        · rw [← hr2]; exact CGroup.insert_flags _ _ _
      · simp at h3
    | zero =>
      obtain ⟨h3, h4⟩ := CGroup.rewrite_spec hp hr1
      have hg : g = c.heap c.primary := by rw [← hr2, h3]
      have hkn : ¬ (c.heap c.primary).view k = none := by
        rcases h2 with h | h
        · simp at h
        · exact h.1
      simp only
      rw [hg]
      rcases h4 with ⟨u, h5, h6⟩ | ⟨h5, h6⟩
      · right
        refine ⟨((c.heap c.primary).update [(k, v)]).2, ?_, CGroup.update_inv hp _,
          CGroup.update_flags _ _, h6⟩
        rcases hu : (c.heap c.primary).update [(k, v)] with ⟨r', g'⟩
        rw [hu] at h5; simp only at h5; subst h5
        simp only
        rw [if_neg hkn]
      · left
        rw [h5]
        refine ⟨.groupCapacity, ?_, .inl rfl, ?_⟩
        · simp only; rw [Container.put_same]
        · intro hn
          cases hcs : (c.heap c.primary).collections with
          | nil => exact hp.ne hcs
          | cons x xs =>
            unfold CGroup.strict at h6
            rw [hcs] at h6
            simp only [List.all_cons, Bool.and_eq_true] at h6
            have := hn x (by rw [hcs]; simp)
            rw [this] at h6; simp at h6

/-! ### delete -/

/-- Effect of removing `id` from the groups in `as`. -/
structure Removed (id : String) (as : List Nat) (c c' : Container V) : Prop where
  groups : c'.groups = c.groups
  primary : c'.primary = c.primary
  next : c'.next = c.next
  inv : ∀ b, (c.heap b).Inv → (c'.heap b).Inv
  flags : ∀ b, (c'.heap b).flags = (c.heap b).flags
  outside : ∀ b, b ∉ as → c'.heap b = c.heap b
  frame : ∀ b, (c.heap b).Inv → ∀ x, x ≠ id → c'.view b x = c.view b x

theorem Removed.refl (id : String) (as : List Nat) (c : Container V) : Removed id as c c :=
  ⟨rfl, rfl, rfl, fun _ h => h, fun _ => rfl, fun _ _ => rfl, fun _ _ _ _ => rfl⟩

theorem CGroup.pop_frame {g : CGroup V} (hi : g.Inv) (k x : String) (hx : x ≠ k) :
    (g.pop k none).2.view x = g.view x := by
  cases h : g.view k with
  | none => rw [(CGroup.pop_miss hi h).2.2]
  | some v => rw [(CGroup.pop_hit hi h).2.2]; simp [Map.remove, hx]

theorem Removed.put {id : String} {a : Nat} {as : List Nat} {c c' : Container V}
    (ha : (c.heap a).Inv) (h : Removed id as (c.put a ((c.heap a).pop id none).2) c') :
    Removed id (a :: as) c c' := by
  refine ⟨h.groups, h.primary, h.next, ?_, ?_, ?_, ?_⟩
  · intro b hb
    refine h.inv b ?_
    by_cases hba : b = a
    · rw [hba, Container.heap_put_self]; exact (CGroup.pop_step ha id none).1
    · rw [Container.heap_put_ne _ _ hba]; exact hb
  · intro b
    rw [h.flags b]
    by_cases hba : b = a
    · rw [hba, Container.heap_put_self]; exact CGroup.pop_flags _ _ _
    · rw [Container.heap_put_ne _ _ hba]
  · intro b hb
    rw [List.mem_cons, not_or] at hb
    rw [h.outside b hb.2, Container.heap_put_ne _ _ hb.1]
  · intro b hb x hx
    by_cases hba : b = a
    · subst hba
      rw [h.frame b ?_ x hx]
      · unfold Container.view
        rw [Container.heap_put_self]; exact CGroup.pop_frame ha id x hx
      · rw [Container.heap_put_self]; exact (CGroup.pop_step ha id none).1
    · rw [h.frame b ?_ x hx]
      · unfold Container.view
        rw [Container.heap_put_ne _ _ hba]
      · rw [Container.heap_put_ne _ _ hba]; exact hb

/-- The holders of `id` come first in the list of groups. -/
def Container.HoldersFirst (c : Container V) (id : String) (as : List Nat) : Prop :=
  as.Pairwise fun a b => c.view b id ≠ none → c.view a id ≠ none

theorem Container.deleteLoop_spec (id : String) (as : List Nat) :
    ∀ (c : Container V) (pre : List Nat), (∀ a ∈ c.groups, (c.heap a).Inv) → c.groups = pre ++ as →
      as.Nodup → (∀ a ∈ pre, c.view a id = none) →
    Removed id as c (Container.deleteLoop id as c).2 ∧
    ((c.HoldersFirst id as ∧
        (Container.deleteLoop id as c).1 = .ok (as.filterMap fun a => c.view a id) ∧
        ∀ a ∈ as, (Container.deleteLoop id as c).2.view a id = none) ∨
      (¬ c.HoldersFirst id as ∧ (Container.deleteLoop id as c).1 = .error .keyError)) := by
  induction as with
  | nil =>
    intro c pre hi hg hnd hpre
    exact ⟨Removed.refl _ _ _, .inl ⟨List.Pairwise.nil, rfl, by simp⟩⟩
  | cons a as ih =>
    intro c pre hi hg hnd hpre
    have hcount : c.has id = .ok ((a :: as).countP fun b => (c.view b id).isSome) := by
      unfold Container.has
      rw [Container.hasLoop_eq c id _ hi, hg, List.countP_append]
      have : pre.countP (fun b => (c.view b id).isSome) = 0 := by
        rw [List.countP_eq_zero]; intro b hb; rw [hpre b hb]; simp
      rw [this, Nat.zero_add]
    have ha : (c.heap a).Inv := hi a (by rw [hg]; simp)
    obtain ⟨hna, hnd'⟩ := List.nodup_cons.1 hnd
    unfold Container.deleteLoop
    rw [hcount]
    cases hn : (a :: as).countP fun b => (c.view b id).isSome with
    | zero =>
      simp only
      have hnone : ∀ b ∈ a :: as, c.view b id = none := by
        intro b hb
        have := List.countP_eq_zero.1 hn b hb
        simpa using this
      have hpre' : ∀ b ∈ pre ++ [a], c.view b id = none := by
        intro b hb
        rcases List.mem_append.1 hb with hb | hb
        · exact hpre b hb
        · rw [List.mem_singleton] at hb; subst hb; exact hnone b List.mem_cons_self
      obtain ⟨h1, h2⟩ := ih c (pre ++ [a]) hi (by rw [hg]; simp) hnd' hpre'
      have hhf : ∀ l : List Nat, (∀ b ∈ l, c.view b id = none) → c.HoldersFirst id l := by
        intro l hl
        refine List.pairwise_of_forall_mem_list ?_
        intro x _ y hy hc
        exact absurd (hl y hy) hc
      refine ⟨⟨h1.groups, h1.primary, h1.next, h1.inv, h1.flags, ?_, h1.frame⟩, .inl ?_⟩
      · intro b hb
        exact h1.outside b fun h => hb (List.mem_cons_of_mem _ h)
      · rcases h2 with ⟨_, h3, h4⟩ | ⟨h3, _⟩
        · refine ⟨hhf _ hnone, ?_, ?_⟩
          · rw [h3, List.filterMap_cons, hnone a List.mem_cons_self]
          · intro b hb
            rcases List.mem_cons.1 hb with rfl | hb
            · unfold Container.view
              rw [h1.outside b hna]; exact hnone b List.mem_cons_self
            · exact h4 b hb
        · exact absurd (hhf as fun b hb => hnone b (List.mem_cons_of_mem _ hb)) h3
    | succ n =>
      simp only
      cases hv : c.view a id with
      | none =>
        obtain ⟨h1, h2, h3⟩ := CGroup.pop_miss ha hv
        rcases hp : (c.heap a).pop id none with ⟨r, g⟩
        rw [hp] at h1 h2 h3
        simp only at h1 h2 h3; subst h1
        simp only
        refine ⟨?_, .inr ⟨?_, by simp⟩⟩
        · have := Removed.put (as := as) ha
            (Removed.refl id as (c.put a ((c.heap a).pop id none).2))
          rw [hp] at this; exact this
        · intro hh
          have hpos : 0 < (a :: as).countP fun b => (c.view b id).isSome := by omega
          obtain ⟨b, hb, hs⟩ := List.countP_pos_iff.1 hpos
          have hs := Option.isSome_iff_ne_none.1 hs
          rcases List.mem_cons.1 hb with rfl | hb
          · exact hs hv
          · exact (List.pairwise_cons.1 hh).1 b hb hs hv
      | some v =>
        obtain ⟨h1, h2, h3⟩ := CGroup.pop_hit ha hv
        rcases hp : (c.heap a).pop id none with ⟨r, g⟩
        rw [hp] at h1 h2 h3
        simp only at h1 h2 h3; subst h1
        simp only
        have hne : ∀ b, b ≠ a → (c.put a g).view b = c.view b := by
          intro b hb; unfold Container.view; rw [Container.heap_put_ne _ _ hb]
        have hself : (c.put a g).view a id = none := by
          unfold Container.view; rw [Container.heap_put_self, h3]; simp [Map.remove]
        have hasne : ∀ b ∈ as, b ≠ a := by rintro b hb rfl; exact hna hb
        obtain ⟨i1, i2⟩ := ih (c.put a g) (pre ++ [a]) (by
            intro b hb
            by_cases hba : b = a
            · rw [hba, Container.heap_put_self]; exact h2
            · rw [Container.heap_put_ne _ _ hba]; exact hi b hb)
          (by show c.groups = _; rw [hg]; simp) hnd' (by
            intro b hb
            by_cases hba : b = a
            · subst hba; exact hself
            · rw [hne b hba]
              rcases List.mem_append.1 hb with hb | hb
              · exact hpre b hb
              · rw [List.mem_singleton] at hb; exact absurd hb hba)
        have hrem : Removed id (a :: as) c (Container.deleteLoop id as (c.put a g)).2 := by
          refine Removed.put ha ?_
          rw [hp]; exact i1
        have hfm : (as.filterMap fun b => (c.put a g).view b id) = as.filterMap fun b => c.view b id := by
          refine List.filterMap_congr ?_
          intro b hb; rw [hne b (hasne b hb)]
        have hhf : (c.put a g).HoldersFirst id as ↔ c.HoldersFirst id (a :: as) := by
          unfold Container.HoldersFirst
          rw [List.pairwise_cons]
          constructor
          · intro h
            refine ⟨fun b _ _ => by rw [hv]; simp, ?_⟩
            refine h.imp_of_mem ?_
            intro x y hx hy hxy
            rw [hne x (hasne x hx), hne y (hasne y hy)] at hxy; exact hxy
          · intro h
            refine h.2.imp_of_mem ?_
            intro x y hx hy hxy
            rw [hne x (hasne x hx), hne y (hasne y hy)]; exact hxy
        rcases hd : Container.deleteLoop id as (c.put a g) with ⟨r, c'⟩
        rw [hd] at hrem i1 i2
        cases r with
        | error e =>
          refine ⟨hrem, ?_⟩
          rcases i2 with ⟨_, h4, _⟩ | ⟨h4, h5⟩
          · simp at h4
          · exact .inr ⟨fun h => h4 (hhf.2 h), h5⟩
        | ok vs =>
          refine ⟨hrem, ?_⟩
          rcases i2 with ⟨h4, h5, h6⟩ | ⟨h4, h5⟩
          · refine .inl ⟨hhf.1 h4, ?_, ?_⟩
            · simp only [Except.ok.injEq] at h5 ⊢
              rw [h5, hfm, List.filterMap_cons, hv]
            · intro b hb
              rcases List.mem_cons.1 hb with rfl | hb
              · unfold Container.view
                rw [i1.outside b hna]
                exact hself
              · exact h6 b hb
          · simp at h5

/-! ### condense -/

theorem Condensing.final {transfer : Bool} {c0 c : Container V} {done : List Nat}
    (h : Condensing transfer c0 c done []) (id : String) : c.view c.primary id = c0.first id := by
  rw [← h.first id]
  unfold Container.first
  rw [h.split, List.findSome?_cons]
  cases hp : c.view c.primary id with
  | some v => rfl
  | none =>
    symm
    rw [List.append_nil, List.findSome?_eq_none_iff]
    intro a ha
    by_contra hn
    exact h.done_sub a ha id hn hp

/-- The result of `condense` on a container whose primary group comes first. -/
theorem Container.condense_spec {c : Container V} (hi : c.Inv) (hh : c.HeadPrimary) (transfer : Bool) :
    (∃ c1, Condensing transfer c c1 c.groups.tail [] ∧
      c.condense transfer = if transfer then (.ok c.groups.tail, c1.withGroups [c.primary])
        else (.ok [], c1)) ∨
    (∃ e c', c.condense transfer = (.error e, c') ∧
      ∃ c1 done a rest k v, CondError transfer c c' e c1 done a rest k v) := by
  unfold Container.condense
  rcases Container.moveGroups_spec (transfer := transfer) hi.nodup [] c.groups.tail c []
      (by simpa using Condensing.init hi hh) with ⟨c', h1, h2⟩ | ⟨e, c', h1, h2⟩
  · left
    rw [List.nil_append] at h2
    refine ⟨c', h2, ?_⟩
    rw [h1]
    simp only
    cases transfer with
    | false => rfl
    | true =>
      simp only [if_true]
      unfold Container.dropSources
      have hg := h2.groups
      rw [hh.eq] at hg
      rw [hg]
  · right
    rw [h1]
    exact ⟨e, c', rfl, h2⟩

/-! ### the invariant is kept by every call -/

/-- Shape of the container after a step that only changes group contents. -/
structure SameShape (c c' : Container V) : Prop where
  groups : c'.groups = c.groups
  primary : c'.primary = c.primary
  next : c'.next = c.next
  inv : ∀ b, (c.heap b).Inv → (c'.heap b).Inv

theorem SameShape.refl (c : Container V) : SameShape c c := ⟨rfl, rfl, rfl, fun _ h => h⟩

theorem SameShape.trans {c1 c2 c3 : Container V} (h : SameShape c1 c2) (h' : SameShape c2 c3) :
    SameShape c1 c3 :=
  ⟨h'.groups.trans h.groups, h'.primary.trans h.primary, h'.next.trans h.next,
    fun b hb => h'.inv b (h.inv b hb)⟩

theorem SameShape.put {c : Container V} {a : Nat} {g : CGroup V} (hg : g.Inv) :
    SameShape c (c.put a g) := by
  refine ⟨rfl, rfl, rfl, fun b hb => ?_⟩
  by_cases h : b = a
  · rw [h, Container.heap_put_self]; exact hg
  · rw [Container.heap_put_ne _ _ h]; exact hb

theorem SameShape.keep {c c' : Container V} (h : SameShape c c') (hi : c.Inv) : c'.Inv := by
  refine ⟨?_, ?_, ?_, ?_, ?_⟩
  · intro a ha; rw [h.groups] at ha; exact h.inv a (hi.inv a ha)
  · rw [h.primary]; exact h.inv _ hi.pinv
  · intro a ha; rw [h.groups] at ha; rw [h.next]; exact hi.fresh a ha
  · rw [h.primary, h.next]; exact hi.pfresh
  · rw [h.groups]; exact hi.nodup

theorem Container.insertPrimary_shape {c : Container V} (hp : (c.heap c.primary).Inv) (k : String)
    (v : V) : SameShape c (c.insertPrimary k v).2 := by
  unfold Container.insertPrimary
  exact SameShape.put (CGroup.insert_step hp k v).1

theorem Container.moveKey_shape {c : Container V} {a : Nat} (ha : (c.heap a).Inv)
    (hp : (c.heap c.primary).Inv) (transfer : Bool) (k : String) :
    SameShape c (Container.moveKey transfer a k c).2 := by
  unfold Container.moveKey
  split_ifs
  · have h1 := (CGroup.pop_step ha k none).1
    rcases hpop : (c.heap a).pop k none with ⟨r, g⟩
    rw [hpop] at h1
    have h2 : SameShape c (c.put a g) := SameShape.put h1
    cases r with
    | error e => exact h2
    | ok v => exact h2.trans (Container.insertPrimary_shape (h2.inv _ hp) k v)
  · rw [CGroup.get_view ha.ne]
    cases (c.heap a).view k with
    | none => exact SameShape.refl c
    | some v => exact Container.insertPrimary_shape hp k v

theorem Container.moveKeys_shape {a : Nat} (transfer : Bool) (ks : List String) :
    ∀ {c : Container V}, (c.heap a).Inv → (c.heap c.primary).Inv →
      SameShape c (Container.moveKeys transfer a ks c).2 := by
  induction ks with
  | nil => intro c _ _; exact SameShape.refl c
  | cons k ks ih =>
    intro c ha hp
    have h := Container.moveKey_shape ha hp transfer k
    unfold Container.moveKeys
    rcases hm : Container.moveKey transfer a k c with ⟨r, c'⟩
    rw [hm] at h
    cases r with
    | error e => exact h
    | ok u => exact h.trans (ih (h.inv _ ha) (by
        have := h.primary; simp only at this; rw [this]; exact h.inv _ hp))

theorem Container.moveGroups_shape (transfer : Bool) (as : List Nat) :
    ∀ {c : Container V}, (∀ a ∈ as, (c.heap a).Inv) → (c.heap c.primary).Inv →
      SameShape c (Container.moveGroups transfer as c).2 := by
  induction as with
  | nil => intro c _ _; exact SameShape.refl c
  | cons a as ih =>
    intro c ha hp
    have h := Container.moveKeys_shape transfer (c.heap a).keys (ha a List.mem_cons_self) hp
    unfold Container.moveGroups
    rcases hm : Container.moveKeys transfer a (c.heap a).keys c with ⟨r, c'⟩
    rw [hm] at h
    cases r with
    | error e => exact h
    | ok u => exact h.trans (ih (fun b hb => h.inv b (ha b (List.mem_cons_of_mem _ hb))) (by
        have := h.primary; simp only at this; rw [this]; exact h.inv _ hp))

/-- `condense`: only the list of groups may shrink to its first element. -/
theorem Container.condense_shape {c : Container V} (hi : c.Inv) (transfer : Bool) :
    ∃ c1, SameShape c c1 ∧ ((c.condense transfer).2 = c1 ∨
      ∃ a as, c.groups = a :: as ∧ (c.condense transfer).2 = c1.withGroups [a]) := by
  have h := Container.moveGroups_shape transfer c.groups.tail
    (fun a ha => hi.inv a (List.mem_of_mem_tail ha)) hi.pinv
  unfold Container.condense
  rcases hm : Container.moveGroups transfer c.groups.tail c with ⟨r, c'⟩
  rw [hm] at h
  refine ⟨c', h, ?_⟩
  cases r with
  | error e => exact .inl rfl
  | ok u =>
    simp only
    split_ifs
    · unfold Container.dropSources
      cases hg : c'.groups with
      | nil => exact .inl rfl
      | cons a as => exact .inr ⟨a, as, by rw [← hg]; exact h.groups.symm, rfl⟩
    · exact .inl rfl

theorem Container.Inv.shrink {c : Container V} (hi : c.Inv) {as : List Nat}
    (h : as.Sublist c.groups) : (c.withGroups as).Inv :=
  ⟨fun a ha => hi.inv a (h.subset ha), hi.pinv, fun a ha => hi.fresh a (h.subset ha), hi.pfresh,
    hi.nodup.sublist h⟩

theorem Container.condense_inv {c : Container V} (hi : c.Inv) (transfer : Bool) :
    (c.condense transfer).2.Inv := by
  obtain ⟨c1, h1, h2 | ⟨a, as, h2, h3⟩⟩ := Container.condense_shape hi transfer
  · rw [h2]; exact h1.keep hi
  · rw [h3]
    refine (h1.keep hi).shrink ?_
    rw [h1.groups, h2]
    simp

theorem Container.pushPrimary_inv {c : Container V} (hi : c.Inv) {g : CGroup V} (hg : g.Inv) :
    (c.pushPrimary g).Inv ∧ (c.pushPrimary g).HeadPrimary ∧
    (∀ a, a ≠ c.next → (c.pushPrimary g).heap a = c.heap a) ∧
    (c.pushPrimary g).heap c.next = g := by
  have hne : ∀ a, a ≠ c.next → (c.pushPrimary g).heap a = c.heap a := by
    intro a ha; simp [Container.pushPrimary, ha]
  have hself : (c.pushPrimary g).heap c.next = g := by simp [Container.pushPrimary]
  refine ⟨⟨?_, ?_, ?_, ?_, ?_⟩, rfl, hne, hself⟩
  · intro a ha
    rcases List.mem_cons.1 ha with rfl | ha
    · rw [hself]; exact hg
    · rw [hne a (Nat.ne_of_lt (hi.fresh a ha))]; exact hi.inv a ha
  · show ((c.pushPrimary g).heap c.next).Inv
    rw [hself]; exact hg
  · intro a ha
    rcases List.mem_cons.1 ha with rfl | ha
    · exact Nat.lt_succ_self _
    · exact Nat.lt_succ_of_lt (hi.fresh a ha)
  · exact Nat.lt_succ_self _
  · refine List.nodup_cons.2 ⟨fun h => ?_, hi.nodup⟩
    exact absurd (hi.fresh _ h) (Nat.lt_irrefl _)

theorem Container.pushPrimary_first {c : Container V} (hi : c.Inv) {g : CGroup V}
    (hg : g.Inv) (he : g.view = Map.empty) (id : String) : (c.pushPrimary g).first id = c.first id := by
  obtain ⟨_, _, h3, h4⟩ := Container.pushPrimary_inv hi hg
  unfold Container.first
  show (c.next :: c.groups).findSome? _ = _
  rw [List.findSome?_cons]
  have : (c.pushPrimary g).view c.next id = none := by
    unfold Container.view; rw [h4, he]; rfl
  rw [this]
  refine findSome_congr _ _ _ ?_
  intro a ha
  unfold Container.view
  rw [h3 a (Nat.ne_of_lt (hi.fresh a ha))]

theorem Container.resize_inv {c : Container V} (hi : c.Inv) (n m : Nat) (cd t : Bool)
    (hg : ∀ g : CGroup V, Container.makeGroup n m c.strict = .ok g → g.Inv) :
    (c.resize n m cd t).2.Inv := by
  unfold Container.resize
  cases hm : Container.makeGroup n m c.strict with
  | error e => exact hi
  | ok g =>
    have hpi := (Container.pushPrimary_inv hi (hg g hm)).1
    simp only
    split_ifs
    · exact Container.condense_inv hpi t
    · have hti : ((c.pushPrimary g).withGroups ((c.pushPrimary g).groups.take 2)).Inv :=
        hpi.shrink (List.take_sublist _ _)
      have hci := Container.condense_inv hti t
      obtain ⟨c1, h1, h2⟩ := Container.condense_shape hti t
      rcases hr : ((c.pushPrimary g).withGroups ((c.pushPrimary g).groups.take 2)).condense t with ⟨r, c2⟩
      rw [hr] at hci h2
      cases r with
      | error e => exact hci
      | ok r =>
        have hsub : c2.groups.Sublist ((c.pushPrimary g).groups.take 2) := by
          rcases h2 with h2 | ⟨a, as, h2, h3⟩
          · simp only at h2; rw [h2, h1.groups]; exact List.Sublist.refl _
          · simp only at h2 h3; rw [h3]
            have h2 : (c.pushPrimary g).groups.take 2 = a :: as := h2
            show [a].Sublist _
            rw [h2]; simp
        have hnext : c2.next = (c.pushPrimary g).next ∧ c2.primary = (c.pushPrimary g).primary ∧
            ∀ b, ((c.pushPrimary g).heap b).Inv → (c2.heap b).Inv := by
          rcases h2 with h2 | ⟨a, as, h2, h3⟩
          · simp only at h2; rw [h2]; exact ⟨h1.next, h1.primary, h1.inv⟩
          · simp only at h2 h3; rw [h3]; exact ⟨h1.next, h1.primary, h1.inv⟩
        have hall : (c2.groups ++ (c.pushPrimary g).groups.drop 2).Sublist (c.pushPrimary g).groups := by
          conv_rhs => rw [← List.take_append_drop 2 (c.pushPrimary g).groups]
          exact List.Sublist.append hsub (List.Sublist.refl _)
        refine ⟨?_, hci.pinv, ?_, hci.pfresh, hpi.nodup.sublist hall⟩
        · intro a ha
          exact hnext.2.2 a (hpi.inv a (hall.subset ha))
        · intro a ha
          have := hpi.fresh a (hall.subset ha)
          show a < c2.next
          rw [hnext.1]; exact this

theorem Container.write_inv {c : Container V} (hi : c.Inv) (k : String) (v : V) :
    (c.write k v).2.Inv := by
  rcases Container.write_spec hi.pinv k v with ⟨e, h, _⟩ | ⟨g, h, hg, _⟩
  · rw [h]; exact hi
  · rw [h]; exact (SameShape.put hg).keep hi

theorem Container.delete_spec {c : Container V} (hi : c.Inv) (id : String) :
    Removed id c.groups c (c.delete id).2 ∧
    ((c.HoldersFirst id c.groups ∧
        (c.delete id).1 = .ok (c.groups.filterMap fun a => c.view a id) ∧
        ∀ a ∈ c.groups, (c.delete id).2.view a id = none) ∨
      (¬ c.HoldersFirst id c.groups ∧ (c.delete id).1 = .error .keyError)) :=
  Container.deleteLoop_spec id c.groups c [] hi.inv rfl hi.nodup (by simp)

theorem Removed.shape {id : String} {as : List Nat} {c c' : Container V} (h : Removed id as c c') :
    SameShape c c' := ⟨h.groups, h.primary, h.next, h.inv⟩

theorem Container.delete_inv {c : Container V} (hi : c.Inv) (id : String) : (c.delete id).2.Inv :=
  (Container.delete_spec hi id).1.shape.keep hi

theorem Container.setStrict_inv {c : Container V} (hi : c.Inv) (b : Option Bool) :
    (c.setStrict b).2.Inv := by
  cases b with
  | none => exact hi
  | some b => exact (SameShape.put (CGroup.setStrict_view hi.pinv (some b)).1).keep hi

end Verif.Storage
