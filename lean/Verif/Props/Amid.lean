import Verif.Db.Amid
import Verif.Spec.Store
import Verif.Props.NewContainer

/-!
# Reorganising while other sessions work (C148)
-/

namespace Verif.Props
open Verif Verif.Storage Verif.Spec Verif.Db
variable {V : Type}

/-- Specification: the calls one after the other on a map; `none`: one of them is refused. -/
def applyAll : List (DbOp V) → Map V → Option (Map V)
  | [], m => some m
  | op :: ops, m => (m.apply op).bind (applyAll ops)

theorem applyAll_snoc (ops : List (DbOp V)) (op : DbOp V) : ∀ m : Map V,
    applyAll (ops ++ [op]) m = (applyAll ops m).bind fun m' => m'.apply op := by
  induction ops with
  | nil => intro m; show (m.apply op).bind _ = m.apply op; cases m.apply op <;> rfl
  | cons o ops ih =>
    intro m
    show (m.apply o).bind (applyAll (ops ++ [op])) = ((m.apply o).bind (applyAll ops)).bind _
    cases m.apply o with
    | none => rfl
    | some m' => exact ih m'

namespace Amid

/-! ### one call of another session -/

/-- What a call or a move leaves: the groups stay, only the primary group gets new ids, and the primary group loses an id only together with all
the groups. -/
structure Grown (c c' : Container V) : Prop where
  shape : SameShape c c'
  flags : (c'.heap c.primary).flags = (c.heap c.primary).flags
  shrink : ∀ b ∈ c.groups, b ≠ c.primary → ∀ k, c'.view b k ≠ none → c.view b k ≠ none
  cover : ∀ k, c.view c.primary k ≠ none → c'.view c.primary k ≠ none ∨ ∀ b ∈ c.groups, c'.view b k = none

theorem Grown.refl (c : Container V) : Grown c c :=
  ⟨SameShape.refl c, rfl, fun _ _ _ _ h => h, fun _ h => .inl h⟩

theorem Grown.covered {c c' : Container V} (h : Grown c c') {b : Nat} (hb : b ∈ c.groups) (hbp : b ≠ c.primary) {k : String}
    (hc : c.view b k ≠ none → c.view c.primary k ≠ none) : c'.view b k ≠ none → c'.view c'.primary k ≠ none := by
  intro hn
  rw [h.shape.primary]
  rcases h.cover k (hc (h.shrink b hb hbp k hn)) with h1 | h1
  · exact h1
  · exact absurd (h1 b hb) hn

theorem Grown.trans {c1 c2 c3 : Container V} (h : Grown c1 c2) (h' : Grown c2 c3) : Grown c1 c3 := by
  have hp := h.shape.primary
  have hg := h.shape.groups
  refine ⟨h.shape.trans h'.shape, ?_, ?_, ?_⟩
  · have := h'.flags
    rw [hp] at this
    rw [this, h.flags]
  · intro b hb hbp k hk
    exact h.shrink b hb hbp k (h'.shrink b (hg ▸ hb) (hp ▸ hbp) k hk)
  · intro k hk
    by_cases hpg : c1.primary ∈ c1.groups
    · rcases h.cover k hk with h1 | h1
      · have := h'.cover k (hp ▸ h1)
        rw [hp, hg] at this
        exact this
      · by_cases h2 : c3.view c1.primary k = none
        · right
          intro b hb
          by_contra hn
          by_cases hbp : b = c1.primary
          · exact hn (hbp ▸ h2)
          · exact h'.shrink b (hg ▸ hb) (hp ▸ hbp) k hn (h1 b hb)
        · exact .inl h2
    · rcases h.cover k hk with h1 | h1
      · have := h'.cover k (hp ▸ h1)
        rw [hp, hg] at this
        exact this
      · right
        intro b hb
        by_contra hn
        have hbp : b ≠ c1.primary := fun e => hpg (e ▸ hb)
        exact h'.shrink b (hg ▸ hb) (hp ▸ hbp) k hn (h1 b hb)

theorem write_grown {c c' : Container V} (hi : c.Inv) (hh : c.HeadPrimary) {id : String} {obj : V} {n : Option Nat}
    (h : c.write id obj = (.ok n, c')) :
    Grown c c' ∧ c'.first = Map.set c.first id obj ∧ ∀ b, b ≠ c.primary → c'.heap b = c.heap b := by
  rcases Container.write_spec hi.pinv id obj with ⟨e, h1, -⟩ | ⟨g, h1, h2, h3, h4⟩
  · rw [h1] at h; cases h
  · rw [h1] at h
    injection h with _ h
    subst h
    have hne : ∀ b, b ≠ c.primary → (c.put c.primary g).heap b = c.heap b := fun b hb => Container.heap_put_ne _ _ hb
    have hpv : (c.put c.primary g).view c.primary = Map.set (c.view c.primary) id obj := by
      unfold Container.view; rw [Container.heap_put_self]; exact h4
    refine ⟨⟨SameShape.put h2, by rw [Container.heap_put_self, h3], ?_, ?_⟩, ?_, hne⟩
    · intro b _ hb k hk
      unfold Container.view at hk ⊢
      rwa [hne b hb] at hk
    · intro k hk
      left
      rw [hpv]
      unfold Map.set
      split_ifs
      · simp
      · exact hk
    · funext k
      have hsp := hh.eq
      have hnd := hi.nodup
      rw [hsp] at hnd
      have hpt := (List.nodup_cons.1 hnd).1
      unfold Container.first
      show (c.groups.findSome? fun a => (c.put c.primary g).view a k) = _
      rw [hsp, List.findSome?_cons, hpv]
      have htl : (c.groups.tail.findSome? fun a => (c.put c.primary g).view a k) = c.groups.tail.findSome? fun a => c.view a k :=
        findSome_congr _ _ _ fun b hb => by
          unfold Container.view; rw [hne b fun e => hpt (e ▸ hb)]
      rw [htl]
      show _ = Map.set (fun k => (c.primary :: c.groups.tail).findSome? fun a => c.view a k) id obj k
      unfold Map.set
      by_cases hk : k = id
      · rw [if_pos hk, if_pos hk]
      · rw [if_neg hk, if_neg hk]
        show _ = List.findSome? _ (c.primary :: c.groups.tail)
        rw [List.findSome?_cons]

theorem delete_grown {c c' : Container V} (hi : c.Inv) {id : String} {vs : List V} (h : c.delete id = (.ok vs, c')) :
    Grown c c' ∧ c'.first = Map.remove c.first id ∧ ∀ b ∈ c.groups, ∀ k, k ≠ id → c'.view b k = c.view b k := by
  obtain ⟨hr, h1⟩ := Container.delete_spec hi id
  rw [h] at hr h1
  rcases h1 with ⟨-, -, h3⟩ | ⟨-, h2⟩
  · have hf : ∀ b ∈ c.groups, ∀ k, k ≠ id → c'.view b k = c.view b k := fun b hb k hk => hr.frame b (hi.inv b hb) k hk
    refine ⟨⟨hr.shape, hr.flags _, ?_, ?_⟩, ?_, hf⟩
    · intro b hb _ k hk
      by_cases hid : k = id
      · subst hid; exact absurd (h3 b hb) hk
      · rwa [hf b hb k hid] at hk
    · intro k hk
      by_cases hid : k = id
      · subst hid; exact .inr h3
      · left
        rwa [hr.frame _ hi.pinv k hid]
    · funext k
      unfold Map.remove
      by_cases hid : k = id
      · rw [if_pos hid, hid]
        exact Container.first_eq_none.2 fun a ha => h3 a (hr.groups ▸ ha)
      · rw [if_neg hid]
        unfold Container.first
        rw [hr.groups]
        exact findSome_congr _ _ _ fun b hb => hf b hb k hid
  · cases h2

variable [Truthy V]

/-- The call of another session, if it goes through. -/
theorem fn_grown {c c' : Container V} (hi : c.Inv) (hh : c.HeadPrimary) {op : DbOp V} (hw : isWrite op = true) {r : DbRet V}
    (h : op.fn c = (.ok r, c')) :
    Grown c c' ∧ Map.apply c.first op = some c'.first ∧
    ∀ b ∈ c.groups, b ≠ c.primary → ∀ k, c.view b k ≠ none → c'.view b k ≠ none ∨ op = .delete k := by
  cases op with
  | strict b => cases hw
  | create id obj =>
    obtain ⟨n, hn, hpos⟩ := Container.has_pos hi id
    simp only [DbOp.fn, createFn, hn] at h
    cases n with
    | succ n => cases h
    | zero =>
      simp only at h
      have hnone : c.first id = none := by
        by_contra hc; exact absurd (hpos.2 hc) (by omega)
      rcases hq : c.write id obj with ⟨r', c''⟩
      rw [hq] at h
      cases r' with
      | error e => cases h
      | ok n =>
        injection h with _ h
        subst h
        obtain ⟨h1, h2, h3⟩ := write_grown hi hh hq
        refine ⟨h1, ?_, ?_⟩
        · show (if c.first id = none then _ else _) = _
          rw [if_pos hnone, h2]
        · intro b _ hb k hk
          left
          unfold Container.view at hk ⊢
          rwa [h3 b hb]
  | update id obj =>
    simp only [DbOp.fn, updateFn, Container.read_eq hi] at h
    rcases hq : c.write id obj with ⟨r', c''⟩
    rw [hq] at h
    cases r' with
    | error e => cases h
    | ok n =>
      injection h with _ h
      subst h
      obtain ⟨h1, h2, h3⟩ := write_grown hi hh hq
      refine ⟨h1, by rw [h2]; rfl, ?_⟩
      intro b _ hb k hk
      left
      unfold Container.view at hk ⊢
      rwa [h3 b hb]
  | delete id =>
    simp only [DbOp.fn, deleteFn] at h
    rcases hq : c.delete id with ⟨r', c''⟩
    rw [hq] at h
    cases r' with
    | error e => cases h
    | ok n =>
      injection h with _ h
      subst h
      obtain ⟨h1, h2, h3⟩ := delete_grown hi hq
      refine ⟨h1, by rw [h2]; rfl, ?_⟩
      intro b hb _ k hk
      by_cases hid : k = id
      · subst hid; exact .inr rfl
      · left; rwa [h3 b hb k hid]

/-! ### the turn of the others -/

/-- Everything that was stored is a container in order that shows the map changed by the calls that had gone through. -/
def LogOk (m0 : Map V) (s : Db.Amid V) : Prop :=
  ∀ x ∈ s.log, x.2.Inv ∧ x.2.HeadPrimary ∧ applyAll x.1 m0 = some x.2.first ∧ x.1 <+: s.done

omit [Truthy V] in
theorem LogOk.snoc {m0 : Map V} {s t : Db.Amid V} (h : LogOk m0 s) {d : List (DbOp V)} {c : Container V} (hl : t.log = s.log ++ [(d, c)]) (hd : s.done <+: t.done)
    (hi : c.Inv) (hh : c.HeadPrimary) (ha : applyAll d m0 = some c.first) (hp : d <+: t.done) : LogOk m0 t := by
  intro x hx
  rw [hl] at hx
  rcases List.mem_append.1 hx with hx | hx
  · obtain ⟨h1, h2, h3, h4⟩ := h x hx
    exact ⟨h1, h2, h3, h4.trans hd⟩
  · rw [List.mem_singleton] at hx
    subst hx
    exact ⟨hi, hh, ha, hp⟩

theorem others_spec (ops : List (DbOp V)) (hops : ∀ op ∈ ops, isWrite op = true) : ∀ s : Db.Amid V, s.stored.Inv → s.stored.HeadPrimary →
    Grown s.stored (s.others ops).stored ∧
    (∀ m, applyAll s.done m = some s.stored.first → applyAll (s.others ops).done m = some (s.others ops).stored.first) ∧
    (∃ l, (s.others ops).done = s.done ++ l ∧ ∀ op ∈ l, op ∈ ops) ∧
    (∀ b ∈ s.stored.groups, b ≠ s.stored.primary → ∀ k, s.stored.view b k ≠ none →
      (s.others ops).stored.view b k ≠ none ∨ .delete k ∈ (s.others ops).done) ∧
    (∀ m, applyAll s.done m = some s.stored.first → LogOk m s → LogOk m (s.others ops)) := by
  induction ops with
  | nil =>
    intro s _ _
    exact ⟨Grown.refl _, fun m h => h, ⟨[], by simp [Db.Amid.others], by simp⟩, fun b _ _ k hk => .inl hk, fun _ _ h => h⟩
  | cons op ops ih =>
    intro s hi hh
    have ih := ih fun o ho => hops o (List.mem_cons_of_mem _ ho)
    show Grown s.stored ((s.other op).others ops).stored ∧ _ ∧ _ ∧ _ ∧ _
    rw [Db.Amid.others]
    rcases hq : op.fn s.stored with ⟨r, c'⟩
    cases r with
    | error e =>
      have : s.other op = s := by unfold Db.Amid.other; rw [hq]
      rw [this]
      obtain ⟨i1, i2, ⟨l, i3, i3'⟩, i4, i5⟩ := ih s hi hh
      exact ⟨i1, i2, ⟨l, i3, fun o ho => List.mem_cons_of_mem _ (i3' o ho)⟩, i4, i5⟩
    | ok v =>
      have hs : s.other op = { s with stored := c', done := s.done ++ [op], log := s.log ++ [(s.done ++ [op], c')] } := by unfold Db.Amid.other; rw [hq]
      rw [hs]
      obtain ⟨g1, g2, g3⟩ := fn_grown hi hh (hops op List.mem_cons_self) hq
      have hh' : c'.HeadPrimary := by
        unfold Container.HeadPrimary; rw [g1.shape.groups, g1.shape.primary]; exact hh
      obtain ⟨i1, i2, ⟨l, i3, i3'⟩, i4, i5⟩ := ih { s with stored := c', done := s.done ++ [op], log := s.log ++ [(s.done ++ [op], c')] } (g1.shape.keep hi) hh'
      have happ : ∀ m, applyAll s.done m = some s.stored.first → applyAll (s.done ++ [op]) m = some c'.first := by
        intro m hm
        rw [applyAll_snoc, hm]
        exact g2
      refine ⟨g1.trans i1, fun m hm => i2 m (happ m hm), ⟨op :: l, by rw [i3]; simp, ?_⟩, ?_,
        fun m hm hlog => i5 m (happ m hm) (hlog.snoc rfl (List.prefix_append _ _) (g1.shape.keep hi) hh' (happ m hm) (List.prefix_refl _))⟩
      · intro o ho
        rcases List.mem_cons.1 ho with rfl | ho
        · exact List.mem_cons_self
        · exact List.mem_cons_of_mem _ (i3' o ho)
      · intro b hb hbp k hk
        rcases g3 b hb hbp k hk with h | h
        · exact i4 b (g1.shape.groups ▸ hb) (g1.shape.primary ▸ hbp) k h
        · right
          rw [i3, h]
          simp

/-! ### the session in the middle of its work -/

/-- The session has dealt with the groups `pre` of a container that was `c0`; `m0` is the map at the beginning of the call. -/
structure Going (env : Nat → List (DbOp V)) (transfer : Bool) (m0 : Map V) (c0 : Container V) (pre : List Nat) (s : Db.Amid V) : Prop where
  grown : Grown c0 s.work
  stored : s.stored.Inv
  first : s.work.first = s.stored.first
  applied : applyAll s.done m0 = some s.stored.first
  source : ∀ op ∈ s.done, ∃ n, op ∈ env n
  covered : ∀ b ∈ pre, ∀ k, s.work.view b k ≠ none → s.work.view c0.primary k ≠ none
  emptied : transfer = true → ∀ b ∈ pre, ∀ k, s.work.view b k = none
  logged : LogOk m0 s

variable {env : Nat → List (DbOp V)} {transfer : Bool} {m0 : Map V} {c0 : Container V} {pre : List Nat} {s : Db.Amid V}

theorem Going.store (henv : ∀ n, ∀ op ∈ env n, isWrite op = true) (hi : c0.Inv) (hh : c0.HeadPrimary)
    (hpre : ∀ b ∈ pre, b ∈ c0.groups ∧ b ≠ c0.primary) (h : Going env transfer m0 c0 pre s) :
    Going env transfer m0 c0 pre (s.store env) ∧ (s.store env).work = (s.store env).stored ∧ Grown s.work (s.store env).work ∧
    (∀ op ∈ s.done, op ∈ (s.store env).done) ∧
    (∀ b ∈ c0.groups, b ≠ c0.primary → ∀ k, s.work.view b k ≠ none →
      (s.store env).work.view b k ≠ none ∨ .delete k ∈ (s.store env).done) := by
  have hp := h.grown.shape.primary
  have hg := h.grown.shape.groups
  have hwi := h.grown.shape.keep hi
  have hwh : s.work.HeadPrimary := by
    unfold Container.HeadPrimary; rw [hg, hp]; exact hh
  have happ : applyAll s.done m0 = some s.work.first := by rw [h.applied, h.first]
  obtain ⟨o1, o2, ⟨l, o3, o3'⟩, o4, o5⟩ := others_spec (env s.turns) (henv s.turns) { s with stored := s.work, turns := s.turns + 1, log := s.log ++ [(s.done, s.work)] } hwi hwh
  have hlog : LogOk m0 (s.store env) := o5 m0 happ (h.logged.snoc rfl (List.prefix_refl _) hwi hwh happ (List.prefix_refl _))
  have hgr : Grown s.work (s.store env).work := o1
  have hdone : (s.store env).done = s.done ++ l := o3
  refine ⟨⟨h.grown.trans hgr, hgr.shape.keep hwi, rfl, ?_, ?_, ?_, ?_, hlog⟩, rfl, hgr, ?_, ?_⟩
  · exact o2 m0 happ
  · intro op ho
    rw [hdone] at ho
    rcases List.mem_append.1 ho with ho | ho
    · exact h.source op ho
    · exact ⟨_, o3' op ho⟩
  · intro b hb k hk
    obtain ⟨hb1, hb2⟩ := hpre b hb
    have := hgr.covered (hg ▸ hb1) (hp ▸ hb2) (k := k) (fun hn => hp ▸ h.covered b hb k hn) hk
    rwa [hgr.shape.primary, hp] at this
  · intro ht b hb k
    obtain ⟨hb1, hb2⟩ := hpre b hb
    by_contra hn
    exact hgr.shrink b (hg ▸ hb1) (hp ▸ hb2) k hn (h.emptied ht b hb k)
  · intro op ho
    rw [hdone]
    exact List.mem_append_left _ ho
  · intro b hb hbp k hk
    exact o4 b (hg ▸ hb) (hp ▸ hbp) k hk

theorem Going.commit (eff : Nat → Bool) (henv : ∀ n, ∀ op ∈ env n, isWrite op = true) (hi : c0.Inv) (hh : c0.HeadPrimary)
    (hpre : ∀ b ∈ pre, b ∈ c0.groups ∧ b ≠ c0.primary) (h : Going env transfer m0 c0 pre s) :
    Going env transfer m0 c0 pre (s.commit eff env) ∧ Grown s.work (s.commit eff env).work ∧
    (∀ op ∈ s.done, op ∈ (s.commit eff env).done) ∧
    (∀ b ∈ c0.groups, b ≠ c0.primary → ∀ k, s.work.view b k ≠ none →
      (s.commit eff env).work.view b k ≠ none ∨ .delete k ∈ (s.commit eff env).done) := by
  have h' : Going env transfer m0 c0 pre { s with commits := s.commits + 1 } :=
    ⟨h.grown, h.stored, h.first, h.applied, h.source, h.covered, h.emptied, h.logged⟩
  unfold Db.Amid.commit
  by_cases he : eff s.commits = true
  · rw [if_pos he]
    obtain ⟨h1, -, h2, h3, h4⟩ := h'.store henv hi hh hpre
    exact ⟨h1, h2, h3, h4⟩
  · rw [if_neg he]
    exact ⟨h', Grown.refl _, fun _ ho => ho, fun b _ _ k hk => .inl hk⟩

/-! ### moving -/

omit [Truthy V] in
theorem moved_grown {a : Nat} {k : String} {v : V} {c c' : Container V} (hap : a ≠ c.primary) (hm : Moved transfer a k v c c') : Grown c c' := by
  refine ⟨⟨hm.groups, hm.primary, hm.next, hm.inv⟩, hm.flags _, ?_, ?_⟩
  · intro b _ hbp x hx
    by_cases hba : b = a
    · subst hba
      rw [hm.source] at hx
      cases transfer with
      | false => exact hx
      | true =>
        simp only [if_true, Map.remove] at hx
        split_ifs at hx with hxk
        · exact absurd rfl hx
        · exact hx
    · unfold Container.view at hx ⊢
      rwa [hm.other b hba hbp] at hx
  · intro x hx
    left
    rw [hm.target]
    by_cases hk : c.view c.primary k = none
    · rw [if_pos hk]
      unfold Map.set
      split_ifs
      · simp
      · exact hx
    · rwa [if_neg hk]

omit [Truthy V] in
theorem moveKey_present (pyNone : V) {a : Nat} {k : String} {v : V} {c : Container V} (ha : (c.heap a).Inv) (hv : c.view a k = some v) :
    Db.Amid.moveKey pyNone transfer a k c = Container.moveKey transfer a k c := by
  unfold Db.Amid.moveKey
  cases transfer with
  | true => rfl
  | false =>
    unfold Container.moveKey
    have : (c.heap a).get k = .ok (some v) := by rw [CGroup.get_view ha.ne]; exact congrArg _ hv
    simp only [Bool.false_eq_true, if_false, this]

/-- Why the call failed. -/
def Excuse (transfer : Bool) (c0 : Container V) (done : List (DbOp V)) (e : PyErr) : Prop :=
  (e = .keyError ∧ transfer = true ∧ ∃ k, .delete k ∈ done ∧ ∃ a ∈ c0.groups.tail, c0.view a k ≠ none) ∨
  ((e = .groupCapacity ∨ e = .collectionCapacity) ∧ ¬ (c0.heap c0.primary).NonStrict)

theorem moveKeys_spec (eff : Nat → Bool) (pyNone : V) (henv : ∀ n, ∀ op ∈ env n, isWrite op = true)
    (hdel : transfer = true ∨ ∀ n id, .delete id ∉ env n) (hi : c0.Inv) {a : Nat} {rest : List Nat}
    (hsp : c0.groups = c0.primary :: (pre ++ a :: rest)) (ks : List String) : ∀ s : Db.Amid V,
    Going env transfer m0 c0 pre s → ks.Nodup → (∀ k ∈ ks, c0.view a k ≠ none) →
    (∀ k ∈ ks, s.work.view a k ≠ none ∨ .delete k ∈ s.done) →
    (∀ k, s.work.view a k ≠ none → k ∈ ks ∨ (transfer = false ∧ s.work.view c0.primary k ≠ none)) →
    let r := Db.Amid.moveKeys eff env pyNone transfer a ks s
    (r.1 = .ok () ∧ Going env transfer m0 c0 (pre ++ [a]) r.2) ∨
    (∃ e, r.1 = .error e ∧ r.2.stored.Inv ∧ (∀ op ∈ r.2.done, ∃ n, op ∈ env n) ∧ applyAll r.2.done m0 = some r.2.stored.first ∧ LogOk m0 r.2 ∧ Excuse transfer c0 r.2.done e) := by
  have hh : c0.HeadPrimary := by unfold Container.HeadPrimary; rw [hsp]; rfl
  have hnd := hi.nodup
  rw [hsp] at hnd
  have hpt := (List.nodup_cons.1 hnd).1
  have hapr : a ≠ c0.primary := by rintro h; exact hpt (by rw [← h]; simp)
  have hag : a ∈ c0.groups := by rw [hsp]; simp
  have hpre : ∀ b ∈ pre, b ∈ c0.groups ∧ b ≠ c0.primary := by
    intro b hb
    refine ⟨by rw [hsp]; simp [hb], ?_⟩
    rintro h
    exact hpt (by rw [← h]; simp [hb])
  induction ks with
  | nil =>
    intro s h _ _ _ hrem
    refine .inl ⟨rfl, h.grown, h.stored, h.first, h.applied, h.source, ?_, ?_, h.logged⟩
    · intro b hb k hk
      rcases List.mem_append.1 hb with hb | hb
      · exact h.covered b hb k hk
      · rw [List.mem_singleton.1 hb] at hk
        rcases hrem k hk with h1 | h1
        · simp at h1
        · exact h1.2
    · intro ht b hb k
      rcases List.mem_append.1 hb with hb | hb
      · exact h.emptied ht b hb k
      · rw [List.mem_singleton.1 hb]
        by_contra hn
        rcases hrem k hn with h1 | h1
        · simp at h1
        · rw [h1.1] at ht; cases ht
  | cons k ks ih =>
    intro s h hnk hc0 hhas hrem
    have hp := h.grown.shape.primary
    have hg := h.grown.shape.groups
    have hwi := h.grown.shape.keep hi
    have hai : (s.work.heap a).Inv := hwi.inv a (hg ▸ hag)
    have hap' : a ≠ s.work.primary := hp ▸ hapr
    simp only [Db.Amid.moveKeys]
    cases hv : s.work.view a k with
    | none =>
      have hd : .delete k ∈ s.done := by
        rcases hhas k List.mem_cons_self with h1 | h1
        · exact absurd hv h1
        · exact h1
      rcases hdel with ht | hd'
      · subst ht
        obtain ⟨p1, -, -⟩ := CGroup.pop_miss hai hv
        have : ∃ c', Db.Amid.moveKey pyNone true a k s.work = (.error .keyError, c') := by
          unfold Db.Amid.moveKey Container.moveKey
          rcases hq : (s.work.heap a).pop k none with ⟨r, g⟩
          rw [hq] at p1
          simp only at p1
          subst p1
          exact ⟨_, rfl⟩
        obtain ⟨c', hc'⟩ := this
        rw [hc']
        refine .inr ⟨_, rfl, h.stored, h.source, h.applied, h.logged, .inl ⟨rfl, rfl, k, hd, a, ?_, hc0 k List.mem_cons_self⟩⟩
        rw [hsp]; simp
      · obtain ⟨n, hn⟩ := h.source _ hd
        exact absurd hn (hd' n k)
    | some v =>
      rw [moveKey_present pyNone hai hv]
      rcases hq : Container.moveKey transfer a k s.work with ⟨r, c'⟩
      cases r with
      | error e =>
        obtain ⟨e1, e2, -⟩ := Container.moveKey_error hai hwi.pinv hap' hv hq
        refine .inr ⟨e, rfl, h.stored, h.source, h.applied, h.logged, .inr ⟨e1, fun hn => e2 ?_⟩⟩
        rw [CGroup.nonStrict_flags] at hn ⊢
        rw [hp, h.grown.flags]
        exact hn
      | ok u =>
        have hm := Container.moveKey_ok hai hwi.pinv hap' hv hq
        have hgr := moved_grown hap' hm
        have hcond : Condensing transfer s.work s.work pre (a :: rest) := by
          refine ⟨rfl, by rw [hg, hp]; exact hsp, rfl, rfl, hwi.inv, fun _ _ => rfl, fun _ => rfl, fun _ => rfl, ?_, h.emptied,
            fun _ _ _ => rfl, fun _ _ => rfl⟩
          rw [hp]; exact h.covered
        have hcond' := hcond.step hwi.nodup hv hm
        have hmid : Going env transfer m0 c0 pre { s with work := c' } := by
          refine ⟨h.grown.trans hgr, h.stored, ?_, h.applied, h.source, ?_, hcond'.emptied, h.logged⟩
          · rw [← h.first]; exact funext hcond'.first
          · have := hcond'.done_sub
            rw [hm.primary, hp] at this
            exact this
        obtain ⟨g1, g2, g3, g4⟩ := hmid.commit eff henv hi hh hpre
        refine ih _ g1 (List.nodup_cons.1 hnk).2 (fun x hx => hc0 x (List.mem_cons_of_mem _ hx)) ?_ ?_
        · intro x hx
          have hxk : x ≠ k := by rintro rfl; exact (List.nodup_cons.1 hnk).1 hx
          rcases hhas x (List.mem_cons_of_mem _ hx) with h1 | h1
          · refine g4 a hag hapr x ?_
            show c'.view a x ≠ none
            rw [hm.source]
            cases transfer with
            | false => exact h1
            | true => simpa [Map.remove, hxk] using h1
          · exact .inr (g3 _ h1)
        · intro x hx
          have hx' : c'.view a x ≠ none := g2.shrink a (by rw [hm.groups, hg]; exact hag) (by rw [hm.primary]; exact hap') x hx
          have hx0 : s.work.view a x ≠ none := hgr.shrink a (hg ▸ hag) hap' x hx'
          have hcov : ∀ y, transfer = false → c'.view c0.primary y ≠ none → (({ s with work := c' } : Db.Amid V).commit eff env).work.view a y ≠ none →
              (({ s with work := c' } : Db.Amid V).commit eff env).work.view c0.primary y ≠ none := by
            intro y _ hy hay
            have := g2.covered (b := a) (k := y) (by rw [hm.groups, hg]; exact hag) (by rw [hm.primary]; exact hap')
              (fun _ => by rw [hm.primary, hp]; exact hy) hay
            rwa [g2.shape.primary, show ({ s with work := c' } : Db.Amid V).work.primary = c0.primary from hm.primary.trans hp] at this
          rcases hrem x hx0 with h1 | ⟨h1, h2⟩
          · rcases List.mem_cons.1 h1 with rfl | h1
            · cases ht : transfer with
              | true =>
                rw [hm.source, ht] at hx'
                simp [Map.remove] at hx'
              | false =>
                refine .inr ⟨rfl, hcov x ht ?_ hx⟩
                have := hm.target
                rw [hp] at this
                rw [this]
                split_ifs with hn
                · simp [Map.set]
                · exact hn
            · exact .inl h1
          · refine .inr ⟨h1, hcov x h1 ?_ hx⟩
            rcases hgr.cover x (by rw [hp]; exact h2) with h3 | h3
            · rw [hp] at h3; exact h3
            · exact absurd (h3 a (hg ▸ hag)) hx'

theorem moveGroups_spec (eff : Nat → Bool) (pyNone : V) (henv : ∀ n, ∀ op ∈ env n, isWrite op = true)
    (hdel : transfer = true ∨ ∀ n id, .delete id ∉ env n) (hi : c0.Inv) (rest : List Nat) :
    ∀ (pre : List Nat) (s : Db.Amid V), c0.groups = c0.primary :: (pre ++ rest) → Going env transfer m0 c0 pre s →
    let r := Db.Amid.moveGroups eff env pyNone transfer rest s
    (r.1 = .ok () ∧ Going env transfer m0 c0 (pre ++ rest) r.2) ∨
    (∃ e, r.1 = .error e ∧ r.2.stored.Inv ∧ (∀ op ∈ r.2.done, ∃ n, op ∈ env n) ∧ applyAll r.2.done m0 = some r.2.stored.first ∧ LogOk m0 r.2 ∧ Excuse transfer c0 r.2.done e) := by
  induction rest with
  | nil => intro pre s _ h; exact .inl ⟨rfl, by rw [List.append_nil]; exact h⟩
  | cons a rest ih =>
    intro pre s hsp h
    have hg := h.grown.shape.groups
    have hp := h.grown.shape.primary
    have hag : a ∈ c0.groups := by rw [hsp]; simp
    have hnd := hi.nodup
    rw [hsp] at hnd
    have hapr : a ≠ c0.primary := by rintro h; exact (List.nodup_cons.1 hnd).1 (by rw [← h]; simp)
    have hai : (s.work.heap a).Inv := (h.grown.shape.keep hi).inv a (hg ▸ hag)
    have hk := moveKeys_spec eff pyNone henv hdel hi hsp (s.work.heap a).keys s h (CGroup.keys_nodup hai)
      (fun k hk => h.grown.shrink a hag hapr k ((CGroup.mem_keys hai k).1 hk))
      (fun k hk => .inl ((CGroup.mem_keys hai k).1 hk)) (fun k hk => .inl ((CGroup.mem_keys hai k).2 hk))
    simp only [Db.Amid.moveGroups]
    rcases hq : Db.Amid.moveKeys eff env pyNone transfer a (s.work.heap a).keys s with ⟨r, s'⟩
    rw [hq] at hk
    rcases hk with ⟨h1, h2⟩ | ⟨e, h1, h2, h3, h4, h5, h6⟩
    · simp only at h1 h2
      subst h1
      have := ih (pre ++ [a]) s' (by simpa using hsp) h2
      simpa using this
    · simp only at h1
      subst h1
      exact .inr ⟨e, rfl, h2, h3, h4, h5, h6⟩

/-- `condense`, from any state between two transactions. -/
theorem condense_spec (eff : Nat → Bool) (pyNone : V) (henv : ∀ n, ∀ op ∈ env n, isWrite op = true)
    (hdel : transfer = true ∨ ∀ n id, .delete id ∉ env n) (hws : s.work = s.stored) (hi : s.work.Inv) (hh : s.work.HeadPrimary)
    (happ : applyAll s.done m0 = some s.stored.first) (hsrc : ∀ op ∈ s.done, ∃ n, op ∈ env n) (hlog : LogOk m0 s) :
    let r := Db.Amid.condense eff env pyNone s transfer
    r.2.work = r.2.stored ∧ r.2.stored.Inv ∧ (∀ op ∈ r.2.done, ∃ n, op ∈ env n) ∧ applyAll r.2.done m0 = some r.2.stored.first ∧ LogOk m0 r.2 ∧
    ((r.1 = .ok (if transfer then s.work.groups.tail else []) ∧
        r.2.stored.groups = (if transfer then [s.work.primary] else s.work.groups) ∧
        r.2.stored.primary = s.work.primary ∧ (r.2.stored.heap s.work.primary).flags = (s.work.heap s.work.primary).flags ∧
        ∀ id, r.2.stored.view s.work.primary id = r.2.stored.first id) ∨
      ∃ e, r.1 = .error e ∧ Excuse transfer s.work r.2.done e) := by
  have henter : s.enter = s := by
    unfold Db.Amid.enter; exact (congrArg (fun w => { s with work := w }) hws.symm)
  have hsp := hh.eq
  have hnd := hi.nodup
  rw [hsp] at hnd
  have hpt := (List.nodup_cons.1 hnd).1
  have hpre : ∀ b ∈ s.work.groups.tail, b ∈ s.work.groups ∧ b ≠ s.work.primary := fun b hb =>
    ⟨List.mem_of_mem_tail hb, fun e => hpt (e ▸ hb)⟩
  have h0 : Going env transfer m0 s.work [] s :=
    ⟨Grown.refl _, hws ▸ hi, by rw [hws], happ, hsrc, by simp, by simp, hlog⟩
  have hmg := moveGroups_spec eff pyNone henv hdel hi s.work.groups.tail [] s (by simpa using hsp) h0
  unfold Db.Amid.condense
  rw [henter]
  rcases hq : Db.Amid.moveGroups eff env pyNone transfer s.work.groups.tail s with ⟨r, s'⟩
  rw [hq] at hmg
  rcases hmg with ⟨h1, h2⟩ | ⟨e, h1, h2, h3, h4, h5, h6⟩
  · simp only at h1 h2
    subst h1
    rw [List.nil_append] at h2
    obtain ⟨g1, gw, g2, -, -⟩ := h2.store henv hi hh hpre
    have hp := g1.grown.shape.primary
    have hg := g1.grown.shape.groups
    have hview : ∀ id, (s'.store env).work.view s.work.primary id = (s'.store env).work.first id := by
      intro id
      unfold Container.first
      rw [hg, hsp, List.findSome?_cons]
      cases hv : (s'.store env).work.view s.work.primary id with
      | some v => rfl
      | none =>
        symm
        show List.findSome? _ s.work.groups.tail = none
        rw [List.findSome?_eq_none_iff]
        intro b hb
        by_contra hn
        exact g1.covered b hb id hn hv
    simp only
    cases ht : transfer with
    | false =>
      simp only [Bool.false_eq_true, if_false]
      rw [← gw]
      exact ⟨rfl, gw ▸ g1.stored, g1.source, by rw [gw]; exact g1.applied, g1.logged, .inl ⟨trivial, hg, hp, g1.grown.flags, hview⟩⟩
    | true =>
      subst ht
      simp only [if_true]
      set c1 := (s'.store env).work.withGroups [s.work.primary] with hc1
      have hds : (s'.store env).work.dropSources = (.ok s.work.groups.tail, c1) := by
        unfold Container.dropSources
        rw [hg, hsp]
        rfl
      rw [hds]
      simp only
      have hwi := g1.grown.shape.keep hi
      have hci : c1.Inv := hwi.shrink (by rw [hg, hsp]; simp)
      have hcp : c1.primary = s.work.primary := hp
      have hch : c1.HeadPrimary := by
        unfold Container.HeadPrimary; rw [hcp]; rfl
      have hcf : c1.first = (s'.store env).work.first := by
        funext id
        rw [← hview id]
        show [s.work.primary].findSome? (fun a => (s'.store env).work.view a id) = _
        rw [List.findSome?_cons]
        cases (s'.store env).work.view s.work.primary id <;> rfl
      have k0 : Going env true m0 c1 [] { s'.store env with work := c1 } :=
        ⟨Grown.refl _, g1.stored, by rw [← g1.first]; exact hcf, g1.applied, g1.source, by simp, by simp, g1.logged⟩
      obtain ⟨k1, -, -, -⟩ := k0.commit eff henv hci hch (by simp)
      obtain ⟨k2, kw, -, -, -⟩ := k1.store henv hci hch (by simp)
      have kg := k2.grown.shape.groups
      have kp := k2.grown.shape.primary
      rw [← kw]
      refine ⟨rfl, kw ▸ k2.stored, k2.source, by rw [kw]; exact k2.applied, k2.logged, .inl ⟨trivial, kg, kp.trans hcp, (hcp ▸ k2.grown.flags).trans g1.grown.flags, ?_⟩⟩
      intro id
      unfold Container.first
      rw [kg]
      show _ = [s.work.primary].findSome? _
      rw [List.findSome?_cons]
      generalize Container.view _ _ _ = o
      cases o <;> rfl
  · simp only at h1
    subst h1
    exact ⟨rfl, h2, h3, h4, h5, .inr ⟨e, rfl, h6⟩⟩

end Amid

/-! ### the property -/

variable [Truthy V]

theorem reads_own (hV : AllTruthy V) {c : Container V} (hi : c.Inv) : Reads c c.first := by
  intro id
  refine ⟨Container.read_first hi id fun _ _ v _ => hV v, ?_⟩
  obtain ⟨n, h1, h2⟩ := Container.has_pos hi id
  rw [h1]
  constructor
  · intro h
    injection h with h
    by_contra hc
    exact absurd (h2.2 hc) (by omega)
  · intro h
    by_contra hc
    have : 0 < n := Nat.pos_of_ne_zero fun e => hc (by rw [e])
    exact h2.1 this h

theorem reads_unique {c : Container V} {m m' : Map V} (h : Reads c m) (h' : Reads c m') : m = m' := by
  funext id
  have := (h id).1.symm.trans (h' id).1
  injection this

/-- How the call may end. -/
inductive EndsAs (transfer : Bool) (c : Container V) (r : Outcome (List Nat)) (s : Db.Amid V) : Prop
  /-- All objects are in the primary group; with `transfer` the other groups are returned and no longer part of the container. -/
  | fine (result : r = .ok (if transfer then c.groups.tail else []))
      (groups : s.stored.groups = if transfer then [c.primary] else c.groups) (primary : s.stored.primary = c.primary)
      (all : ∀ id, (s.stored.heap c.primary).get id = s.stored.read id)
  /-- Another session has deleted an object of a group whose objects were to be moved. -/
  | gone (result : r = .error .keyError) (transfers : transfer = true) (id : String) (deleted : .delete id ∈ s.done)
      (a : Nat) (source : a ∈ c.groups.tail) (held : ∃ v, (c.heap a).get id = .ok (some v))
  /-- The primary group is limited. -/
  | full (e : PyErr) (result : r = .error e) (capacity : e = .groupCapacity ∨ e = .collectionCapacity) (strict : ¬ (c.heap c.primary).NonStrict)

theorem endsAs (hV : AllTruthy V) {transfer : Bool} {c : Container V} (hi : c.Inv) (hh : c.HeadPrimary) {r : Outcome (List Nat)} {s : Db.Amid V}
    (hs : s.stored.Inv)
    (h : (r = .ok (if transfer then c.groups.tail else []) ∧
        s.stored.groups = (if transfer then [c.primary] else c.groups) ∧
        s.stored.primary = c.primary ∧ (s.stored.heap c.primary).flags = (c.heap c.primary).flags ∧ ∀ id, s.stored.view c.primary id = s.stored.first id) ∨
      ∃ e, r = .error e ∧ Amid.Excuse transfer c s.done e) : EndsAs transfer c r s := by
  rcases h with ⟨h1, h2, h3, -, h4⟩ | ⟨e, h1, ⟨h2, h3, k, hk, a, ha, hv⟩ | ⟨h2, h3⟩⟩
  · refine .fine h1 h2 h3 fun id => ?_
    have hp : (s.stored.heap c.primary).Inv := h3 ▸ hs.pinv
    rw [CGroup.get_view hp.ne, (reads_own hV hs id).1, ← h4]
  · obtain ⟨v, hv⟩ := Option.ne_none_iff_exists'.1 hv
    refine .gone (h2 ▸ h1) h3 k hk a ha ⟨v, ?_⟩
    rw [CGroup.get_view (hi.inv a (List.mem_of_mem_tail ha)).ne]
    exact congrArg _ hv
  · exact .full e h1 h2 h3

/-- **C148, condense.** Other sessions' calls of create, update and delete may come between the transactions of a `condense` with a transaction manager
(`env`; `eff`: which of the `tm.commit()` take effect).  Whether the call succeeds or fails, what can be read at its end is what could be read at its
beginning, changed by the others' successful calls in their order; and the session sees what is stored.  If it succeeds all objects are in the primary group,
which is the only one left with `transfer`.  It fails only if the primary group is limited, or, with `transfer`, with KeyError after another session
has deleted an object that was in one of the other groups at the beginning.  (Without `transfer` the others must not delete: see the counterexample below.) -/
theorem condense_amid_partial (hV : AllTruthy V) (eff : Nat → Bool) (env : Nat → List (DbOp V)) (pyNone : V) (transfer : Bool) {c : Container V}
    (hr : ContReach c) (hh : c.HeadPrimary) {m0 : Map V} (hm0 : Reads c m0) (henv : ∀ n, ∀ op ∈ env n, isWrite op = true)
    (hdel : transfer = true ∨ ∀ n id, .delete id ∉ env n) :
    let r := Db.Amid.condense eff env pyNone { work := c, stored := c } transfer
    r.2.work = r.2.stored ∧ (∀ op ∈ r.2.done, ∃ n, op ∈ env n) ∧
    (∃ m, applyAll r.2.done m0 = some m ∧ Reads r.2.stored m) ∧ EndsAs transfer c r.1 r.2 := by
  have hi := hr.inv
  have hm : m0 = c.first := reads_unique hm0 (reads_own hV hi)
  subst hm
  intro r
  obtain ⟨h1, h2, h3, h4, -, h5⟩ := Amid.condense_spec (m0 := c.first) (s := { work := c, stored := c }) eff pyNone henv hdel rfl hi hh rfl (by simp) (by simp [Amid.LogOk])
  exact ⟨h1, h3, ⟨_, h4, reads_own hV h2⟩, endsAs hV hi hh h2 h5⟩

/-- **C148, resize.** The same for `resize(condense=True)`: the new primary group is not limited, so without deletions by the others it always succeeds, and the new
group then holds all the objects. -/
theorem resize_amid_partial (hV : AllTruthy V) (eff : Nat → Bool) (env : Nat → List (DbOp V)) (pyNone : V) (transfer : Bool) {c : Container V}
    (hr : ContReach c) {m0 : Map V} (hm0 : Reads c m0) (henv : ∀ n, ∀ op ∈ env n, isWrite op = true)
    (hdel : transfer = true ∨ ∀ n id, .delete id ∉ env n) (capacity maxCollectionSize : Nat) (hc : 1 ≤ capacity) (hm : 1 ≤ maxCollectionSize) :
    let r := Db.Amid.resize eff env pyNone { work := c, stored := c } capacity maxCollectionSize transfer
    r.2.work = r.2.stored ∧ (∀ op ∈ r.2.done, ∃ n, op ∈ env n) ∧
    (∃ m, applyAll r.2.done m0 = some m ∧ Reads r.2.stored m) ∧
    ((r.1 = .ok (if transfer then c.groups else []) ∧ r.2.stored.groups = (if transfer then [c.next] else c.next :: c.groups) ∧
        r.2.stored.primary = c.next ∧ capacity ≤ (r.2.stored.heap c.next).maxSize ∧
        ∀ id, (r.2.stored.heap c.next).get id = r.2.stored.read id) ∨
      (r.1 = .error .keyError ∧ transfer = true ∧ ∃ id, .delete id ∈ r.2.done ∧ c.has id ≠ .ok 0)) := by
  have hi := hr.inv
  have hm0' : m0 = c.first := reads_unique hm0 (reads_own hV hi)
  subst hm0'
  obtain ⟨g, n, hg, -, -, -⟩ := makeGroup_spec (V := V) capacity maxCollectionSize c.strict hc hm
  obtain ⟨-, -, gi, gn, ge, gc⟩ := makeGroup_inv hg
  obtain ⟨p1, p2, p3, p4⟩ := Container.pushPrimary_inv hi gi
  intro r
  have hrr : r = Db.Amid.condense eff env pyNone
      ((({ work := c.pushPrimary g, stored := c } : Db.Amid V).commit eff env).store env) transfer := by
    show Db.Amid.resize eff env pyNone { work := c, stored := c } capacity maxCollectionSize transfer = _
    unfold Db.Amid.resize
    simp only [hg]
    rfl
  have h0 : Amid.Going env transfer c.first (c.pushPrimary g) [] { work := c.pushPrimary g, stored := c } :=
    ⟨Amid.Grown.refl _, hi, funext (Container.pushPrimary_first hi gi ge), rfl, by simp, by simp, by simp, by simp [Amid.LogOk]⟩
  obtain ⟨h1, -, -, -⟩ := h0.commit eff henv p1 p2 (by simp)
  obtain ⟨h2, hw, -, -, -⟩ := h1.store henv p1 p2 (by simp)
  generalize ((({ work := c.pushPrimary g, stored := c } : Db.Amid V).commit eff env).store env) = s at hrr h2 hw
  have hsp := h2.grown.shape.primary
  have hsg := h2.grown.shape.groups
  have hsi := h2.grown.shape.keep p1
  have hsh : s.work.HeadPrimary := by
    unfold Container.HeadPrimary; rw [hsg, hsp]; exact p2
  have hspn : s.work.primary = c.next := hsp
  have hsgn : s.work.groups = c.next :: c.groups := hsg
  have hfl : (s.work.heap c.next).flags = g.flags := by
    have := h2.grown.flags
    rw [show (c.pushPrimary g).primary = c.next from rfl, p4] at this
    exact this
  obtain ⟨k1, k2, k3, k4, -, k5⟩ := Amid.condense_spec eff pyNone henv hdel hw hsi hsh h2.applied h2.source h2.logged
  rw [← hrr] at k1 k2 k3 k4 k5
  rw [hspn, hsgn] at k5
  refine ⟨k1, k3, ⟨_, k4, reads_own hV k2⟩, ?_⟩
  rcases k5 with ⟨e1, e2, e3, e4, e5⟩ | ⟨e, e1, ⟨e2, e3, k, hk, a, ha, hv⟩ | ⟨e2, e3⟩⟩
  · refine .inl ⟨e1, e2, e3, ?_, fun id => ?_⟩
    · rw [CGroup.maxSize_flags, e4, hfl, ← CGroup.maxSize_flags]
      exact gc
    · have hp : (r.2.stored.heap c.next).Inv := e3 ▸ k2.pinv
      rw [CGroup.get_view hp.ne, (reads_own hV k2 id).1, ← e5]
  · refine .inr ⟨e2 ▸ e1, e3, k, hk, ?_⟩
    rw [hsgn] at ha
    have hac : a ∈ c.groups := ha
    have hne : a ≠ c.next := fun e => absurd (hi.fresh a hac) (by omega)
    have hv' := h2.grown.shrink a (List.mem_cons_of_mem _ hac) hne k hv
    have hcv : c.view a k ≠ none := by
      unfold Container.view at hv' ⊢
      rwa [p3 a hne] at hv'
    intro h
    have := ((reads_own hV hi k).2.1 h)
    exact hcv (Container.first_eq_none.1 this a hac)
  · refine absurd ?_ e3
    rw [CGroup.nonStrict_flags, hspn, hfl, ← CGroup.nonStrict_flags]
    exact gn

/-! ### every moment -/

/-- What was stored last is what is stored. -/
def Latest (c : Container V) (s : Db.Amid V) : Prop := ((s.log.getLast?.map Prod.snd).getD c) = s.stored

theorem Latest.others {c : Container V} (ops : List (DbOp V)) : ∀ {s : Db.Amid V}, Latest c s → Latest c (s.others ops) := by
  induction ops with
  | nil => intro s h; exact h
  | cons op ops ih =>
    intro s h
    refine ih ?_
    unfold Db.Amid.other
    rcases op.fn s.stored with ⟨r, c'⟩
    cases r with
    | error e => exact h
    | ok v => simp [Latest]

theorem Latest.store {c : Container V} (env : Nat → List (DbOp V)) (s : Db.Amid V) : Latest c (s.store env) := by
  have h : Latest c { s with stored := s.work, turns := s.turns + 1, log := s.log ++ [(s.done, s.work)] } := by simp [Latest]
  exact h.others (env s.turns)

theorem Latest.commit {c : Container V} (eff : Nat → Bool) (env : Nat → List (DbOp V)) {s : Db.Amid V} (h : Latest c s) : Latest c (s.commit eff env) := by
  unfold Db.Amid.commit
  split_ifs
  · exact Latest.store env _
  · exact h

theorem Latest.moveKeys {c : Container V} (eff : Nat → Bool) (env : Nat → List (DbOp V)) (pyNone : V) (transfer : Bool) (a : Nat) (ks : List String) :
    ∀ {s : Db.Amid V}, Latest c s → Latest c (Db.Amid.moveKeys eff env pyNone transfer a ks s).2 := by
  induction ks with
  | nil => intro s h; exact h
  | cons k ks ih =>
    intro s h
    unfold Db.Amid.moveKeys
    rcases Db.Amid.moveKey pyNone transfer a k s.work with ⟨r, c'⟩
    cases r with
    | error e => exact h
    | ok u => exact ih (Latest.commit eff env (s := { s with work := c' }) h)

theorem Latest.moveGroups {c : Container V} (eff : Nat → Bool) (env : Nat → List (DbOp V)) (pyNone : V) (transfer : Bool) (as : List Nat) :
    ∀ {s : Db.Amid V}, Latest c s → Latest c (Db.Amid.moveGroups eff env pyNone transfer as s).2 := by
  induction as with
  | nil => intro s h; exact h
  | cons a as ih =>
    intro s h
    unfold Db.Amid.moveGroups
    have h1 := Latest.moveKeys eff env pyNone transfer a (s.work.heap a).keys h
    rcases hq : Db.Amid.moveKeys eff env pyNone transfer a (s.work.heap a).keys s with ⟨r, s'⟩
    rw [hq] at h1
    cases r with
    | error e => exact h1
    | ok u => exact ih h1

theorem Latest.condense {c : Container V} (eff : Nat → Bool) (env : Nat → List (DbOp V)) (pyNone : V) (transfer : Bool) {s : Db.Amid V} (h : Latest c s) :
    Latest c (Db.Amid.condense eff env pyNone s transfer).2 := by
  unfold Db.Amid.condense
  have h1 := Latest.moveGroups eff env pyNone transfer s.work.groups.tail (s := s.enter) h
  rcases hq : Db.Amid.moveGroups eff env pyNone transfer s.work.groups.tail s.enter with ⟨r, s'⟩
  rw [hq] at h1
  cases r with
  | error e => exact h1
  | ok u =>
    simp only
    split_ifs
    · rcases (s'.store env).work.dropSources with ⟨r, c'⟩
      cases r with
      | error e => exact Latest.store env s'
      | ok l => exact Latest.store env _
    · exact Latest.store env s'

/-- C148: the list of everything that was stored ends with what is stored. -/
theorem amid_log_complete (eff : Nat → Bool) (env : Nat → List (DbOp V)) (pyNone : V) (transfer : Bool) (c : Container V) (capacity maxCollectionSize : Nat) :
    Latest c (Db.Amid.condense eff env pyNone { work := c, stored := c } transfer).2 ∧
    Latest c (Db.Amid.resize eff env pyNone { work := c, stored := c } capacity maxCollectionSize transfer).2 := by
  refine ⟨Latest.condense eff env pyNone transfer (by simp [Latest]), ?_⟩
  unfold Db.Amid.resize
  cases Container.makeGroup (V := V) capacity maxCollectionSize c.strict with
  | error e => simp [Latest]
  | ok g => exact Latest.condense eff env pyNone transfer (Latest.store env _)

theorem resize_log (eff : Nat → Bool) (env : Nat → List (DbOp V)) (pyNone : V) (transfer : Bool) {c : Container V}
    (hr : ContReach c) (henv : ∀ n, ∀ op ∈ env n, isWrite op = true)
    (hdel : transfer = true ∨ ∀ n id, .delete id ∉ env n) (capacity maxCollectionSize : Nat) :
    Amid.LogOk c.first (Db.Amid.resize eff env pyNone { work := c, stored := c } capacity maxCollectionSize transfer).2 := by
  have hi := hr.inv
  unfold Db.Amid.resize
  cases hg : Container.makeGroup (V := V) capacity maxCollectionSize c.strict with
  | error e => simp [Amid.LogOk]
  | ok g =>
    obtain ⟨-, -, gi, gn, ge, gc⟩ := makeGroup_inv hg
    obtain ⟨p1, p2, p3, p4⟩ := Container.pushPrimary_inv hi gi
    have h0 : Amid.Going env transfer c.first (c.pushPrimary g) [] { work := c.pushPrimary g, stored := c } :=
      ⟨Amid.Grown.refl _, hi, funext (Container.pushPrimary_first hi gi ge), rfl, by simp, by simp, by simp, by simp [Amid.LogOk]⟩
    obtain ⟨h1, -, -, -⟩ := h0.commit eff henv p1 p2 (by simp)
    obtain ⟨h2, hw, -, -, -⟩ := h1.store henv p1 p2 (by simp)
    have hsh : ((({ work := c.pushPrimary g, stored := c } : Db.Amid V).commit eff env).store env).work.HeadPrimary := by
      unfold Container.HeadPrimary; rw [h2.grown.shape.groups, h2.grown.shape.primary]; exact p2
    exact (Amid.condense_spec eff pyNone henv hdel hw (h2.grown.shape.keep p1) hsh h2.applied h2.source h2.logged).2.2.2.2.1

/-- **C148, every moment.** Whatever was stored at any moment of a `condense` or `resize(condense=True)` among calls of other sessions (so also what is stored if the process dies there) shows what could be read
at the beginning changed by the others' calls that had gone through by then; and if the others go on from there with calls of create, update and delete, it shows what these make of it. -/
theorem amid_always (hV : AllTruthy V) (eff : Nat → Bool) (env : Nat → List (DbOp V)) (pyNone : V) (transfer : Bool) {c : Container V}
    (hr : ContReach c) (hh : c.HeadPrimary) {m0 : Map V} (hm0 : Reads c m0) (henv : ∀ n, ∀ op ∈ env n, isWrite op = true)
    (hdel : transfer = true ∨ ∀ n id, .delete id ∉ env n) (capacity maxCollectionSize : Nat) (later : List (DbOp V)) (hlater : ∀ op ∈ later, isWrite op = true) :
    ∀ r ∈ [(Db.Amid.condense eff env pyNone { work := c, stored := c } transfer).2,
      (Db.Amid.resize eff env pyNone { work := c, stored := c } capacity maxCollectionSize transfer).2],
    ∀ x ∈ r.log, x.1 <+: r.done ∧ (∃ m, applyAll x.1 m0 = some m ∧ Reads x.2 m) ∧
      let s := ({ work := x.2, stored := x.2, done := x.1 } : Db.Amid V).others later
      ∃ m, applyAll s.done m0 = some m ∧ Reads s.stored m := by
  have hi := hr.inv
  have hm : m0 = c.first := reads_unique hm0 (reads_own hV hi)
  subst hm
  intro r hmem x hx
  have hlog : Amid.LogOk c.first r := by
    simp only [List.mem_cons, List.not_mem_nil, or_false] at hmem
    rcases hmem with rfl | rfl
    · exact (Amid.condense_spec (m0 := c.first) (s := { work := c, stored := c }) eff pyNone henv hdel rfl hi hh rfl (by simp) (by simp [Amid.LogOk])).2.2.2.2.1
    · exact resize_log eff env pyNone transfer hr henv hdel capacity maxCollectionSize
  obtain ⟨h1, h2, h3, h4⟩ := hlog x hx
  refine ⟨h4, ⟨_, h3, reads_own hV h1⟩, ?_⟩
  intro s
  obtain ⟨g1, g2, -, -⟩ := Amid.others_spec later hlater { work := x.2, stored := x.2, done := x.1 } h1 h2
  exact ⟨_, g2 _ h3, reads_own hV (g1.shape.keep h1)⟩

/-- **C148, nobody deletes.** If the others only create and update, and the primary group is not limited, both calls always succeed, whatever the schedule. -/
theorem condense_amid_no_delete (hV : AllTruthy V) (eff : Nat → Bool) (env : Nat → List (DbOp V)) (pyNone : V) (transfer : Bool) {c : Container V}
    (hr : ContReach c) (hh : c.HeadPrimary) (hn : (c.heap c.primary).NonStrict) (henv : ∀ n, ∀ op ∈ env n, isWrite op = true)
    (hdel : ∀ n id, .delete id ∉ env n) :
    (Db.Amid.condense eff env pyNone { work := c, stored := c } transfer).1 = .ok (if transfer then c.groups.tail else []) := by
  obtain ⟨-, h2, -, h4⟩ := condense_amid_partial hV eff env pyNone transfer hr hh (reads_own hV hr.inv) henv (.inr hdel)
  cases h4 with
  | fine h => exact h
  | gone _ _ id hd =>
    obtain ⟨n, h⟩ := h2 _ hd
    exact absurd h (hdel n id)
  | full _ _ _ h => exact absurd hn h

/-- The states of the two models of a session are the same. -/
structure AmidAlike (s : Db.Amid V) (q : Session V) : Prop where
  work : s.work = q.work
  stored : s.stored = q.committed
  commits : s.commits = q.commits

theorem AmidAlike.working {s : Db.Amid V} {q : Session V} (h : AmidAlike s q) (c : Container V) : AmidAlike { s with work := c } { q with work := c } :=
  ⟨rfl, h.stored, h.commits⟩

theorem AmidAlike.store {s : Db.Amid V} {q : Session V} (h : AmidAlike s q) : AmidAlike (s.store fun _ => []) q.store :=
  ⟨h.work, h.work, h.commits⟩

theorem AmidAlike.commit {s : Db.Amid V} {q : Session V} (h : AmidAlike s q) (eff : Nat → Bool) : AmidAlike (s.commit eff fun _ => []) (q.commit eff) := by
  unfold Db.Amid.commit Session.commit
  rw [h.commits]
  split_ifs
  · exact ⟨h.work, h.work, rfl⟩
  · exact ⟨h.work, h.stored, rfl⟩

theorem alone_moveKeys (eff : Nat → Bool) (pyNone : V) {transfer : Bool} {c0 : Container V} {done : List Nat} {a : Nat} {rest : List Nat}
    (hnd : c0.groups.Nodup) (ks : List String) : ∀ (s : Db.Amid V) (q : Session V), AmidAlike s q → Moving transfer c0 q.work done a rest ks →
    (Db.Amid.moveKeys eff (fun _ => []) pyNone transfer a ks s).1 = (Session.moveKeys eff transfer a ks q).1 ∧
    AmidAlike (Db.Amid.moveKeys eff (fun _ => []) pyNone transfer a ks s).2 (Session.moveKeys eff transfer a ks q).2 ∧
    ((Session.moveKeys eff transfer a ks q).1 = .ok () → Condensing transfer c0 (Session.moveKeys eff transfer a ks q).2.work (done ++ [a]) rest) := by
  induction ks with
  | nil => intro s q h hm; exact ⟨rfl, h, fun _ => hm.finish⟩
  | cons k ks ih =>
    intro s q h hm
    obtain ⟨v, hv⟩ := Option.ne_none_iff_exists'.1 (hm.has k List.mem_cons_self)
    have hai := hm.cond.inv a (by rw [hm.cond.split]; simp)
    unfold Db.Amid.moveKeys Session.moveKeys
    rw [h.work, Amid.moveKey_present pyNone hai hv]
    rcases hq : Container.moveKey transfer a k q.work with ⟨r, c'⟩
    cases r with
    | error e => exact ⟨rfl, ⟨rfl, h.stored, h.commits⟩, fun h => (nomatch h)⟩
    | ok u =>
      have hstep := hm.step hnd hq
      refine ih _ _ ((h.working c').commit eff) ?_
      unfold Session.commit
      split_ifs <;> exact hstep

theorem alone_moveGroups (eff : Nat → Bool) (pyNone : V) {transfer : Bool} {c0 : Container V} (hnd : c0.groups.Nodup) (rest : List Nat) :
    ∀ (done : List Nat) (s : Db.Amid V) (q : Session V), AmidAlike s q → Condensing transfer c0 q.work done rest →
    (Db.Amid.moveGroups eff (fun _ => []) pyNone transfer rest s).1 = (Session.moveGroups eff transfer rest q).1 ∧
    AmidAlike (Db.Amid.moveGroups eff (fun _ => []) pyNone transfer rest s).2 (Session.moveGroups eff transfer rest q).2 := by
  induction rest with
  | nil => intro done s q h _; exact ⟨rfl, h⟩
  | cons a rest ih =>
    intro done s q h hc
    obtain ⟨h1, h2, h3⟩ := alone_moveKeys eff pyNone hnd (q.work.heap a).keys s q h (Moving.start hc)
    unfold Db.Amid.moveGroups Session.moveGroups
    rw [h.work]
    rcases hq : Session.moveKeys eff transfer a (q.work.heap a).keys q with ⟨r, q'⟩
    rcases hs : Db.Amid.moveKeys eff (fun _ => []) pyNone transfer a (q.work.heap a).keys s with ⟨r', s'⟩
    rw [hq, hs] at h1 h2
    rw [hq] at h3
    simp only at h1 h2 h3
    subst h1
    cases r' with
    | error e => exact ⟨rfl, h2⟩
    | ok u => exact ih (done ++ [a]) s' q' h2 (h3 rfl)

/-- **C148, all alone.** Without calls of others this is the `condense` of C146. -/
theorem amid_alone (eff : Nat → Bool) (pyNone : V) {c : Container V} (hr : ContReach c) (hh : c.HeadPrimary) (transfer : Bool) :
    let r := Db.Amid.condense eff (fun _ => []) pyNone { work := c, stored := c } transfer
    let q := Session.condense eff { work := c, committed := c } transfer
    r.1 = q.1 ∧ r.2.work = q.2.work ∧ r.2.stored = q.2.committed ∧ r.2.commits = q.2.commits := by
  intro r q
  have h0 : AmidAlike ({ work := c, stored := c } : Db.Amid V) { work := c, committed := c } := ⟨rfl, rfl, rfl⟩
  obtain ⟨h1, h2⟩ := alone_moveGroups eff pyNone hr.inv.nodup c.groups.tail [] _ _ h0 (Condensing.init (transfer := transfer) hr.inv hh)
  suffices hs : r.1 = q.1 ∧ AmidAlike r.2 q.2 from ⟨hs.1, hs.2.work, hs.2.stored, hs.2.commits⟩
  show (Db.Amid.condense eff (fun _ => []) pyNone { work := c, stored := c } transfer).1 =
    (Session.condense eff { work := c, committed := c } transfer).1 ∧ AmidAlike (Db.Amid.condense eff (fun _ => []) pyNone { work := c, stored := c } transfer).2
    (Session.condense eff { work := c, committed := c } transfer).2
  unfold Db.Amid.condense Session.condense
  show _ ∧ _
  have e1 : ({ work := c, stored := c } : Db.Amid V).enter = { work := c, stored := c } := rfl
  have e2 : ({ work := c, committed := c } : Session V).enter = { work := c, committed := c } := rfl
  rw [e1, e2]
  rcases hq : Session.moveGroups eff transfer c.groups.tail { work := c, committed := c } with ⟨r1, q'⟩
  rcases hs : Db.Amid.moveGroups eff (fun _ => []) pyNone transfer c.groups.tail { work := c, stored := c } with ⟨r2, s'⟩
  rw [hq, hs] at h1 h2
  simp only at h1 h2
  subst h1
  cases r2 with
  | error e => exact ⟨rfl, h2.stored, h2.stored, h2.commits⟩
  | ok u =>
    simp only
    have hst : AmidAlike (s'.store fun _ => []) q'.exitOk := h2.store
    have hw : (s'.store fun _ => []).work = q'.exitOk.enter.work := hst.work
    cases transfer with
    | false => exact ⟨rfl, hst⟩
    | true =>
      simp only [if_true]
      rw [hw]
      rcases hd : q'.exitOk.enter.work.dropSources with ⟨r, c'⟩
      cases r with
      | error e => exact ⟨rfl, hst.stored, hst.stored, hst.commits⟩
      | ok l => exact ⟨rfl, ((hst.working c').commit eff).store⟩

/-! ### a case, and what goes wrong with deletions -/

/-- Group 0 is primary and holds "a", group 1 holds "b" and "c". -/
def amidBox : Container Nat := ⟨fun a => if a = 0 then ⟨[⟨0, [("a", 1)], 5, false⟩]⟩ else ⟨[⟨0, [("b", 2), ("c", 3)], 5, false⟩]⟩, 2, [0, 1], 0⟩

/-- The others at work after the first commit: they update "c" and create "d". -/
def amidEnv : Nat → List (DbOp Nat) := fun n => if n = 0 then [.update "c" 30, .create "d" 4, .create "a" 9] else []

/-- The others update "c" and delete it after the first commit. -/
def amidDelete : Nat → List (DbOp Nat) := fun n => if n = 0 then [.update "c" 30, .delete "c"] else []

example : let r := Db.Amid.condense (fun _ => true) amidEnv 0 { work := amidBox, stored := amidBox } true
    r.1 = .ok [1] ∧ r.2.done.length = 2 ∧ r.2.log.map (fun x => (x.1.length, (x.2.heap 0).size)) = [(0, 2), (1, 3), (2, 4), (2, 4), (2, 4), (2, 4), (2, 4)] ∧ r.2.stored.read "a" = .ok (some 1) ∧ r.2.stored.read "b" = .ok (some 2) ∧
    r.2.stored.read "c" = .ok (some 30) ∧ r.2.stored.read "d" = .ok (some 4) ∧ r.2.stored.groups = [0] := by
  decide +kernel

/-- The hypotheses of the theorems are met (numbers that all count as true): two groups, others that update and create at their first turn and delete
later. -/
example :
    let _ : Truthy Nat := ⟨fun _ => true⟩
    let env : Nat → List (DbOp Nat) := fun n => if n = 0 then [.update "b" 30, .create "d" 4] else [.delete "d"]
    AllTruthy Nat ∧ ContReach (twoGroups 0 false) ∧ (twoGroups 0 false).HeadPrimary ∧ Reads (twoGroups 0 false) (twoGroups 0 false).first ∧
    ∀ n, ∀ op ∈ env n, isWrite op = true := by
  intro _ env
  have hV : AllTruthy Nat := fun _ => rfl
  refine ⟨hV, twoGroups_reach 0 (by decide) false, rfl, reads_own hV (twoGroups_reach 0 (by decide) false).inv, fun n op ho => ?_⟩
  by_cases h : n = 0
  · simp only [env, h, if_true, List.mem_cons, List.not_mem_nil, or_false] at ho
    rcases ho with rfl | rfl <;> rfl
  · simp only [env, h, if_false, List.mem_singleton] at ho
    rw [ho]; rfl

/-- **C148, counterexample.** Another session deletes an object while `condense` with `transfer` is at work: `condense` raises KeyError. -/
theorem condense_amid_delete_counterexample :
    let r := Db.Amid.condense (fun _ => true) amidDelete 0 { work := amidBox, stored := amidBox } true
    r.1 = .error .keyError ∧ r.2.stored.read "b" = .ok (some 2) ∧ r.2.stored.has "c" = .ok 0 ∧ r.2.stored.groups = [0, 1] := by
  decide +kernel

/-- **C148, counterexample.** The same without `transfer`: `condense` succeeds, and the deleted id is there again, with None (here 0) as its object; nobody can
create it. -/
theorem condense_amid_none_counterexample :
    let r := Db.Amid.condense (fun _ => true) amidDelete 0 { work := amidBox, stored := amidBox } false
    r.1 = .ok [] ∧ r.2.done.length = 2 ∧ (r.2.stored.heap 0).get "c" = .ok (some 0) ∧ r.2.stored.has "c" = .ok 1 ∧
    ((DbOp.create "c" 5).fn r.2.stored).1 = .error .objectOverwrite := by
  decide +kernel

end Verif.Props
