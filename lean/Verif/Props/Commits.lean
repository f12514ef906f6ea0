import Verif.Props.ContainerTx
import Mathlib.Data.List.Chain

/-!
# "Each action will be performed as an individual transaction" (C146)

`condense` and `resize` with a transaction manager (citrine/storage/container.py:220-349): how often they commit, and what changes between one
stored state and the next.
-/

namespace Verif.Props
open Verif Verif.Storage Verif.Spec
variable {V : Type}

/-- Between the stored states `y` and `x` (later) one thing was done: at most one object (the one with id `k`) was put in or taken out of
groups; or the list of groups changed, no group that stays changed its contents, and groups that are new are empty. -/
inductive OneAction (y x : Container V) : Prop
  | object (k : String) (groups : x.groups = y.groups) (primary : x.primary = y.primary)
      (others : ∀ id, id ≠ k → ∀ a ∈ y.groups, x.view a id = y.view a id)
  | groups (kept : ∀ a ∈ x.groups, a ∈ y.groups → ∀ id, x.view a id = y.view a id)
      (new : ∀ a ∈ x.groups, a ∉ y.groups → ∀ id, x.view a id = none)

/-- The stored states of a call that started with `c` stored, newest first, each one action after the one before. -/
def OneByOne (c : Container V) (s : Session V) : Prop := (s.log ++ [c]).IsChain fun x y => OneAction y x

/-! ### what the moves leave alone -/

theorem moveKey_frame (t : Bool) (a : Nat) (k : String) (c : Container V) :
    (Container.moveKey t a k c).2.primary = c.primary ∧
    ∀ b, b ≠ a → b ≠ c.primary → (Container.moveKey t a k c).2.heap b = c.heap b := by
  unfold Container.moveKey
  cases t with
  | true =>
    simp only [if_true]
    rcases (c.heap a).pop k none with ⟨r, g⟩
    cases r with
    | error e => exact ⟨rfl, fun b h1 _ => Container.heap_put_ne _ _ h1⟩
    | ok v =>
      refine ⟨rfl, fun b h1 h2 => ?_⟩
      show ((c.put a g).put c.primary _).heap b = _
      rw [Container.heap_put_ne _ _ h2, Container.heap_put_ne _ _ h1]
  | false =>
    simp only [Bool.false_eq_true, if_false]
    rcases (c.heap a).get k with e | v
    · exact ⟨rfl, fun _ _ _ => rfl⟩
    · cases v with
      | none => exact ⟨rfl, fun _ _ _ => rfl⟩
      | some v => exact ⟨rfl, fun b _ h2 => Container.heap_put_ne _ _ h2⟩

theorem moveKeys_frame (t : Bool) (a : Nat) (ks : List String) : ∀ c : Container V,
    (Container.moveKeys t a ks c).2.primary = c.primary ∧
    ∀ b, b ≠ a → b ≠ c.primary → (Container.moveKeys t a ks c).2.heap b = c.heap b := by
  induction ks with
  | nil => intro c; exact ⟨rfl, fun _ _ _ => rfl⟩
  | cons k ks ih =>
    intro c
    unfold Container.moveKeys
    obtain ⟨h1, h2⟩ := moveKey_frame t a k c
    rcases hq : Container.moveKey t a k c with ⟨r, c'⟩
    rw [hq] at h1 h2
    simp only at h1 h2
    cases r with
    | error e => exact ⟨h1, h2⟩
    | ok u =>
      obtain ⟨h3, h4⟩ := ih c'
      exact ⟨h3.trans h1, fun b hb hp => (h4 b hb (h1 ▸ hp)).trans (h2 b hb hp)⟩

theorem commit_commits (eff : Nat → Bool) (s : Session V) : (s.commit eff).commits = s.commits + 1 := by
  unfold Session.commit; split_ifs <;> rfl

/-! ### counting -/

theorem session_moveKeys_commits (eff : Nat → Bool) (t : Bool) (a : Nat) (ks : List String) : ∀ s : Session V,
    ((Session.moveKeys eff t a ks s).1 = .ok () → (Session.moveKeys eff t a ks s).2.commits = s.commits + ks.length) ∧
    (∀ e, (Session.moveKeys eff t a ks s).1 = .error e → (Session.moveKeys eff t a ks s).2.commits < s.commits + ks.length) := by
  induction ks with
  | nil => intro s; exact ⟨fun _ => rfl, fun e h => (nomatch h)⟩
  | cons k ks ih =>
    intro s
    unfold Session.moveKeys
    rcases Container.moveKey t a k s.work with ⟨r, c'⟩
    cases r with
    | error e => refine ⟨fun h => (nomatch h), fun _ _ => ?_⟩; show s.commits < _; simp
    | ok u =>
      obtain ⟨h1, h2⟩ := ih ({ s with work := c' }.commit eff)
      rw [commit_commits] at h1 h2
      refine ⟨fun h => (h1 h).trans ?_, fun e h => lt_of_lt_of_eq (h2 e h) ?_⟩ <;>
        · show s.commits + 1 + ks.length = _
          simp only [List.length_cons]; omega

theorem session_moveGroups_commits (eff : Nat → Bool) (t : Bool) (as : List Nat) (hnd : as.Nodup) : ∀ s : Session V,
    s.work.primary ∉ as →
    ((Session.moveGroups eff t as s).1 = .ok () →
      (Session.moveGroups eff t as s).2.commits = s.commits + (as.map fun a => (s.work.heap a).size).sum) ∧
    (∀ e, (Session.moveGroups eff t as s).1 = .error e →
      (Session.moveGroups eff t as s).2.commits < s.commits + (as.map fun a => (s.work.heap a).size).sum) := by
  induction as with
  | nil => intro s _; exact ⟨fun _ => rfl, fun e h => (nomatch h)⟩
  | cons a as ih =>
    intro s hp
    obtain ⟨hpa, hpas⟩ := not_or.1 (mt List.mem_cons.2 hp)
    obtain ⟨haas, hnd'⟩ := List.nodup_cons.1 hnd
    unfold Session.moveGroups
    obtain ⟨h1, h2⟩ := session_moveKeys_commits eff t a (s.work.heap a).keys s
    obtain ⟨w1, w2⟩ := session_moveKeys eff t a (s.work.heap a).keys s
    obtain ⟨f1, f2⟩ := moveKeys_frame t a (s.work.heap a).keys s.work
    rw [← w2] at f1 f2
    rw [← CGroup.size_keys] at h1 h2
    rcases hq : Session.moveKeys eff t a (s.work.heap a).keys s with ⟨r, s'⟩
    rw [hq] at h1 h2 f1 f2
    simp only at h1 h2 f1 f2
    cases r with
    | error e =>
      refine ⟨fun h => (nomatch h), fun _ _ => ?_⟩
      have := h2 e rfl
      simp only [List.map_cons, List.sum_cons]
      omega
    | ok u =>
      have hs : (as.map fun b => (s'.work.heap b).size) = as.map fun b => (s.work.heap b).size := by
        refine List.map_congr_left fun b hb => ?_
        rw [f2 b (by rintro rfl; exact haas hb) (by rintro rfl; exact hpas hb)]
      obtain ⟨h3, h4⟩ := ih hnd' s' (f1 ▸ hpas)
      rw [hs, h1 rfl] at h3 h4
      simp only [List.map_cons, List.sum_cons]
      refine ⟨fun h => (h3 h).trans (by omega), fun e h => lt_of_lt_of_eq (h4 e h) (by omega)⟩

/-- `condense` run on `s` (with `c` stored), when the sources are `src`. -/
theorem session_condense_commits (eff : Nat → Bool) (t : Bool) (s : Session V) (src : List Nat) (hsrc : s.work.groups.tail = src)
    (hnd : src.Nodup) (hp : s.committed.primary ∉ src) :
    (∀ l, (Session.condense eff s t).1 = .ok l → (Session.condense eff s t).2.commits =
      s.commits + (src.map fun a => (s.committed.heap a).size).sum + if t then 1 else 0) ∧
    (∀ e, s.committed.groups ≠ [] → (Session.condense eff s t).1 = .error e → (Session.condense eff s t).2.commits <
      s.commits + (src.map fun a => (s.committed.heap a).size).sum) := by
  unfold Session.condense
  rw [hsrc]
  obtain ⟨h1, h2⟩ := session_moveGroups_commits eff t src hnd s.enter hp
  have w2 := (session_moveGroups eff t src s.enter).2
  have hg : (Container.moveGroups t src s.committed).2.groups = s.committed.groups := by
    have := moveGroups_withGroups t src s.committed.groups s.committed
    have hw : s.committed.withGroups s.committed.groups = s.committed := rfl
    rw [hw] at this
    exact congrArg (fun p => p.2.groups) this
  have he : s.enter.work = s.committed := rfl
  have hc : s.enter.commits = s.commits := rfl
  rw [he] at h1 h2 w2
  rw [hc] at h1 h2
  rcases hq : Session.moveGroups eff t src s.enter with ⟨r, s'⟩
  rw [hq] at h1 h2 w2
  simp only at h1 h2 w2
  cases r with
  | error e => exact ⟨fun l h => (nomatch h), fun e' _ _ => h2 e rfl⟩
  | ok u =>
    have hk := h1 rfl
    cases t with
    | false =>
      refine ⟨fun l _ => ?_, fun e _ h => (nomatch h)⟩
      show s'.commits = _
      rw [hk]; rfl
    | true =>
      simp only [if_true]
      have hw : s'.exitOk.enter.work = s'.work := rfl
      rw [hw]
      unfold Container.dropSources
      cases hgr : s'.work.groups with
      | nil =>
        refine ⟨fun l h => (nomatch h), fun e hne _ => absurd ?_ hne⟩
        rw [← hg, ← w2, hgr]
      | cons b bs =>
        refine ⟨fun l _ => ?_, fun e _ h => (nomatch h)⟩
        show (Session.commit eff _).commits = _
        rw [commit_commits]
        show s'.commits + 1 = _
        rw [hk]

/-- **C146 (condense).** With a transaction manager, `condense` that returns has committed once for each object in the groups other than the
primary one, and once more for dropping these groups if `transfer` is set; if it raises, it has committed fewer times than there were objects to
move. -/
theorem condense_commits (c : Container V) (hr : ContReach c) (hh : c.HeadPrimary) (eff : Nat → Bool) (t : Bool) :
    let r := Session.condense eff (cleanSession c) t
    (∀ l, r.1 = .ok l → r.2.commits = (c.size - c.used) + if t then 1 else 0) ∧
    (∀ e, r.1 = .error e → r.2.commits < c.size - c.used) := by
  intro r
  have hi := hr.inv
  have hn := hi.nodup
  rw [hh.eq] at hn
  obtain ⟨hn1, hn2⟩ := List.nodup_cons.1 hn
  obtain ⟨h1, h2⟩ := session_condense_commits eff t (cleanSession c) c.groups.tail rfl hn2 hn1
  have hsz : c.size - c.used = (c.groups.tail.map fun a => (c.heap a).size).sum := by
    unfold Container.size Container.used
    conv_lhs => rw [hh.eq]
    simp only [List.map_cons, List.sum_cons, Nat.add_sub_cancel_left]
  have hz : (cleanSession c).commits = 0 := rfl
  have hcm : (cleanSession c).committed = c := rfl
  rw [hz, hcm, Nat.zero_add, ← hsz] at h1 h2
  exact ⟨h1, fun e => h2 e (by rw [hh.eq]; simp)⟩

/-- **C146 (resize).** With a transaction manager and sizes of at least 1, `resize` returns and has committed once for the new primary group, once for
each object moved - all objects of the container with `condense=True`, those of the first group (the old primary one, unless it was not first) without
- and once more for dropping groups if `transfer` is set. -/
theorem resize_commits (c : Container V) (hr : ContReach c) (eff : Nat → Bool) (n m : Nat) (hn : 1 ≤ n) (hm : 1 ≤ m) (cd t : Bool) :
    let r := Session.resize eff (cleanSession c) n m cd t
    (∃ l, r.1 = .ok l) ∧
    (cd = true → r.2.commits = 1 + c.size + if t then 1 else 0) ∧
    (cd = false → c.HeadPrimary → r.2.commits = 1 + c.used + if t then 1 else 0) := by
  intro r
  have hi := hr.inv
  obtain ⟨g, hgm, hg, _, _, hgr, hgn, hgv, _, _, _⟩ := makeGroup_spec (V := V) n m c.strict hn hm
  obtain ⟨p1, p2, p3, p4⟩ := Container.pushPrimary_inv hi hgr.inv
  have hn' : (c.pushPrimary g).groups.Nodup := p1.nodup
  have hnc : (c.next :: c.groups).Nodup := hn'
  obtain ⟨hnc1, hnc2⟩ := List.nodup_cons.1 hnc
  have hsum : ∀ as : List Nat, (∀ a ∈ as, a ∈ c.groups) →
      (as.map fun a => ((c.pushPrimary g).heap a).size) = as.map fun a => (c.heap a).size := by
    intro as has
    refine List.map_congr_left fun a ha => ?_
    rw [p3 a (by rintro rfl; exact hnc1 (has _ ha))]
  set s1 : Session V := (({ (cleanSession c).enter with work := (cleanSession c).enter.work.pushPrimary g } : Session V).commit eff).exitOk with hs1
  have hw1 : s1.work = c.pushPrimary g := by
    rw [hs1]; unfold Session.commit; split_ifs <;> rfl
  have hc1 : s1.committed = c.pushPrimary g := by
    rw [hs1]; unfold Session.commit; split_ifs <;> rfl
  have hl1 : ∀ x ∈ s1.log, x = c.pushPrimary g := by
    rw [hs1]
    unfold Session.commit
    split_ifs <;> simp [Session.exitOk, Session.store, Session.enter, cleanSession]
  have hk1 : s1.commits = 1 := by
    show (Session.commit eff _).commits = 1
    rw [commit_commits]; rfl
  have hres : r = (if cd then Session.condense eff s1 t
      else
        match Session.condense eff { s1 with work := s1.work.withGroups (s1.work.groups.take 2) } t with
        | (.error e, s2) => (.error e, s2)
        | (.ok r, s2) => (.ok r, { s2 with work := s2.work.withGroups (s2.work.groups ++ s1.work.groups.drop 2) })) := by
    show Session.resize eff (cleanSession c) n m cd t = _
    unfold Session.resize
    have hw : (cleanSession c).work.strict = c.strict := rfl
    rw [hw, hg]
    simp only [← hs1]
    cases cd with
    | true => rfl
    | false =>
      simp only [Bool.false_eq_true, if_false]
      rcases Session.condense eff _ t with ⟨o, s2⟩
      cases o <;> rfl
  have hok : ∃ l, r.1 = .ok l := by
    by_contra hne
    cases hr1 : r.1 with
    | ok l => exact hne ⟨l, hr1⟩
    | error e =>
      cases cd with
      | true =>
        have := (container_resize_crash_partial c hr eff n m true t (.inl rfl)).2.2.1.1 ⟨e, hr1⟩
        omega
      | false =>
        rw [hres] at hr1
        simp only [Bool.false_eq_true, if_false] at hr1
        rcases session_condense_spec eff t p1 p2 { s1 with work := s1.work.withGroups (s1.work.groups.take 2) } hc1 (c.groups.take 1) (c.groups.drop 1)
          (by show (s1.work.groups.take 2).tail = _; rw [hw1]; rfl)
          (by show c.groups = _; rw [List.take_append_drop])
          (by
            intro x hx
            have hx' : x ∈ s1.log := hx
            have : x = c.pushPrimary g := by
              exact hl1 x hx'
            rw [this]; exact .of_first p1.inv p1.inv fun _ => rfl) with ⟨e', _, h2, _⟩ | ⟨c1, h1, h2, h3, h4⟩
        · exact h2 (by show ((c.pushPrimary g).heap c.next).NonStrict; rw [p4]; exact hgn)
        · have : ∃ l, (Session.condense eff { s1 with work := s1.work.withGroups (s1.work.groups.take 2) } t).1 = .ok l := by
            cases t with
            | true => simp only [if_true] at h4; exact ⟨_, h4.1⟩
            | false => simp only [Bool.false_eq_true, if_false] at h4; exact ⟨_, h4.1⟩
          obtain ⟨l, hl⟩ := this
          rcases hq : Session.condense eff { s1 with work := s1.work.withGroups (s1.work.groups.take 2) } t with ⟨o, s2⟩
          rw [hq] at hl hr1
          simp only at hl
          subst hl
          cases hr1
  refine ⟨hok, ?_, ?_⟩
  · rintro rfl
    obtain ⟨l, hl⟩ := hok
    rw [if_pos rfl] at hres
    obtain ⟨h1, -⟩ := session_condense_commits eff t s1 c.groups (by rw [hw1]; rfl) hnc2 (by rw [hc1]; exact hnc1)
    rw [← hres, hk1, hc1, hsum _ (fun _ h => h)] at h1
    exact h1 l hl
  · rintro rfl hh
    obtain ⟨l, hl⟩ := hok
    rw [hres] at hl ⊢
    simp only [Bool.false_eq_true, if_false] at hl ⊢
    obtain ⟨h1, -⟩ := session_condense_commits eff t { s1 with work := s1.work.withGroups (s1.work.groups.take 2) } [c.primary]
      (by show (s1.work.groups.take 2).tail = _; rw [hw1]
          show ((c.next :: c.groups).take 2).tail = _
          conv_lhs => rw [hh.eq]
          rfl) (by simp) (by
        show s1.committed.primary ∉ _
        rw [hc1]
        intro h
        rw [List.mem_singleton] at h
        exact hnc1 (by show c.next ∈ c.groups; rw [show c.next = c.primary from h, hh.eq]; simp))
    rcases hcon : Session.condense eff { s1 with work := s1.work.withGroups (s1.work.groups.take 2) } t with ⟨o, s2⟩
    rw [hcon] at h1 hl
    simp only at h1 hl
    rw [hk1, hc1, hsum [c.primary] (by intro a ha; rw [List.mem_singleton] at ha; rw [ha, hh.eq]; simp)] at h1
    cases o with
    | error e => cases hl
    | ok l' =>
      show s2.commits = _
      rw [h1 l' rfl]
      simp [Container.used]

/-! ### one at a time -/

theorem OneAction.refl (x : Container V) : OneAction x x := .object "" rfl rfl fun _ _ _ _ => rfl

/-- A session whose latest stored state is its working state. -/
structure UpToDate (c : Container V) (s : Session V) : Prop where
  chain : OneByOne c s
  head : (s.log ++ [c]).head? = some s.committed
  clean : s.work = s.committed

theorem UpToDate.store {c : Container V} {s : Session V} (h : UpToDate c s) (w : Container V) (n : Nat) (hw : OneAction s.committed w) :
    UpToDate c ⟨w, w, w :: s.log, n⟩ := by
  refine ⟨?_, rfl, rfl⟩
  have hc := h.chain
  have hh := h.head
  unfold OneByOne at hc ⊢
  show List.IsChain _ (w :: (s.log ++ [c]))
  rcases hl : s.log ++ [c] with _ | ⟨y, l⟩
  · simp at hl
  · rw [hl] at hc hh
    simp only [List.head?_cons, Option.some.injEq] at hh
    subst hh
    exact List.isChain_cons_cons.2 ⟨hw, hc⟩

theorem session_moveKeys_one {t : Bool} {c c0 : Container V} {done : List Nat} {a : Nat} {rest : List Nat} (hnd : c0.groups.Nodup)
    (ks : List String) : ∀ s : Session V, Moving t c0 s.work done a rest ks → UpToDate c s →
    OneByOne c (Session.moveKeys (fun _ => true) t a ks s).2 ∧
    ((Session.moveKeys (fun _ => true) t a ks s).1 = .ok () → UpToDate c (Session.moveKeys (fun _ => true) t a ks s).2) := by
  induction ks with
  | nil => intro s _ h; exact ⟨h.chain, fun _ => h⟩
  | cons k ks ih =>
    intro s hm hu
    unfold Session.moveKeys
    rcases hq : Container.moveKey t a k s.work with ⟨r, c'⟩
    cases r with
    | error e => exact ⟨hu.chain, fun h => (nomatch h)⟩
    | ok u =>
      obtain ⟨v, hv⟩ := Option.ne_none_iff_exists'.1 (hm.has k List.mem_cons_self)
      have hne := hm.ne hnd
      have hmv := Container.moveKey_ok (hm.cond.inv a (by rw [hm.cond.split]; simp))
        (hm.cond.inv s.work.primary (by rw [hm.cond.split]; simp)) hne hv hq
      have hact : OneAction s.committed c' := by
        rw [← hu.clean]
        refine .object k hmv.groups hmv.primary fun id hid b _ => ?_
        by_cases hba : b = a
        · rw [hba, hmv.source]
          cases t <;> simp [Map.remove, hid]
        · by_cases hbp : b = s.work.primary
          · rw [hbp, hmv.target]
            split_ifs <;> simp [Map.set, hid]
          · unfold Container.view
            rw [hmv.other b hba hbp]
      exact ih ⟨c', c', c' :: s.log, s.commits + 1⟩ (hm.step hnd hq) (hu.store c' _ hact)

theorem session_moveGroups_one {t : Bool} {c c0 : Container V} (hnd : c0.groups.Nodup) (post rest : List Nat) :
    ∀ (s : Session V) (done : List Nat), Condensing t c0 s.work done (rest ++ post) → UpToDate c s →
    OneByOne c (Session.moveGroups (fun _ => true) t rest s).2 ∧
    ((Session.moveGroups (fun _ => true) t rest s).1 = .ok () → UpToDate c (Session.moveGroups (fun _ => true) t rest s).2) := by
  induction rest with
  | nil => intro s _ _ h; exact ⟨h.chain, fun _ => h⟩
  | cons a rest ih =>
    intro s done hc hu
    unfold Session.moveGroups
    obtain ⟨h1, h2⟩ := session_moveKeys_one hnd _ s (Moving.start hc) hu
    obtain ⟨w1, w2⟩ := session_moveKeys (fun _ => true) t a (s.work.heap a).keys s
    have hsp := Container.moveKeys_spec hnd _ s.work (Moving.start hc)
    rcases hq : Session.moveKeys (fun _ => true) t a (s.work.heap a).keys s with ⟨r, s'⟩
    rw [hq] at h1 h2 w1 w2
    simp only at h1 h2 w1 w2
    cases r with
    | error e => exact ⟨h1, fun h => (nomatch h)⟩
    | ok u =>
      rcases hsp with ⟨c', e1, e2⟩ | ⟨e, c', e1, e2⟩
      · rw [e1] at w2
        exact ih s' (done ++ [a]) (by rw [w2]; exact e2) (h2 rfl)
      · rw [e1] at w1; cases w1

theorem session_condense_one (t : Bool) {c c0 : Container V} (hi : c0.Inv) (hh : c0.HeadPrimary) (s : Session V) (hs : s.committed = c0)
    (src post : List Nat) (hsrc : s.work.groups.tail = src) (hsp : c0.groups.tail = src ++ post) (hu : UpToDate c s.enter) :
    OneByOne c (Session.condense (fun _ => true) s t).2 := by
  unfold Session.condense
  rw [hsrc]
  obtain ⟨h1, h2⟩ := session_moveGroups_one (t := t) (c := c) hi.nodup post src s.enter []
    (by show Condensing t c0 s.committed [] _; rw [hs, ← hsp]; exact Condensing.init hi hh) hu
  rcases hq : Session.moveGroups (fun _ => true) t src s.enter with ⟨r, s'⟩
  rw [hq] at h1 h2
  simp only at h1 h2
  cases r with
  | error e => exact h1
  | ok u =>
    have h3 := h2 rfl
    have h4 : UpToDate c s'.exitOk := by
      have := h3.store s'.work s'.commits (by rw [h3.clean]; exact .refl _)
      exact this
    cases t with
    | false => exact h4.chain
    | true =>
      simp only [if_true]
      have hw : s'.exitOk.enter.work = s'.work := rfl
      rw [hw]
      unfold Container.dropSources
      cases hgr : s'.work.groups with
      | nil => exact h4.chain
      | cons b bs =>
        have h5 := h4.store (s'.work.withGroups [b]) (s'.commits + 1)
          (.groups (fun _ _ _ _ => rfl) fun a ha hna => absurd (by
            have ha' : a = b := by simpa [Container.withGroups] using ha
            show a ∈ s'.work.groups
            rw [hgr, ha']; simp) hna)
        exact (h5.store (s'.work.withGroups [b]) (s'.commits + 1) (.refl _)).chain

/-- **C146.** If the transaction manager stores the state at every commit, `condense` goes from what was stored to what is stored by states each
of which differs from the one before by one object that was moved, or by the list of groups only - whether it returns or raises. -/
theorem condense_one_by_one (c : Container V) (hr : ContReach c) (hh : c.HeadPrimary) (t : Bool) :
    OneByOne c (Session.condense (fun _ => true) (cleanSession c) t).2 :=
  session_condense_one t hr.inv hh (cleanSession c) rfl c.groups.tail [] rfl (by simp) ⟨.singleton _, rfl, rfl⟩

/-- **C146.** The same for `resize`. -/
theorem resize_one_by_one (c : Container V) (hr : ContReach c) (n m : Nat) (hn : 1 ≤ n) (hm : 1 ≤ m) (cd t : Bool) :
    OneByOne c (Session.resize (fun _ => true) (cleanSession c) n m cd t).2 := by
  have hi := hr.inv
  obtain ⟨g, hgm, hg, _, _, hgr, hgn, hgv, _, _, _⟩ := makeGroup_spec (V := V) n m c.strict hn hm
  obtain ⟨p1, p2, p3, p4⟩ := Container.pushPrimary_inv hi hgr.inv
  have hu0 : UpToDate c (cleanSession c) := ⟨.singleton _, rfl, rfl⟩
  have hact : OneAction c (c.pushPrimary g) := by
    refine .groups (fun a _ ha id => ?_) fun a ha hna id => ?_
    · unfold Container.view
      rw [p3 a (Nat.ne_of_lt (hi.fresh a ha))]
    · have : a = c.next := by
        have : a ∈ c.next :: c.groups := ha
        exact (List.mem_cons.1 this).resolve_right hna
      subst this
      unfold Container.view
      rw [p4, hgv]; rfl
  have hu2 : UpToDate c ⟨c.pushPrimary g, c.pushPrimary g, [c.pushPrimary g, c.pushPrimary g], 1⟩ :=
    (hu0.store _ 1 hact).store _ 1 (.refl _)
  unfold Session.resize
  have hw : (cleanSession c).work.strict = c.strict := rfl
  rw [hw, hg]
  cases cd with
  | true =>
    exact session_condense_one t p1 p2 ⟨c.pushPrimary g, c.pushPrimary g, [c.pushPrimary g, c.pushPrimary g], 1⟩ rfl c.groups [] rfl
      (by show c.groups = _; simp) hu2
  | false =>
    have := session_condense_one t p1 p2 ⟨(c.pushPrimary g).withGroups ((c.pushPrimary g).groups.take 2), c.pushPrimary g,
      [c.pushPrimary g, c.pushPrimary g], 1⟩ rfl (c.groups.take 1) (c.groups.drop 1) rfl (by show c.groups = _; rw [List.take_append_drop]) hu2
    show OneByOne c (match Session.condense (fun _ => true) ⟨(c.pushPrimary g).withGroups ((c.pushPrimary g).groups.take 2), c.pushPrimary g,
      [c.pushPrimary g, c.pushPrimary g], 1⟩ t with
      | (.error e, s2) => (Except.error e, s2)
      | (.ok r, s2) => (.ok r, { s2 with work := s2.work.withGroups (s2.work.groups ++ (c.pushPrimary g).groups.drop 2) }) :
        Outcome (List Nat) × Session V).2
    rcases hq : Session.condense (fun _ => true) ⟨(c.pushPrimary g).withGroups ((c.pushPrimary g).groups.take 2), c.pushPrimary g,
      [c.pushPrimary g, c.pushPrimary g], 1⟩ t with ⟨o, s2⟩
    rw [hq] at this
    cases o <;> exact this

/-- A second group with three objects; the primary group is empty. -/
def threeToMoveHeap : Nat → CGroup Nat := fun a =>
  if a = 0 then ⟨[Collection.new 0 (some 10) false]⟩
  else ((⟨[Collection.new 0 (some 10) false]⟩ : CGroup Nat).run [.map (.insert "a" 1), .map (.insert "b" 2), .map (.insert "c" 3)]).2

/-- The container over these two groups. -/
def threeToMove : Container Nat := (Container.setStrict ⟨threeToMoveHeap, 2, [0, 1], 0⟩ (some false)).2

theorem threeToMove_reach : ContReach threeToMove := by
  refine .init threeToMoveHeap 2 0 [0, 1] (some false) _ ?_ (by decide) rfl
  intro a ha
  refine ⟨?_, by simp only [List.mem_cons, List.not_mem_nil, or_false] at ha; omega⟩
  unfold threeToMoveHeap
  split_ifs
  · exact ⟨[Collection.new 0 (some 10) true], false, ⟨[Collection.new 0 (some 10) false]⟩, [], by simp, by simp [Collection.new], by rfl, rfl⟩
  · exact ⟨[Collection.new 0 (some 10) true], false, ⟨[Collection.new 0 (some 10) false]⟩, _, by simp, by simp [Collection.new], by rfl, rfl⟩

/-- C146, the limit: if only the first commit of a call stores something (a transaction object that does nothing after its first
commit; library behaviour), the states on disk are not one action apart: after the first object, the other two are stored together. -/
theorem one_by_one_counterexample : ContReach threeToMove ∧ threeToMove.HeadPrimary ∧
    ¬ OneByOne threeToMove (Session.condense (fun n => n == 0) (cleanSession threeToMove) true).2 := by
  refine ⟨threeToMove_reach, by unfold Container.HeadPrimary; decide +kernel, fun h => ?_⟩
  obtain ⟨s, hs⟩ : ∃ s, s = (Session.condense (fun n => n == 0) (cleanSession threeToMove) true).2 := ⟨_, rfl⟩
  have hlen : s.log.length = 3 := by rw [hs]; decide +kernel
  have hx : (s.log[1]?.map fun x => (x.groups, x.view 0 "b", x.view 0 "c")) = some ([0, 1], some 2, some 3) := by rw [hs]; decide +kernel
  have hy : (s.log[2]?.map fun x => (x.groups, x.view 0 "b", x.view 0 "c")) = some ([0, 1], none, none) := by rw [hs]; decide +kernel
  rw [← hs] at h
  unfold OneByOne at h
  match hl : s.log, hlen with
  | [z, x, y], _ =>
    rw [hl] at h hx hy
    simp only [List.getElem?_cons_succ, List.getElem?_cons_zero, Option.map_some, Option.some.injEq, Prod.mk.injEq] at hx hy
    have h1 : OneAction y x := (List.isChain_cons_cons.1 (List.isChain_cons_cons.1 h).2).1
    cases h1 with
    | object k hg _ ho =>
      have hb : "b" = k := by
        by_contra hne
        have := ho "b" hne 0 (by rw [hy.1]; simp)
        rw [hx.2.1, hy.2.1] at this; cases this
      have hc : "c" = k := by
        by_contra hne
        have := ho "c" hne 0 (by rw [hy.1]; simp)
        rw [hx.2.2, hy.2.2] at this; cases this
      rw [← hb] at hc
      exact absurd hc (by decide)
    | groups hk hn =>
      by_cases h0 : 0 ∈ x.groups
      · have := hk 0 h0 (by rw [hy.1]; simp) "b"
        rw [hx.2.1, hy.2.1] at this; cases this
      · exact h0 (by rw [hx.1]; simp)

/-- Non-vacuity: three objects to move: four commits, three without transfer; six times something is stored (four commits, two ends of blocks). -/
example : ContReach threeToMove ∧ threeToMove.HeadPrimary ∧ threeToMove.size - threeToMove.used = 3 ∧
    (Session.condense (fun _ => false) (cleanSession threeToMove) true).2.commits = 4 ∧
    (Session.condense (fun _ => true) (cleanSession threeToMove) false).2.commits = 3 ∧
    (Session.condense (fun _ => true) (cleanSession threeToMove) true).2.log.length = 6 :=
  ⟨threeToMove_reach, by unfold Container.HeadPrimary; decide +kernel, by decide +kernel, by decide +kernel, by decide +kernel, by decide +kernel⟩

/-- Three objects to move into a strict group with room for one. -/
def noRoomHeap : Nat → CGroup Nat := fun a =>
  if a = 0 then ⟨[Collection.new 0 (some 1) false]⟩
  else ((⟨[Collection.new 0 (some 10) false]⟩ : CGroup Nat).run [.map (.insert "a" 1), .map (.insert "b" 2), .map (.insert "c" 3)]).2

/-- The container over these two groups. -/
def noRoom : Container Nat := (Container.setStrict ⟨noRoomHeap, 2, [0, 1], 0⟩ (some true)).2

theorem noRoom_reach : ContReach noRoom := by
  refine .init noRoomHeap 2 0 [0, 1] (some true) _ ?_ (by decide) rfl
  intro a ha
  refine ⟨?_, by simp only [List.mem_cons, List.not_mem_nil, or_false] at ha; omega⟩
  unfold noRoomHeap
  split_ifs
  · exact ⟨[Collection.new 0 (some 1) true], false, ⟨[Collection.new 0 (some 1) false]⟩, [], by simp, by simp [Collection.new], by rfl, rfl⟩
  · exact ⟨[Collection.new 0 (some 10) true], false, ⟨[Collection.new 0 (some 10) false]⟩, _, by simp, by simp [Collection.new], by rfl, rfl⟩

/-- Non-vacuity of the case of an exception: one of three objects was moved, and committed. -/
example : ContReach noRoom ∧ noRoom.HeadPrimary ∧ noRoom.size - noRoom.used = 3 ∧
    (Session.condense (fun _ => true) (cleanSession noRoom) true).1 = .error .groupCapacity ∧
    (Session.condense (fun _ => true) (cleanSession noRoom) true).2.commits = 1 :=
  ⟨noRoom_reach, by unfold Container.HeadPrimary; decide +kernel, by decide +kernel, by decide +kernel, by decide +kernel⟩

end Verif.Props
