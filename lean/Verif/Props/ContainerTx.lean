import Verif.Props.Container

/-!
# condense and resize with a transaction manager (C27, C29, C31)

What is on disk can only be one of the states stored by a commit.  `Session.log` lists all
of them, so "a crash at any point" is "any member of the log, or the committed state".
Which of the explicit `tm.commit()` calls really store something is left open (`eff`).
-/

namespace Verif.Props
open Verif Verif.Storage Verif.Spec
variable {V : Type}

/-- Every id has in `x` the value it has in `c`: the first copy is the same, `has` finds copies in one if and only if it does in the other,
and (if no object is falsy, see C25) `read` gives the same. -/
def SameData (c x : Container V) : Prop := ∀ id, x.first id = c.first id ∧
  (∃ n n', c.has id = .ok n ∧ x.has id = .ok n' ∧ (n' = 0 ↔ n = 0)) ∧
  ∀ _ : Truthy V, AllTruthy V → c.read id = .ok (c.first id) ∧ x.read id = .ok (c.first id)

theorem reads_first {x : Container V} (hx : ∀ a ∈ x.groups, (x.heap a).Inv) (id : String) :
    (∃ n, x.has id = .ok n ∧ (n = 0 ↔ x.first id = none)) ∧
    ∀ _ : Truthy V, AllTruthy V → x.read id = .ok (x.first id) := by
  refine ⟨⟨_, x.hasLoop_eq id _ hx, ?_⟩, ?_⟩
  · rw [Container.first_eq_none, List.countP_eq_zero]
    constructor
    · intro h a ha; simpa using h a ha
    · intro h a ha; rw [h a ha]; simp
  · intro _ hV
    unfold Container.read
    rw [x.readLoop_eq id _ hx]
    unfold Container.first
    congr 1
    refine findSome_congr _ _ _ fun a _ => ?_
    cases hv : x.view a id with
    | none => rfl
    | some v => simp [Option.filter, hV v]

theorem SameData.of_first {c x : Container V} (hc : ∀ a ∈ c.groups, (c.heap a).Inv) (hx : ∀ a ∈ x.groups, (x.heap a).Inv)
    (h : ∀ id, x.first id = c.first id) : SameData c x := by
  intro id
  obtain ⟨⟨n, h1, h2⟩, h3⟩ := reads_first hc id
  obtain ⟨⟨n', h4, h5⟩, h6⟩ := reads_first hx id
  rw [h id] at h5
  exact ⟨h id, ⟨n, n', h1, h4, h5.trans h2.symm⟩, fun T hV => ⟨h3 T hV, by rw [h6 T hV, h id]⟩⟩

theorem SameData.trans {a b c : Container V} (h1 : SameData a b) (h2 : SameData b c) : SameData a c := by
  intro id
  obtain ⟨p1, ⟨n, n', p2, p3, p4⟩, p5⟩ := h1 id
  obtain ⟨q1, ⟨m, m', q2, q3, q4⟩, q5⟩ := h2 id
  rw [p3] at q2
  cases q2
  exact ⟨q1.trans p1, ⟨n, m', p2, q3, q4.trans p4⟩, fun T hV => ⟨(p5 T hV).1, by rw [(q5 T hV).2, p1]⟩⟩

theorem _root_.Verif.Storage.Condensing.same {t : Bool} {c x : Container V} {d r : List Nat} (hi : c.Inv) (h : Condensing t c x d r) : SameData c x :=
  .of_first hi.inv h.inv h.first

/-- A database with `c` stored and nothing pending. -/
def cleanSession (c : Container V) : Session V := { work := c, committed := c }

/-! ### the loops do not look at the list of groups -/

theorem moveKey_withGroups (t : Bool) (a : Nat) (k : String) (c : Container V) (G : List Nat) :
    Container.moveKey t a k (c.withGroups G) =
      ((Container.moveKey t a k c).1, (Container.moveKey t a k c).2.withGroups G) := by
  cases t with
  | true =>
    unfold Container.moveKey
    simp only [if_true]
    have h : (c.withGroups G).heap = c.heap := rfl
    rw [h]
    rcases (c.heap a).pop k none with ⟨r, g⟩
    cases r <;> rfl
  | false =>
    unfold Container.moveKey
    simp only [Bool.false_eq_true, if_false]
    have h : (c.withGroups G).heap = c.heap := rfl
    rw [h]
    rcases (c.heap a).get k with e | v
    · rfl
    · cases v <;> rfl

theorem moveKeys_withGroups (t : Bool) (a : Nat) (ks : List String) (G : List Nat) :
    ∀ c : Container V, Container.moveKeys t a ks (c.withGroups G) =
      ((Container.moveKeys t a ks c).1, (Container.moveKeys t a ks c).2.withGroups G) := by
  induction ks with
  | nil => intro c; rfl
  | cons k ks ih =>
    intro c
    unfold Container.moveKeys
    rw [moveKey_withGroups]
    rcases Container.moveKey t a k c with ⟨r, c'⟩
    cases r with
    | error e => rfl
    | ok u => exact ih c'

theorem moveGroups_withGroups (t : Bool) (as : List Nat) (G : List Nat) :
    ∀ c : Container V, Container.moveGroups t as (c.withGroups G) =
      ((Container.moveGroups t as c).1, (Container.moveGroups t as c).2.withGroups G) := by
  induction as with
  | nil => intro c; rfl
  | cons a as ih =>
    intro c
    unfold Container.moveGroups
    have h : (c.withGroups G).heap = c.heap := rfl
    rw [h, moveKeys_withGroups]
    rcases Container.moveKeys t a (c.heap a).keys c with ⟨r, c'⟩
    cases r with
    | error e => rfl
    | ok u => exact ih c'

/-! ### the loop with commits does the same to the working state -/

theorem session_moveKeys (eff : Nat → Bool) (t : Bool) (a : Nat) (ks : List String) :
    ∀ s : Session V, (Session.moveKeys eff t a ks s).1 = (Container.moveKeys t a ks s.work).1 ∧
      (Session.moveKeys eff t a ks s).2.work = (Container.moveKeys t a ks s.work).2 := by
  induction ks with
  | nil => intro s; exact ⟨rfl, rfl⟩
  | cons k ks ih =>
    intro s
    unfold Session.moveKeys Container.moveKeys
    rcases Container.moveKey t a k s.work with ⟨r, c'⟩
    cases r with
    | error e => exact ⟨rfl, rfl⟩
    | ok u =>
      have := ih ({ s with work := c' }.commit eff)
      have hw : ({ s with work := c' }.commit eff).work = c' := by
        unfold Session.commit; split_ifs <;> rfl
      rw [hw] at this
      exact this

theorem session_moveGroups (eff : Nat → Bool) (t : Bool) (as : List Nat) :
    ∀ s : Session V, (Session.moveGroups eff t as s).1 = (Container.moveGroups t as s.work).1 ∧
      (Session.moveGroups eff t as s).2.work = (Container.moveGroups t as s.work).2 := by
  induction as with
  | nil => intro s; exact ⟨rfl, rfl⟩
  | cons a as ih =>
    intro s
    unfold Session.moveGroups Container.moveGroups
    obtain ⟨h1, h2⟩ := session_moveKeys eff t a (s.work.heap a).keys s
    rcases hs : Session.moveKeys eff t a (s.work.heap a).keys s with ⟨r, s'⟩
    rcases hc : Container.moveKeys t a (s.work.heap a).keys s.work with ⟨r2, c'⟩
    rw [hs, hc] at h1 h2
    simp only at h1 h2
    subst h1 h2
    cases r with
    | error e => exact ⟨rfl, rfl⟩
    | ok u => exact ih s'

/-! ### condense -/

/-- What `condense` with a transaction manager does, from a stored container whose primary
group is first, when the source groups are the first few of the other groups. -/
theorem session_condense_spec (eff : Nat → Bool) (t : Bool) {c : Container V} (hi : c.Inv)
    (hh : c.HeadPrimary) (s : Session V) (hs : s.committed = c) (src post : List Nat)
    (hsrc : s.work.groups.tail = src) (hsp : c.groups.tail = src ++ post)
    (hlog : ∀ x ∈ s.log, SameData c x) :
    let r := Session.condense eff s t
    (∃ e, r.1 = .error e ∧ ¬ (c.heap c.primary).NonStrict ∧ (∀ x ∈ r.2.log, SameData c x) ∧
      SameData c r.2.committed ∧ r.2.work = r.2.committed) ∨
    (∃ c1, Condensing t c c1 src post ∧ Container.moveGroups t src c = (.ok (), c1) ∧
      r.2.work = r.2.committed ∧
      (if t then r.1 = .ok (src ++ post) ∧ r.2.committed = c1.withGroups [c.primary] ∧
        (∀ x ∈ r.2.log, SameData c x ∨ x = c1.withGroups [c.primary])
      else r.1 = .ok [] ∧ r.2.committed = c1 ∧ ∀ x ∈ r.2.log, SameData c x)) := by
  intro r
  have hre : ∀ x, Reorganising t c x → SameData c x := by
    rintro x ⟨d, rst, h⟩; exact h.same hi
  -- the loop, with the log of the caller set aside
  have key : ∀ (l0 : List (Container V)) (n : Nat) (rest : List Nat),
      ∀ (log : List (Container V)) (w m : Container V),
      Session.moveGroups eff t rest ⟨w, m, log ++ l0, n⟩ =
        ((Session.moveGroups eff t rest ⟨w, m, log, n⟩).1,
          { (Session.moveGroups eff t rest ⟨w, m, log, n⟩).2 with
            log := (Session.moveGroups eff t rest ⟨w, m, log, n⟩).2.log ++ l0 }) := by
    have keyK : ∀ (a : Nat) (ks : List String) (l0 : List (Container V)) (n : Nat)
        (log : List (Container V)) (w m : Container V),
        Session.moveKeys eff t a ks ⟨w, m, log ++ l0, n⟩ =
        ((Session.moveKeys eff t a ks ⟨w, m, log, n⟩).1,
          { (Session.moveKeys eff t a ks ⟨w, m, log, n⟩).2 with
            log := (Session.moveKeys eff t a ks ⟨w, m, log, n⟩).2.log ++ l0 }) := by
      intro a ks l0
      induction ks with
      | nil => intros; rfl
      | cons k ks ih =>
        intro n log w m
        unfold Session.moveKeys
        simp only
        rcases Container.moveKey t a k w with ⟨r, c'⟩
        cases r with
        | error e => rfl
        | ok u =>
          simp only
          unfold Session.commit
          simp only
          split_ifs
          · exact ih (n + 1) (c' :: log) c' c'
          · exact ih (n + 1) log c' m
    intro l0 n rest
    induction rest generalizing n with
    | nil => intros; rfl
    | cons a rest ih =>
      intro log w m
      unfold Session.moveGroups
      simp only
      rw [keyK]
      rcases Session.moveKeys eff t a (w.heap a).keys ⟨w, m, log, n⟩ with ⟨r, ⟨w', m', log', n'⟩⟩
      cases r with
      | error e => rfl
      | ok u => exact ih n' log' w' m'
  have hloop := key s.log s.commits src [] c c
  have hspec := Session.moveGroups_spec (transfer := t) eff hi.nodup post src
    ⟨c, c, [], s.commits⟩ [] (by rw [← hsp]; exact Condensing.init hi hh)
    ⟨[], c.groups.tail, Condensing.init hi hh⟩ (by simp)
  have hwork := session_moveGroups eff t src ⟨c, c, [], s.commits⟩
  have hent : s.enter = ⟨c, c, [] ++ s.log, s.commits⟩ := by
    unfold Session.enter; rw [hs]; cases s; simp at hs ⊢
  have hr : r = Session.condense eff s t := rfl
  unfold Session.condense at hr
  rw [hsrc, hent, hloop] at hr
  rcases hres : Session.moveGroups eff t src ⟨c, c, [], s.commits⟩ with ⟨r0, ⟨w, m, l, n⟩⟩
  rw [hres] at hspec hr hwork
  simp only at hspec hr hwork
  obtain ⟨k1, k2, k3⟩ := hspec
  rcases k3 with ⟨k3, k4⟩ | ⟨e, k3, c1, d, a, rst, k, v, k4⟩
  · right
    subst k3
    simp only at hr
    refine ⟨w, by simpa using k4, Prod.ext hwork.1.symm hwork.2.symm, ?_⟩
    cases t with
    | false =>
      simp only [Bool.false_eq_true, if_false] at hr ⊢
      rw [hr]
      refine ⟨rfl, rfl, rfl, ?_⟩
      intro x hx
      simp only [Session.exitOk, Session.store, List.mem_cons, List.mem_append] at hx
      rcases hx with rfl | hx | hx
      · exact k4.same hi
      · exact hre x (k1 x hx)
      · exact hlog x hx
    | true =>
      simp only [if_true] at hr ⊢
      have hg : w.groups = c.primary :: (src ++ post) := by
        rw [k4.groups, hh.eq, hsp]
      simp only [Session.exitOk, Session.store, Session.enter] at hr
      unfold Container.dropSources at hr
      rw [hg] at hr
      simp only at hr
      have hlog' : ∀ x, (x ∈ w :: (l ++ s.log)) → SameData c x := by
        intro x hx
        simp only [List.mem_cons, List.mem_append] at hx
        rcases hx with rfl | hx | hx
        · exact k4.same hi
        · exact hre x (k1 x hx)
        · exact hlog x hx
      rw [hr]
      unfold Session.commit
      simp only
      split_ifs
      · refine ⟨by trivial, by trivial, by trivial, ?_⟩
        intro x hx
        rw [List.mem_cons] at hx
        rcases hx with rfl | hx
        · exact .inr rfl
        · have hx' : x ∈ w.withGroups [c.primary] :: (w :: (l ++ s.log)) := hx
          rcases List.mem_cons.1 hx' with rfl | hx'
          · exact .inr rfl
          · exact .inl (hlog' x hx')
      · refine ⟨by trivial, by trivial, by trivial, ?_⟩
        intro x hx
        rw [List.mem_cons] at hx
        rcases hx with rfl | hx
        · exact .inr rfl
        · exact .inl (hlog' x hx)
  · left
    subst k3
    simp only at hr
    rw [hr]
    refine ⟨e, rfl, k4.strict, ?_, hre _ k2, rfl⟩
    intro x hx
    simp only [Session.exitErr, List.mem_append] at hx
    rcases hx with hx | hx
    · exact hre x (k1 x hx)
    · exact hlog x hx

/-- Dropping every other group after a complete transfer loses nothing. -/
theorem sameData_drop {t : Bool} {c c1 : Container V} {src : List Nat} (hi : c.Inv)
    (h : Condensing t c c1 src []) : SameData c (c1.withGroups [c.primary]) := by
  refine .of_first hi.inv (fun a ha => ?_) fun id => ?_
  · have ha' : a = c.primary := by simpa [Container.withGroups] using ha
    exact h.inv a (by rw [h.split, ha', h.primary]; exact List.mem_cons_self)
  rw [← h.final id, h.primary]
  show [c.primary].findSome? _ = _
  rw [List.findSome?_cons]
  show (match c1.view c.primary id with | some b => some b | none => none) = _
  cases c1.view c.primary id <;> rfl

/-- **C27 (partial: primary group first), and C31 with a transaction manager.** Every state
that `condense` puts on disk, whichever of its commits take effect, gives every id the
value it had before; this includes the final state, also when `condense` raises because
a strict primary group is full, in which case the memory state equals the disk state.
Missing: a primary group that is not first (`container_condense_counterexample`). -/
theorem container_condense_crash_partial (c : Container V) (hr : ContReach c) (hh : c.HeadPrimary)
    (eff : Nat → Bool) (t : Bool) :
    let r := Session.condense eff (cleanSession c) t
    (∀ x ∈ r.2.log, SameData c x) ∧ SameData c r.2.committed ∧ r.2.work = r.2.committed ∧
    (∀ e, r.1 = .error e → ∃ x ∈ (c.heap c.primary).collections, x.strict = true) := by
  intro r
  rcases session_condense_spec eff t hr.inv hh (cleanSession c) rfl c.groups.tail [] rfl (by simp)
      (by simp [cleanSession]) with ⟨e, h1, h2, h3, h4, h5⟩ | ⟨c1, h1, h2, h3, h4⟩
  · refine ⟨h3, h4, h5, fun e' _ => ?_⟩
    unfold CGroup.NonStrict at h2
    push Not at h2
    obtain ⟨x, hx, hs⟩ := h2
    exact ⟨x, hx, by simpa using hs⟩
  · cases t with
    | true =>
      simp only [if_true] at h4
      obtain ⟨h5, h6, h7⟩ := h4
      have hd := sameData_drop hr.inv h1
      refine ⟨?_, ?_, h3, ?_⟩
      · intro x hx
        rcases h7 x hx with h | h
        · exact h
        · rw [h]; exact hd
      · show SameData c (Session.condense eff (cleanSession c) true).2.committed
        rw [h6]; exact hd
      · intro e he
        have he' : (Session.condense eff (cleanSession c) true).1 = .error e := he
        rw [h5] at he'; simp at he'
    | false =>
      simp only [Bool.false_eq_true, if_false] at h4
      obtain ⟨h5, h6, h7⟩ := h4
      refine ⟨h7, ?_, h3, ?_⟩
      · show SameData c (Session.condense eff (cleanSession c) false).2.committed
        rw [h6]; exact h1.same hr.inv
      · intro e he
        have he' : (Session.condense eff (cleanSession c) false).1 = .error e := he
        rw [h5] at he'; simp at he'

/-- C27: a successful `condense` ends, on disk, with the primary group only. -/
theorem container_condense_tx_result (c : Container V) (hr : ContReach c) (hh : c.HeadPrimary)
    (eff : Nat → Bool) (l : List Nat)
    (h : (Session.condense eff (cleanSession c) true).1 = .ok l) :
    l = c.groups.tail ∧ (Session.condense eff (cleanSession c) true).2.committed.groups = [c.primary] := by
  rcases session_condense_spec eff true hr.inv hh (cleanSession c) rfl c.groups.tail [] rfl (by simp)
      (by simp [cleanSession]) with ⟨e, h1, _⟩ | ⟨c1, h1, h2, h3, h4⟩
  · rw [h] at h1; simp at h1
  · simp only [if_true, List.append_nil] at h4
    rw [h] at h4
    refine ⟨by simpa using h4.1, ?_⟩
    rw [h4.2.1]; rfl

/-- Non-vacuity: two groups, the primary one first, with one id in each. -/
example : ContReach (twoGroups 0 false) ∧ (twoGroups 0 false).HeadPrimary ∧
    (Session.condense (fun _ => true) (cleanSession (twoGroups 0 false)) true).2.log.length = 4 := by
  refine ⟨twoGroups_reach 0 (by decide) false, by unfold Container.HeadPrimary; decide +kernel, by decide +kernel⟩

/-! ### resize -/

/-- The new group made by `resize` for a positive capacity and collection size. -/
theorem session_resize_eq (eff : Nat → Bool) (c : Container V) (hi : c.Inv) (n m : Nat) (cd t : Bool)
    (hn : 1 ≤ n) (hm : 1 ≤ m) :
    ∃ (g : CGroup V) (log : List (Container V)) (k : Nat), g.Inv ∧ g.NonStrict ∧
      (c.pushPrimary g).Inv ∧ (c.pushPrimary g).HeadPrimary ∧ SameData c (c.pushPrimary g) ∧
      ((c.pushPrimary g).heap c.next).NonStrict ∧ (∀ id, (c.pushPrimary g).view c.next id = none) ∧
      (∀ a ∈ c.groups, (c.pushPrimary g).heap a = c.heap a) ∧
      (∀ x ∈ log, x = c.pushPrimary g) ∧
      Session.resize eff (cleanSession c) n m cd t =
        (if cd then Session.condense eff ⟨c.pushPrimary g, c.pushPrimary g, log, k⟩ t
        else
          match Session.condense eff ⟨(c.pushPrimary g).withGroups ((c.pushPrimary g).groups.take 2),
            c.pushPrimary g, log, k⟩ t with
          | (.error e, s2) => (.error e, s2)
          | (.ok r, s2) => (.ok r, { s2 with
              work := s2.work.withGroups (s2.work.groups ++ (c.pushPrimary g).groups.drop 2) })) := by
  obtain ⟨g, _, hg, _, _, hgr, hgn, hgv, _, hgm, _⟩ := makeGroup_spec (V := V) n m c.strict hn hm
  obtain ⟨p1, p2, p3, p4⟩ := Container.pushPrimary_inv hi hgr.inv
  have pf := Container.pushPrimary_first hi hgr.inv hgv
  refine ⟨g, ((⟨c.pushPrimary g, c, [], 0⟩ : Session V).commit eff).exitOk.log,
    ((⟨c.pushPrimary g, c, [], 0⟩ : Session V).commit eff).exitOk.commits, hgr.inv, hgn, p1, p2, .of_first hi.inv p1.inv pf,
    by rw [p4]; exact hgn, ?_, fun a ha => p3 a (Nat.ne_of_lt (hi.fresh a ha)), ?_, ?_⟩
  · intro id; unfold Container.view; rw [p4, hgv]; rfl
  · intro x hx
    unfold Session.commit at hx
    simp only [Session.exitOk, Session.store] at hx
    split_ifs at hx <;> simpa using hx
  · unfold Session.resize
    have hw : (cleanSession c).work.strict = c.strict := rfl
    rw [hw, hg]
    simp only
    have hs1 : (({ (cleanSession c).enter with work := (cleanSession c).enter.work.pushPrimary g } : Session V).commit eff).exitOk =
        ⟨c.pushPrimary g, c.pushPrimary g, ((⟨c.pushPrimary g, c, [], 0⟩ : Session V).commit eff).exitOk.log,
          ((⟨c.pushPrimary g, c, [], 0⟩ : Session V).commit eff).exitOk.commits⟩ := by
      unfold Session.commit Session.enter cleanSession Session.exitOk Session.store
      simp only
      split_ifs <;> rfl
    rw [hs1]
    cases cd with
    | true => rfl
    | false =>
      simp only [Bool.false_eq_true, if_false]
      rcases Session.condense eff _ t with ⟨o, s2⟩
      cases o <;> rfl

/-- **C29 (partial).** Unless `resize` is called with `condense=False, transfer=True` on a
container that already has two or more groups, every state that it puts on disk,
whichever of its commits take effect, gives every id the value it had before; it raises
exactly when a size argument is 0, and then nothing is stored. Missing: the excluded case,
where it is false (`container_resize_crash_counterexample`). -/
theorem container_resize_crash_partial (c : Container V) (hr : ContReach c) (eff : Nat → Bool)
    (n m : Nat) (cd t : Bool) (hcase : cd = true ∨ t = false ∨ c.groups.length ≤ 1) :
    let r := Session.resize eff (cleanSession c) n m cd t
    (∀ x ∈ r.2.log, SameData c x) ∧ SameData c r.2.committed ∧
    ((∃ e, r.1 = .error e) ↔ n = 0 ∨ m = 0) ∧
    (∀ e, r.1 = .error e → r.2 = cleanSession c) := by
  intro r
  by_cases hz : n = 0 ∨ m = 0
  · obtain ⟨e, he⟩ : ∃ e, Container.makeGroup (V := V) n m c.strict = .error e := by
      by_cases hm : m = 0
      · exact ⟨_, (makeGroup_errors (V := V) n m c.strict).1 hm⟩
      · exact ⟨_, (makeGroup_errors (V := V) n m c.strict).2 (by omega) (by omega)⟩
    have hr' : r = (.error e, cleanSession c) := by
      show Session.resize eff (cleanSession c) n m cd t = _
      unfold Session.resize
      have hw : (cleanSession c).work.strict = c.strict := rfl
      rw [hw, he]
    rw [hr']
    refine ⟨by simp [cleanSession], .of_first hr.inv.inv hr.inv.inv fun _ => rfl, ⟨fun _ => hz, fun _ => ⟨e, rfl⟩⟩, fun _ _ => rfl⟩
  · obtain ⟨g, log, k, _, _, p1, p2, p3, p4, p5, p6, p7, hres⟩ :=
      session_resize_eq eff c hr.inv n m cd t (by omega) (by omega)
    have hlog : ∀ x ∈ log, SameData (c.pushPrimary g) x := by
      intro x hx; rw [p7 x hx]; exact .of_first p1.inv p1.inv fun _ => rfl
    have htr : ∀ x, SameData (c.pushPrimary g) x → SameData c x :=
      fun x hx => p3.trans hx
    have hfin : ∀ (s : Session V) (src post : List Nat), s.committed = c.pushPrimary g →
        s.log = log → s.work.groups.tail = src → c.groups = src ++ post → (t = true → post = []) →
        (∃ l, (Session.condense eff s t).1 = .ok l) ∧
        (∀ x ∈ (Session.condense eff s t).2.log, SameData c x) ∧
        SameData c (Session.condense eff s t).2.committed := by
      intro s src post hs hl hsrc hsp hpost
      rcases session_condense_spec eff t p1 p2 s hs src post hsrc hsp (by rw [hl]; exact hlog) with
        ⟨e, _, h2, _⟩ | ⟨c1, h1, h2, h3, h4⟩
      · exact absurd p4 h2
      · cases t with
        | true =>
          have := hpost rfl
          subst this
          simp only [if_true] at h4
          obtain ⟨h5, h6, h7⟩ := h4
          have hd := sameData_drop p1 h1
          refine ⟨⟨_, h5⟩, ?_, ?_⟩
          · intro x hx
            rcases h7 x hx with h | h
            · exact htr x h
            · rw [h]; exact htr _ hd
          · rw [h6]; exact htr _ hd
        | false =>
          simp only [Bool.false_eq_true, if_false] at h4
          obtain ⟨h5, h6, h7⟩ := h4
          exact ⟨⟨_, h5⟩, fun x hx => htr x (h7 x hx), by rw [h6]; exact htr _ (h1.same p1)⟩
    have hout : (∃ l, r.1 = .ok l) ∧ (∀ x ∈ r.2.log, SameData c x) ∧ SameData c r.2.committed := by
      cases cd with
      | true =>
        rw [if_pos rfl] at hres
        have := hfin ⟨c.pushPrimary g, c.pushPrimary g, log, k⟩ c.groups [] rfl rfl rfl (by simp)
          (fun _ => rfl)
        rw [← hres] at this; exact this
      | false =>
        simp only [Bool.false_eq_true, if_false] at hres
        have := hfin ⟨(c.pushPrimary g).withGroups ((c.pushPrimary g).groups.take 2),
            c.pushPrimary g, log, k⟩ (c.groups.take 1) (c.groups.drop 1) rfl rfl rfl
            (List.take_append_drop 1 c.groups).symm (by
              intro ht
              rcases hcase with h | h | h
              · simp at h
              · rw [ht] at h; simp at h
              · rw [List.drop_eq_nil_iff]; exact h)
        rcases hc : Session.condense eff ⟨(c.pushPrimary g).withGroups ((c.pushPrimary g).groups.take 2),
            c.pushPrimary g, log, k⟩ t with ⟨o, s2⟩
        rw [hc] at this hres
        obtain ⟨⟨l, h1⟩, h2, h3⟩ := this
        simp only at h1; subst h1
        simp only at hres
        have hr' : r = _ := hres
        rw [hr']
        exact ⟨⟨_, rfl⟩, h2, h3⟩
    obtain ⟨⟨l, h1⟩, h2, h3⟩ := hout
    refine ⟨h2, h3, ⟨?_, fun h => absurd h hz⟩, ?_⟩
    · rintro ⟨e, he⟩; rw [h1] at he; simp at he
    · intro e he; rw [h1] at he; simp at he

/-- **C29 is false** for `resize(..., condense=False, transfer=True, transaction_manager=tm)`
on a container with two or more groups: when it returns, the container on disk holds
only what was in the first group; every id stored only in another group is lost on disk,
and the other groups are returned as if they had been emptied. -/
theorem container_resize_crash_counterexample (c : Container V) (hr : ContReach c)
    (eff : Nat → Bool) (n m : Nat) (hn : 1 ≤ n) (hm : 1 ≤ m) (g0 : Nat) (rest : List Nat)
    (hg : c.groups = g0 :: rest) :
    let r := Session.resize eff (cleanSession c) n m false true
    r.1 = .ok c.groups ∧ (∀ id, r.2.committed.first id = c.view g0 id) := by
  intro r
  obtain ⟨g, log, k, _, _, p1, p2, p3, p4, p5, p6, p7, hres⟩ :=
    session_resize_eq eff c hr.inv n m false true (by omega) (by omega)
  simp only [Bool.false_eq_true, if_false] at hres
  have hlog : ∀ x ∈ log, SameData (c.pushPrimary g) x := by
    intro x hx; rw [p7 x hx]; exact .of_first p1.inv p1.inv fun _ => rfl
  have hgt : (c.pushPrimary g).groups.take 2 = [c.next, g0] := by
    show (c.next :: c.groups).take 2 = _
    rw [hg]; rfl
  rcases session_condense_spec eff true p1 p2
      ⟨(c.pushPrimary g).withGroups ((c.pushPrimary g).groups.take 2), c.pushPrimary g, log, k⟩ rfl
      [g0] rest (by rw [hgt]; rfl) (by show c.groups = _; rw [hg]; rfl) hlog with
    ⟨e, _, h2, _⟩ | ⟨c1, h1, h2, h3, h4⟩
  · exact absurd p4 h2
  · simp only [if_true] at h4
    obtain ⟨h5, h6, _⟩ := h4
    have hrr : r = Session.resize eff (cleanSession c) n m false true := rfl
    rw [hres] at hrr
    rcases hc : Session.condense eff ⟨(c.pushPrimary g).withGroups ((c.pushPrimary g).groups.take 2),
        c.pushPrimary g, log, k⟩ true with ⟨o, s2⟩
    rw [hc] at h5 h6 h3 hrr
    simp only at h5 h6 h3
    subst h5
    simp only at hrr
    rw [hrr]
    refine ⟨by rw [hg]; rfl, ?_⟩
    intro id
    show s2.committed.first id = _
    rw [h6]
    -- the same loop, seen in the container with only the first two groups
    have hne : g0 ≠ c.next := Nat.ne_of_lt (hr.inv.fresh g0 (by rw [hg]; simp))
    have hi2 : ((c.pushPrimary g).withGroups [c.next, g0]).Inv :=
      Container.Inv.shrink p1 (by
        show ([c.next, g0] : List Nat).Sublist (c.next :: c.groups)
        rw [hg]; exact (List.nil_sublist _).cons_cons _ |>.cons_cons _)
    have hh2 : ((c.pushPrimary g).withGroups [c.next, g0]).HeadPrimary := rfl
    have hmv := moveGroups_withGroups true [g0] [c.next, g0] (c.pushPrimary g)
    rw [h2] at hmv
    rcases Container.moveGroups_spec (transfer := true) hi2.nodup [] [g0]
        ((c.pushPrimary g).withGroups [c.next, g0]) [] (Condensing.init hi2 hh2) with
      ⟨c', q1, q2⟩ | ⟨e, c', q1, _⟩
    · rw [q1] at hmv
      have hc' : c' = c1.withGroups [c.next, g0] := by
        have := congrArg Prod.snd hmv; exact this
      have hf := q2.final id
      rw [hc'] at hf
      have e1 : (c1.withGroups [(c.pushPrimary g).primary]).first id = c1.view c.next id := by
        show [c.next].findSome? _ = _
        rw [List.findSome?_cons]
        show (match c1.view c.next id with | some b => some b | none => none) = _
        cases c1.view c.next id <;> rfl
      have e2 : (c1.withGroups [c.next, g0]).view (c1.withGroups [c.next, g0]).primary id =
          c1.view c.next id := by
        show c1.view c1.primary id = _
        rw [h1.primary]; rfl
      rw [e1, ← e2, hf]
      show [c.next, g0].findSome? _ = _
      rw [List.findSome?_cons]
      have e3 : ((c.pushPrimary g).withGroups [c.next, g0]).view c.next id = none := p5 id
      rw [e3, List.findSome?_cons]
      have e4 : ((c.pushPrimary g).withGroups [c.next, g0]).view g0 id = c.view g0 id := by
        show ((c.pushPrimary g).heap g0).view id = _
        rw [p6 g0 (by rw [hg]; simp), Container.view]
      simp only [e4]
      cases c.view g0 id <;> rfl
    · rw [q1] at hmv; simp at hmv

/-- The counterexample is not empty: in `twoGroups 0` an id is stored only in the second
group, so a `resize` with these arguments loses it on disk. -/
theorem container_resize_loss :
    ∃ c : Container Nat, ContReach c ∧ c.HeadPrimary ∧ ∃ id, c.first id ≠ none ∧
      ∀ (eff : Nat → Bool) (n m : Nat), 1 ≤ n → 1 ≤ m →
        (Session.resize eff (cleanSession c) n m false true).2.committed.first id = none := by
  refine ⟨twoGroups 0 false, twoGroups_reach 0 (by decide) false, by unfold Container.HeadPrimary; decide +kernel, "b",
    by decide +kernel, ?_⟩
  intro eff n m hn hm
  rw [(container_resize_crash_counterexample (twoGroups 0 false) (twoGroups_reach 0 (by decide) false)
    eff n m hn hm 0 [1] (by decide +kernel)).2]
  decide +kernel

/-- C29, finding: with `condense=False, transfer=False` and a transaction manager the
working container ends with every group after the first listed twice. -/
theorem container_resize_duplicates (c : Container V) (hr : ContReach c)
    (eff : Nat → Bool) (n m : Nat) (hn : 1 ≤ n) (hm : 1 ≤ m) :
    (Session.resize eff (cleanSession c) n m false false).2.work.groups =
      c.next :: c.groups ++ c.groups.tail := by
  obtain ⟨g, log, k, _, _, p1, p2, p3, p4, p5, p6, p7, hres⟩ :=
    session_resize_eq eff c hr.inv n m false false (by omega) (by omega)
  simp only [Bool.false_eq_true, if_false] at hres
  have hlog : ∀ x ∈ log, SameData (c.pushPrimary g) x := by
    intro x hx; rw [p7 x hx]; exact .of_first p1.inv p1.inv fun _ => rfl
  rcases session_condense_spec eff false p1 p2
      ⟨(c.pushPrimary g).withGroups ((c.pushPrimary g).groups.take 2), c.pushPrimary g, log, k⟩ rfl
      (c.groups.take 1) (c.groups.drop 1) rfl (List.take_append_drop 1 c.groups).symm hlog with
    ⟨e, _, h2, _⟩ | ⟨c1, h1, h2, h3, h4⟩
  · exact absurd p4 h2
  · simp only [Bool.false_eq_true, if_false] at h4
    obtain ⟨h5, h6, _⟩ := h4
    rcases hc : Session.condense eff ⟨(c.pushPrimary g).withGroups ((c.pushPrimary g).groups.take 2),
        c.pushPrimary g, log, k⟩ false with ⟨o, s2⟩
    rw [hc] at h5 h6 h3 hres
    simp only at h5 h6 h3
    subst h5
    simp only at hres
    rw [hres]
    show s2.work.groups ++ (c.pushPrimary g).groups.drop 2 = _
    rw [h3, h6, h1.groups]
    show (c.next :: c.groups) ++ (c.next :: c.groups).drop 2 = _
    cases c.groups <;> rfl

end Verif.Props
