import Verif.Props.Readme

/-!
# C144: walks through a network that changes
-/
namespace Verif.Props.Changing
open Verif Verif.Jsonld Verif.AS Verif.Props Verif.Props.Walk

variable {J : Type}

/-! ### Specification -/

/-- Where a walk leads if the network changes: each step leads where it would lead in the network as it is at that moment (`found n a`: the object at
address `a` when `n` requests have been made). -/
inductive LeadsIn (found : Nat → Val → Option Val) : Nat → Val → List Step → Val → List Val → Prop
  | here (n : Nat) (v : Val) : LeadsIn found n v [] v []
  | step (n : Nat) (v : Val) (st : Step) (x : Val) (rs : List Val) (p : List Step) (u : Val) (rs' : List Val) (h : Leads (found n) v [st] x rs)
      (t : LeadsIn found (n + rs.length) x p u rs') : LeadsIn found n v (st :: p) u (rs ++ rs')

/-- The network `fetch` answers the requests `rs` as the changing network does when they are made one after the other, beginning with the `n`-th. -/
def Snapshot (net : Nat → Val → Outcome J) (n : Nat) (rs : List Val) (fetch : Val → Outcome J) : Prop :=
  ∀ i a, rs[i]? = some a → fetch a = net (n + i) a

/-! ### Proofs -/

/-- A step makes one request at most. -/
theorem step_requests (w : Web J) (v : Val) (st : Step) : (st.run w v).2.length ≤ 1 := by
  have hx : ∀ x, (w.expand x).2.length ≤ 1 := by
    intro x
    have : (w.expand x).2 = (w.get x).2 := by unfold Web.expand; cases (w.get x).1 <;> rfl
    rw [this]
    unfold Web.get
    split
    · cases w.fetch (hrefOf x) <;> exact Nat.le_refl 1
    · exact Nat.zero_le 1
  cases st with
  | item i => exact Nat.zero_le 1
  | attr n =>
    cases v with
    | obj c fs =>
      show (readAttr w c fs n).2.length ≤ 1
      unfold readAttr
      cases fs.dget n with
      | none => exact Nat.zero_le 1
      | some x =>
        simp only
        cases attrOf true c n with
        | prop r => simp only; split <;> first | exact hx x | exact Nat.zero_le 1
        | const v => exact Nat.zero_le 1
        | plain => exact Nat.zero_le 1
    | _ => exact Nat.zero_le 1

/-- A step sees only the answer to its own request. -/
theorem step_same (w : Web J) (f g : Val → Outcome J) (v : Val) (st : Step)
    (h : ∀ a, a ∈ (st.run { w with fetch := f } v).2 → g a = f a) : st.run { w with fetch := g } v = st.run { w with fetch := f } v := by
  have hx : ∀ x, (∀ a, a ∈ (Web.expand { w with fetch := f } x).2 → g a = f a) → Web.expand { w with fetch := g } x = Web.expand { w with fetch := f } x := by
    intro x hx
    have h2 : (Web.expand { w with fetch := f } x).2 = (Web.get { w with fetch := f } x).2 := by
      unfold Web.expand; cases (Web.get { w with fetch := f } x).1 <;> rfl
    rw [h2] at hx
    have hg : Web.get { w with fetch := g } x = Web.get { w with fetch := f } x := by
      have ha : Web.asks { w with fetch := g } x = Web.asks { w with fetch := f } x := rfl
      unfold Web.get at hx ⊢
      rw [ha]
      by_cases hk : Web.asks { w with fetch := f } x = true
      · rw [if_pos hk] at hx
        rw [if_pos hk, if_pos hk]
        have : g (hrefOf x) = f (hrefOf x) := by
          refine hx _ ?_
          show hrefOf x ∈ (match f (hrefOf x) with | .error _ => _ | .ok j => _ : Option Val × List Val).2
          cases f (hrefOf x) <;> exact List.mem_singleton.2 rfl
        show (match g (hrefOf x) with | .error _ => _ | .ok j => _) = (match f (hrefOf x) with | .error _ => _ | .ok j => _)
        rw [this]
        rfl
      · rw [if_neg hk, if_neg hk]
    unfold Web.expand
    rw [hg]
  cases st with
  | item i => rfl
  | attr n =>
    cases v with
    | obj c fs =>
      show readAttr { w with fetch := g } c fs n = readAttr { w with fetch := f } c fs n
      have h : ∀ a, a ∈ (readAttr { w with fetch := f } c fs n).2 → g a = f a := h
      unfold readAttr at h ⊢
      cases hd : fs.dget n with
      | none => rfl
      | some x =>
        rw [hd] at h
        simp only at h ⊢
        cases ha : attrOf true c n with
        | prop r =>
          rw [ha] at h
          simp only at h ⊢
          by_cases he : r.expand = true
          · rw [if_pos he] at h
            rw [if_pos he, if_pos he, hx x h]
          · rw [if_neg he, if_neg he]
        | const v => rfl
        | plain => rfl
    | _ => rfl

/-- **C144 (a).** A walk through a changing network is a walk through any fixed network that gives the answers it got. -/
theorem walk_snapshot (w : Web J) (net : Nat → Val → Outcome J) (p : List Step) : ∀ (n : Nat) (v : Val) (fetch : Val → Outcome J),
    Snapshot net n (walkIn w net n v p).2 fetch → walk { w with fetch := fetch } v p = walkIn w net n v p := by
  induction p with
  | nil => intro n v fetch _; rfl
  | cons st p ih =>
    intro n v fetch hs
    have hone := step_requests (w.after net n) v st
    have hsame : (∀ a, a ∈ (st.run (w.after net n) v).2 → fetch a = net n a) → st.run { w with fetch := fetch } v = st.run (w.after net n) v :=
      fun h => step_same w (net n) fetch v st h
    rw [walkIn] at hs ⊢
    rw [walk]
    cases hr : st.run (w.after net n) v with
    | mk o rs =>
      rw [hr] at hs hsame hone
      have hfirst : ∀ (l : List Val), (∀ i a, (rs ++ l)[i]? = some a → fetch a = net (n + i) a) → ∀ a, a ∈ rs → fetch a = net n a := by
        intro l h a ha
        have h1 : rs = [a] := by
          cases rs with
          | nil => cases ha
          | cons b rs =>
            cases rs with
            | nil => rw [List.mem_singleton.1 ha]
            | cons c rs => simp at hone
        have := h 0 a (by rw [h1]; rfl)
        exact this
      cases o with
      | error e =>
        rw [hsame (hfirst [] (by rw [List.append_nil]; exact hs))]
      | ok u =>
        simp only at hs
        rw [hsame (hfirst _ hs)]
        simp only
        have := ih (n + rs.length) u fetch fun i a hi => by
          have := hs (rs.length + i) a (by rw [List.getElem?_append_right (by omega)]; simpa using hi)
          rw [this, Nat.add_assoc]
        rw [this]

/-- C144 (b): if the network does not change, it is the walk of C137. -/
theorem walk_steady (w : Web J) (net : Nat → Val → Outcome J) (h : ∀ n a, net n a = w.fetch a) (n : Nat) (v : Val) (p : List Step) :
    walkIn w net n v p = walk w v p := by
  have := walk_snapshot w net p n v w.fetch fun i a _ => (h (n + i) a).symm
  exact this.symm

/-- C144 (c): such a fixed network exists if no address is asked for twice. -/
theorem snapshot_exists (net : Nat → Val → Outcome J) (n : Nat) (rs : List Val) (h : rs.Nodup) (other : Val → Outcome J) :
    ∃ fetch, Snapshot net n rs fetch ∧ ∀ a, a ∉ rs → fetch a = other a := by
  classical
  refine ⟨fun a => if a ∈ rs then net (n + rs.idxOf a) a else other a, fun i a hi => ?_, fun a ha => if_neg ha⟩
  obtain ⟨hlt, rfl⟩ := List.getElem?_eq_some_iff.1 hi
  show (if rs[i] ∈ rs then _ else _) = _
  rw [if_pos (List.getElem_mem hlt), List.Nodup.idxOf_getElem h]

/-- **C144 (d).** Walks one after the other: each begins where the one before has left the network, and nothing is remembered. -/
theorem walks_each (w : Web J) (net : Nat → Val → Outcome J) (v : Val) (ps : List (List Step)) : ∀ (n k : Nat) (p : List Step), ps[k]? = some p →
    (walksIn w net n v ps)[k]? = some (walkIn w net (n + (((walksIn w net n v ps).take k).map fun r => r.2.length).sum) v p) := by
  induction ps with
  | nil => intro n k p h; simp at h
  | cons q ps ih =>
    intro n k p h
    cases k with
    | zero =>
      simp only [List.getElem?_cons_zero, Option.some.injEq] at h
      subst h
      simp [walksIn]
    | succ k =>
      rw [List.getElem?_cons_succ] at h
      rw [walksIn, List.getElem?_cons_succ, ih _ k p h, List.take_succ_cons, List.map_cons, List.sum_cons, Nat.add_assoc]

section
variable {repr : String → String} (hr : GoodRepr repr) (load : Tree → Outcome Val) (net : Nat → Val → Outcome Tree)
  (hload : ∀ d v, load d = .ok v → AS.truthy v = true)

theorem walkIn_one (w : Web J) (net : Nat → Val → Outcome J) (n : Nat) (v : Val) (st : Step) (p : List Step) :
    walkIn w net n v (st :: p) = (match walk (w.after net n) v [st] with
      | (.error e, rs) => (.error e, rs)
      | (.ok u, rs) => ((walkIn w net (n + rs.length) u p).1, rs ++ (walkIn w net (n + rs.length) u p).2)) := by
  rw [walkIn, walk]
  cases st.run (w.after net n) v with
  | mk o rs => cases o <;> simp [walk]

include hr hload in
/-- **C144 (e).** A walk that succeeds leads where it should in a changing network, asking for the addresses it should. -/
theorem walk_leads_in (fetch : Val → Outcome Tree) (p : List Step) : ∀ (n : Nat) (v u : Val) (rs : List Val),
    walkIn (asWeb repr load fetch) net n v p = (.ok u, rs) ↔ LeadsIn (fun n => foundBy load (net n)) n v p u rs := by
  induction p with
  | nil =>
    intro n v u rs
    constructor
    · intro h
      obtain ⟨h1, h2⟩ := Prod.mk.inj h
      cases Except.ok.inj h1
      cases h2
      exact .here n v
    · intro h; cases h; rfl
  | cons st p ih =>
    intro n v u rs
    have hone : ∀ x rs0, walk ((asWeb repr load fetch).after net n) v [st] = (.ok x, rs0) ↔ Leads (foundBy load (net n)) v [st] x rs0 :=
      fun x rs0 => walk_leads hr load (net n) hload [st] v x rs0
    rw [walkIn_one]
    constructor
    · intro h
      cases hw : walk ((asWeb repr load fetch).after net n) v [st] with
      | mk o rs0 =>
        rw [hw] at h
        cases o with
        | error e => cases (Prod.mk.inj h).1
        | ok x =>
          obtain ⟨h1, h2⟩ := Prod.mk.inj h
          rw [← h2]
          exact .step n v st x rs0 p u _ ((hone x rs0).1 hw) ((ih _ _ _ _).1 (Prod.ext h1 rfl))
    · intro h
      cases h with
      | step _ _ _ x rs0 _ _ rs' h t =>
        rw [(hone x rs0).2 h]
        simp only
        rw [(ih _ _ _ _).2 t]

include hr hload in
/-- **C144 (f).** A walk fails at the first step that cannot be made, with the exception for that step. -/
theorem walk_fails_in (fetch : Val → Outcome Tree) (p : List Step) : ∀ (n : Nat) (v : Val) (e : PyErr) (rs : List Val),
    walkIn (asWeb repr load fetch) net n v p = (.error e, rs) ↔
      ∃ q st p' u, p = q ++ st :: p' ∧ LeadsIn (fun n => foundBy load (net n)) n v q u rs ∧ Fails u st e := by
  induction p with
  | nil =>
    intro n v e rs
    constructor
    · intro h; cases (Prod.mk.inj h).1
    · rintro ⟨q, st, p', u, hp, -⟩; cases q <;> simp at hp
  | cons st p ih =>
    intro n v e rs
    have hone : ∀ e rs0, walk ((asWeb repr load fetch).after net n) v [st] = (.error e, rs0) ↔ Fails v st e ∧ rs0 = [] := by
      intro e rs0
      rw [show (asWeb repr load fetch).after net n = asWeb repr load (net n) from rfl, walk_fails hr load (net n) hload [st] v e rs0]
      constructor
      · rintro ⟨q, st', p', u, hp, hl, hf⟩
        cases q with
        | nil =>
          simp only [List.nil_append, List.cons.injEq] at hp
          cases hl
          rw [hp.1]; exact ⟨hf, rfl⟩
        | cons a q => simp at hp
      · rintro ⟨hf, rfl⟩
        exact ⟨[], st, [], v, rfl, .here v, hf⟩
    have hok : ∀ x rs0, walk ((asWeb repr load fetch).after net n) v [st] = (.ok x, rs0) ↔ Leads (foundBy load (net n)) v [st] x rs0 :=
      fun x rs0 => walk_leads hr load (net n) hload [st] v x rs0
    rw [walkIn_one]
    constructor
    · intro h
      cases hw : walk ((asWeb repr load fetch).after net n) v [st] with
      | mk o rs0 =>
        rw [hw] at h
        cases o with
        | error e' =>
          obtain ⟨h1, h2⟩ := Prod.mk.inj h
          cases Except.error.inj h1
          obtain ⟨hf, h3⟩ := (hone e rs0).1 hw
          have : rs = [] := h2.symm.trans h3
          subst this
          exact ⟨[], st, p, v, rfl, .here n v, hf⟩
        | ok x =>
          obtain ⟨h1, h2⟩ := Prod.mk.inj h
          obtain ⟨q, st', p', u, rfl, hl, hf⟩ := (ih _ _ _ _).1 (Prod.ext h1 rfl)
          rw [← h2]
          exact ⟨st :: q, st', p', u, rfl, .step n v st x rs0 q u _ ((hok x rs0).1 hw) hl, hf⟩
    · rintro ⟨q, st', p', u, hp, hl, hf⟩
      cases q with
      | nil =>
        simp only [List.nil_append, List.cons.injEq] at hp
        obtain ⟨rfl, rfl⟩ := hp
        cases hl
        rw [(hone e []).2 ⟨hf, rfl⟩]
      | cons a q =>
        simp only [List.cons_append, List.cons.injEq] at hp
        obtain ⟨rfl, rfl⟩ := hp
        cases hl with
        | step _ _ _ x rs0 _ _ rs' h t =>
          rw [(hok x rs0).2 h]
          simp only
          rw [(ih _ _ _ _).2 ⟨q, st', p', u, rfl, t, hf⟩]

include hr hload in
/-- **C144 (g).** Reading a property twice asks the network twice, and gives what the network has each time: the object if there is one, else the
Link.  So the two values differ if the network has changed. -/
theorem read_twice (fetch : Val → Outcome Tree) (n : Nat) (c : String) (fs : List (String × Val)) (q : String) (l a : Val)
    (h : fs.dget q = some l) (ho : Opens c q) (hl : LinkTo l a) :
    walksIn (asWeb repr load fetch) net n (.obj c fs) [[.attr q], [.attr q]] =
      [(.ok ((foundBy load (net n) a).getD l), [a]), (.ok ((foundBy load (net (n + 1)) a).getD l), [a])] := by
  have hone : ∀ n, walkIn (asWeb repr load fetch) net n (.obj c fs) [.attr q] = (.ok ((foundBy load (net n) a).getD l), [a]) := by
    intro n
    rw [walk_leads_in hr load net hload]
    have : LeadsIn (fun n => foundBy load (net n)) n (.obj c fs) [.attr q] ((foundBy load (net n) a).getD l) ([a] ++ []) := by
      refine .step n _ _ _ [a] [] _ [] ?_ (.here _ _)
      cases hf : foundBy load (net n) a with
      | none => exact .closed c fs q l a [] l [] h ho hl hf (.here _)
      | some x => exact .opened c fs q l a x [] x [] h ho hl hf (.here _)
    exact this
  simp only [walksIn, hone, List.length_singleton]

end

/-! ### Non-vacuity -/

/-- The network of the README example, whose page is gone after the first request. -/
def fading (n : Nat) : Val → Outcome Tree := if n = 0 then Readme.exSetting.fetch else fun _ => .error .fileNotFound

/-- What is read first is the page; read again, it is the Link. -/
example : (match Readme.exSetting.engine.fromJson Readme.exOutbox with
    | .ok v => (match walksIn Readme.exSetting.graph fading 0 v [[.attr "first"], [.attr "first"]] with
      | [(.ok (.obj c _), [.str a]), (.ok (.obj d _), [.str b])] => some (c, a, d, b)
      | _ => none)
    | .error _ => none) = some ("OrderedCollectionPage", "https://x.org/outbox?page=1", "Link", "https://x.org/outbox?page=1") := by decide +kernel

/-- The hypotheses of the theorems are met. -/
example : GoodRepr Readme.exSetting.repr ∧ Opens "OrderedCollection" "first" ∧
    LinkTo (.obj "Link" [("href", .str "https://x.org/outbox?page=1")]) (.str "https://x.org/outbox?page=1") :=
  ⟨Readme.ex_repr, ⟨by decide +kernel, by decide +kernel⟩, _, rfl, rfl, rfl⟩

end Verif.Props.Changing
