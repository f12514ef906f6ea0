import Verif.Jsonld.Change
import Verif.Props.Data
import Verif.Props.Package

/-!
# Changing the class of an object (C66, C82)
-/
namespace Verif.Props
open Verif Verif.Jsonld Verif.Jsonld.Change

variable {C : Type} [DecidableEq C] {L : Lang C}

/-! ### Specification -/

/-- What an object had for a name: the value, or None if it had no such attribute. -/
def HadValue (L : Lang C) (h : Heap C) (n : String) (v : Val) : Prop :=
  Change.getattr L h n = .ok v ∨ (Change.getattr L h n = .error .attributeError ∧ v = .none)

/-- On objects of class `c` the name `n` can be assigned; reading it gives what was assigned, in the form `norm`; and assigning any of the
other names does not change it. -/
structure Keeps (L : Lang C) (switched : Bool) (c : C) (names : List String) (n : String) (norm : Val → Val) : Prop where
  settable : ∀ (h : Heap C) (v : Val), h.cls = c → (Change.setattr L switched h n v).1 ≠ .error .attributeError
  reads : ∀ (h : Heap C) (v : Val) (u : Unit), h.cls = c → (Change.setattr L switched h n v).1 = .ok u →
    Change.getattr L (Change.setattr L switched h n v).2 n = .ok (norm v)
  apart : ∀ (h : Heap C) (m : String) (v : Val), h.cls = c → m ∈ names → m ≠ n →
    Change.getattr L (Change.setattr L switched h m v).2 n = Change.getattr L h n

/-! ### Proofs -/

omit [DecidableEq C] in
theorem getOrNone_had {h : Heap C} {n : String} {v : Val} (hv : getOrNone L h n = .ok v) : HadValue L h n v := by
  unfold getOrNone at hv
  split at hv
  · rename_i he; injection hv with hv; exact .inr ⟨he, hv.symm⟩
  · exact .inl hv

omit [DecidableEq C] in
theorem gathered_ok {h : Heap C} {ns : List String} {r : List (String × Val)} (hr : collect L h ns = .ok r) :
    r.map Prod.fst = ns ∧ ∀ p ∈ r, getOrNone L h p.1 = .ok p.2 := by
  induction ns generalizing r with
  | nil => injection hr with hr; subst hr; exact ⟨rfl, fun p hp => by cases hp⟩
  | cons n ns ih =>
    unfold collect at hr
    rcases hg : getOrNone L h n with e | v
    · rw [hg] at hr; cases hr
    · rw [hg] at hr
      simp only at hr
      rcases hc : collect L h ns with e | r'
      · rw [hc] at hr; cases hr
      · rw [hc] at hr
        injection hr with hr; subst hr
        obtain ⟨h1, h2⟩ := ih hc
        refine ⟨by rw [List.map_cons, h1], fun p hp => ?_⟩
        rcases List.mem_cons.1 hp with rfl | hp
        · exact hg
        · exact h2 p hp

omit [DecidableEq C] in
/-- The values that are transferred. -/
theorem transferred {h : Heap C} {ns ms : List String} {r q : List (String × Val)} (hr : collect L h ns = .ok r) (hq : collect L h ms = .ok q) :
    List.WF ((dictOf r).dmerge (dictOf q)) ∧ (∀ n, n ∈ ((dictOf r).dmerge (dictOf q)).dkeys ↔ n ∈ ns ∨ n ∈ ms) ∧
      ∀ p ∈ (dictOf r).dmerge (dictOf q), getOrNone L h p.1 = .ok p.2 := by
  obtain ⟨h1, h2⟩ := gathered_ok hr
  obtain ⟨h3, h4⟩ := gathered_ok hq
  have hwf := PyDict.wf_dmerge (wf_dictOf r) (dictOf q)
  have hget := fun x => PyDict.dget_dmerge (dictOf r) (dictOf q) (wf_dictOf q) x
  have keys : ∀ (l : List (String × Val)) n, n ∈ (dictOf l).dkeys ↔ n ∈ l.map Prod.fst := by
    intro l n
    rw [← PyDict.dget_ne_none, dget_dictOf, PyDict.dget_ne_none]
    unfold List.dkeys
    rw [List.map_reverse, List.mem_reverse]
  refine ⟨hwf, fun n => ?_, fun p hp => ?_⟩
  · rw [← h1, ← h3, ← keys, ← keys, ← PyDict.dget_ne_none, hget, ← PyDict.dget_ne_none (d := dictOf r), ← PyDict.dget_ne_none (d := dictOf q)]
    cases (dictOf q).dget n <;> simp
  · obtain ⟨n, v⟩ := p
    have hd := PyDict.dget_of_mem hwf hp
    rw [hget] at hd
    cases hq' : (dictOf q).dget n with
    | some w =>
      rw [hq'] at hd
      simp at hd
      subst hd
      exact h4 _ (mem_dictOf (PyDict.dget_mem hq'))
    | none =>
      rw [hq'] at hd
      simp at hd
      exact h2 _ (mem_dictOf (PyDict.dget_mem hd))

theorem setattr_cls (L : Lang C) (sw : Bool) (h : Heap C) (n : String) (v : Val) : (Change.setattr L sw h n v).2.cls = h.cls := by
  unfold Change.setattr
  split_ifs
  · rfl
  · rfl
  · split
    · split <;> rfl
    · rfl

/-- What every assignment keeps, the loop keeps. -/
theorem setLoop_keeps (L : Lang C) (sw : Bool) {P : Heap C → Prop} (r : List (String × Val))
    (hP : ∀ h n v, (n, v) ∈ r → P h → P (Change.setattr L sw h n v).2) (h : Heap C) (h0 : P h) : P (setLoop L sw h r).2 := by
  induction r generalizing h with
  | nil => exact h0
  | cons p r ih =>
    obtain ⟨n, v⟩ := p
    have hstep := hP h n v (List.mem_cons_self ..) h0
    have hr := fun h h0 => ih (fun h n v hm => hP h n v (List.mem_cons_of_mem _ hm)) h h0
    unfold setLoop
    rcases hs : Change.setattr L sw h n v with ⟨e | u, h'⟩
    · rw [hs] at hstep
      cases e <;> first | exact hr h' hstep | exact hstep
    · rw [hs] at hstep
      exact hr h' hstep

/-- Assigning `v` to `n` on an object of class `c` makes `P` true, and assigning the other names keeps it true. -/
structure KeepsObs (L : Lang C) (switched : Bool) (c : C) (names : List String) (n : String) (v : Val) (P : Heap C → Prop) : Prop where
  settable : ∀ h : Heap C, h.cls = c → (Change.setattr L switched h n v).1 ≠ .error .attributeError
  reads : ∀ (h : Heap C) (u : Unit), h.cls = c → (Change.setattr L switched h n v).1 = .ok u → P (Change.setattr L switched h n v).2
  apart : ∀ (h : Heap C) (m : String) (w : Val), h.cls = c → m ∈ names → m ≠ n → P h → P (Change.setattr L switched h m w).2

theorem change_keeps_obs (L : Lang C) (sw : Bool) (h h' : Heap C) (new : C) (hc : changeClass L sw h new = (.ok (), h')) :
    h'.cls = new ∧ ∀ n, (n ∈ L.listed new ∨ n ∈ h.props) →
      ∃ v, HadValue L h n v ∧ ∀ P, KeepsObs L sw new (L.listed new ++ h.props) n v P → P h' := by
  unfold changeClass at hc
  rcases h1 : collect L h (L.listed new) with e | r
  · rw [h1] at hc; injection hc with hc; cases hc
  rw [h1] at hc; simp only at hc
  rcases h2 : collect L h h.props with e | q
  · rw [h2] at hc; injection hc with hc; cases hc
  rw [h2] at hc; simp only at hc
  obtain ⟨hwf, hkeys, hvals⟩ := transferred h1 h2
  have hnames : ∀ p ∈ (dictOf r).dmerge (dictOf q), p.1 ∈ L.listed new ++ h.props := by
    intro p hp
    rw [List.mem_append, ← hkeys]
    exact List.mem_map.2 ⟨p, hp, rfl⟩
  generalize (dictOf r).dmerge (dictOf q) = data at hc hwf hkeys hvals hnames
  have hh0 : ({ h with cls := new, props := L.properties new } : Heap C).cls = new := rfl
  generalize ({ h with cls := new, props := L.properties new } : Heap C) = h0 at hc hh0
  have hcls : h'.cls = new := by
    have := setLoop_keeps L sw (P := fun h => h.cls = new) data (fun h n v _ hh => by rw [setattr_cls]; exact hh) h0 hh0
    rw [hc] at this; exact this
  refine ⟨hcls, fun n hn => ?_⟩
  have hn' := (hkeys n).2 hn
  obtain ⟨⟨n', v⟩, hp, rfl⟩ := List.mem_map.1 hn'
  refine ⟨v, getOrNone_had (hvals _ hp), fun P hk => ?_⟩
  clear hkeys hvals hn hn' h1 h2
  simp only at hk ⊢
  induction data generalizing h0 with
  | nil => cases hp
  | cons p data ih =>
    obtain ⟨m, w⟩ := p
    have hnd : m ∉ data.map Prod.fst ∧ (data.map Prod.fst).Nodup := List.nodup_cons.1 hwf
    unfold setLoop at hc
    rcases List.mem_cons.1 hp with he | hp
    · injection he with he1 he2; subst he1; subst he2
      have hset := hk.settable h0 hh0
      have hread := hk.reads h0 () hh0
      rcases hs : Change.setattr L sw h0 n' v with ⟨e | u, h1⟩
      · rw [hs] at hc hset
        simp only at hset
        exfalso
        cases e <;> first | exact hset rfl | (injection hc with hc _; cases hc)
      · rw [hs] at hc hread
        simp only at hc hread
        have := setLoop_keeps L sw (P := fun h => h.cls = new ∧ P h) data
          (fun h m w hm hh => ⟨by rw [setattr_cls]; exact hh.1,
            hk.apart h m w hh.1 (hnames _ (List.mem_cons_of_mem _ hm)) (fun e => hnd.1 (e ▸ List.mem_map.2 ⟨_, hm, rfl⟩)) hh.2⟩) h1
          ⟨by have := setattr_cls L sw h0 n' v; rw [hs] at this; exact this.trans hh0, hread trivial⟩
        rw [hc] at this; exact this.2
    · have hcl := setattr_cls L sw h0 m w
      rcases hs : Change.setattr L sw h0 m w with ⟨e | u, h1⟩
      · rw [hs] at hc hcl
        have go := fun hc => ih hnd.2 (fun p hp => hnames p (List.mem_cons_of_mem _ hp)) h1 hc (hcl.trans hh0) hp
        cases e <;> first | exact go hc | (injection hc with hc _; cases hc)
      · rw [hs] at hc hcl
        exact ih hnd.2 (fun p hp => hnames p (List.mem_cons_of_mem _ hp)) h1 hc (hcl.trans hh0) hp

/-- C66 (partial): if `change_class` returns, the object has the new class, and every property it or the new class had can be read on it,
with the value it had before (None if it had none), provided the new class keeps that property (`Keeps`). -/
theorem change_keeps_partial (L : Lang C) (sw : Bool) (h h' : Heap C) (new : C) (hc : changeClass L sw h new = (.ok (), h')) :
    h'.cls = new ∧ ∀ n norm, (n ∈ L.listed new ∨ n ∈ h.props) → Keeps L sw new (L.listed new ++ h.props) n norm →
      ∃ v, HadValue L h n v ∧ Change.getattr L h' n = .ok (norm v) := by
  obtain ⟨h1, h2⟩ := change_keeps_obs L sw h h' new hc
  refine ⟨h1, fun n norm hn hk => ?_⟩
  obtain ⟨v, hv, h3⟩ := h2 n hn
  exact ⟨v, hv, h3 (fun h => Change.getattr L h n = .ok (norm v)) ⟨fun h => hk.settable h v, fun h => hk.reads h v,
    fun h m w hc hm hne hp => (hk.apart h m w hc hm hne).trans hp⟩⟩

/-- If it raises, either a value could not be read (and the object is as before), or a value could not be assigned. -/
theorem change_raises (L : Lang C) (sw : Bool) (h h' : Heap C) (new : C) (e : PyErr) (hc : changeClass L sw h new = (.error e, h')) :
    (h' = h ∧ e ≠ .attributeError ∧ ∃ n, (n ∈ L.listed new ∨ n ∈ h.props) ∧ Change.getattr L h n = .error e) ∨
    (h'.cls = new ∧ e ≠ .attributeError ∧ ∃ n v x, (n ∈ L.listed new ∨ n ∈ h.props) ∧ HadValue L h n v ∧ x.cls = new ∧
      (Change.setattr L sw x n v).1 = .error e) := by
  have hcol : ∀ ns, collect L h ns = .error e → e ≠ .attributeError ∧ ∃ n ∈ ns, Change.getattr L h n = .error e := by
    intro ns hh
    induction ns with
    | nil => cases hh
    | cons n ns ih =>
      unfold collect at hh
      rcases hg : getOrNone L h n with e' | v
      · rw [hg] at hh; injection hh with hh; subst hh
        unfold getOrNone at hg
        split at hg
        · cases hg
        · rename_i hne; exact ⟨fun he => hne (he ▸ hg), n, List.mem_cons_self .., hg⟩
      · rw [hg] at hh
        simp only at hh
        rcases hr : collect L h ns with e' | r
        · rw [hr] at hh; injection hh with hh; subst hh
          obtain ⟨hne, m, hm, hv⟩ := ih hr
          exact ⟨hne, m, List.mem_cons_of_mem _ hm, hv⟩
        · rw [hr] at hh; cases hh
  unfold changeClass at hc
  rcases h1 : collect L h (L.listed new) with e1 | r
  · rw [h1] at hc; injection hc with hc hh; injection hc with hc; subst hc
    obtain ⟨hne, n, hn, hv⟩ := hcol _ h1
    exact .inl ⟨hh.symm, hne, n, .inl hn, hv⟩
  rw [h1] at hc; simp only at hc
  rcases h2 : collect L h h.props with e1 | q
  · rw [h2] at hc; injection hc with hc hh; injection hc with hc; subst hc
    obtain ⟨hne, n, hn, hv⟩ := hcol _ h2
    exact .inl ⟨hh.symm, hne, n, .inr hn, hv⟩
  rw [h2] at hc; simp only at hc
  obtain ⟨-, hkeys, hvals⟩ := transferred h1 h2
  right
  have hk : ∀ p ∈ (dictOf r).dmerge (dictOf q), (p.1 ∈ L.listed new ∨ p.1 ∈ h.props) ∧ HadValue L h p.1 p.2 := fun p hp =>
    ⟨(hkeys _).1 (List.mem_map.2 ⟨p, hp, rfl⟩), getOrNone_had (hvals p hp)⟩
  clear hkeys hvals h1 h2
  generalize (dictOf r).dmerge (dictOf q) = data at hc hk
  have hh0 : ({ h with cls := new, props := L.properties new } : Heap C).cls = new := rfl
  generalize ({ h with cls := new, props := L.properties new } : Heap C) = h0 at hc hh0
  induction data generalizing h0 with
  | nil => injection hc with hc _; cases hc
  | cons p data ih =>
    obtain ⟨n, v⟩ := p
    have hcl := setattr_cls L sw h0 n v
    have hr := fun p hp => hk p (List.mem_cons_of_mem _ hp)
    obtain ⟨k1, k2⟩ := hk _ (List.mem_cons_self ..)
    unfold setLoop at hc
    rcases hs : Change.setattr L sw h0 n v with ⟨e1 | u, h3⟩
    · rw [hs] at hc hcl
      have stop : e1 ≠ .attributeError → (.error e1, h3) = ((.error e : Outcome Unit), h') →
          (h'.cls = new ∧ e ≠ .attributeError ∧ ∃ n v x, (n ∈ L.listed new ∨ n ∈ h.props) ∧ HadValue L h n v ∧ x.cls = new ∧
            (Change.setattr L sw x n v).1 = .error e) := by
        intro hne he
        injection he with he1 he2
        injection he1 with he1
        subst he1; subst he2
        exact ⟨hcl.trans hh0, hne, n, v, h0, k1, k2, hh0, by rw [hs]⟩
      cases e1 <;> first | exact ih hr h3 hc (hcl.trans hh0) | exact stop (by simp) hc
    · rw [hs] at hc hcl
      exact ih hr h3 hc (hcl.trans hh0)

/-- The same without `setattr` and `getattr`: what raises is the getter of a property of the old class or the setter of a property of the new one. Other
names – `__namespace__`, constants, properties without a setter, unknown names – never make `change_class` raise, in whatever context. -/
theorem change_raises_property (L : Lang C) (sw : Bool) (h h' : Heap C) (new : C) (e : PyErr) (hc : changeClass L sw h new = (.error e, h')) :
    e ≠ .attributeError ∧ ∃ n, (n ∈ L.listed new ∨ n ∈ h.props) ∧ n ≠ "__namespace__" ∧
      ((h' = h ∧ ∃ p, L.member h.cls n = some (.prop p) ∧ p.get h.attrs = .error e) ∨
       (h'.cls = new ∧ ∃ p f attrs v, L.member new n = some (.prop p) ∧ p.set = some f ∧ HadValue L h n v ∧ (f attrs v).1 = .error e)) := by
  rcases change_raises L sw h h' new e hc with ⟨h1, h2, n, h3, h4⟩ | ⟨h1, h2, n, v, x, h3, h4, h5, h6⟩
  · unfold Change.getattr at h4
    split_ifs at h4 with hn
    refine ⟨h2, n, h3, hn, .inl ⟨h1, ?_⟩⟩
    split at h4
    · rename_i p hp; exact ⟨p, hp, h4⟩
    · cases h4
    · split at h4
      · cases h4
      · injection h4 with h4; exact absurd h4.symm h2
  · unfold Change.setattr at h6
    split_ifs at h6 with hn hs
    · injection h6 with h6; exact absurd h6.symm h2
    · refine ⟨h2, n, h3, hn, .inr ⟨h1, ?_⟩⟩
      split at h6
      · rename_i p hp
        split at h6
        · injection h6 with h6; exact absurd h6.symm h2
        · rename_i f hf; exact ⟨p, f, x.attrs, v, h5 ▸ hp, hf, h4, h6⟩
      · cases h6

/-! ### Namespaces (C82) -/

/-- Whatever `change_class` does, the only class whose own namespace definition it replaces is the new class, by the namespace of the old
one. -/
theorem change_ns (L : Lang C) (sw : Bool) (h : Heap C) (new : C) :
    (changeClass L sw h new).2.ns = h.ns ∨ (changeClass L sw h new).2.ns = putNs h.ns new (nsOf L.mro h.ns h.cls) := by
  unfold changeClass
  rcases h1 : collect L h (L.listed new) with e | r
  · exact .inl rfl
  simp only
  rcases h2 : collect L h h.props with e | q
  · exact .inl rfl
  simp only
  obtain ⟨-, -, hvals⟩ := transferred h1 h2
  have hh0 : ({ h with cls := new, props := L.properties new } : Heap C).cls = new ∧
      (({ h with cls := new, props := L.properties new } : Heap C).ns = h.ns ∨
       ({ h with cls := new, props := L.properties new } : Heap C).ns = putNs h.ns new (nsOf L.mro h.ns h.cls)) := ⟨rfl, .inl rfl⟩
  refine (setLoop_keeps L sw (P := fun x => x.cls = new ∧ (x.ns = h.ns ∨ x.ns = putNs h.ns new (nsOf L.mro h.ns h.cls))) _ ?_ _ hh0).2
  intro x n v hm hx
  refine ⟨by rw [setattr_cls]; exact hx.1, ?_⟩
  unfold Change.setattr
  split_ifs with hn hsw
  · right
    have hv := hvals _ hm
    simp only [hn] at hv
    unfold getOrNone Change.getattr at hv
    simp only [if_true] at hv
    injection hv with hv
    simp only [hx.1, ← hv]
    rcases hx.2 with h3 | h3 <;> rw [h3]
    funext d
    unfold putNs
    by_cases hd : d = new <;> simp [hd]
  · exact hx.2
  · split
    · split
      · exact hx.2
      · exact hx.2
    · exact hx.2

/-- If it returns, in CLASS_CHANGE_CONTEXT, it does replace it. -/
theorem change_sets_ns (L : Lang C) (h h' : Heap C) (new : C) (hn : "__namespace__" ∈ L.listed new ∨ "__namespace__" ∈ h.props)
    (hc : changeClass L true h new = (.ok (), h')) : h'.ns = putNs h.ns new (nsOf L.mro h.ns h.cls) := by
  unfold changeClass at hc
  rcases h1 : collect L h (L.listed new) with e | r
  · rw [h1] at hc; injection hc with hc; cases hc
  rw [h1] at hc; simp only at hc
  rcases h2 : collect L h h.props with e | q
  · rw [h2] at hc; injection hc with hc; cases hc
  rw [h2] at hc; simp only at hc
  obtain ⟨hwf, hkeys, hvals⟩ := transferred h1 h2
  have hm := (hkeys _).2 hn
  have hvals' : ∀ v, ("__namespace__", v) ∈ (dictOf r).dmerge (dictOf q) → v = nsOf L.mro h.ns h.cls := by
    intro v hv
    have := hvals _ hv
    unfold getOrNone Change.getattr at this
    simp only [if_true] at this
    injection this with this; exact this.symm
  clear hvals hkeys hwf h1 h2 hn
  generalize (dictOf r).dmerge (dictOf q) = data at hc hm hvals'
  have hh0 : ({ h with cls := new, props := L.properties new } : Heap C).cls = new ∧
      (({ h with cls := new, props := L.properties new } : Heap C).ns = h.ns ∨
       ({ h with cls := new, props := L.properties new } : Heap C).ns = putNs h.ns new (nsOf L.mro h.ns h.cls)) := ⟨rfl, .inl rfl⟩
  generalize ({ h with cls := new, props := L.properties new } : Heap C) = h0 at hc hh0
  -- one assignment
  have step : ∀ (x : Heap C) (n : String) (v : Val), (n = "__namespace__" → v = nsOf L.mro h.ns h.cls) → x.cls = new →
      (x.ns = h.ns ∨ x.ns = putNs h.ns new (nsOf L.mro h.ns h.cls)) →
      (Change.setattr L true x n v).2.cls = new ∧
      (n = "__namespace__" → (Change.setattr L true x n v).2.ns = putNs h.ns new (nsOf L.mro h.ns h.cls)) ∧
      (n ≠ "__namespace__" → (Change.setattr L true x n v).2.ns = x.ns) := by
    intro x n v hv hx hns
    refine ⟨by rw [setattr_cls]; exact hx, fun hn => ?_, fun hn => ?_⟩
    · unfold Change.setattr
      rw [if_pos hn, if_pos rfl]
      simp only [hx, hv hn]
      rcases hns with h3 | h3 <;> rw [h3]
      funext d
      unfold putNs
      by_cases hd : d = new <;> simp [hd]
    · unfold Change.setattr
      rw [if_neg hn]
      split
      · split <;> rfl
      · rfl
  -- once it is replaced it stays
  have stays : ∀ (data : List (String × Val)) (x : Heap C), (∀ v, ("__namespace__", v) ∈ data → v = nsOf L.mro h.ns h.cls) →
      x.cls = new ∧ x.ns = putNs h.ns new (nsOf L.mro h.ns h.cls) →
      (setLoop L true x data).2.ns = putNs h.ns new (nsOf L.mro h.ns h.cls) := by
    intro data x hd hx
    refine (setLoop_keeps L true (P := fun x => x.cls = new ∧ x.ns = putNs h.ns new (nsOf L.mro h.ns h.cls)) data ?_ x hx).2
    intro y n v hm hy
    obtain ⟨s1, s2, s3⟩ := step y n v (fun hn => hd v (hn ▸ hm)) hy.1 (.inr hy.2)
    refine ⟨s1, ?_⟩
    by_cases hn : n = "__namespace__"
    · exact s2 hn
    · rw [s3 hn]; exact hy.2
  induction data generalizing h0 with
  | nil => cases hm
  | cons p data ih =>
    obtain ⟨n, v⟩ := p
    obtain ⟨s1, s2, s3⟩ := step h0 n v (fun hn => hvals' v (by rw [hn]; exact List.mem_cons_self ..)) hh0.1 hh0.2
    have hrest : ∀ w, ("__namespace__", w) ∈ data → w = nsOf L.mro h.ns h.cls := fun w hw => hvals' w (List.mem_cons_of_mem _ hw)
    unfold setLoop at hc
    by_cases hn : n = "__namespace__"
    · have hst := stays data (Change.setattr L true h0 n v).2 hrest ⟨s1, s2 hn⟩
      rcases hs : Change.setattr L true h0 n v with ⟨e | u, h1⟩
      · exfalso
        unfold Change.setattr at hs
        rw [if_pos hn, if_pos rfl] at hs
        injection hs with hs _; cases hs
      · rw [hs] at hc hst
        simp only at hc hst
        rw [hc] at hst; exact hst
    · have hm' : "__namespace__" ∈ data.dkeys := by
        rcases List.mem_cons.1 hm with he | hm
        · exact absurd he.symm hn
        · exact hm
      have hnext : (Change.setattr L true h0 n v).2.cls = new ∧ ((Change.setattr L true h0 n v).2.ns = h.ns ∨
          (Change.setattr L true h0 n v).2.ns = putNs h.ns new (nsOf L.mro h.ns h.cls)) := ⟨s1, by rw [s3 hn]; exact hh0.2⟩
      rcases hs : Change.setattr L true h0 n v with ⟨e | u, h1⟩
      · rw [hs] at hc hnext
        cases e <;> first | exact ih hm' hrest h1 hc hnext | (injection hc with hc _; cases hc)
      · rw [hs] at hc hnext
        exact ih hm' hrest h1 hc hnext

/-- The first class in an mro that has its own definition, once `a` has one. -/
theorem nsOf_putNs (mro : C → List C) (ns : C → Option (NsDef C)) (a c : C) (v : Val) :
    nsOf mro (putNs ns a v) c =
      if (mro c).find? (fun d => decide (d = a) || (ns d).isSome) = some a then v else nsOf mro ns c := by
  unfold nsOf
  have key : ∀ l : List C, l.findSome? (putNs ns a v) =
      if l.find? (fun d => decide (d = a) || (ns d).isSome) = some a then some (.const v) else l.findSome? ns := by
    intro l
    induction l with
    | nil => rfl
    | cons d l ih =>
      rw [List.findSome?_cons, List.find?_cons, List.findSome?_cons]
      by_cases hd : d = a
      · subst hd
        simp [putNs]
      · have hp : putNs ns a v d = ns d := by simp [putNs, hd]
        rw [hp]
        cases hnd : ns d with
        | none => simp [hd, ih]
        | some x => simp [hd]
  rw [key]
  split_ifs <;> rfl

/-- What a namespace is: the answer of the first class in the mro that has a `__get_namespace__` of its own, and `None` if there is none. -/
theorem nsOf_spec (mro : C → List C) (ns : C → Option (NsDef C)) (c : C) :
    ((∀ d ∈ mro c, ns d = none) → nsOf mro ns c = .none) ∧
    ∀ before d after, mro c = before ++ d :: after → (∀ x ∈ before, ns x = none) →
      (∀ v, ns d = some (.const v) → nsOf mro ns c = v) ∧ (∀ f, ns d = some (.method f) → nsOf mro ns c = f c) := by
  have skip : ∀ (before rest : List C), (∀ x ∈ before, ns x = none) → (before ++ rest).findSome? ns = rest.findSome? ns := by
    intro before
    induction before with
    | nil => intro rest _; rfl
    | cons a l ih =>
      intro rest h
      rw [List.cons_append, List.findSome?_cons, h a List.mem_cons_self]
      exact ih rest fun x hx => h x (List.mem_cons_of_mem _ hx)
  unfold nsOf
  constructor
  · intro h
    have := skip (mro c) [] h
    rw [List.append_nil] at this
    rw [this]; rfl
  · intro before d after hm h
    rw [hm, skip before _ h, List.findSome?_cons]
    exact ⟨fun v hv => by rw [hv], fun f hf => by rw [hf]⟩

/-- C82 (partial): the namespaces of classes that do not inherit from the new class are unchanged. -/
theorem unrelated_ns_kept (mro : C → List C) (ns : C → Option (NsDef C)) (a c : C) (v : Val) (h : a ∉ mro c) :
    nsOf mro (putNs ns a v) c = nsOf mro ns c := by
  rw [nsOf_putNs, if_neg]
  intro hf
  exact h (List.mem_of_find?_eq_some hf)

/-! ### Examples -/

/-- A class without properties (`false`) and one with a read-only property "x", a property "n" for numbers, and a plain one, "y". -/
def exLang : Lang Bool where
  mro b := [b]
  member c n := if c then
      if n = "x" then some (.prop ⟨fun _ => .ok (.int 0), none⟩)
      else if n = "n" then some (.prop ⟨fun d => .ok ((d.dget "_n").getD .none), some fun d v => match v with
        | .int i => (.ok (), d.dset "_n" (.int i))
        | _ => (.error .typeError, d)⟩)
      else none
    else none
  listed c := if c then ["y", "n"] else ["x", "y"]
  properties c := if c then ["y", "n", "x"] else ["x", "y"]

/-- C66 is false of the code: a value of a property that is read-only in the new class is lost (the AttributeError is only logged). -/
theorem change_loses : ∃ h', changeClass exLang true ⟨false, [("x", .int 7), ("n", .int 1)], ["x", "y"], fun _ => none⟩ true = (.ok (), h') ∧
    Change.getattr exLang ⟨false, [("x", .int 7), ("n", .int 1)], ["x", "y"], fun _ => none⟩ "x" = .ok (.int 7) ∧
    Change.getattr exLang h' "x" = .ok (.int 0) := ⟨_, rfl, rfl, rfl⟩

/-- C66 is false of the code: if the new class refuses a value, the error is raised but the object already has the new class. -/
theorem change_half_done : ∃ h', changeClass exLang true ⟨false, [("y", .int 7), ("n", .str "one")], ["y"], fun _ => none⟩ true =
    (.error .typeError, h') ∧ h'.cls = true ∧
    Change.getattr exLang ⟨false, [("y", .int 7), ("n", .str "one")], ["y"], fun _ => none⟩ "n" = .ok (.str "one") ∧
    Change.getattr exLang h' "n" = .ok .none := ⟨_, rfl, rfl, rfl, rfl⟩

/-- The hypotheses of `change_keeps_partial` are met: a plain name is kept. -/
example : Keeps exLang true true (exLang.listed true ++ ["y"]) "y" id ∧
    ∃ h', changeClass exLang true ⟨false, [("y", .int 7), ("n", .int 1)], ["y"], fun _ => none⟩ true = (.ok (), h') := by
  refine ⟨⟨?_, ?_, ?_⟩, _, rfl⟩
  · rintro ⟨c, d, p, ns⟩ v hc; simp only at hc; subst hc; simp [Change.setattr, exLang]
  · rintro ⟨c, d, p, ns⟩ v u hc _; simp only at hc; subst hc
    simp [Change.setattr, Change.getattr, exLang, PyDict.dget_dset]
  · rintro ⟨c, d, p, ns⟩ m v hc hm hne
    simp only at hc; subst hc
    simp only [exLang, if_true, List.cons_append, List.nil_append, List.mem_cons, List.not_mem_nil, or_false] at hm
    rcases hm with rfl | rfl | rfl
    · exact absurd rfl hne
    · cases v <;> simp [Change.setattr, Change.getattr, exLang, PyDict.dget_dset]
    · exact absurd rfl hne

end Verif.Props
