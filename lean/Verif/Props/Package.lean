import Verif.Jsonld.Package
import Verif.Props.Data
import Mathlib.Data.List.Dedup

/-!
# Packages and engines (C61, C62, C63, C64)
-/
namespace Verif.Props
open Verif Verif.Jsonld

/-! ### C61: class registration -/

/-- The class of the first call that registers `ns` in engine `e`. -/
def firstReg (ops : List (Nat × Option String × Nat)) (e : Nat) (ns : Option String) : Option Nat :=
  (ops.find? fun o => o.1 = e ∧ o.2.1 = ns).map (·.2.2)

/-- The class registered for `ns` in engine `e`. -/
def System.classAt (s : System) (e : Nat) (ns : Option String) : Option Nat :=
  ((s.regs.dget e).getD []).dget ns

theorem register_classAt (s : System) (e : Nat) (ns : Option String) (cls : Nat) (e' : Nat) (ns' : Option String) :
    System.classAt (s.register e ns cls).2 e' ns' =
      (System.classAt s e' ns').or (if e = e' ∧ ns = ns' then some cls else none) := by
  unfold System.register registerClass
  by_cases h : ns ∈ ((s.regs.dget e).getD []).dkeys
  · rw [if_pos h]
    simp only []
    by_cases hh : e = e' ∧ ns = ns'
    · obtain ⟨rfl, rfl⟩ := hh
      obtain ⟨v, hv⟩ := Option.ne_none_iff_exists'.1 (PyDict.dget_ne_none.2 h)
      unfold System.classAt; rw [hv]; rfl
    · rw [if_neg hh]; cases System.classAt s e' ns' <;> rfl
  · rw [if_neg h]
    simp only [System.classAt, PyDict.dget_dset]
    by_cases he : e = e'
    · subst he
      simp only [if_true, Option.getD_some, PyDict.dget_dset, true_and]
      by_cases hn : ns = ns'
      · subst hn
        rw [if_pos rfl, if_pos rfl, PyDict.dget_eq_none.2 h]; rfl
      · rw [if_neg fun h => hn h.symm, if_neg hn]
        cases ((s.regs.dget e).getD []).dget ns' <;> rfl
    · rw [if_neg fun h => he h.symm, if_neg fun h => he h.1]
      cases ((s.regs.dget e').getD []).dget ns' <;> rfl

/-- C61: after any sequence of registrations in any number of engines, the class of a namespace in an engine is
the one registered first. -/
theorem first_registration_wins (ops : List (Nat × Option String × Nat)) (e : Nat) (ns : Option String) :
    System.classAt (System.run ⟨[], []⟩ ops) e ns = firstReg ops e ns := by
  have key : ∀ s : System, System.classAt (s.run ops) e ns = (System.classAt s e ns).or (firstReg ops e ns) := by
    induction ops with
    | nil => intro s; simp [System.run, firstReg]
    | cons o ops ih =>
      intro s
      obtain ⟨e1, ns1, c1⟩ := o
      rw [System.run, ih, register_classAt]
      unfold firstReg
      rw [List.find?_cons]
      by_cases h : e1 = e ∧ ns1 = ns
      · simp only [h, and_self, decide_true, if_true, Option.map_some]
        cases System.classAt s e ns <;> simp
      · rw [if_neg h]; simp [h]
  rw [key]; simp [System.classAt, List.dget]

/-- C61: registering a namespace that is taken raises ValueError and changes nothing, registering a new one works. -/
theorem register_unique (s : System) (e : Nat) (ns : Option String) (cls : Nat) :
    (System.classAt s e ns ≠ none → s.register e ns cls = (.error .valueError, s)) ∧
    (System.classAt s e ns = none → (s.register e ns cls).1 = .ok () ∧
      System.classAt (s.register e ns cls).2 e ns = some cls) := by
  constructor
  · intro h
    have h' : ns ∈ ((s.regs.dget e).getD []).dkeys := PyDict.dget_ne_none.1 h
    unfold System.register registerClass; rw [if_pos h']
  · intro h
    have h' : ns ∉ ((s.regs.dget e).getD []).dkeys := PyDict.dget_eq_none.1 h
    refine ⟨?_, ?_⟩
    · unfold System.register registerClass; rw [if_neg h']
    · rw [register_classAt, h]; simp

/-- The registries of a system have no namespace twice. -/
def RegsWF (s : System) : Prop := ∀ e reg, s.regs.dget e = some reg → reg.WF

/-- C61: no namespace is ever registered twice in an engine. -/
theorem registry_wf (ops : List (Nat × Option String × Nat)) : RegsWF (System.run ⟨[], []⟩ ops) := by
  suffices ∀ s : System, RegsWF s → RegsWF (s.run ops) from this _ (by intro e reg h; cases h)
  induction ops with
  | nil => intro s h; exact h
  | cons o ops ih =>
    intro s h
    obtain ⟨e1, ns1, c1⟩ := o
    rw [System.run]
    apply ih
    unfold System.register registerClass
    split_ifs with hm
    · exact h
    · intro e reg hr
      simp only [PyDict.dget_dset] at hr
      split_ifs at hr with he
      · injection hr with hr; subst hr
        apply PyDict.wf_dset
        cases hd : s.regs.dget e1 with
        | none => exact PyDict.wf_nil
        | some r => exact h _ _ hd
      · exact h _ _ hr

example : System.classAt (System.run ⟨[], []⟩ [(0, some "a", 5), (1, some "a", 6), (0, some "a", 7)]) 0 (some "a") = some 5 := by
  decide +kernel

/-- Registered classes refer back to their engine (the claim of the comment at jsonld_engine.py:69). -/
def BackRefs (s : System) : Prop := ∀ e ns cls, System.classAt s e ns = some cls → s.back.dget cls = some e

/-- C61: false for a class that is registered in two engines: it refers to the one that came last. -/
theorem backref_counterexample : ¬ BackRefs (System.run ⟨[], []⟩ [(0, some "a", 5), (1, some "a", 5)]) := by
  intro h
  have := h 0 (some "a") 5 (by decide +kernel)
  revert this; decide +kernel

/-- C61: true if no class is registered in two engines. -/
theorem backref_partial (ops : List (Nat × Option String × Nat))
    (h : ∀ o ∈ ops, ∀ o' ∈ ops, o.2.2 = o'.2.2 → o.1 = o'.1) : BackRefs (System.run ⟨[], []⟩ ops) := by
  let P : System → List (Nat × Option String × Nat) → Prop := fun s ops =>
    ∀ cls e, s.back.dget cls = some e → ∀ o ∈ ops, o.2.2 = cls → o.1 = e
  suffices ∀ s : System, BackRefs s → P s ops → BackRefs (s.run ops) from
    this _ (by intro e ns cls h; cases h) (by intro cls e h; cases h)
  induction ops with
  | nil => intro s hs _; exact hs
  | cons o ops ih =>
    intro s hs hP
    obtain ⟨e1, ns1, c1⟩ := o
    rw [System.run]
    have hcl := fun e ns => register_classAt s e1 ns1 c1 e ns
    have hback : (s.register e1 ns1 c1).2.back = s.back ∨ (s.register e1 ns1 c1).2.back = s.back.dset c1 e1 := by
      unfold System.register registerClass; split_ifs <;> simp
    have hback' : System.classAt s e1 ns1 = none → (s.register e1 ns1 c1).2.back = s.back.dset c1 e1 := by
      intro hn
      have h' : ns1 ∉ ((s.regs.dget e1).getD []).dkeys := PyDict.dget_eq_none.1 hn
      unfold System.register registerClass; rw [if_neg h']
    have hold : ∀ cls e, s.back.dget cls = some e → (s.register e1 ns1 c1).2.back.dget cls = some e := by
      intro cls e hc
      rcases hback with hb | hb
      · rw [hb]; exact hc
      · rw [hb, PyDict.dget_dset]
        split_ifs with hcc
        · subst hcc
          exact congrArg some (hP cls e hc _ List.mem_cons_self rfl)
        · exact hc
    apply ih
    · intro a ha b hb; exact h a (List.mem_cons_of_mem _ ha) b (List.mem_cons_of_mem _ hb)
    · intro e ns cls hc
      rw [hcl] at hc
      cases hcs : System.classAt s e ns with
      | some c =>
        rw [hcs] at hc; injection hc with hc; subst hc
        exact hold _ _ (hs _ _ _ hcs)
      | none =>
        rw [hcs] at hc
        simp only [Option.none_or] at hc
        split_ifs at hc with hh
        injection hc with hc
        obtain ⟨rfl, rfl⟩ := hh
        rw [hback' hcs, PyDict.dget_dset, hc]; simp
    · intro cls e hc o ho hoc
      rcases hback with hb | hb
      · rw [hb] at hc; exact hP cls e hc o (List.mem_cons_of_mem _ ho) hoc
      · rw [hb, PyDict.dget_dset] at hc
        split_ifs at hc with hcc
        · injection hc with hc
          rw [← hc]
          exact (h (e1, ns1, c1) List.mem_cons_self o (List.mem_cons_of_mem _ ho) (by rw [hoc, hcc])).symm
        · exact hP cls e hc o (List.mem_cons_of_mem _ ho) hoc

example : BackRefs (System.run ⟨[], []⟩ [(0, some "a", 5), (1, some "a", 6), (0, some "b", 5)]) :=
  backref_partial _ (by decide)

/-- The position of the first object with a namespace. -/
def IsFirst (cs : List Cls) (ns : Option String) (i : Nat) : Prop :=
  (∃ c, cs[i]? = some c ∧ c.ns = ns) ∧ ∀ j c, j < i → cs[j]? = some c → c.ns ≠ ns

theorem loadClasses_dget (cs : List (Option String × Nat)) (reg : PyDict (Option String) Nat) (ns : Option String) :
    (loadClasses reg cs).dget ns = (reg.dget ns).or ((cs.find? fun c => c.1 = ns).map (·.2)) := by
  induction cs generalizing reg with
  | nil => simp [loadClasses]
  | cons c cs ih =>
    obtain ⟨n, k⟩ := c
    rw [loadClasses, ih, List.find?_cons]
    by_cases hm : n ∈ reg.dkeys
    · rw [if_pos hm]
      by_cases hn : n = ns
      · subst hn
        obtain ⟨v, hv⟩ := Option.ne_none_iff_exists'.1 (PyDict.dget_ne_none.2 hm)
        rw [hv]; rfl
      · simp [hn]
    · rw [if_neg hm]
      unfold registerClass
      rw [if_neg hm]
      simp only [PyDict.dget_dset]
      by_cases hn : n = ns
      · subst hn
        rw [PyDict.dget_eq_none.2 hm]; simp
      · have hn' : ¬ ns = n := fun h => hn h.symm
        simp [hn, hn']

/-- C61: an engine built from a package knows, for each namespace, the first class of the package that has it. -/
theorem engine_registry (p : Package) (e : EngineObj) (h : EngineObj.new (.pkg p) = .ok e) (ns : Option String) (i : Nat) :
    e.registry.dget ns = some i ↔ IsFirst p.objects ns i := by
  injection h with h; subst h
  simp only [loadClasses_dget, List.dget, Option.none_or]
  generalize p.objects = cs
  have key : ∀ (cs : List Cls) (k : Nat), (((cs.zipIdx k).map fun c => (c.1.ns, c.2)).find? fun c => c.1 = ns).map (·.2) = some i ↔
      k ≤ i ∧ IsFirst cs ns (i - k) := by
    intro cs
    induction cs with
    | nil => intro k; simp [IsFirst]
    | cons c cs ih =>
      intro k
      rw [List.zipIdx_cons, List.map_cons, List.find?_cons]
      by_cases hc : c.ns = ns
      · simp only [hc, decide_true, Option.map_some, Option.some.injEq]
        constructor
        · rintro rfl
          refine ⟨Nat.le_refl _, ?_⟩
          rw [Nat.sub_self]
          exact ⟨⟨c, rfl, hc⟩, fun j c hj => absurd hj (Nat.not_lt_zero j)⟩
        · rintro ⟨hk, hf⟩
          by_contra hne
          have : 0 < i - k := by omega
          exact hf.2 0 c this rfl hc
      · simp only [hc, decide_false]
        rw [ih (k + 1)]
        constructor
        · rintro ⟨hk, ⟨d, hd, hdn⟩, hf⟩
          have e1 : i - k = (i - (k + 1)) + 1 := by omega
          refine ⟨by omega, ⟨d, by rw [e1]; simpa using hd, hdn⟩, ?_⟩
          intro j d' hj hd'
          cases j with
          | zero => simp at hd'; subst hd'; exact hc
          | succ j => exact hf j d' (by omega) (by simpa using hd')
        · rintro ⟨hk, ⟨d, hd, hdn⟩, hf⟩
          have hlt : k < i := by
            rcases Nat.lt_or_ge k i with h | h
            · exact h
            · have : i - k = 0 := by omega
              rw [this] at hd; simp at hd; subst hd; exact absurd hdn hc
          have e1 : i - k = (i - (k + 1)) + 1 := by omega
          refine ⟨by omega, ⟨d, by rw [e1] at hd; simpa using hd, hdn⟩, ?_⟩
          intro j d' hj hd'
          exact hf (j + 1) d' (by omega) (by simpa using hd')
  simpa using key cs 0

/-! ### C62: combining packages and engines -/

/-- C62 is false: adding packages never works; if the classes can be cloned it raises AttributeError. -/
theorem add_always_fails (clone : Package.Cloner) (p q : Package) :
    (∃ e, Package.add clone p q = .error e) ∧
    ((∀ cs, ∃ ds, clone cs = .ok ds) → Package.add clone p q = .error .attributeError) := by
  unfold Package.add Package.new
  constructor
  · cases h1 : clone (Package.notIn p.objects q.objects ++ q.objects) with
    | error e => exact ⟨e, by simp⟩
    | ok os =>
      simp only []
      cases h2 : clone (Package.notIn p.properties q.properties ++ q.properties) with
      | error e => exact ⟨e, by simp⟩
      | ok ps => exact ⟨_, rfl⟩
  · intro hc
    obtain ⟨os, h1⟩ := hc (Package.notIn p.objects q.objects ++ q.objects)
    obtain ⟨ps, h2⟩ := hc (Package.notIn p.properties q.properties ++ q.properties)
    rw [h1]; simp only [h2]; rfl

/-- C62 is false: subtracting packages never works. -/
theorem sub_always_fails (clone : Package.Cloner) (p q : Package) :
    (∃ e, Package.sub clone p q = .error e) ∧
    ((∀ cs, ∃ ds, clone cs = .ok ds) → Package.sub clone p q = .error .attributeError) := by
  unfold Package.sub Package.new
  constructor
  · cases h1 : clone (Package.notIn p.objects q.objects) with
    | error e => exact ⟨e, by simp⟩
    | ok os =>
      simp only []
      cases h2 : clone (Package.notIn q.properties q.properties) with
      | error e => exact ⟨e, by simp⟩
      | ok ps => exact ⟨_, rfl⟩
  · intro hc
    obtain ⟨os, h1⟩ := hc (Package.notIn p.objects q.objects)
    obtain ⟨ps, h2⟩ := hc (Package.notIn q.properties q.properties)
    rw [h1]; simp only [h2]; rfl

/-- C62 is false: even with a mapping, the difference of two packages would have no properties. -/
theorem sub_drops_properties (q : Package) : Package.notIn q.properties q.properties = [] := by
  unfold Package.notIn
  rw [List.filter_eq_nil_iff]
  intro c hc
  simp only [Bool.not_eq_true', Bool.not_eq_false, List.contains_iff_mem]
  exact List.mem_map_of_mem hc

/-- C62, what holds: the class lists that addition and subtraction compute before they fail are the documented ones:
a class of `p` is kept iff `q` has no class with its namespace. -/
theorem kept_classes_partial (p q : Package) (c : Cls) :
    c ∈ Package.notIn p.objects q.objects ↔ c ∈ p.objects ∧ ∀ d ∈ q.objects, d.ns ≠ c.ns := by
  unfold Package.notIn
  simp only [List.mem_filter, Bool.not_eq_true', ← Bool.not_eq_true, List.contains_iff_mem, List.mem_map, not_exists, not_and]

/-- C62 is false: an engine accepts exactly one package; a list or tuple of packages raises AttributeError. -/
theorem engine_list_fails (xs : List Arg) : EngineObj.new (.seq xs) = .error .attributeError := rfl

/-- C62 is false: nothing can be added to an engine: AttributeError for engines, TypeError for everything else. -/
theorem engine_add_fails (e : EngineObj) (x : Arg) :
    (∀ ps, x = .engine ps → e.add x = .error .attributeError) ∧ ((∀ ps, x ≠ .engine ps) → e.add x = .error .typeError) := by
  cases x with
  | engine ps => exact ⟨fun _ _ => rfl, fun h => absurd rfl (h ps)⟩
  | _ => exact ⟨fun _ h => (by cases h), fun _ => rfl⟩

/-- C62 is false: nothing can be subtracted from an engine. -/
theorem engine_sub_fails (e : EngineObj) (x : Arg) : e.sub x = .error .typeError := by
  cases x <;> rfl

/-! ### C63: assignments -/

/-- C63: once set to a non-empty value, namespace, classes and properties stay as they are whatever is assigned. -/
theorem set_once (f : Fields) (as : List Assign) :
    (∀ s, f.pubns = some s → s ≠ "" → (f.run as).pubns = some s) ∧
    (f.objects ≠ [] → (f.run as).objects = f.objects) ∧
    (f.properties ≠ [] → (f.run as).properties = f.properties) := by
  induction as generalizing f with
  | nil => exact ⟨fun s h _ => h, fun _ => rfl, fun _ => rfl⟩
  | cons a as ih =>
    have hrun : f.run (a :: as) = (f.assign a).2.run as := rfl
    rw [hrun]
    obtain ⟨i1, i2, i3⟩ := ih (f.assign a).2
    refine ⟨fun s hs hne => i1 s ?_ hne, fun ho => ?_, fun hp => ?_⟩
    · cases a with
      | pubns v => simp [Fields.assign, hs, hne]
      | objects v => simp only [Fields.assign]; split_ifs <;> exact hs
      | properties v => simp only [Fields.assign]; split_ifs <;> exact hs
    · have : (f.assign a).2.objects = f.objects := by
        cases a with
        | pubns v => simp only [Fields.assign]; split_ifs <;> cases v <;> rfl
        | objects v => simp [Fields.assign, ho]
        | properties v => simp only [Fields.assign]; split_ifs <;> rfl
      rw [← this]; exact i2 (by rw [this]; exact ho)
    · have : (f.assign a).2.properties = f.properties := by
        cases a with
        | pubns v => simp only [Fields.assign]; split_ifs <;> cases v <;> rfl
        | objects v => simp only [Fields.assign]; split_ifs <;> rfl
        | properties v => simp [Fields.assign, hp]
      rw [← this]; exact i3 (by rw [this]; exact hp)

/-- C63: an assignment to something that is set raises AttributeError and changes nothing; a namespace that is not
a string raises TypeError and changes nothing; assigning to something not set works. -/
theorem assign_result (f : Fields) :
    (∀ s v, f.pubns = some s → s ≠ "" → f.assign (.pubns v) = (.error .attributeError, f)) ∧
    (∀ v, f.objects ≠ [] → f.assign (.objects v) = (.error .attributeError, f)) ∧
    (∀ v, f.properties ≠ [] → f.assign (.properties v) = (.error .attributeError, f)) ∧
    (f.pubns = none ∨ f.pubns = some "" → f.assign (.pubns none) = (.error .typeError, f) ∧
      ∀ s, f.assign (.pubns (some s)) = (.ok (), { f with pubns := some s })) ∧
    (f.objects = [] → ∀ v, f.assign (.objects (v.map some)) = (.ok (), { f with objects := v })) ∧
    (f.properties = [] → ∀ v, f.assign (.properties (v.map some)) = (.ok (), { f with properties := v })) := by
  have hany : ∀ v : List String, (v.map some).any (·.isNone) = false := by intro v; simp
  refine ⟨fun s v h hne => by simp [Fields.assign, h, hne], fun v h => by simp [Fields.assign, h],
    fun v h => by simp [Fields.assign, h], fun h => ?_, fun h v => ?_, fun h v => ?_⟩
  · rcases h with h | h <;> simp [Fields.assign, h]
  · unfold Fields.assign; simp [h]
  · unfold Fields.assign; simp [h]

example : (({} : Fields).run [.pubns (some "a"), .pubns (some "b"), .objects [], .objects [some "X"], .objects [some "Y"]]) =
    { pubns := some "a", objects := ["X"] } := by simp [Fields.run, Fields.assign]

/-! ### C64: property linking -/

/-- A class of the list is the one a namespace refers to: the last one that has it. -/
def RefersTo (cs : List Cls) (ns : String) (i : Nat) : Prop :=
  (∃ c, cs[i]? = some c ∧ c.ns = some ns) ∧ ∀ j c, i < j → cs[j]? = some c → c.ns ≠ some ns

theorem dictOf_append {K V : Type} [DecidableEq K] (l : List (K × V)) (p : K × V) :
    dictOf (l ++ [p]) = (dictOf l).dset p.1 p.2 := by
  unfold dictOf; rw [List.foldl_append]; rfl

theorem refOf_dget (cs : List Cls) (ns : String) (i : Nat) :
    (Package.refOf cs).dget (some ns) = some i ↔ RefersTo cs ns i := by
  unfold Package.refOf
  induction cs using List.reverseRecOn with
  | nil => simp [dictOf, List.dget, RefersTo]
  | append_singleton cs c ih =>
    rw [List.zipIdx_append, List.map_append]
    simp only [List.zipIdx_cons, List.zipIdx_nil, List.map_cons, List.map_nil, Nat.zero_add]
    rw [dictOf_append, PyDict.dget_dset]
    by_cases hc : some ns = c.ns
    · rw [if_pos hc, Option.some.injEq]
      constructor
      · rintro rfl
        refine ⟨⟨c, by simp, hc.symm⟩, ?_⟩
        intro j d hj hd
        have : (cs ++ [c]).length ≤ j := by simp; omega
        rw [List.getElem?_eq_none this] at hd; cases hd
      · rintro ⟨⟨d, hd, hdn⟩, hf⟩
        rcases Nat.lt_trichotomy i cs.length with h | h | h
        · exact absurd hc.symm (hf cs.length c h (by simp))
        · exact h.symm
        · have : (cs ++ [c]).length ≤ i := by simp; omega
          rw [List.getElem?_eq_none this] at hd; cases hd
    · rw [if_neg hc, ih]
      constructor
      · rintro ⟨⟨d, hd, hdn⟩, hf⟩
        have hi : i < cs.length := (List.getElem?_eq_some_iff.1 hd).1
        refine ⟨⟨d, by rw [List.getElem?_append_left hi]; exact hd, hdn⟩, ?_⟩
        intro j d' hj hd'
        rcases Nat.lt_trichotomy j cs.length with h | h | h
        · rw [List.getElem?_append_left h] at hd'; exact hf j d' hj hd'
        · subst h; simp at hd'; subst hd'; exact fun h => hc h.symm
        · have : (cs ++ [c]).length ≤ j := by simp; omega
          rw [List.getElem?_eq_none this] at hd'; cases hd'
      · rintro ⟨⟨d, hd, hdn⟩, hf⟩
        rcases Nat.lt_trichotomy i cs.length with h | h | h
        · rw [List.getElem?_append_left h] at hd
          exact ⟨⟨d, hd, hdn⟩, fun j d' hj hd' => hf j d' hj
            (by rw [List.getElem?_append_left (List.getElem?_eq_some_iff.1 hd').1]; exact hd')⟩
        · subst h; simp at hd; subst hd; exact absurd hdn.symm hc
        · have : (cs ++ [c]).length ≤ i := by simp; omega
          rw [List.getElem?_eq_none this] at hd; cases hd

/-- The name and registration of the property class a namespace refers to. -/
def propAt (p : Package) (q : String) : Option (String × Nat) :=
  (p.get q).bind fun pc => (p.classes[pc]?).bind (·.prop)

/-- What is linked to class `i` by a mapping, in order. -/
def linksTo (p : Package) (m : Mapping) (i : Nat) : List (String × Nat) :=
  m.flatMap fun e => if p.get e.1 = some i then e.2.filterMap (propAt p) else []

/-- All classes except for what is linked to them. -/
def addLinks (p : Package) (f : Nat → List (String × Nat)) : Package :=
  { p with classes := p.classes.mapIdx fun i c => { c with linked := c.linked.dmerge (f i) } }

theorem propAt_addLinks (p : Package) (f : Nat → List (String × Nat)) (q : String) : propAt (addLinks p f) q = propAt p q := by
  unfold propAt addLinks Package.get
  simp only [List.getElem?_mapIdx]
  cases p.ref.dget (some q) with
  | none => rfl
  | some pc => simp only [Option.bind_some]; cases p.classes[pc]? <;> rfl

theorem get_addLinks (p : Package) (f : Nat → List (String × Nat)) (q : String) : (addLinks p f).get q = p.get q := rfl

theorem dmerge_append {K V : Type} [DecidableEq K] (d : PyDict K V) (a b : List (K × V)) :
    d.dmerge (a ++ b) = (d.dmerge a).dmerge b := by unfold List.dmerge; rw [List.foldl_append]

theorem addLinks_addLinks (p : Package) (f g : Nat → List (String × Nat)) :
    addLinks (addLinks p f) g = addLinks p fun i => f i ++ g i := by
  unfold addLinks
  simp only [List.mapIdx_mapIdx, Function.comp_def, dmerge_append]

theorem addLinks_nil (p : Package) : addLinks p (fun _ => []) = p := by
  unfold addLinks
  have : (fun (_ : Nat) (c : Cls) => { c with linked := c.linked.dmerge [] }) = fun _ c => c := by
    funext i c; rfl
  rw [this]
  have h2 : p.classes.mapIdx (fun _ c => c) = p.classes := by
    apply List.ext_getElem?; intro i; rw [List.getElem?_mapIdx]; cases p.classes[i]? <;> rfl
  rw [h2]

theorem linkProperty_eq (p : Package) (pc oc : Nat) (n : String) (r : Nat)
    (h : (p.classes[pc]?).bind (·.prop) = some (n, r)) :
    p.linkProperty pc oc = (.ok (), addLinks p fun i => if i = oc then [(n, r)] else []) := by
  unfold Package.linkProperty
  rw [h]
  simp only [Package.modify, addLinks]
  congr 2
  apply List.ext_getElem?
  intro i
  rw [List.getElem?_modify, List.getElem?_mapIdx]
  by_cases hi : oc = i
  · subst hi
    cases p.classes[oc]? <;> simp [List.dmerge]
  · have : ¬ i = oc := fun h => hi h.symm
    cases p.classes[i]? <;> simp [List.dmerge, this, hi]

theorem linkLoop_ok (p : Package) (oc : Nat) (qs : List String) (h : ∀ q ∈ qs, (propAt p q).isSome) :
    p.linkLoop oc qs = (.ok (), addLinks p fun i => if i = oc then qs.filterMap (propAt p) else []) := by
  induction qs generalizing p with
  | nil =>
    have : (fun i => if i = oc then List.filterMap (propAt p) [] else []) = fun _ => [] := by
      funext i; simp
    rw [this, addLinks_nil]; rfl
  | cons q qs ih =>
    obtain ⟨⟨n, r⟩, hq⟩ := Option.isSome_iff_exists.1 (h q List.mem_cons_self)
    have hq' := hq
    unfold propAt at hq
    cases hg : p.get q with
    | none => rw [hg] at hq; cases hq
    | some pc =>
      rw [hg] at hq
      simp only [Option.bind_some] at hq
      rw [Package.linkLoop, hg]
      simp only [linkProperty_eq p pc oc n r hq]
      rw [ih]
      · rw [addLinks_addLinks]
        congr 2
        funext i
        have hpe : propAt (addLinks p fun i => if i = oc then [(n, r)] else []) = propAt p := funext fun q => propAt_addLinks _ _ q
        rw [hpe]
        split_ifs
        · rw [List.filterMap_cons_some hq']; rfl
        · rfl
      · intro q' hq'
        rw [propAt_addLinks]
        exact h q' (List.mem_cons_of_mem _ hq')

theorem linkLoop_error (p : Package) (oc : Nat) (qs : List String) :
    ((∃ q ∈ qs, propAt p q = none) ∧ ∃ p', (p.linkLoop oc qs = (.error .valueError, p') ∧ ∃ q ∈ qs, p.get q = none) ∨
      (p.linkLoop oc qs = (.error .attributeError, p') ∧ ∃ q ∈ qs, (p.get q).isSome ∧ propAt p q = none)) ∨
    ∀ q ∈ qs, (propAt p q).isSome := by
  induction qs generalizing p with
  | nil => right; simp
  | cons q qs ih =>
    cases hq : propAt p q with
    | none =>
      left
      refine ⟨⟨q, List.mem_cons_self, hq⟩, p, ?_⟩
      cases hg : p.get q with
      | none => left; exact ⟨by rw [Package.linkLoop, hg], q, List.mem_cons_self, hg⟩
      | some pc =>
        right
        refine ⟨?_, q, List.mem_cons_self, by rw [hg]; rfl, hq⟩
        unfold propAt at hq; rw [hg] at hq
        simp only [Option.bind_some] at hq
        rw [Package.linkLoop, hg]
        simp only [Package.linkProperty, hq]
    | some nr =>
      obtain ⟨n, r⟩ := nr
      have hq' := hq
      unfold propAt at hq
      cases hg : p.get q with
      | none => rw [hg] at hq; cases hq
      | some pc =>
        rw [hg] at hq
        simp only [Option.bind_some] at hq
        have hstep : p.linkLoop oc (q :: qs) = (addLinks p fun i => if i = oc then [(n, r)] else []).linkLoop oc qs := by
          rw [Package.linkLoop, hg]
          simp only [linkProperty_eq p pc oc n r hq]
        rw [hstep]
        have hpe : propAt (addLinks p fun i => if i = oc then [(n, r)] else []) = propAt p := funext fun q => propAt_addLinks _ _ q
        have hge : (addLinks p fun i => if i = oc then [(n, r)] else []).get = p.get := rfl
        have := ih (addLinks p fun i => if i = oc then [(n, r)] else [])
        rw [hpe, hge] at this
        rcases this with ⟨⟨q', hq1, hq2⟩, p', h⟩ | h
        · left
          refine ⟨⟨q', List.mem_cons_of_mem _ hq1, hq2⟩, p', ?_⟩
          rcases h with ⟨h1, q'', h2, h3⟩ | ⟨h1, q'', h2, h3⟩
          · left; exact ⟨h1, q'', List.mem_cons_of_mem _ h2, h3⟩
          · right; exact ⟨h1, q'', List.mem_cons_of_mem _ h2, h3⟩
        · right
          intro q' hq1
          rcases List.mem_cons.1 hq1 with rfl | hq1
          · rw [hq']; rfl
          · exact h q' hq1

/-- A mapping whose every entry names a class and property classes. -/
def GoodMapping (p : Package) (m : Mapping) : Prop :=
  ∀ e ∈ m, (p.get e.1).isSome ∧ ∀ q ∈ e.2, (propAt p q).isSome

theorem performMapping_ok (p : Package) (m : Mapping) (h : GoodMapping p m) :
    p.performMapping m = (.ok (), addLinks p (linksTo p m)) := by
  induction m generalizing p with
  | nil =>
    have : linksTo p [] = fun _ => [] := rfl
    rw [this, addLinks_nil]; rfl
  | cons e m ih =>
    obtain ⟨o, ps⟩ := e
    obtain ⟨h1, h2⟩ := h (o, ps) List.mem_cons_self
    obtain ⟨oc, ho⟩ := Option.isSome_iff_exists.1 h1
    simp only at ho h2
    rw [Package.performMapping, Package.linkProperties, ho]
    simp only [linkLoop_ok p oc ps h2]
    rw [ih]
    · rw [addLinks_addLinks]
      congr 2
      funext i
      have hpe : ∀ f, propAt (addLinks p f) = propAt p := fun f => funext fun q => propAt_addLinks _ _ q
      have hge : ∀ f, (addLinks p f).get = p.get := fun f => rfl
      unfold linksTo
      rw [List.flatMap_cons]
      simp only [hpe, hge, ho, Option.some.injEq]
      congr 1
      by_cases hio : i = oc
      · subst hio; simp
      · rw [if_neg hio, if_neg fun h => hio h.symm]
    · intro e' he'
      have hpe : ∀ f, propAt (addLinks p f) = propAt p := fun f => funext fun q => propAt_addLinks _ _ q
      have hge : ∀ f, (addLinks p f).get = p.get := fun f => rfl
      rw [hpe, hge]
      exact h e' (List.mem_cons_of_mem _ he')

theorem performMapping_error (p : Package) (m : Mapping) (h : ¬ GoodMapping p m) :
    ∃ p', (p.performMapping m = (.error .valueError, p') ∧ ∃ e ∈ m, p.get e.1 = none ∨ ∃ q ∈ e.2, p.get q = none) ∨
      (p.performMapping m = (.error .attributeError, p') ∧ ∃ e ∈ m, ∃ q ∈ e.2, (p.get q).isSome ∧ propAt p q = none) := by
  induction m generalizing p with
  | nil => exact absurd (by intro e he; cases he) h
  | cons e m ih =>
    obtain ⟨o, ps⟩ := e
    cases ho : p.get o with
    | none =>
      refine ⟨p, Or.inl ⟨?_, (o, ps), List.mem_cons_self, Or.inl ho⟩⟩
      rw [Package.performMapping, Package.linkProperties, ho]
    | some oc =>
      rcases linkLoop_error p oc ps with ⟨-, p', hh⟩ | hh
      · refine ⟨p', ?_⟩
        rcases hh with ⟨h1, q, h2, h3⟩ | ⟨h1, q, h2, h3⟩
        · left
          refine ⟨?_, (o, ps), List.mem_cons_self, Or.inr ⟨q, h2, h3⟩⟩
          rw [Package.performMapping, Package.linkProperties, ho]
          simp only [h1]
        · right
          refine ⟨?_, (o, ps), List.mem_cons_self, q, h2, h3⟩
          rw [Package.performMapping, Package.linkProperties, ho]
          simp only [h1]
      · have hstep := linkLoop_ok p oc ps hh
        have hrw : p.performMapping ((o, ps) :: m) =
            (addLinks p fun i => if i = oc then ps.filterMap (propAt p) else []).performMapping m := by
          rw [Package.performMapping, Package.linkProperties, ho]
          simp only [hstep]
        rw [hrw]
        have hpe : ∀ f, propAt (addLinks p f) = propAt p := fun f => funext fun q => propAt_addLinks _ _ q
        have hge : ∀ f, (addLinks p f).get = p.get := fun f => rfl
        have := ih (addLinks p fun i => if i = oc then ps.filterMap (propAt p) else []) ?_
        · rw [hge, hpe] at this
          obtain ⟨p', h⟩ := this
          refine ⟨p', ?_⟩
          rcases h with ⟨h1, e, he, h2⟩ | ⟨h1, e, he, h2⟩
          · left; exact ⟨h1, e, List.mem_cons_of_mem _ he, h2⟩
          · right; exact ⟨h1, e, List.mem_cons_of_mem _ he, h2⟩
        · intro hg
          apply h
          intro e he
          rcases List.mem_cons.1 he with rfl | he
          · exact ⟨by simp [ho], hh⟩
          · have := hg e he
            rw [hge, hpe] at this; exact this

/-- The classes a package is made of before linking. -/
def rawPackage (ns : String) (os ps : List Cls) : Package := ⟨ns, os ++ ps, os.length, Package.refOf (os ++ ps)⟩

/-- Every entry of a mapping names a class, and properties that are property classes. -/
def MappingValid (cs : List Cls) (m : Mapping) : Prop :=
  ∀ e ∈ m, (∃ i, RefersTo cs e.1 i) ∧ ∀ q ∈ e.2, ∃ j c, RefersTo cs q j ∧ cs[j]? = some c ∧ c.prop.isSome

theorem get_raw {ns : String} {os ps : List Cls} {q : String} {i : Nat} :
    (rawPackage ns os ps).get q = some i ↔ RefersTo (os ++ ps) q i := refOf_dget _ _ _

theorem get_raw_none {ns : String} {os ps : List Cls} {q : String} :
    (rawPackage ns os ps).get q = none ↔ ∀ c ∈ os ++ ps, c.ns ≠ some q := by
  unfold Package.get rawPackage Package.refOf
  rw [dget_dictOf, PyDict.dget_eq_none]
  unfold List.dkeys
  simp only [List.mem_map, List.mem_reverse, not_exists, not_and]
  constructor
  · intro h c hc
    obtain ⟨i, hi, rfl⟩ := List.getElem_of_mem hc
    have := h ((os ++ ps)[i].ns, i) ⟨((os ++ ps)[i], i), ?_, rfl⟩
    · exact this
    · rw [List.mem_zipIdx_iff_getElem?]; simp
  · rintro h ⟨a, b⟩ ⟨⟨c, k⟩, hc, hab⟩
    injection hab with h1 h2
    rw [← h1]
    exact h c (List.mem_of_getElem? (List.mem_zipIdx_iff_getElem?.1 hc))

theorem propAt_raw {ns : String} {os ps : List Cls} {q : String} {nr : String × Nat} :
    propAt (rawPackage ns os ps) q = some nr ↔
      ∃ j c, RefersTo (os ++ ps) q j ∧ (os ++ ps)[j]? = some c ∧ c.prop = some nr := by
  unfold propAt
  rw [Option.bind_eq_some_iff]
  constructor
  · rintro ⟨j, h1, h2⟩
    rw [Option.bind_eq_some_iff] at h2
    obtain ⟨c, h2, h3⟩ := h2
    exact ⟨j, c, get_raw.1 h1, h2, h3⟩
  · rintro ⟨j, c, h1, h2, h3⟩
    exact ⟨j, get_raw.2 h1, by rw [Option.bind_eq_some_iff]; exact ⟨c, h2, h3⟩⟩

theorem goodMapping_iff {ns : String} {os ps : List Cls} {m : Mapping} :
    GoodMapping (rawPackage ns os ps) m ↔ MappingValid (os ++ ps) m := by
  unfold GoodMapping MappingValid
  refine forall_congr' fun e => forall_congr' fun _ => and_congr ?_ ?_
  · rw [Option.isSome_iff_exists]; exact exists_congr fun i => get_raw
  · refine forall_congr' fun q => forall_congr' fun _ => ?_
    rw [Option.isSome_iff_exists]
    constructor
    · rintro ⟨nr, h⟩
      obtain ⟨j, c, h1, h2, h3⟩ := propAt_raw.1 h
      exact ⟨j, c, h1, h2, by rw [h3]; rfl⟩
    · rintro ⟨j, c, h1, h2, h3⟩
      obtain ⟨nr, h3⟩ := Option.isSome_iff_exists.1 h3
      exact ⟨nr, propAt_raw.2 ⟨j, c, h1, h2, h3⟩⟩

/-- C64: a package can be built iff every entry of its mapping names a class, and properties that are property classes. -/
theorem build_iff (clone : Package.Cloner) (ns : String) (objects properties os ps : List Cls) (m : Mapping)
    (ho : clone objects = .ok os) (hp : clone properties = .ok ps) :
    (∃ p, Package.new clone ns objects properties (some m) = .ok p) ↔ MappingValid (os ++ ps) m := by
  have hnew : Package.new clone ns objects properties (some m) = (rawPackage ns os ps).withMapping (some m) := by
    unfold Package.new; rw [ho]; simp only [hp]; rfl
  rw [hnew, ← goodMapping_iff (ns := ns)]
  unfold Package.withMapping
  constructor
  · rintro ⟨p, h⟩
    by_contra hg
    obtain ⟨p', hh | hh⟩ := performMapping_error _ _ hg
    · simp [hh.1] at h
    · simp [hh.1] at h
  · intro hg
    simp only [performMapping_ok _ _ hg]; exact ⟨_, rfl⟩

/-- C64: an entry that names an unknown class or property raises ValueError, if all known names listed as
properties are property classes. -/
theorem build_unknown (clone : Package.Cloner) (ns : String) (objects properties os ps : List Cls) (m : Mapping)
    (ho : clone objects = .ok os) (hp : clone properties = .ok ps)
    (hm : ∀ e ∈ m, ∀ q ∈ e.2, ∀ j c, RefersTo (os ++ ps) q j → (os ++ ps)[j]? = some c → c.prop.isSome)
    (e : String × List String) (he : e ∈ m)
    (hu : (∀ c ∈ os ++ ps, c.ns ≠ some e.1) ∨ ∃ q ∈ e.2, ∀ c ∈ os ++ ps, c.ns ≠ some q) :
    Package.new clone ns objects properties (some m) = .error .valueError := by
  have hnew : Package.new clone ns objects properties (some m) = (rawPackage ns os ps).withMapping (some m) := by
    unfold Package.new; rw [ho]; simp only [hp]; rfl
  rw [hnew]
  unfold Package.withMapping
  have hg : ¬ GoodMapping (rawPackage ns os ps) m := by
    intro h
    obtain ⟨h1, h2⟩ := h e he
    rcases hu with hu | ⟨q, hq, hu⟩
    · rw [get_raw_none.2 hu] at h1; cases h1
    · have := h2 q hq
      unfold propAt at this
      rw [get_raw_none.2 hu] at this; cases this
  obtain ⟨p', hh | ⟨hh, e', he', q, hq, hq1, hq2⟩⟩ := performMapping_error _ _ hg
  · simp [hh.1]
  · exfalso
    obtain ⟨j, hj⟩ := Option.isSome_iff_exists.1 hq1
    have hr := get_raw.1 hj
    obtain ⟨⟨c, hc, hcn⟩, -⟩ := hr
    have := hm e' he' q hq j c (get_raw.1 hj) hc
    obtain ⟨nr, hnr⟩ := Option.isSome_iff_exists.1 this
    rw [propAt_raw.2 ⟨j, c, get_raw.1 hj, hc, hnr⟩] at hq2; cases hq2

/-- C64 (false in part): a mapping that lists a class that is no property raises AttributeError, not ValueError. -/
theorem build_object_as_property : ∃ (cs : List Cls) (m : Mapping),
    (match Package.new (fun cs => .ok cs) "ns" cs [] (some m) with
      | .error .attributeError => true
      | _ => false) = true :=
  ⟨[{ name := "A", ns := some "A" }, { name := "B", ns := some "B" }], [("A", ["B"])], by decide +kernel⟩

/-- The mapping lists, under a name of class `i`, the property class with name `n` and registration `r`. -/
def Lists (cs : List Cls) (m : Mapping) (i : Nat) (n : String) (r : Nat) : Prop :=
  ∃ e ∈ m, RefersTo cs e.1 i ∧ ∃ q ∈ e.2, ∃ j c, RefersTo cs q j ∧ cs[j]? = some c ∧ c.prop = some (n, r)

theorem mem_linksTo {ns : String} {os ps : List Cls} {m : Mapping} {i : Nat} {n : String} {r : Nat} :
    (n, r) ∈ linksTo (rawPackage ns os ps) m i ↔ Lists (os ++ ps) m i n r := by
  unfold linksTo Lists
  rw [List.mem_flatMap]
  refine exists_congr fun e => and_congr_right fun he => ?_
  constructor
  · intro h
    split_ifs at h with hi
    · rw [List.mem_filterMap] at h
      obtain ⟨q, hq, hqp⟩ := h
      exact ⟨get_raw.1 hi, q, hq, propAt_raw.1 hqp⟩
    · cases h
  · rintro ⟨h1, q, hq, h2⟩
    rw [if_pos (get_raw.2 h1), List.mem_filterMap]
    exact ⟨q, hq, propAt_raw.2 h2⟩

theorem dkeys_dmerge {K V : Type} [DecidableEq K] (d : PyDict K V) (e : List (K × V)) (k : K) :
    k ∈ (d.dmerge e).dkeys ↔ k ∈ d.dkeys ∨ ∃ v, (k, v) ∈ e := by
  rw [← PyDict.dget_ne_none]
  have : d.dmerge e = e.foldl (fun d p => d.dset p.1 p.2) d := rfl
  rw [this, dget_foldl_dset]
  cases h : e.reverse.dget k with
  | some v =>
    simp only [Option.some_or, ne_eq, reduceCtorEq, not_false_eq_true, true_iff]
    right; exact ⟨v, List.mem_reverse.1 (PyDict.dget_mem h)⟩
  | none =>
    rw [Option.none_or, PyDict.dget_ne_none]
    constructor
    · exact Or.inl
    · rintro (h' | ⟨v, hv⟩)
      · exact h'
      · rw [PyDict.dget_eq_none] at h
        exact absurd (List.mem_map.2 ⟨_, List.mem_reverse.2 hv, rfl⟩) h

/-- C64: after building, the classes are the given ones, and exactly the listed properties are linked to each. -/
theorem linking_exact (clone : Package.Cloner) (ns : String) (objects properties os ps : List Cls) (m : Mapping) (p : Package)
    (ho : clone objects = .ok os) (hp : clone properties = .ok ps)
    (h : Package.new clone ns objects properties (some m) = .ok p) (i : Nat) (c : Cls) (hc : (os ++ ps)[i]? = some c) :
    ∃ c', p.classes[i]? = some c' ∧ c'.ns = c.ns ∧ c'.name = c.name ∧ c'.prop = c.prop ∧ c'.own = c.own ∧ c'.up = c.up ∧
      (∀ n, n ∈ c'.linked.dkeys ↔ n ∈ c.linked.dkeys ∨ ∃ r, Lists (os ++ ps) m i n r) ∧
      (∀ n r, c'.linked.dget n = some r → Lists (os ++ ps) m i n r ∨
        (c.linked.dget n = some r ∧ ∀ r', ¬ Lists (os ++ ps) m i n r')) := by
  have hnew : Package.new clone ns objects properties (some m) = (rawPackage ns os ps).withMapping (some m) := by
    unfold Package.new; rw [ho]; simp only [hp]; rfl
  have hg : GoodMapping (rawPackage ns os ps) m := goodMapping_iff.2 ((build_iff clone ns objects properties os ps m ho hp).1 ⟨p, h⟩)
  rw [hnew] at h
  unfold Package.withMapping at h
  simp only [performMapping_ok _ _ hg, Except.ok.injEq] at h
  subst h
  refine ⟨{ c with linked := c.linked.dmerge (linksTo (rawPackage ns os ps) m i) }, ?_, rfl, rfl, rfl, rfl, rfl, ?_, ?_⟩
  · unfold addLinks
    simp only [List.getElem?_mapIdx]
    have : (rawPackage ns os ps).classes[i]? = some c := hc
    rw [this]; rfl
  · intro n
    simp only [dkeys_dmerge, mem_linksTo]
  · intro n r hn
    have hdm : c.linked.dmerge (linksTo (rawPackage ns os ps) m i) =
      (linksTo (rawPackage ns os ps) m i).foldl (fun d p => d.dset p.1 p.2) c.linked := rfl
    simp only [hdm, dget_foldl_dset] at hn
    cases hh : (linksTo (rawPackage ns os ps) m i).reverse.dget n with
    | some v =>
      rw [hh] at hn; injection hn with hn; subst hn
      left; exact mem_linksTo.1 (List.mem_reverse.1 (PyDict.dget_mem hh))
    | none =>
      rw [hh] at hn
      right
      refine ⟨hn, fun r' hr' => ?_⟩
      rw [PyDict.dget_eq_none] at hh
      exact hh (List.mem_map.2 ⟨_, List.mem_reverse.2 (mem_linksTo.2 hr'), rfl⟩)

/-- C64: the properties of a class of the package are its own ones and those the mapping lists for a class it
descends from, each once. -/
theorem class_properties (clone : Package.Cloner) (ns : String) (objects properties os ps : List Cls) (m : Mapping) (p : Package)
    (ho : clone objects = .ok os) (hp : clone properties = .ok ps)
    (h : Package.new clone ns objects properties (some m) = .ok p)
    (hfresh : ∀ c ∈ os ++ ps, c.linked = []) (i : Nat) (c : Cls) (hc : (os ++ ps)[i]? = some c)
    (hup : ∀ j ∈ c.up, j < (os ++ ps).length) (n : String) :
    (n ∈ p.propertiesOf i ↔ n ∈ c.own ∨ ∃ j ∈ c.up, ∃ r, Lists (os ++ ps) m j n r) ∧ (p.propertiesOf i).Nodup := by
  obtain ⟨c', hc', -, -, -, hown, hupe, -, -⟩ := linking_exact clone ns objects properties os ps m p ho hp h i c hc
  unfold Package.propertiesOf
  rw [hc']
  simp only []
  refine ⟨?_, List.nodup_dedup _⟩
  rw [List.mem_dedup, List.mem_append, List.mem_flatMap, hown, hupe]
  refine or_congr_right (exists_congr fun j => and_congr_right fun hj => ?_)
  have hjl := hup j hj
  obtain ⟨d', hd', -, -, -, -, -, hl, -⟩ := linking_exact clone ns objects properties os ps m p ho hp h j _
    (List.getElem?_eq_getElem hjl)
  rw [hd']
  simp only [hl, hfresh _ (List.getElem_mem hjl)]
  simp [List.dkeys]

/-- Two classes, the second a subclass of the first, and two properties. -/
def sampleObjects : List Cls :=
  [{ name := "Object", ns := some "Object", own := ["acontext"], up := [0] },
   { name := "Note", ns := some "Note", own := ["acontext"], up := [1, 0] }]
/-- Two property classes. -/
def sampleProps : List Cls :=
  [{ name := "Id", ns := some "#id", prop := some ("id", 7) }, { name := "Text", ns := some "#text", prop := some ("text", 8) }]
/-- A mapping. -/
def sampleMapping : Mapping := [("Object", ["#id"]), ("Note", ["#text"])]

example : (Package.new (fun cs => .ok cs) "ns" sampleObjects sampleProps (some sampleMapping)).toOption.map
    (fun p => (p.propertiesOf 0, p.propertiesOf 1)) = some (["acontext", "id"], ["acontext", "text", "id"]) := by
  decide +kernel

/-- C64: `package.objects` and `package.properties` are the clones of the two lists given, each in its order and apart from the other: only what is
linked to a class has changed. -/
theorem package_lists (clone : Package.Cloner) (ns : String) (objects properties os ps : List Cls) (m : Mapping) (p : Package)
    (ho : clone objects = .ok os) (hp : clone properties = .ok ps)
    (h : Package.new clone ns objects properties (some m) = .ok p) :
    p.pubns = ns ∧ p.objects.map (fun c => (c.name, c.ns, c.prop, c.own, c.up)) = os.map (fun c => (c.name, c.ns, c.prop, c.own, c.up)) ∧
    p.properties.map (fun c => (c.name, c.ns, c.prop, c.own, c.up)) = ps.map (fun c => (c.name, c.ns, c.prop, c.own, c.up)) := by
  have hnew : Package.new clone ns objects properties (some m) = (rawPackage ns os ps).withMapping (some m) := by
    unfold Package.new; rw [ho]; simp only [hp]; rfl
  have hg : GoodMapping (rawPackage ns os ps) m := goodMapping_iff.2 ((build_iff clone ns objects properties os ps m ho hp).1 ⟨p, h⟩)
  rw [hnew] at h
  unfold Package.withMapping at h
  simp only [performMapping_ok _ _ hg, Except.ok.injEq] at h
  subst h
  have hall : ((addLinks (rawPackage ns os ps) (linksTo (rawPackage ns os ps) m)).classes).map (fun c => (c.name, c.ns, c.prop, c.own, c.up)) =
      os.map (fun c => (c.name, c.ns, c.prop, c.own, c.up)) ++ ps.map (fun c => (c.name, c.ns, c.prop, c.own, c.up)) := by
    rw [← List.map_append]
    apply List.ext_getElem?
    intro i
    simp only [addLinks, rawPackage, List.getElem?_map, List.getElem?_mapIdx]
    cases (os ++ ps)[i]? <;> rfl
  refine ⟨rfl, ?_, ?_⟩
  · unfold Package.objects
    rw [List.map_take, hall]
    exact List.take_left' (by rw [List.length_map]; rfl)
  · unfold Package.properties
    rw [List.map_drop, hall]
    exact List.drop_left' (by rw [List.length_map]; rfl)

example : (Package.new (fun cs => .ok cs) "ns" sampleObjects sampleProps (some sampleMapping)).toOption.map
    (fun p => (p.objects.map (·.name), p.properties.map (·.name))) = some (["Object", "Note"], ["Id", "Text"]) := by
  decide +kernel

/-! ### C85: package[...] -/

/-- C85: `package[namespace]` gives the class or property of the package that has this namespace (the last one if there are several), None if there is
none; `package[namespaces]` gives the list of these answers in order, and raises ValueError if one of the keys is no string. -/
theorem package_lookup (clone : Package.Cloner) (ns : String) (objects properties os ps : List Cls) (m : Mapping) (p : Package)
    (ho : clone objects = .ok os) (hp : clone properties = .ok ps)
    (h : Package.new clone ns objects properties (some m) = .ok p) :
    (∀ q i, p.get q = some i ↔ RefersTo (os ++ ps) q i) ∧ (∀ q, p.get q = none ↔ ∀ c ∈ os ++ ps, c.ns ≠ some q) ∧
    (∀ qs : List String, p.getMany (qs.map some) = .ok (qs.map p.get)) ∧
    ∀ keys, none ∈ keys → p.getMany keys = .error .valueError := by
  have hnew : Package.new clone ns objects properties (some m) = (rawPackage ns os ps).withMapping (some m) := by
    unfold Package.new; rw [ho]; simp only [hp]; rfl
  have hg : GoodMapping (rawPackage ns os ps) m := goodMapping_iff.2 ((build_iff clone ns objects properties os ps m ho hp).1 ⟨p, h⟩)
  rw [hnew] at h
  unfold Package.withMapping at h
  simp only [performMapping_ok _ _ hg, Except.ok.injEq] at h
  subst h
  refine ⟨fun q i => get_raw (ns := ns), fun q => get_raw_none (ns := ns), fun qs => ?_, fun keys hk => ?_⟩
  · unfold Package.getMany
    rw [if_neg (by simp), List.map_map]; rfl
  · unfold Package.getMany
    rw [if_pos]
    rw [List.any_eq_true]; exact ⟨none, hk, rfl⟩

example : ∃ p, Package.new (fun cs => .ok cs) "ns" sampleObjects sampleProps (some sampleMapping) = .ok p ∧
    p.get "#text" = some 3 ∧ p.get "x" = none := ⟨_, rfl, by decide +kernel⟩

/-! ### engine[...] -/

/-- C85: `engine[text]` gives one object, `engine[texts]` the objects in order; anything else is a TypeError before
any text is parsed. -/
theorem getitem_result {V : Type} (fromText : String → Outcome V) :
    (∀ s v, EngineObj.getitem fromText (.text s) = .ok (.one v) ↔ fromText s = .ok v) ∧
    (∀ xs vs, EngineObj.getitem fromText (.many xs) = .ok (.many vs) ↔
      ∃ ss : List String, xs = ss.map some ∧ ss.map fromText = vs.map .ok) ∧
    (∀ xs, none ∈ xs → EngineObj.getitem fromText (.many xs) = .error .typeError) ∧
    EngineObj.getitem fromText .other = .error .typeError := by
  have hload : ∀ (ss : List String) (vs : List V), EngineObj.loadAll fromText ss = .ok vs ↔ ss.map fromText = vs.map .ok := by
    intro ss
    induction ss with
    | nil => intro vs; cases vs <;> simp [EngineObj.loadAll]
    | cons s ss ih =>
      intro vs
      rw [EngineObj.loadAll]
      cases hs : fromText s with
      | error e => cases vs <;> simp [hs]
      | ok v =>
        simp only []
        cases hl : EngineObj.loadAll fromText ss with
        | error e =>
          cases vs with
          | nil => simp
          | cons w ws =>
            have := ih ws
            rw [hl] at this
            simp only [List.map_cons, List.cons.injEq, ← this]
            simp
        | ok us =>
          cases vs with
          | nil => simp
          | cons w ws =>
            have := ih ws
            rw [hl] at this
            simp only [List.map_cons, List.cons.injEq, ← this, hs]
            simp
  refine ⟨fun s v => ?_, fun xs vs => ?_, fun xs hx => ?_, rfl⟩
  · simp only [EngineObj.getitem]
    cases fromText s <;> simp
  · simp only [EngineObj.getitem]
    by_cases hany : xs.any (·.isNone) = true
    · rw [if_pos hany]
      simp only [reduceCtorEq, false_iff]
      rintro ⟨ss, rfl, -⟩
      simp at hany
    · rw [if_neg hany]
      have hxs : xs = (xs.filterMap id).map some := by
        clear hload
        induction xs with
        | nil => rfl
        | cons x xs ih =>
          cases x with
          | none => simp at hany
          | some x =>
            have hx : (some x :: xs).filterMap id = x :: xs.filterMap id := rfl
            rw [hx, List.map_cons, ← ih]
            simpa using hany
      constructor
      · intro h
        refine ⟨xs.filterMap id, hxs, ?_⟩
        cases hl : EngineObj.loadAll fromText (xs.filterMap id) with
        | error e => rw [hl] at h; cases h
        | ok us => rw [hl] at h; injection h with h; injection h with h; subst h; exact (hload _ _).1 hl
      · rintro ⟨ss, rfl, h⟩
        have : (ss.map some).filterMap id = ss := by simp
        rw [this, (hload _ _).2 h]
  · simp only [EngineObj.getitem]
    rw [if_pos]
    rw [List.any_eq_true]; exact ⟨none, hx, rfl⟩

end Verif.Props
