import Verif.Props.AsPackage
import Verif.Props.Intake

/-!
# The engine of the ActivityStreams package (C81)
-/
namespace Verif.Props
open Verif Verif.Jsonld Verif.AS

/-! ### The engine (C81) -/

theorem type_linked : ∀ c ∈ pkgClasses, (∃ row ∈ linkedRows c, row.name = "type") ↔ c = "Object" ∨ c = "Link" := by decide +kernel

theorem fragment_head : ∀ n ∈ allNames, ∀ f, fragment n = some f → f.toList.head? ≠ some '<' := by
  have h : ∀ n ∈ allNames, (fragment n).all fun f => f.toList.head? != some '<' := by decide +kernel
  intro n hn f hf
  have := h n hn
  rw [hf] at this
  simpa using this

theorem asOrder_objects : ∀ i n, asOrder[i]? = some n → (i < pkgClasses.length ↔ n.1 = false) := by
  intro i n hn
  rw [← order_length]
  unfold asOrder at hn
  rw [List.getElem?_append] at hn
  by_cases hi : i < (cloneOrder (pkgClasses.map fun c => (false, c))).length
  · rw [if_pos hi] at hn
    obtain ⟨c, -, rfl⟩ := List.mem_map.1 ((mem_refKeys _ _ _).1 (List.mem_of_getElem? hn))
    exact ⟨fun _ => rfl, fun _ => hi⟩
  · rw [if_neg hi] at hn
    obtain ⟨c, -, rfl⟩ := List.mem_map.1 ((mem_refKeys _ _ _).1 (List.mem_of_getElem? hn))
    exact ⟨fun h => absurd h hi, fun h => by cases h⟩

theorem createEngine_eq (repr : Nat → String) {p : Package} (hp : createPackage = .ok p) :
    createEngine repr = EngineObj.new (.pkg (settle repr p)) := congrArg (engineOf repr) hp

/-- C81: the engine finds every class of the package under its type, except Object and Link, which it does not know; and it knows no
other type of the ActivityStreams namespace (`repr` are the texts of property objects, which begin with "<"). -/
theorem engine_types (repr : Nat → String) (hrepr : ∀ i, (repr i).toList.head? = some '<') :
    ∃ p e, createPackage = .ok p ∧ createEngine repr = .ok e ∧ ∀ t i, t.toList.head? ≠ some '<' →
      (e.registry.dget (some (asNs ++ "#" ++ t)) = some i ↔
        ∃ c row, c ∈ pkgClasses ∧ classRow c = some row ∧ row.type = t ∧ c ≠ "Object" ∧ c ≠ "Link" ∧
          i < pkgClasses.length ∧ (p.classes[i]?).map (·.name) = some c) := by
  obtain ⟨p, hp, hnobj, hlen, -, hcls⟩ := create_package_loads
  have he : createEngine repr = EngineObj.new (.pkg (settle repr p)) := createEngine_eq repr hp
  obtain ⟨e, hee⟩ : ∃ e, EngineObj.new (.pkg (settle repr p)) = .ok e := ⟨_, rfl⟩
  refine ⟨p, e, hp, by rw [he, hee], fun t i ht => ?_⟩
  rw [engine_registry _ _ hee]
  -- the objects
  have hobj : ∀ j k', (settle repr p).objects[j]? = some k' ↔
      j < pkgClasses.length ∧ ∃ k, p.classes[j]? = some k ∧ k' = nsAfter repr j k := by
    intro j k'
    unfold Package.objects settle
    simp only [hnobj]
    rw [List.getElem?_take, List.getElem?_mapIdx]
    by_cases hj : j < pkgClasses.length
    · rw [if_pos hj, Option.map_eq_some_iff]
      constructor
      · rintro ⟨k, h1, rfl⟩; exact ⟨hj, k, h1, rfl⟩
      · rintro ⟨-, k, h1, rfl⟩; exact ⟨k, h1, rfl⟩
    · rw [if_neg hj]; simp [hj]
  have hns : ∀ j k, p.classes[j]? = some k → j < pkgClasses.length →
      ((nsAfter repr j k).ns = some (asNs ++ "#" ++ t) ↔ ∃ c row, k.name = c ∧ c ∈ pkgClasses ∧ classRow c = some row ∧ row.type = t ∧
        c ≠ "Object" ∧ c ≠ "Link") := by
    intro j k hk hj
    have hjo : j < asOrder.length := by rw [← hlen]; exact (List.getElem?_eq_some_iff.1 hk).1
    have hn : asOrder[j]? = some asOrder[j] := List.getElem?_eq_getElem hjo
    generalize hgn : asOrder[j] = n at hn
    obtain ⟨k', hk', k2, k3, k4, k5, -⟩ := hcls j n hn
    cases (Option.some.inj (hk.symm.trans hk'))
    have hb := (asOrder_objects j n hn).1 hj
    obtain ⟨b, c⟩ := n
    simp only at hb; subst hb
    have hc : c ∈ pkgClasses := (mem_allNames _ _).1 ((mem_asOrder _).1 (List.mem_of_getElem? hn))
    have hlink : k.linked.dkeys.contains "type" = true ↔ c = "Object" ∨ c = "Link" := by
      rw [List.contains_iff_mem, ← PyDict.dget_ne_none, Option.ne_none_iff_exists', ← type_linked c hc]
      constructor
      · rintro ⟨l, hl⟩
        obtain ⟨c', hc', row, hr, h1, -⟩ := (k5 _ _).1 hl
        cases (Prod.mk.inj hc').2
        exact ⟨row, hr, h1⟩
      · rintro ⟨row, hr, h1⟩
        exact ⟨row.line, (k5 _ _).2 ⟨c, rfl, row, hr, h1, rfl⟩⟩
    have hpn : k.prop.isNone = true := by rw [Option.isNone_iff_eq_none, ← Option.not_isSome_iff_eq_none, k4]; simp
    obtain ⟨row, hrow⟩ := Option.isSome_iff_exists.1 (class_rows c hc)
    unfold nsAfter
    rw [hpn, Bool.true_and]
    by_cases hl : k.linked.dkeys.contains "type" = true
    · rw [if_pos hl]
      simp only [Option.some.injEq]
      constructor
      · intro h
        have := append_inj_left h
        rw [← this] at ht
        exact absurd (hrepr j) ht
      · rintro ⟨c', row', h1, -, -, -, h5, h6⟩
        rw [k3] at h1
        have h1 : c = c' := h1
        subst h1
        rcases hlink.1 hl with h | h
        · exact absurd h h5
        · exact absurd h h6
    · rw [if_neg hl, k2]
      have : nsOfName (false, c) = some (asNs ++ "#" ++ row.type) := by simp [nsOfName, classNs, hrow]
      rw [this]
      simp only [Option.some.injEq]
      constructor
      · intro h
        have := append_inj_left h
        exact ⟨c, row, k3, hc, hrow, this, fun h => hl (hlink.2 (Or.inl h)), fun h => hl (hlink.2 (Or.inr h))⟩
      · rintro ⟨c', row', h1, -, h3, h4, -⟩
        rw [k3] at h1
        have h1 : c = c' := h1
        subst h1
        cases Option.some.inj (hrow.symm.trans h3)
        rw [h4]
  constructor
  · rintro ⟨⟨k', hk', hkn⟩, -⟩
    obtain ⟨hj, k, hk, rfl⟩ := (hobj _ _).1 hk'
    obtain ⟨c, row, h1, h2, h3, h4, h5, h6⟩ := (hns i k hk hj).1 hkn
    exact ⟨c, row, h2, h3, h4, h5, h6, hj, by rw [hk]; simp [h1]⟩
  · rintro ⟨c, row, h2, h3, h4, h5, h6, hj, h7⟩
    obtain ⟨k, hk, hkn⟩ := Option.map_eq_some_iff.1 h7
    refine ⟨⟨_, (hobj _ _).2 ⟨hj, k, hk, rfl⟩, (hns i k hk hj).2 ⟨c, row, hkn, h2, h3, h4, h5, h6⟩⟩, ?_⟩
    intro j d hji hd hdn
    obtain ⟨hj', k', hk', rfl⟩ := (hobj _ _).1 hd
    obtain ⟨c', row', g1, g2, g3, g4, -⟩ := (hns j k' hk' hj').1 hdn
    -- same type, so same class, so same position
    have hcc : c' = c := by
      have hf : nsOfName (false, c') = nsOfName (false, c) := by
        simp [nsOfName, classNs, g3, h3, g4, h4]
      have := nsOfName_inj_on ((mem_asOrder _).2 ((mem_allNames false c').2 g2)) ((mem_asOrder _).2 ((mem_allNames false c).2 h2)) hf
      exact (Prod.mk.inj this).2
    subst hcc
    have pos : ∀ j k, p.classes[j]? = some k → j < pkgClasses.length → k.name = c' → asOrder[j]? = some (false, c') := by
      intro j k hk hj hkn
      have hjo : j < asOrder.length := by rw [← hlen]; exact (List.getElem?_eq_some_iff.1 hk).1
      have hn : asOrder[j]? = some asOrder[j] := List.getElem?_eq_getElem hjo
      generalize hgn : asOrder[j] = n at hn
      obtain ⟨k'', hk'', -, k3, -⟩ := hcls j n hn
      cases (Option.some.inj (hk.symm.trans hk''))
      have hb := (asOrder_objects j n hn).1 hj
      rw [hn, ← hkn, k3, ← hb]
    have p1 := List.getElem?_eq_some_iff.1 (pos i k hk hj hkn)
    have p2 := List.getElem?_eq_some_iff.1 (pos j k' hk' hj' g1)
    obtain ⟨l1, e1⟩ := p1
    obtain ⟨l2, e2⟩ := p2
    have := (nodup_asOrder.getElem_inj_iff (hi := l1) (hj := l2)).1 (e1.trans e2.symm)
    rw [this] at hji
    exact Nat.lt_irrefl _ hji

/-- The engine knows the default type "default" for no class. -/
theorem no_default {repr : Nat → String} {p : Package} {e : EngineObj} (hp : createPackage = .ok p) (he : createEngine repr = .ok e) (i : Nat) :
    e.registry.dget (some "default") ≠ some i := by
  have he' : EngineObj.new (.pkg (settle repr p)) = .ok e := by rw [← he, createEngine_eq repr hp]
  rw [ne_eq, engine_registry _ _ he']
  rintro ⟨⟨k, hk, hkn⟩, -⟩
  obtain ⟨p', hp', hnobj, hlen, -, hcls⟩ := create_package_loads
  cases Except.ok.inj (hp.symm.trans hp')
  have hne : ∀ s : String, some (asNs ++ "#" ++ s) ≠ some "default" := by
    intro s h
    have := congrArg String.toList (Option.some.inj h)
    rw [String.toList_append, String.toList_append] at this
    have := congrArg List.head? this
    rw [List.append_assoc, List.head?_append, show asNs.toList.head? = some 'h' by decide +kernel,
      show "default".toList.head? = some 'd' by decide +kernel] at this
    simp at this
  unfold Package.objects settle at hk
  simp only [hnobj] at hk
  rw [List.getElem?_take, List.getElem?_mapIdx] at hk
  split_ifs at hk with hi
  obtain ⟨k', hk', rfl⟩ := Option.map_eq_some_iff.1 hk
  unfold nsAfter at hkn
  split_ifs at hkn with hh
  · exact hne _ hkn
  · have hjo : i < asOrder.length := by rw [← hlen]; exact (List.getElem?_eq_some_iff.1 hk').1
    obtain ⟨k'', hk'', k2, -⟩ := hcls i _ (List.getElem?_eq_getElem hjo)
    cases (Option.some.inj (hk'.symm.trans hk''))
    rw [k2, nsOfName_eq] at hkn
    obtain ⟨f, -, hf⟩ := Option.map_eq_some_iff.1 hkn
    exact hne f (by rw [hf])

theorem loadClasses_wf (cs : List (Option String × Nat)) (reg : PyDict (Option String) Nat) (h : reg.WF) : (loadClasses reg cs).WF := by
  induction cs generalizing reg with
  | nil => exact h
  | cons c cs ih =>
    obtain ⟨n, k⟩ := c
    rw [loadClasses]
    apply ih
    by_cases hm : n ∈ reg.dkeys
    · rw [if_pos hm]; exact h
    · rw [if_neg hm]; unfold registerClass; rw [if_neg hm]; exact PyDict.wf_dset h n k

theorem registryOf_dget {p p' : Package} {e : EngineObj} (he : EngineObj.new (.pkg p') = .ok e) (t : String) (c : String) :
    (registryOf p e).dget t = some c ↔ ∃ i, e.registry.dget (some t) = some i ∧ (p.classes[i]?).map (·.name) = some c := by
  have hwf : e.registry.WF := by
    injection he with he; subst he
    exact loadClasses_wf _ _ PyDict.wf_nil
  unfold registryOf
  generalize e.registry = reg at hwf
  induction reg with
  | nil => simp [List.dget]
  | cons x reg ih =>
    obtain ⟨k, i⟩ := x
    have hwf' : List.WF reg := (List.nodup_cons.1 hwf).2
    have hk : k ∉ reg.dkeys := (List.nodup_cons.1 hwf).1
    rw [List.filterMap_cons]
    simp only [List.dget]
    by_cases hkt : k = some t
    · subst hkt
      rw [if_pos rfl]
      cases hc : p.classes[i]? with
      | none =>
        have h0 := ih hwf'
        rw [PyDict.dget_eq_none.2 hk] at h0
        refine h0.trans ?_
        simp [hc]
      | some d =>
        simp [List.dget, hc]
    · rw [if_neg hkt]
      cases k with
      | none => exact ih hwf'
      | some s =>
        have hst : s ≠ t := fun h => hkt (by rw [h])
        cases hc : p.classes[i]? with
        | none => exact ih hwf'
        | some d =>
          simp only [List.dget, if_neg hst]
          exact ih hwf'

/-- C81: what the engine of the package knows: the types of all classes but Object and Link. -/
theorem engine_classes (repr : Nat → String) (hrepr : ∀ i, (repr i).toList.head? = some '<') :
    ∃ p e, createPackage = .ok p ∧ createEngine repr = .ok e ∧ (registryOf p e).dget "default" = none ∧
      ∀ c ∈ pkgClasses, ∀ row, classRow c = some row →
        (registryOf p e).dget (asNs ++ "#" ++ row.type) = if c = "Object" ∨ c = "Link" then none else some c := by
  obtain ⟨p, e, hp, he, h⟩ := engine_types repr hrepr
  have he' : EngineObj.new (.pkg (settle repr p)) = .ok e := by rw [← he, createEngine_eq repr hp]
  refine ⟨p, e, hp, he, ?_, ?_⟩
  · rw [Option.eq_none_iff_forall_ne_some]
    intro c hc
    obtain ⟨i, hi, -⟩ := (registryOf_dget he' _ _).1 hc
    exact no_default hp he i hi
  · intro c hc row hrow
    have hfr : fragment (false, c) = some row.type := by
      show (classRow c).map (·.type) = _; rw [hrow]; rfl
    have hhead := fragment_head (false, c) ((mem_allNames false c).2 hc) _ hfr
    have huniq : ∀ c' row', c' ∈ pkgClasses → classRow c' = some row' → row'.type = row.type → c' = c := by
      intro c' row' hc' hrow' ht
      have hf : nsOfName (false, c') = nsOfName (false, c) := by
        simp [nsOfName, classNs, hrow', hrow, ht]
      exact (Prod.mk.inj (nsOfName_inj_on ((mem_asOrder _).2 ((mem_allNames false c').2 hc'))
        ((mem_asOrder _).2 ((mem_allNames false c).2 hc)) hf)).2
    by_cases hcl : c = "Object" ∨ c = "Link"
    · rw [if_pos hcl, Option.eq_none_iff_forall_ne_some]
      intro d hd
      obtain ⟨i, hi, -⟩ := (registryOf_dget he' _ _).1 hd
      obtain ⟨c', row', g1, g2, g3, g4, g5, -⟩ := (h _ i hhead).1 hi
      cases huniq c' row' g1 g2 g3
      rcases hcl with hcl | hcl
      · exact g4 hcl
      · exact g5 hcl
    · rw [if_neg hcl]
      have hcl' := not_or.1 hcl
      obtain ⟨p', hp', hnobj, -, -, hcls⟩ := create_package_loads
      cases Except.ok.inj (hp.symm.trans hp')
      obtain ⟨i, hi, hin⟩ := List.getElem_of_mem ((mem_asOrder (false, c)).2 ((mem_allNames false c).2 hc))
      have hn : asOrder[i]? = some (false, c) := by rw [List.getElem?_eq_getElem hi, hin]
      obtain ⟨k, hk, -, k3, -⟩ := hcls i _ hn
      have hname : (p.classes[i]?).map (·.name) = some c := by rw [hk]; simp [k3]
      rw [registryOf_dget he']
      exact ⟨i, (h _ i hhead).2 ⟨c, row, hc, hrow, rfl, hcl'.1, hcl'.2, (asOrder_objects i _ hn).2 rfl, hname⟩, hname⟩

variable {J : Type}

/-- C81 (false of the code): a document of type Object or Link cannot be loaded: at the top it raises AttributeError, inside another
document it is replaced by None without a word, whatever it contains. -/
theorem links_not_loaded (repr : Nat → String) (hrepr : ∀ i, (repr i).toList.head? = some '<') :
    ∃ p e, createPackage = .ok p ∧ createEngine repr = .ok e ∧ ∀ (w : World J) (expand : Tree → Outcome Expansion) (t : String),
      t = "Object" ∨ t = "Link" →
      (∀ kvs ts, expand (.obj (normalized kvs)) = .ok (.typed ((asNs ++ "#" ++ t) :: ts)) →
        (asEngine w expand (registryOf p e)).fromJson kvs = .error .attributeError) ∧
      ∀ ctx kvs ts, expand (.obj (withContext ctx kvs)) = .ok (.typed ((asNs ++ "#" ++ t) :: ts)) →
        (asEngine w expand (registryOf p e)).unpack ctx (.obj kvs) = .ok .none := by
  obtain ⟨p, e, hp, he, hd, hc⟩ := engine_classes repr hrepr
  refine ⟨p, e, hp, he, fun w expand t ht => ?_⟩
  have hno : NoClass (asEngine w expand (registryOf p e)) (asNs ++ "#" ++ t) := by
    refine ⟨?_, hd⟩
    have rows : (classRow "Object").map (·.type) = some "Object" ∧ (classRow "Link").map (·.type) = some "Link" ∧
      "Object" ∈ pkgClasses ∧ "Link" ∈ pkgClasses := by decide +kernel
    obtain ⟨r1, r2, m1, m2⟩ := rows
    rcases ht with rfl | rfl
    · obtain ⟨row, hrow, hr⟩ := Option.map_eq_some_iff.1 r1
      have := hc _ m1 row hrow
      rw [hr, if_pos (Or.inl rfl)] at this; exact this
    · obtain ⟨row, hrow, hr⟩ := Option.map_eq_some_iff.1 r2
      have := hc _ m2 row hrow
      rw [hr, if_pos (Or.inr rfl)] at this; exact this
  exact ⟨fun kvs ts hx => unknown_type_attribute_error _ kvs _ _ hx (.typed _ ts) hno,
    fun ctx kvs ts hx => nested_unknown_lost _ ctx kvs _ ts hx hno⟩

/-- The class of a known type is called with the properties of the class (C81, C60): `from_json` of a document whose type is that of any
other class of the package builds an object of that class. -/
theorem known_types_loaded_partial (repr : Nat → String) (hrepr : ∀ i, (repr i).toList.head? = some '<') :
    ∃ p e, createPackage = .ok p ∧ createEngine repr = .ok e ∧ ∀ (w : World J) (expand : Tree → Outcome Expansion) (c : String) (row : ClassRow),
      c ∈ pkgClasses → classRow c = some row → c ≠ "Object" → c ≠ "Link" → ∀ kvs ts,
      expand (.obj (normalized kvs)) = .ok (.typed ((asNs ++ "#" ++ row.type) :: ts)) → ∀ v,
      (asEngine w expand (registryOf p e)).fromJson kvs = .ok v ↔ ∃ value : String → Val,
        (∀ q ∈ propNames c, ∀ y, kvs.dget q = some y → Unpacks (asEngine w expand (registryOf p e)) (contextOf kvs) y (value q)) ∧
        (∀ q ∈ propNames c, kvs.dget q = none → value q = .none) ∧
        ∃ s, construct w true c ((((propNames c).map fun q => (q, value q)) : PyDict String Val).dset "acontext" (contextOf kvs).toVal) = .ok s ∧
          v = objVal c s := by
  obtain ⟨p, e, hp, he, hd, hc⟩ := engine_classes repr hrepr
  refine ⟨p, e, hp, he, fun w expand c row hm hrow h1 h2 kvs ts hx v => ?_⟩
  have hno : NoContextProperty (asEngine w expand (registryOf p e)) := by
    intro cls hcon
    have : "@context" ∈ propNames cls := hcon
    have hr : ∀ row ∈ propTable, row.name ≠ "@context" := by decide +kernel
    simp only [propNames, List.mem_cons, List.mem_map] at this
    rcases this with h | h | ⟨row, hrow, hn⟩
    · exact absurd h (by decide)
    · exact absurd h (by decide)
    · obtain ⟨a, ha, hrow⟩ := List.mem_flatMap.1 hrow
      obtain ⟨q, -, hq⟩ := List.mem_filterMap.1 hrow
      exact hr row (List.mem_of_find?_eq_some hq) hn
  have hreg := hc c hm row hrow
  rw [if_neg (not_or.2 ⟨h1, h2⟩)] at hreg
  rw [from_json_builds hno]
  have hcon : ∀ kw v, (asEngine w expand (registryOf p e)).construct c kw = .ok v ↔ ∃ s, construct w true c kw = .ok s ∧ v = objVal c s := by
    intro kw v
    show (match construct w true c kw with | .error e => (.error e : Outcome Val) | .ok s => .ok (objVal c s)) = .ok v ↔ _
    cases construct w true c kw with
    | error x => simp
    | ok s => simp [eq_comm]
  constructor
  · rintro ⟨_, x, t, cls, value, _, hx', ht, hcl, hs, hn, hv⟩
    have : (asEngine w expand (registryOf p e)).expand (.obj (normalized kvs)) = .ok (.typed ((asNs ++ "#" ++ row.type) :: ts)) := hx
    rw [this] at hx'
    cases Except.ok.inj hx'
    cases ht
    rcases hcl with hcl | ⟨hcl, -⟩
    · have : (registryOf p e).dget (asNs ++ "#" ++ row.type) = some cls := hcl
      rw [hreg] at this
      cases Option.some.inj this
      exact ⟨value, hs, hn, (hcon _ _).1 hv⟩
    · have : (registryOf p e).dget (asNs ++ "#" ++ row.type) = none := hcl
      rw [hreg] at this; cases this
  · rintro ⟨value, hs, hn, hv⟩
    exact .mk kvs _ _ c value v hx (.typed _ ts) (Or.inl hreg) hs hn ((hcon _ _).2 hv)

/-- The texts of property objects begin as assumed above. -/
example : ∀ i, ((fun _ : Nat => "<property object at 0x7f>") i).toList.head? = some '<' := by
  intro i; show "<property object at 0x7f>".toList.head? = _; decide +kernel

/-- A class that is found, and one that is not. -/
example : ∃ p e, createPackage = .ok p ∧ createEngine (fun _ => "<property object at 0x7f>") = .ok e ∧
    (registryOf p e).dget (asNs ++ "#" ++ "Note") = some "Note" ∧ (registryOf p e).dget (asNs ++ "#" ++ "Link") = none := by
  obtain ⟨p, e, hp, he, -, h⟩ := engine_classes (fun _ => "<property object at 0x7f>") (fun _ => by show "<property object at 0x7f>".toList.head? = _; decide +kernel)
  have rows : (classRow "Note").map (·.type) = some "Note" ∧ (classRow "Link").map (·.type) = some "Link" ∧
      "Note" ∈ pkgClasses ∧ "Link" ∈ pkgClasses := by decide +kernel
  obtain ⟨r1, r2, m1, m2⟩ := rows
  obtain ⟨row1, g1, e1⟩ := Option.map_eq_some_iff.1 r1
  obtain ⟨row2, g2, e2⟩ := Option.map_eq_some_iff.1 r2
  refine ⟨p, e, hp, he, ?_, ?_⟩
  · have := h _ m1 row1 g1
    rw [e1, if_neg (by decide +kernel)] at this; exact this
  · have := h _ m2 row2 g2
    rw [e2, if_pos (Or.inr rfl)] at this; exact this

end Verif.Props
