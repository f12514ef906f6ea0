import Verif.AS.Package
import Verif.Props.Package
import Verif.Props.Clone

/-!
# The shipped ActivityStreams package (C70, C81)
-/
namespace Verif.Props
open Verif Verif.Jsonld Verif.AS

/-! ### The tables -/

/-- What follows "…#" in a namespace. -/
def fragment : Name → Option String
  | (false, c) => (classRow c).map (·.type)
  | (true, p) => (propTable.find? fun r => r.cls == p).map fun r => "dfn-" ++ r.name

/-- The namespace of a class. -/
def nsOfName : Name → Option String
  | (false, c) => classNs c
  | (true, p) => propNs p

theorem nsOfName_eq (n : Name) : nsOfName n = (fragment n).map fun f => asNs ++ "#" ++ f := by
  obtain ⟨b, c⟩ := n
  cases b
  · simp only [nsOfName, fragment, classNs, Option.map_map]; rfl
  · simp only [nsOfName, fragment, propNs, Option.map_map]
    congr 1

theorem append_inj_left {a b c : String} (h : a ++ b = a ++ c) : b = c := by
  have := congrArg String.toList h
  rw [String.toList_append, String.toList_append] at this
  exact String.toList_inj.1 (List.append_cancel_left this)

theorem nsOfName_inj {n m : Name} (h : nsOfName n = nsOfName m) : fragment n = fragment m := by
  rw [nsOfName_eq, nsOfName_eq] at h
  exact Option.map_injective (fun a b hab => append_inj_left hab) h

/-- The classes of the package. -/
def allNames : List Name := (pkgClasses.map fun c => (false, c)) ++ pkgProperties.map fun p => (true, p)

theorem fragments_distinct : (allNames.map fragment).Nodup ∧ none ∉ allNames.map fragment := by decide +kernel

/-- C70: the namespaces of all classes and properties of the package are known and pairwise distinct. -/
theorem namespaces_distinct : (pkgClasses.map classNs ++ pkgProperties.map propNs).Nodup ∧
    none ∉ pkgClasses.map classNs ++ pkgProperties.map propNs := by
  have h : pkgClasses.map classNs ++ pkgProperties.map propNs = allNames.map nsOfName := by
    unfold allNames; rw [List.map_append, List.map_map, List.map_map]; rfl
  rw [h]
  constructor
  · refine List.Nodup.map_on (fun x hx y hy hxy => ?_) (List.Nodup.of_map _ fragments_distinct.1)
    exact List.inj_on_of_nodup_map fragments_distinct.1 hx hy (nsOfName_inj hxy)
  · intro hn
    obtain ⟨n, hn, he⟩ := List.mem_map.1 hn
    refine fragments_distinct.2 (List.mem_map.2 ⟨n, hn, ?_⟩)
    rw [nsOfName_eq, Option.map_eq_none_iff] at he
    exact he

/-- C70: the type names are pairwise distinct. -/
theorem type_names_distinct : (classTable.map (·.type)).Nodup ∧ (propTable.map (·.name)).Nodup := by decide +kernel

/-- C70: the package has every class of models.py and every property class of properties.py once. -/
theorem package_complete : List.Perm pkgClasses (classTable.map (·.cls)) ∧ List.Perm pkgProperties (propTable.map (·.cls)) := by
  decide +kernel

/-- C70: every entry of the mapping names a class of the package and properties of the package. -/
theorem mapping_known : (∀ e ∈ pkgMapping, e.1 ∈ pkgClasses ∧ ∀ p ∈ e.2, p ∈ pkgProperties) ∧ (pkgMapping.map (·.1)).Nodup ∧
    ∀ e ∈ pkgMapping, e.2.Nodup := by decide +kernel

/-! ### Cloning -/

theorem hierTable_mro : ∀ r ∈ hierTable, Clone.linearize (false, r.1) ((nameBases (false, r.1)).map nameMro) (nameBases (false, r.1)) =
    .ok (nameMro (false, r.1)) := by decide +kernel

theorem propTable_mro : ∀ c ∈ "JsonProperty" :: "ActivityStreamsProperty" :: propTable.map (·.cls),
    Clone.linearize (true, c) ((nameBases (true, c)).map nameMro) (nameBases (true, c)) = .ok (nameMro (true, c)) := by decide +kernel

theorem as_isPython : IsPython asHier := by
  rintro ⟨b, c⟩
  cases b with
  | false =>
    by_cases h : c ∈ hierTable.map (·.1)
    · obtain ⟨r, hr, rfl⟩ := List.mem_map.1 h
      exact hierTable_mro r hr
    · have hd : hierTable.dget c = none := PyDict.dget_eq_none.2 h
      show Clone.linearize (false, c) ((nameBases (false, c)).map nameMro) (nameBases (false, c)) = .ok (nameMro (false, c))
      have h1 : nameBases (false, c) = [] := by simp [nameBases, AS.basesOf, hd]
      have h2 : nameMro (false, c) = [(false, c)] := by simp [nameMro, AS.mroOf, hd]
      rw [h1, h2]; rfl
  | true =>
    by_cases h : c ∈ "JsonProperty" :: "ActivityStreamsProperty" :: propTable.map (·.cls)
    · exact propTable_mro c h
    · simp only [List.mem_cons, not_or] at h
      obtain ⟨h1, h2, h3⟩ := h
      show Clone.linearize (true, c) ((nameBases (true, c)).map nameMro) (nameBases (true, c)) = .ok (nameMro (true, c))
      have e1 : nameBases (true, c) = [] := by simp [nameBases, h1, h2]; simpa using h3
      have e2 : nameMro (true, c) = [(true, c)] := by simp [nameMro, h1, h2]; simpa using h3
      rw [e1, e2]; rfl

/-- A package is first in every mro if the mro is its classes followed by the others. -/
theorem packageFirst_of {C : Type} [DecidableEq C] {h : Clone.Hier C} {classes : List C}
    (hs : ∀ c ∈ classes, (h.mro c) = (h.mro c).filter (fun a => decide (a ∈ classes)) ++ (h.mro c).filter fun a => !decide (a ∈ classes)) :
    PackageFirst h classes := by
  intro c hc a ha b hb hsub
  rw [hs c hc, List.sublist_append_iff] at hsub
  obtain ⟨l1, l2, hl, h1, h2⟩ := hsub
  cases l1 with
  | nil =>
    rw [List.nil_append] at hl
    have : b ∈ l2 := by rw [← hl]; simp
    have := (List.mem_filter.1 (h2.subset this)).2
    simp [hb] at this
  | cons x l1 =>
    injection hl with hx _
    have := (List.mem_filter.1 (h1.subset (List.mem_cons_self (a := x) (l := l1)))).2
    rw [← hx] at this
    simp [ha] at this

theorem classes_first : ∀ c ∈ pkgClasses, nameMro (false, c) =
    (nameMro (false, c)).filter (fun a => decide (a ∈ pkgClasses.map fun c => ((false, c) : Name))) ++
    (nameMro (false, c)).filter fun a => !decide (a ∈ pkgClasses.map fun c => ((false, c) : Name)) := by decide +kernel

theorem props_first : ∀ c ∈ pkgProperties, nameMro (true, c) =
    (nameMro (true, c)).filter (fun a => decide (a ∈ pkgProperties.map fun c => ((true, c) : Name))) ++
    (nameMro (true, c)).filter fun a => !decide (a ∈ pkgProperties.map fun c => ((true, c) : Name)) := by decide +kernel

theorem as_packageFirst (b : Bool) (l : List String) (hl : (b, l) = (false, pkgClasses) ∨ (b, l) = (true, pkgProperties)) :
    PackageFirst asHier (l.map fun c => (b, c)) := by
  refine packageFirst_of fun n hn => ?_
  obtain ⟨c, hc, rfl⟩ := List.mem_map.1 hn
  rcases hl with h | h <;> (injection h with h1 h2; subst h1; subst h2)
  · convert classes_first c hc <;> rfl
  · convert props_first c hc <;> rfl

theorem classes_bases : ∀ c ∈ pkgClasses, ∀ b ∈ nameBases (false, c), ∀ b' ∈ nameBases (false, c), b ≠ b' → b ∉ nameMro b' := by
  decide +kernel

theorem props_bases : ∀ c ∈ pkgProperties, ∀ b ∈ nameBases (true, c), ∀ b' ∈ nameBases (true, c), b ≠ b' → b ∉ nameMro b' := by
  decide +kernel

theorem as_noRedundant (b : Bool) (l : List String) (hl : (b, l) = (false, pkgClasses) ∨ (b, l) = (true, pkgProperties)) :
    NoRedundantBases asHier (l.map fun c => (b, c)) := by
  intro n hn
  obtain ⟨c, hc, rfl⟩ := List.mem_map.1 hn
  rcases hl with h | h <;> (injection h with h1 h2; subst h1; subst h2)
  · exact classes_bases c hc
  · exact props_bases c hc

/-- C70, C84: the classes of the package can be cloned, and the mro of each clone is the clones of the mro of its original, then that
mro. -/
theorem as_clones (b : Bool) (l : List String) (hl : (b, l) = (false, pkgClasses) ∨ (b, l) = (true, pkgProperties)) :
    ∃ res, Clone.cloneClasses asHier (l.map fun c => (b, c)) = some (.ok res) ∧
      ∀ c ∈ l, res.dget (b, c) = some (expectedMro asHier (l.map fun c => (b, c)) (b, c)) := by
  obtain ⟨res, h1, -, h3⟩ := clone_mro_partial as_isPython _ (as_packageFirst b l hl) (as_noRedundant b l hl)
  exact ⟨res, h1, fun c hc => h3 _ (List.mem_map.2 ⟨c, hc, rfl⟩)⟩

/-- The record of a class. -/
def clsOf : Name → Cls
  | (false, c) => objCls c
  | (true, p) => propCls p

/-- All classes in the order they have in the package. -/
def asOrder : List Name := cloneOrder (pkgClasses.map fun c => (false, c)) ++ cloneOrder (pkgProperties.map fun c => (true, c))

theorem mem_asOrder (n : Name) : n ∈ asOrder ↔ n ∈ allNames := by
  unfold asOrder allNames cloneOrder
  rw [List.mem_append, List.mem_append, mem_refKeys, mem_refKeys]

theorem prop_rows : ∀ p ∈ pkgProperties, (propTable.find? fun r => r.cls == p).isSome := by decide +kernel

theorem key_clsOf (n : Name) (hn : n ∈ allNames) : AS.Cls.key (clsOf n) = n := by
  obtain ⟨b, c⟩ := n
  cases b
  · rfl
  · have hc : c ∈ pkgProperties := by
      unfold allNames at hn
      rw [List.mem_append] at hn
      rcases hn with h | h
      · obtain ⟨_, _, h⟩ := List.mem_map.1 h; injection h with h _; cases h
      · obtain ⟨_, h1, h⟩ := List.mem_map.1 h; injection h with _ h; exact h ▸ h1
    have := prop_rows c hc
    simp only [AS.Cls.key, clsOf, propCls]
    rw [Option.isSome_map, this]

theorem asCloner_eq (b : Bool) (l : List String) (hl : (b, l) = (false, pkgClasses) ∨ (b, l) = (true, pkgProperties)) :
    asCloner (l.map fun c => clsOf (b, c)) = .ok ((cloneOrder (l.map fun c => (b, c))).map clsOf) := by
  have hall : ∀ c ∈ l, (b, c) ∈ allNames := by
    intro c hc
    unfold allNames
    rw [List.mem_append, List.mem_map, List.mem_map]
    rcases hl with h | h <;> (injection h with h1 h2; subst h1; subst h2)
    · left; exact ⟨c, hc, rfl⟩
    · right; exact ⟨c, hc, rfl⟩
  have hk : (l.map fun c => clsOf (b, c)).map AS.Cls.key = l.map fun c => (b, c) := by
    rw [List.map_map]
    exact List.map_congr_left fun c hc => key_clsOf _ (hall c hc)
  obtain ⟨res, h1, -⟩ := as_clones b l hl
  unfold asCloner
  rw [hk, h1]
  simp only []
  congr 1
  have hm : ∀ n ∈ cloneOrder (l.map fun c => (b, c)), n ∈ l.map fun c => (b, c) := fun n hn => (mem_refKeys _ _ n).1 hn
  generalize cloneOrder (l.map fun c => (b, c)) = order at hm
  induction order with
  | nil => rfl
  | cons n order ih =>
    rw [List.filterMap_cons, List.map_cons, ih fun x hx => hm x (List.mem_cons_of_mem _ hx)]
    have hn := hm n List.mem_cons_self
    obtain ⟨c, hc, rfl⟩ := List.mem_map.1 hn
    have : (l.map fun c => clsOf (b, c)).find? (fun k => AS.Cls.key k == (b, c)) = some (clsOf (b, c)) := by
      cases hf : (l.map fun c => clsOf (b, c)).find? (fun k => AS.Cls.key k == (b, c)) with
      | none =>
        rw [List.find?_eq_none] at hf
        exact absurd (hf _ (List.mem_map.2 ⟨c, hc, rfl⟩)) (by simp [key_clsOf _ (hall c hc)])
      | some k =>
        have h2 := List.find?_some hf
        obtain ⟨c', hc', rfl⟩ := List.mem_map.1 (List.mem_of_find?_eq_some hf)
        rw [key_clsOf _ (hall c' hc')] at h2
        rw [eq_of_beq h2]
    rw [this]

theorem clsOf_ns (n : Name) : (clsOf n).ns = nsOfName n := by
  obtain ⟨b, c⟩ := n; cases b <;> rfl

theorem nodup_asOrder : asOrder.Nodup := by
  unfold asOrder cloneOrder
  rw [List.nodup_append]
  refine ⟨nodup_refKeys _ _, nodup_refKeys _ _, ?_⟩
  intro a ha b hb hab
  obtain ⟨_, _, rfl⟩ := List.mem_map.1 ((mem_refKeys _ _ _).1 ha)
  obtain ⟨_, _, rfl⟩ := List.mem_map.1 ((mem_refKeys _ _ _).1 hb)
  injection hab with h; cases h

theorem nsOfName_inj_on {n m : Name} (hn : n ∈ asOrder) (hm : m ∈ asOrder) (h : nsOfName n = nsOfName m) : n = m :=
  List.inj_on_of_nodup_map fragments_distinct.1 ((mem_asOrder n).1 hn) ((mem_asOrder m).1 hm) (nsOfName_inj h)

theorem refersTo_iff (ns : String) (i : Nat) :
    RefersTo (asOrder.map clsOf) ns i ↔ ∃ n, asOrder[i]? = some n ∧ nsOfName n = some ns := by
  unfold RefersTo
  constructor
  · rintro ⟨⟨c, hc, hns⟩, -⟩
    rw [List.getElem?_map, Option.map_eq_some_iff] at hc
    obtain ⟨n, hn, rfl⟩ := hc
    exact ⟨n, hn, by rw [← clsOf_ns]; exact hns⟩
  · rintro ⟨n, hn, hns⟩
    refine ⟨⟨clsOf n, by rw [List.getElem?_map, hn]; rfl, by rw [clsOf_ns]; exact hns⟩, ?_⟩
    intro j c hj hc hcn
    rw [List.getElem?_map, Option.map_eq_some_iff] at hc
    obtain ⟨m, hm, rfl⟩ := hc
    rw [clsOf_ns] at hcn
    have := nsOfName_inj_on (List.mem_of_getElem? hn) (List.mem_of_getElem? hm) (hns.trans hcn.symm)
    subst this
    have h1 := (List.getElem?_eq_some_iff.1 hn)
    have h2 := (List.getElem?_eq_some_iff.1 hm)
    obtain ⟨h1l, h1⟩ := h1
    obtain ⟨h2l, h2⟩ := h2
    have := (nodup_asOrder.getElem_inj_iff (hi := h1l) (hj := h2l)).1 (h1.trans h2.symm)
    omega

/-! ### The package -/

theorem class_rows : ∀ c ∈ pkgClasses, (classRow c).isSome := by decide +kernel

theorem mem_allNames (b : Bool) (c : String) : (b, c) ∈ allNames ↔ c ∈ if b then pkgProperties else pkgClasses := by
  unfold allNames
  rw [List.mem_append, List.mem_map, List.mem_map]
  cases b <;> simp

theorem asMapping_valid : MappingValid (asOrder.map clsOf) asMapping := by
  intro e he
  obtain ⟨e', he', rfl⟩ := List.mem_map.1 he
  obtain ⟨h1, h2⟩ := mapping_known.1 e' he'
  constructor
  · obtain ⟨i, hi, hin⟩ := List.getElem_of_mem ((mem_asOrder (false, e'.1)).2 ((mem_allNames _ _).2 h1))
    refine ⟨i, (refersTo_iff _ _).2 ⟨(false, e'.1), by rw [List.getElem?_eq_getElem hi, hin], ?_⟩⟩
    obtain ⟨r, hr⟩ := Option.isSome_iff_exists.1 (class_rows _ h1)
    simp [nsOfName, classNs, hr]
  · intro q hq
    obtain ⟨p, hp, rfl⟩ := List.mem_map.1 hq
    have hpk := h2 p hp
    obtain ⟨i, hi, hin⟩ := List.getElem_of_mem ((mem_asOrder (true, p)).2 ((mem_allNames _ _).2 hpk))
    obtain ⟨r, hr⟩ := Option.isSome_iff_exists.1 (prop_rows _ hpk)
    refine ⟨i, clsOf (true, p), (refersTo_iff _ _).2 ⟨(true, p), by rw [List.getElem?_eq_getElem hi, hin], ?_⟩, ?_, ?_⟩
    · simp [nsOfName, propNs, hr]
    · rw [List.getElem?_map, List.getElem?_eq_getElem hi, hin]; rfl
    · simp [clsOf, propCls, hr]

/-- The property class `p` has the row with name `n` and line `r`. -/
theorem lists_iff (i : Nat) (n : String) (r : Nat) : Lists (asOrder.map clsOf) asMapping i n r ↔
    ∃ c, asOrder[i]? = some (false, c) ∧ ∃ row ∈ linkedRows c, row.name = n ∧ row.line = r := by
  unfold Lists
  constructor
  · rintro ⟨e, he, hi, q, hq, j, k, hj, hk, hprop⟩
    obtain ⟨e', he', rfl⟩ := List.mem_map.1 he
    obtain ⟨p, hp, rfl⟩ := List.mem_map.1 hq
    obtain ⟨h1, h2⟩ := mapping_known.1 e' he'
    have hpk := h2 p hp
    obtain ⟨m, hm, hms⟩ := (refersTo_iff _ _).1 hi
    obtain ⟨cr, hcr⟩ := Option.isSome_iff_exists.1 (class_rows _ h1)
    obtain ⟨row, hrow⟩ := Option.isSome_iff_exists.1 (prop_rows _ hpk)
    have hm' : m = (false, e'.1) := by
      refine nsOfName_inj_on (List.mem_of_getElem? hm) ((mem_asOrder _).2 ((mem_allNames _ _).2 h1)) ?_
      rw [hms]; simp [nsOfName, classNs, hcr]
    refine ⟨e'.1, by rw [hm, hm'], row, ?_, ?_⟩
    · unfold linkedRows
      rw [PyDict.dget_of_mem (show List.WF pkgMapping from mapping_known.2.1) he']
      exact List.mem_filterMap.2 ⟨p, hp, hrow⟩
    · obtain ⟨m2, hm2, hms2⟩ := (refersTo_iff _ _).1 hj
      have hm2' : m2 = (true, p) := by
        refine nsOfName_inj_on (List.mem_of_getElem? hm2) ((mem_asOrder _).2 ((mem_allNames _ _).2 hpk)) ?_
        rw [hms2]; simp [nsOfName, propNs, hrow]
      rw [List.getElem?_map, hm2, hm2'] at hk
      injection hk with hk
      rw [← hk] at hprop
      simp only [clsOf, propCls, hrow, Option.map_some, Option.some.injEq, Prod.mk.injEq] at hprop
      exact hprop
  · rintro ⟨c, hc, row, hrow, rfl, rfl⟩
    unfold linkedRows at hrow
    cases hd : pkgMapping.dget c with
    | none => rw [hd] at hrow; simp at hrow
    | some ps =>
      rw [hd] at hrow
      obtain ⟨p, hp, hpr⟩ := List.mem_filterMap.1 hrow
      have hmem := PyDict.dget_mem hd
      obtain ⟨h1, h2⟩ := mapping_known.1 _ hmem
      have hpk := h2 p hp
      obtain ⟨cr, hcr⟩ := Option.isSome_iff_exists.1 (class_rows _ h1)
      obtain ⟨j, hj, hjn⟩ := List.getElem_of_mem ((mem_asOrder (true, p)).2 ((mem_allNames _ _).2 hpk))
      refine ⟨_, List.mem_map.2 ⟨(c, ps), hmem, rfl⟩, (refersTo_iff _ _).2 ⟨_, hc, ?_⟩, _, List.mem_map.2 ⟨p, hp, rfl⟩, j,
        clsOf (true, p), (refersTo_iff _ _).2 ⟨(true, p), by rw [List.getElem?_eq_getElem hj, hjn], ?_⟩, ?_, ?_⟩
      · simp [nsOfName, classNs, hcr]
      · simp [nsOfName, propNs, hpr]
      · rw [List.getElem?_map, List.getElem?_eq_getElem hj, hjn]; rfl
      · simp [clsOf, propCls, hpr]

theorem linked_names : ∀ c ∈ pkgClasses, ((linkedRows c).map (·.name)).Nodup := by decide +kernel

theorem up_mem : ∀ c ∈ pkgClasses, (objCls c).up.map (asOrder[·]?) = ((mroOf c).filter fun a => pkgClasses.contains a).map fun a => some (false, a) := by
  decide +kernel

theorem order_length : (cloneOrder (pkgClasses.map fun c => (false, c))).length = pkgClasses.length := by decide +kernel

theorem linked_packaged : ∀ e ∈ pkgMapping, e.1 ∈ pkgClasses := fun e he => (mapping_known.1 e he).1

theorem new_shape {clone : Package.Cloner} {ns : String} {objects properties os ps : List Cls} {m : Mapping} {p : Package}
    (ho : clone objects = .ok os) (hp : clone properties = .ok ps)
    (h : Package.new clone ns objects properties (some m) = .ok p) :
    p.nobj = os.length ∧ p.classes.length = (os ++ ps).length ∧ ∀ q, p.get q = (rawPackage ns os ps).get q := by
  have hnew : Package.new clone ns objects properties (some m) = (rawPackage ns os ps).withMapping (some m) := by
    unfold Package.new; rw [ho]; simp only [hp]; rfl
  have hg : GoodMapping (rawPackage ns os ps) m := goodMapping_iff.2 ((build_iff clone ns objects properties os ps m ho hp).1 ⟨p, h⟩)
  rw [hnew] at h
  unfold Package.withMapping at h
  simp only [performMapping_ok _ _ hg, Except.ok.injEq] at h
  subst h
  refine ⟨rfl, ?_, fun q => rfl⟩
  unfold addLinks; simp [rawPackage]

theorem rowsOf_mem (c : String) (nm : String) : (∃ row ∈ rowsOf c, row.name = nm) ↔
    ∃ a ∈ mroOf c, a ∈ pkgClasses ∧ ∃ row ∈ linkedRows a, row.name = nm := by
  unfold rowsOf
  simp only [List.mem_flatMap]
  constructor
  · rintro ⟨row, ⟨a, ha, hr⟩, hn⟩
    refine ⟨a, ha, ?_, row, hr, hn⟩
    unfold linkedRows at hr
    cases hd : pkgMapping.dget a with
    | none => rw [hd] at hr; simp at hr
    | some ps => exact linked_packaged _ (PyDict.dget_mem hd)
  · rintro ⟨a, ha, -, row, hr, hn⟩
    exact ⟨row, ⟨a, ha, hr⟩, hn⟩

/-- C70: `create_package()` raises no error.  In the package every class and property is found under its namespace; to each class exactly
the properties of the mapping are linked; and its properties are those linked to it or to a class it descends from. -/
theorem create_package_loads : ∃ p, createPackage = .ok p ∧ p.nobj = pkgClasses.length ∧ p.classes.length = asOrder.length ∧
    (∀ ns i, p.get ns = some i ↔ ∃ n, asOrder[i]? = some n ∧ nsOfName n = some ns) ∧
    ∀ i n, asOrder[i]? = some n → ∃ k, p.classes[i]? = some k ∧ k.ns = nsOfName n ∧ k.name = n.2 ∧ k.prop.isSome = n.1 ∧
      (∀ nm l, k.linked.dget nm = some l ↔ ∃ c, n = (false, c) ∧ ∃ row ∈ linkedRows c, row.name = nm ∧ row.line = l) ∧
      (∀ nm, nm ∈ p.propertiesOf i ↔ ∃ c, n = (false, c) ∧ nm ∈ propNames c) := by
  have ho := asCloner_eq false pkgClasses (Or.inl rfl)
  have hp := asCloner_eq true pkgProperties (Or.inr rfl)
  have hcs : (cloneOrder (pkgClasses.map fun c => (false, c))).map clsOf ++ (cloneOrder (pkgProperties.map fun c => (true, c))).map clsOf =
      asOrder.map clsOf := by unfold asOrder; rw [List.map_append]
  obtain ⟨p, h⟩ := (build_iff asCloner asNs _ _ _ _ asMapping ho hp).2 (by rw [hcs]; exact asMapping_valid)
  obtain ⟨s1, s2, s3⟩ := new_shape ho hp h
  refine ⟨p, h, ?_, ?_, ?_, ?_⟩
  · rw [s1, List.length_map]; exact order_length
  · rw [s2, hcs, List.length_map]
  · intro ns i
    rw [s3, get_raw, hcs]; exact refersTo_iff ns i
  · intro i n hn
    have hc : (asOrder.map clsOf)[i]? = some (clsOf n) := by rw [List.getElem?_map, hn]; rfl
    have hnm : n ∈ allNames := (mem_asOrder n).1 (List.mem_of_getElem? hn)
    have hlinked : ∀ c ∈ asOrder.map clsOf, c.linked = [] := by
      intro c hc
      obtain ⟨⟨b, c⟩, -, rfl⟩ := List.mem_map.1 hc
      cases b <;> rfl
    obtain ⟨k, k1, k2, k3, k4, -, -, k5, k6⟩ := linking_exact asCloner asNs _ _ _ _ asMapping p ho hp h i (clsOf n) (by rw [hcs]; exact hc)
    rw [hcs] at k5 k6
    have hkey := key_clsOf n hnm
    have hname : k.name = n.2 := by rw [k3]; obtain ⟨b, c⟩ := n; cases b <;> rfl
    have hprop : k.prop.isSome = n.1 := by rw [k4]; exact congrArg Prod.fst hkey
    refine ⟨k, k1, by rw [k2, clsOf_ns], hname, hprop, ?_, ?_⟩
    · intro nm l
      constructor
      · intro hl
        rcases k6 nm l hl with hl | ⟨hl, -⟩
        · obtain ⟨c, hc', row, hrow⟩ := (lists_iff _ _ _).1 hl
          rw [hn] at hc'; injection hc' with hc'
          exact ⟨c, hc', row, hrow.1, hrow.2⟩
        · rw [hlinked _ (List.mem_map.2 ⟨n, List.mem_of_getElem? hn, rfl⟩)] at hl; cases hl
      · rintro ⟨c, rfl, row, hrow, rfl, rfl⟩
        have hL := (lists_iff i row.name row.line).2 ⟨c, hn, row, hrow, rfl, rfl⟩
        obtain ⟨l, hl⟩ := Option.ne_none_iff_exists'.1 (PyDict.dget_ne_none.2 ((k5 row.name).2 (Or.inr ⟨_, hL⟩)))
        rcases k6 _ _ hl with hl' | ⟨hl', -⟩
        · obtain ⟨c', hc', row', hrow', h1, h2⟩ := (lists_iff _ _ _).1 hl'
          cases (Prod.mk.inj (Option.some.inj (hn.symm.trans hc'))).2
          have := List.inj_on_of_nodup_map (linked_names c ((mem_allNames _ _).1 hnm)) hrow' hrow h1
          subst this
          rw [hl, h2]
        · rw [hlinked _ (List.mem_map.2 ⟨_, List.mem_of_getElem? hn, rfl⟩)] at hl'; cases hl'
    · intro nm
      have hup : ∀ j ∈ (clsOf n).up, ∃ a, asOrder[j]? = some (false, a) ∧ a ∈ pkgClasses ∧ a ∈ mroOf n.2 := by
        intro j hj
        obtain ⟨b, c⟩ := n
        cases b with
        | true => simp [clsOf, propCls] at hj
        | false =>
          have hu := up_mem c ((mem_allNames _ _).1 hnm)
          have : asOrder[j]? ∈ (objCls c).up.map (asOrder[·]?) := List.mem_map.2 ⟨j, hj, rfl⟩
          rw [hu] at this
          obtain ⟨a, ha, he⟩ := List.mem_map.1 this
          obtain ⟨ha1, ha2⟩ := List.mem_filter.1 ha
          exact ⟨a, he.symm, by simpa using ha2, ha1⟩
      have := (class_properties asCloner asNs _ _ _ _ asMapping p ho hp h (by rw [hcs]; exact hlinked) i (clsOf n) (by rw [hcs]; exact hc)
        (by
          intro j hj
          obtain ⟨a, ha, -⟩ := hup j hj
          rw [hcs, List.length_map]
          exact (List.getElem?_eq_some_iff.1 ha).1) nm).1
      rw [this, hcs]
      obtain ⟨b, c⟩ := n
      cases b with
      | true =>
        constructor
        · rintro (h | ⟨j, hj, -⟩)
          · cases h
          · cases hj
        · rintro ⟨c', h, -⟩; injection h with h; cases h
      | false =>
        have hL : (∃ j ∈ (clsOf (false, c)).up, ∃ r, Lists (asOrder.map clsOf) asMapping j nm r) ↔ ∃ row ∈ rowsOf c, row.name = nm := by
          rw [rowsOf_mem]
          constructor
          · rintro ⟨j, hj, r, hl⟩
            obtain ⟨a, ha, hap, hac⟩ := hup j hj
            obtain ⟨a', ha', row, hrow, h1, -⟩ := (lists_iff _ _ _).1 hl
            cases (Prod.mk.inj (Option.some.inj (ha.symm.trans ha'))).2
            exact ⟨a, hac, hap, row, hrow, h1⟩
          · rintro ⟨a, hac, hap, row, hrow, h1⟩
            have hu := up_mem c ((mem_allNames _ _).1 hnm)
            have : some ((false, a) : Name) ∈ (objCls c).up.map (asOrder[·]?) := by
              rw [hu]; exact List.mem_map.2 ⟨a, List.mem_filter.2 ⟨hac, by simpa using hap⟩, rfl⟩
            obtain ⟨j, hj, hja⟩ := List.mem_map.1 this
            exact ⟨j, hj, row.line, (lists_iff _ _ _).2 ⟨a, hja, row, hrow, h1, rfl⟩⟩
        rw [hL]
        have : (clsOf (false, c)).own = ["acontext", "__namespace__"] := rfl
        rw [this]
        constructor
        · rintro (h | ⟨row, hrow, rfl⟩)
          · exact ⟨c, rfl, List.mem_append_left _ h⟩
          · exact ⟨c, rfl, List.mem_append_right ["acontext", "__namespace__"] (List.mem_map.2 ⟨row, hrow, rfl⟩)⟩
        · rintro ⟨c', hc', hm⟩
          injection hc' with _ hc'; subst hc'
          have hm' : nm ∈ ["acontext", "__namespace__"] ++ (rowsOf c).map (·.name) := hm
          rcases List.mem_append.1 hm' with h | h
          · exact Or.inl h
          · obtain ⟨row, hr, hn⟩ := List.mem_map.1 h
            exact Or.inr ⟨row, hr, hn⟩

end Verif.Props
