import Verif.Props.AsEngine
import Verif.Props.Data

/-!
# `engine.Note`: the classes as attributes of an engine (C154)
-/
namespace Verif.Props.EngineAttrs
open Verif Verif.Jsonld Verif.AS

/-! ### Specification -/

/-- The class at this position is registered: no class before it has the same namespace. -/
def Registered (cs : List Cls) (i : Nat) : Prop := ∃ c, cs[i]? = some c ∧ ∀ j d, j < i → cs[j]? = some d → d.ns ≠ c.ns

/-- The class at this position is the last registered one with this name. -/
def Last (cs : List Cls) (n : String) (i : Nat) : Prop :=
  Registered cs i ∧ (cs[i]?).map (·.name) = some n ∧ ∀ j, i < j → Registered cs j → (cs[j]?).map (·.name) ≠ some n

/-! ### Proofs -/

/-- The registry is in the order of the classes. -/
theorem loadClasses_order (l : List (Option String × Nat)) : ∀ reg : PyDict (Option String) Nat,
    (reg.map (·.2) ++ l.map (·.2)).Pairwise (· < ·) → ((loadClasses reg l).map (·.2)).Pairwise (· < ·) := by
  induction l with
  | nil => intro reg h; simpa [loadClasses] using h
  | cons c l ih =>
    intro reg h
    obtain ⟨n, k⟩ := c
    rw [loadClasses]
    apply ih
    by_cases hm : n ∈ reg.dkeys
    · rw [if_pos hm]
      refine h.sublist ?_
      exact List.Sublist.append (List.Sublist.refl _) (List.sublist_cons_self _ _)
    · rw [if_neg hm]
      unfold registerClass
      rw [if_neg hm]
      have hd : ∀ d : PyDict (Option String) Nat, n ∉ d.dkeys → d.dset n k = d ++ [(n, k)] := by
        intro d
        induction d with
        | nil => intro _; rfl
        | cons p d ih =>
          intro hn
          simp only [List.dkeys, List.map_cons, List.mem_cons, not_or] at hn
          obtain ⟨a, b⟩ := p
          rw [List.dset, if_neg (fun h => hn.1 h.symm), ih hn.2]; rfl
      simp only
      rw [hd reg hm]
      simpa using h

theorem registry_facts {p : Package} {e : EngineObj} (h : EngineObj.new (.pkg p) = .ok e) :
    (∀ ns i, (ns, i) ∈ e.registry ↔ IsFirst p.objects ns i) ∧ (e.registry.map (·.2)).Pairwise (· < ·) ∧
    e.attrs = dictOf (e.registry.map fun x => (((p.objects[x.2]?).map (·.name)).getD "", x.2)) := by
  have hr := engine_registry p e h
  have h' := Except.ok.inj h
  have hreg : e.registry = loadClasses [] (p.objects.zipIdx.map fun c => (c.1.ns, c.2)) := by rw [← h']
  have hwf : e.registry.WF := by rw [hreg]; exact loadClasses_wf _ _ PyDict.wf_nil
  refine ⟨fun ns i => ?_, ?_, ?_⟩
  · rw [← hr ns i]
    exact ⟨fun hm => PyDict.dget_of_mem hwf hm, fun hm => PyDict.dget_mem hm⟩
  · rw [hreg]
    apply loadClasses_order
    have : ∀ (l : List Cls) (k : Nat), ((l.zipIdx k).map (fun c => (c.1.ns, c.2))).map (·.2) = List.range' k l.length := by
      intro l
      induction l with
      | nil => intro k; rfl
      | cons c l ih => intro k; rw [List.zipIdx_cons, List.map_cons, List.map_cons, ih]; rfl
    rw [this]
    simpa using List.pairwise_lt_range' (s := 0) (n := p.objects.length)
  · rw [← h']; rfl

theorem registered_iff {cs : List Cls} {i : Nat} : Registered cs i ↔ ∃ ns, IsFirst cs ns i := by
  constructor
  · rintro ⟨c, h1, h2⟩; exact ⟨c.ns, ⟨c, h1, rfl⟩, h2⟩
  · rintro ⟨ns, ⟨c, h1, rfl⟩, h2⟩; exact ⟨c, h1, h2⟩

/-- Looking up in a comprehension over pairs with increasing values: the last pair with the key. -/
theorem dget_increasing (l : List (String × Nat)) (hl : (l.map (·.2)).Pairwise (· < ·)) (n : String) (i : Nat) :
    (dictOf l).dget n = some i ↔ (n, i) ∈ l ∧ ∀ j, i < j → (n, j) ∉ l := by
  rw [dget_dictOf]
  induction l using List.reverseRecOn with
  | nil => simp [List.dget]
  | append_singleton l p ih =>
    obtain ⟨a, k⟩ := p
    rw [List.map_append, List.pairwise_append] at hl
    have hlt : ∀ x ∈ l, x.2 < k := fun x hx => hl.2.2 _ (List.mem_map.2 ⟨x, hx, rfl⟩) k (by simp)
    rw [List.reverse_append]
    show List.dget ((a, k) :: l.reverse) n = some i ↔ _
    rw [List.dget]
    by_cases ha : a = n
    · subst ha
      rw [if_pos rfl]
      constructor
      · intro h
        cases h
        refine ⟨by simp, fun j hj hm => ?_⟩
        rcases List.mem_append.1 hm with hm | hm
        · exact absurd (hlt _ hm) (by simp only; omega)
        · simp at hm; omega
      · rintro ⟨hm, hj⟩
        rcases List.mem_append.1 hm with hm | hm
        · exact absurd (by simp) (hj k (hlt _ hm))
        · simp at hm; rw [hm]
    · rw [if_neg ha, ih hl.1]
      have hne : ∀ j, (n, j) ∈ l ++ [(a, k)] ↔ (n, j) ∈ l := by
        intro j
        have ha' : ¬ n = a := fun e => ha e.symm
        simp [ha']
      simp only [hne]

/-- **C154.** An attribute of an engine named after a class is the last registered class of that name (the class registered for a namespace is the
first one with it). -/
theorem attribute_iff (p : Package) (e : EngineObj) (h : EngineObj.new (.pkg p) = .ok e) (n : String) (i : Nat) :
    e.attrs.dget n = some i ↔ Last p.objects n i := by
  obtain ⟨h1, h2, h3⟩ := registry_facts h
  have hname : ∀ j ns, IsFirst p.objects ns j → ∀ m, ((p.objects[j]?).map (·.name)).getD "" = m ↔ (p.objects[j]?).map (·.name) = some m := by
    rintro j ns ⟨⟨c, hc, -⟩, -⟩ m
    rw [hc]; simp
  have hmem : ∀ j, (n, j) ∈ e.registry.map (fun x => (((p.objects[x.2]?).map (·.name)).getD "", x.2)) ↔
      Registered p.objects j ∧ (p.objects[j]?).map (·.name) = some n := by
    intro j
    rw [List.mem_map, registered_iff]
    constructor
    · rintro ⟨⟨ns, k⟩, hx, he⟩
      simp only [Prod.mk.injEq] at he
      obtain ⟨e1, rfl⟩ := he
      have hf := (h1 _ _).1 hx
      exact ⟨⟨ns, hf⟩, (hname _ _ hf n).1 e1⟩
    · rintro ⟨⟨ns, hf⟩, hn⟩
      exact ⟨(ns, j), (h1 _ _).2 hf, by rw [(hname _ _ hf n).2 hn]⟩
  rw [h3, dget_increasing]
  · unfold Last
    simp only [hmem, and_assoc]
    refine and_congr_right fun _ => and_congr_right fun _ => forall_congr' fun j => ?_
    exact ⟨fun hh hj hr hn => hh hj ⟨hr, hn⟩, fun hh hj hm => hh hj hm.1 hm.2⟩
  · rw [List.map_map]
    exact h2

/-- **C154.** In a package whose classes have distinct names and distinct namespaces every class is the attribute of its name. -/
theorem attribute_distinct (p : Package) (e : EngineObj) (h : EngineObj.new (.pkg p) = .ok e)
    (hns : (p.objects.map (·.ns)).Nodup) (hnm : (p.objects.map (·.name)).Nodup) (n : String) (i : Nat) :
    e.attrs.dget n = some i ↔ (p.objects[i]?).map (·.name) = some n := by
  rw [attribute_iff p e h]
  have hat : ∀ {α : Type} (f : Cls → α), (p.objects.map f).Nodup → ∀ (a b : Nat) (c d : Cls), p.objects[a]? = some c → p.objects[b]? = some d → f c = f d → a = b := by
    intro α f hf a b c d ha hb hcd
    have ha' : (p.objects.map f)[a]? = some (f c) := by rw [List.getElem?_map, ha]; rfl
    have hb' : (p.objects.map f)[b]? = some (f d) := by rw [List.getElem?_map, hb]; rfl
    obtain ⟨la, ea⟩ := List.getElem?_eq_some_iff.1 ha'
    obtain ⟨lb, eb⟩ := List.getElem?_eq_some_iff.1 hb'
    exact (hf.getElem_inj_iff (hi := la) (hj := lb)).1 (by rw [ea, eb, hcd])
  constructor
  · exact fun hl => hl.2.1
  · intro hn
    obtain ⟨c, hc, hcn⟩ := Option.map_eq_some_iff.1 hn
    refine ⟨⟨c, hc, fun j d hj hd he => ?_⟩, hn, fun j hj _ hjn => ?_⟩
    · exact absurd (hat _ hns j i d c hd hc he) (Nat.ne_of_lt hj)
    · obtain ⟨d, hd, hdn⟩ := Option.map_eq_some_iff.1 hjn
      exact absurd (hat _ hnm i j c d hc hd (hcn.trans hdn.symm)) (Nat.ne_of_lt hj)

/-- **C154.** Every class of the ActivityStreams package is the attribute of its name of the engine, `engine.Object` and `engine.Link` too (which the
engine does not find when it loads a document, C81), and nothing else is; property objects have different texts, which begin with "<". -/
theorem activitystreams_attributes (repr : Nat → String) (hrepr : ∀ i, (repr i).toList.head? = some '<')
    (hdiff : ∀ i j, repr i = repr j → i = j) :
    ∃ p e, createPackage = .ok p ∧ createEngine repr = .ok e ∧
      (∀ c i, e.attrs.dget c = some i ↔ i < pkgClasses.length ∧ (p.classes[i]?).map (·.name) = some c) ∧
      ∀ c, (∃ i, e.attrs.dget c = some i) ↔ c ∈ pkgClasses := by
  obtain ⟨p, hp, hnobj, hlen, -, hcls⟩ := create_package_loads
  have he : createEngine repr = EngineObj.new (.pkg (settle repr p)) := createEngine_eq repr hp
  obtain ⟨e, hee⟩ : ∃ e, EngineObj.new (.pkg (settle repr p)) = .ok e := ⟨_, rfl⟩
  have hobj : ∀ j k', (settle repr p).objects[j]? = some k' ↔
      j < pkgClasses.length ∧ ∃ k, p.classes[j]? = some k ∧ k' = nsAfter repr j k := by
    intro j k'
    unfold Package.objects settle
    simp only [hnobj]
    rw [List.getElem?_take, List.getElem?_mapIdx]
    by_cases hj : j < pkgClasses.length
    · rw [if_pos hj, Option.map_eq_some_iff]
      constructor
      · rintro ⟨k, h1, rfl⟩; exact ⟨hj, k, h1, rfl⟩
      · rintro ⟨-, k, h1, rfl⟩; exact ⟨k, h1, rfl⟩
    · rw [if_neg hj]; simp [hj]
  -- the class at a position
  have hat : ∀ j k', (settle repr p).objects[j]? = some k' → ∃ c k, asOrder[j]? = some (false, c) ∧ p.classes[j]? = some k ∧ k' = nsAfter repr j k ∧
      k'.name = c ∧ k.name = c ∧ k.ns = nsOfName (false, c) := by
    intro j k' hk'
    obtain ⟨hj, k, hk, rfl⟩ := (hobj j _).1 hk'
    have hjo : j < asOrder.length := by rw [← hlen]; exact (List.getElem?_eq_some_iff.1 hk).1
    have hn : asOrder[j]? = some asOrder[j] := List.getElem?_eq_getElem hjo
    generalize asOrder[j] = n at hn
    obtain ⟨k2, hk2, e1, e2, -⟩ := hcls j n hn
    cases (Option.some.inj (hk.symm.trans hk2))
    have hb := (asOrder_objects j n hn).1 hj
    obtain ⟨b, c⟩ := n
    simp only at hb; subst hb
    refine ⟨c, k, hn, hk, rfl, ?_, e2, e1⟩
    unfold nsAfter
    split_ifs <;> exact e2
  have hname : ∀ j, ((settle repr p).objects[j]?).map (·.name) = if j < pkgClasses.length then (p.classes[j]?).map (·.name) else none := by
    intro j
    cases hk : (settle repr p).objects[j]? with
    | none =>
      by_cases hj : j < pkgClasses.length
      · rw [if_pos hj]
        cases hk2 : p.classes[j]? with
        | none => rfl
        | some k =>
          have := (hobj j _).2 ⟨hj, k, hk2, rfl⟩
          rw [hk] at this; cases this
      · rw [if_neg hj]; rfl
    | some k' =>
      obtain ⟨c, k, -, hk2, -, e1, e2, -⟩ := hat j k' hk
      rw [if_pos ((hobj j _).1 hk).1, hk2]
      simp [e1, e2]
  have hord : ∀ (i j : Nat) (c : String), asOrder[i]? = some (false, c) → asOrder[j]? = some (false, c) → i = j := by
    intro i j c hi hj
    obtain ⟨l1, e1⟩ := List.getElem?_eq_some_iff.1 hi
    obtain ⟨l2, e2⟩ := List.getElem?_eq_some_iff.1 hj
    exact (nodup_asOrder.getElem_inj_iff (hi := l1) (hj := l2)).1 (e1.trans e2.symm)
  have hnm : ((settle repr p).objects.map (·.name)).Nodup := by
    rw [List.nodup_iff_injective_getElem]
    intro ⟨i, hi⟩ ⟨j, hj⟩ hij
    simp only [List.getElem_map, List.length_map] at hij hi hj
    obtain ⟨c, _, a1, -, -, a4, -⟩ := hat i _ (List.getElem?_eq_getElem hi)
    obtain ⟨d, _, b1, -, -, b4, -⟩ := hat j _ (List.getElem?_eq_getElem hj)
    have hcd : c = d := by rw [← a4, ← b4]; exact hij
    subst hcd
    exact Fin.ext (hord i j c a1 b1)
  have hns : ((settle repr p).objects.map (·.ns)).Nodup := by
    rw [List.nodup_iff_injective_getElem]
    intro ⟨i, hi⟩ ⟨j, hj⟩ hij
    simp only [List.getElem_map, List.length_map] at hij hi hj
    obtain ⟨c, k, a1, -, a3, -, -, a6⟩ := hat i _ (List.getElem?_eq_getElem hi)
    obtain ⟨d, l, b1, -, b3, -, -, b6⟩ := hat j _ (List.getElem?_eq_getElem hj)
    rw [a3, b3] at hij
    have hfrag : ∀ (x : String) (m y : Nat), asOrder[y]? = some (false, x) → nsOfName (false, x) ≠ some (asNs ++ "#" ++ repr m) := by
      intro x m y hx h
      rw [nsOfName_eq] at h
      obtain ⟨f, hf, hfe⟩ := Option.map_eq_some_iff.1 h
      have := append_inj_left hfe
      exact fragment_head _ ((mem_asOrder _).1 (List.mem_of_getElem? hx)) f hf (by rw [this]; exact hrepr m)
    unfold nsAfter at hij
    split_ifs at hij
    · exact Fin.ext (hdiff i j (append_inj_left (Option.some.inj hij)))
    · rw [b6] at hij; exact absurd hij.symm (hfrag d i j b1)
    · rw [a6] at hij; exact absurd hij (hfrag c j i a1)
    · rw [a6, b6] at hij
      have := (Prod.mk.inj (nsOfName_inj_on (List.mem_of_getElem? a1) (List.mem_of_getElem? b1) hij)).2
      subst this
      exact Fin.ext (hord i j c a1 b1)
  have hkey : ∀ c i, e.attrs.dget c = some i ↔ i < pkgClasses.length ∧ (p.classes[i]?).map (·.name) = some c := by
    intro c i
    rw [attribute_distinct _ _ hee hns hnm, hname]
    split_ifs with h <;> simp [h]
  refine ⟨p, e, hp, by rw [he, hee], hkey, fun c => ?_⟩
  constructor
  · rintro ⟨i, hi⟩
    obtain ⟨hi1, hi2⟩ := (hkey c i).1 hi
    obtain ⟨k, hk, hkc⟩ := Option.map_eq_some_iff.1 hi2
    obtain ⟨c', k', a1, a2, -, -, a5, -⟩ := hat i _ ((hobj i _).2 ⟨hi1, k, hk, rfl⟩)
    cases (Option.some.inj (hk.symm.trans a2))
    rw [← hkc, a5]
    exact (mem_allNames false c').1 ((mem_asOrder _).1 (List.mem_of_getElem? a1))
  · intro hc
    obtain ⟨i, hi, hin⟩ := List.getElem_of_mem ((mem_asOrder (false, c)).2 ((mem_allNames false c).2 hc))
    have hn : asOrder[i]? = some (false, c) := by rw [List.getElem?_eq_getElem hi, hin]
    obtain ⟨k, hk, -, e2, -⟩ := hcls i _ hn
    exact ⟨i, (hkey c i).2 ⟨(asOrder_objects i _ hn).2 rfl, by rw [hk]; simp [e2]⟩⟩

/-- Non-vacuity: two classes of one name and a class that is not registered. -/
example : ∃ e, EngineObj.new (.pkg { pubns := "x", classes := [{ name := "A", ns := some "x#a" }, { name := "A", ns := some "x#b" }, { name := "B", ns := some "x#a" }], nobj := 3, ref := [] }) = .ok e ∧
    e.attrs.dget "A" = some 1 ∧ e.attrs.dget "B" = none := ⟨_, rfl, by decide +kernel, by decide +kernel⟩

example : ∀ i j : Nat, "<property object at " ++ String.ofList (List.replicate i '0') = "<property object at " ++ String.ofList (List.replicate j '0') → i = j := by
  intro i j h
  have := congrArg String.length (append_inj_left h)
  simpa using this

end Verif.Props.EngineAttrs
