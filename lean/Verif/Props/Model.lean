import Verif.AS.Model
import Verif.Props.Property
import Verif.Jsonld.Clone

/-!
# Constructors of the ActivityStreams classes (C69, C80)
-/
namespace Verif.Props
open Verif Verif.Jsonld Verif.AS

variable {J : Type}

/-! ### Specification -/

/-- The names of the classes of models.py. -/
def asClasses : List String := classTable.map (·.cls)

/-- Parameters of the constructors of a class and of its bases. -/
def paramList (cls : String) : List String := (mroOf cls).flatMap fun c => match initOf c with | some i => i.params | none => []

/-- The argument given for a parameter, or its default. -/
def argOf (kw : List (String × Val)) (p : String) : Val := (kw.dget p).getD (if p = "acontext" then .str "https://www.w3.org/ns/activitystreams" else .none)

/-- The object (its attributes `s`) has `v` as `p`: as an attribute, or, if `p` is a property, stored as described by `StoredFor`. -/
def Holds (w : World J) (packaged : Bool) (cls : String) (s : Slots) (p : String) (v : Val) : Prop :=
  match attrOf packaged cls p with
  | .prop r => ∃ x, StoredFor w.env w.link r v x ∧ r.stored s = .ok x
  | _ => s.dget p = some v

/-! ### Facts about the tables -/

/-- The mro table is what C3 computes from the bases. -/
theorem mro_c3 : ∀ r ∈ hierTable, Clone.linearize r.1 (r.2.1.map mroOf) r.2.1 = .ok r.2.2 := by decide +kernel

theorem writes_distinct : ∀ r ∈ propTable, ∀ r' ∈ propTable, r'.write = r.write → r' = r := by decide +kernel

/-- Properties are stored in attributes that begin with an underscore. -/
theorem slots_private : ∀ r ∈ propTable, r.write.toList.head? = some '_' ∧ r.read.toList.head? = some '_' := by decide +kernel

/-- No constructor assigns such an attribute. -/
theorem assigns_public : ∀ c ∈ asClasses, ∀ a ∈ classAssigns c, a.attr.toList.head? ≠ some '_' := by decide +kernel

/-- The last assignment of an attribute. -/
def lastOf (l : List Assign) (p : String) : Option Assign := (l.filter fun a => a.attr == p).getLast?

/-- The parameters that are not simply assigned. -/
def special : List String := ["type", "items", "totalItems", "startIndex"]

theorem params_assigned : ∀ c ∈ asClasses, ∀ p ∈ paramList c, p ∈ special ∨ lastOf (classAssigns c) p = some ⟨p, .set, .param p⟩ := by
  decide +kernel

theorem sources_params : ∀ c ∈ asClasses, (∀ a ∈ classAssigns c, ∀ n, a.src = .param n → n ∈ paramList c) ∧ ∀ p ∈ requiredOf c, p ∈ paramList c := by
  have h : ∀ c ∈ asClasses, (∀ a ∈ classAssigns c, (match a.src with | .param n => decide (n ∈ paramList c) | .absent _ => true) = true) ∧
    ∀ p ∈ requiredOf c, p ∈ paramList c := by decide +kernel
  intro c hc
  refine ⟨fun a ha n hn => ?_, (h c hc).2⟩
  have := (h c hc).1 a ha
  rw [hn] at this
  simpa using this

/-! ### Running assignments -/

theorem attrIn_prop {packaged : Bool} {cls attr : String} {r : PropRow} (h : attrIn packaged cls attr = some (.prop r)) :
    r ∈ propTable ∧ r.name = attr := by
  unfold attrIn at h
  split at h
  · rename_i r' hf
    injection h with h; injection h with h; subst h
    have hm := List.mem_of_find?_eq_some hf
    have hn := List.find?_some hf
    refine ⟨?_, by simpa using hn⟩
    cases packaged with
    | false => cases hm
    | true =>
      unfold linkedRows at hm
      simp only [if_true, List.mem_filterMap] at hm
      obtain ⟨q, -, hq⟩ := hm
      exact List.mem_of_find?_eq_some hq
  · split_ifs at h
    cases hc : classRow cls with
    | none => rw [hc] at h; cases h
    | some x => rw [hc] at h; simp at h

theorem attrOf_prop {packaged : Bool} {cls attr : String} {r : PropRow} (h : attrOf packaged cls attr = .prop r) :
    r ∈ propTable ∧ r.name = attr := by
  unfold attrOf at h
  cases hf : (mroOf cls).findSome? fun c => attrIn packaged c attr with
  | none => rw [hf] at h; cases h
  | some x =>
    rw [hf] at h
    simp only [Option.getD_some] at h
    subst h
    obtain ⟨c, -, hc⟩ := List.exists_of_findSome?_eq_some hf
    exact attrIn_prop hc

/-- The attribute that is written when `name` is assigned. -/
def slotOf (packaged : Bool) (cls name : String) : String :=
  match attrOf packaged cls name with
  | .prop r => r.write
  | _ => name

/-- What is written there. -/
def storesAt (w : World J) (packaged : Bool) (cls name : String) (v : Val) : Outcome Val :=
  match attrOf packaged cls name with
  | .prop r => r.stores w.env w.link v
  | _ => .ok v

theorem setAttr_eq (w : World J) (packaged : Bool) (cls : String) (s : Slots) (name : String) (v : Val) :
    setAttr w packaged cls s name v = match storesAt w packaged cls name v with
      | .error e => (.error e, s)
      | .ok x => (.ok (), s.dset (slotOf packaged cls name) x) := by
  unfold setAttr storesAt slotOf
  cases attrOf packaged cls name <;> rfl

theorem slotOf_inj {packaged : Bool} {cls p q : String} (hp : p.toList.head? ≠ some '_') (hq : q.toList.head? ≠ some '_')
    (h : slotOf packaged cls p = slotOf packaged cls q) : p = q := by
  unfold slotOf at h
  cases ha : attrOf packaged cls p with
  | prop r =>
    obtain ⟨hr, hn⟩ := attrOf_prop ha
    cases hb : attrOf packaged cls q with
    | prop r' =>
      obtain ⟨hr', hn'⟩ := attrOf_prop hb
      rw [ha, hb] at h
      rw [← hn, ← hn', writes_distinct r' hr' r hr h]
    | const v => rw [ha, hb] at h; simp only at h; rw [← h] at hq; exact absurd (slots_private r hr).1 hq
    | plain => rw [ha, hb] at h; simp only at h; rw [← h] at hq; exact absurd (slots_private r hr).1 hq
  | const v =>
    cases hb : attrOf packaged cls q with
    | prop r =>
      obtain ⟨hr, -⟩ := attrOf_prop hb
      rw [ha, hb] at h; simp only at h; rw [h] at hp; exact absurd (slots_private r hr).1 hp
    | const v => rw [ha, hb] at h; exact h
    | plain => rw [ha, hb] at h; exact h
  | plain =>
    cases hb : attrOf packaged cls q with
    | prop r =>
      obtain ⟨hr, -⟩ := attrOf_prop hb
      rw [ha, hb] at h; simp only at h; rw [h] at hp; exact absurd (slots_private r hr).1 hp
    | const v => rw [ha, hb] at h; exact h
    | plain => rw [ha, hb] at h; exact h

theorem run_ok {w : World J} {packaged : Bool} {cls : String} {kw : List (String × Val)} {s s' : Slots} {a : Assign} {u : Unit}
    (h : a.run w packaged cls kw s = (.ok u, s')) : ∃ v x, a.value w packaged cls kw s = .ok v ∧
      storesAt w packaged cls a.attr v = .ok x ∧ s' = s.dset (slotOf packaged cls a.attr) x := by
  unfold Assign.run at h
  rcases hv : a.value w packaged cls kw s with e | v
  · rw [hv] at h; injection h with h _; cases h
  rw [hv] at h; simp only at h
  rw [setAttr_eq] at h
  rcases hx : storesAt w packaged cls a.attr v with e | x
  · rw [hx] at h; injection h with h _; cases h
  · rw [hx] at h; injection h with _ h; exact ⟨v, x, rfl, hx, h.symm⟩

theorem runAll_cons {w : World J} {packaged : Bool} {cls : String} {kw : List (String × Val)} {a : Assign} {l : List Assign} {s t : Slots}
    (h : runAll w packaged cls kw (a :: l) s = .ok t) :
    ∃ s' u, a.run w packaged cls kw s = (.ok u, s') ∧ runAll w packaged cls kw l s' = .ok t := by
  unfold runAll at h
  rcases hr : a.run w packaged cls kw s with ⟨e | u, s'⟩
  · rw [hr] at h; cases h
  · rw [hr] at h; exact ⟨s', u, rfl, h⟩

/-- What holds at first and is kept by every assignment holds at last. -/
theorem runAll_inv {w : World J} {packaged : Bool} {cls : String} {kw : List (String × Val)} {P : Slots → Prop} {l : List Assign} {s t : Slots}
    (hP : ∀ a ∈ l, ∀ s s' u, P s → a.run w packaged cls kw s = (.ok u, s') → P s') (h0 : P s)
    (h : runAll w packaged cls kw l s = .ok t) : P t := by
  induction l generalizing s with
  | nil => injection h with h; subst h; exact h0
  | cons a l ih =>
    obtain ⟨s', u, h1, h2⟩ := runAll_cons h
    exact ih (fun b hb => hP b (List.mem_cons_of_mem _ hb)) (hP a (List.mem_cons_self ..) s s' u h0 h1) h2

theorem lastOf_cons (a : Assign) (l : List Assign) (p : String) :
    lastOf (a :: l) p = match lastOf l p with | some b => some b | none => if a.attr = p then some a else none := by
  unfold lastOf
  rw [List.filter_cons]
  by_cases h : a.attr = p
  · simp only [h, beq_self_eq_true, if_true]
    rw [List.getLast?_cons]
    cases (l.filter fun a => a.attr == p).getLast? <;> rfl
  · have hb : (a.attr == p) = false := by simpa using h
    simp only [hb, h, if_false]
    simp only [Bool.false_eq_true, if_false]
    cases (l.filter fun a => a.attr == p).getLast? <;> rfl

theorem lastOf_none {l : List Assign} {p : String} (h : lastOf l p = none) : ∀ a ∈ l, a.attr ≠ p := by
  unfold lastOf at h
  rw [List.getLast?_eq_none_iff] at h
  intro a ha he
  have : a ∈ l.filter fun a => a.attr == p := List.mem_filter.2 ⟨ha, by simpa using he⟩
  rw [h] at this; cases this

/-- The last assignment of an attribute determines it. -/
theorem runAll_last {w : World J} {packaged : Bool} {cls : String} {kw : List (String × Val)} {P : Slots → Prop} {l : List Assign} {s t : Slots}
    (hP : ∀ a ∈ l, ∀ s s' u, P s → a.run w packaged cls kw s = (.ok u, s') → P s') (h0 : P s) (hn : ∀ a ∈ l, a.attr.toList.head? ≠ some '_')
    {p : String} {a : Assign} (ha : lastOf l p = some a) (h : runAll w packaged cls kw l s = .ok t) :
    ∃ s0 v x, P s0 ∧ a.value w packaged cls kw s0 = .ok v ∧ storesAt w packaged cls p v = .ok x ∧ t.dget (slotOf packaged cls p) = some x := by
  induction l generalizing s with
  | nil => cases ha
  | cons b l ih =>
    obtain ⟨s', u, h1, h2⟩ := runAll_cons h
    have hPb := hP b (List.mem_cons_self ..) s s' u h0 h1
    rw [lastOf_cons] at ha
    cases hl : lastOf l p with
    | some c =>
      rw [hl] at ha; injection ha with ha; subst ha
      exact ih (fun d hd => hP d (List.mem_cons_of_mem _ hd)) hPb (fun d hd => hn d (List.mem_cons_of_mem _ hd)) hl h2
    | none =>
      rw [hl] at ha; simp only at ha
      split_ifs at ha with he
      injection ha with ha; subst ha
      obtain ⟨v, x, hv, hx, rfl⟩ := run_ok h1
      rw [he] at hx
      refine ⟨s, v, x, h0, hv, hx, ?_⟩
      have hp : p.toList.head? ≠ some '_' := he ▸ hn b (List.mem_cons_self ..)
      refine runAll_inv (P := fun s => s.dget (slotOf packaged cls p) = some x) ?_ ?_ h2
      · intro d hd s1 s2 u1 hs1 hr
        obtain ⟨v', x', -, -, rfl⟩ := run_ok hr
        rw [PyDict.dget_dset, if_neg, hs1]
        intro heq
        exact lastOf_none hl d hd (slotOf_inj hp (hn d (List.mem_cons_of_mem _ hd)) heq).symm
      · rw [PyDict.dget_dset, if_pos (by rw [he])]

theorem construct_run {w : World J} {packaged : Bool} {cls : String} {kw : List (String × Val)} {s : Slots}
    (h : construct w packaged cls kw = .ok s) : runAll w packaged cls kw (classAssigns cls) [] = .ok s := by
  unfold construct at h
  split_ifs at h
  exact h

theorem value_argOf (kw : List (String × Val)) (p : String) : (Src.param p).value kw = argOf kw p := by
  unfold Src.value argOf defaultOf asNs
  simp only [beq_iff_eq]

/-! ### C80 -/

/-- C80: every argument of the constructor of every class is found on the new object, in the attribute or property of its name, except
`type`, `items`, `totalItems`, `startIndex` (see below) and, on packaged Links, `hreflang`. -/
theorem arguments_kept_partial (w : World J) (packaged : Bool) {cls : String} (hc : cls ∈ asClasses) (kw : List (String × Val)) (s : Slots)
    (h : construct w packaged cls kw = .ok s) {p : String} (hp : p ∈ paramList cls)
    (hs : p ∉ ["type", "items", "totalItems", "startIndex"]) (hh : packaged = true → p ≠ "hreflang") :
    Holds w packaged cls s p (argOf kw p) := by
  have hl := (params_assigned cls hc p hp).resolve_left hs
  obtain ⟨s0, v, x, -, hv, hx, ht⟩ := runAll_last (P := fun _ => True) (fun _ _ _ _ _ _ _ => trivial) trivial (assigns_public cls hc) hl
    (construct_run h)
  have hv' : v = argOf kw p := by
    unfold Assign.value at hv
    simp only at hv
    injection hv with hv
    rw [← hv, value_argOf]
  subst hv'
  unfold Holds
  unfold storesAt at hx
  unfold slotOf at ht
  cases ha : attrOf packaged cls p with
  | prop r =>
    obtain ⟨hr, hn⟩ := attrOf_prop ha
    rw [ha] at hx ht
    simp only at hx ht ⊢
    have hne : r.name ≠ "hreflang" := by
      rw [hn]
      cases packaged with
      | true => exact hh rfl
      | false =>
        exfalso
        unfold attrOf at ha
        cases hf : (mroOf cls).findSome? fun c => attrIn false c p with
        | none => rw [hf] at ha; cases ha
        | some y =>
          rw [hf] at ha; simp only [Option.getD_some] at ha; subst ha
          obtain ⟨c, -, hc'⟩ := List.exists_of_findSome?_eq_some hf
          unfold attrIn at hc'
          simp only [Bool.false_eq_true, if_false, List.find?_nil] at hc'
          split_ifs at hc'
          cases hcr : classRow c with
          | none => rw [hcr] at hc'; cases hc'
          | some z => rw [hcr] at hc'; simp at hc'
    refine ⟨x, stores_spec (parse_rows r hr) hx, ?_⟩
    unfold PropRow.stored
    rw [slots_agree r hr hne, ht]
  | const v => rw [ha] at hx ht; simp only at hx ht ⊢; injection hx with hx; rw [ht, hx]
  | plain => rw [ha] at hx ht; simp only at hx ht ⊢; injection hx with hx; rw [ht, hx]

/-- C80: arguments no constructor knows are ignored: the result depends on the known ones only. -/
theorem unknown_arguments_ignored (w : World J) (packaged : Bool) {cls : String} (hc : cls ∈ asClasses) (kw kw' : List (String × Val))
    (h : ∀ p ∈ paramList cls, kw.dget p = kw'.dget p) : construct w packaged cls kw = construct w packaged cls kw' := by
  obtain ⟨h1, h2⟩ := sources_params cls hc
  have hv : ∀ a ∈ classAssigns cls, a.src.value kw = a.src.value kw' := by
    intro a ha
    cases hsrc : a.src with
    | param n => simp only [Src.value]; rw [h n (h1 a ha n hsrc)]
    | absent n => rfl
  have hrun : ∀ l : List Assign, (∀ a ∈ l, a ∈ classAssigns cls) → ∀ s, runAll w packaged cls kw l s = runAll w packaged cls kw' l s := by
    intro l
    induction l with
    | nil => intro _ s; rfl
    | cons a l ih =>
      intro hl s
      have ha : a.run w packaged cls kw s = a.run w packaged cls kw' s := by
        unfold Assign.run Assign.value
        rw [hv a (hl a (List.mem_cons_self ..))]
      unfold runAll
      rw [ha]
      rcases a.run w packaged cls kw' s with ⟨e | u, s'⟩
      · rfl
      · exact ih (fun b hb => hl b (List.mem_cons_of_mem _ hb)) s'
  unfold construct
  rw [hrun _ fun a ha => ha]
  congr 1
  have : (requiredOf cls).all (fun p => (kw.dget p).isSome) = (requiredOf cls).all fun p => (kw'.dget p).isSome := by
    have : ∀ l : List String, (∀ p ∈ l, p ∈ paramList cls) → l.all (fun p => (kw.dget p).isSome) = l.all fun p => (kw'.dget p).isSome := by
      intro l
      induction l with
      | nil => intro _; rfl
      | cons x l ih =>
        intro hl
        rw [List.all_cons, List.all_cons, h x (hl x (List.mem_cons_self ..)), ih fun p hp => hl p (List.mem_cons_of_mem _ hp)]
    exact this _ h2
  rw [this]

end Verif.Props
