import Verif.Props.AsLoad
import Verif.Props.Stamp

/-!
# Constructors called with values that setters accept (for C88)
-/
namespace Verif.Props
open Verif Verif.Jsonld Verif.AS

variable {J : Type}

/-! ### Specification -/

/-- The setter of a property accepts the value. -/
def Fits (env : Env) (r : PropRow) (v : Val) : Prop :=
  Accepted env.mro r.allTypes r.functional (r.additional.map (Check.run env)) v

/-- An object of a class with a value for each of its properties. -/
def objectOf (c : String) (x : String → Val) : Val :=
  .obj c (((propNames c).filter fun q => q != "__namespace__").map fun q => (q, x q))

/-- The properties of a class that are loaded like any other (C87). -/
def Ordinary (c q : String) : Prop :=
  q ∈ propNames c ∧ q ∉ lostOf c ∧ q ∉ ["acontext", "__namespace__", "type", "totalItems", "startIndex"]

/-! ### Setters -/

theorem check_none (env : Env) (k : Check) : k.run env .none = .ok () := by cases k <;> rfl

theorem fits_none (env : Env) (r : PropRow) : Fits env r .none := by
  refine .leaf _ rfl ⟨"NoneType", by simp [Val.classes], .inl (by simp [PropRow.allTypes])⟩ ?_
  intro f hf
  obtain ⟨k, -, rfl⟩ := List.mem_map.1 hf
  exact check_none env k

/-- What a setter does with a value it accepts. -/
theorem stores_fits {env : Env} {mk : Ctor} {r : PropRow} {u v : Val} (hc : r.convert env mk u = .ok v) (ha : Fits env r v) (hp : r.parse = false) :
    r.stores env mk u = .ok (asLists v) := by
  unfold PropRow.stores
  rw [hc]
  simp only
  have : r.check env v = .ok (asLists v) := (evaluate_spec _ _ _ _ _ _).2 ⟨ha, rfl⟩
  rw [this]
  simp only
  unfold PropRow.parsed
  rw [hp]; rfl

theorem convert_none (env : Env) (mk : Ctor) (r : PropRow) : r.convert env mk .none = .ok .none := by
  unfold PropRow.convert
  split
  · rw [createLink] <;> simp
  · rfl

theorem stores_none_ok (env : Env) (mk : Ctor) (r : PropRow) : r.stores env mk .none = .ok .none := by
  unfold PropRow.stores
  rw [convert_none]
  simp only
  have : r.check env .none = .ok .none := (evaluate_spec _ _ _ _ _ _).2 ⟨fits_none env r, rfl⟩
  rw [this]
  simp only
  unfold PropRow.parsed
  split <;> rfl

theorem stores_date {env : Env} {mk : Ctor} {r : PropRow} (hr : r ∈ propTable) (hp : r.parse = true) {t : DateTime} (hv : t.Valid)
    (hy : 1000 ≤ t.year) (hs : t.micro = 0) (hz : t.tz = none) :
    r.stores env mk (.str (String.ofList (datetimeStr t))) = .ok (.other "datetime" (env.dateRepr t)) := by
  obtain ⟨h1, -, h3⟩ := parse_rows r hr hp
  have hadd : ∀ r ∈ propTable, r.parse = true → r.additional = [.datetime] := by decide +kernel
  unfold PropRow.stores
  have hc : r.convert env mk (.str (String.ofList (datetimeStr t))) = .ok (.str (String.ofList (datetimeStr t))) := by
    unfold PropRow.convert; rw [h1]; rfl
  rw [hc]
  simp only
  have : r.check env (.str (String.ofList (datetimeStr t))) = .ok (.str (String.ofList (datetimeStr t))) := by
    refine (evaluate_spec _ _ _ _ _ _).2 ⟨.leaf _ rfl ⟨"str", by simp [Val.classes], .inl ?_⟩ ?_, rfl⟩
    · unfold PropRow.allTypes; rw [h3]; simp [resolveType]
    · rw [hadd r hr hp]
      intro f hf
      simp only [List.map_cons, List.map_nil, List.mem_cons, List.not_mem_nil, or_false] at hf
      subst hf
      show isActivityDatetime (.str (String.ofList (datetimeStr t)).toList) = _
      rw [String.toList_ofList]
      exact datetime_str_format t hv hy
  rw [this]
  simp only
  unfold PropRow.parsed
  rw [hp, if_pos rfl]
  unfold parseVal
  simp only
  rw [String.toList_ofList, datetime_round_trip t hv hy hs hz]

/-! ### Constructors -/

theorem runAll_succeeds {w : World J} {packaged : Bool} {cls : String} {kw : List (String × Val)} {P : Slots → Prop} {l : List AS.Assign}
    (hP : ∀ a ∈ l, ∀ s, P s → ∃ v x, a.value w packaged cls kw s = .ok v ∧ storesAt w packaged cls a.attr v = .ok x ∧
      P (s.dset (slotOf packaged cls a.attr) x)) {s : Slots} (h0 : P s) : ∃ t, runAll w packaged cls kw l s = .ok t ∧ P t := by
  induction l generalizing s with
  | nil => exact ⟨s, rfl, h0⟩
  | cons a l ih =>
    obtain ⟨v, x, hv, hx, hp⟩ := hP a (List.mem_cons_self ..) s h0
    obtain ⟨t, ht, hpt⟩ := ih (fun b hb => hP b (List.mem_cons_of_mem _ hb)) hp
    refine ⟨t, ?_, hpt⟩
    unfold runAll AS.Assign.run
    rw [hv]
    simp only
    rw [setAttr_eq, hx]
    exact ht

/-- The kinds of assignments constructors make. -/
def assignKind (c : String) (a : AS.Assign) : Bool :=
  decide (a.attr = "type" ∧ a.how = .keepOr) ||
  decide (a.attr = "items" ∧ a.how = .keepOr ∧ "items" ∈ lostOf c ∧ isRow true c "items" (rowOf "items") = true) ||
  decide (a.attr = "totalItems" ∧ a.how = .total "items" ∧ (a.src = .param "totalItems" ∨ a.src = .absent "totalItems") ∧ "totalItems" ∈ propNames c ∧
    "items" ∈ lostOf c ∧ isRow true c "items" (rowOf "items") = true ∧ isRow true c "totalItems" (rowOf "totalItems") = true) ||
  decide (a.attr = "startIndex" ∧ a.how = .orZero ∧ a.src = .param "startIndex" ∧ "startIndex" ∈ propNames c ∧
    isRow true c "startIndex" (rowOf "startIndex") = true) ||
  decide (a.how = .set ∧ (a.src = .param a.attr ∨ a.src = .absent a.attr) ∧ a.attr ∉ ["type", "items", "totalItems", "startIndex"] ∧
    (isPlain true c a.attr = true ∨ (a.attr ∈ propNames c ∧ a.attr ∉ ["acontext", "__namespace__"] ∧ isRow true c a.attr (rowOf a.attr) = true)))

theorem assign_kinds : ∀ c ∈ pkgClasses, c ∉ ["Object", "Link"] → ∀ a ∈ classAssigns c, assignKind c a = true := by decide +kernel

theorem type_attr {c : String} (hc : c ∈ pkgClasses) (hno : c ∉ ["Object", "Link"]) : attrOf true c "type" = .const (.str (typeName c)) := by
  have hconst : constOf true c "type" = some (typeName c) := (type_const c (mem_asClasses c hc)).2 hno
  unfold constOf at hconst
  split at hconst
  · rename_i s' heq; injection hconst with h; subst h; exact heq
  · cases hconst

theorem row_of_isRow {c q : String} (h : isRow true c q (rowOf q) = true) : rowOf q ∈ propTable ∧ (rowOf q).name = q := attrOf_prop (isRow_eq h)

theorem number_stores (env : Env) (mk : Ctor) {q : String} (hq : q = "totalItems" ∨ q = "startIndex") (n : Nat) :
    (rowOf q).stores env mk (.int n) = .ok (.int n) := by
  have hf : ∀ q ∈ ["totalItems", "startIndex"], (rowOf q).fromStr = false ∧ (rowOf q).parse = false ∧ (rowOf q).types = ["int"] ∧
      (rowOf q).additional = [.nonnegative] := by decide +kernel
  obtain ⟨f1, f2, f3, f4⟩ := hf q (by simpa using hq)
  refine stores_fits (v := .int n) (by unfold PropRow.convert; rw [f1]; rfl) ?_ f2
  refine .leaf _ rfl ⟨"int", by simp [Val.classes], .inl ?_⟩ ?_
  · unfold PropRow.allTypes; rw [f3]; simp [resolveType]
  · rw [f4]
    intro f hf
    simp only [List.map_cons, List.map_nil, List.mem_cons, List.not_mem_nil, or_false] at hf
    subst hf
    show isNonnegative (.int n) = _
    have : ¬ ((n : Int) < 0) := by omega
    simp [isNonnegative, this]

theorem orZero_nat (n : Nat) : (if AS.truthy (.int n) then (.int n : Val) else .int 0) = .int n := by
  unfold AS.truthy
  by_cases h : (n : Int) = 0
  · simp [h]
  · have : n ≠ 0 := fun hn => h (by simp [hn])
    simp [this]

/-- The constructor of a class succeeds if the setters accept the values. -/
theorem construct_succeeds (w : World J) {c : String} (hc : c ∈ pkgClasses) (hno : c ∉ ["Object", "Link"]) (ctx : Tree) (value x : String → Val)
    (hlost : ∀ q ∈ lostOf c, value q = .none) (hnum : ∀ q ∈ propNames c, q = "totalItems" ∨ q = "startIndex" → ∃ n : Nat, value q = .int n)
    (hord : ∀ q, Ordinary c q → (rowOf q).stores w.env w.link (value q) = .ok (x q)) :
    ∃ s, construct w true c (loadArgs c ctx value) = .ok s := by
  have hcc := mem_asClasses c hc
  have hreq : (requiredOf c).all (fun p => ((loadArgs c ctx value).dget p).isSome) = true := by
    rw [required_arguments c hcc]
    split
    · have hid : "id" ∈ propNames c := by
        have : ∀ c ∈ ["Relationship", "Place", "Profile", "Tombstone"], "id" ∈ propNames c := by decide +kernel
        exact this c ‹_›
      simp only [List.all_cons, List.all_nil, Bool.and_true]
      unfold loadArgs
      rw [PyDict.dget_dset, if_neg (by decide), dget_map_pair _ _ hid]; rfl
    · rfl
  have hty := type_attr hc hno
  have key : ∃ s, runAll w true c (loadArgs c ctx value) (classAssigns c) [] = .ok s ∧
      (isRow true c "items" (rowOf "items") = true → "items" ∈ lostOf c → (rowOf "items").stored s = .ok .none) := by
    refine runAll_succeeds (P := fun s => isRow true c "items" (rowOf "items") = true → "items" ∈ lostOf c → (rowOf "items").stored s = .ok .none) ?_ ?_
    · intro a ha s hs
      -- every assignment of an attribute other than `items` keeps `items`
      have keep : a.attr ≠ "items" → ∀ y, isRow true c "items" (rowOf "items") = true → "items" ∈ lostOf c →
          (rowOf "items").stored (s.dset (slotOf true c a.attr) y) = .ok .none := by
        intro hne y h1 h2
        have := hs h1 h2
        have hr := isRow_eq h1
        have hrw : (rowOf "items").read = slotOf true c "items" := by
          unfold slotOf; rw [hr]
          exact slots_agree _ (attrOf_prop hr).1 (by decide +kernel)
        unfold PropRow.stored at this ⊢
        rw [PyDict.dget_dset, if_neg]
        · exact this
        · rw [hrw]
          intro he
          exact hne (slotOf_inj (by decide +kernel) (assigns_public c hcc a ha) he).symm
      have hk := assign_kinds c hc hno a ha
      unfold assignKind at hk
      simp only [Bool.or_eq_true, decide_eq_true_eq] at hk
      rcases hk with (((⟨k1, k2⟩ | ⟨k1, k2, k3, k4⟩) | ⟨k1, k2, k3, k4, k5, k6, k7⟩) | ⟨k1, k2, k3, k4, k5⟩) | ⟨k1, k2, k3, k4⟩
      · -- type
        refine ⟨(s.dget "type").getD (.str (typeName c)), (s.dget "type").getD (.str (typeName c)), ?_, ?_, keep (by rw [k1]; decide) _⟩
        · unfold AS.Assign.value
          rw [k2, k1]
          simp only
          unfold getAttrOr getAttr
          rw [hty]; rfl
        · unfold storesAt
          rw [k1, hty]
      · -- items
        refine ⟨.none, .none, ?_, ?_, ?_⟩
        · unfold AS.Assign.value
          rw [k2, k1]
          simp only
          unfold getAttrOr
          rw [getAttr_none (isRow_eq k4) (hs k4 k3)]
        · unfold storesAt
          rw [k1, isRow_eq k4]
          exact stores_none_ok _ _ _
        · intro _ _
          unfold PropRow.stored
          have hsl : slotOf true c a.attr = (rowOf "items").read := by
            unfold slotOf; rw [k1, isRow_eq k4]
            exact (slots_agree _ (attrOf_prop (isRow_eq k4)).1 (by decide +kernel)).symm
          rw [hsl, PyDict.dget_dset, if_pos rfl]
      · -- totalItems
        have hval : ∃ n : Nat, a.value w true c (loadArgs c ctx value) s = .ok (.int n) := by
          unfold AS.Assign.value
          rw [k2]
          simp only
          rw [getAttr_none (isRow_eq k6) (hs k6 k5)]
          simp only [AS.sizeOf]
          rcases k3 with k3 | k3
          · rw [k3, value_argOf, argOf_load c ctx value k4 (by decide)]
            obtain ⟨n, hn⟩ := hnum _ k4 (.inl rfl)
            rw [hn]
            refine ⟨n, ?_⟩
            by_cases ht : AS.truthy (.int n) = true
            · rw [if_pos ht]
            · have := orZero_nat n
              rw [if_neg ht] at this ⊢
              rw [← this]; rfl
          · rw [k3]
            refine ⟨0, ?_⟩
            rw [if_neg]
            simp [Src.value, defaultOf, AS.truthy]
        obtain ⟨n, hn⟩ := hval
        refine ⟨.int n, .int n, hn, ?_, keep (by rw [k1]; decide) _⟩
        unfold storesAt
        rw [k1, isRow_eq k7]
        exact number_stores _ _ (.inl rfl) n
      · -- startIndex
        obtain ⟨n, hn⟩ := hnum _ k4 (.inr rfl)
        refine ⟨.int n, .int n, ?_, ?_, keep (by rw [k1]; decide) _⟩
        · unfold AS.Assign.value
          rw [k2]
          simp only
          rw [k3, value_argOf, argOf_load c ctx value k4 (by decide), hn, orZero_nat]
        · unfold storesAt
          rw [k1, isRow_eq k5]
          exact number_stores _ _ (.inr rfl) n
      · -- an assignment of an argument
        have hne : a.attr ≠ "items" := by intro h; rw [h] at k3; simp at k3
        rcases k4 with k4 | ⟨k4, k5, k6⟩
        · refine ⟨a.src.value (loadArgs c ctx value), a.src.value (loadArgs c ctx value), ?_, ?_, keep hne _⟩
          · unfold AS.Assign.value; rw [k1]
          · unfold storesAt; rw [isPlain_eq k4]
        · have hst : ∃ y, (rowOf a.attr).stores w.env w.link (a.src.value (loadArgs c ctx value)) = .ok y := by
            have hctx : a.attr ≠ "acontext" := by intro h; rw [h] at k5; simp at k5
            rcases k2 with k2 | k2
            · rw [k2, value_argOf, argOf_load c ctx value k4 hctx]
              by_cases hl : a.attr ∈ lostOf c
              · rw [hlost _ hl]; exact ⟨_, stores_none_ok _ _ _⟩
              · refine ⟨_, hord _ ⟨k4, hl, ?_⟩⟩
                simp only [List.mem_cons, List.not_mem_nil, or_false, not_or] at k3 k5 ⊢
                exact ⟨k5.1, k5.2, k3.1, k3.2.2.1, k3.2.2.2⟩
            · rw [k2]
              refine ⟨.none, ?_⟩
              have : (Src.absent a.attr).value (loadArgs c ctx value) = .none := by
                unfold Src.value defaultOf
                simp [hctx]
              rw [this]; exact stores_none_ok _ _ _
          obtain ⟨y, hy⟩ := hst
          refine ⟨a.src.value (loadArgs c ctx value), y, ?_, ?_, keep hne _⟩
          · unfold AS.Assign.value; rw [k1]
          · unfold storesAt; rw [isRow_eq k6]; exact hy
    · intro h1 _
      have := (isRow_eq h1)
      unfold PropRow.stored
      have hst : (rowOf "items").strict = false := by decide +kernel
      rw [show ([] : Slots).dget _ = none from rfl, hst]; rfl
  obtain ⟨s, hs, -⟩ := key
  refine ⟨s, ?_⟩
  unfold construct
  rw [if_pos hreq, hs]

/-- What the constructor stores for an ordinary property. -/
theorem held_ordinary (w : World J) {c : String} (hc : c ∈ pkgClasses) (hno : c ∉ ["Object", "Link"]) (ctx : Tree) (value : String → Val) (s : Slots)
    (h : construct w true c (loadArgs c ctx value) = .ok s) {q : String} (hq : Ordinary c q) {y : Val}
    (hy : (rowOf q).stores w.env w.link (value q) = .ok y) : (attrOf true c q).held s q = .ok y := by
  have hcc := mem_asClasses c hc
  obtain ⟨hq1, hq2, hq3⟩ := hq
  simp only [List.mem_cons, List.not_mem_nil, or_false, not_or] at hq3
  obtain ⟨n1, n2, n3, n4, n5⟩ := hq3
  obtain ⟨hp, hni, hnh⟩ := ((properties_classified c hc hno q hq1 n2).resolve_left hq2).resolve_left n3
  have hrow := isRow_eq (((kept_rows c hc q hq1).resolve_left n1).resolve_left n2 |>.resolve_left fun h => n3 h.1)
  have hl := (params_assigned c hcc q hp).resolve_left (by simp [special, n3, hni, n4, n5])
  obtain ⟨s0, v, x, -, hv, hx, ht⟩ := runAll_last (P := fun _ => True) (fun _ _ _ _ _ _ _ => trivial) trivial (assigns_public c hcc) hl
    (construct_run h)
  have hv' : v = value q := by
    unfold AS.Assign.value at hv
    simp only at hv
    injection hv with hv
    rw [← hv, value_argOf, argOf_load c ctx value hq1 n1]
  subst hv'
  unfold storesAt at hx
  unfold slotOf at ht
  rw [hrow] at hx ht ⊢
  simp only at hx ht
  rw [hy] at hx; injection hx with hx; subst hx
  show (rowOf q).stored s = _
  unfold PropRow.stored
  rw [slots_agree _ (attrOf_prop hrow).1 (by rw [(attrOf_prop hrow).2]; exact hnh), ht]

/-- A loaded object has no attribute `__namespace__`. -/
theorem no_namespace (w : World J) {c : String} (hc : c ∈ pkgClasses) (kw : List (String × Val)) (s : Slots) (h : construct w true c kw = .ok s) :
    (attrOf true c "__namespace__").held s "__namespace__" = .error .attributeError := by
  have hpl : ∀ c ∈ pkgClasses, isPlain true c "__namespace__" = true := by decide +kernel
  have hw : ∀ r ∈ propTable, r.write ≠ "__namespace__" := by decide +kernel
  rw [isPlain_eq (hpl c hc)]
  have : s.dget "__namespace__" = none := by
    refine runAll_inv (P := fun s => s.dget "__namespace__" = none) ?_ rfl (construct_run h)
    intro a ha s1 s2 u hs1 hr
    obtain ⟨v, x, -, -, rfl⟩ := run_ok hr
    rw [PyDict.dget_dset, if_neg, hs1]
    have hpub := assigns_public c (mem_asClasses c hc) a ha
    have hh : "__namespace__".toList.head? = some '_' := by decide +kernel
    unfold slotOf
    intro he
    cases hat : attrOf true c a.attr with
    | prop r => rw [hat] at he; exact hw r (attrOf_prop hat).1 he.symm
    | const v => rw [hat] at he; simp only at he; exact hpub (he ▸ hh)
    | plain => rw [hat] at he; simp only at he; exact hpub (he ▸ hh)
  unfold Attr.held
  simp only
  rw [this]

theorem objVal_eq (c : String) (s : Slots) (x : String → Val) (h0 : (attrOf true c "__namespace__").held s "__namespace__" = .error .attributeError)
    (h : ∀ q ∈ propNames c, q ≠ "__namespace__" → (attrOf true c q).held s q = .ok (x q)) : objVal c s = objectOf c x := by
  unfold objVal objectOf
  congr 1
  generalize propNames c = l at h
  induction l with
  | nil => rfl
  | cons q l ih =>
    have ih := ih fun p hp => h p (List.mem_cons_of_mem _ hp)
    rw [List.filterMap_cons, List.filter_cons]
    by_cases hq : q = "__namespace__"
    · subst hq; rw [h0]; simp only [bne_self_eq_false, Bool.false_eq_true, if_false]; exact ih
    · rw [h q (List.mem_cons_self ..) hq, if_pos (by simpa using hq), List.map_cons, ih]

/-- An object is built with the values that come back. -/
theorem construct_back (w : World J) {c : String} (hc : c ∈ pkgClasses) (hno : c ∉ ["Object", "Link"]) (ctx : Tree) (value x : String → Val)
    (hctx : x "acontext" = ctx.toVal) (ht : x "type" = .str (typeName c)) (hl : ∀ q ∈ lostOf c, x q = .none ∧ value q = .none)
    (hn : ∀ q ∈ propNames c, q = "totalItems" ∨ q = "startIndex" → ∃ n : Nat, x q = .int n ∧ value q = .int n)
    (hord : ∀ q, Ordinary c q → (rowOf q).stores w.env w.link (value q) = .ok (x q)) :
    ∃ s, construct w true c (loadArgs c ctx value) = .ok s ∧ objVal c s = objectOf c x := by
  obtain ⟨s, hs⟩ := construct_succeeds w hc hno ctx value x (fun q hq => (hl q hq).2) (fun q hq h => by
    obtain ⟨n, -, h⟩ := hn q hq h; exact ⟨n, h⟩) hord
  refine ⟨s, hs, objVal_eq c s x (no_namespace w hc _ s hs) fun q hq hns => ?_⟩
  obtain ⟨y, hk, hy⟩ := held_after w hc hno ctx value s hs hq hns
  cases hk with
  | context h => subst h; rw [hy, hctx]
  | type h => subst h; rw [hy, ht]
  | lost h => rw [hy, (hl q h).1]
  | number h =>
    obtain ⟨n, h1, h2⟩ := hn q hq h
    rw [hy, h1, h2]
    unfold Props.orZero
    rw [orZero_nat]; rfl
  | kept _ _ _ _ _ g1 g2 =>
    simp only [List.mem_cons, List.not_mem_nil, or_false, not_or] at g2
    have ho : Ordinary c q := ⟨hq, g1, by simp [g2, hns]⟩
    exact held_ordinary w hc hno ctx value s hs ho (hord q ho)

end Verif.Props
