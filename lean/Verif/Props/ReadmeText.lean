import Verif.Props.Readme
import Verif.Props.JsonText

/-!
# C141: the examples of the README, with texts, the shipped engine and the default classes
-/
namespace Verif.Props.Readme
open Verif Verif.Jsonld Verif.AS Verif.Props Verif.Spec Verif.Spec.Json Verif.Props.Reads Verif.Props.Walk Verif.Jsonld.Text Verif.Props.JsonText

variable {J : Type}

/-! ### New objects -/

/-- Constructors only look at their arguments. -/
theorem same_arguments (w : World J) (packaged : Bool) {cls : String} (hc : cls ∈ asClasses) (kw kw' : List (String × Val))
    (h : ∀ p ∈ paramList cls, argOf kw p = argOf kw' p)
    (hr : ∀ p ∈ requiredOf cls, (kw.dget p).isSome = (kw'.dget p).isSome) : construct w packaged cls kw = construct w packaged cls kw' := by
  obtain ⟨h1, -⟩ := sources_params cls hc
  have hv : ∀ a ∈ classAssigns cls, a.src.value kw = a.src.value kw' := by
    intro a ha
    cases hsrc : a.src with
    | param n => rw [value_argOf, value_argOf, h n (h1 a ha n hsrc)]
    | absent n => rfl
  have hrun : ∀ l : List AS.Assign, (∀ a ∈ l, a ∈ classAssigns cls) → ∀ s, runAll w packaged cls kw l s = runAll w packaged cls kw' l s := by
    intro l
    induction l with
    | nil => intro _ s; rfl
    | cons a l ih =>
      intro hl s
      have ha : a.run w packaged cls kw s = a.run w packaged cls kw' s := by
        unfold AS.Assign.run AS.Assign.value
        rw [hv a (hl a (List.mem_cons_self ..))]
      unfold runAll
      rw [ha]
      rcases a.run w packaged cls kw' s with ⟨e | u, s'⟩
      · rfl
      · exact ih (fun b hb => hl b (List.mem_cons_of_mem _ hb)) s'
  unfold construct
  rw [hrun _ fun a ha => ha]
  have : (requiredOf cls).all (fun p => (kw.dget p).isSome) = (requiredOf cls).all fun p => (kw'.dget p).isSome := by
    generalize requiredOf cls = l at hr
    induction l with
    | nil => rfl
    | cons x l ih => rw [List.all_cons, List.all_cons, hr x (List.mem_cons_self ..), ih fun p hp => hr p (List.mem_cons_of_mem _ hp)]
  rw [this]

/-- What a new object that is given an id only has. -/
def newHas (c i q : String) : Val :=
  if q = "acontext" then .str asNs else if q = "id" then .str i
  else if q = "type" then (if c = "Object" then .none else .str (typeName c))
  else if q = "totalItems" ∨ q = "startIndex" then .int 0 else .none

theorem id_facts : (∀ c ∈ pkgClasses, "id" ∈ paramList c → c ≠ "Link" ∧ "id" ∉ lostOf c ∧ "id" ∈ propNames c) ∧
    (rowOf "id").fromStr = false ∧ (rowOf "id").parse = false ∧ (rowOf "id").json = .default ∧
    (∀ q ∈ propNames "Object", q ≠ "__namespace__" → q = "type" ∨ (q ∈ paramList "Object" ∧ q ∉ ["type", "items", "totalItems", "startIndex"] ∧ q ≠ "hreflang")) ∧
    "Object" ∈ pkgClasses ∧ (rowOf "id").name = "id" ∧ "totalItems" ∉ propNames "Object" ∧ "startIndex" ∉ propNames "Object" := by decide +kernel

theorem id_rows : ∀ c ∈ pkgClasses, "id" ∈ paramList c → isRow true c "id" (rowOf "id") = true := by decide +kernel

/-- Text is kept as it is by `id`. -/
theorem stored_id {env : Env} {mk : Ctor} {i : String} {x : Val} (h : StoredFor env mk (rowOf "id") (.str i) x) : x = .str i := by
  obtain ⟨-, h1, h2, -⟩ := id_facts
  cases h with
  | plain => rfl
  | link _ h => rw [h1] at h; cases h
  | date _ h => rw [h2] at h; cases h

/-- None stays None. -/
theorem stored_none {env : Env} {mk : Ctor} {r : PropRow} {x : Val} (h : StoredFor env mk r .none x) : x = .none :=
  storedFor_atomic ⟨rfl, by simp, by simp⟩ h

theorem new_has (w : World J) {c : String} (hc : c ∈ pkgClasses) (hid : "id" ∈ paramList c) (i : String) (s : Slots)
    (h : construct w true c [("id", .str i)] = .ok s) {q : String} (hq : q ∈ propNames c) (hns : q ≠ "__namespace__") :
    (attrOf true c q).held s q = .ok (newHas c i q) := by
  obtain ⟨f1, -, -, -, f5, -, -, f8, f9⟩ := id_facts
  obtain ⟨hnl, hlost, -⟩ := f1 c hc hid
  by_cases ho : c = "Object"
  · subst ho
    rcases f5 q hq hns with rfl | ⟨hp, hsp, hhl⟩
    · have hst := stays_none w (mem_asClasses _ hc) type_row.1 (isRow_eq (type_row.2.1 "Object" (by decide))) type_row.2.2
        (type_assigns _ (mem_asClasses _ hc)) (by decide +kernel) [("id", .str i)] (classAssigns "Object") (fun a ha => ha) [] s (by rfl) (construct_run h)
      rw [isRow_eq (type_row.2.1 "Object" (by decide))]
      exact hst
    · have hh := arguments_kept_partial w true (mem_asClasses _ hc) _ s h hp hsp fun _ => hhl
      simp only [List.mem_cons, List.not_mem_nil, or_false, not_or] at hsp
      unfold Holds at hh
      have hv : argOf [("id", .str i)] q = newHas "Object" i q := by
        unfold argOf newHas
        by_cases h1 : q = "acontext"
        · subst h1; rfl
        · by_cases h2 : q = "id"
          · subst h2; rfl
          · have : ([("id", Val.str i)] : List (String × Val)).dget q = none := by simp [List.dget, Ne.symm h2]
            rw [this, if_neg h1, if_neg h1, if_neg h2, if_neg hsp.1, if_neg (by simp [hsp.2.2.1, hsp.2.2.2])]; rfl
      rw [hv] at hh
      cases ha : attrOf true "Object" q with
      | prop r =>
        rw [ha] at hh
        obtain ⟨x, hx, hst⟩ := hh
        obtain ⟨hr, hn⟩ := attrOf_prop ha
        have : x = newHas "Object" i q := by
          by_cases h2 : q = "id"
          · subst h2
            rw [← row_unique r hr, hn] at hx
            exact stored_id hx
          · have h1 : q ≠ "acontext" := by
              rintro rfl
              rw [isPlain_eq (context_plain _ hc)] at ha; cases ha
            have hnone : newHas "Object" i q = .none := by
              unfold newHas
              rw [if_neg h1, if_neg h2, if_neg hsp.1, if_neg (by simp [hsp.2.2.1, hsp.2.2.2])]
            rw [hnone] at hx ⊢
            exact stored_none hx
        rw [← this]; exact hst
      | const v =>
        rw [ha] at hh
        show Except.ok ((s.dget q).getD v) = _
        rw [show s.dget q = some _ from hh]; rfl
      | plain =>
        rw [ha] at hh
        unfold Attr.held
        rw [show s.dget q = some _ from hh]
  · have hno : c ∉ ["Object", "Link"] := by simp [ho, hnl]
    have hload : construct w true c (loadArgs c (.str asNs) fun q => if q = "id" then .str i else .none) = .ok s := by
      rw [← h]
      refine same_arguments w true (mem_asClasses c hc) _ _ (fun p hp => ?_) (fun p hp => ?_)
      · by_cases h1 : p = "acontext"
        · subst h1
          rw [argOf_context]; rfl
        · by_cases hpn : p ∈ propNames c
          · rw [argOf_load _ _ _ hpn h1]
            unfold argOf
            by_cases h2 : p = "id"
            · subst h2; rfl
            · simp [List.dget, Ne.symm h2, h1, h2]
          · have h2 : p ≠ "id" := by rintro rfl; exact hpn (f1 c hc hid).2.2
            unfold argOf loadArgs
            rw [PyDict.dget_dset, if_neg h1, dget_map_pair_none _ _ hpn]
            simp [List.dget, Ne.symm h2, h1]
      · rw [required_arguments c (mem_asClasses c hc)] at hp
        split at hp
        · cases List.mem_singleton.1 hp
          unfold loadArgs
          rw [PyDict.dget_dset, if_neg (by decide), dget_map_pair _ _ (f1 c hc hid).2.2]; rfl
        · cases hp
    obtain ⟨x, hk, hh⟩ := held_after w hc hno (.str asNs) _ s hload hq hns
    rw [hh]
    refine congrArg Except.ok ?_
    unfold newHas
    cases hk with
    | context h1 => rw [if_pos h1]; rfl
    | type h1 => subst h1; rw [if_neg (by decide), if_neg (by decide), if_pos rfl, if_neg ho]
    | lost h1 =>
      have hl : ∀ c ∈ pkgClasses, ∀ q ∈ lostOf c, q ≠ "acontext" ∧ q ≠ "type" ∧ q ≠ "totalItems" ∧ q ≠ "startIndex" := by decide +kernel
      obtain ⟨l1, l2, l3, l4⟩ := hl c hc q h1
      have l5 : q ≠ "id" := by rintro rfl; exact hlost h1
      rw [if_neg l1, if_neg l5, if_neg l2, if_neg (by simp [l3, l4])]
    | number h1 =>
      have l5 : q ≠ "id" := by rintro rfl; exact absurd h1 (by decide)
      have l1 : q ≠ "acontext" := by rintro rfl; exact absurd h1 (by decide)
      have l2 : q ≠ "type" := by rintro rfl; exact absurd h1 (by decide)
      rw [if_neg l1, if_neg l5, if_neg l2, if_pos h1, if_neg l5]; rfl
    | kept r x hr hn hs h1 h2 =>
      simp only [List.mem_cons, List.not_mem_nil, or_false, not_or] at h2
      rw [if_neg h2.1]
      by_cases l5 : q = "id"
      · subst l5
        rw [if_pos rfl]
        rw [← row_unique r hr, hn] at hs
        exact stored_id hs
      · rw [if_neg l5, if_neg h2.2.1, if_neg (by simp [h2.2.2.1, h2.2.2.2])]
        rw [if_neg l5] at hs
        exact stored_none hs

/-- What is written under a name that is neither `@context` nor one of the properties of the class: nothing. -/
theorem output_keys (w : World J) {c : String} (hc : c ∈ pkgClasses) (s : Slots) {d : PyDict String Val} (h : output w c s = .ok d) {k : String}
    (hk : k ∉ propNames c) (hx : k ≠ "@context") : d.dget k = none := by
  unfold output at h
  cases hf : jsonFields w c s (propNames c) with
  | error e => rw [hf] at h; cases h
  | ok fs =>
    rw [hf] at h
    replace h : data {} fs = d := Except.ok.inj h
    have hn : fs.map Prod.fst = propNames c := by
      clear h
      generalize propNames c = l at hf
      induction l generalizing fs with
      | nil => cases Except.ok.inj hf; rfl
      | cons q l ih =>
        rw [jsonFields] at hf
        cases ha : jsonAttr w c s q with
        | error e => rw [ha] at hf; cases hf
        | ok v =>
          simp only [ha] at hf
          cases hl : jsonFields w c s l with
          | error e => rw [hl] at hf; cases hf
          | ok gs =>
            simp only [hl] at hf
            cases Except.ok.inj hf
            rw [List.map_cons, ih gs hl]
    rw [← h]
    have hm : ∀ q v, (q, v) ∈ fs → q ∈ propNames c := fun q v hqv => hn ▸ List.mem_map_of_mem (f := Prod.fst) hqv
    have hex := data_exact_partial {} fs (show (fs.map Prod.fst).Nodup from hn ▸ names_nodup c hc) (no_clash rfl hc fs fun p hp => hm p.1 p.2 hp)
    cases hd : (data {} fs).dget k with
    | none => rfl
    | some y =>
      exfalso
      obtain ⟨p, v, g1, -, g3, -⟩ := (hex _ _).1 hd
      rw [out_name rfl hc (hm p v g1)] at g3
      split_ifs at g3 with h'
      · exact hx g3
      · exact hk (g3 ▸ hm p v g1)

/-- **C141 (README, first example).** `Cls(id).json(...)`, for every class of the package that has an id, in every layout: a JSON text with the id, the
context of ActivityStreams, the type (not for Object itself) and zeros for the numbers of collections, and with nothing else. -/
theorem new_object_text (value : String → Bool × String) (w : World J) {c : String} (hc : c ∈ pkgClasses) (hid : "id" ∈ paramList c) (i : String) (s : Slots)
    (h : construct w true c [("id", .str i)] = .ok s) (o : Layout) :
    ∃ text kvs, outputText w o c s = .ok text ∧ Reads false value text (.obj kvs) ∧ loads value text = .ok (.obj kvs) ∧
      ∀ k, kvs.dget k = if k = "@context" then some (.str "https://www.w3.org/ns/activitystreams") else if k = "id" then some (.str i)
        else if k = "type" ∧ c ≠ "Object" then some (.str (typeName c))
        else if k ∈ ["totalItems", "startIndex"] ∧ k ∈ propNames c then some (.int 0) else none := by
  have hx : ∀ q ∈ propNames c, q ≠ "__namespace__" → (attrOf true c q).held s q = .ok (newHas c i q) := fun q hq hns => new_has w hc hid i s h hq hns
  obtain ⟨d, hd, d1, d2, d3, d4⟩ := output_tree w hc s (newHas c i) (.str asNs) (.str _) rfl hx
  have hf := json_fields w c s (newHas c i) hx
  have hshow : ∀ q ∈ propNames c, shown w.env c (newHas c i) q = newHas c i q := by
    intro q hq
    have hv : jsonView w.env (newHas c i q) = newHas c i q := by unfold newHas; split_ifs <;> simp [jsonView]
    unfold shown
    rw [hv]
    unfold fieldForm
    cases ha : attrOf true c q with
    | const v => rfl
    | plain => rfl
    | prop r =>
      obtain ⟨hr, hn⟩ := attrOf_prop ha
      by_cases h1 : q = "id" ∨ q = "type" ∨ q = "totalItems" ∨ q = "startIndex"
      · have hd : ∀ q ∈ ["id", "type", "totalItems", "startIndex"], (rowOf q).json = .default := by decide +kernel
        have : r.json = .default := by
          rw [← row_unique r hr, hn]
          exact hd q (by simpa using h1)
        show r.form w.env _ = _
        unfold PropRow.form
        rw [this]
      · have h2 : q ≠ "acontext" := by
          rintro rfl
          rw [isPlain_eq (context_plain _ hc)] at ha; cases ha
        simp only [not_or] at h1
        have : newHas c i q = .none := by
          unfold newHas
          rw [if_neg h2, if_neg h1.1, if_neg h1.2.1, if_neg (by simp [h1.2.2.1, h1.2.2.2])]
        rw [this]
        show r.form w.env _ = _
        unfold PropRow.form
        cases r.json <;> rfl
  have hw : ∀ P : Bool → String → Prop, ∀ fs, jsonFields w c s (propNames c) = .ok fs → ∀ f ∈ fs, Writable P f.2 := by
    intro P fs hfs f hfm
    rw [hf] at hfs
    rw [← Except.ok.inj hfs] at hfm
    obtain ⟨q, hq, rfl⟩ := List.mem_map.1 hfm
    simp only
    split_ifs with hns
    · exact .none
    · rw [hshow q hq]
      unfold newHas
      split_ifs <;> constructor
  have ho : outputText w o c s = .ok (jsonText o {} ((propNames c).map fun q => (q, if q = "__namespace__" then .none else shown w.env c (newHas c i) q))) := by
    unfold outputText
    rw [hf]
  have hdd : d = data {} ((propNames c).map fun q => (q, if q = "__namespace__" then .none else shown w.env c (newHas c i) q)) := by
    unfold output at hd
    rw [hf] at hd
    exact (Except.ok.inj hd).symm
  have hj := json_reads_back_partial value o {} rfl ((propNames c).map fun q => (q, if q = "__namespace__" then .none else shown w.env c (newHas c i) q))
  rw [← hdd] at hj
  refine ⟨_, toTreeFields d, ho, hj.2 (hw _ _ hf), hj.1 (hw _ _ hf), fun k => ?_⟩
  by_cases k0 : k = "@context"
  · subst k0
    rw [if_pos rfl, dget_toTreeFields, d1]; rfl
  · rw [if_neg k0]
    have hnid : k = "id" → k ∈ propNames c := by rintro rfl; exact (id_facts.1 c hc hid).2.2
    have hnty : k = "type" ∧ c ≠ "Object" → k ∈ propNames c := by
      rintro ⟨rfl, -⟩
      have : ∀ c ∈ pkgClasses, "type" ∈ propNames c := by decide +kernel
      exact this c hc
    by_cases hk : k ∈ propNames c
    · by_cases k1 : k = "acontext"
      · subst k1
        rw [dget_toTreeFields, d2]; simp
      · by_cases k2 : k = "__namespace__"
        · subst k2
          rw [dget_toTreeFields, d3]; simp
        · rw [d4 k hk k1 k2, hshow k hk]
          unfold newHas
          rw [if_neg k1]
          by_cases e1 : k = "id"
          · rw [if_pos e1, if_pos e1]; rfl
          · rw [if_neg e1, if_neg e1]
            by_cases e2 : k = "type"
            · rw [if_pos e2]
              by_cases e3 : c = "Object"
              · rw [if_pos e3, if_neg (by simp [e3]), if_neg (by rw [e2]; simp)]; rfl
              · rw [if_neg e3, if_pos ⟨e2, e3⟩]; rfl
            · rw [if_neg e2, if_neg (show ¬ (k = "type" ∧ c ≠ "Object") from fun h => e2 h.1)]
              by_cases e4 : k = "totalItems" ∨ k = "startIndex"
              · rw [if_pos e4, if_pos ⟨by simpa using e4, hk⟩]; rfl
              · rw [if_neg e4, if_neg (by simp only [List.mem_cons, List.not_mem_nil, or_false]; exact fun h => e4 h.1)]; rfl
    · rw [dget_toTreeFields, output_keys w hc s hd hk k0, if_neg fun h => hk (hnid h), if_neg fun h => hk (hnty h), if_neg fun h => hk h.2]; rfl

/-- **C141.** `Object(id)` succeeds for every text that the check of addresses does not raise on (it does not look at the answer of the check). -/
theorem object_made (w : World J) (i : String) (hi : validateUrlCheck w.env.bracketOk (.str i) = .ok ()) :
    ∃ s, construct w true "Object" [("id", .str i)] = .ok s := by
  obtain ⟨-, i1, i2, -, -, hc, -, -, -⟩ := id_facts
  have hkinds : ∀ a ∈ classAssigns "Object", (a.attr = "type" ∧ a.how = .keepOr) ∨ (a.attr ≠ "type" ∧ a.how = .set ∧ a.src = .param a.attr ∧
      (a.attr = "id" → isRow true "Object" "id" (rowOf "id") = true) ∧ (isPlain true "Object" a.attr = true ∨ isRow true "Object" a.attr (rowOf a.attr) = true)) := by
    decide +kernel
  have hrow := isRow_eq (type_row.2.1 "Object" (by decide))
  have hid : (rowOf "id").stores w.env w.link (.str i) = .ok (.str i) := by
    refine stores_fits (u := .str i) (v := .str i) ?_ ?_ i2
    · unfold PropRow.convert; rw [i1]; rfl
    · have hr : (rowOf "id").allTypes = ["NoneType", "str"] ∧ (rowOf "id").additional = [.url] := by decide +kernel
      unfold Fits
      rw [hr.1, hr.2]
      refine .leaf _ rfl ⟨"str", by simp [Val.classes], .inl (by simp)⟩ ?_
      intro f hf
      cases List.mem_singleton.1 hf
      exact hi
  obtain ⟨s, hs, -⟩ := runAll_succeeds (w := w) (packaged := true) (cls := "Object") (kw := [("id", .str i)]) (l := classAssigns "Object")
    (P := fun s => (rowOf "type").stored s = .ok .none) (s := []) (by
      intro a ha s hs
      rcases hkinds a ha with ⟨h1, h2⟩ | ⟨h0, h1, h2, h3, h4⟩
      · refine ⟨.none, .none, ?_, ?_, ?_⟩
        · unfold AS.Assign.value
          rw [h2, h1]
          simp only
          unfold getAttrOr
          rw [getAttr_none hrow hs]
        · unfold storesAt
          rw [h1, hrow]
          exact stores_none_ok _ _ _
        · have : slotOf true "Object" a.attr = (rowOf "type").write := by unfold slotOf; rw [h1, hrow]
          rw [this]
          unfold PropRow.stored
          rw [slots_agree _ type_row.1 type_row.2.2, PyDict.dget_dset, if_pos rfl]
      · have hv : a.value w true "Object" [("id", .str i)] s = .ok (argOf [("id", .str i)] a.attr) := by
          unfold AS.Assign.value
          rw [h1, h2, value_argOf]
        have hkeep : ∀ x, (rowOf "type").stored (s.dset (slotOf true "Object" a.attr) x) = .ok .none := by
          intro x
          have hslot : slotOf true "Object" "type" = (rowOf "type").write := by unfold slotOf; rw [hrow]
          unfold PropRow.stored at hs ⊢
          rw [PyDict.dget_dset, if_neg]
          · exact hs
          · rw [slots_agree _ type_row.1 type_row.2.2, ← hslot]
            intro he
            exact h0 (slotOf_inj (by decide +kernel) (assigns_public "Object" (mem_asClasses _ hc) a ha) he).symm
        refine ⟨_, if a.attr = "id" then .str i else argOf [("id", .str i)] a.attr, hv, ?_, hkeep _⟩
        unfold storesAt
        by_cases e : a.attr = "id"
        · rw [e, isRow_eq (h3 e)]
          simp only [if_true]
          exact hid
        · rw [if_neg e]
          rcases h4 with h4 | h4
          · rw [isPlain_eq h4]
          · rw [isRow_eq h4]
            have hne : a.attr ≠ "acontext" := by
              intro hac
              rw [hac] at h4
              have := isRow_eq h4
              rw [isPlain_eq (context_plain _ hc)] at this; cases this
            have : argOf [("id", .str i)] a.attr = .none := by simp [argOf, List.dget, Ne.symm e, hne]
            rw [this]
            exact stores_none_ok _ _ _) (by rfl)
  refine ⟨s, ?_⟩
  unfold construct
  have : requiredOf "Object" = [] := by decide +kernel
  rw [this]
  exact hs

/-! ### Texts of known types, and the walk, with the shipped engine -/

/-- A document (or part of one, with its context) is of a type of ActivityStreams, as JSON-LD expansion sees it. -/
def HasType (expand : Tree → Outcome Expansion) (kvs : List (String × Tree)) (c : String) : Prop :=
  c ∈ pkgClasses ∧ c ∉ ["Object", "Link"] ∧ ∃ ts, expand (.obj (normalized kvs)) = .ok (.typed (("https://www.w3.org/ns/activitystreams#" ++ typeName c) :: ts)) ∧
    expand (.obj kvs) = .ok (.typed (("https://www.w3.org/ns/activitystreams#" ++ typeName c) :: ts))

theorem type_ns (c : String) : asNs ++ "#" ++ typeName c = "https://www.w3.org/ns/activitystreams#" ++ typeName c := by
  have : asNs ++ "#" = "https://www.w3.org/ns/activitystreams#" := by decide +kernel
  rw [this]

theorem pkg_rows : ∀ c ∈ pkgClasses, (classRow c).isSome = true := by decide +kernel

/-- **C141 (README, second example).** `create_engine().from_json(text)`: for every spelling of a document whose type is that of a class of the package (but
Object and Link), whatever comes back is an object of that class, with the id and the type of the document. -/
theorem text_of_type (repr : Nat → String) (hrepr : ∀ i, (repr i).toList.head? = some '<') :
    ∃ p e, createPackage = .ok p ∧ createEngine repr = .ok e ∧ ∀ (w : World J) (expand : Tree → Outcome Expansion) (value : String → Bool × String)
      (text : String) (kvs : List (String × Tree)) (c : String), Reads true value text (.obj kvs) → HasType expand kvs c → ∀ v,
      fromText (asEngine w expand (registryOf p e)) value text = .ok v →
      ∃ fields, v = .obj c fields ∧ fields.dget "type" = some (.str (typeName c)) ∧
        ∀ i, "id" ∈ paramList c → kvs.dget "id" = some (.str i) → fields.dget "id" = some (.str i) := by
  obtain ⟨p, e, hp, he, h⟩ := loaded_properties_partial (J := J) repr hrepr
  refine ⟨p, e, hp, he, fun w expand value text kvs c hr ht v hv => ?_⟩
  obtain ⟨hc, hno, ts, hx, -⟩ := ht
  obtain ⟨row, hrow⟩ := Option.isSome_iff_exists.1 (pkg_rows c hc)
  have hty : row.type = typeName c := by unfold typeName; rw [hrow]
  simp only [List.mem_cons, List.not_mem_nil, or_false, not_or] at hno
  rw [← type_ns, ← hty] at hx
  have hv' : (asEngine w expand (registryOf p e)).fromJson kvs = .ok v := by
    unfold fromText fromData at hv
    simp only [loads_reads hr] at hv
    exact hv
  obtain ⟨val, fields, rfl, g1, g2, g3, -⟩ := h w expand c row hc hrow hno.1 hno.2 kvs ts hx v hv'
  have htn : ∀ c ∈ pkgClasses, "type" ∈ propNames c := by decide +kernel
  refine ⟨fields, rfl, ?_, fun i hid hi => ?_⟩
  · obtain ⟨x, hk, hxf⟩ := g3 "type" (htn c hc) (by decide)
    cases hk with
    | context h => exact absurd h (by decide)
    | type => exact hxf
    | lost h =>
      have : ∀ c ∈ pkgClasses, "type" ∉ lostOf c := by decide +kernel
      exact absurd h (this c hc)
    | number h => exact absurd h (by decide)
    | kept _ _ _ _ _ _ h => exact absurd h (by decide)
  · obtain ⟨-, hlost, hin⟩ := id_facts.1 c hc hid
    have hu := g1 "id" hin _ hi
    have hval := unpack_str hu
    obtain ⟨x, hk, hxf⟩ := g3 "id" hin (by decide)
    cases hk with
    | context h => exact absurd h (by decide)
    | type h => exact absurd h (by decide)
    | lost h => exact absurd h hlost
    | number h => exact absurd h (by decide)
    | kept r _ hr hn hs =>
      rw [← row_unique r hr, hn, hval] at hs
      rw [hxf, stored_id hs]

/-- **C141 with C138.** The walk of the README with the shipped engine, for an outbox that is given as a text, in any spelling, and a
page that the network answers with as a text, in any spelling (`response.json()`). -/
theorem readme_text_walk_partial (repr : Nat → String) (hrepr : ∀ i, (repr i).toList.head? = some '<') :
    ∃ p e, createPackage = .ok p ∧ createEngine repr = .ok e ∧ ∀ (S : Setting J) (value : String → Bool × String),
      S.reg = registryOf p e → GoodRepr S.repr →
      ∀ (c1 c2 c3 c4 : String) (text body a d : String) (outbox page act note : List (String × Tree)) (items : List Tree) (i : Nat) (v pg : Val),
      Reads true value text (.obj outbox) → HasType S.expand outbox c1 → "first" ∈ propNames c1 → outbox.dget "first" = some (.str a) → a ≠ "" →
      S.fetch (.str a) = loads value body → Reads true value body (.obj page) →
      HasType S.expand page c2 → c2 ∈ ["OrderedCollection", "OrderedCollectionPage"] → page.dget "orderedItems" = some (.arr items) →
      items[i]? = some (.obj act) →
      HasType S.expand (withContext (contextOf page) act) c3 → "object" ∈ propNames c3 → (withContext (contextOf page) act).dget "object" = some (.obj note) →
      HasType S.expand (withContext (contextOf (withContext (contextOf page) act)) note) c4 → "published" ∈ propNames c4 →
      (withContext (contextOf (withContext (contextOf page) act)) note).dget "published" = some (.str d) →
      fromText S.engine value text = .ok v → S.engine.fromJson page = .ok pg →
      ∃ t, parseDatetime (.str d.toList) = .ok (.dt t) ∧
        walk S.graph v [.attr "first", .attr "orderedItems", .item i, .attr "object", .attr "published"] =
          (.ok (.other "datetime" (S.env.dateRepr t)), [.str a]) := by
  obtain ⟨p, e, hp, he, -, hcl⟩ := engine_classes repr hrepr
  refine ⟨p, e, hp, he, fun S value hreg hgood c1 c2 c3 c4 text body a d outbox page act note items i v pg => ?_⟩
  intro h0 t1 f1 d1 ha hfetch hbody t2 f2 d2 hi t3 f3 d3 t4 f4 d4 hv hpg
  have isA : ∀ kvs c, HasType S.expand kvs c → S.IsA kvs c := by
    rintro kvs c ⟨hc, hno, ts, x1, x2⟩
    obtain ⟨row, hrow⟩ := Option.isSome_iff_exists.1 (pkg_rows c hc)
    have hty : row.type = typeName c := by unfold typeName; rw [hrow]
    refine ⟨hc, hno, _, ts, ?_, x1, x2⟩
    have := hcl c hc row hrow
    rw [hty, type_ns, if_neg (by simpa using hno)] at this
    rw [hreg]; exact this
  have hv' : S.engine.fromJson outbox = .ok v := by
    unfold fromText fromData at hv
    simp only [loads_reads h0] at hv
    exact hv
  exact readme_walk_partial S hgood (isA _ _ t1) f1 d1 ha (isA _ _ t2) f2 d2 hi (isA _ _ t3) f3 d3 (isA _ _ t4) f4 d4 hv'
    (by rw [hfetch, loads_reads hbody]) hpg

/-! ### Such texts exist -/

/-- The text of the README's first example, but for the order of the properties, which the model does not have. -/
example : ∃ s, construct backWorld true "Object" [("id", .str "https://example.org/obj/0")] = .ok s ∧ ∀ o : Layout, ∃ text kvs,
    outputText backWorld o "Object" s = .ok text ∧ Reads false asWritten text (.obj kvs) ∧
      kvs.dget "id" = some (.str "https://example.org/obj/0") ∧ kvs.dget "@context" = some (.str "https://www.w3.org/ns/activitystreams") ∧
      ∀ k, k ≠ "id" → k ≠ "@context" → kvs.dget k = none := by
  obtain ⟨s, hs⟩ := object_made backWorld "https://example.org/obj/0" (by decide +kernel)
  refine ⟨s, hs, fun o => ?_⟩
  obtain ⟨text, kvs, h1, h2, -, h4⟩ := new_object_text asWritten backWorld (c := "Object") (by decide +kernel) (by decide +kernel) _ s hs o
  refine ⟨text, kvs, h1, h2, by rw [h4]; rfl, by rw [h4]; rfl, fun k k1 k2 => ?_⟩
  rw [h4, if_neg k2, if_neg k1, if_neg (by simp), if_neg]
  rintro ⟨h, hk⟩
  simp only [List.mem_cons, List.not_mem_nil, or_false] at h
  rcases h with rfl | rfl
  · exact id_facts.2.2.2.2.2.2.2.1 hk
  · exact id_facts.2.2.2.2.2.2.2.2 hk

mutual
/-- Two data are the same, as a check that can be run. -/
def sameTree : Tree → Tree → Bool
  | .null, .null => true
  | .bool a, .bool b => a == b
  | .int a, .int b => a == b
  | .float n r, .float n' r' => n == n' && r == r'
  | .str a, .str b => a == b
  | .arr xs, .arr ys => sameTrees xs ys
  | .obj xs, .obj ys => samePairs xs ys
  | _, _ => false
def sameTrees : List Tree → List Tree → Bool
  | [], [] => true
  | x :: xs, y :: ys => sameTree x y && sameTrees xs ys
  | _, _ => false
def samePairs : List (String × Tree) → List (String × Tree) → Bool
  | [], [] => true
  | (k, x) :: xs, (l, y) :: ys => k == l && sameTree x y && samePairs xs ys
  | _, _ => false
end

mutual
theorem sameTree_eq : ∀ {a b : Tree}, sameTree a b = true → a = b
  | .null, b, h => by cases b <;> simp_all [sameTree]
  | .bool _, b, h => by cases b <;> simp_all [sameTree]
  | .int _, b, h => by cases b <;> simp_all [sameTree]
  | .float _ _, b, h => by cases b <;> simp_all [sameTree]
  | .str _, b, h => by cases b <;> simp_all [sameTree]
  | .arr xs, b, h => by
    cases b with
    | arr ys => rw [sameTree] at h; rw [sameTrees_eq h]
    | _ => simp [sameTree] at h
  | .obj xs, b, h => by
    cases b with
    | obj ys => rw [sameTree] at h; rw [samePairs_eq h]
    | _ => simp [sameTree] at h
theorem sameTrees_eq : ∀ {a b : List Tree}, sameTrees a b = true → a = b
  | [], b, h => by cases b <;> simp_all [sameTrees]
  | x :: xs, b, h => by
    cases b with
    | nil => simp [sameTrees] at h
    | cons y ys => rw [sameTrees, Bool.and_eq_true] at h; rw [sameTree_eq h.1, sameTrees_eq h.2]
theorem samePairs_eq : ∀ {a b : List (String × Tree)}, samePairs a b = true → a = b
  | [], b, h => by cases b <;> simp_all [samePairs]
  | (k, x) :: xs, b, h => by
    cases b with
    | nil => simp [samePairs] at h
    | cons y ys =>
      obtain ⟨l, y⟩ := y
      rw [samePairs, Bool.and_eq_true, Bool.and_eq_true] at h
      rw [beq_iff_eq.1 h.1.1, sameTree_eq h.1.2, samePairs_eq h.2]
end

/-- A text is read as a datum, as a check that can be run. -/
def readsAs (text : String) (t : Tree) : Bool := match loads asWritten text with
  | .ok u => sameTree u t
  | .error _ => false

theorem readsAs_reads {text : String} {t : Tree} (h : readsAs text t = true) : Reads true asWritten text t := by
  refine (loads_iff _ _ _).1 ?_
  unfold readsAs at h
  cases hl : loads asWritten text with
  | error e => rw [hl] at h; exact absurd h (by simp)
  | ok u => rw [hl] at h; rw [sameTree_eq h]

/-- The text of the README's second example. -/
def exPerson : String := "{\n    \"id\": \"https://example.org/@user0\",\n    \"type\": \"Person\",\n    \"@context\": \"https://www.w3.org/ns/activitystreams\"\n}"

theorem ex_person : Reads true asWritten exPerson (.obj [("id", .str "https://example.org/@user0"), ("type", .str "Person"),
    ("@context", .str "https://www.w3.org/ns/activitystreams")]) := readsAs_reads (by decide +kernel)

/-- Engines that find the same classes load the same objects. -/
theorem unpack_congr {e e' : Engine} (hx : e.expand = e'.expand) (hp : e.props = e'.props) (hc : e.construct = e'.construct)
    (h : ∀ kvs, e.getObjectClass kvs = e'.getObjectClass kvs) : ∀ t ctx, e.unpack ctx t = e'.unpack ctx t := by
  have hfin : ∀ kvs pairs, e.finish kvs pairs = e'.finish kvs pairs := by
    intro kvs pairs
    unfold Engine.finish
    rw [h, hp, hc]
  intro t
  refine Tree.rec (motive_1 := fun t => ∀ ctx, e.unpack ctx t = e'.unpack ctx t)
    (motive_2 := fun xs => ∀ ctx, e.unpackAll ctx xs = e'.unpackAll ctx xs) (motive_3 := fun kvs => ∀ ctx, e.unpackPairs ctx kvs = e'.unpackPairs ctx kvs)
    (motive_4 := fun kv => ∀ ctx, e.unpack ctx kv.2 = e'.unpack ctx kv.2)
    ?_ ?_ ?_ ?_ ?_ ?_ ?_ ?_ ?_ ?_ ?_ ?_ t
  · intro ctx; rfl
  · intro b ctx; rfl
  · intro i ctx; rfl
  · intro n r ctx; rfl
  · intro s ctx; rfl
  · intro xs ih ctx; rw [Engine.unpack, Engine.unpack, ih]
  · intro kvs ih ctx
    rw [Engine.unpack, Engine.unpack, ih, ih]
    unfold Engine.unpackObj
    rw [hx, h]
    simp only [hfin]
  · intro ctx; rfl
  · intro x xs i1 i2 ctx; rw [Engine.unpackAll, Engine.unpackAll, i1, i2]
  · intro ctx; rfl
  · intro kv kvs i1 i2 ctx; obtain ⟨k, x⟩ := kv; rw [Engine.unpackPairs, Engine.unpackPairs, i1, i2]
  · intro k x ih ctx; exact ih ctx

theorem fromJson_congr {e e' : Engine} (hx : e.expand = e'.expand) (hp : e.props = e'.props) (hc : e.construct = e'.construct)
    (h : ∀ kvs, e.getObjectClass kvs = e'.getObjectClass kvs) (kvs : List (String × Tree)) : e.fromJson kvs = e'.fromJson kvs := by
  have hpairs : ∀ (kvs : List (String × Tree)) ctx, e.unpackPairs ctx kvs = e'.unpackPairs ctx kvs := by
    intro kvs ctx
    induction kvs with
    | nil => rfl
    | cons kv kvs ih =>
      obtain ⟨k, x⟩ := kv
      rw [Engine.unpackPairs, Engine.unpackPairs, ih, unpack_congr hx hp hc h]
  unfold Engine.fromJson Engine.finish
  rw [hpairs, h, hp, hc]

/-- The types the example uses; expansion of anything else fails in it. -/
def exTypes : List String := ["OrderedCollection", "OrderedCollectionPage", "Create", "Note"]

def exExpand (t : Tree) : Outcome Expansion := match t with
  | .obj kvs => match kvs.dget "type" with
    | some (.str s) => if s ∈ exTypes then .ok (.typed [asNs ++ "#" ++ s]) else .error .jsonLd
    | _ => .error .jsonLd
  | _ => .error .jsonLd

/-- The texts of an outbox and of its first page. -/
def exOutboxText : String := "{\"type\": \"OrderedCollection\",\n \"first\": \"https://x.org/outbox?page=1\"}"

def exPageText : String :=
  "{\"type\": \"OrderedCollectionPage\", \"orderedItems\": [{\"type\": \"Create\", \"object\": {\"type\": \"Note\", \"published\": \"2024-01-02T03:04:05Z\"}}, \"https:\\/\\/x.org/2\"]}"

def exPage : List (String × Tree) := [("type", .str "OrderedCollectionPage"),
  ("orderedItems", .arr [.obj [("type", .str "Create"), ("object", .obj [("type", .str "Note"), ("published", .str "2024-01-02T03:04:05Z")])],
    .str "https://x.org/2"])]

theorem ex_outbox_text : Reads true asWritten exOutboxText (.obj exOutbox) := readsAs_reads (by decide +kernel)

theorem ex_page_text : Reads true asWritten exPageText (.obj exPage) := readsAs_reads (by decide +kernel)

/-- The setting of the example, with any registry of classes and any answer of the network. -/
def exAnswered (answer : Outcome Tree) (reg : PyDict String String) : Setting Nat :=
  { exSetting with expand := exExpand, reg := reg, fetch := fun _ => answer }

theorem exAnswered_fetch (answer : Outcome Tree) (reg : PyDict String String) (a : Val) : (exAnswered answer reg).fetch a = answer := rfl

def exWith (reg : PyDict String String) : Setting Nat := exAnswered (Text.loads asWritten exPageText) reg

/-- Any registry that knows the four types does what the one of `exSetting` does. -/
theorem ex_agrees (reg : PyDict String String) (h : ∀ c ∈ exTypes, reg.dget (asNs ++ "#" ++ c) = some c) (kvs : List (String × Tree)) :
    (exWith reg).engine.fromJson kvs = (exWith exSetting.reg).engine.fromJson kvs := by
  have h0 : ∀ c ∈ exTypes, exSetting.reg.dget (asNs ++ "#" ++ c) = some c := by decide +kernel
  have key : ∀ (r : PyDict String String), (∀ c ∈ exTypes, r.dget (asNs ++ "#" ++ c) = some c) → ∀ c ∈ exTypes,
      (exWith r).engine.classFor (asNs ++ "#" ++ c) = some c := by
    intro r hr c hc
    have hm : asNs ++ "#" ++ c ∈ r.dkeys := by
      by_contra hn
      rw [← PyDict.dget_eq_none] at hn
      rw [hr c hc] at hn; exact absurd hn (by simp)
    show r.dget (if asNs ++ "#" ++ c ∈ r.dkeys then asNs ++ "#" ++ c else "default") = _
    rw [if_pos hm, hr c hc]
  refine fromJson_congr (e := (exWith reg).engine) (e' := (exWith exSetting.reg).engine) rfl rfl rfl (fun kvs => ?_) kvs
  have hx : ∀ r, (exWith r).engine.expand = exExpand := fun _ => rfl
  unfold Engine.getObjectClass
  rw [hx, hx]
  cases hk : exExpand (.obj kvs) with
  | error x => rfl
  | ok x =>
    have : ∃ c ∈ exTypes, x = .typed [asNs ++ "#" ++ c] := by
      unfold exExpand at hk
      simp only at hk
      split at hk
      · split_ifs at hk with hm
        exact ⟨_, hm, (Except.ok.inj hk).symm⟩
      · exact absurd hk (by simp)
    obtain ⟨c, hc, rfl⟩ := this
    show Except.ok _ = Except.ok _
    rw [key reg h c hc, key exSetting.reg h0 c hc]

theorem ex_outbox_loads : ((exWith exSetting.reg).engine.fromJson exOutbox).isOk = true := by decide +kernel

theorem ex_page_loads : ((exWith exSetting.reg).engine.fromJson exPage).isOk = true := by decide +kernel

/-- With the shipped engine, the two texts are read, and the walk of the README gives the date. -/
theorem ex_shipped (repr : Nat → String) (hrepr : ∀ i, (repr i).toList.head? = some '<') :
    ∃ p e v t, createPackage = .ok p ∧ createEngine repr = .ok e ∧ fromText (exWith (registryOf p e)).engine asWritten exOutboxText = .ok v ∧
      parseDatetime (.str "2024-01-02T03:04:05Z".toList) = .ok (.dt t) ∧
      walk (exWith (registryOf p e)).graph v [.attr "first", .attr "orderedItems", .item 0, .attr "object", .attr "published"] =
        (.ok (.other "datetime" ((exWith (registryOf p e)).env.dateRepr t)), [.str "https://x.org/outbox?page=1"]) := by
  obtain ⟨p, e, hp, he, h⟩ := readme_text_walk_partial (J := Nat) repr hrepr
  obtain ⟨p', e', hp', he', -, hcl⟩ := engine_classes repr hrepr
  obtain rfl := Except.ok.inj (hp.symm.trans hp')
  obtain rfl := Except.ok.inj (he.symm.trans he')
  have g : ∀ c ∈ exTypes, c ∈ pkgClasses ∧ c ∉ ["Object", "Link"] ∧ typeName c = c := by decide +kernel
  have hreg : ∀ c ∈ exTypes, (registryOf p e).dget (asNs ++ "#" ++ c) = some c := by
    intro c hc
    obtain ⟨g1, g2, g3⟩ := g c hc
    obtain ⟨row, hrow⟩ := Option.isSome_iff_exists.1 (pkg_rows c g1)
    have hty : row.type = typeName c := by unfold typeName; rw [hrow]
    have := hcl c g1 row hrow
    rw [hty, g3, if_neg (by simpa using g2)] at this
    exact this
  have ok : ∀ kvs, ((exWith exSetting.reg).engine.fromJson kvs).isOk = true → ∃ v, (exWith (registryOf p e)).engine.fromJson kvs = .ok v := by
    intro kvs hk
    rw [ex_agrees _ hreg]
    cases hc : (exWith exSetting.reg).engine.fromJson kvs with
    | error x => rw [hc] at hk; exact absurd hk (by simp [Except.isOk, Except.toBool])
    | ok v => exact ⟨v, rfl⟩
  obtain ⟨v, hv⟩ := ok _ ex_outbox_loads
  obtain ⟨pg, hpg⟩ := ok _ ex_page_loads
  have hv' : fromText (exWith (registryOf p e)).engine asWritten exOutboxText = .ok v := by
    unfold fromText fromData
    simp only [loads_reads ex_outbox_text]
    exact hv
  have typed : ∀ kvs c, c ∈ exTypes → exExpand (.obj (normalized kvs)) = .ok (.typed [asNs ++ "#" ++ c]) → exExpand (.obj kvs) = .ok (.typed [asNs ++ "#" ++ c]) →
      HasType exExpand kvs c := by
    intro kvs c hc h1 h2
    obtain ⟨g1, g2, g3⟩ := g c hc
    refine ⟨g1, g2, [], ?_, ?_⟩
    · rw [h1, ← type_ns, g3]
    · rw [h2, ← type_ns, g3]
  have f : "first" ∈ propNames "OrderedCollection" ∧ "object" ∈ propNames "Create" ∧ "published" ∈ propNames "Note" := by decide +kernel
  obtain ⟨t, ht, hw⟩ := h (exWith (registryOf p e)) asWritten rfl ex_repr "OrderedCollection" "OrderedCollectionPage" "Create" "Note" exOutboxText exPageText
    "https://x.org/outbox?page=1" "2024-01-02T03:04:05Z" exOutbox exPage _ _ _ 0 v pg ex_outbox_text
    (typed _ _ (by decide) rfl rfl) f.1 rfl (by decide) (exAnswered_fetch _ _ _) ex_page_text (typed _ _ (by decide) rfl rfl) (by decide) rfl rfl
    (typed _ _ (by decide) rfl rfl) f.2.1 rfl (typed _ _ (by decide) rfl rfl) f.2.2 rfl hv' hpg
  exact ⟨p, e, v, t, hp, he, hv', ht, hw⟩

end Verif.Props.Readme
