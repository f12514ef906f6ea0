import Verif.Props.RoundTrip2

/-!
# Writing an object and loading it again (C88): what does not come back
-/
namespace Verif.Props
open Verif Verif.Jsonld Verif.AS

variable {J : Type}

/-- A packaged object of class `c` with the values `x`, the context `ctx` and the type name of its class. -/
def IsObject (ctx : Tree) (c : String) (x : String → Val) (s : Slots) : Prop :=
  objVal c s = objectOf c x ∧ x "acontext" = ctx.toVal ∧ x "type" = .str (typeName c)

/-- If loading an object succeeds, its setters accepted the values of the document. -/
theorem accepted_of_construct (w : World J) {c : String} (hc : c ∈ pkgClasses) (hno : c ∉ ["Object", "Link"]) (ctx : Tree) (value : String → Val) (s : Slots)
    (h : construct w true c (loadArgs c ctx value) = .ok s) {q : String} (hq : Ordinary c q) :
    ∃ y, (rowOf q).stores w.env w.link (value q) = .ok y ∧ (attrOf true c q).held s q = .ok y := by
  have hcc := mem_asClasses c hc
  obtain ⟨hq1, hq2, hq3⟩ := id hq
  simp only [List.mem_cons, List.not_mem_nil, or_false, not_or] at hq3
  obtain ⟨n1, n2, n3, n4, n5⟩ := hq3
  obtain ⟨hp, hni, -⟩ := ((properties_classified c hc hno q hq1 n2).resolve_left hq2).resolve_left n3
  have hrow := ordinary_row hc hq
  have hl := (params_assigned c hcc q hp).resolve_left (by simp [special, n3, hni, n4, n5])
  obtain ⟨s0, v, y, -, hv, hx, -⟩ := runAll_last (P := fun _ => True) (fun _ _ _ _ _ _ _ => trivial) trivial (assigns_public c hcc) hl
    (construct_run h)
  have hv' : v = value q := by
    unfold AS.Assign.value at hv
    simp only at hv
    injection hv with hv
    rw [← hv, value_argOf, argOf_load c ctx value hq1 n1]
  subst hv'
  unfold storesAt at hx
  rw [hrow] at hx
  exact ⟨y, hx, held_ordinary w hc hno ctx value s h hq hx⟩

/-- What becomes of a property whose JSON form is a text, number or list of these: the object loaded has what the setter makes of that form,
and if the setter refuses it there is no object. -/
theorem written_and_loaded (repr : Nat → String) (hrepr : ∀ i, (repr i).toList.head? = some '<') :
    ∃ p e, createPackage = .ok p ∧ createEngine repr = .ok e ∧ ∀ (w : World J) (expand : Tree → Outcome Expansion) (ctx : Tree),
      Plain ctx.toVal → ctx.truthy = true → Recognises expand ctx → ∀ c ∈ pkgClasses, c ≠ "Object" → c ≠ "Link" → ∀ x s, IsObject ctx c x s →
      ∃ d, output w c s = .ok d ∧ ∀ v, (asEngine w expand (registryOf p e)).fromJson (toTreeFields d) = .ok v →
        ∃ fields, v = .obj c fields ∧ ∀ q, Ordinary c q → ∀ t, Flat t → handler (jsonView w.env ((rowOf q).form w.env (x q))) = t →
          (jsonView w.env ((rowOf q).form w.env (x q))).isNone = false →
          ∃ y, (rowOf q).stores w.env w.link t = .ok y ∧ fields.dget q = some y := by
  obtain ⟨p, e, hp, he, h⟩ := known_types_loaded_partial (J := J) repr hrepr
  refine ⟨p, e, hp, he, fun w expand ctx hplain htr hrec c hc h1 h2 x s ⟨hobj, hctx, ht⟩ => ?_⟩
  have hno : c ∉ ["Object", "Link"] := by simp [h1, h2]
  obtain ⟨-, hheld⟩ := objVal_objectOf hobj (names_nodup _ hc)
  obtain ⟨d, hd, d1, d2, d3, d4⟩ := output_tree w hc s x ctx hplain hctx hheld
  refine ⟨d, hd, fun v hv => ?_⟩
  have k1 : (toTreeFields d).dget "@context" = some ctx := by rw [dget_toTreeFields, d1, Option.map_some, toTree_toVal ctx]
  have htyp : "type" ∈ propNames c := by
    have : ∀ c ∈ pkgClasses, "type" ∈ propNames c := by decide +kernel
    exact this c hc
  have hktype : (toTreeFields d).dget "type" = some (.str (typeName c)) := by
    have hst : shown w.env c x "type" = .str (typeName c) := by
      unfold shown fieldForm
      rw [type_attr hc hno, ht]; rfl
    rw [d4 _ htyp (by decide) (by decide), hst]
    rfl
  have hnorm : normalized (toTreeFields d) = toTreeFields d := by
    unfold normalized
    rw [k1]
    show (if ctx.truthy = true then _ else _) = _
    rw [if_pos htr]
  obtain ⟨ts, hx⟩ := hrec c hc _ k1 hktype
  have : ∀ c ∈ pkgClasses, (classRow c).isSome = true := by decide +kernel
  obtain ⟨row, hrow⟩ := Option.isSome_iff_exists.1 (this c hc)
  have htn : typeName c = row.type := by unfold typeName; rw [hrow]
  obtain ⟨value, g1, g2, t, hs, rfl⟩ := (h w expand c row hc hrow h1 h2 (toTreeFields d) ts (by rw [hnorm, hx, htn]) v).1 hv
  obtain ⟨fields, hf, hfields⟩ := objVal_fields c t
  refine ⟨fields, hf, fun q hq u hu hsu hnn => ?_⟩
  obtain ⟨y, hy, hh⟩ := accepted_of_construct w hc hno _ value t hs hq
  refine ⟨y, ?_, (hfields q).2 y hq.1 hh⟩
  obtain ⟨hq1, hq2, hq3⟩ := id hq
  simp only [List.mem_cons, List.not_mem_nil, or_false, not_or] at hq3
  obtain ⟨n1, n2, n3, n4, n5⟩ := hq3
  have hk : (toTreeFields d).dget q = some (toTree u) := by
    rw [d4 q hq1 n1 n2]
    have : shown w.env c x q = jsonView w.env ((rowOf q).form w.env (x q)) := by
      unfold shown fieldForm
      rw [ordinary_row hc hq]
      exact view_form _ _ _
    unfold treeOf
    rw [this, hnn, hsu]; rfl
  have hun := g1 q hq1 _ hk
  rw [← unpack_iff (as_no_context w expand _), flat_unpack _ _ hu] at hun
  have hun : u = value q := Except.ok.inj hun
  rw [hun]; exact hy

/-! ### C88 is false of the code -/

theorem deleted_refuses_texts (env : Env) (mk : Ctor) (t : String) : (rowOf "deleted").stores env mk (.str t) = .error .valueError := by rfl

/-- C88 is false of the code: a Tombstone with the time of its deletion is written, but what was written cannot be loaded. -/
theorem tombstone_not_reloaded (repr : Nat → String) (hrepr : ∀ i, (repr i).toList.head? = some '<') :
    ∃ p e, createPackage = .ok p ∧ createEngine repr = .ok e ∧ ∀ (w : World J) (expand : Tree → Outcome Expansion) (ctx : Tree),
      Plain ctx.toVal → ctx.truthy = true → Recognises expand ctx → "datetime" ∈ w.env.mro "datetime" →
      ∀ x s, IsObject ctx "Tombstone" x s → ∀ r, x "deleted" = .other "datetime" r →
      ∃ d, output w "Tombstone" s = .ok d ∧ ∀ v, (asEngine w expand (registryOf p e)).fromJson (toTreeFields d) ≠ .ok v := by
  obtain ⟨p, e, hp, he, h⟩ := written_and_loaded (J := J) repr hrepr
  refine ⟨p, e, hp, he, fun w expand ctx h1 h2 h3 hm x s hobj r hr => ?_⟩
  obtain ⟨d, hd, hl⟩ := h w expand ctx h1 h2 h3 "Tombstone" (by decide +kernel) (by decide) (by decide) x s hobj
  refine ⟨d, hd, fun v hv => ?_⟩
  obtain ⟨fields, -, hf⟩ := hl v hv
  have hform : ∃ t, (rowOf "deleted").form w.env (x "deleted") = .str t := by
    have hj : (rowOf "deleted").json = .date := by decide +kernel
    unfold PropRow.form
    rw [hj, hr]
    simp only
    unfold dateForm
    simp only
    rw [if_pos]
    · exact ⟨_, rfl⟩
    · unfold isDate Val.isinstance
      rw [List.any_eq_true]
      exact ⟨"datetime", hm, by simp⟩
  obtain ⟨t, ht⟩ := hform
  have ho : Ordinary "Tombstone" "deleted" := by unfold Ordinary; decide +kernel
  obtain ⟨y, hy, -⟩ := hf "deleted" ho (.str t) (.str t) (by rw [ht]; rfl) (by rw [ht]; rfl)
  rw [deleted_refuses_texts] at hy
  cases hy

theorem closed_refuses_texts (env : Env) (mk : Ctor) (t : String) (h : linkable env t = .ok false) :
    (rowOf "closed").stores env mk (.str t) = .error .valueError := by
  have hf : (rowOf "closed").fromStr = true := by decide +kernel
  unfold PropRow.stores PropRow.convert
  rw [hf, if_pos rfl, createLink, h]
  rfl

/-- C88 is false of the code: a Question that is closed (without a time) is written, but what was written cannot be loaded. -/
theorem closed_not_reloaded (repr : Nat → String) (hrepr : ∀ i, (repr i).toList.head? = some '<') :
    ∃ p e, createPackage = .ok p ∧ createEngine repr = .ok e ∧ ∀ (w : World J) (expand : Tree → Outcome Expansion) (ctx : Tree),
      Plain ctx.toVal → ctx.truthy = true → Recognises expand ctx → w.env.email "True" = .ok false →
      ∀ x s, IsObject ctx "Question" x s → x "closed" = .bool true →
      ∃ d, output w "Question" s = .ok d ∧ ∀ v, (asEngine w expand (registryOf p e)).fromJson (toTreeFields d) ≠ .ok v := by
  obtain ⟨p, e, hp, he, h⟩ := written_and_loaded (J := J) repr hrepr
  refine ⟨p, e, hp, he, fun w expand ctx h1 h2 h3 hm x s hobj hr => ?_⟩
  obtain ⟨d, hd, hl⟩ := h w expand ctx h1 h2 h3 "Question" (by decide +kernel) (by decide) (by decide) x s hobj
  refine ⟨d, hd, fun v hv => ?_⟩
  obtain ⟨fields, -, hf⟩ := hl v hv
  have hform : (rowOf "closed").form w.env (x "closed") = .bool true := by
    have hj : (rowOf "closed").json = .hrefDate := by decide +kernel
    unfold PropRow.form
    rw [hj, hr]; rfl
  have ho : Ordinary "Question" "closed" := by unfold Ordinary; decide +kernel
  obtain ⟨y, hy, -⟩ := hf "closed" ho (.str "True") (.str _) (by rw [hform]; rfl) (by rw [hform]; rfl)
  rw [closed_refuses_texts] at hy
  · cases hy
  · unfold linkable
    have hu : validateUrl w.env.bracketOk false "True".toList = .ok false := by rfl
    rw [hu]
    simp only
    unfold validateAcct
    exact hm

/-- C88 is false of the code: a duration that is a timedelta comes back as a text, if the object can be loaded at all. -/
theorem duration_comes_back_as_text (repr : Nat → String) (hrepr : ∀ i, (repr i).toList.head? = some '<') :
    ∃ p e, createPackage = .ok p ∧ createEngine repr = .ok e ∧ ∀ (w : World J) (expand : Tree → Outcome Expansion) (ctx : Tree),
      Plain ctx.toVal → ctx.truthy = true → Recognises expand ctx → "timedelta" ∈ w.env.mro "timedelta" →
      ∀ x s, IsObject ctx "Note" x s → ∀ r, x "duration" = .other "timedelta" r →
      ∃ d, output w "Note" s = .ok d ∧ ∀ v, (asEngine w expand (registryOf p e)).fromJson (toTreeFields d) = .ok v →
        ∃ fields t, v = .obj "Note" fields ∧ fields.dget "duration" = some (.str t) := by
  obtain ⟨p, e, hp, he, h⟩ := written_and_loaded (J := J) repr hrepr
  refine ⟨p, e, hp, he, fun w expand ctx h1 h2 h3 hm x s hobj r hr => ?_⟩
  obtain ⟨d, hd, hl⟩ := h w expand ctx h1 h2 h3 "Note" (by decide +kernel) (by decide) (by decide) x s hobj
  refine ⟨d, hd, fun v hv => ?_⟩
  obtain ⟨fields, hv, hf⟩ := hl v hv
  have hform : ∃ t, (rowOf "duration").form w.env (x "duration") = .str t := by
    have hj : (rowOf "duration").json = .delta := by decide +kernel
    unfold PropRow.form
    rw [hj, hr]
    simp only
    unfold deltaForm
    simp only
    rw [if_pos]
    · exact ⟨_, rfl⟩
    · unfold isDelta Val.isinstance
      rw [List.any_eq_true]
      exact ⟨"timedelta", hm, by simp⟩
  obtain ⟨t, ht⟩ := hform
  have ho : Ordinary "Note" "duration" := by unfold Ordinary; decide +kernel
  obtain ⟨y, hy, hd⟩ := hf "duration" ho (.str t) (.str t) (by rw [ht]; rfl) (by rw [ht]; rfl)
  have : (rowOf "duration").stores w.env w.link (.str t) = .ok (.str t) := by rfl
  rw [this] at hy
  cases hy
  exact ⟨fields, t, hv, hd⟩

/-- C88 is false of the code: of a Link only the address comes back: whatever Link (or Mention) an object has as `attributedTo`, the object
loaded has the Link that is made of its address. -/
theorem link_comes_back_bare (repr : Nat → String) (hrepr : ∀ i, (repr i).toList.head? = some '<') :
    ∃ p e, createPackage = .ok p ∧ createEngine repr = .ok e ∧ ∀ (w : World J) (expand : Tree → Outcome Expansion) (ctx : Tree),
      Plain ctx.toVal → ctx.truthy = true → Recognises expand ctx →
      ∀ x s, IsObject ctx "Note" x s → ∀ l a, x "attributedTo" = l → isLink w.env l = true → hrefOf l = .str a → linkable w.env a = .ok true →
      ∀ b, w.link [("href", .str a)] = .ok b →
      ∃ d, output w "Note" s = .ok d ∧ ∀ v, (asEngine w expand (registryOf p e)).fromJson (toTreeFields d) = .ok v →
        ∃ fields, v = .obj "Note" fields ∧ fields.dget "attributedTo" = some (asLists b) := by
  obtain ⟨p, e, hp, he, h⟩ := written_and_loaded (J := J) repr hrepr
  refine ⟨p, e, hp, he, fun w expand ctx h1 h2 h3 x s hobj l a hr hl ha hk b hb => ?_⟩
  obtain ⟨d, hd, hload⟩ := h w expand ctx h1 h2 h3 "Note" (by decide +kernel) (by decide) (by decide) x s hobj
  refine ⟨d, hd, fun v hv => ?_⟩
  obtain ⟨fields, hv, hf⟩ := hload v hv
  have hrow : rowOf "attributedTo" ∈ propTable ∧ (rowOf "attributedTo").fromStr = true := by decide +kernel
  obtain ⟨hr1, hr2⟩ := hrow
  have hform : (rowOf "attributedTo").form w.env (x "attributedTo") = .str a := by
    rw [hr, link_form hr1 hr2, hrefOnly_leaf]
    · unfold hrefItem
      rw [if_pos hl, ha]
    · cases l with
      | obj => rfl
      | _ => cases hl
    · rintro c y rfl
      cases hl
  have ho : Ordinary "Note" "attributedTo" := by unfold Ordinary; decide +kernel
  obtain ⟨y, hy, hd⟩ := hf "attributedTo" ho (.str a) (.str a) (by rw [hform]; rfl) (by rw [hform]; rfl)
  refine ⟨fields, hv, ?_⟩
  rw [hd]
  refine congrArg some ?_
  unfold PropRow.stores PropRow.convert at hy
  rw [hr2, if_pos rfl, createLink, hk] at hy
  simp only at hy
  rw [hb] at hy
  simp only at hy
  have hev : ∀ z, (rowOf "attributedTo").check w.env b = .ok z → z = asLists b := fun z hz => ((evaluate_spec _ _ _ _ _ _).1 hz).2
  cases hch : (rowOf "attributedTo").check w.env b with
  | error _ => rw [hch] at hy; cases hy
  | ok z =>
    rw [hch] at hy
    simp only at hy
    unfold PropRow.parsed at hy
    rw [(link_rows _ hr1 hr2).1] at hy
    have hy : z = y := Except.ok.inj hy
    rw [← hy]; exact hev z hch

end Verif.Props
