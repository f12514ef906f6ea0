import Verif.Props.Construct

/-!
# More about constructors (C80): required arguments, `startIndex`, Tombstones, Links
-/
namespace Verif.Props
open Verif Verif.Jsonld Verif.AS

variable {J : Type}

/-- Whether a call returned. -/
def returned {α : Type} : Outcome α → Bool
  | .ok _ => true
  | .error _ => false

/-- C80: the classes whose constructor needs an argument. -/
theorem required_arguments : ∀ c ∈ asClasses, requiredOf c = if c ∈ ["Relationship", "Place", "Profile", "Tombstone"] then ["id"] else [] := by
  decide +kernel

/-- C80: without it they raise TypeError. -/
theorem required_missing (w : World J) (packaged : Bool) {cls : String} (hc : cls ∈ ["Relationship", "Place", "Profile", "Tombstone"])
    (kw : List (String × Val)) (h : kw.dget "id" = none) : construct w packaged cls kw = .error .typeError := by
  have hr : requiredOf cls = ["id"] := by
    have : ∀ c ∈ ["Relationship", "Place", "Profile", "Tombstone"], requiredOf c = ["id"] := by decide +kernel
    exact this cls hc
  unfold construct
  rw [hr]
  simp [h]

/-- A world for examples. -/
def exWorld : World Nat := ⟨noteEnv, plainLink, onePage⟩

/-- Non-vacuity: all classes can be constructed, packaged or not. -/
example : ∀ packaged, asClasses.all (fun c => returned (construct exWorld packaged c [("id", .str "http://x.org/1"), ("name", .str "x"), ("rel", .none)])) = true := by
  decide +kernel

/-- C80: `startIndex` is kept unless it is None, 0 or otherwise false, which becomes 0. -/
theorem start_index (w : World J) (packaged : Bool) (kw : List (String × Val)) (s : Slots)
    (h : construct w packaged "OrderedCollectionPage" kw = .ok s) :
    Holds w packaged "OrderedCollectionPage" s "startIndex" (if AS.truthy (argOf kw "startIndex") then argOf kw "startIndex" else .int 0) := by
  have hc : "OrderedCollectionPage" ∈ asClasses := by decide +kernel
  have hl : lastOf (classAssigns "OrderedCollectionPage") "startIndex" = some ⟨"startIndex", .orZero, .param "startIndex"⟩ := by decide +kernel
  obtain ⟨s0, v, x, -, hv, hx, ht⟩ := runAll_last (P := fun _ => True) (fun _ _ _ _ _ _ _ => trivial) trivial (assigns_public _ hc) hl
    (construct_run h)
  unfold Assign.value at hv
  simp only [value_argOf] at hv
  injection hv with hv
  rw [hv]
  unfold Holds
  unfold storesAt at hx
  unfold slotOf at ht
  cases ha : attrOf packaged "OrderedCollectionPage" "startIndex" with
  | prop r =>
    obtain ⟨hr, hn⟩ := attrOf_prop ha
    rw [ha] at hx ht
    simp only at hx ht ⊢
    refine ⟨x, stores_spec (parse_rows r hr) hx, ?_⟩
    unfold PropRow.stored
    rw [slots_agree r hr (by rw [hn]; decide), ht]
  | const c => rw [ha] at hx ht; simp only at hx ht ⊢; injection hx with hx; rw [ht, hx]
  | plain => rw [ha] at hx ht; simp only at hx ht ⊢; injection hx with hx; rw [ht, hx]

/-- C80 is false for Tombstones: nothing given to the constructor gets into the property `formerType` (the parameter is called
`former_type` and is stored in a plain attribute of that name). -/
theorem tombstone_former_type (w : World J) (kw : List (String × Val)) (s : Slots) (h : construct w true "Tombstone" kw = .ok s) :
    getAttr w true "Tombstone" s "formerType" = .ok .none := by
  have hc : "Tombstone" ∈ asClasses := by decide +kernel
  have hrow : attrOf true "Tombstone" "formerType" = .prop (rowOf "formerType") := isRow_eq (by decide +kernel)
  have hfacts : rowOf "formerType" ∈ propTable ∧ (rowOf "formerType").name ≠ "hreflang" ∧
    ∀ a ∈ classAssigns "Tombstone", a.attr = "formerType" → a.how = .keepOr := by decide +kernel
  exact getAttr_none hrow (stays_none w hc hfacts.1 hrow hfacts.2.1 hfacts.2.2 (by decide +kernel) kw _ (fun a ha => ha) [] s (by rfl) (construct_run h))

/-- C67, C80: the packaged Link class makes Links with the address it is given, so the theorems about `create_link` apply to it. -/
theorem linkCtor_makes_links (env : Env) (web : Web J) (n : Nat) (hl : "Link" ∈ env.mro "Link") : MakesLinks env (linkCtor env web (n + 1)) := by
  intro s
  refine ⟨_, rfl, ?_, rfl⟩
  show (env.mro "Link").contains "Link" = true
  simpa using hl

end Verif.Props
