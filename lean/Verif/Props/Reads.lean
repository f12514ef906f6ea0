import Verif.Props.Vocabulary

/-!
# C133: which properties follow Links when they are read, and turn addresses into Links when they are written
-/
namespace Verif.Props.Reads
open Verif Verif.Jsonld Verif.AS Verif.Props Verif.Spec

/-! ## Specification -/

/-- The properties that can refer to things by Links: those with Link in their range in the recommendation, the two forms of `items` and
`replies` (whose range is Collection). -/
def Linked (name : String) : Prop :=
  (∃ t ∈ terms, t.name = name ∧ Range.link ∈ t.range) ∨ name ∈ ["orderedItems", "unorderedItems", "replies"]

instance (name : String) : Decidable (Linked name) := by unfold Linked; infer_instance

/-! ## Reading -/

theorem expand_iff : ∀ r ∈ propTable, (r.expand = true ↔ Linked r.name) := by decide +kernel

theorem fromStr_iff : ∀ r ∈ propTable, (r.fromStr = true ↔ Linked r.name) := by decide +kernel

/-- **C133 (a).** Reading any other property gives what is stored and makes no request. -/
theorem read_plain {J : Type} (web : Web J) {r : PropRow} (hr : r ∈ propTable) (h : ¬ Linked r.name) (s : Slots) :
    r.get web s = (r.stored s, []) := by
  have he : r.expand = false := by
    cases hx : r.expand with
    | false => rfl
    | true => exact absurd ((expand_iff r hr).1 hx) h
  unfold PropRow.get
  cases hs : r.stored s with
  | error e => rfl
  | ok v => simp [he]

/-- **C133 (b).** Reading one of these properties asks for the address of the Link that is stored, once, and gives the object found there; if there
is none, or it cannot be made, it gives the Link. -/
theorem read_link {J : Type} (web : Web J) {r : PropRow} (hr : r ∈ propTable) (h : Linked r.name) (s : Slots) (v : Val) (hs : r.stored s = .ok v)
    (f : J → Outcome Val) (hn : web.nsOf v = some web.linkNs) (hp : web.packaged v = true) (hh : AS.truthy (hrefOf v) = true)
    (ht : AS.truthy v = true) (hf : web.engineOf v = some f) :
    (r.get web s).2 = [hrefOf v] ∧
    (∀ j x, web.fetch (hrefOf v) = .ok j → f j = .ok x → AS.truthy x = true → (r.get web s).1 = .ok x) ∧
    (∀ e, web.fetch (hrefOf v) = .error e → (r.get web s).1 = .ok v) ∧
    (∀ j e, web.fetch (hrefOf v) = .ok j → f j = .error e → (r.get web s).1 = .ok v) := by
  have he := (expand_iff r hr).2 h
  have hg : r.get web s = (.ok (web.expand v).1, (web.expand v).2) := by
    unfold PropRow.get
    rw [hs]
    simp [he]
  obtain ⟨h1, h2, h3⟩ := expand_link web v f hn hp hh ht hf
  rw [hg]
  refine ⟨?_, fun j x a b c => by rw [h1 j x a b c], fun e a => by rw [h2 e a], fun j e a b => by rw [h3 j e a b]⟩
  have ha : web.asks v = true := by unfold Web.asks; simp [hn, hp, hh, ht]
  unfold Web.expand Web.get
  rw [if_pos ha]
  cases web.fetch (hrefOf v) with
  | error e => rfl
  | ok j => simp only; cases web.make v j <;> rfl

/-- **C133 (c).** Anything else that is stored is given as it is, without a request: objects, lists (even of Links), and Links of other classes
(such as Mention, whose namespace is its own). -/
theorem read_other {J : Type} (web : Web J) {r : PropRow} (s : Slots) (v : Val) (hs : r.stored s = .ok v)
    (hn : web.nsOf v ≠ some web.linkNs) : r.get web s = (.ok v, []) := by
  unfold PropRow.get
  rw [hs]
  simp only [expand_other web v hn]
  split <;> rfl

/-! ## Writing -/

/-- **C133 (d).** A text given to one of these properties is stored as a Link to it if it is an address. -/
theorem write_link (env : Env) (mk : Ctor) (hmk : MakesLinks env mk) {r : PropRow} (hr : r ∈ propTable) (h : Linked r.name) (x : String)
    (hx : validateUrl env.bracketOk false x.toList = .ok true) (w : Val) (hw : r.stores env mk (.str x) = .ok w) :
    isLink env w = true ∧ hrefOf w = .str x := by
  have hf := (fromStr_iff r hr).2 h
  have hp : r.parse = false := by
    cases hq : r.parse with
    | false => rfl
    | true => exact absurd ((parse_rows r hr hq).1) (by simp [hf])
  obtain ⟨l, hl, hi, hh⟩ := hmk x
  have hc : r.convert env mk (.str x) = .ok l := by
    unfold PropRow.convert
    rw [if_pos hf, createLink]
    unfold linkable
    rw [hx]
    exact hl
  unfold PropRow.stores at hw
  rw [hc] at hw
  simp only at hw
  cases hk : r.check env l with
  | error e => rw [hk] at hw; cases hw
  | ok u =>
    rw [hk] at hw
    simp only [PropRow.parsed, hp] at hw
    cases Except.ok.inj hw
    obtain ⟨-, he⟩ := (evaluate_spec _ _ _ _ _ _).1 hk
    have : asLists l = l := by
      cases l with
      | obj c fs => exact onlyLists_asLists (.leaf _ rfl)
      | _ => exact absurd hi (by simp [isLink])
    rw [he, this]
    exact ⟨hi, hh⟩

/-- **C133 (e).** Any other property stores a text as it is, unless it takes dates. -/
theorem write_plain (env : Env) (mk : Ctor) {r : PropRow} (hr : r ∈ propTable) (h : ¬ Linked r.name) (hp : r.parse = false) (x : String) (w : Val)
    (hw : r.stores env mk (.str x) = .ok w) : w = .str x := by
  have hf : r.fromStr = false := by
    cases hx : r.fromStr with
    | false => rfl
    | true => exact absurd ((fromStr_iff r hr).1 hx) h
  unfold PropRow.stores PropRow.convert at hw
  rw [hf] at hw
  cases hk : r.check env (.str x) with
  | error e => simp [hk] at hw
  | ok u =>
    simp [hk, PropRow.parsed, hp] at hw
    obtain ⟨-, he⟩ := (evaluate_spec _ _ _ _ _ _).1 hk
    rw [← hw, he]
    exact onlyLists_asLists (.leaf _ rfl)

/-- **C133 (f).** The JSON form of the properties that follow Links has addresses in place of Links; reading for JSON is without requests for all. -/
theorem json_linked {J : Type} (env : Env) (web : Web J) {r : PropRow} (hr : r ∈ propTable) (s : Slots) (v : Val) (hs : r.stored s = .ok v) :
    (r.jsonValue env web s).2 = [] ∧
    (Linked r.name → r.name ≠ "closed" → (r.jsonValue env web s).1 = .ok (hrefOnly env v)) ∧
    (¬ Linked r.name → "datetime" ∉ r.types → "timedelta" ∉ r.types → (r.jsonValue env web s).1 = .ok v) := by
  refine ⟨json_no_requests hr env web s, fun h hn => ?_, fun h hd ht => ?_⟩
  · rw [json_links hr ((fromStr_iff r hr).2 h) hn env web s v hs]
  · have hj : ∀ r ∈ propTable, ¬ Linked r.name → "datetime" ∉ r.types → "timedelta" ∉ r.types → r.json = .default := by decide +kernel
    unfold PropRow.jsonValue
    rw [hj r hr h hd ht]
    simp only
    rw [read_plain web hr h s, hs]

example : Linked "audience" ∧ ¬ Linked "content" ∧ (rowOf "audience") ∈ propTable ∧ (rowOf "content") ∈ propTable := by decide +kernel

example : (rowOf "audience").get onePage [("___audience___", .obj "Link" [("href", .str "http://a")])] = (.ok (.obj "Note" []), [.str "http://a"]) := by rfl

end Verif.Props.Reads
