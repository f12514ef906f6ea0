import Verif.Spec.Vocabulary
import Verif.Props.Property
import Verif.Props.StampExact
import Verif.Props.Duration
import Verif.Props.Url
import Verif.Props.Construct
import Verif.AS.Model

/-!
# The ActivityStreams vocabulary (C96, C97)
-/
namespace Verif.Props
open Verif Verif.Jsonld Verif.AS
open Verif.Spec (Range Term terms)

/-! ### C96: types and domains -/

/-- C96: the classes of the package are the types of the vocabulary, each with its own name as `type`, and each derived from the types it
extends. -/
theorem vocabulary_types : (Spec.types.map (·.1)).Perm pkgClasses ∧ ∀ e ∈ Spec.types,
    typeName e.1 = e.1 ∧ basesOf e.1 = if e.2 = [] then ["ApplicationActivityJson"] else e.2 := by decide +kernel

/-- C96: objects of a class are instances of the types it extends, and of no others. -/
theorem vocabulary_supertypes : ∀ e ∈ Spec.types, ∀ d ∈ Spec.types.map (·.1), d ∈ mroOf e.1 ↔ d ∈ Spec.supertypes 8 e.1 := by decide +kernel

/-- Properties of the vocabulary a class should have and lacks. -/
def lacking (c : String) : List String :=
  if "Link" ∈ Spec.supertypes 8 c then ["attributedTo"] else ["context"]

/-- Properties a class has beyond the vocabulary. -/
def beyond (c : String) : List String :=
  ["acontext", "__namespace__"] ++ if "Collection" ∈ Spec.supertypes 8 c then ["orderedItems", "unorderedItems"] else []

theorem domain_rows : ∀ e ∈ Spec.types, (∀ n ∈ propNames e.1, n ∈ beyond e.1 ∨ (n ∉ lacking e.1 ∧ ∃ t ∈ terms, t.name = n ∧ t.appliesTo e.1)) ∧
    (∀ n ∈ beyond e.1, n ∈ propNames e.1) ∧ ∀ t ∈ terms, t.appliesTo e.1 → t.name ∉ lacking e.1 → t.name ∈ propNames e.1 := by decide +kernel

/-- C96: the properties of a class are those of the vocabulary whose domain has one of its types, but without `context` (and, for Links,
`attributedTo`), and with `orderedItems` and `unorderedItems` for collections. -/
theorem vocabulary_domains {c : String} (hc : c ∈ Spec.types.map (·.1)) (n : String) :
    n ∈ propNames c ↔ n ∈ beyond c ∨ (n ∉ lacking c ∧ ∃ t ∈ terms, t.name = n ∧ t.appliesTo c) := by
  obtain ⟨e, he, rfl⟩ := List.mem_map.1 hc
  obtain ⟨h1, h2, h3⟩ := domain_rows e he
  refine ⟨h1 n, ?_⟩
  rintro (h | ⟨hn, t, ht, rfl, ha⟩)
  · exact h2 n h
  · exact h3 t ht ha hn

/-! ### C97: ranges -/

/-- The text is a web address (as `validate_url` has it, C55). -/
def IsUrl (env : Env) (s : String) : Prop :=
  ∃ v scheme host rest, Looked s.toList v ∧ UrlShape v scheme host rest ∧ WebScheme false scheme ∧
    (∀ c r, host = c :: r → HostLetter c) ∧ BracketsOk env.bracketOk host

/-- The values of a kind of the vocabulary. -/
def ValueOf (env : Env) (v : Val) : Range → Prop
  | .object => "Object" ∈ v.classes env.mro
  | .image => "Image" ∈ v.classes env.mro
  | .collection => "Collection" ∈ v.classes env.mro
  | .page => "CollectionPage" ∈ v.classes env.mro
  | .link => "Link" ∈ v.classes env.mro
  | .uri => ∃ s, v = .str s ∧ IsUrl env s
  | .text => ∃ s, v = .str s
  | .moment => "datetime" ∈ v.classes env.mro
  | .momentText => ∃ s, v = .str s ∧ ∃ t : Stamp, t.Ok ∧ s.toList = t.text ∧ RealMoment t.moment
  | .duration => "timedelta" ∈ v.classes env.mro
  | .durationText => ∃ s n, v = .str s ∧ DurationText s.toList n
  | .boolean => ∃ b, v = .bool b
  | .number => (∃ i, v = .int i) ∨ ∃ n r, v = .float n r
  | .nonneg => (∃ i : Int, v = .int i ∧ 0 ≤ i) ∨ ∃ r, v = .float false r
  | .count => ∃ i : Int, v = .int i ∧ 0 ≤ i

/-- Kinds of values that properties take: those of the vocabulary, and some that it does not have. -/
inductive Taken where
  | std (k : Range)
  /-- texts that are no web address, and that urllib does not raise for -/
  | notUrl
  /-- such texts that are an account or e-mail address -/
  | account
  /-- such texts that are not -/
  | plainText
  /-- dictionaries -/
  | mapping
  /-- dictionaries with a web address under `href` that the Link class takes as arguments -/
  | linkMap
  /-- dictionaries without a web address under `href` -/
  | plainMap
  deriving DecidableEq

/-- The values of such a kind; `mk` is the Link class used. -/
def TakenValue (env : Env) (mk : Ctor) (v : Val) : Taken → Prop
  | .std k => ValueOf env v k
  | .notUrl => ∃ s, v = .str s ∧ validateUrl env.bracketOk false s.toList = .ok false
  | .account => ∃ s, v = .str s ∧ validateUrl env.bracketOk false s.toList = .ok false ∧ validateAcct env s = .ok true
  | .plainText => ∃ s, v = .str s ∧ validateUrl env.bracketOk false s.toList = .ok false ∧ validateAcct env s = .ok false
  | .mapping => ∃ kvs, v = .dict kvs
  | .linkMap => ∃ kvs, v = .dict kvs ∧ linkDict env kvs = .ok true ∧ ∃ l, callWith mk kvs = .ok l
  | .plainMap => ∃ kvs, v = .dict kvs ∧ linkDict env kvs = .ok false

/-- None, a value of one of the kinds, or, unless the property is functional, a list of these (at any depth; for properties that take Links also
tuples and sets). -/
inductive Fine (env : Env) (mk : Ctor) (kinds : List Taken) (functional links : Bool) : Val → Prop where
  | none : Fine env mk kinds functional links .none
  | one (v : Val) (k : Taken) (hk : k ∈ kinds) (h : TakenValue env mk v k) : Fine env mk kinds functional links v
  | list (xs : List Val) (hf : functional = false) (h : ∀ x ∈ xs, Fine env mk kinds functional links x) : Fine env mk kinds functional links (.list xs)
  | tuple (xs : List Val) (hf : functional = false) (hl : links = true) (h : ∀ x ∈ xs, Fine env mk kinds functional links x) :
      Fine env mk kinds functional links (.tuple xs)
  | set (xs : List Val) (hf : functional = false) (hl : links = true) (h : ∀ x ∈ xs, Fine env mk kinds functional links x) :
      Fine env mk kinds functional links (.set xs)

/-- Kinds that belong to the range of a property in the vocabulary, but are not taken. -/
def refused : List (String × List Range) := [
  ("preview", [.object]), ("result", [.object]), ("tag", [.object]), ("target", [.object]), ("to", [.object]), ("subject", [.object]),
  ("relationship", [.object]), ("describes", [.object, .uri]), ("formerType", [.object, .uri]), ("replies", [.uri]),
  ("deleted", [.momentText]), ("closed", [.momentText])]

/-- Kinds a property takes beyond its range. -/
def extra (t : Term) : List Taken :=
  (if .link ∈ t.range then [.account, .linkMap] else []) ++
  (if t.name = "id" then [.notUrl] else []) ++
  (if t.name ∈ ["icon", "image"] then [.std .object] else []) ++
  (if t.name = "tag" then [.plainMap] else []) ++
  (if t.name = "url" then [.plainText] else []) ++
  (if t.name = "name" then [.mapping] else []) ++
  (if t.name ∈ ["href", "relationship", "duration"] then [.std .text] else []) ++
  (if t.range ⊆ [.number, .nonneg, .count] then [.std .boolean] else [])

/-- Kinds a property takes. -/
def taken (t : Term) : List Taken :=
  (t.kinds.filter fun k => k ∉ (refused.dget t.name).getD []).map .std ++ extra t

/-- No class but the built-in ones derives from a built-in one, or from the property class `Object` (activitystreams/properties.py:672), and Images are
Objects. -/
structure Sane (env : Env) : Prop where
  builtin : ∀ c, ∀ b ∈ ["NoneType", "bool", "int", "float", "str", "list", "tuple", "set", "dict", "properties.Object"], b ∉ env.mro c
  image : ∀ c, "Image" ∈ env.mro c → "Object" ∈ env.mro c

/-- The Link class makes Links, which are nothing else, and does so for every address. -/
structure LinkClass (env : Env) (mk : Ctor) : Prop where
  makes : ∀ ks l, mk ks = .ok l → ∃ c fs, l = .obj c fs ∧ "Link" ∈ env.mro c ∧ ∀ d ∈ ["Object", "Collection", "CollectionPage", "datetime", "timedelta"], d ∉ env.mro c
  href : ∀ s, ∃ l, mk [("href", .str s)] = .ok l

/-! Proofs -/

theorem isUrl_iff (env : Env) (s : String) : validateUrl env.bracketOk false s.toList = .ok true ↔ IsUrl env s := validate_url_partial _ _ _

/-- The kinds a type in a setter stands for. -/
def typeKinds (r : PropRow) (ty : String) : List Taken :=
  if ty = "Object" then [.std .object] else if ty = "CollectionPage" then [.std .page] else if ty = "Collection" then [.std .collection]
  else if ty = "Link" then .std .link :: (if r.fromStr then [.std .uri, .account, .linkMap] else [])
  else if ty = "str" then (if r.parse then [.std .momentText] else if r.fromStr then [.plainText] else if r.additional = [.url] then [.std .uri, .notUrl] else [.std .text])
  else if ty = "dict" then (if r.fromStr then [.plainMap] else [.mapping])
  else if ty = "float" then (if r.additional = [.nonnegative] then [.std .nonneg] else [.std .number])
  else if ty = "int" then [if r.additional = [.nonnegative] then .std .count else .std .number, .std .boolean]
  else if ty = "bool" then [.std .boolean] else if ty = "datetime" then [.std .moment] else if ty = "timedelta" then [.std .duration] else []

/-- The kinds a setter takes. -/
def rowKinds (r : PropRow) : List Taken := r.allTypes.flatMap (typeKinds r)

/-- Every value of the first kind is one of the second. -/
def sub (k k' : Taken) : Bool :=
  k == k' || (k == .std .uri && k' == .std .text) || (k == .std .durationText && k' == .std .text) || (k == .std .image && k' == .std .object) ||
    (k == .std .count && k' == .std .nonneg)

theorem sub_value {env : Env} (hs : Sane env) {mk : Ctor} {k k' : Taken} (h : sub k k' = true) {v : Val} (hv : TakenValue env mk v k) : TakenValue env mk v k' := by
  unfold sub at h
  simp only [Bool.or_eq_true, Bool.and_eq_true, beq_iff_eq] at h
  rcases h with (((h | ⟨rfl, rfl⟩) | ⟨rfl, rfl⟩) | ⟨rfl, rfl⟩) | ⟨rfl, rfl⟩
  · exact h ▸ hv
  · obtain ⟨s, rfl, -⟩ := hv; exact ⟨s, rfl⟩
  · obtain ⟨s, n, rfl, -⟩ := hv; exact ⟨s, rfl⟩
  · show "Object" ∈ v.classes env.mro
    have hv : "Image" ∈ v.classes env.mro := hv
    cases v <;> first | exact hs.image _ hv | simp [Val.classes] at hv
  · exact .inl hv

/-- The rows take the kinds of `taken`. -/
theorem rows_taken : ∀ t ∈ terms, rowOf t.name ∈ propTable ∧ (rowOf t.name).functional = t.functional ∧
    (∀ k ∈ taken t, ∃ k' ∈ rowKinds (rowOf t.name), sub k k' = true) ∧ (∀ k ∈ rowKinds (rowOf t.name), ∃ k' ∈ taken t, sub k k' = true) ∧
    (t.functional = false → ((rowOf t.name).fromStr = true ↔ .link ∈ t.range)) := by decide +kernel

end Verif.Props
