import Verif.Props.Vocabulary
import Verif.Props.AsLoad

/-!
# Which values the properties take (C97): the theorem
-/
namespace Verif.Props
open Verif Verif.Jsonld Verif.AS
open Verif.Spec (Range Term terms)

/-- The types that occur in setters. -/
def knownTypes : List String :=
  ["NoneType", "properties.Object", "Object", "CollectionPage", "Collection", "Link", "str", "dict", "float", "int", "bool", "datetime", "timedelta"]

theorem shape_known : ∀ r ∈ propTable, ∀ ty ∈ r.allTypes, ty ∈ knownTypes := by decide +kernel

theorem shape_parse : ∀ r ∈ propTable, r.parse = true → r.allTypes = ["NoneType", "datetime", "str"] ∧ r.fromStr = false ∧ r.functional = true ∧
    r.additional = [.datetime] := by
  decide +kernel

theorem shape_link : ∀ r ∈ propTable, r.fromStr = true → r.parse = false ∧ r.additional = [] ∧ "int" ∉ r.allTypes ∧ "float" ∉ r.allTypes := by decide +kernel

theorem shape_number : ∀ r ∈ propTable, r.additional = [] → ("int" ∈ r.allTypes ↔ "float" ∈ r.allTypes) := by decide +kernel

theorem shape_checks : ∀ r ∈ propTable, r.parse = false → r.additional = [] ∨ (r.additional = [.url] ∧ r.allTypes = ["NoneType", "str"]) ∨
    (r.additional = [.datetime] ∧ r.allTypes = ["NoneType", "datetime"]) ∨
    (r.additional = [.nonnegative] ∧ (r.allTypes = ["NoneType", "int"] ∨ r.allTypes = ["NoneType", "float", "int"])) := by decide +kernel

theorem mem_rowKinds {r : PropRow} {k : Taken} : k ∈ rowKinds r ↔ ∃ ty ∈ r.allTypes, k ∈ typeKinds r ty := List.mem_flatMap

/-- For values that are no lists, tuples or sets, lists do not matter. -/
theorem typeAllowed_leaf {env : Env} (hs : Sane env) {types : List String} {functional : Bool} {v : Val} (hi : items? v = none) :
    TypeAllowed env.mro types functional v ↔ ∃ c ∈ v.classes env.mro, c ∈ types := by
  constructor
  · rintro ⟨c, hc, h | ⟨-, rfl⟩⟩
    · exact ⟨c, hc, h⟩
    · exfalso
      cases v <;> first | (simp [Val.classes] at hc; done) | (simp [items?] at hi; done) | exact hs.builtin _ "list" (by simp) hc
  · rintro ⟨c, hc, h⟩
    exact ⟨c, hc, .inl h⟩

theorem classes_builtin {env : Env} (hs : Sane env) {v : Val} {b : String}
    (hb : b ∈ ["NoneType", "bool", "int", "float", "str", "list", "tuple", "set", "dict", "properties.Object"]) (h : b ∈ v.classes env.mro) :
    b ∈ v.classes (fun _ => []) := by
  cases v <;> first | exact h | exact absurd h (hs.builtin _ b hb)

/-- Types without additional checks, without conversion. -/
theorem leaf_plain {env : Env} (hs : Sane env) (mk : Ctor) {r : PropRow} (hk : ∀ ty ∈ r.allTypes, ty ∈ knownTypes) (hp : r.parse = false)
    (hf : r.fromStr = false) (ha : r.additional = []) (hn : "int" ∈ r.allTypes ↔ "float" ∈ r.allTypes) {v : Val} (hv : v ≠ .none) :
    (∃ c ∈ v.classes env.mro, c ∈ r.allTypes) ↔ ∃ k ∈ rowKinds r, TakenValue env mk v k := by
  constructor
  · rintro ⟨c, hc, ht⟩
    have hkc := hk c ht
    simp only [mem_rowKinds]
    simp only [knownTypes, List.mem_cons, List.not_mem_nil, or_false] at hkc
    rcases hkc with rfl | rfl | rfl | rfl | rfl | rfl | rfl | rfl | rfl | rfl | rfl | rfl | rfl
    · have := classes_builtin hs (by simp) hc
      cases v <;> simp [Val.classes] at this
      exact absurd rfl hv
    · have := classes_builtin hs (by simp) hc
      cases v <;> simp [Val.classes] at this
    · exact ⟨_, ⟨_, ht, by simp [typeKinds]⟩, (show TakenValue env mk v (.std .object) from hc)⟩
    · exact ⟨_, ⟨_, ht, by simp [typeKinds]⟩, (show TakenValue env mk v (.std .page) from hc)⟩
    · exact ⟨_, ⟨_, ht, by simp [typeKinds]⟩, (show TakenValue env mk v (.std .collection) from hc)⟩
    · exact ⟨.std .link, ⟨_, ht, by simp [typeKinds, hf]⟩, hc⟩
    · have := classes_builtin hs (by simp) hc
      cases v <;> simp [Val.classes] at this
      exact ⟨.std .text, ⟨_, ht, by simp [typeKinds, hf, hp, ha]⟩, _, rfl⟩
    · have := classes_builtin hs (by simp) hc
      cases v <;> simp [Val.classes] at this
      exact ⟨.mapping, ⟨_, ht, by simp [typeKinds, hf]⟩, _, rfl⟩
    · have := classes_builtin hs (by simp) hc
      cases v <;> simp [Val.classes] at this
      exact ⟨.std .number, ⟨_, ht, by simp [typeKinds, ha]⟩, .inr ⟨_, _, rfl⟩⟩
    · have := classes_builtin hs (by simp) hc
      cases v <;> simp [Val.classes] at this
      · exact ⟨.std .boolean, ⟨_, ht, by simp [typeKinds, ha]⟩, _, rfl⟩
      · exact ⟨.std .number, ⟨_, ht, by simp [typeKinds, ha]⟩, .inl ⟨_, rfl⟩⟩
    · have := classes_builtin hs (by simp) hc
      cases v <;> simp [Val.classes] at this
      exact ⟨.std .boolean, ⟨_, ht, by simp [typeKinds]⟩, _, rfl⟩
    · exact ⟨.std .moment, ⟨_, ht, by simp [typeKinds]⟩, hc⟩
    · exact ⟨.std .duration, ⟨_, ht, by simp [typeKinds]⟩, hc⟩
  · rintro ⟨k, hkm, hv'⟩
    obtain ⟨ty, ht, hkt⟩ := mem_rowKinds.1 hkm
    have hkc := hk ty ht
    simp only [knownTypes, List.mem_cons, List.not_mem_nil, or_false] at hkc
    rcases hkc with rfl | rfl | rfl | rfl | rfl | rfl | rfl | rfl | rfl | rfl | rfl | rfl | rfl <;>
      simp only [typeKinds, hf, hp, ha, String.reduceEq, if_false, if_true, List.mem_cons, List.not_mem_nil, or_false, Bool.false_eq_true,
        reduceCtorEq] at hkt
    · subst hkt; exact ⟨_, hv', ht⟩
    · subst hkt; exact ⟨_, hv', ht⟩
    · subst hkt; exact ⟨_, hv', ht⟩
    · subst hkt; exact ⟨_, hv', ht⟩
    · subst hkt; obtain ⟨x, rfl⟩ := hv'; exact ⟨"str", by simp [Val.classes], ht⟩
    · subst hkt; obtain ⟨x, rfl⟩ := hv'; exact ⟨"dict", by simp [Val.classes], ht⟩
    · subst hkt
      rcases hv' with ⟨i, rfl⟩ | ⟨n, x, rfl⟩
      · exact ⟨"int", by simp [Val.classes], hn.2 ht⟩
      · exact ⟨"float", by simp [Val.classes], ht⟩
    · rcases hkt with rfl | rfl
      · rcases hv' with ⟨i, rfl⟩ | ⟨n, x, rfl⟩
        · exact ⟨"int", by simp [Val.classes], ht⟩
        · exact ⟨"float", by simp [Val.classes], hn.1 ht⟩
      · obtain ⟨b, rfl⟩ := hv'
        exact ⟨"int", by simp [Val.classes], ht⟩
    · subst hkt; obtain ⟨x, rfl⟩ := hv'; exact ⟨"bool", by simp [Val.classes], ht⟩
    · subst hkt; exact ⟨_, hv', ht⟩
    · subst hkt; exact ⟨_, hv', ht⟩

/-- Values that are no texts and no dictionaries, in a property that takes Links. -/
theorem leaf_link {env : Env} (hs : Sane env) (mk : Ctor) {r : PropRow} (hk : ∀ ty ∈ r.allTypes, ty ∈ knownTypes) (hp : r.parse = false)
    (hf : r.fromStr = true) (hi : "int" ∉ r.allTypes) (hfl : "float" ∉ r.allTypes) {v : Val} (hv : v ≠ .none) (h1 : ∀ s, v ≠ .str s) (h2 : ∀ kvs, v ≠ .dict kvs) :
    (∃ c ∈ v.classes env.mro, c ∈ r.allTypes) ↔ ∃ k ∈ rowKinds r, TakenValue env mk v k := by
  constructor
  · rintro ⟨c, hc, ht⟩
    have hkc := hk c ht
    simp only [mem_rowKinds]
    simp only [knownTypes, List.mem_cons, List.not_mem_nil, or_false] at hkc
    rcases hkc with rfl | rfl | rfl | rfl | rfl | rfl | rfl | rfl | rfl | rfl | rfl | rfl | rfl
    · have := classes_builtin hs (by simp) hc
      cases v <;> simp [Val.classes] at this
      exact absurd rfl hv
    · have := classes_builtin hs (by simp) hc
      cases v <;> simp [Val.classes] at this
    · exact ⟨_, ⟨_, ht, by simp [typeKinds]⟩, (show TakenValue env mk v (.std .object) from hc)⟩
    · exact ⟨_, ⟨_, ht, by simp [typeKinds]⟩, (show TakenValue env mk v (.std .page) from hc)⟩
    · exact ⟨_, ⟨_, ht, by simp [typeKinds]⟩, (show TakenValue env mk v (.std .collection) from hc)⟩
    · exact ⟨.std .link, ⟨_, ht, by simp [typeKinds]⟩, hc⟩
    · have := classes_builtin hs (by simp) hc
      cases v <;> simp [Val.classes] at this
      exact absurd rfl (h1 _)
    · have := classes_builtin hs (by simp) hc
      cases v <;> simp [Val.classes] at this
      exact absurd rfl (h2 _)
    · exact absurd ht hfl
    · exact absurd ht hi
    · have := classes_builtin hs (by simp) hc
      cases v <;> simp [Val.classes] at this
      exact ⟨.std .boolean, ⟨_, ht, by simp [typeKinds]⟩, _, rfl⟩
    · exact ⟨.std .moment, ⟨_, ht, by simp [typeKinds]⟩, hc⟩
    · exact ⟨.std .duration, ⟨_, ht, by simp [typeKinds]⟩, hc⟩
  · rintro ⟨k, hkm, hv'⟩
    obtain ⟨ty, ht, hkt⟩ := mem_rowKinds.1 hkm
    have hkc := hk ty ht
    simp only [knownTypes, List.mem_cons, List.not_mem_nil, or_false] at hkc
    rcases hkc with rfl | rfl | rfl | rfl | rfl | rfl | rfl | rfl | rfl | rfl | rfl | rfl | rfl <;>
      simp only [typeKinds, hf, hp, String.reduceEq, if_false, if_true, List.mem_cons, List.not_mem_nil, or_false, Bool.false_eq_true] at hkt
    · subst hkt; exact ⟨_, hv', ht⟩
    · subst hkt; exact ⟨_, hv', ht⟩
    · subst hkt; exact ⟨_, hv', ht⟩
    · rcases hkt with rfl | rfl | rfl | rfl
      · exact ⟨_, hv', ht⟩
      · obtain ⟨x, rfl, -⟩ := hv'; exact absurd rfl (h1 _)
      · obtain ⟨x, rfl, -⟩ := hv'; exact absurd rfl (h1 _)
      · obtain ⟨x, rfl, -⟩ := hv'; exact absurd rfl (h2 _)
    · subst hkt; obtain ⟨x, rfl, -⟩ := hv'; exact absurd rfl (h1 _)
    · subst hkt; obtain ⟨x, rfl, -⟩ := hv'; exact absurd rfl (h2 _)
    · exact absurd ht hfl
    · exact absurd ht hi
    · subst hkt; obtain ⟨x, rfl⟩ := hv'; exact ⟨"bool", by simp [Val.classes], ht⟩
    · subst hkt; exact ⟨_, hv', ht⟩
    · subst hkt; exact ⟨_, hv', ht⟩

/-- Values of a kind are no lists, tuples or sets. -/
theorem taken_leaf {env : Env} {mk : Ctor} {v : Val} {k : Taken} (h : TakenValue env mk v k) : items? v = none := by
  cases k with
  | std k =>
    cases k
    case number => rcases h with ⟨i, rfl⟩ | ⟨n, x, rfl⟩ <;> rfl
    case nonneg => rcases h with ⟨i, rfl, -⟩ | ⟨x, rfl⟩ <;> rfl
    case durationText => obtain ⟨x, n, rfl, -⟩ := h; rfl
    all_goals first
      | (obtain ⟨x, rfl⟩ := h; rfl)
      | (obtain ⟨x, rfl, -⟩ := h; rfl)
      | (cases v <;> first | rfl | (exfalso; revert h; simp [TakenValue, ValueOf, Val.classes]))
  | mapping => obtain ⟨x, rfl⟩ := h; rfl
  | notUrl => obtain ⟨x, rfl, -⟩ := h; rfl
  | account => obtain ⟨x, rfl, -⟩ := h; rfl
  | plainText => obtain ⟨x, rfl, -⟩ := h; rfl
  | linkMap => obtain ⟨x, rfl, -⟩ := h; rfl
  | plainMap => obtain ⟨x, rfl, -⟩ := h; rfl

/-- A single value in a property without conversion. -/
theorem leaf_row {env : Env} (hs : Sane env) (mk : Ctor) {r : PropRow} (hr : r ∈ propTable) (hp : r.parse = false) (hf : r.fromStr = false)
    {v : Val} (hv : v ≠ .none) :
    ((∃ c ∈ v.classes env.mro, c ∈ r.allTypes) ∧ ∀ f ∈ r.additional.map (Check.run env), f v = .ok ()) ↔
      ∃ k ∈ rowKinds r, TakenValue env mk v k := by
  rcases shape_checks r hr hp with ha | ⟨ha, ht⟩ | ⟨ha, ht⟩ | ⟨ha, ht⟩
  · rw [ha, ← leaf_plain hs mk (shape_known r hr) hp hf ha (shape_number r hr ha) hv]
    simp
  · have hrk : rowKinds r = [.std .uri, .notUrl] := by simp [rowKinds, ht, typeKinds, hp, hf, ha]
    rw [hrk, ht, ha]
    constructor
    · rintro ⟨⟨c, hc, hct⟩, hch⟩
      have hstr : ∃ s, v = .str s := by
        simp only [List.mem_cons, List.not_mem_nil, or_false] at hct
        rcases hct with rfl | rfl
        · have := classes_builtin hs (by simp) hc
          cases v <;> simp [Val.classes] at this
          exact absurd rfl hv
        · have := classes_builtin hs (by simp) hc
          cases v <;> simp [Val.classes] at this
          exact ⟨_, rfl⟩
      obtain ⟨s, rfl⟩ := hstr
      have := hch (validateUrlCheck env.bracketOk) (by simp [Check.run])
      unfold validateUrlCheck at this
      simp only at this
      rcases hvu : validateUrl env.bracketOk false s.toList with e | b
      · rw [hvu] at this; cases this
      · cases b
        · exact ⟨.notUrl, by simp, s, rfl, hvu⟩
        · exact ⟨.std .uri, by simp, s, rfl, (isUrl_iff env s).1 hvu⟩
    · rintro ⟨k, hk, hv'⟩
      have : ∃ s b, v = .str s ∧ validateUrl env.bracketOk false s.toList = .ok b := by
        simp only [List.mem_cons, List.not_mem_nil, or_false] at hk
        rcases hk with rfl | rfl
        · obtain ⟨s, rfl, h⟩ := hv'
          exact ⟨s, true, rfl, (isUrl_iff env s).2 h⟩
        · obtain ⟨s, rfl, h⟩ := hv'
          exact ⟨s, false, rfl, h⟩
      obtain ⟨s, b, rfl, h⟩ := this
      refine ⟨⟨"str", by simp [Val.classes], by simp⟩, ?_⟩
      intro f hf'
      simp only [List.map_cons, List.map_nil, List.mem_singleton] at hf'
      subst hf'
      show validateUrlCheck env.bracketOk (.str s) = .ok ()
      unfold validateUrlCheck
      simp only [h]
  · have hrk : rowKinds r = [.std .moment] := by simp [rowKinds, ht, typeKinds]
    rw [hrk, ht, ha]
    constructor
    · rintro ⟨⟨c, hc, hct⟩, -⟩
      simp only [List.mem_cons, List.not_mem_nil, or_false] at hct
      rcases hct with rfl | rfl
      · have := classes_builtin hs (by simp) hc
        cases v <;> simp [Val.classes] at this
        exact absurd rfl hv
      · exact ⟨_, List.mem_singleton.2 rfl, hc⟩
    · rintro ⟨k, hk, hv'⟩
      rw [List.mem_singleton.1 hk] at hv'
      refine ⟨⟨"datetime", hv', by simp⟩, ?_⟩
      intro f hf'
      simp only [List.map_cons, List.map_nil, List.mem_singleton] at hf'
      subst hf'
      have hv' : "datetime" ∈ v.classes env.mro := hv'
      show checkDatetime v = .ok ()
      cases v <;> first | rfl | (simp [Val.classes] at hv')
  · have hrk : ∀ k, k ∈ rowKinds r → k = .std .nonneg ∧ "float" ∈ r.allTypes ∨ k = .std .count ∨ k = .std .boolean := by
      intro k hk
      obtain ⟨ty, hty, hkt⟩ := mem_rowKinds.1 hk
      rcases ht with ht | ht
      · rw [ht] at hty
        simp only [List.mem_cons, List.not_mem_nil, or_false] at hty
        rcases hty with rfl | rfl <;> simp [typeKinds, ha] at hkt
        exact .inr hkt
      · rw [ht] at hty ⊢
        simp only [List.mem_cons, List.not_mem_nil, or_false] at hty
        rcases hty with rfl | rfl | rfl <;> simp [typeKinds, ha] at hkt
        · exact .inl ⟨hkt, by simp⟩
        · exact .inr hkt
    have hint : "int" ∈ r.allTypes := by rcases ht with ht | ht <;> simp [ht]
    have hcount : (.std .count) ∈ rowKinds r := mem_rowKinds.2 ⟨_, hint, by simp [typeKinds, ha]⟩
    have hbool : (.std .boolean) ∈ rowKinds r := mem_rowKinds.2 ⟨_, hint, by simp [typeKinds, ha]⟩
    have hall : (∀ f ∈ r.additional.map (Check.run env), f v = .ok ()) ↔ isNonnegative v = .ok () := by
      rw [ha]; simp [Check.run]
    rw [hall]
    constructor
    · rintro ⟨⟨c, hc, hct⟩, hch⟩
      have hcc : c = "NoneType" ∨ (c = "float" ∧ "float" ∈ r.allTypes) ∨ c = "int" := by
        rcases ht with ht | ht <;> rw [ht] at hct ⊢ <;> simp only [List.mem_cons, List.not_mem_nil, or_false] at hct
        · rcases hct with h | h
          · exact .inl h
          · exact .inr (.inr h)
        · rcases hct with h | h | h
          · exact .inl h
          · exact .inr (.inl ⟨h, by simp⟩)
          · exact .inr (.inr h)
      rcases hcc with rfl | ⟨rfl, hfl⟩ | rfl
      · have := classes_builtin hs (by simp) hc
        cases v <;> simp [Val.classes] at this
        exact absurd rfl hv
      · have := classes_builtin hs (by simp) hc
        cases v <;> simp [Val.classes] at this
        rename_i n x
        cases n
        · exact ⟨.std .nonneg, mem_rowKinds.2 ⟨_, hfl, by simp [typeKinds, ha]⟩, .inr ⟨x, rfl⟩⟩
        · simp [isNonnegative] at hch
      · have := classes_builtin hs (by simp) hc
        cases v <;> simp [Val.classes] at this
        · exact ⟨_, hbool, _, rfl⟩
        · rename_i i
          refine ⟨_, hcount, i, rfl, ?_⟩
          by_contra hn
          rw [isNonnegative, if_pos (by omega)] at hch
          cases hch
    · rintro ⟨k, hk, hv'⟩
      rcases hrk k hk with ⟨rfl, hfl⟩ | rfl | rfl
      · rcases hv' with ⟨i, rfl, hi⟩ | ⟨x, rfl⟩
        · exact ⟨⟨"int", by simp [Val.classes], hint⟩, by rw [isNonnegative, if_neg (by omega)]⟩
        · exact ⟨⟨"float", by simp [Val.classes], hfl⟩, rfl⟩
      · obtain ⟨i, rfl, hi⟩ := hv'
        exact ⟨⟨"int", by simp [Val.classes], hint⟩, by rw [isNonnegative, if_neg (by omega)]⟩
      · obtain ⟨b, rfl⟩ := hv'
        exact ⟨⟨"int", by simp [Val.classes], hint⟩, rfl⟩

theorem none_leaf (env : Env) (r : PropRow) :
    (∃ c ∈ Val.classes env.mro .none, c ∈ r.allTypes) ∧ ∀ f ∈ r.additional.map (Check.run env), f .none = .ok () := by
  refine ⟨⟨"NoneType", by simp [Val.classes], by simp [PropRow.allTypes]⟩, ?_⟩
  intro f hf
  obtain ⟨k, -, rfl⟩ := List.mem_map.1 hf
  cases k <;> rfl

theorem no_containers {r : PropRow} (hr : r ∈ propTable) : "list" ∉ r.allTypes ∧ "tuple" ∉ r.allTypes ∧ "set" ∉ r.allTypes ∧ "object" ∉ r.allTypes := by
  refine ⟨?_, ?_, ?_, ?_⟩ <;> intro h <;> exact absurd (shape_known r hr _ h) (by decide)

/-- Lists, tuples and sets in a setter. -/
theorem container_allowed (env : Env) {r : PropRow} (hr : r ∈ propTable) {v : Val} {xs : List Val} (hi : items? v = some xs) :
    TypeAllowed env.mro r.allTypes r.functional v ↔ v = .list xs ∧ r.functional = false := by
  obtain ⟨n1, n2, n3, n4⟩ := no_containers hr
  constructor
  · rintro ⟨c, hc, h⟩
    cases v <;> simp only [items?, Option.some.injEq, reduceCtorEq] at hi <;> subst hi <;>
      simp only [Val.classes, List.mem_cons, List.not_mem_nil, or_false] at hc <;> rcases hc with rfl | rfl <;>
      simp_all
  · rintro ⟨rfl, hf⟩
    exact ⟨"list", by simp [Val.classes], .inr ⟨hf, rfl⟩⟩

/-- Properties without conversion. -/
theorem accepted_plain {env : Env} (hs : Sane env) (mk : Ctor) {r : PropRow} (hr : r ∈ propTable) (hp : r.parse = false) (hf : r.fromStr = false) (v : Val) :
    Accepted env.mro r.allTypes r.functional (r.additional.map (Check.run env)) v ↔ Fine env mk (rowKinds r) r.functional false v := by
  constructor
  · intro h
    induction h with
    | leaf v hi ht hc =>
      by_cases hv : v = .none
      · subst hv; exact .none
      · obtain ⟨k, hk, hkv⟩ := (leaf_row hs mk hr hp hf hv).1 ⟨(typeAllowed_leaf hs hi).1 ht, hc⟩
        exact .one v k hk hkv
    | items v xs hi ht _ ih =>
      obtain ⟨rfl, hfu⟩ := (container_allowed env hr hi).1 ht
      exact .list xs hfu ih
  · intro h
    induction h with
    | none =>
      obtain ⟨h1, h2⟩ := none_leaf env r
      exact .leaf _ rfl ((typeAllowed_leaf hs rfl).2 h1) h2
    | one v k hk hkv =>
      have hi := taken_leaf hkv
      by_cases hv : v = .none
      · subst hv
        obtain ⟨h1, h2⟩ := none_leaf env r
        exact .leaf _ rfl ((typeAllowed_leaf hs rfl).2 h1) h2
      · obtain ⟨h1, h2⟩ := (leaf_row hs mk hr hp hf hv).2 ⟨k, hk, hkv⟩
        exact .leaf _ hi ((typeAllowed_leaf hs hi).2 h1) h2
    | list xs hfu _ ih => exact .items _ xs rfl ((container_allowed env hr rfl).2 ⟨rfl, hfu⟩) ih
    | tuple xs _ hl => cases hl
    | set xs _ hl => cases hl

/-- Texts in properties that take Links. -/
theorem text_kinds (env : Env) (mk : Ctor) {r : PropRow} (hr : r ∈ propTable) (hf : r.fromStr = true) (x : String) :
    (∃ k ∈ rowKinds r, TakenValue env mk (.str x) k) ↔
      ("Link" ∈ r.allTypes ∧ linkable env x = .ok true) ∨ ("str" ∈ r.allTypes ∧ linkable env x = .ok false) := by
  have hp := (shape_link r hr hf).1
  constructor
  · rintro ⟨k, hkm, hv⟩
    obtain ⟨ty, ht, hkt⟩ := mem_rowKinds.1 hkm
    have hkc := shape_known r hr ty ht
    simp only [knownTypes, List.mem_cons, List.not_mem_nil, or_false] at hkc
    rcases hkc with rfl | rfl | rfl | rfl | rfl | rfl | rfl | rfl | rfl | rfl | rfl | rfl | rfl <;>
      simp only [typeKinds, hf, hp, String.reduceEq, if_false, if_true, List.mem_cons, List.not_mem_nil, or_false, Bool.false_eq_true] at hkt
    · subst hkt; simp [TakenValue, ValueOf, Val.classes] at hv
    · subst hkt; simp [TakenValue, ValueOf, Val.classes] at hv
    · subst hkt; simp [TakenValue, ValueOf, Val.classes] at hv
    · rcases hkt with rfl | rfl | rfl | rfl
      · simp [TakenValue, ValueOf, Val.classes] at hv
      · obtain ⟨y, hy, hu⟩ := hv
        cases hy
        left
        exact ⟨ht, by unfold linkable; rw [(isUrl_iff env x).2 hu]⟩
      · obtain ⟨y, hy, h1, h2⟩ := hv
        cases hy
        left
        exact ⟨ht, by unfold linkable; rw [h1]; exact h2⟩
      · obtain ⟨y, hy, -⟩ := hv; cases hy
    · subst hkt
      obtain ⟨y, hy, h1, h2⟩ := hv
      cases hy
      right
      exact ⟨ht, by unfold linkable; rw [h1]; exact h2⟩
    · subst hkt; obtain ⟨y, hy, -⟩ := hv; cases hy
    · exact absurd ht (shape_link r hr hf).2.2.2
    · exact absurd ht (shape_link r hr hf).2.2.1
    · subst hkt; obtain ⟨y, hy⟩ := hv; cases hy
    · subst hkt; simp [TakenValue, ValueOf, Val.classes] at hv
    · subst hkt; simp [TakenValue, ValueOf, Val.classes] at hv
  · have key : ∀ b, linkable env x = .ok b → (b = true ∧ IsUrl env x) ∨
        (validateUrl env.bracketOk false x.toList = .ok false ∧ validateAcct env x = .ok b) := by
      intro b h
      unfold linkable at h
      rcases hv : validateUrl env.bracketOk false x.toList with e | c
      · rw [hv] at h; cases h
      · rw [hv] at h
        cases c
        · exact .inr ⟨rfl, h⟩
        · left
          exact ⟨(Except.ok.inj h).symm, (isUrl_iff env x).1 hv⟩
    rintro (⟨ht, h⟩ | ⟨ht, h⟩)
    · rcases key _ h with ⟨-, h⟩ | ⟨h1, h2⟩
      · exact ⟨.std .uri, mem_rowKinds.2 ⟨_, ht, by simp [typeKinds, hf]⟩, x, rfl, h⟩
      · exact ⟨.account, mem_rowKinds.2 ⟨_, ht, by simp [typeKinds, hf]⟩, x, rfl, h1, h2⟩
    · rcases key _ h with ⟨h, -⟩ | ⟨h1, h2⟩
      · cases h
      · exact ⟨.plainText, mem_rowKinds.2 ⟨_, ht, by simp [typeKinds, hf, hp]⟩, x, rfl, h1, h2⟩

/-- Dictionaries in properties that take Links. -/
theorem dict_kinds (env : Env) (mk : Ctor) {r : PropRow} (hr : r ∈ propTable) (hf : r.fromStr = true) (kvs : List (Key × Val)) :
    (∃ k ∈ rowKinds r, TakenValue env mk (.dict kvs) k) ↔
      ("Link" ∈ r.allTypes ∧ linkDict env kvs = .ok true ∧ ∃ l, callWith mk kvs = .ok l) ∨ ("dict" ∈ r.allTypes ∧ linkDict env kvs = .ok false) := by
  have hp := (shape_link r hr hf).1
  constructor
  · rintro ⟨k, hkm, hv⟩
    obtain ⟨ty, ht, hkt⟩ := mem_rowKinds.1 hkm
    have hkc := shape_known r hr ty ht
    simp only [knownTypes, List.mem_cons, List.not_mem_nil, or_false] at hkc
    rcases hkc with rfl | rfl | rfl | rfl | rfl | rfl | rfl | rfl | rfl | rfl | rfl | rfl | rfl <;>
      simp only [typeKinds, hf, hp, String.reduceEq, if_false, if_true, List.mem_cons, List.not_mem_nil, or_false, Bool.false_eq_true] at hkt
    · subst hkt; simp [TakenValue, ValueOf, Val.classes] at hv
    · subst hkt; simp [TakenValue, ValueOf, Val.classes] at hv
    · subst hkt; simp [TakenValue, ValueOf, Val.classes] at hv
    · rcases hkt with rfl | rfl | rfl | rfl
      · simp [TakenValue, ValueOf, Val.classes] at hv
      · obtain ⟨y, hy, -⟩ := hv; cases hy
      · obtain ⟨y, hy, -⟩ := hv; cases hy
      · obtain ⟨y, hy, h⟩ := hv
        cases hy
        exact .inl ⟨ht, h⟩
    · subst hkt; obtain ⟨y, hy, -⟩ := hv; cases hy
    · subst hkt
      obtain ⟨y, hy, h⟩ := hv
      cases hy
      exact .inr ⟨ht, h⟩
    · exact absurd ht (shape_link r hr hf).2.2.2
    · exact absurd ht (shape_link r hr hf).2.2.1
    · subst hkt; obtain ⟨y, hy⟩ := hv; cases hy
    · subst hkt; simp [TakenValue, ValueOf, Val.classes] at hv
    · subst hkt; simp [TakenValue, ValueOf, Val.classes] at hv
  · rintro (⟨ht, h⟩ | ⟨ht, h⟩)
    · exact ⟨.linkMap, mem_rowKinds.2 ⟨_, ht, by simp [typeKinds, hf]⟩, kvs, rfl, h⟩
    · exact ⟨.plainMap, mem_rowKinds.2 ⟨_, ht, by simp [typeKinds, hf]⟩, kvs, rfl, h⟩

theorem fine_leaf {env : Env} {mk : Ctor} {kinds : List Taken} {functional links : Bool} {v : Val} (hi : items? v = none) (hv : v ≠ .none) :
    Fine env mk kinds functional links v ↔ ∃ k ∈ kinds, TakenValue env mk v k := by
  constructor
  · intro h
    cases h with
    | none => exact absurd rfl hv
    | one _ k hk h => exact ⟨k, hk, h⟩
    | list => cases hi
    | tuple => cases hi
    | set => cases hi
  · rintro ⟨k, hk, h⟩
    exact .one v k hk h

theorem fine_items {env : Env} {mk : Ctor} {kinds : List Taken} {functional : Bool} {v : Val} {xs : List Val} (hi : items? v = some xs) :
    Fine env mk kinds functional true v ↔ functional = false ∧ ∀ x ∈ xs, Fine env mk kinds functional true x := by
  constructor
  · intro h
    cases h with
    | none => cases hi
    | one _ k hk h => rw [taken_leaf h] at hi; cases hi
    | list ys hf h => injection hi with hi; subst hi; exact ⟨hf, h⟩
    | tuple ys hf _ h => injection hi with hi; subst hi; exact ⟨hf, h⟩
    | set ys hf _ h => injection hi with hi; subst hi; exact ⟨hf, h⟩
  · rintro ⟨hf, h⟩
    cases v <;> simp only [items?, Option.some.injEq, reduceCtorEq] at hi <;> subst hi
    · exact .list _ hf h
    · exact .tuple _ hf rfl h
    · exact .set _ hf rfl h

theorem accepts_single {env : Env} (hs : Sane env) {types : List String} {functional : Bool} {v : Val} (hi : items? v = none) :
    Accepted env.mro types functional [] v ↔ ∃ c ∈ v.classes env.mro, c ∈ types := by
  rw [← typeAllowed_leaf hs (functional := functional) hi]
  constructor
  · intro h
    cases h with
    | leaf _ _ ht _ => exact ht
    | items _ xs hi' _ _ => rw [hi] at hi'; cases hi'
  · intro h
    exact .leaf v hi h (by simp)

theorem accepted_list {env : Env} {r : PropRow} (hr : r ∈ propTable) {checks : List Validator} (xs : List Val) :
    Accepted env.mro r.allTypes r.functional checks (.list xs) ↔ r.functional = false ∧ ∀ x ∈ xs, Accepted env.mro r.allTypes r.functional checks x := by
  constructor
  · intro h
    cases h with
    | leaf _ hi _ _ => cases hi
    | items _ ys hi ht hx =>
      injection hi with hi; subst hi
      exact ⟨((container_allowed env hr rfl).1 ht).2, hx⟩
  · rintro ⟨hf, hx⟩
    exact .items _ xs rfl ((container_allowed env hr rfl).2 ⟨rfl, hf⟩) hx

theorem link_of_list {env : Env} {mk : Ctor} {r : PropRow} (hr : r ∈ propTable) {v : Val} {xs : List Val} (hi : items? v = some xs)
    (ih : (∃ ys, createLinks env mk xs = .ok ys ∧ ∀ y ∈ ys, Accepted env.mro r.allTypes r.functional [] y) ↔
      ∀ x ∈ xs, Fine env mk (rowKinds r) r.functional true x) :
    (∃ u, createLink env mk v = .ok u ∧ Accepted env.mro r.allTypes r.functional [] u) ↔ Fine env mk (rowKinds r) r.functional true v := by
  have hc : createLink env mk v = match createLinks env mk xs with
      | .error e => .error e
      | .ok ys => .ok (.list ys) := by
    cases v <;> simp only [items?, Option.some.injEq, reduceCtorEq] at hi <;> subst hi <;> rw [createLink] <;> rfl
  rw [fine_items hi, ← ih, hc]
  rcases createLinks env mk xs with e | ys
  · simp
  · constructor
    · rintro ⟨u, hu, ha⟩
      have hu := Except.ok.inj hu
      subst hu
      obtain ⟨hf, hy⟩ := (accepted_list hr ys).1 ha
      exact ⟨hf, ys, rfl, hy⟩
    · rintro ⟨hf, ys', h, hy⟩
      have h := Except.ok.inj h
      subst h
      exact ⟨_, rfl, (accepted_list hr ys).2 ⟨hf, hy⟩⟩

theorem link_other {env : Env} (hs : Sane env) {mk : Ctor} {r : PropRow} (hr : r ∈ propTable) (hf : r.fromStr = true) {v : Val}
    (hi : items? v = none) (h1 : ∀ s, v ≠ .str s) (h2 : ∀ kvs, v ≠ .dict kvs) (hc : createLink env mk v = .ok v) :
    (∃ u, createLink env mk v = .ok u ∧ Accepted env.mro r.allTypes r.functional [] u) ↔ Fine env mk (rowKinds r) r.functional true v := by
  obtain ⟨hp, -, hint, hfl⟩ := shape_link r hr hf
  have he : (∃ u, createLink env mk v = .ok u ∧ Accepted env.mro r.allTypes r.functional [] u) ↔ Accepted env.mro r.allTypes r.functional [] v := by
    rw [hc]
    constructor
    · rintro ⟨u, hu, ha⟩; exact Except.ok.inj hu ▸ ha
    · intro h; exact ⟨v, rfl, h⟩
  rw [he, accepts_single hs hi]
  by_cases hv : v = .none
  · subst hv
    exact ⟨fun _ => .none, fun _ => (none_leaf env r).1⟩
  · rw [leaf_link hs mk (shape_known r hr) hp hf hint hfl hv h1 h2, fine_leaf hi hv]

/-- What the Link class makes is taken by the properties that take Links. -/
theorem made_link {env : Env} (hs : Sane env) {mk : Ctor} (hmk : LinkClass env mk) {r : PropRow} (hr : r ∈ propTable) {ks : List (String × Val)} {l : Val}
    (h : mk ks = .ok l) : Accepted env.mro r.allTypes r.functional [] l ↔ "Link" ∈ r.allTypes := by
  obtain ⟨c, fs, rfl, hl, hno⟩ := hmk.makes _ _ h
  rw [accepts_single hs rfl]
  constructor
  · rintro ⟨d, hd, ht⟩
    have hd : d ∈ env.mro c := hd
    have hk := shape_known r hr d ht
    have hb := hs.builtin c d
    have hn := hno d
    simp only [knownTypes, List.mem_cons, List.not_mem_nil, or_false] at hk
    rcases hk with rfl | rfl | rfl | rfl | rfl | rfl | rfl | rfl | rfl | rfl | rfl | rfl | rfl <;>
      first | exact ht | (refine absurd hd (hb ?_); simp; done) | (refine absurd hd (hn ?_); simp)
  · intro ht
    exact ⟨_, hl, ht⟩

theorem single_builtin {env : Env} (hs : Sane env) {r : PropRow} (hr : r ∈ propTable) {v : Val} {b : String} (hi : items? v = none)
    (hb : v.classes env.mro = [b, "object"]) : Accepted env.mro r.allTypes r.functional [] v ↔ b ∈ r.allTypes := by
  rw [accepts_single hs hi, hb]
  constructor
  · rintro ⟨c, hc, ht⟩
    simp only [List.mem_cons, List.not_mem_nil, or_false] at hc
    rcases hc with rfl | rfl
    · exact ht
    · exact absurd ht (no_containers hr).2.2.2
  · intro h; exact ⟨b, by simp, h⟩

mutual
/-- Properties that take Links. -/
theorem link_fine {env : Env} (hs : Sane env) {mk : Ctor} (hmk : LinkClass env mk) {r : PropRow} (hr : r ∈ propTable) (hf : r.fromStr = true) :
    ∀ v : Val, (∃ u, createLink env mk v = .ok u ∧ Accepted env.mro r.allTypes r.functional [] u) ↔ Fine env mk (rowKinds r) r.functional true v
  | .str x => by
    rw [fine_leaf rfl (by simp), text_kinds env mk hr hf, createLink]
    rcases linkable env x with e | b
    · simp
    · cases b
      · simp [single_builtin hs hr (v := .str x) rfl rfl]
      · obtain ⟨l, hl⟩ := hmk.href x
        simp [hl, made_link hs hmk hr hl]
  | .dict kvs => by
    rw [fine_leaf rfl (by simp), dict_kinds env mk hr hf, createLink]
    rcases linkDict env kvs with e | b
    · simp
    · cases b
      · simp [single_builtin hs hr (v := .dict kvs) rfl rfl]
      · rcases hc : callWith mk kvs with e | l
        · simp
        · obtain ⟨ks, -, hl⟩ := callWith_ok hc
          simp [made_link hs hmk hr hl]
  | .list xs => link_of_list hr rfl (links_fine hs hmk hr hf xs)
  | .tuple xs => link_of_list hr rfl (links_fine hs hmk hr hf xs)
  | .set xs => link_of_list hr rfl (links_fine hs hmk hr hf xs)
  | .none => link_other hs hr hf rfl (by simp) (by simp) (by rw [createLink] <;> simp)
  | .bool _ => link_other hs hr hf rfl (by simp) (by simp) (by rw [createLink] <;> simp)
  | .int _ => link_other hs hr hf rfl (by simp) (by simp) (by rw [createLink] <;> simp)
  | .float _ _ => link_other hs hr hf rfl (by simp) (by simp) (by rw [createLink] <;> simp)
  | .iter _ _ => link_other hs hr hf rfl (by simp) (by simp) (by rw [createLink] <;> simp)
  | .obj _ _ => link_other hs hr hf rfl (by simp) (by simp) (by rw [createLink] <;> simp)
  | .other _ _ => link_other hs hr hf rfl (by simp) (by simp) (by rw [createLink] <;> simp)
/-- Their items. -/
theorem links_fine {env : Env} (hs : Sane env) {mk : Ctor} (hmk : LinkClass env mk) {r : PropRow} (hr : r ∈ propTable) (hf : r.fromStr = true) :
    ∀ xs : List Val, (∃ ys, createLinks env mk xs = .ok ys ∧ ∀ y ∈ ys, Accepted env.mro r.allTypes r.functional [] y) ↔
      ∀ x ∈ xs, Fine env mk (rowKinds r) r.functional true x
  | [] => by simp [createLinks]
  | x :: xs => by
    rw [List.forall_mem_cons, ← link_fine hs hmk hr hf x, ← links_fine hs hmk hr hf xs, createLinks]
    rcases createLink env mk x with e | y
    · simp
    · rcases createLinks env mk xs with e | ys
      · simp
      · simp
end

theorem fine_sub {env : Env} (hs : Sane env) {mk : Ctor} {ks ks' : List Taken} (h : ∀ k ∈ ks, ∃ k' ∈ ks', sub k k' = true) {functional links : Bool} {v : Val}
    (hv : Fine env mk ks functional links v) : Fine env mk ks' functional links v := by
  induction hv with
  | none => exact .none
  | one v k hk hv =>
    obtain ⟨k', hk', hsub⟩ := h k hk
    exact .one v k' hk' (sub_value hs hsub hv)
  | list xs hf _ ih => exact .list xs hf ih
  | tuple xs hf hl _ ih => exact .tuple xs hf hl ih
  | set xs hf hl _ ih => exact .set xs hf hl ih

theorem fine_functional {env : Env} {mk : Ctor} {ks : List Taken} {l l' : Bool} {v : Val} (hv : Fine env mk ks true l v) : Fine env mk ks true l' v := by
  cases hv with
  | none => exact .none
  | one v k hk hv => exact .one v k hk hv
  | list xs hf => cases hf
  | tuple xs hf => cases hf
  | set xs hf => cases hf

theorem set_ok_iff (r : PropRow) (env : Env) (mk : Ctor) (s : Slots) (v : Val) :
    (r.set env mk s v).1 = .ok () ↔ ∃ w, r.stores env mk v = .ok w := by
  unfold PropRow.set
  rcases r.stores env mk v with e | w <;> simp

theorem none_stores (env : Env) (mk : Ctor) (r : PropRow) : r.stores env mk .none = .ok .none := by
  have hc : r.convert env mk .none = .ok .none := by
    unfold PropRow.convert
    split_ifs
    · rw [createLink] <;> simp
    · rfl
  have hk : r.check env .none = .ok .none := by
    unfold PropRow.check
    obtain ⟨h1, h2⟩ := none_leaf env r
    obtain ⟨c, hc, ht⟩ := h1
    exact (evaluate_spec _ _ _ _ _ _).2 ⟨.leaf _ rfl ⟨c, hc, .inl ht⟩ h2, rfl⟩
  unfold PropRow.stores
  simp only [hc, hk]
  unfold PropRow.parsed
  split_ifs <;> rfl

/-- The setters take exactly the values of the kinds they stand for. -/
theorem set_fine {env : Env} (hs : Sane env) {mk : Ctor} (hmk : LinkClass env mk) {r : PropRow} (hr : r ∈ propTable) (s : Slots) (v : Val) :
    (r.set env mk s v).1 = .ok () ↔ Fine env mk (rowKinds r) r.functional r.fromStr v := by
  by_cases hp : r.parse = true
  · obtain ⟨ht, hf, hfun, had⟩ := shape_parse r hr hp
    have hrk : rowKinds r = [.std .moment, .std .momentText] := by simp [rowKinds, ht, typeKinds, hp]
    by_cases hstr : ∃ x, v = .str x
    · obtain ⟨x, rfl⟩ := hstr
      obtain ⟨h1, h2⟩ := date_setter_exact hr hp env mk s x
      rw [fine_leaf rfl (by simp), hrk]
      constructor
      · intro h
        by_contra hn
        rw [h2] at h
        · cases h
        · rintro ⟨t, k1, k2, k3⟩
          exact hn ⟨.std .momentText, by simp, x, rfl, t, k1, k2, k3⟩
      · rintro ⟨k, hk, hv⟩
        simp only [List.mem_cons, List.not_mem_nil, or_false] at hk
        rcases hk with rfl | rfl
        · simp [TakenValue, ValueOf, Val.classes] at hv
        · obtain ⟨y, hy, t, k1, k2, k3⟩ := hv
          cases hy
          rw [h1 t k1 k2 k3]
    · have hstr : ∀ x, v ≠ .str x := fun x h => hstr ⟨x, h⟩
      rw [set_ok_iff]
      by_cases hv : v = .none
      · subst hv
        exact ⟨fun _ => .none, fun _ => ⟨_, none_stores env mk r⟩⟩
      have hconv : r.convert env mk v = .ok v := by unfold PropRow.convert; rw [hf]; rfl
      constructor
      · rintro ⟨w, hw⟩
        unfold PropRow.stores at hw
        rw [hconv] at hw
        simp only at hw
        rcases hk : r.check env v with e | u
        · rw [hk] at hw; cases hw
        · obtain ⟨ha, -⟩ := (evaluate_spec _ _ _ _ _ _).1 hk
          have hta : TypeAllowed env.mro r.allTypes r.functional v := by
            cases ha with
            | leaf _ _ h _ => exact h
            | items _ _ _ h _ => exact h
          obtain ⟨c, hc, hor⟩ := hta
          rcases hor with hor | ⟨h, -⟩
          · rw [ht] at hor
            simp only [List.mem_cons, List.not_mem_nil, or_false] at hor
            rcases hor with rfl | rfl | rfl
            · have := classes_builtin hs (by simp) hc
              cases v <;> simp [Val.classes] at this
              exact absurd rfl hv
            · exact .one v (.std .moment) (by simp [hrk]) hc
            · have := classes_builtin hs (by simp) hc
              cases v <;> simp [Val.classes] at this
              exact absurd rfl (hstr _)
          · rw [hfun] at h; cases h
      · intro h
        have hm : "datetime" ∈ v.classes env.mro := by
          cases h with
          | none => exact absurd rfl hv
          | one _ k hk hv' =>
            rw [hrk] at hk
            simp only [List.mem_cons, List.not_mem_nil, or_false] at hk
            rcases hk with rfl | rfl
            · exact hv'
            · obtain ⟨y, rfl, -⟩ := hv'; exact absurd rfl (hstr y)
          | list xs hf' => rw [hfun] at hf'; cases hf'
          | tuple xs hf' => rw [hfun] at hf'; cases hf'
          | set xs hf' => rw [hfun] at hf'; cases hf'
        have hi : items? v = none := taken_leaf (k := .std .moment) (mk := mk) hm
        have hd : isDate env v = true := by
          unfold isDate Val.isinstance
          rw [List.any_eq_true]
          exact ⟨"datetime", hm, by simp⟩
        have hcheck : r.check env v = .ok v := by
          unfold PropRow.check
          refine (evaluate_spec _ _ _ _ _ _).2 ⟨.leaf _ hi ⟨"datetime", hm, .inl (by simp [ht])⟩ ?_, ?_⟩
          · intro f hf'
            rw [had] at hf'
            simp only [List.map_cons, List.map_nil, List.mem_singleton] at hf'
            subst hf'
            show checkDatetime v = .ok ()
            cases v <;> first | rfl | exact absurd rfl (hstr _)
          · cases v <;> first | rfl | cases hi
        refine ⟨v, ?_⟩
        unfold PropRow.stores
        simp only [hconv, hcheck]
        unfold PropRow.parsed
        rw [if_pos hp]
        cases v <;> first | exact absurd rfl hv | exact absurd rfl (hstr _) | (rw [parseVal, if_pos hd]; all_goals simp)
  · have hp : r.parse = false := by simpa using hp
    have hst : (∃ w, r.stores env mk v = .ok w) ↔
        ∃ u, r.convert env mk v = .ok u ∧ Accepted env.mro r.allTypes r.functional (r.additional.map (Check.run env)) u := by
      constructor
      · rintro ⟨w, h⟩
        unfold PropRow.stores at h
        rcases hc : r.convert env mk v with e | u
        · rw [hc] at h; cases h
        · rw [hc] at h
          simp only at h
          rcases hk : r.check env u with e | x
          · rw [hk] at h; cases h
          · exact ⟨u, rfl, ((evaluate_spec _ _ _ _ _ _).1 hk).1⟩
      · rintro ⟨u, hu, ha⟩
        have hk : r.check env u = .ok (asLists u) := (evaluate_spec _ _ _ _ _ _).2 ⟨ha, rfl⟩
        refine ⟨asLists u, ?_⟩
        unfold PropRow.stores
        simp only [hu, hk]
        unfold PropRow.parsed
        rw [if_neg (by simp [hp])]
    rw [set_ok_iff, hst]
    cases hf : r.fromStr with
    | true =>
      have had := (shape_link r hr hf).2.1
      have hc : r.convert env mk v = createLink env mk v := by unfold PropRow.convert; rw [if_pos hf]
      rw [hc, had]
      exact link_fine hs hmk hr hf v
    | false =>
      have hc : r.convert env mk v = .ok v := by unfold PropRow.convert; rw [hf]; rfl
      rw [hc, ← accepted_plain hs mk hr hp hf]
      constructor
      · rintro ⟨u, hu, ha⟩
        exact Except.ok.inj hu ▸ ha
      · intro h; exact ⟨v, rfl, h⟩

variable {J : Type}

/-- The property of a class of this name is the one of the table. -/
theorem term_row {c : String} (hc : c ∈ Spec.types.map (·.1)) {t : Term} (ht : t ∈ terms) (ha : t.appliesTo c) (hl : t.name ∉ lacking c)
    (hty : t.name = "type" → c = "Object" ∨ c = "Link") : attrOf true c t.name = .prop (rowOf t.name) := by
  have hpk : c ∈ pkgClasses := vocabulary_types.1.mem_iff.1 hc
  have hq : t.name ∈ propNames c := (vocabulary_domains hc t.name).2 (.inr ⟨hl, t, ht, rfl, ha⟩)
  have hne : ∀ t ∈ terms, t.name ≠ "acontext" ∧ t.name ≠ "__namespace__" := by decide +kernel
  rcases kept_rows c hpk t.name hq with h | h | ⟨h1, h2⟩ | h
  · exact absurd h (hne t ht).1
  · exact absurd h (hne t ht).2
  · rcases hty h1 with rfl | rfl <;> simp at h2
  · exact isRow_eq h

/-- **C97.** Assigning a value to a property of the vocabulary succeeds exactly if the value is None, a value of one of the kinds in the range of the
property (but for the kinds of `refused`) or of one of the additional kinds of `extra`, or, if the property is not functional, a list of such
values. -/
theorem vocabulary_ranges (w : World J) (hs : Sane w.env) (hmk : LinkClass w.env w.link) {c : String} (hc : c ∈ Spec.types.map (·.1)) {t : Term}
    (ht : t ∈ terms) (ha : t.appliesTo c) (hl : t.name ∉ lacking c) (hty : t.name = "type" → c = "Object" ∨ c = "Link") (s : Slots) (v : Val) :
    (setAttr w true c s t.name v).1 = .ok () ↔ Fine w.env w.link (taken t) t.functional (decide (.link ∈ t.range)) v := by
  unfold setAttr
  rw [term_row hc ht ha hl hty]
  show (PropRow.set w.env w.link (rowOf t.name) s v).1 = .ok () ↔ _
  obtain ⟨h1, h2, h3, h4, h5⟩ := rows_taken t ht
  rw [set_fine hs hmk h1, h2]
  have hlinks : ∀ ks, Fine w.env w.link ks t.functional (rowOf t.name).fromStr v ↔ Fine w.env w.link ks t.functional (decide (.link ∈ t.range)) v := by
    intro ks
    cases hf : t.functional with
    | true => exact ⟨fine_functional, fine_functional⟩
    | false =>
      have he : (rowOf t.name).fromStr = decide (.link ∈ t.range) := by
        rw [Bool.eq_iff_iff, h5 hf, decide_eq_true_eq]
      rw [he]
  rw [hlinks]
  exact ⟨fine_sub hs h4, fine_sub hs h3⟩

/-- C97: the property `type` of the classes below Object and Link is an ordinary attribute: everything can be assigned. -/
theorem type_unchecked (w : World J) {c : String} (hc : c ∈ pkgClasses) (hno : c ∉ ["Object", "Link"]) (s : Slots) (v : Val) :
    setAttr w true c s "type" v = (.ok (), s.dset "type" v) := by
  have hco : ∀ c ∈ pkgClasses, c ∉ ["Object", "Link"] → constOf true c "type" ≠ none := by decide +kernel
  have h := hco c hc hno
  unfold setAttr
  unfold constOf at h
  cases ha : attrOf true c "type" with
  | prop r => rw [ha] at h; exact absurd rfl h
  | const x => rfl
  | plain => rw [ha] at h; exact absurd rfl h

/-- What is stored for a value of a kind: for the address of something, in properties that take Links, a Link with this address; for a moment written as a
text the moment; otherwise the value. -/
def StoredAs (w : World J) (t : Term) (k : Range) (v x : Val) : Prop :=
  if k = .uri ∧ .link ∈ t.range then w.link [("href", v)] = .ok x
  else if k = .momentText then ∃ (y : String) (z : Stamp), v = .str y ∧ z.Ok ∧ y.toList = z.text ∧ x = .other "datetime" (w.env.dateRepr z.moment)
  else x = v

/-- How the rows treat the kinds that come as texts. -/
theorem rows_text : ∀ t ∈ terms, ∀ k ∈ t.kinds, k ∉ (refused.dget t.name).getD [] →
    (k = .uri → .link ∈ t.range → (rowOf t.name).fromStr = true) ∧
    (k = .uri → .link ∉ t.range → (rowOf t.name).fromStr = false ∧ (rowOf t.name).parse = false) ∧
    (k = .text ∨ k = .durationText → (rowOf t.name).fromStr = false ∧ (rowOf t.name).parse = false) ∧
    (k = .momentText → (rowOf t.name).parse = true) := by decide +kernel

theorem rows_named : ∀ t ∈ terms, (rowOf t.name).name = t.name := by decide +kernel

/-- Values of the kinds that are no texts are no texts, dictionaries or containers. -/
theorem value_atomic {env : Env} {v : Val} {k : Range} (h : ValueOf env v k) (h1 : k ≠ .uri) (h2 : k ≠ .text) (h3 : k ≠ .momentText)
    (h4 : k ≠ .durationText) : Atomic v := by
  refine ⟨taken_leaf (k := .std k) (mk := fun _ => .ok .none) h, ?_, ?_⟩ <;> rintro x rfl <;> cases k <;>
    simp_all [ValueOf, Val.classes]

/-- **C97.** A value of a kind of the range (but for `refused`) can be assigned, and is what the property then has: as it is, or, for an address where
Links can stand, as a Link with this address, or, for a moment written as a text, as the moment.  (`hreflang` loses it, see
`hreflang_lost`.) -/
theorem vocabulary_kept (w : World J) (hs : Sane w.env) (hmk : LinkClass w.env w.link) {c : String} (hc : c ∈ Spec.types.map (·.1)) {t : Term}
    (ht : t ∈ terms) (ha : t.appliesTo c) (hl : t.name ∉ lacking c) (hty : t.name = "type" → c = "Object" ∨ c = "Link") (hn : t.name ≠ "hreflang")
    {k : Range} (hk : k ∈ t.kinds) (hr : k ∉ (refused.dget t.name).getD []) (s : Slots) {v : Val} (hv : ValueOf w.env v k) :
    ∃ s' x, setAttr w true c s t.name v = (.ok (), s') ∧ (attrOf true c t.name).held s' t.name = .ok x ∧ StoredAs w t k v x := by
  have hok : (setAttr w true c s t.name v).1 = .ok () := by
    refine (vocabulary_ranges w hs hmk hc ht ha hl hty s v).2 (.one v (.std k) ?_ hv)
    refine List.mem_append_left _ (List.mem_map.2 ⟨k, ?_, rfl⟩)
    simpa [hk] using hr
  have hrow := term_row hc ht ha hl hty
  obtain ⟨hmem, -⟩ := rows_taken t ht
  have hname := rows_named t ht
  obtain ⟨f1, f2, f3, f4⟩ := rows_text t ht k hk hr
  unfold setAttr at hok ⊢
  rw [hrow] at hok ⊢
  change (PropRow.set w.env w.link (rowOf t.name) s v).1 = .ok () at hok
  show ∃ s' x, PropRow.set w.env w.link (rowOf t.name) s v = (.ok (), s') ∧ (rowOf t.name).stored s' = .ok x ∧ _
  generalize rowOf t.name = r at *
  have hn' : r.name ≠ "hreflang" := hname ▸ hn
  have hset : r.set w.env w.link s v = (.ok (), (r.set w.env w.link s v).2) := by rw [← hok]
  unfold StoredAs
  by_cases hu : k = .uri
  · subst hu
    obtain ⟨y, rfl, hy⟩ := hv
    by_cases hlk : .link ∈ t.range
    · have hf := f1 rfl hlk
      obtain ⟨hp, -⟩ := shape_link r hmem hf
      obtain ⟨l, hlink⟩ := hmk.href y
      obtain ⟨d, fs, hobj, -⟩ := hmk.makes _ _ hlink
      have hconv : r.convert w.env w.link (.str y) = .ok l := by
        unfold PropRow.convert
        rw [if_pos hf, createLink]
        unfold linkable
        rw [(isUrl_iff w.env y).2 hy]
        exact hlink
      obtain ⟨x, hx⟩ := (set_ok_iff r w.env w.link s (.str y)).1 hok
      have hxl : x = l := by
        unfold PropRow.stores at hx
        rw [hconv] at hx
        simp only at hx
        rcases hck : r.check w.env l with e | u
        · rw [hck] at hx; cases hx
        · rw [hck] at hx
          simp only at hx
          unfold PropRow.parsed at hx
          rw [if_neg (by simp [hp])] at hx
          obtain ⟨-, hu⟩ := (evaluate_spec _ _ _ _ _ _).1 hck
          rw [← Except.ok.inj hx, hu, hobj]
          exact onlyLists_asLists (.leaf _ rfl)
      subst hxl
      refine ⟨s.dset r.write x, x, by unfold PropRow.set; rw [hx], ?_, ?_⟩
      · unfold PropRow.stored
        rw [PyDict.dget_dset, if_pos (slots_agree r hmem hn')]
      · rw [if_pos ⟨rfl, hlk⟩]; exact hlink
    · obtain ⟨g1, g2⟩ := f2 rfl hlk
      refine ⟨_, _, hset, set_get_plain hmem hn' g1 g2 _ _ _ _ _ (.leaf _ rfl) hset, ?_⟩
      rw [if_neg (by simp [hlk]), if_neg (by simp)]
  · by_cases hm : k = .momentText
    · subst hm
      obtain ⟨y, rfl, z, z1, z2, z3⟩ := hv
      have hp := f4 rfl
      have h := (date_setter_exact hmem hp w.env w.link s y).1 z z1 z2 z3
      refine ⟨_, .other "datetime" (w.env.dateRepr z.moment), h, ?_, ?_⟩
      · unfold PropRow.stored
        rw [PyDict.dget_dset, if_pos (slots_agree r hmem hn')]
      · rw [if_neg (by simp), if_pos rfl]
        exact ⟨y, z, rfl, z1, z2, rfl⟩
    · simp only [hu, hm, false_and, if_false]
      by_cases htx : k = .text ∨ k = .durationText
      · obtain ⟨g1, g2⟩ := f3 htx
        have hstr : ∃ y, v = .str y := by
          rcases htx with rfl | rfl
          · exact hv
          · obtain ⟨y, n, rfl, -⟩ := hv; exact ⟨y, rfl⟩
        obtain ⟨y, rfl⟩ := hstr
        exact ⟨_, _, hset, set_get_plain hmem hn' g1 g2 _ _ _ _ _ (.leaf _ rfl) hset, rfl⟩
      · rw [not_or] at htx
        exact ⟨_, _, hset, set_get_atomic hmem hn' _ _ _ _ _ (value_atomic hv hu htx.1 hm htx.2) hset, rfl⟩

/-! ### What is refused -/

/-- C97: a functional property takes no list, tuple or set. -/
theorem functional_single (w : World J) (hs : Sane w.env) (hmk : LinkClass w.env w.link) {c : String} (hc : c ∈ Spec.types.map (·.1)) {t : Term}
    (ht : t ∈ terms) (ha : t.appliesTo c) (hl : t.name ∉ lacking c) (hty : t.name = "type" → c = "Object" ∨ c = "Link") (hfu : t.functional = true)
    (s : Slots) (xs : List Val) : (setAttr w true c s t.name (.list xs)).1 ≠ .ok () ∧ (setAttr w true c s t.name (.tuple xs)).1 ≠ .ok () ∧
      (setAttr w true c s t.name (.set xs)).1 ≠ .ok () := by
  simp only [ne_eq, vocabulary_ranges w hs hmk hc ht ha hl hty]
  refine ⟨?_, ?_, ?_⟩ <;> intro h <;> cases h <;>
    first | (rename_i h _; rw [hfu] at h; cases h) | (rename_i h _ _; rw [hfu] at h; cases h) | (rename_i _ h; cases taken_leaf h)

/-- C97 fails for these properties: their range has all objects, but they take none (unless it is a Link, or a text or moment). -/
theorem object_refused_counterexample (w : World J) (hs : Sane w.env) (hmk : LinkClass w.env w.link) {c : String} (hc : c ∈ Spec.types.map (·.1)) {t : Term}
    (ht : t ∈ terms) (ha : t.appliesTo c) (hl : t.name ∉ lacking c)
    (hn : t.name ∈ ["preview", "result", "tag", "target", "to", "subject", "relationship", "describes", "formerType"]) (s : Slots) (d : String)
    (fs : List (String × Val)) (hd : "Link" ∉ w.env.mro d) :
    .object ∈ t.range ∧ (setAttr w true c s t.name (.obj d fs)).1 ≠ .ok () := by
  have hk : ∀ t ∈ terms, t.name ∈ ["preview", "result", "tag", "target", "to", "subject", "relationship", "describes", "formerType"] →
    .object ∈ t.range ∧ t.name ≠ "type" ∧ ∀ k ∈ taken t, k ∈ [.std .link, .std .uri, .std .text, .account, .linkMap, .plainMap] := by decide +kernel
  obtain ⟨h1, h2, h3⟩ := hk t ht hn
  refine ⟨h1, ?_⟩
  rw [ne_eq, vocabulary_ranges w hs hmk hc ht ha hl (fun h => absurd h h2), fine_leaf rfl (by simp)]
  rintro ⟨k, hkm, hv⟩
  have := h3 k hkm
  simp only [List.mem_cons, List.not_mem_nil, or_false] at this
  rcases this with rfl | rfl | rfl | rfl | rfl | rfl
  · exact hd hv
  · obtain ⟨y, hy, -⟩ := hv; cases hy
  · obtain ⟨y, hy⟩ := hv; cases hy
  · obtain ⟨y, hy, -⟩ := hv; cases hy
  · obtain ⟨y, hy, -⟩ := hv; cases hy
  · obtain ⟨y, hy, -⟩ := hv; cases hy

/-- C97 fails for these properties: no text can be assigned, so no address and no moment written as a text. -/
theorem text_refused_counterexample (w : World J) (hs : Sane w.env) (hmk : LinkClass w.env w.link) {c : String} (hc : c ∈ Spec.types.map (·.1)) {t : Term}
    (ht : t ∈ terms) (ha : t.appliesTo c) (hl : t.name ∉ lacking c) (hn : t.name ∈ ["describes", "formerType", "replies", "deleted"]) (s : Slots) (x : String) :
    (.uri ∈ t.kinds ∨ .momentText ∈ t.kinds) ∧ (setAttr w true c s t.name (.str x)).1 ≠ .ok () := by
  have hk : ∀ t ∈ terms, t.name ∈ ["describes", "formerType", "replies", "deleted"] →
    (.uri ∈ t.kinds ∨ .momentText ∈ t.kinds) ∧ t.name ≠ "type" ∧ ∀ k ∈ taken t, k ∈ [.std .collection, .std .moment] := by decide +kernel
  obtain ⟨h1, h2, h3⟩ := hk t ht hn
  refine ⟨h1, ?_⟩
  rw [ne_eq, vocabulary_ranges w hs hmk hc ht ha hl (fun h => absurd h h2), fine_leaf rfl (by simp)]
  rintro ⟨k, hkm, hv⟩
  have := h3 k hkm
  simp only [List.mem_cons, List.not_mem_nil, or_false] at this
  rcases this with rfl | rfl <;> simp [TakenValue, ValueOf, Val.classes] at hv

/-! ### The hypotheses are met -/

/-- The classes of the package. -/
def pkgMro (c : String) : List String :=
  if c ∈ pkgClasses then mroOf c else if c ∈ ["datetime", "timedelta"] then [c, "object"] else ["object"]

/-- An environment with the classes of the package. -/
def pkgEnv : Env := { noteEnv with mro := pkgMro }

theorem pkg_sane (env : Env) (h : env.mro = pkgMro) : Sane env := by
  have k1 : ∀ c ∈ pkgClasses, ∀ b ∈ ["NoneType", "bool", "int", "float", "str", "list", "tuple", "set", "dict", "properties.Object"], b ∉ mroOf c := by
    decide +kernel
  have k2 : ∀ c ∈ pkgClasses, "Image" ∈ mroOf c → "Object" ∈ mroOf c := by decide +kernel
  refine ⟨fun c b hb => ?_, fun c => ?_⟩
  · rw [h]
    unfold pkgMro
    split_ifs with h1 h2
    · exact k1 c h1 b hb
    · simp only [List.mem_cons, List.not_mem_nil, or_false] at h2 hb
      rcases h2 with rfl | rfl <;> rcases hb with rfl | rfl | rfl | rfl | rfl | rfl | rfl | rfl | rfl | rfl <;> simp
    · simp only [List.mem_cons, List.not_mem_nil, or_false] at hb
      rcases hb with rfl | rfl | rfl | rfl | rfl | rfl | rfl | rfl | rfl | rfl <;> simp
  · rw [h]
    unfold pkgMro
    split_ifs with h1 h2
    · exact k2 c h1
    · simp only [List.mem_cons, List.not_mem_nil, or_false] at h2
      rcases h2 with rfl | rfl <;> simp
    · simp

/-- The Link class of the package is such a class. -/
theorem pkg_link_class (env : Env) (h : env.mro = pkgMro) (web : Web J) (n : Nat) : LinkClass env (linkCtor env web (n + 1)) := by
  have hl : "Link" ∈ pkgMro "Link" ∧ ∀ d ∈ ["Object", "Collection", "CollectionPage", "datetime", "timedelta"], d ∉ pkgMro "Link" := by decide +kernel
  refine ⟨fun ks l hm => ?_, fun s => ?_⟩
  · unfold linkCtor at hm
    rcases hc : construct ⟨env, linkCtor env web n, web⟩ true "Link" ks with e | s
    · rw [hc] at hm; cases hm
    · rw [hc] at hm
      refine ⟨"Link", _, (Except.ok.inj hm).symm, ?_⟩
      rw [h]; exact hl
  · obtain ⟨l, hl', -⟩ := linkCtor_makes_links env web n (by rw [h]; exact hl.1) s
    exact ⟨l, hl'⟩

/-- A world with the classes of the package. -/
def pkgWorld : World Nat := ⟨pkgEnv, linkCtor pkgEnv onePage 1, onePage⟩

example : Sane pkgWorld.env ∧ LinkClass pkgWorld.env pkgWorld.link := ⟨pkg_sane _ rfl, pkg_link_class _ rfl _ _⟩

/-- Terms by name. -/
def termOf (n : String) : Term := (terms.find? fun t => t.name == n).getD ⟨"", [], [], false⟩

example : "Create" ∈ Spec.types.map (·.1) ∧ termOf "target" ∈ terms ∧ (termOf "target").appliesTo "Create" ∧ (termOf "target").name ∉ lacking "Create" ∧
    (termOf "target").name ∈ ["preview", "result", "tag", "target", "to", "subject", "relationship", "describes", "formerType"] := by decide +kernel
example : "Link" ∉ pkgWorld.env.mro "Note" ∧ "Object" ∈ pkgWorld.env.mro "Note" := by decide +kernel
example : termOf "deleted" ∈ terms ∧ (termOf "deleted").appliesTo "Tombstone" ∧ (termOf "deleted").functional = true ∧ (termOf "deleted").name ∉ lacking "Tombstone" := by
  decide +kernel
example : termOf "actor" ∈ terms ∧ (termOf "actor").appliesTo "Create" ∧ Range.uri ∈ (termOf "actor").kinds ∧ Range.uri ∉ (refused.dget "actor").getD [] := by
  decide +kernel
example : IsUrl pkgEnv "https://example.com/u" := (isUrl_iff _ _).1 (by decide +kernel)
example : (setAttr pkgWorld true "Create" [] "actor" (.str "https://example.com/u")).1 = .ok () := by rfl
example : (setAttr pkgWorld true "Create" [] "actor" (.list [.str "https://example.com/u", .obj "Note" []])).1 = .ok () := by rfl
example : (setAttr pkgWorld true "Create" [] "actor" (.int 3)).1 = .error .valueError := by rfl

end Verif.Props
