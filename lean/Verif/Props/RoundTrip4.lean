import Verif.Props.RoundTrip3

/-!
# Writing an object and loading it again (C88): examples
-/
namespace Verif.Props
open Verif Verif.Jsonld Verif.AS

/-- An `expand` that looks at the type name only. -/
def typeExpand : Tree → Outcome Expansion
  | .obj kvs => match kvs.dget "type" with
    | some (.str s) => .ok (.typed [asNs ++ "#" ++ s])
    | _ => .ok .untyped
  | _ => .ok .empty

theorem typeExpand_recognises (ctx : Tree) : Recognises typeExpand ctx := by
  intro c _ kvs _ h
  refine ⟨[], ?_⟩
  unfold typeExpand
  simp only
  rw [h]

/-- Half past noon on a leap day. -/
def leapNoon : DateTime := { year := 2024, month := 2, day := 29, hour := 12, minute := 30 }

/-- An environment with one datetime. -/
def backEnv : Env := { noteEnv with dateOf := fun r => if r = "d" then some leapNoon else none, dateRepr := fun _ => "d" }

/-- A world whose Links are those of the package. -/
def backWorld : World Nat := ⟨backEnv, linkCtor backEnv onePage 1, onePage⟩

/-- The Link made of an address in that world. -/
def bareLink (s : String) : Val := match backWorld.link [("href", .str s)] with | .ok v => v | .error _ => .none

/-- The context of the vocabulary. -/
def asCtx : Tree := .str asNs

/-- A Note with a name. -/
def innerNote (q : String) : Val :=
  if q = "acontext" then .str asNs else if q = "type" then .str "Note" else if q = "name" then .str "first" else .none

/-- A Note with a name, an author given by address, a time, two icons and the note it replies to. -/
def outerNote (q : String) : Val :=
  if q = "acontext" then .str asNs else if q = "type" then .str "Note" else if q = "name" then .str "second"
  else if q = "attributedTo" then bareLink "http://x.org/joe"
  else if q = "published" then .other "datetime" "d"
  else if q = "inReplyTo" then objectOf "Note" innerNote
  else if q = "icon" then .list [bareLink "http://x.org/1", objectOf "Note" innerNote]
  else .none

theorem bare_link_made : backWorld.link [("href", .str "http://x.org/joe")] = .ok (bareLink "http://x.org/joe") ∧
    backWorld.link [("href", .str "http://x.org/1")] = .ok (bareLink "http://x.org/1") := ⟨rfl, rfl⟩

theorem no_numbers : ∀ q ∈ propNames "Note", ¬ (q = "totalItems" ∨ q = "startIndex") := by decide +kernel

theorem name_fits (t : String) : Fits backEnv (rowOf "name") (.str t) := by
  refine .leaf _ rfl ⟨"str", by simp [Val.classes], .inl (by decide +kernel)⟩ ?_
  have : (rowOf "name").additional = [] := by decide +kernel
  rw [this]
  intro f hf; cases hf

theorem object_fits {q : String} (hq : "Object" ∈ (rowOf q).allTypes) (ha : (rowOf q).additional = []) (fs : List (String × Val)) :
    Fits backEnv (rowOf q) (.obj "Note" fs) := by
  refine .leaf _ rfl ⟨"Object", by simp [Val.classes, backEnv, noteEnv], .inl hq⟩ ?_
  rw [ha]
  intro f hf; cases hf

theorem link_fits {q : String} (hq : "Link" ∈ (rowOf q).allTypes) (ha : (rowOf q).additional = []) (fs : List (String × Val)) :
    Fits backEnv (rowOf q) (.obj "Link" fs) := by
  refine .leaf _ rfl ⟨"Link", by simp [Val.classes, backEnv, noteEnv], .inl hq⟩ ?_
  rw [ha]
  intro f hf; cases hf

theorem inner_back : ComesBack backWorld asCtx none (objectOf "Note" innerNote) := by
  refine .object "Note" innerNote (by decide +kernel) (by decide) (by decide) rfl (by rfl) (fun q hq => ?_) (fun q hq h => absurd h (no_numbers q hq)) ?_
  · have : lostOf "Note" = [] := by decide
    rw [this] at hq; cases hq
  · intro q hq
    obtain ⟨-, -, hq⟩ := hq
    simp only [List.mem_cons, List.not_mem_nil, or_false, not_or] at hq
    unfold innerNote
    rw [if_neg hq.1, if_neg hq.2.2.1]
    by_cases h : q = "name"
    · rw [if_pos h, h]
      exact .flat _ _ (by decide +kernel) (by decide +kernel) (.str _) (name_fits _)
    · rw [if_neg h]; exact .none _

theorem link_back {q s : String} (h1 : (rowOf q).fromStr = true) (hq : "Link" ∈ (rowOf q).allTypes) (ha : (rowOf q).additional = [])
    (hl : linkable backEnv s = .ok true) (fs : List (String × Val)) (hm : backWorld.link [("href", .str s)] = .ok (.obj "Link" fs))
    (hf : hrefOf (.obj "Link" fs) = .str s) : ComesBack backWorld asCtx (some (rowOf q)) (.obj "Link" fs) :=
  .link _ s "Link" fs h1 hl hm (by rfl) hf (link_fits hq ha fs)

theorem outer_back : ComesBack backWorld asCtx none (objectOf "Note" outerNote) := by
  refine .object "Note" outerNote (by decide +kernel) (by decide) (by decide) rfl (by rfl) (fun q hq => ?_) (fun q hq h => absurd h (no_numbers q hq)) ?_
  · have : lostOf "Note" = [] := by decide
    rw [this] at hq; cases hq
  · intro q hq
    obtain ⟨-, -, hq⟩ := hq
    simp only [List.mem_cons, List.not_mem_nil, or_false, not_or] at hq
    unfold outerNote
    rw [if_neg hq.1, if_neg hq.2.2.1]
    by_cases h1 : q = "name"
    · rw [if_pos h1, h1]
      exact .flat _ _ (by decide +kernel) (by decide +kernel) (.str _) (name_fits _)
    rw [if_neg h1]
    by_cases h2 : q = "attributedTo"
    · rw [if_pos h2, h2]
      exact link_back (s := "http://x.org/joe") (by decide +kernel) (by decide +kernel) (by decide +kernel) (by rfl) _ (by rfl) (by rfl)
    rw [if_neg h2]
    by_cases h3 : q = "published"
    · rw [if_pos h3, h3]
      exact .date _ leapNoon (by decide +kernel) (by decide +kernel) (by decide +kernel) (by decide +kernel) (by decide +kernel) rfl rfl
    rw [if_neg h3]
    by_cases h4 : q = "inReplyTo"
    · rw [if_pos h4, h4]
      exact .nested _ _ _ (by decide +kernel) (by decide +kernel) inner_back (object_fits (by decide +kernel) (by decide +kernel) _)
    rw [if_neg h4]
    by_cases h5 : q = "icon"
    · rw [if_pos h5, h5]
      refine .items _ _ (by decide +kernel) (by decide +kernel) ?_ ?_
      · intro y hy
        simp only [List.mem_cons, List.not_mem_nil, or_false] at hy
        rcases hy with rfl | rfl
        · exact ⟨(by intro h; cases h), rfl⟩
        · exact ⟨(by intro h; cases h), rfl⟩
      · intro y hy
        simp only [List.mem_cons, List.not_mem_nil, or_false] at hy
        rcases hy with rfl | rfl
        · exact link_back (s := "http://x.org/1") (by decide +kernel) (by decide +kernel) (by decide +kernel) (by rfl) _ (by rfl) (by rfl)
        · exact .nested _ _ _ (by decide +kernel) (by decide +kernel) inner_back (object_fits (by decide +kernel) (by decide +kernel) _)
    · rw [if_neg h5]; exact .none _

theorem outer_stores (q : String) (hq : Ordinary "Note" q) : (rowOf q).stores backEnv backWorld.link (outerNote q) = .ok (outerNote q) := by
  obtain ⟨-, -, hq⟩ := hq
  simp only [List.mem_cons, List.not_mem_nil, or_false, not_or] at hq
  by_cases h1 : q = "name"
  · subst h1; rfl
  by_cases h2 : q = "attributedTo"
  · subst h2; rfl
  by_cases h3 : q = "published"
  · subst h3; rfl
  by_cases h4 : q = "inReplyTo"
  · subst h4; rfl
  by_cases h5 : q = "icon"
  · subst h5; rfl
  have : outerNote q = .none := by
    unfold outerNote
    rw [if_neg hq.1, if_neg hq.2.2.1, if_neg h1, if_neg h2, if_neg h3, if_neg h4, if_neg h5]
  rw [this]
  exact stores_none_ok _ _ _

/-- C88 applies: the Note that the constructor makes of these arguments is written and comes back. -/
example : ∃ p e s d, createPackage = .ok p ∧ createEngine (fun _ => "<property object at 0x7f>") = .ok e ∧
    construct backWorld true "Note" (loadArgs "Note" asCtx outerNote) = .ok s ∧ objVal "Note" s = objectOf "Note" outerNote ∧
    output backWorld "Note" s = .ok d ∧
    (asEngine backWorld typeExpand (registryOf p e)).fromJson (toTreeFields d) = .ok (objectOf "Note" outerNote) := by
  obtain ⟨p, e, hp, he, h⟩ := round_trip_partial (J := Nat) (fun _ => "<property object at 0x7f>")
    (fun _ => by show "<property object at 0x7f>".toList.head? = _; decide +kernel)
  obtain ⟨s, hs, ho⟩ := construct_back backWorld (c := "Note") (by decide +kernel) (by decide) asCtx outerNote outerNote rfl (by rfl)
    (fun q hq => by have : lostOf "Note" = [] := by decide
                    rw [this] at hq; cases hq)
    (fun q hq h => absurd h (no_numbers q hq)) outer_stores
  obtain ⟨d, hd, hl⟩ := h backWorld typeExpand asCtx (.str _) (by decide +kernel) (typeExpand_recognises _) "Note" s (by rw [ho]; exact outer_back)
  exact ⟨p, e, s, d, hp, he, hs, ho, hd, by rw [hl, ho]⟩

/-- A Tombstone with the time of its deletion, as its constructor makes it. -/
def tombstone (q : String) : Val :=
  if q = "acontext" then .str asNs else if q = "type" then .str "Tombstone" else if q = "deleted" then .other "datetime" "d" else .none

/-- C88: Tombstones that cannot be loaded again are made by the constructor. -/
example : ∃ s, construct backWorld true "Tombstone" (loadArgs "Tombstone" asCtx tombstone) = .ok s ∧ IsObject asCtx "Tombstone" tombstone s ∧
    tombstone "deleted" = .other "datetime" "d" ∧ "datetime" ∈ backWorld.env.mro "datetime" := by
  obtain ⟨s, hs, ho⟩ := construct_back backWorld (c := "Tombstone") (by decide +kernel) (by decide) asCtx tombstone tombstone rfl (by rfl)
    (fun q hq => by
      have : lostOf "Tombstone" = ["formerType"] := by decide
      rw [this, List.mem_singleton] at hq; subst hq; exact ⟨rfl, rfl⟩)
    (fun q hq h => by
      have : ∀ q ∈ propNames "Tombstone", ¬ (q = "totalItems" ∨ q = "startIndex") := by decide +kernel
      exact absurd h (this q hq))
    (fun q hq => by
      obtain ⟨-, -, hq⟩ := hq
      simp only [List.mem_cons, List.not_mem_nil, or_false, not_or] at hq
      by_cases h1 : q = "deleted"
      · subst h1; rfl
      · have : tombstone q = .none := by
          unfold tombstone
          rw [if_neg hq.1, if_neg hq.2.2.1, if_neg h1]
        rw [this]; exact stores_none_ok _ _ _)
  exact ⟨s, hs, ⟨ho, rfl, by rfl⟩, rfl, by decide +kernel⟩

/-- A closed Question. -/
def closedQuestion (q : String) : Val :=
  if q = "acontext" then .str asNs else if q = "type" then .str "Question" else if q = "closed" then .bool true else .none

/-- C88: Questions that cannot be loaded again are made by the constructor. -/
example : ∃ s, construct backWorld true "Question" (loadArgs "Question" asCtx closedQuestion) = .ok s ∧ IsObject asCtx "Question" closedQuestion s ∧
    closedQuestion "closed" = .bool true ∧ backWorld.env.email "True" = .ok false := by
  obtain ⟨s, hs, ho⟩ := construct_back backWorld (c := "Question") (by decide +kernel) (by decide) asCtx closedQuestion closedQuestion rfl (by rfl)
    (fun q hq => by
      have : lostOf "Question" = [] := by decide
      rw [this] at hq; cases hq)
    (fun q hq h => by
      have : ∀ q ∈ propNames "Question", ¬ (q = "totalItems" ∨ q = "startIndex") := by decide +kernel
      exact absurd h (this q hq))
    (fun q hq => by
      obtain ⟨-, -, hq⟩ := hq
      simp only [List.mem_cons, List.not_mem_nil, or_false, not_or] at hq
      by_cases h1 : q = "closed"
      · subst h1; rfl
      · have : closedQuestion q = .none := by
          unfold closedQuestion
          rw [if_neg hq.1, if_neg hq.2.2.1, if_neg h1]
        rw [this]; exact stores_none_ok _ _ _)
  exact ⟨s, hs, ⟨ho, rfl, by rfl⟩, rfl, by decide +kernel⟩

/-- C88: Notes with a timedelta, and with a Mention, whose text comes back as something else. -/
example : (rowOf "duration").stores backEnv backWorld.link (.other "timedelta" "t") = .ok (.other "timedelta" "t") ∧
    (rowOf "attributedTo").stores { backEnv with mro := mroOf } backWorld.link (.obj "Mention" [("href", .str "http://x.org/joe"), ("name", .str "joe")]) =
      .ok (.obj "Mention" [("href", .str "http://x.org/joe"), ("name", .str "joe")]) ∧
    isLink { backEnv with mro := mroOf } (.obj "Mention" [("href", .str "http://x.org/joe"), ("name", .str "joe")]) = true := ⟨rfl, rfl, rfl⟩

end Verif.Props
