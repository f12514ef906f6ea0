import Verif.Py

/-!
# Specification: the vocabulary of ActivityStreams 2.0

Written from the W3C recommendation "Activity Vocabulary" (https://www.w3.org/TR/activitystreams-vocabulary/), not from the code: the types
with the types they extend, and the properties with domain, range and whether they are functional.
-/
namespace Verif.Spec

/-- Kinds of values in the ranges of properties: objects (of any type, or an Image, a Collection, a CollectionPage), Links, addresses,
texts, moments (as such, or written as a text), durations (as such, or written as a text), booleans, numbers, numbers that are not
negative, and counts (`xsd:nonNegativeInteger`). -/
inductive Range where
  | object | image | collection | page | link | uri | text | moment | momentText | duration | durationText | boolean | number | nonneg | count
  deriving DecidableEq

/-- A property of the vocabulary. -/
structure Term where
  name : String
  domain : List String
  range : List Range
  functional : Bool
  deriving DecidableEq

/-- The types, with those they extend. -/
def types : List (String × List String) := [
  ("Object", []), ("Link", []), ("Activity", ["Object"]), ("IntransitiveActivity", ["Activity"]), ("Collection", ["Object"]),
  ("OrderedCollection", ["Collection"]), ("CollectionPage", ["Collection"]),
  ("OrderedCollectionPage", ["OrderedCollection", "CollectionPage"]),
  ("Accept", ["Activity"]), ("TentativeAccept", ["Accept"]), ("Add", ["Activity"]), ("Arrive", ["IntransitiveActivity"]),
  ("Create", ["Activity"]), ("Delete", ["Activity"]), ("Follow", ["Activity"]), ("Ignore", ["Activity"]), ("Join", ["Activity"]),
  ("Leave", ["Activity"]), ("Like", ["Activity"]), ("Offer", ["Activity"]), ("Invite", ["Offer"]), ("Reject", ["Activity"]),
  ("TentativeReject", ["Reject"]), ("Remove", ["Activity"]), ("Undo", ["Activity"]), ("Update", ["Activity"]), ("View", ["Activity"]),
  ("Listen", ["Activity"]), ("Read", ["Activity"]), ("Move", ["Activity"]), ("Travel", ["IntransitiveActivity"]),
  ("Announce", ["Activity"]), ("Block", ["Ignore"]), ("Flag", ["Activity"]), ("Dislike", ["Activity"]),
  ("Question", ["IntransitiveActivity"]),
  ("Application", ["Object"]), ("Group", ["Object"]), ("Organization", ["Object"]), ("Person", ["Object"]), ("Service", ["Object"]),
  ("Relationship", ["Object"]), ("Article", ["Object"]), ("Document", ["Object"]), ("Audio", ["Document"]), ("Image", ["Document"]),
  ("Video", ["Document"]), ("Note", ["Object"]), ("Page", ["Document"]), ("Event", ["Object"]), ("Place", ["Object"]),
  ("Mention", ["Link"]), ("Profile", ["Object"]), ("Tombstone", ["Object"])]

/-- The properties. -/
def terms : List Term := [
  ⟨"id", ["Object", "Link"], [.uri], true⟩,
  ⟨"type", ["Object", "Link"], [.text], false⟩,
  ⟨"actor", ["Activity"], [.object, .link], false⟩,
  ⟨"attachment", ["Object"], [.object, .link], false⟩,
  ⟨"attributedTo", ["Link", "Object"], [.object, .link], false⟩,
  ⟨"audience", ["Object"], [.object, .link], false⟩,
  ⟨"bcc", ["Object"], [.object, .link], false⟩,
  ⟨"bto", ["Object"], [.object, .link], false⟩,
  ⟨"cc", ["Object"], [.object, .link], false⟩,
  ⟨"context", ["Object"], [.object, .link], false⟩,
  ⟨"current", ["Collection"], [.page, .link], true⟩,
  ⟨"first", ["Collection"], [.page, .link], true⟩,
  ⟨"generator", ["Object"], [.object, .link], false⟩,
  ⟨"icon", ["Object"], [.image, .link], false⟩,
  ⟨"image", ["Object"], [.image, .link], false⟩,
  ⟨"inReplyTo", ["Object"], [.object, .link], false⟩,
  ⟨"instrument", ["Activity"], [.object, .link], false⟩,
  ⟨"last", ["Collection"], [.page, .link], true⟩,
  ⟨"location", ["Object"], [.object, .link], false⟩,
  ⟨"items", ["Collection"], [.object, .link], false⟩,
  ⟨"oneOf", ["Question"], [.object, .link], false⟩,
  ⟨"anyOf", ["Question"], [.object, .link], false⟩,
  ⟨"closed", ["Question"], [.object, .link, .moment, .momentText, .boolean], false⟩,
  ⟨"origin", ["Activity"], [.object, .link], false⟩,
  ⟨"next", ["CollectionPage"], [.page, .link], true⟩,
  ⟨"object", ["Activity", "Relationship"], [.object, .link], false⟩,
  ⟨"prev", ["CollectionPage"], [.page, .link], true⟩,
  ⟨"preview", ["Link", "Object"], [.object, .link], false⟩,
  ⟨"result", ["Activity"], [.object, .link], false⟩,
  ⟨"replies", ["Object"], [.collection], true⟩,
  ⟨"tag", ["Object"], [.object, .link], false⟩,
  ⟨"target", ["Activity"], [.object, .link], false⟩,
  ⟨"to", ["Object"], [.object, .link], false⟩,
  ⟨"url", ["Object"], [.uri, .link], false⟩,
  ⟨"accuracy", ["Place"], [.number], true⟩,
  ⟨"altitude", ["Place"], [.number], true⟩,
  ⟨"content", ["Object"], [.text], false⟩,
  ⟨"name", ["Object", "Link"], [.text], false⟩,
  ⟨"duration", ["Object"], [.duration, .durationText], true⟩,
  ⟨"height", ["Link"], [.count], true⟩,
  ⟨"href", ["Link"], [.uri], true⟩,
  ⟨"hreflang", ["Link"], [.text], true⟩,
  ⟨"partOf", ["CollectionPage"], [.link, .collection], true⟩,
  ⟨"latitude", ["Place"], [.number], true⟩,
  ⟨"longitude", ["Place"], [.number], true⟩,
  ⟨"mediaType", ["Link", "Object"], [.text], true⟩,
  ⟨"endTime", ["Object"], [.moment, .momentText], true⟩,
  ⟨"published", ["Object"], [.moment, .momentText], true⟩,
  ⟨"startTime", ["Object"], [.moment, .momentText], true⟩,
  ⟨"radius", ["Place"], [.nonneg], true⟩,
  ⟨"rel", ["Link"], [.text], false⟩,
  ⟨"startIndex", ["OrderedCollectionPage"], [.count], true⟩,
  ⟨"summary", ["Object"], [.text], false⟩,
  ⟨"totalItems", ["Collection"], [.count], true⟩,
  ⟨"units", ["Place"], [.text], true⟩,
  ⟨"updated", ["Object"], [.moment, .momentText], true⟩,
  ⟨"width", ["Link"], [.count], true⟩,
  ⟨"subject", ["Relationship"], [.link, .object], true⟩,
  ⟨"relationship", ["Relationship"], [.object], false⟩,
  ⟨"describes", ["Profile"], [.object], true⟩,
  ⟨"formerType", ["Tombstone"], [.object], false⟩,
  ⟨"deleted", ["Tombstone"], [.moment, .momentText], true⟩]

/-- Where an object or a Link can stand, so can the address of one. -/
def Term.kinds (t : Term) : List Range :=
  t.range ++ if t.range.any (fun k => k ∈ [Range.object, .image, .collection, .page, .link]) && .uri ∉ t.range then [.uri] else []

/-- The types a type extends, directly or not, and itself; the number bounds the depth. -/
def supertypes : Nat → String → List String
  | 0, _ => []
  | n + 1, c => c :: match types.find? (fun e => e.1 == c) with
    | some e => e.2.flatMap (supertypes n)
    | none => []

/-- The property may be used with objects of this type. -/
def Term.appliesTo (t : Term) (c : String) : Prop := ∃ d ∈ t.domain, d ∈ supertypes 8 c

instance (t : Term) (c : String) : Decidable (t.appliesTo c) := by unfold Term.appliesTo; infer_instance

end Verif.Spec
