import Verif.Py
import Verif.Jsonld.DateTime

/-!
# Model of the text conversion in jsonld/engine/utils.py

`stringify` picks its conversion by the exact class of the value (`STRINGIFY_MAP.get(obj.__class__, str)`), so an
instance of a subclass of `str`, `int`, `list`, … is an instance of "another class" here.

Simplifications: values are finite trees (a list that contains itself makes the code recurse without end); floats are
given by their text; the members of a set come in the order in which Python iterates over it.
-/
namespace Verif.Jsonld

/-- A Python value as `stringify` tells them apart (jsonld/engine/utils.py:98-109, 123-124).  `other` is an instance of
any class that has no entry in the table; it carries what `str(obj)` gives. -/
inductive SVal where
  | none
  | bool (b : Bool)
  | int (i : Int)
  | float (text : String)
  | str (s : String)
  | date (t : DateTime)
  | delta (t : TimeDelta)
  | list (xs : List SVal)
  | tuple (xs : List SVal)
  | set (xs : List SVal)
  | dict (kvs : List (SVal × SVal))
  | other (text : Outcome String)

/-- The kinds of value a converted dict can have as keys (values that can be hashed and that `stringify` gives:
jsonld/engine/utils.py:117-120). -/
inductive SKey where
  | int (i : Int)
  | float (text : String)
  | str (s : String)
  deriving DecidableEq

/-- The key as a value. (jsonld/engine/utils.py:117-120) -/
def SKey.val : SKey → SVal
  | .int i => .int i
  | .float t => .float t
  | .str s => .str s

/-- Hashing a converted key to store it in the new dict: lists and dicts cannot be hashed
(jsonld/engine/utils.py:120, Python's `TypeError: unhashable type`). -/
def asKey : SVal → Outcome SKey
  | .int i => .ok (.int i)
  | .float t => .ok (.float t)
  | .str s => .ok (.str s)
  | _ => .error .typeError

/-- The dict under construction in jsonld/engine/utils.py:120: assignment of one key (a present key keeps its place). -/
def putKey (k : SKey) (v : SVal) : List (SKey × SVal) → List (SKey × SVal)
  | [] => [(k, v)]
  | (k', v') :: r => if k' = k then (k, v) :: r else (k', v') :: putKey k v r

/-- The finished dict as a value. (jsonld/engine/utils.py:120) -/
def dictVal (d : List (SKey × SVal)) : SVal := .dict (d.map fun p => (p.1.val, p.2))

mutual
/-- jsonld/engine/utils.py:108-109 `stringify`, with the table of 99-105 and 123-124; dates: 89-95
`stringify_datetime` (the same as `datetime_str`) -/
def stringify : SVal → Outcome SVal
  | .none => .ok (.str "None")
  | .bool b => .ok (.str (if b then "True" else "False"))
  | .int i => .ok (.int i)
  | .float t => .ok (.float t)
  | .str s => .ok (.str s)
  | .date t => .ok (.str (String.ofList (datetimeStr t)))
  | .delta t => .ok (.str (String.ofList (timedeltaStr t)))
  | .list xs => match stringifyAll xs with
    | .ok ys => .ok (.list ys)
    | .error e => .error e
  | .tuple xs => match stringifyAll xs with
    | .ok ys => .ok (.list ys)
    | .error e => .error e
  | .set xs => match stringifyAll xs with
    | .ok ys => .ok (.list ys)
    | .error e => .error e
  | .dict kvs => match stringifyDict kvs [] with
    | .ok d => .ok (dictVal d)
    | .error e => .error e
  | .other t => match t with
    | .ok s => .ok (.str s)
    | .error e => .error e
/-- jsonld/engine/utils.py:112-114 `stringify_iterable` -/
def stringifyAll : List SVal → Outcome (List SVal)
  | [] => .ok []
  | x :: xs => match stringify x with
    | .error e => .error e
    | .ok y => match stringifyAll xs with
      | .error e => .error e
      | .ok ys => .ok (y :: ys)
/-- jsonld/engine/utils.py:117-120 `stringify_dict`: key first, then value, then the entry is stored -/
def stringifyDict : List (SVal × SVal) → List (SKey × SVal) → Outcome (List (SKey × SVal))
  | [], d => .ok d
  | (k, v) :: r, d => match stringify k with
    | .error e => .error e
    | .ok k' => match stringify v with
      | .error e => .error e
      | .ok v' => match asKey k' with
        | .error e => .error e
        | .ok c => stringifyDict r (putKey c v' d)
end

/-- `hasattr(obj, name)`: any value, or an error other than AttributeError (which then comes out of `hasattr`).
(jsonld/engine/utils.py:135, 156) -/
def hasAttr (get : String → Outcome SVal) (name : String) : Outcome Bool :=
  match get name with
  | .ok _ => .ok true
  | .error .attributeError => .ok false
  | .error e => .error e

/-- The properties written from the attribute of their own name by `PROPERTY_TRANSFORM_MAP`
(jsonld/engine/utils.py:127-180), without `acontext`, `attributedTo`, `items` and `result`. -/
def transformPlain : List String :=
  ["accuracy", "actor", "altitude", "anyOf", "attachment", "audience", "bcc", "bto", "cc", "closed", "content",
   "context", "current", "duration", "endTime", "first", "generator", "height", "href", "hrefLang", "icon", "id",
   "image", "inReplyTo", "instrument", "last", "location", "mediaType", "name", "next", "object", "oneOf",
   "orderedItems", "origin", "partOf", "prev", "preview", "published", "replies", "startTime", "summary", "tag",
   "target", "to", "type", "updated", "url"]

/-- `stringify` of an attribute that is read first. (jsonld/engine/utils.py:127-180) -/
def stringifyAttr (get : String → Outcome SVal) (name : String) : Outcome SVal :=
  match get name with
  | .ok v => stringify v
  | .error e => .error e

/-- `None if hasattr(obj, other) else stringify(obj.name)` (jsonld/engine/utils.py:135, 156) -/
def stringifyUnless (get : String → Outcome SVal) (other name : String) : Outcome SVal :=
  match hasAttr get other with
  | .error e => .error e
  | .ok true => .ok .none
  | .ok false => stringifyAttr get name

/-- jsonld/engine/utils.py:127-180 `PROPERTY_TRANSFORM_MAP[name](obj)`; `get` reads an attribute of the object and
`self` is the object itself (an instance of a class without an entry).  The entry `result` converts the object. -/
def transform (self : SVal) (get : String → Outcome SVal) (name : String) : Outcome SVal :=
  if name = "acontext" then get "acontext"
  else if name = "attributedTo" then stringifyUnless get "actor" "attributedTo"
  else if name = "items" then stringifyUnless get "orderedItems" "items"
  else if name = "result" then stringify self
  else if name ∈ transformPlain then stringifyAttr get name
  else .error .keyError

end Verif.Jsonld
