import Verif.Jsonld.Data

/-!
# Model of jsonld/base.py:305-316 (items and iteration of objects), 244-251 (attributes of property objects) and of the argument
`transforms` of jsonld/jsonld.py:66-123
-/
namespace Verif.Jsonld.Items
open Verif Verif.Jsonld

/-- What is given in `obj[...]`: a text, a collection that can be run through many times, an iterator that can be run through once only,
or something that is no iterable.  Keys that are no texts are `none`. (argument of jsonld/base.py:309) -/
inductive Keys where
  | text (s : String)
  | many (ks : List (Option String))
  | once (ks : List (Option String))
  | other

/-- `key not in self.__properties__` (jsonld/base.py:311-312) -/
def isBad (props : List String) : Option String → Bool
  | none => true
  | some k => !props.contains k

/-- jsonld/base.py:313-315: the message joins the bad keys, which fails if one of them is no text. -/
def complain (bad : List (Option String)) : PyErr := if bad.any (·.isNone) then .typeError else .keyError

/-- jsonld/base.py:316 `{key: getattr(self, key) for key in keys}` (no key is bad) -/
def readAll (get : String → Outcome Val) : List (Option String) → Outcome (List (String × Val))
  | [] => .ok []
  | none :: ks => readAll get ks
  | some k :: ks => match get k with
    | .error e => .error e
    | .ok v => match readAll get ks with
      | .error e => .error e
      | .ok r => .ok ((k, v) :: r)

/-- jsonld/base.py:316: the dictionary -/
def asDict : Outcome (List (String × Val)) → Outcome (PyDict String Val)
  | .error e => .error e
  | .ok l => .ok (dictOf l)

/-- What an iterator has left after `any(test(key) for key in it)`. (jsonld/base.py:311) -/
def leftAfterAny (test : Option String → Bool) : List (Option String) → List (Option String)
  | [] => []
  | k :: ks => if test k then ks else leftAfterAny test ks

/-- jsonld/base.py:309-316 `__getitem__`; `props` is `__properties__`, `get` is what the getters return. -/
def getitem (props : List String) (get : String → Outcome Val) : Keys → Outcome (PyDict String Val)
  | .text s => if isBad props (some s) then .error (complain [some s]) else asDict (readAll get [some s])
  | .many ks => if ks.any (isBad props) then .error (complain (ks.filter (isBad props))) else asDict (readAll get ks)
  | .once ks =>
    if ks.any (isBad props) then .error (complain ((leftAfterAny (isBad props) ks).filter (isBad props)))
    else asDict (readAll get (leftAfterAny (isBad props) ks))
  | .other => .error .typeError

/-- jsonld/base.py:305-307 `__iter__`, run to the end -/
def iterate (props : List String) (get : String → Outcome Val) : Outcome (List (String × Val)) := readAll get (props.map some)

/-! ### Transforms -/

/-- jsonld/jsonld.py:66-101 `data` with its argument `transforms`: lines 82-83 merge it with the class attribute `default_transforms`, and
the result is not used. -/
def dataTransformed (defaults : PyDict String (Val → Val)) (transforms : Option (PyDict String (Val → Val))) (a : DataArgs)
    (fs : List (String × Val)) : PyDict String Val :=
  let _merged := defaults.dmerge (transforms.getD [])
  data a fs

/-! ### Attributes of property objects -/

/-- `getattr(obj, name)` for an instance of a JsonProperty class: `found` is what normal lookup (class and instance) finds;
jsonld/base.py:244-251 `__getattr__` is called if there is nothing.  The name `__registration__`, which `__init__` sets, is not covered. -/
def propGetattr (found : String → Option Val) (name : String) : Outcome Val :=
  match found name with
  | some v => .ok v
  | none => .error .valueError

/-- Python's `hasattr`: only AttributeError means no. (Python language rule for objects of jsonld/base.py:228-251) -/
def hasattr (r : Outcome Val) : Outcome Bool :=
  match r with
  | .ok _ => .ok true
  | .error .attributeError => .ok false
  | .error e => .error e

/-- Python's `getattr` with a default. (Python language rule for objects of jsonld/base.py:228-251) -/
def getDefault (d : Val) (r : Outcome Val) : Outcome Val :=
  match r with
  | .error .attributeError => .ok d
  | r => r

end Verif.Jsonld.Items
