import Verif.AS.Model
import Verif.Jsonld.Data
import Verif.Jsonld.Intake

/-!
# Model of `data()` of the ActivityStreams objects, and of its result as a JSON document
-/
namespace Verif.AS
open Verif Verif.Jsonld

/-- The JSON form of a stored value: what the getter of JSON_DATA_CONTEXT does with it (activitystreams/properties.py, the getters with
`JSON_DATA_CONTEXT`).  Properties without such a getter do not expand links (Props/RoundTrip.lean, `json_form`). -/
def PropRow.form (env : Env) (r : PropRow) (v : Val) : Val :=
  match r.json with
  | .default => v
  | .href => hrefOnly env v
  | .date => dateForm env v
  | .delta => deltaForm env v
  | .hrefDate => hrefOnly env (dateForm env v)

/-- The JSON form of what an attribute of a class holds. (activitystreams/properties.py; jsonld/base.py:86-100) -/
def fieldForm (env : Env) (c q : String) (v : Val) : Val :=
  match attrOf true c q with
  | .prop r => r.form env v
  | _ => v

mutual
/-- A value with what its (packaged) objects show in JSON_DATA_CONTEXT in place of what they hold, at any depth: `data` is called for every
object found (jsonld/jsonld.py:45-63), and switches the context of that object (jsonld/jsonld.py:82).  (The code takes the form of the
property and then goes into the result; here it is the other way round, which is the same, Props/RoundTrip.lean, `view_form`.) -/
def jsonView (env : Env) : Val → Val
  | .obj c fs => .obj c (jsonViewFields env c fs)
  | .list xs => .list (jsonViews env xs)
  | .tuple xs => .tuple (jsonViews env xs)
  | .set xs => .set (jsonViews env xs)
  | .iter c xs => .iter c (jsonViews env xs)
  | .dict kvs => .dict (jsonViewPairs env kvs)
  | v => v
/-- The same for the items of a list. (jsonld/jsonld.py:49-51) -/
def jsonViews (env : Env) : List Val → List Val
  | [] => []
  | x :: xs => jsonView env x :: jsonViews env xs
/-- The same for the values of a dictionary. (jsonld/jsonld.py:52-53) -/
def jsonViewPairs (env : Env) : List (Key × Val) → List (Key × Val)
  | [] => []
  | (k, v) :: kvs => (k, jsonView env v) :: jsonViewPairs env kvs
/-- The same for the properties of an object. (jsonld/jsonld.py:85-95) -/
def jsonViewFields (env : Env) (c : String) : List (String × Val) → List (String × Val)
  | [] => []
  | (q, v) :: fs => (q, fieldForm env c q (jsonView env v)) :: jsonViewFields env c fs
end

variable {J : Type}

/-- Reading a name in JSON_DATA_CONTEXT, once it is resolved. (jsonld/base.py:86-100) -/
def Attr.jsonOut (w : World J) (s : Slots) (name : String) : Attr → Outcome Val
  | .prop r => (r.jsonValue w.env w.web s).1
  | a => a.held s name

/-- `getattr(obj, name)` in JSON_DATA_CONTEXT for a property of a packaged object; `__namespace__` is None there (jsonld/base.py:191-193). -/
def jsonAttr (w : World J) (c : String) (s : Slots) (q : String) : Outcome Val :=
  if q == "__namespace__" then .ok .none else (attrOf true c q).jsonOut w s q

/-- All properties of an object, read in JSON_DATA_CONTEXT; if a getter raises, so does `data()`. (jsonld/jsonld.py:85-95) -/
def jsonFields (w : World J) (c : String) (s : Slots) : List String → Outcome (List (String × Val))
  | [] => .ok []
  | q :: qs => match jsonAttr w c s q with
    | .error e => .error e
    | .ok v => match jsonFields w c s qs with
      | .error e => .error e
      | .ok fs => .ok ((q, jsonView w.env v) :: fs)

/-- `obj.data()` of a packaged object of class `c` (jsonld/jsonld.py:66-101). -/
def output (w : World J) (c : String) (s : Slots) : Outcome (PyDict String Val) :=
  match jsonFields w c s (propNames c) with
  | .error e => .error e
  | .ok fs => .ok (data {} fs)

mutual
/-- The output of `data` as a JSON tree (jsonld/jsonld.py:103-123 `json`, then json.loads in jsonld/engine/json_input.py:108).  Of values of
other classes, which `data` does not give, the text is taken. -/
def toTree : Val → Tree
  | .none => .null
  | .bool b => .bool b
  | .int i => .int i
  | .float n r => .float n r
  | .str s => .str s
  | .list xs => .arr (toTrees xs)
  | .tuple xs => .arr (toTrees xs)
  | .set xs => .arr (toTrees xs)
  | .iter _ xs => .arr (toTrees xs)
  | .dict kvs => .obj (toTreePairs kvs)
  | .obj _ fs => .obj (toTreeFields fs)
  | .other _ r => .str r
/-- Lists of them. (jsonld/jsonld.py:103-123) -/
def toTrees : List Val → List Tree
  | [] => []
  | x :: xs => toTree x :: toTrees xs
/-- Dictionaries of them; `json.dumps` writes keys that are no strings as texts. (jsonld/jsonld.py:103-123) -/
def toTreePairs : List (Key × Val) → List (String × Tree)
  | [] => []
  | (.str k, x) :: kvs => (k, toTree x) :: toTreePairs kvs
  | (.other k, x) :: kvs => (k, toTree x) :: toTreePairs kvs
/-- The output as a whole. (jsonld/jsonld.py:103-123) -/
def toTreeFields : List (String × Val) → List (String × Tree)
  | [] => []
  | (k, x) :: kvs => (k, toTree x) :: toTreeFields kvs
end

end Verif.AS
