import Verif.Jsonld.Value

/-!
# Model of jsonld/engine/json_input.py

`pyld.jsonld.expand` is a parameter: of its result only the `@type` of the first node matters.
The constructor of a class is a parameter as well.  No property is called "@context" (it is not a
Python name).
-/
namespace Verif.Jsonld

/-- A JSON tree. (argument of jsonld/engine/json_input.py:101) -/
inductive Tree where
  | null
  | bool (b : Bool)
  | int (i : Int)
  | float (negative : Bool) (repr : String)
  | str (s : String)
  | arr (xs : List Tree)
  | obj (kvs : List (String × Tree))

mutual
/-- A JSON tree as a Python value. (values of jsonld/engine/json_input.py:69-99) -/
def Tree.toVal : Tree → Val
  | .null => .none
  | .bool b => .bool b
  | .int i => .int i
  | .float n r => .float n r
  | .str s => .str s
  | .arr xs => .list (toVals xs)
  | .obj kvs => .dict (toPairs kvs)
/-- Lists of them. (values of jsonld/engine/json_input.py:69-99) -/
def toVals : List Tree → List Val
  | [] => []
  | x :: xs => x.toVal :: toVals xs
/-- Dictionaries of them. (values of jsonld/engine/json_input.py:69-99) -/
def toPairs : List (String × Tree) → List (Key × Val)
  | [] => []
  | (k, x) :: kvs => (.str k, x.toVal) :: toPairs kvs
end

/-- `bool(x)` (jsonld/engine/json_input.py:101-123) -/
def Tree.truthy : Tree → Bool
  | .null => false
  | .bool b => b
  | .int i => i != 0
  | .float _ r => r != "0.0" && r != "-0.0"
  | .str s => s != ""
  | .arr xs => !xs.isEmpty
  | .obj kvs => !kvs.isEmpty

/-- What `expand(data)` gives: no node, a first node without `@type`, or one with a list of types. (jsonld/engine/json_input.py:40-67) -/
inductive Expansion where
  | empty
  | untyped
  | typed (types : List String)

/-- The surroundings of an engine: `expand`, the class registry (namespace to class), the
properties of a class (`__get_properties__`) and its constructor. (jsonld/engine/json_input.py:19-38) -/
structure Engine where
  expand : Tree → Outcome Expansion
  registry : PyDict String String
  props : String → List String
  construct : String → PyDict String Val → Outcome Val

/-- jsonld/utils.py:36 `DEFAULT_CONTEXT` -/
def defaultContext : Tree := .str "http://www.w3.org/ns/activitystreams#"

/-- jsonld/engine/json_input.py:57-64: the class for a type, the default class if the type is not known. -/
def Engine.classFor (e : Engine) (type : String) : Option String :=
  e.registry.dget (if type ∈ e.registry.dkeys then type else "default")

/-- jsonld/engine/json_input.py:40-67 `_get_object_class` (the ValueError of line 66 is not raised) -/
def Engine.getObjectClass (e : Engine) (kvs : List (String × Tree)) : Outcome (Option String) :=
  match e.expand (.obj kvs) with
  | .error x => .error x
  | .ok .empty => .ok (e.classFor "")
  | .ok .untyped => .ok (e.classFor "")
  | .ok (.typed []) => .error .indexError
  | .ok (.typed (t :: _)) => .ok (e.classFor t)

/-- jsonld/engine/json_input.py:84: `{'@context': context, **data}` -/
def withContext (ctx : Tree) (kvs : List (String × Tree)) : List (String × Tree) :=
  ("@context", (kvs.dget "@context").getD ctx) :: kvs.ddel "@context"

/-- jsonld/engine/json_input.py:110 -/
def contextOf (kvs : List (String × Tree)) : Tree := (kvs.dget "@context").getD defaultContext

/-- jsonld/engine/json_input.py:111-113 -/
def normalized (kvs : List (String × Tree)) : List (String × Tree) :=
  if ((kvs.dget "@context").getD .null).truthy then kvs else kvs.dset "@context" defaultContext

/-- jsonld/engine/json_input.py:118-121: the comprehension over the properties; `pairs` are the unpacked values of the
data (a missing key is None). -/
def collect : List String → PyDict String (Outcome Val) → Outcome (PyDict String Val)
  | [], _ => .ok []
  | p :: ps, pairs => match (pairs.dget p).getD (.ok .none) with
    | .error x => .error x
    | .ok v => match collect ps pairs with
      | .error x => .error x
      | .ok kw => .ok ((p, v) :: kw)

/-- jsonld/engine/json_input.py:114-123: the end of `from_json`. -/
def Engine.finish (e : Engine) (kvs : List (String × Tree)) (pairs : PyDict String (Outcome Val)) : Outcome Val :=
  match e.getObjectClass (normalized kvs) with
  | .error x => .error x
  | .ok none => .error .attributeError
  | .ok (some cls) => match collect (e.props cls) pairs with
    | .error x => .error x
    | .ok kw => e.construct cls (kw.dset "acontext" (contextOf kvs).toVal)

/-- A list of outcomes: all values, or the first exception. (jsonld/engine/json_input.py:84-95) -/
def sequence : List (Outcome Val) → Outcome (List Val)
  | [] => .ok []
  | .error x :: _ => .error x
  | .ok v :: os => match sequence os with
    | .error x => .error x
    | .ok vs => .ok (v :: vs)

/-- The same for a dictionary. (jsonld/engine/json_input.py:84-95) -/
def sequenceDict : PyDict String (Outcome Val) → Outcome (List (Key × Val))
  | [] => .ok []
  | (_, .error x) :: _ => .error x
  | (k, .ok v) :: os => match sequenceDict os with
    | .error x => .error x
    | .ok vs => .ok ((.str k, v) :: vs)

/-- jsonld/engine/json_input.py:86-95: what becomes of a dictionary; `plain` and `made` are its unpacked values in
the outer context and in its own. -/
def Engine.unpackObj (e : Engine) (full : List (String × Tree)) (plain made : PyDict String (Outcome Val)) : Outcome Val :=
  match e.expand (.obj full) with
  | .error x => .error x
  | .ok (.typed _) => match e.getObjectClass full with
    | .error x => .error x
    | .ok none => .ok .none
    | .ok (some _) => e.finish full made
  | .ok _ => match sequenceDict plain with
    | .error x => .error x
    | .ok d => .ok (.dict d)

mutual
/-- jsonld/engine/json_input.py:69-99 `_unpack_objects` -/
def Engine.unpack (e : Engine) : Tree → Tree → Outcome Val
  | _, .null => .ok .none
  | _, .bool b => .ok (.bool b)
  | _, .int i => .ok (.int i)
  | _, .float n r => .ok (.float n r)
  | _, .str s => .ok (.str s)
  | ctx, .arr xs => match sequence (unpackAll e ctx xs) with
    | .error x => .error x
    | .ok vs => .ok (.list vs)
  | ctx, .obj kvs => e.unpackObj (withContext ctx kvs) (unpackPairs e ctx kvs)
      (unpackPairs e (contextOf (withContext ctx kvs)) kvs)
/-- The items of a list (evaluated lazily in the code). (jsonld/engine/json_input.py:84-95) -/
def Engine.unpackAll (e : Engine) : Tree → List Tree → List (Outcome Val)
  | _, [] => []
  | ctx, x :: xs => e.unpack ctx x :: unpackAll e ctx xs
/-- The values of a dictionary (evaluated lazily in the code). (jsonld/engine/json_input.py:84-95) -/
def Engine.unpackPairs (e : Engine) : Tree → List (String × Tree) → PyDict String (Outcome Val)
  | _, [] => []
  | ctx, (k, x) :: kvs => (k, e.unpack ctx x) :: unpackPairs e ctx kvs
end

/-- jsonld/engine/json_input.py:101-123 `from_json` of a dictionary (text goes through json.loads first). -/
def Engine.fromJson (e : Engine) (kvs : List (String × Tree)) : Outcome Val :=
  e.finish kvs (e.unpackPairs (contextOf kvs) kvs)

end Verif.Jsonld
