import Verif.AS.Package

/-!
# Model of walks through the social graph

An expression such as `outbox.first.orderedItems[0].object.published` (README.md:66-81) on packaged objects, with the network as a
function; the same address always gives the same answer.
-/
namespace Verif.AS
open Verif Verif.Jsonld

variable {J : Type}

/-- The requests made by reading a name, once it is resolved. (activitystreams/properties.py, getters) -/
def Attr.asked (w : World J) (s : Slots) : Attr → List Val
  | .prop r => (r.get w.web s).2
  | .const _ => []
  | .plain => []

/-- The requests made to compute the value that is assigned. (assignments in the constructors of activitystreams/models.py, e.g. 122,
354-361) -/
def Assign.asked (w : World J) (packaged : Bool) (cls : String) (kw : List (String × Val)) (s : Slots) (a : Assign) : List Val :=
  match a.how with
  | .set => []
  | .keepOr => (attrOf packaged cls a.attr).asked w s
  | .orZero => []
  | .total items => if AS.truthy (a.src.value kw) then [] else (attrOf packaged cls items).asked w s

/-- The requests made by assignments one after the other, up to the first exception. (constructors of activitystreams/models.py) -/
def askedAll (w : World J) (packaged : Bool) (cls : String) (kw : List (String × Val)) : List Assign → Slots → List Val
  | [], _ => []
  | a :: as, s => a.asked w packaged cls kw s ++ match a.run w packaged cls kw s with
    | (.error _, _) => []
    | (.ok _, s') => askedAll w packaged cls kw as s'

/-- The requests made by `cls(**kw)`. (constructors of activitystreams/models.py) -/
def constructAsked (w : World J) (packaged : Bool) (cls : String) (kw : List (String × Val)) : List Val :=
  if (requiredOf cls).all (fun p => (kw.dget p).isSome) then askedAll w packaged cls kw (classAssigns cls) [] else []

/-- jsonld/engine/json_input.py:101-123 `from_json` of what `jsonld_get` returns: text is parsed first (`loads` is json.loads), anything
but a dictionary then raises AttributeError (it has no `copy` or no `get`). -/
def fromData (e : Engine) (loads : String → Outcome Tree) : Tree → Outcome Val
  | .obj kvs => e.fromJson kvs
  | .str s => match loads s with
    | .error x => .error x
    | .ok (.obj kvs) => e.fromJson kvs
    | .ok _ => .error .attributeError
  | _ => .error .attributeError

/-- `__get_namespace__` of a packaged class: `repr c` is the text of the property object `type` linked to `c` (see `nsAfter`).
(activitystreams/models.py:43-46, 98-101) -/
def packagedNs (repr : String → String) (c : String) : Option String :=
  if (linkedRows c).any (fun r => r.name == "type") then some (asNs ++ "#" ++ repr c) else classNs c

/-- What the getters of packaged objects use to expand Links: the Link class is the clone (models.py:171-179), all objects are instances of
classes of the package, and these have the engine `load` (jsonld/engine/jsonld_engine.py:59-70). (activitystreams/models.py:124-183) -/
def asWeb (repr : String → String) (load : Tree → Outcome Val) (fetch : Val → Outcome Tree) : Web Tree where
  linkNs := asNs ++ "#" ++ repr "Link"
  clsPackaged := true
  clsEngine := some load
  nsOf v := match v with
    | .obj c _ => packagedNs repr c
    | _ => none
  packaged v := match v with
    | .obj _ _ => true
    | _ => false
  engineOf v := match v with
    | .obj _ _ => some load
    | _ => none
  fetch := fetch

/-- A step of an expression: `.name` or `[i]` with a number that is not negative. (README.md:78 on values of activitystreams/properties.py) -/
inductive Step where
  | attr (name : String)
  | item (i : Nat)
  deriving DecidableEq

/-- Reading a property of a packaged object that is given as a value (`objVal`); methods and other attributes are not modelled (so `.items` of a dictionary, a method, is an error here).
(getters of activitystreams/properties.py, activitystreams/models.py:181-183) -/
def readAttr (web : Web J) (c : String) (fs : List (String × Val)) (n : String) : Outcome Val × List Val :=
  match fs.dget n with
  | none => (.error .attributeError, [])
  | some v => match attrOf true c n with
    | .prop r => if r.expand then (.ok (web.expand v).1, (web.expand v).2) else (.ok v, [])
    | .const _ => (.ok v, [])
    | .plain => (.ok v, [])

/-- An item of a list, or IndexError. (README.md:78 on values of activitystreams/properties.py) -/
def nth (xs : List Val) (i : Nat) : Outcome Val := match xs[i]? with
  | some x => .ok x
  | none => .error .indexError

/-- `v[i]`: dictionaries of documents have no numbers as keys; objects, sets, generators, numbers and None have no items. (README.md:78 on values of activitystreams/properties.py) -/
def itemOf (v : Val) (i : Nat) : Outcome Val := match v with
  | .list xs => nth xs i
  | .tuple xs => nth xs i
  | .str s => nth (s.toList.map fun c => .str (String.ofList [c])) i
  | .dict _ => .error .keyError
  | _ => .error .typeError

/-- One step: its outcome and the requests made. (README.md:78, activitystreams/models.py:181-183) -/
def Step.run (web : Web J) (v : Val) : Step → Outcome Val × List Val
  | .attr n => match v with
    | .obj c fs => readAttr web c fs n
    | _ => (.error .attributeError, [])
  | .item i => (itemOf v i, [])

/-- A walk: its outcome and the requests made, in order. (README.md:78 on values of activitystreams/properties.py) -/
def walk (web : Web J) (v : Val) : List Step → Outcome Val × List Val
  | [] => (.ok v, [])
  | st :: p => match st.run web v with
    | (.error e, rs) => (.error e, rs)
    | (.ok u, rs) => ((walk web u p).1, rs ++ (walk web u p).2)

/-- The web when `n` requests have been made since some moment: `net n` is what the network then answers. (activitystreams/models.py:124-165 asks the network
again each time) -/
def Web.after (w : Web J) (net : Nat → Val → Outcome J) (n : Nat) : Web J := { w with fetch := net n }

/-- A walk through a network whose answers change from request to request; `n` requests have been made before.  A step makes one request at most
(Props/Changing.lean, `step_requests`). (README.md:78 on values of activitystreams/properties.py) -/
def walkIn (w : Web J) (net : Nat → Val → Outcome J) (n : Nat) (v : Val) : List Step → Outcome Val × List Val
  | [] => (.ok v, [])
  | st :: p => match st.run (w.after net n) v with
    | (.error e, rs) => (.error e, rs)
    | (.ok u, rs) => ((walkIn w net (n + rs.length) u p).1, rs ++ (walkIn w net (n + rs.length) u p).2)

/-- Walks one after the other from the same object: their outcomes and requests. (README.md:78 on values of activitystreams/properties.py) -/
def walksIn (w : Web J) (net : Nat → Val → Outcome J) (n : Nat) (v : Val) : List (List Step) → List (Outcome Val × List Val)
  | [] => []
  | p :: ps => walkIn w net n v p :: walksIn w net (n + (walkIn w net n v p).2.length) v ps

end Verif.AS
