import Verif.Jsonld.Value
import Verif.Jsonld.Url
import Verif.Jsonld.DateTime

/-!
# Model of activitystreams/models.py, the decorators of class `Link`

An object is a value `obj cls fields`; it is a Link if the class `Link` is in the mro of its class.
-/
namespace Verif.AS
open Verif Verif.Jsonld

/-- The surroundings: mro of the classes that are not built in; `urllib.parse`'s bracket check (see Jsonld/Url.lean);
the third-party function `validate_email`; which datetime or timedelta a value of these classes (given by its `repr`)
is, and the `repr` of a datetime. (activitystreams/models.py:1-20, activitystreams/properties.py:1-26) -/
structure Env where
  mro : String → List String
  bracketOk : List Char → Bool
  email : String → Outcome Bool
  dateOf : String → Option DateTime
  dateRepr : DateTime → String
  deltaOf : String → Option TimeDelta

/-- `bool(v)`; objects and values of unknown classes are true (they define neither `__bool__` nor `__len__`).
(conditions in activitystreams/models.py:133-230) -/
def truthy : Val → Bool
  | .none => false
  | .bool b => b
  | .int i => i != 0
  | .float _ r => r != "0.0" && r != "-0.0"
  | .str s => s != ""
  | .list xs => !xs.isEmpty
  | .tuple xs => !xs.isEmpty
  | .set xs => !xs.isEmpty
  | .dict kvs => !kvs.isEmpty
  | .iter _ _ => true
  | .obj _ _ => true
  | .other _ _ => true

/-- `isinstance(v, Link)` (activitystreams/models.py:198-203) -/
def isLink (env : Env) : Val → Bool
  | .obj c _ => (env.mro c).contains "Link"
  | _ => false

/-- `v.href` of a Link (activitystreams/models.py:143, 199) -/
def hrefOf : Val → Val
  | .obj _ fs => (fs.dget "href").getD .none
  | _ => .none

/-- `item.href if isinstance(item, Link) else item` (activitystreams/models.py:202) -/
def hrefItem (env : Env) (v : Val) : Val := if isLink env v then hrefOf v else v

/-- activitystreams/models.py:187-207 `href_only`: what the decorated getter returns if the getter returns `v`. -/
def hrefOnly (env : Env) : Val → Val
  | .list xs => .list (xs.map (hrefItem env))
  | v => hrefItem env v

/-- jsonld/tools/url.py:64-75 `validate_acct_or_email` -/
def validateAcct (env : Env) (s : String) : Outcome Bool :=
  env.email (if "acct:".toList.isPrefixOf s.toList then String.ofList (s.toList.drop 5) else s)

/-- jsonld/tools/url.py:33-61 `validate_url` of any value that is true: urlparse raises AttributeError unless it is a
string (bytes are not modelled). -/
def validateUrlVal (env : Env) : Val → Outcome Bool
  | .str s => validateUrl env.bracketOk false s.toList
  | _ => .error .attributeError

/-- activitystreams/models.py:227-228: the test for strings -/
def linkable (env : Env) (s : String) : Outcome Bool :=
  match validateUrl env.bracketOk false s.toList with
  | .error e => .error e
  | .ok true => .ok true
  | .ok false => validateAcct env s

/-- `v.get('href', None)` of a dictionary (activitystreams/models.py:230-231) -/
def dictHref (kvs : List (Key × Val)) : Val := (kvs.dget (.str "href")).getD .none

/-- activitystreams/models.py:230-231: the test for dictionaries -/
def linkDict (env : Env) (kvs : List (Key × Val)) : Outcome Bool :=
  if truthy (dictHref kvs) then validateUrlVal env (dictHref kvs) else .ok false

/-- A constructor called with keyword arguments. (activitystreams/models.py:229, 232) -/
abbrev Ctor := List (String × Val) → Outcome Val

/-- `link_cls(**v)`: all keys must be strings. (activitystreams/models.py:232) -/
def callWith (mk : Ctor) (kvs : List (Key × Val)) : Outcome Val :=
  if kvs.all (fun p => match p.1 with | .str _ => true | .other _ => false) then
    mk (kvs.map fun p => (match p.1 with | .str s => s | .other r => r, p.2))
  else .error .typeError

mutual
/-- activitystreams/models.py:224-236 `create_link`; `mk` is the Link class used. -/
def createLink (env : Env) (mk : Ctor) : Val → Outcome Val
  | .str s => match linkable env s with
    | .error e => .error e
    | .ok true => mk [("href", .str s)]
    | .ok false => .ok (.str s)
  | .dict kvs => match linkDict env kvs with
    | .error e => .error e
    | .ok true => callWith mk kvs
    | .ok false => .ok (.dict kvs)
  | .list xs => match createLinks env mk xs with
    | .error e => .error e
    | .ok ys => .ok (.list ys)
  | .tuple xs => match createLinks env mk xs with
    | .error e => .error e
    | .ok ys => .ok (.list ys)
  | .set xs => match createLinks env mk xs with
    | .error e => .error e
    | .ok ys => .ok (.list ys)
  | v => .ok v
/-- activitystreams/models.py:235: the list comprehension -/
def createLinks (env : Env) (mk : Ctor) : List Val → Outcome (List Val)
  | [] => .ok []
  | x :: xs => match createLink env mk x with
    | .error e => .error e
    | .ok y => match createLinks env mk xs with
      | .error e => .error e
      | .ok ys => .ok (y :: ys)
end

/-- What `Link.get` uses; `J` is the type of JSON data: the namespace of the Link class and whether it has a package
and an engine; for a value its namespace, whether its class has a package, and its class's engine (`from_json`); and the
network (`jsonld_get`). (activitystreams/models.py:124-165) -/
structure Web (J : Type) where
  linkNs : String
  clsPackaged : Bool
  clsEngine : Option (J → Outcome Val)
  nsOf : Val → Option String
  packaged : Val → Bool
  engineOf : Val → Option (J → Outcome Val)
  fetch : Val → Outcome J

/-- activitystreams/models.py:153-165: the engine that is used -/
def Web.engine {J : Type} (w : Web J) (data : Val) : Option (J → Outcome Val) :=
  if w.packaged data then w.engineOf data else w.clsEngine

/-- activitystreams/models.py:153-165: the new object; no engine is an AttributeError, which is caught like any other exception. -/
def Web.make {J : Type} (w : Web J) (data : Val) (j : J) : Option Val :=
  match w.engine data with
  | none => none
  | some f => match f j with
    | .error _ => none
    | .ok v => some v

/-- activitystreams/models.py:133-144: whether a request is made -/
def Web.asks {J : Type} (w : Web J) (data : Val) : Bool :=
  truthy data && (w.nsOf data == some w.linkNs) && (w.clsPackaged || w.packaged data) && truthy (hrefOf data)

/-- activitystreams/models.py:124-165 `get`: its result (`none` is None) and the addresses requested. -/
def Web.get {J : Type} (w : Web J) (data : Val) : Option Val × List Val :=
  if w.asks data then
    match w.fetch (hrefOf data) with
    | .error _ => (none, [hrefOf data])
    | .ok j => (w.make data j, [hrefOf data])
  else (none, [])

/-- activitystreams/models.py:181-183: `new_obj if new_obj else get_func(obj)` for a getter that returns `v`; the requests made. -/
def Web.expand {J : Type} (w : Web J) (v : Val) : Val × List Val :=
  match (w.get v).1 with
  | none => (v, (w.get v).2)
  | some x => (if truthy x then x else v, (w.get v).2)

end Verif.AS
