import Verif.AS.Property

/-!
# Model of activitystreams/models.py: constructors and attributes of objects

The constructors only call each other and assign attributes, so a constructor is modelled as the list of assignments it makes, with the
calls of base constructors inlined.  An object is packaged (its class is a clone in the ActivityStreams package, with the properties of
package.py linked to it) or not.
-/
namespace Verif.AS
open Verif Verif.Jsonld

/-- Bases of a class. (class statements of activitystreams/models.py, jsonld/jsonld.py:16, 126, jsonld/base.py:180, 294) -/
def basesOf (c : String) : List String := match hierTable.dget c with | some p => p.1 | none => []

/-- Mro of a class. (class statements of activitystreams/models.py, jsonld/jsonld.py:16, 126, jsonld/base.py:180, 294) -/
def mroOf (c : String) : List String := match hierTable.dget c with | some p => p.2 | none => [c]

/-- The row of a class. (activitystreams/models.py) -/
def classRow (c : String) : Option ClassRow := classTable.find? fun r => r.cls == c

/-- The constructor a class defines itself. (`__init__` in activitystreams/models.py) -/
def initOf (c : String) : Option Init := match classRow c with | some r => r.init | none => none

/-- Where an assigned value comes from: an argument of the constructor that was called (its default if it was not given), or the default
of a parameter. (constructor calls in activitystreams/models.py) -/
inductive Src where
  | param (name : String)
  | absent (name : String)
  deriving DecidableEq

/-- Keyword arguments of an inlined call: named ones, and, if `rest` is `some names`, all keywords of the original call except these.
(constructor calls in activitystreams/models.py) -/
structure Kw where
  named : List (String × Src)
  rest : Option (List String)
  deriving DecidableEq

/-- The value of a parameter in an inlined call. (constructor calls in activitystreams/models.py) -/
def Kw.get (k : Kw) (p : String) : Src :=
  match k.named.dget p with
  | some s => s
  | none => match k.rest with
    | some names => if names.contains p then .absent p else .param p
    | none => .absent p

/-- The keywords passed on by `Base.__init__(self, args, **kwargs)`, where `kwargs` has what `params` does not take.
(constructor calls in activitystreams/models.py) -/
def Kw.pass (k : Kw) (params : List String) (args : List (String × String)) (star : Bool) : Kw :=
  { named := args.map (fun a => (a.1, k.get a.2)) ++ (if star then k.named.filter (fun p => !params.contains p.1) else [])
    rest := if star then k.rest.map (· ++ params) else none }

/-- How an attribute is assigned (see `Stmt`). (assignments in the constructors of activitystreams/models.py) -/
inductive How where
  | set | keepOr | orZero | total (items : String)
  deriving DecidableEq

/-- An assignment made by a constructor. (assignments in the constructors of activitystreams/models.py) -/
structure Assign where
  attr : String
  how : How
  src : Src
  deriving DecidableEq

/-- The first class with a constructor, and the classes after it in the mro. (`super().__init__` in activitystreams/models.py) -/
def firstInit : List String → Option (Init × List String)
  | [] => none
  | c :: cs => match initOf c with
    | some i => some (i, cs)
    | none => firstInit cs

/-- The assignments made by the constructor found first in (the rest of) the mro of the object: `super()` means the classes after the one
that defines the constructor, in the mro of the object (models.py).  Past the classes of models.py it is `ApplicationActivityJson.__init__`
(jsonld/jsonld.py:27-29, 135-136), which sets `acontext`; it also sets `__properties__` and `__context__`, which is not part of this
model.  The number bounds the depth of calls.  For packaged objects the mro has the clones first, whose constructors are those of the
originals; their `super()` means the original class, so the same constructors run in the same order (Props/Clone.lean, C84). -/
def assigns : Nat → List String → Kw → List Assign
  | 0, _, _ => []
  | n + 1, mro, kw => match firstInit mro with
    | none => [⟨"acontext", .set, kw.get "acontext"⟩]
    | some (i, after) => i.body.flatMap fun
      | .call none args star => assigns n after (kw.pass i.params args star)
      | .call (some b) args star => assigns n (after.dropWhile (· != b)) (kw.pass i.params args star)
      | .set a p => [⟨a, .set, kw.get p⟩]
      | .keepOr a p => [⟨a, .keepOr, kw.get p⟩]
      | .orZero a p => [⟨a, .orZero, kw.get p⟩]
      | .total a p items => [⟨a, .total items, kw.get p⟩]

/-- All assignments of `cls(**kw)`, in order. (constructors of activitystreams/models.py) -/
def classAssigns (cls : String) : List Assign := assigns (mroOf cls).length (mroOf cls) ⟨[], some []⟩

/-- Parameters without default of the constructor of a class. (constructors of activitystreams/models.py) -/
def requiredOf (cls : String) : List String := match firstInit (mroOf cls) with | some (i, _) => i.required | none => []

/-- activitystreams/models.py:19 `ACTIVITYSTREAMS_NS` -/
def asNs : String := "https://www.w3.org/ns/activitystreams"

/-- Default of a parameter. (parameter defaults in activitystreams/models.py, e.g. 48-56) -/
def defaultOf (p : String) : Val := if p == "acontext" then .str asNs else .none

/-- The value of a source, given the arguments. (constructor calls in activitystreams/models.py) -/
def Src.value (kw : List (String × Val)) : Src → Val
  | .param n => (kw.dget n).getD (defaultOf n)
  | .absent n => defaultOf n

/-- What an attribute name means for the instances of a class: a property, a constant of the class that instances may override, or
nothing in the class.  (`acontext` is a property that stores what it is given, jsonld/jsonld.py:34-43; it is treated like an
attribute.) -/
inductive Attr where
  | prop (r : PropRow)
  | const (v : Val)
  | plain

/-- Properties linked to a class by activitystreams/package.py:130-200 -/
def linkedRows (cls : String) : List PropRow :=
  ((pkgMapping.dget cls).getD []).filterMap fun p => propTable.find? fun r => r.cls == p

/-- What the dictionary of a class has for a name: a linked property replaces the constant `type` of the class.
(jsonld/package.py:99-111 and the class attributes `type` of activitystreams/models.py) -/
def attrIn (packaged : Bool) (cls attr : String) : Option Attr :=
  match (if packaged then linkedRows cls else []).find? (fun r => r.name == attr) with
  | some r => some (.prop r)
  | none => if attr == "type" then (classRow cls).map fun r => .const (.str r.type) else none

/-- The first class of the mro that has the name. (attribute lookup on the classes of activitystreams/models.py) -/
def attrOf (packaged : Bool) (cls attr : String) : Attr := ((mroOf cls).findSome? fun c => attrIn packaged c attr).getD .plain

/-- The surroundings of an object: the environment, the Link class used by its setters, and what its getters use to expand links.
(activitystreams/models.py:124-241) -/
structure World (J : Type) where
  env : Env
  link : Ctor
  web : Web J

variable {J : Type}

/-- Reading a name, once it is resolved. (activitystreams/properties.py, getters) -/
def Attr.get (w : World J) (s : Slots) (name : String) : Attr → Outcome Val
  | .prop r => (r.get w.web s).1
  | .const v => .ok ((s.dget name).getD v)
  | .plain => match s.dget name with
    | some v => .ok v
    | none => .error .attributeError

/-- `getattr(obj, name)` (activitystreams/properties.py, getters) -/
def getAttr (w : World J) (packaged : Bool) (cls : String) (s : Slots) (name : String) : Outcome Val :=
  (attrOf packaged cls name).get w s name

/-- Assigning a name, once it is resolved. (activitystreams/properties.py, setters) -/
def Attr.set (w : World J) (s : Slots) (name : String) (v : Val) : Attr → Outcome Unit × Slots
  | .prop r => r.set w.env w.link s v
  | .const _ => (.ok (), s.dset name v)
  | .plain => (.ok (), s.dset name v)

/-- `setattr(obj, name, v)` (activitystreams/properties.py, setters) -/
def setAttr (w : World J) (packaged : Bool) (cls : String) (s : Slots) (name : String) (v : Val) : Outcome Unit × Slots :=
  (attrOf packaged cls name).set w s name v

/-- `getattr(obj, name, v)` (`getattr(self, ..., ...)` in activitystreams/models.py, e.g. 122) -/
def getAttrOr (w : World J) (packaged : Bool) (cls : String) (s : Slots) (name : String) (v : Val) : Outcome Val :=
  match getAttr w packaged cls s name with
  | .ok x => .ok x
  | .error .attributeError => .ok v
  | .error e => .error e

/-- `0 if not isinstance(v, Sized) else len(v)` (classes other than the built-in ones are taken to have no `__len__`)
(activitystreams/models.py:359-361) -/
def sizeOf : Val → Nat
  | .str s => s.length
  | .list xs => xs.length
  | .tuple xs => xs.length
  | .set xs => xs.length
  | .dict kvs => kvs.length
  | _ => 0

/-- The value that is assigned. (assignments in the constructors of activitystreams/models.py) -/
def Assign.value (w : World J) (packaged : Bool) (cls : String) (kw : List (String × Val)) (s : Slots) (a : Assign) : Outcome Val :=
  match a.how with
  | .set => .ok (a.src.value kw)
  | .keepOr => getAttrOr w packaged cls s a.attr (a.src.value kw)
  | .orZero => .ok (if AS.truthy (a.src.value kw) then a.src.value kw else .int 0)
  | .total items =>
    if AS.truthy (a.src.value kw) then .ok (a.src.value kw)
    else match getAttr w packaged cls s items with
      | .error e => .error e
      | .ok v => .ok (.int (sizeOf v))

/-- One assignment. (assignments in the constructors of activitystreams/models.py) -/
def Assign.run (w : World J) (packaged : Bool) (cls : String) (kw : List (String × Val)) (s : Slots) (a : Assign) : Outcome Unit × Slots :=
  match a.value w packaged cls kw s with
  | .error e => (.error e, s)
  | .ok v => setAttr w packaged cls s a.attr v

/-- Assignments one after the other, up to the first exception. (constructors of activitystreams/models.py) -/
def runAll (w : World J) (packaged : Bool) (cls : String) (kw : List (String × Val)) : List Assign → Slots → Outcome Slots
  | [], s => .ok s
  | a :: as, s => match a.run w packaged cls kw s with
    | (.error e, _) => .error e
    | (.ok _, s') => runAll w packaged cls kw as s'

/-- `cls(**kw)`: the attributes of the new object. (constructors of activitystreams/models.py) -/
def construct (w : World J) (packaged : Bool) (cls : String) (kw : List (String × Val)) : Outcome Slots :=
  if (requiredOf cls).all (fun p => (kw.dget p).isSome) then runAll w packaged cls kw (classAssigns cls) []
  else .error .typeError

/-- The properties of a packaged class: those linked to a class of its mro. (activitystreams/package.py:130-200) -/
def rowsOf (cls : String) : List PropRow := (mroOf cls).flatMap linkedRows

/-- Names of the properties of a packaged class (jsonld/base.py:318-330 after jsonld/package.py:96-97; the code has them in no particular
order): `acontext` (jsonld/jsonld.py:34), `__namespace__` (jsonld/base.py:181) and the linked ones. -/
def propNames (cls : String) : List String := "acontext" :: "__namespace__" :: (rowsOf cls).map (·.name)

/-- What an object has under a name, before links are expanded. (activitystreams/properties.py, getters without their decorators) -/
def Attr.held (s : Slots) (name : String) : Attr → Outcome Val
  | .prop r => r.stored s
  | .const v => .ok ((s.dget name).getD v)
  | .plain => match s.dget name with
    | some v => .ok v
    | none => .error .attributeError

/-- A packaged object as a value: its properties and what it has for them (`__namespace__` is left out).
(objects of activitystreams/models.py) -/
def objVal (cls : String) (s : Slots) : Val :=
  .obj cls ((propNames cls).filterMap fun n => match (attrOf true cls n).held s n with | .ok v => some (n, v) | .error _ => none)

/-- The packaged Link class as a constructor; the number bounds the depth of dictionaries that are Links in Links (their `preview`).
(activitystreams/models.py:87-122) -/
def linkCtor (env : Env) (web : Web J) : Nat → Ctor
  | 0, _ => .error .typeError
  | n + 1, kw => match construct ⟨env, linkCtor env web n, web⟩ true "Link" kw with
    | .error e => .error e
    | .ok s => .ok (objVal "Link" s)

end Verif.AS
