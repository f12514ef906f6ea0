import Verif.AS.Model
import Verif.Jsonld.Package
import Verif.Jsonld.Clone
import Verif.Jsonld.Intake

/-!
# Model of activitystreams/package.py: the shipped package and its engine
-/
namespace Verif.AS
open Verif Verif.Jsonld

/-- A class: of activitystreams/models.py and below it (`false`), or of activitystreams/properties.py and below it down to
JsonProperty (`true`).  (The modules have classes of the same name.) -/
abbrev Name := Bool × String

/-- Bases of a class: activitystreams/properties.py:28, 52-1417 and jsonld/base.py:228 for property classes. -/
def nameBases : Name → List Name
  | (false, c) => (basesOf c).map fun b => (false, b)
  | (true, c) =>
    if c == "JsonProperty" then [(false, "NamespacedObject")]
    else if c == "ActivityStreamsProperty" then [(true, "JsonProperty")]
    else if (propTable.map (·.cls)).contains c then [(true, "ActivityStreamsProperty")] else []

/-- Mro of a class. (class statements of activitystreams/models.py and activitystreams/properties.py) -/
def nameMro : Name → List Name
  | (false, c) => (mroOf c).map fun b => (false, b)
  | (true, c) =>
    if c == "JsonProperty" then [(true, c), (false, "NamespacedObject"), (false, "object")]
    else if c == "ActivityStreamsProperty" then [(true, c), (true, "JsonProperty"), (false, "NamespacedObject"), (false, "object")]
    else if (propTable.map (·.cls)).contains c then
      [(true, c), (true, "ActivityStreamsProperty"), (true, "JsonProperty"), (false, "NamespacedObject"), (false, "object")]
    else [(true, c)]

/-- The class hierarchy. (class statements of activitystreams/models.py and activitystreams/properties.py) -/
def asHier : Clone.Hier Name := ⟨nameBases, nameMro⟩

/-- activitystreams/models.py:43-46, 98-101 `__get_namespace__` of the classes of models.py (all of them define `type` themselves) -/
def classNs (c : String) : Option String := (classRow c).map fun r => asNs ++ "#" ++ r.type

/-- activitystreams/properties.py:28-32 `__get_namespace__` of the property classes -/
def propNs (p : String) : Option String := (propTable.find? fun r => r.cls == p).map fun r => asNs ++ "#dfn-" ++ r.name

/-- The order of `package.objects` and `package.properties` (jsonld/kamino.py:67-71, activitystreams/package.py:29-33) -/
def cloneOrder (names : List Name) : List Name := Clone.refKeys asHier names

/-- A class of models.py as the package sees it: besides linked properties it has `acontext` (jsonld/jsonld.py:34) and `__namespace__`
(jsonld/base.py:181). -/
def objCls (c : String) : Cls :=
  { name := c, ns := classNs c, own := ["acontext", "__namespace__"]
    up := (mroOf c).filterMap fun a =>
      if pkgClasses.contains a then (cloneOrder (pkgClasses.map fun c => (false, c))).findIdx? (· == (false, a)) else none }

/-- A property class as the package sees it; registrations are told apart by the line of the class. (activitystreams/properties.py:28-32) -/
def propCls (p : String) : Cls :=
  { name := p, ns := propNs p, prop := (propTable.find? fun r => r.cls == p).map fun r => (r.name, r.line) }

/-- What a class record stands for. (jsonld/kamino.py:50-71) -/
def Cls.key (c : Cls) : Name := (c.prop.isSome, c.name)

/-- jsonld/kamino.py:50-101 for the classes of the package: the records of the clones (same name, namespace, …) in the order of
`class_ref`. -/
def asCloner : Package.Cloner := fun cs => match Clone.cloneClasses asHier (cs.map Cls.key) with
  | none => .error .userError
  | some (.error e) => .error e
  | some (.ok _) => .ok ((cloneOrder (cs.map Cls.key)).filterMap fun n => cs.find? fun c => Cls.key c == n)

/-- activitystreams/package.py:130-200 `property_mapping` by namespaces -/
def asMapping : Mapping := pkgMapping.map fun e => ((classNs e.1).getD "", e.2.map fun p => (propNs p).getD "")

/-- activitystreams/package.py:202-212 `create_package` -/
def createPackage : Outcome Package :=
  Package.new asCloner asNs (pkgClasses.map objCls) (pkgProperties.map propCls) (some asMapping)

/-- activitystreams/models.py:43-46, 98-101 `__get_namespace__` once properties are linked: for a class to which the property `type` is linked, `cls.type` is
that property object, and its text `repr` (with its address) becomes part of the namespace.  (Every class of models.py defines its own
`type`, so a link to an ancestor does not matter.) -/
def nsAfter (repr : Nat → String) (i : Nat) (c : Cls) : Cls :=
  if c.prop.isNone && c.linked.dkeys.contains "type" then { c with ns := some (asNs ++ "#" ++ repr i) } else c

/-- The package as an engine sees it: the dictionary of `package[...]` was made before properties were linked (jsonld/package.py:36-39),
the namespaces are asked for afterwards (jsonld/engine/jsonld_engine.py:45-48). -/
def settle (repr : Nat → String) (p : Package) : Package := { p with classes := p.classes.mapIdx (nsAfter repr) }

/-- `JsonLdEngine(p)` once `p` is made. (activitystreams/package.py:214-219) -/
def engineOf (repr : Nat → String) : Outcome Package → Outcome EngineObj
  | .error e => .error e
  | .ok p => EngineObj.new (.pkg (settle repr p))

/-- activitystreams/package.py:214-219 `create_engine` -/
def createEngine (repr : Nat → String) : Outcome EngineObj := engineOf repr createPackage

/-- The registry of an engine by class names. (jsonld/engine/jsonld_engine.py:45-57) -/
def registryOf (p : Package) (e : EngineObj) : PyDict String String := e.registry.filterMap fun x =>
  match x.1, p.classes[x.2]? with
  | some s, some c => some (s, c.name)
  | _, _ => none

/-- An ActivityStreams engine that loads documents (jsonld/engine/json_input.py), with a class registry and `expand`; its classes are the
packaged ones. -/
def asEngine {J : Type} (w : World J) (expand : Tree → Outcome Expansion) (registry : PyDict String String) : Engine where
  expand := expand
  registry := registry
  props := propNames
  construct cls kw := match construct w true cls kw with
    | .error e => .error e
    | .ok s => .ok (objVal cls s)

end Verif.AS
