import Verif.AS.Package
import Verif.Jsonld.Change

/-!
# Objects that are not packaged, read through packaged classes

`jsonld/kamino.py:142-153`: the getters of a packaged class turn an object of an original class into one of the packaged class.
-/
namespace Verif.AS
open Verif Verif.Jsonld

/-- A class of models.py or below it: original (`false`) or packaged (`true`). -/
abbrev Kind := Bool × String

/-- Mro: for a packaged class the packaged ones of the mro of its original, then that mro (Props/AsPackage.lean `as_clones`).
(jsonld/kamino.py:81-95) -/
def kindMro : Kind → List Kind
  | (false, c) => (mroOf c).map fun a => (false, a)
  | (true, c) => (((mroOf c).filter fun a => pkgClasses.contains a).map fun a => (true, a)) ++ (mroOf c).map fun a => (false, a)

variable {J : Type}

/-- The classes, with the properties linked to the packaged ones (activitystreams/package.py:130-200); the others have the properties
`acontext` (jsonld/jsonld.py:34) and `__namespace__` (jsonld/base.py:181) only. -/
def asLang (w : World J) : Change.Lang Kind where
  mro := kindMro
  member k n := match attrOf k.1 k.2 n with
    | .prop r => some (.prop ⟨fun s => (r.get w.web s).1, some fun s v => r.set w.env w.link s v⟩)
    | .const v => some (.const v)
    | .plain => none
  listed k := if k.1 then propNames k.2 else ["acontext", "__namespace__"]
  properties k := if k.1 then propNames k.2 else ["acontext", "__namespace__"]

/-- `f'{ACTIVITYSTREAMS_NS}#{cls.type}'` for a class: the packaged Object and Link have a property object as `type`, with text `repr`.
(activitystreams/models.py:43-46, 98-101) -/
def typeNs (repr : String → String) : Kind → Val
  | (packaged, c) => if packaged && (linkedRows c).any (fun r => r.name == "type") then .str (asNs ++ "#" ++ repr c)
    else match classNs c with
      | some n => .str n
      | none => .none

/-- The classes that define `__get_namespace__`: activitystreams/models.py:43-46, 98-101 (Object and Link), and their clones; jsonld/base.py:196-200 -/
def nsDefs (repr : String → String) : Kind → Option (Change.NsDef Kind)
  | (packaged, c) => if c == "Object" || c == "Link" then some (.method (typeNs repr))
    else if !packaged && c == "NamespacedObject" then some (.method fun _ => .none) else none

/-- `package.object_ref` (jsonld/package.py:28): from original to packaged classes. -/
def objectRef : Kind → Option Kind
  | (false, c) => if pkgClasses.contains c then some (true, c) else none
  | (true, _) => none

/-- An object that is not packaged: class and attributes. (objects of activitystreams/models.py) -/
def rawObject (ns : Kind → Option (Change.NsDef Kind)) (c : String) (s : Slots) : Change.Heap Kind :=
  ⟨(false, c), s, ["acontext", "__namespace__"], ns⟩

/-- What a getter of a packaged class returns if the value is this object (jsonld/kamino.py:147-153): the object, its attributes and the
namespaces of all classes afterwards. -/
def readObject (w : World J) (ns : Kind → Option (Change.NsDef Kind)) (c : String) (s : Slots) : Outcome Unit × Change.Heap Kind :=
  Change.wrapReturn (asLang w) objectRef (rawObject ns c s)

/-- Objects that are not packaged (class and attributes), read one after the other: the namespaces afterwards, or the first error.
(histories of jsonld/kamino.py:147-153) -/
def readAll (w : World J) : List (String × Slots) → (Kind → Option (Change.NsDef Kind)) → Outcome (Kind → Option (Change.NsDef Kind))
  | [], ns => .ok ns
  | (c, s) :: l, ns => match readObject w ns c s with
    | (.error e, _) => .error e
    | (.ok _, h) => readAll w l h.ns

/-- A namespace that is a string. (jsonld/engine/jsonld_engine.py:45-48) -/
def nsText : Val → Option String
  | .str s => some s
  | _ => none

/-- The namespaces of the classes of the package as a new engine sees them (jsonld/engine/jsonld_engine.py:45-48). -/
def withNs (ns : Kind → Option (Change.NsDef Kind)) (p : Package) : Package :=
  { p with classes := p.classes.map fun k => if k.prop.isNone then
      { k with ns := nsText (Change.nsOf kindMro ns (true, k.name)) } else k }

end Verif.AS
