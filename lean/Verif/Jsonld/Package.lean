import Verif.Jsonld.Value
import Verif.Jsonld.Data

/-!
# Model of jsonld/package.py and jsonld/engine/jsonld_engine.py

Classes are records; a package holds the clones of the classes it was given (cloning itself is modelled
in Clone.lean and a parameter here) and refers to them by position.
-/
namespace Verif.Jsonld

/-- A class in a package: `__name__`, `__get_namespace__()`, for a JsonProperty class its
`__get_property_name__()` and (a number for) its `__get_registration__()` (jsonld/base.py:253-291), the names of the
`@property` members it has besides linked ones, the positions of the classes of the package in its mro
(itself included), and what `link_property` has set on it. -/
structure Cls where
  name : String
  ns : Option String
  prop : Option (String × Nat) := none
  own : List String := []
  up : List Nat := []
  linked : PyDict String Nat := []

/-- jsonld/package.py:14-39 `JsonLdPackage`: the classes (objects first, then properties), how many are
objects, and the `__ref` dictionary. -/
structure Package where
  pubns : String
  classes : List Cls
  nobj : Nat
  ref : PyDict (Option String) Nat

/-- A property mapping: class namespace to property namespaces. (jsonld/package.py:89-97) -/
abbrev Mapping := PyDict String (List String)

namespace Package

/-- jsonld/package.py:59-65 `objects` -/
def objects (p : Package) : List Cls := p.classes.take p.nobj

/-- jsonld/package.py:75-77 `properties` -/
def properties (p : Package) : List Cls := p.classes.drop p.nobj

/-- jsonld/package.py:36-37: `{obj.__get_namespace__(): obj for obj in self.objects + self.properties}` -/
def refOf (cs : List Cls) : PyDict (Option String) Nat := dictOf (cs.zipIdx.map fun p => (p.1.ns, p.2))

/-- jsonld/package.py:135-137 `__getitem__` of a string -/
def get (p : Package) (key : String) : Option Nat := p.ref.dget (some key)

/-- jsonld/package.py:138-140 `__getitem__` of an iterable; a key that is not a string is `none`. -/
def getMany (p : Package) (keys : List (Option String)) : Outcome (List (Option Nat)) :=
  if keys.any (·.isNone) then .error .valueError else .ok (keys.map fun k => p.ref.dget k)

/-- Change one class. (jsonld/package.py:99-111) -/
def modify (p : Package) (i : Nat) (f : Cls → Cls) : Package :=
  { p with classes := p.classes.modify i f }

/-- jsonld/package.py:99-111 `link_property` (property class at `pc`, class at `oc`) -/
def linkProperty (p : Package) (pc oc : Nat) : Outcome Unit × Package :=
  match (p.classes[pc]?).bind (·.prop) with
  | none => (.error .attributeError, p)
  | some (n, r) => (.ok (), p.modify oc fun c => { c with linked := c.linked.dset n r })

/-- jsonld/package.py:119-124: the loop of `link_properties` -/
def linkLoop (p : Package) (oc : Nat) : List String → Outcome Unit × Package
  | [] => (.ok (), p)
  | q :: qs => match p.get q with
    | none => (.error .valueError, p)
    | some pc => match p.linkProperty pc oc with
      | (.error e, p') => (.error e, p')
      | (.ok _, p') => linkLoop p' oc qs

/-- jsonld/package.py:113-124 `link_properties` -/
def linkProperties (p : Package) (props : List String) (obj : String) : Outcome Unit × Package :=
  match p.get obj with
  | none => (.error .valueError, p)
  | some oc => p.linkLoop oc props

/-- jsonld/package.py:89-95: the loop of `__perform_mapping` -/
def performMapping (p : Package) : Mapping → Outcome Unit × Package
  | [] => (.ok (), p)
  | (o, ps) :: m => match p.linkProperties ps o with
    | (.error e, p') => (.error e, p')
    | (.ok _, p') => performMapping p' m

/-- The result of cloning a list of classes. (jsonld/kamino.py:50-101) -/
abbrev Cloner := List Cls → Outcome (List Cls)

/-- jsonld/package.py:89-90 `self.property_mapping.items()` fails if no mapping is given (default None). -/
def withMapping (p : Package) : Option Mapping → Outcome Package
  | none => .error .attributeError
  | some m => match p.performMapping m with
    | (.error e, _) => .error e
    | (.ok _, p') => .ok p'

/-- jsonld/package.py:22-39 `__init__` -/
def new (clone : Cloner) (ns : String) (objects properties : List Cls) (mapping : Option Mapping) : Outcome Package :=
  match clone objects with
  | .error e => .error e
  | .ok os => match clone properties with
    | .error e => .error e
    | .ok ps => withMapping ⟨ns, os ++ ps, os.length, refOf (os ++ ps)⟩ mapping

/-- jsonld/base.py:318-330 `__get_properties__(refresh=True)` of class `i` (as a set): its own properties and
those linked to a class of its mro; jsonld/package.py:96-97 refreshes all objects at the end of construction. -/
def propertiesOf (p : Package) (i : Nat) : List String := match p.classes[i]? with
  | none => []
  | some c => (c.own ++ c.up.flatMap fun j => match p.classes[j]? with
    | none => []
    | some d => d.linked.dkeys).dedup

/-- The classes of `xs` whose namespace is not one of `ys` (jsonld/package.py:149-151, 164-166). -/
def notIn (xs ys : List Cls) : List Cls := xs.filter fun c => !(ys.map (·.ns)).contains c.ns

/-- jsonld/package.py:146-160 `__add__` -/
def add (clone : Cloner) (p q : Package) : Outcome Package :=
  new clone p.pubns (notIn p.objects q.objects ++ q.objects) (notIn p.properties q.properties ++ q.properties) none

/-- jsonld/package.py:162-175 `__sub__` (line 170 iterates over the properties of `other`) -/
def sub (clone : Cloner) (p q : Package) : Outcome Package :=
  new clone p.pubns (notIn p.objects q.objects) (notIn q.properties q.properties) none

end Package

/-! ### Engines -/

/-- What can be given to an engine: a package, a tuple/list, an engine, something else. (jsonld/engine/jsonld_engine.py:15-32) -/
inductive Arg where
  | pkg (p : Package)
  | seq (xs : List Arg)
  | engine (packages : List Arg)
  | other

/-- jsonld/engine/jsonld_engine.py:13 `JsonLdEngine`: the tuple of packages, the class registry (namespace to
position in the package) and the attributes named after the classes. -/
structure EngineObj where
  packages : List Arg
  registry : PyDict (Option String) Nat
  attrs : PyDict String Nat

/-- jsonld/engine/jsonld_engine.py:59-70 `register_class` (69-70, the reference to the engine, is in `System`) -/
def registerClass (reg : PyDict (Option String) Nat) (ns : Option String) (cls : Nat) :
    Outcome Unit × PyDict (Option String) Nat :=
  if ns ∈ reg.dkeys then (.error .valueError, reg) else (.ok (), reg.dset ns cls)

/-- jsonld/engine/jsonld_engine.py:45-48: the first loop of `__load_objects` -/
def loadClasses (reg : PyDict (Option String) Nat) : List (Option String × Nat) → PyDict (Option String) Nat
  | [] => reg
  | (ns, cls) :: cs => loadClasses (if ns ∈ reg.dkeys then reg else (registerClass reg ns cls).2) cs

/-- jsonld/engine/jsonld_engine.py:50-57: the second loop: an attribute for each registered class -/
def loadAttrs (name : Nat → String) (reg : PyDict (Option String) Nat) : PyDict String Nat :=
  dictOf (reg.map fun p => (name p.2, p.2))

namespace EngineObj

/-- jsonld/engine/jsonld_engine.py:15-32 `__init__`: `packages is not Iterable` compares with the abstract class, so the argument
is always put in a 1-tuple; its only item must have an `objects` attribute (line 45). -/
def new (packages : Arg) : Outcome EngineObj := match packages with
  | .pkg p =>
    let reg := loadClasses [] (p.objects.zipIdx.map fun c => (c.1.ns, c.2))
    .ok ⟨[.pkg p], reg, loadAttrs (fun i => ((p.objects[i]?).map (·.name)).getD "") reg⟩
  | _ => .error .attributeError

/-- jsonld/engine/jsonld_engine.py:91-101 `__add__`: with a package, a tuple and a package are added (TypeError); with an engine
the tuples are concatenated. -/
def add (e : EngineObj) : Arg → Outcome EngineObj
  | .pkg _ => .error .typeError
  | .engine ps => new (.seq (e.packages ++ ps))
  | _ => .error .typeError

/-- jsonld/engine/jsonld_engine.py:103-111 `__sub__`: tuples cannot be subtracted. -/
def sub (_e : EngineObj) : Arg → Outcome EngineObj
  | .pkg _ => .error .typeError
  | .engine _ => .error .typeError
  | _ => .error .typeError

/-- What `engine[...]` is given: text, a list or tuple (an item that is not a string is `none`), or else.
(jsonld/engine/jsonld_engine.py:74-89) -/
inductive Sel where
  | text (s : String)
  | many (xs : List (Option String))
  | other

/-- A returned object or list. (jsonld/engine/jsonld_engine.py:74-89) -/
inductive Got (V : Type) where
  | one (v : V)
  | many (vs : List V)

/-- The objects made from texts in order, or the first exception. (jsonld/engine/jsonld_engine.py:74-89) -/
def loadAll {V : Type} (fromText : String → Outcome V) : List String → Outcome (List V)
  | [] => .ok []
  | s :: ss => match fromText s with
    | .error e => .error e
    | .ok v => match loadAll fromText ss with
      | .error e => .error e
      | .ok vs => .ok (v :: vs)

/-- jsonld/engine/jsonld_engine.py:74-89 `__getitem__`; `fromText` is `from_json` of a text. -/
def getitem {V : Type} (fromText : String → Outcome V) : Sel → Outcome (Got V)
  | .other => .error .typeError
  | .text s => match fromText s with
    | .error e => .error e
    | .ok v => .ok (.one v)
  | .many xs =>
    if xs.any (·.isNone) then .error .typeError
    else match loadAll fromText (xs.filterMap id) with
      | .error e => .error e
      | .ok vs => .ok (.many vs)

end EngineObj

/-! ### Registrations in several engines -/

/-- Several engines (by number) with their registries, and the engine each class refers to
(`cls.__jsonld_engine__`, jsonld/engine/jsonld_engine.py:70); classes are global here. -/
structure System where
  regs : PyDict Nat (PyDict (Option String) Nat)
  back : PyDict Nat Nat

/-- jsonld/engine/jsonld_engine.py:59-70 `engine.register_class(ns, cls)` -/
def System.register (s : System) (e : Nat) (ns : Option String) (cls : Nat) : Outcome Unit × System :=
  match registerClass ((s.regs.dget e).getD []) ns cls with
  | (.error x, _) => (.error x, s)
  | (.ok _, reg) => (.ok (), ⟨s.regs.dset e reg, s.back.dset cls e⟩)

/-- A sequence of calls of `register_class`: engine, name and class. (histories of jsonld/engine/jsonld_engine.py:59-72) -/
def System.run (s : System) : List (Nat × Option String × Nat) → System
  | [] => s
  | (e, ns, cls) :: ops => run (s.register e ns cls).2 ops

/-! ### Assignments to the attributes of a package -/

/-- The attributes of a package that have setters; class lists are lists of names here. (jsonld/package.py:41-87) -/
structure Fields where
  pubns : Option String := none
  objects : List String := []
  properties : List String := []

/-- An assignment; a namespace that is not a string is `none`; an item that is not a class with a namespace is `none`.
(jsonld/package.py:41-87) -/
inductive Assign where
  | pubns (v : Option String)
  | objects (v : List (Option String))
  | properties (v : List (Option String))

/-- jsonld/package.py:49-57, 67-73, 79-87: the setters. -/
def Fields.assign (f : Fields) : Assign → Outcome Unit × Fields
  | .pubns v =>
    if f.pubns.any (· ≠ "") then (.error .attributeError, f)
    else match v with
      | none => (.error .typeError, f)
      | some s => (.ok (), { f with pubns := some s })
  | .objects v =>
    if f.objects ≠ [] then (.error .attributeError, f)
    else if v.any (·.isNone) then (.error .attributeError, f)
    else (.ok (), { f with objects := v.filterMap id })
  | .properties v =>
    if f.properties ≠ [] then (.error .attributeError, f)
    else if v.any (·.isNone) then (.error .attributeError, f)
    else (.ok (), { f with properties := v.filterMap id })

/-- A sequence of assignments. (histories of jsonld/package.py:41-87) -/
def Fields.run (f : Fields) (as : List Assign) : Fields := as.foldl (fun f a => (f.assign a).2) f

end Verif.Jsonld
