import Verif.Jsonld.Value
import Verif.Jsonld.Data

/-!
# Model of jsonld/kamino.py:103-122 `change_class`, and of the wrapped getters (142-186)

Instances have attributes; classes have properties (functions on the attributes of an instance) and constants.  The namespace of a class
is computed by a class method `__get_namespace__` that `change_class` may replace (jsonld/base.py:180-200).
-/
namespace Verif.Jsonld.Change
open Verif Verif.Jsonld

/-- Attributes of an instance (its `__dict__`). (instances seen by jsonld/kamino.py:103-122) -/
abbrev Attrs := PyDict String Val

/-- The functions of a property; without `fset` assigning raises AttributeError. (jsonld/base.py:15-163) -/
structure PropFns where
  get : Attrs → Outcome Val
  set : Option (Attrs → Val → Outcome Unit × Attrs)

/-- What a class (or an ancestor) has for a name. (class attributes seen by jsonld/kamino.py:103-122) -/
inductive Member where
  | prop (p : PropFns)
  | const (v : Val)

/-- `__get_namespace__` of a class: a class method, which gets the class it is called on, or a function without arguments
(jsonld/base.py:189). -/
inductive NsDef (C : Type) where
  | method (f : C → Val)
  | const (v : Val)

/-- The classes: mro, what they have for a name, the class attribute `__properties__` and what `__get_properties__(refresh=True)`
returns. (the classes seen by jsonld/kamino.py:103-122; jsonld/base.py:318-330) -/
structure Lang (C : Type) where
  mro : C → List C
  member : C → String → Option Member
  listed : C → List String
  properties : C → List String

/-- An object: its class, attributes and `__properties__`; and the classes that have their own `__get_namespace__`.
(an object changed by jsonld/kamino.py:103-122) -/
structure Heap (C : Type) where
  cls : C
  attrs : Attrs
  props : List String
  ns : C → Option (NsDef C)

section
variable {C : Type} [DecidableEq C] (L : Lang C)

/-- `cls.__get_namespace__()`: the first definition in the mro (jsonld/base.py:196-200 for none) -/
def nsOf (mro : C → List C) (ns : C → Option (NsDef C)) (c : C) : Val :=
  match (mro c).findSome? ns with
  | some (.method f) => f c
  | some (.const v) => v
  | none => .none

/-- jsonld/base.py:189 `cls.__get_namespace__ = lambda: v` -/
def putNs (ns : C → Option (NsDef C)) (c : C) (v : Val) : C → Option (NsDef C) := fun d => if d = c then some (.const v) else ns d

/-- `getattr(obj, name)`: properties come before attributes of the instance, constants after; `__namespace__` is the property of
jsonld/base.py:181-185. -/
def getattr (h : Heap C) (name : String) : Outcome Val :=
  if name = "__namespace__" then .ok (nsOf L.mro h.ns h.cls)
  else match L.member h.cls name with
    | some (.prop p) => p.get h.attrs
    | some (.const v) => .ok ((h.attrs.dget name).getD v)
    | none => match h.attrs.dget name with
      | some v => .ok v
      | none => .error .attributeError

/-- `getattr(obj, name, None)` (jsonld/kamino.py:109-112) -/
def getOrNone (h : Heap C) (name : String) : Outcome Val :=
  match getattr L h name with
  | .error .attributeError => .ok .none
  | r => r

/-- `setattr(obj, name, v)`; `switched`: the context is CLASS_CHANGE_CONTEXT, in which `__namespace__` has a setter
(jsonld/base.py:187-189). -/
def setattr (switched : Bool) (h : Heap C) (name : String) (v : Val) : Outcome Unit × Heap C :=
  if name = "__namespace__" then
    if switched then (.ok (), { h with ns := putNs h.ns h.cls v }) else (.error .attributeError, h)
  else match L.member h.cls name with
    | some (.prop p) => match p.set with
      | none => (.error .attributeError, h)
      | some f => ((f h.attrs v).1, { h with attrs := (f h.attrs v).2 })
    | _ => (.ok (), { h with attrs := h.attrs.dset name v })

/-- jsonld/kamino.py:109-112: the values of some names -/
def collect (h : Heap C) : List String → Outcome (List (String × Val))
  | [] => .ok []
  | n :: ns => match getOrNone L h n with
    | .error e => .error e
    | .ok v => match collect h ns with
      | .error e => .error e
      | .ok r => .ok ((n, v) :: r)

/-- jsonld/kamino.py:117-121: the loop -/
def setLoop (switched : Bool) (h : Heap C) : List (String × Val) → Outcome Unit × Heap C
  | [] => (.ok (), h)
  | (n, v) :: r => match setattr L switched h n v with
    | (.ok _, h') => setLoop switched h' r
    | (.error .attributeError, h') => setLoop switched h' r
    | (.error e, h') => (.error e, h')

/-- jsonld/kamino.py:103-122 `change_class` (the object is changed in place and returned) -/
def changeClass (switched : Bool) (h : Heap C) (new : C) : Outcome Unit × Heap C :=
  match collect L h (L.listed new) with
  | .error e => (.error e, h)
  | .ok props => match collect L h h.props with
    | .error e => (.error e, h)
    | .ok attrs => setLoop L switched { h with cls := new, props := L.properties new } ((dictOf props).dmerge (dictOf attrs))

/-- jsonld/kamino.py:147-153, 129-135: what is returned by a wrapped getter or method of a packaged class, if the wrapped function returned this
object; `ref` is `object_ref`.  (Anything that is no object of a class in `object_ref` is returned as it is, lists too.) -/
def wrapReturn (ref : C → Option C) (h : Heap C) : Outcome Unit × Heap C :=
  match ref h.cls with
  | none => (.ok (), h)
  | some new => changeClass L true h new

end

end Verif.Jsonld.Change
