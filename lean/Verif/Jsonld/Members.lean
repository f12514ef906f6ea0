import Verif.Py
import Mathlib.Data.List.Dedup

/-!
# Model of the cached class attributes of jsonld/base.py

`__properties__`, `__property_name__` and `__registration__` are stored on the class that asked for them first; `hasattr` and attribute
access look for them in the whole mro.
-/
namespace Verif.Jsonld.Members
open Verif

/-- Classes: their mro (which begins with the class) and the names of the property objects in their own `__dict__`, in order.
(the classes seen by jsonld/base.py:228-334) -/
structure Family (C : Type) where
  mro : C → List C
  own : C → List String

/-- A class attribute that is set on some classes. (jsonld/base.py:254-291, 318-330) -/
abbrev Attr (C V : Type) := C → Option V

/-- What is set on the classes. (jsonld/base.py:254-291, 318-330) -/
structure State (C : Type) where
  properties : Attr C (List String) := fun _ => none
  name : Attr C String := fun _ => none
  registration : Attr C (Option (C × String)) := fun _ => none

section
variable {C : Type} [DecidableEq C]

/-- `setattr(cls, …, v)` (jsonld/base.py:254-291, 318-330) -/
def Attr.put {V : Type} (a : Attr C V) (c : C) (v : V) : Attr C V := fun d => if d = c then some v else a d

/-- `getattr(cls, …)`: the first class of the mro that has it; `none`: no class has it (`hasattr` is false).
(jsonld/base.py:254-291, 318-330) -/
def Attr.find {V : Type} (F : Family C) (a : Attr C V) (c : C) : Option V := (F.mro c).findSome? a

/-- jsonld/base.py:326-329: all property names of the mro, each once (in no particular order in the code) -/
def allProperties (F : Family C) (c : C) : List String := ((F.mro c).flatMap F.own).dedup

/-- jsonld/base.py:318-330 `__get_properties__` -/
def getProperties (F : Family C) (refresh : Bool) (c : C) (s : State C) : List String × State C :=
  match s.properties.find F c, refresh with
  | some v, false => (v, s)
  | _, _ => (allProperties F c, { s with properties := s.properties.put c (allProperties F c) })

/-- jsonld/base.py:253-271 `__get_property_name__` -/
def getPropertyName (F : Family C) (refresh : Bool) (c : C) (s : State C) : Outcome String × State C :=
  match s.name.find F c, refresh with
  | some v, false => (.ok v, s)
  | _, _ => match F.own c with
    | [n] => (.ok n, { s with name := s.name.put c n })
    | _ => (.error .valueError, s)

/-- `getattr(cls, name, None)` of a property name: the property object of the first class of the mro that has it (as class and name).
Names that are attributes but no properties are not modelled. (jsonld/base.py:274-291) -/
def lookup (F : Family C) (c : C) (n : String) : Option (C × String) := ((F.mro c).find? fun a => (F.own a).contains n).map fun a => (a, n)

/-- jsonld/base.py:281-282 -/
def ensureName (F : Family C) (refresh : Bool) (c : C) (s : State C) : Outcome Unit × State C :=
  match s.name.find F c, refresh with
  | some _, false => (.ok (), s)
  | _, _ => match getPropertyName F true c s with
    | (.error e, s') => (.error e, s')
    | (.ok n, s') => (.ok (), { s' with name := s'.name.put c n })

/-- jsonld/base.py:273-291 `__get_registration__`: which property object's functions -/
def getRegistration (F : Family C) (refresh : Bool) (c : C) (s : State C) : Outcome (Option (C × String)) × State C :=
  match ensureName F refresh c s with
  | (.error e, s') => (.error e, s')
  | (.ok _, s') => match s'.registration.find F c, refresh with
    | some v, false => (.ok v, s')
    | _, _ => match (s'.name.find F c).bind (lookup F c) with
      | v => (.ok v, { s' with registration := s'.registration.put c v })

/-- A call.  Creating an object calls `properties false` (jsonld/base.py:301-302); a property object calls `name false` and
`registration false` (240-242); cloning calls `properties true` and `name false` (jsonld/kamino.py:167-174). -/
inductive Call (C : Type) where
  | properties (refresh : Bool) (c : C)
  | name (refresh : Bool) (c : C)
  | registration (refresh : Bool) (c : C)

/-- The state after a call. (jsonld/base.py:254-291, 318-330) -/
def Call.run (F : Family C) (s : State C) : Call C → State C
  | .properties r c => (getProperties F r c s).2
  | .name r c => (getPropertyName F r c s).2
  | .registration r c => (getRegistration F r c s).2

/-- The state after a history of calls, from the start. (histories of jsonld/base.py:254-291, 318-330) -/
def after (F : Family C) (h : List (Call C)) : State C := h.foldl (Call.run F) {}

end

end Verif.Jsonld.Members
