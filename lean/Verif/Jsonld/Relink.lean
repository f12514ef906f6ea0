import Verif.Jsonld.Data

/-!
# Model of changes to the links of a package after its construction

jsonld/package.py:99-133 `link_property`, `update_property_link`, `remove_property_link` change the dictionary of a class;
jsonld/base.py:318-330 keeps the list of property names as a class attribute, which jsonld/package.py:96-97 sets for each class at the end
of construction, and each object gets a reference to it when it is made (jsonld/base.py:301-302).
-/
namespace Verif.Jsonld.Relink
open Verif Verif.Jsonld

/-- The classes of a package (and their ancestors): mro, the property members of the class dictionary with the registration (getter and
setter) each has, and the class attribute `__properties__`. (jsonld/package.py:22-39, jsonld/base.py:318-330) -/
structure Classes (C R : Type) where
  mro : C → List C
  own : C → PyDict String R
  cached : C → List String

section
variable {C R : Type} [DecidableEq C]

/-- Attribute lookup of a property: the first class of the mro that has it. (Python language rule, for jsonld/package.py:99-133) -/
def lookup (k : Classes C R) (c : C) (n : String) : Option R := (k.mro c).findSome? fun d => (k.own d).dget n

/-- jsonld/base.py:326-329: all property names in the mro, each once (in no particular order in the code) -/
def current (k : Classes C R) (c : C) : List String := ((k.mro c).flatMap fun d => (k.own d).dkeys).dedup

/-- The dictionary of a class is replaced. (jsonld/package.py:110-111, 128-129, 133) -/
def Classes.put (k : Classes C R) (c : C) (d : PyDict String R) : Classes C R := { k with own := fun x => if x = c then d else k.own x }

/-- A change: `link_property`/`update_property_link` of a property with this name and registration, `remove_property_link`, or
`cls.__get_properties__(refresh=True)`. (jsonld/package.py:99-133, jsonld/base.py:318-330) -/
inductive Change (C R : Type) where
  | link (c : C) (n : String) (r : R)
  | remove (c : C) (n : String)
  | refresh (c : C)

/-- jsonld/package.py:110-111 and 128-129 (`setattr`), 133 (`delattr`, AttributeError if the class itself does not have it),
jsonld/base.py:324-330 -/
def Change.run (k : Classes C R) : Change C R → Outcome Unit × Classes C R
  | .link c n r => (.ok (), k.put c ((k.own c).dset n r))
  | .remove c n => if n ∈ (k.own c).dkeys then (.ok (), k.put c ((k.own c).ddel n)) else (.error .attributeError, k)
  | .refresh c => (.ok (), { k with cached := fun x => if x = c then current k c else k.cached x })

/-- A sequence of changes; failing ones change nothing. (histories of jsonld/package.py:99-133) -/
def Change.runAll (k : Classes C R) (h : List (Change C R)) : Classes C R := h.foldl (fun k x => (x.run k).2) k

/-- jsonld/package.py:22-39: after construction every class has its list. -/
def built (mro : C → List C) (own : C → PyDict String R) : Classes C R := ⟨mro, own, fun c => current ⟨mro, own, fun _ => []⟩ c⟩

/-- The names an object of class `c` made now will list. (jsonld/base.py:301-302) -/
def listedBy (k : Classes C R) (c : C) : List String := k.cached c

/-- jsonld/jsonld.py:85-95 for an object of class `c` with the list `names` made when it was created: each name is looked up; a name that is
no longer there raises AttributeError (`getattr(self, prop)`, line 90).  The result is which getter is used for which name. -/
def written (k : Classes C R) (c : C) : List String → Outcome (List (String × R))
  | [] => .ok []
  | n :: ns => match lookup k c n with
    | none => .error .attributeError
    | some r => match written k c ns with
      | .error e => .error e
      | .ok l => .ok ((n, r) :: l)

end

end Verif.Jsonld.Relink
