import Verif.Py
import Verif.PyDict

/-!
# Python values handled by the jsonld and activitystreams packages
-/
namespace Verif.Jsonld

/-- A dictionary key: a string or something else (only its `str()` is known). (values handled by jsonld/jsonld.py:45-101) -/
inductive Key where
  | str (s : String)
  | other (repr : String)
  deriving DecidableEq

/-- Values.  A float is known by its sign and text; `iter` is an iterable of any other class
than list, tuple, set, dict and str (by its class name and its items); `obj` is a `PropertyJsonLD`
object: class name and properties with their values; `other` is anything else, by class name and
`str()`.  Subclasses of list, tuple and set, and values containing themselves, are not
modelled. (values handled by jsonld/jsonld.py:45-101) -/
inductive Val where
  | none
  | bool (b : Bool)
  | int (i : Int)
  | float (negative : Bool) (repr : String)
  | str (s : String)
  | list (xs : List Val)
  | tuple (xs : List Val)
  | set (xs : List Val)
  | dict (kvs : List (Key × Val))
  | iter (cls : String) (xs : List Val)
  | obj (cls : String) (fields : List (String × Val))
  | other (cls : String) (repr : String)

/-- Python class names of a value's type and its bases (`type(v).__mro__`); `mro` gives them for
the classes that are not built in. (`isinstance` in jsonld/jsonld.py:45-63 and jsonld/tools/type.py:5-25) -/
def Val.classes (mro : String → List String) : Val → List String
  | .none => ["NoneType", "object"]
  | .bool _ => ["bool", "int", "object"]
  | .int _ => ["int", "object"]
  | .float _ _ => ["float", "object"]
  | .str _ => ["str", "object"]
  | .list _ => ["list", "object"]
  | .tuple _ => ["tuple", "object"]
  | .set _ => ["set", "object"]
  | .dict _ => ["dict", "object"]
  | .iter c _ => mro c
  | .obj c _ => mro c
  | .other c _ => mro c

/-- `isinstance(v, types)` (jsonld/jsonld.py:45-63, jsonld/tools/type.py:5-25) -/
def Val.isinstance (mro : String → List String) (v : Val) (types : List String) : Bool :=
  (v.classes mro).any fun c => types.contains c

end Verif.Jsonld
