import Verif.Jsonld.Value

/-!
# Model of jsonld/tools/type.py and jsonld/tools/number.py
-/
namespace Verif.Jsonld

/-- An additional validation function; it rejects a value by raising. (jsonld/tools/type.py:28-45) -/
abbrev Validator := Val → Outcome Unit

/-- jsonld/tools/type.py:21-24: the loop over the additional functions. -/
def runAdditional : List Validator → Val → Outcome Unit
  | [], _ => .ok ()
  | f :: fs, v => match f v with
    | .error e => .error e
    | .ok _ => runAdditional fs v

/-- jsonld/tools/type.py:8-9: the types that are really tested. -/
def effTypes (types : List String) (functional : Bool) : List String :=
  if functional && !types.contains "list" then types else "list" :: types

mutual
/-- jsonld/tools/type.py:5-25 `evaluate_value` -/
def evaluate (mro : String → List String) (functional : Bool) (additional : List Validator) :
    List String → Val → Outcome Val
  | types, .list xs =>
    if !Val.isinstance mro (.list xs) (effTypes types functional) then .error .valueError
    else match evaluateAll mro functional additional (effTypes types functional) xs with
      | .error e => .error e
      | .ok ys => .ok (.list ys)
  | types, .tuple xs =>
    if !Val.isinstance mro (.tuple xs) (effTypes types functional) then .error .valueError
    else match evaluateAll mro functional additional (effTypes types functional) xs with
      | .error e => .error e
      | .ok ys => .ok (.list ys)
  | types, .set xs =>
    if !Val.isinstance mro (.set xs) (effTypes types functional) then .error .valueError
    else match evaluateAll mro functional additional (effTypes types functional) xs with
      | .error e => .error e
      | .ok ys => .ok (.list ys)
  | types, v =>
    if !Val.isinstance mro v (effTypes types functional) then .error .valueError
    else match runAdditional additional v with
      | .error e => .error e
      | .ok _ => .ok v
/-- jsonld/tools/type.py:18-20: the list comprehension. -/
def evaluateAll (mro : String → List String) (functional : Bool) (additional : List Validator) :
    List String → List Val → Outcome (List Val)
  | _, [] => .ok []
  | types, x :: xs =>
    match evaluate mro functional additional types x with
    | .error e => .error e
    | .ok y => match evaluateAll mro functional additional types xs with
      | .error e => .error e
      | .ok ys => .ok (y :: ys)
end

/-- jsonld/tools/type.py:28-45 `SetterValidator.__init__` -/
structure SetterValidator where
  types : List String
  functional : Bool := false
  additional : List Validator := []
  noneAllowed : Bool := true

/-- jsonld/tools/type.py:44-45 -/
def SetterValidator.allTypes (s : SetterValidator) : List String :=
  if s.noneAllowed then "NoneType" :: s.types else s.types

/-- jsonld/tools/type.py:47-55 `check` on a setter that stores its argument in a slot: the outcome and the slot
afterwards. -/
def SetterValidator.assign (s : SetterValidator) (mro : String → List String) (slot v : Val) : Outcome Unit × Val :=
  match evaluate mro s.functional s.additional s.allTypes v with
  | .error e => (.error e, slot)
  | .ok w => (.ok (), w)

/-- jsonld/tools/number.py:1-5 `is_nonnegative`; comparing anything but a number with 0 raises
TypeError. -/
def isNonnegative : Validator
  | .none => .ok ()
  | .bool _ => .ok ()
  | .int i => if i < 0 then .error .valueError else .ok ()
  | .float neg _ => if neg then .error .valueError else .ok ()
  | _ => .error .typeError

end Verif.Jsonld
