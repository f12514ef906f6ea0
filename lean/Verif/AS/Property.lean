import Verif.AS.Link
import Verif.AS.Tables
import Verif.Jsonld.Validate

/-!
# Model of the property classes of activitystreams/properties.py

What a row of `propTable` means: the setter, the getter and the JSON getter of one property, on an object given by its
attributes.
-/
namespace Verif.AS
open Verif Verif.Jsonld

/-- Attributes of an object (its `__dict__`). (objects of activitystreams/models.py) -/
abbrev Slots := List (String × Val)

/-- activitystreams/properties.py:672: the class statement `class Object(ActivityStreamsProperty)` rebinds the name `Object`, so the setters
declared after it mean the property class when they say `Object`. -/
def resolveType (line : Nat) (t : String) : String :=
  if t == "Object" && 672 < line then "properties.Object" else t

/-- jsonld/tools/type.py:44-45: the types of the setter, with None. -/
def PropRow.allTypes (r : PropRow) : List String := "NoneType" :: r.types.map (resolveType r.line)

/-- jsonld/tools/datetime.py:22-30 `is_activity_datetime` of any value -/
def checkDatetime : Validator
  | .str s => isActivityDatetime (.str s.toList)
  | _ => .ok ()

/-- The additional validation functions. (jsonld/tools/url.py:33-61, jsonld/tools/number.py:1-5, jsonld/tools/datetime.py:22-30) -/
def Check.run (env : Env) : Check → Validator
  | .url => validateUrlCheck env.bracketOk
  | .nonnegative => isNonnegative
  | .datetime => checkDatetime

/-- `isinstance(v, datetime)` (activitystreams/properties.py, e.g. 1119) -/
def isDate (env : Env) (v : Val) : Bool := v.isinstance env.mro ["datetime"]

/-- `isinstance(v, timedelta)` (activitystreams/properties.py:956-990) -/
def isDelta (env : Env) (v : Val) : Bool := v.isinstance env.mro ["timedelta"]

/-- jsonld/tools/datetime.py:33-43 `parse_activitystream_datetime` of any value; a regular expression searched in something that is
no string raises TypeError. -/
def parseVal (env : Env) : Val → Outcome Val
  | .none => .ok .none
  | .str s => match parseDatetime (.str s.toList) with
    | .error e => .error e
    | .ok (.dt t) => .ok (.other "datetime" (env.dateRepr t))
    | .ok _ => .error .typeError
  | v => if isDate env v then .ok v else .error .typeError

/-- activitystreams/models.py:238-241 `linkify`, if the setter is decorated with `Link.from_str` -/
def PropRow.convert (env : Env) (mk : Ctor) (r : PropRow) (v : Val) : Outcome Val :=
  if r.fromStr then createLink env mk v else .ok v

/-- jsonld/tools/type.py:47-55 `check_val` -/
def PropRow.check (env : Env) (r : PropRow) (v : Val) : Outcome Val :=
  evaluate env.mro r.functional (r.additional.map (Check.run env)) r.allTypes v

/-- the parsing some setters do (activitystreams/properties.py:1127, 1150, 1175, 1304) -/
def PropRow.parsed (env : Env) (r : PropRow) (v : Val) : Outcome Val :=
  if r.parse then parseVal env v else .ok v

/-- The value a setter stores. (setters of activitystreams/properties.py) -/
def PropRow.stores (env : Env) (mk : Ctor) (r : PropRow) (v : Val) : Outcome Val :=
  match r.convert env mk v with
  | .error e => .error e
  | .ok u => match r.check env u with
    | .error e => .error e
    | .ok w => r.parsed env w

/-- The setter of a property: outcome and attributes afterwards (properties.py, all setters). -/
def PropRow.set (env : Env) (mk : Ctor) (r : PropRow) (s : Slots) (v : Val) : Outcome Unit × Slots :=
  match r.stores env mk v with
  | .error e => (.error e, s)
  | .ok w => (.ok (), s.dset r.write w)

/-- The value the undecorated getter returns. (getters of activitystreams/properties.py) -/
def PropRow.stored (r : PropRow) (s : Slots) : Outcome Val :=
  match s.dget r.read with
  | some v => .ok v
  | none => if r.strict then .error .attributeError else .ok .none

/-- The getter of a property: outcome and requests made. (getters of activitystreams/properties.py) -/
def PropRow.get {J : Type} (w : Web J) (r : PropRow) (s : Slots) : Outcome Val × List Val :=
  match r.stored s with
  | .error e => (.error e, [])
  | .ok v => if r.expand then (.ok (w.expand v).1, (w.expand v).2) else (.ok v, [])

/-- `datetime_str` of datetimes (the value is unknown if the environment does not know the datetime)
(getters of activitystreams/properties.py for dates in JSON_DATA_CONTEXT) -/
def dateForm (env : Env) (v : Val) : Val :=
  match v with
  | .other _ r => if isDate env v then .str (match env.dateOf r with | some t => String.ofList (datetimeStr t) | none => r) else v
  | v => v

/-- `timedelta_str` of timedeltas (activitystreams/properties.py:956-990) -/
def deltaForm (env : Env) (v : Val) : Val :=
  match v with
  | .other _ r => if isDelta env v then .str (match env.deltaOf r with | some t => String.ofList (timedeltaStr t) | none => r) else v
  | v => v

/-- The getter used in JSON_DATA_CONTEXT: outcome and requests made.  Without a getter for this context the ordinary one is used
(jsonld/base.py:86-100). -/
def PropRow.jsonValue {J : Type} (env : Env) (w : Web J) (r : PropRow) (s : Slots) : Outcome Val × List Val :=
  match r.json with
  | .default => r.get w s
  | .href => match r.stored s with
    | .error e => (.error e, [])
    | .ok v => (.ok (hrefOnly env v), [])
  | .date => match r.stored s with
    | .error e => (.error e, [])
    | .ok v => (.ok (dateForm env v), [])
  | .delta => match r.stored s with
    | .error e => (.error e, [])
    | .ok v => (.ok (deltaForm env v), [])
  | .hrefDate => match r.stored s with
    | .error e => (.error e, [])
    | .ok v => (.ok (hrefOnly env (dateForm env v)), [])

end Verif.AS
