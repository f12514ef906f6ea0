import Verif.Py
import Verif.PyDict

/-!
# Shape of the tables of the ActivityStreams package
-/
namespace Verif.AS

/-- What the getter registered for JSON_DATA_CONTEXT does (properties.py): none registered, `Link.href_only`,
`datetime_str` of datetimes, `timedelta_str` of timedeltas, `Link.href_only` over `datetime_str` (Closed). -/
inductive JsonForm where
  | default | href | date | delta | hrefDate
  deriving DecidableEq

/-- The additional validation functions used. (`additional` in the setters of activitystreams/properties.py) -/
inductive Check where
  | url | nonnegative | datetime
  deriving DecidableEq

/-- A property class of activitystreams/properties.py: class name and line; property name; the attribute its getter reads,
whether without default (`strict`), whether the getter is decorated with `Link.expand`; the JSON getter; the attribute its setter
writes, whether decorated with `Link.from_str`, whether it parses datetimes; the arguments of `SetterValidator`. -/
structure PropRow where
  cls : String
  line : Nat
  name : String
  read : String
  strict : Bool
  expand : Bool
  json : JsonForm
  write : String
  fromStr : Bool
  parse : Bool
  types : List String
  functional : Bool
  additional : List Check
  deriving DecidableEq

/-- A statement of a constructor of activitystreams/models.py. -/
inductive Stmt where
  /-- `super().__init__(...)` (none) or `Base.__init__(self, ...)`; keyword and parameter names; whether `**kwargs` is passed on -/
  | call (base : Option String) (args : List (String × String)) (star : Bool)
  /-- `self.attr = param` -/
  | set (attr param : String)
  /-- `self.attr = getattr(self, 'attr', param)` -/
  | keepOr (attr param : String)
  /-- `self.attr = param if param else 0` -/
  | orZero (attr param : String)
  /-- `self.attr = param if param else (0 if not isinstance(self.items, Sized) else len(self.items))` -/
  | total (attr param items : String)
  deriving DecidableEq

/-- A constructor: its line, parameters (all but the required ones default to None, `acontext` to the ActivityStreams
namespace; all take `**kwargs`) and statements. (`__init__` in activitystreams/models.py) -/
structure Init where
  line : Nat
  params : List String
  required : List String
  body : List Stmt
  deriving DecidableEq

/-- A class of activitystreams/models.py: name, line, `type`, bases and constructor. -/
structure ClassRow where
  cls : String
  line : Nat
  type : String
  bases : List String
  init : Option Init
  deriving DecidableEq

end Verif.AS
