import Verif.Jsonld.Mem
import Verif.AS.Property

/-!
# Model of the property setters with lists and dictionaries as objects

`AS/Property.lean` models the setters by the contents of values.  Here values have addresses (`Jsonld/Mem.lean`), so that it can be said what is
copied and what is shared.  Dictionaries with keys that are no texts, and iterables of other classes, are left out.
-/
namespace Verif.AS
open Verif Verif.Jsonld

/-- The outermost part of a value: what the checks of single values look at. (`additional` functions: jsonld/tools/url.py:33-61,
jsonld/tools/number.py:1-5, jsonld/tools/datetime.py:22-30) -/
def shape (m : Mem) : Pv → Val
  | .none => .none
  | .bool b => .bool b
  | .int i => .int i
  | .float n r => .float n r
  | .str s => .str s
  | .ref a => match m.node a with
    | .list _ => .list []
    | .tuple _ => .tuple []
    | .set _ => .set []
    | .dict _ => .dict []
    | .inst c _ => .obj c []
    | .other c r => .other c r

/-- The items of a list, tuple or set. (`isinstance(val, (list, tuple, set))`, jsonld/tools/type.py:15, activitystreams/models.py:234) -/
def itemsOf : Node → Option (List Pv)
  | .list xs => some xs
  | .tuple xs => some xs
  | .set xs => some xs
  | _ => none

/-- A constructor called with keyword arguments. (activitystreams/models.py:229, 232) -/
abbrev CtorIn := PyDict String Pv → Mem → Outcome Pv × Mem

/-- The outcome of a constructor as the outcome of a call. (activitystreams/models.py:229, 232) -/
def lifted : Outcome Pv × Mem → Except Exc Pv × Mem
  | (.error e, m) => (.error (.raised e), m)
  | (.ok v, m) => (.ok v, m)

/-- `validate_url(v.get('href', ''))` for an href that is true (activitystreams/models.py:230-231) -/
def validateUrlIn (env : Env) : Pv → Outcome Bool
  | .str s => validateUrl env.bracketOk false s.toList
  | _ => .error .attributeError

/-- activitystreams/models.py:230-231: the test for dictionaries -/
def linkDictIn (env : Env) (m : Mem) (kvs : PyDict String Pv) : Outcome Bool :=
  if m.truthy ((kvs.dget "href").getD .none) then validateUrlIn env ((kvs.dget "href").getD .none) else .ok false

/-- activitystreams/models.py:224-236 `create_link`; the number is how deep calls may get. -/
def createLinkIn (env : Env) (link : CtorIn) : Nat → Pv → Act Pv
  | _, .none, m => (.ok .none, m)
  | _, .bool b, m => (.ok (.bool b), m)
  | _, .int i, m => (.ok (.int i), m)
  | _, .float n r, m => (.ok (.float n r), m)
  | _, .str s, m => match linkable env s with
    | .error e => (.error (.raised e), m)
    | .ok true => lifted (link [("href", .str s)] m)
    | .ok false => (.ok (.str s), m)
  | 0, .ref _, m => (.error .tooDeep, m)
  | n + 1, .ref a, m => match m.node a with
    | .dict kvs => match linkDictIn env m kvs with
      | .error e => (.error (.raised e), m)
      | .ok true => lifted (link kvs m)
      | .ok false => (.ok (.ref a), m)
    | .list xs => MemEngine.wrap .list (MemEngine.items (createLinkIn env link n) xs m)
    | .tuple xs => MemEngine.wrap .list (MemEngine.items (createLinkIn env link n) xs m)
    | .set xs => MemEngine.wrap .list (MemEngine.items (createLinkIn env link n) xs m)
    | .inst _ _ => (.ok (.ref a), m)
    | .other _ _ => (.ok (.ref a), m)

/-- jsonld/tools/type.py:21-25: a single value -/
def evaluateOne (additional : List Validator) (v : Pv) (m : Mem) : Except Exc Pv × Mem :=
  match runAdditional additional (shape m v) with
  | .error e => (.error (.raised e), m)
  | .ok _ => (.ok v, m)

/-- jsonld/tools/type.py:15-25: after the check of the type -/
def evaluateRest (again : Pv → Act Pv) (additional : List Validator) (v : Pv) (m : Mem) : Except Exc Pv × Mem :=
  match v with
  | .ref a => match itemsOf (m.node a) with
    | some xs => MemEngine.wrap .list (MemEngine.items again xs m)
    | none => evaluateOne additional (.ref a) m
  | v => evaluateOne additional v m

/-- jsonld/tools/type.py:5-25 `evaluate_value`; the number is how deep calls may get. -/
def evaluateIn (mro : String → List String) (functional : Bool) (additional : List Validator) : Nat → List String → Pv → Act Pv
  | 0, _, _, m => (.error .tooDeep, m)
  | n + 1, types, v, m =>
    if !Val.isinstance mro (shape m v) (effTypes types functional) then (.error (.raised .valueError), m)
    else evaluateRest (evaluateIn mro functional additional n (effTypes types functional)) additional v m

/-- jsonld/tools/datetime.py:33-43 `parse_activitystream_datetime`: a parsed date is a new object. -/
def parseIn (env : Env) (v : Pv) (m : Mem) : Except Exc Pv × Mem :=
  match v with
  | .none => (.ok .none, m)
  | .str s => match parseDatetime (.str s.toList) with
    | .error e => (.error (.raised e), m)
    | .ok (.dt t) => (.ok (.ref m.next), m.alloc (.other "datetime" (env.dateRepr t)))
    | .ok _ => (.error (.raised .typeError), m)
  | v => if isDate env (shape m v) then (.ok v, m) else (.error (.raised .typeError), m)

/-- One call after the other. (setters of activitystreams/properties.py) -/
def andThen {α β : Type} (r : Except Exc α × Mem) (f : α → Act β) : Except Exc β × Mem :=
  match r with
  | (.error e, m) => (.error e, m)
  | (.ok v, m) => f v m

/-- activitystreams/models.py:238-241 `linkify`, if the setter is decorated with `Link.from_str` -/
def PropRow.convertIn (env : Env) (link : CtorIn) (n : Nat) (r : PropRow) (v : Pv) : Act Pv := fun m =>
  if r.fromStr then createLinkIn env link n v m else (.ok v, m)

/-- the parsing some setters do (activitystreams/properties.py:1127, 1150, 1175, 1304) -/
def PropRow.parsedIn (env : Env) (r : PropRow) (v : Pv) : Act Pv := fun m =>
  if r.parse then parseIn env v m else (.ok v, m)

/-- The value a setter stores. (setters of activitystreams/properties.py) -/
def PropRow.storesIn (env : Env) (link : CtorIn) (n : Nat) (r : PropRow) (v : Pv) : Act Pv := fun m =>
  andThen (r.convertIn env link n v m) fun u m1 =>
    andThen (evaluateIn env.mro r.functional (r.additional.map (Check.run env)) n r.allTypes u m1) fun w m2 =>
      r.parsedIn env w m2

/-- The class and attributes of the object at an address. (objects of activitystreams/models.py) -/
def attrsAt (m : Mem) (o : Nat) : String × PyDict String Pv :=
  match m.node o with
  | .inst c attrs => (c, attrs)
  | _ => ("", [])

/-- The setter of a property of the object at `o`. (setters of activitystreams/properties.py) -/
def PropRow.setIn (env : Env) (link : CtorIn) (n : Nat) (r : PropRow) (o : Nat) (v : Pv) : Act Unit := fun m =>
  andThen (r.storesIn env link n v m) fun w m1 =>
    (.ok (), m1.write o (.inst (attrsAt m1 o).1 ((attrsAt m1 o).2.dset r.write w)))

/-- The undecorated getter: the attribute itself. (getters of activitystreams/properties.py) -/
def PropRow.storedIn (r : PropRow) (m : Mem) (o : Nat) : Outcome Pv :=
  match (attrsAt m o).2.dget r.read with
  | some v => .ok v
  | none => if r.strict then .error .attributeError else .ok .none

/-- What a constructor assigns to: a property, or (the context of the object) an attribute that is kept as it is. (`__init__` in
activitystreams/models.py, jsonld/jsonld.py:34-43) -/
inductive Target where
  | prop (r : PropRow)
  | plain (key : String)

/-- One assignment. (`__init__` in activitystreams/models.py, jsonld/jsonld.py:34-43) -/
def Target.setIn (env : Env) (link : CtorIn) (n : Nat) (o : Nat) (v : Pv) : Target → Act Unit
  | .prop r, m => r.setIn env link n o v m
  | .plain k, m => (.ok (), m.write o (.inst (attrsAt m o).1 ((attrsAt m o).2.dset k v)))

/-- The assignments of a constructor, one after the other. (`__init__` in activitystreams/models.py) -/
def assignAll (env : Env) (link : CtorIn) (n : Nat) (o : Nat) : List (Target × Pv) → Act Unit
  | [], m => (.ok (), m)
  | (t, v) :: rest, m => andThen (t.setIn env link n o v m) fun _ m1 => assignAll env link n o rest m1

/-- A constructor: a new object, whose properties are then assigned; `plan` says what is assigned for which arguments. (`__init__` in
activitystreams/models.py; what is assigned: `AS/Model.lean`) -/
def buildIn (env : Env) (link : CtorIn) (n : Nat) (cls : String) (plan : PyDict String Pv → List (Target × Pv)) (args : PyDict String Pv) (m : Mem) :
    Except Exc Pv × Mem :=
  andThen (assignAll env link n m.next (plan args) (m.alloc (.inst cls []))) fun _ m1 => (.ok (.ref m.next), m1)

end Verif.AS
