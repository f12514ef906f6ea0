import Verif.Jsonld.Intake
import Mathlib.Logic.Function.Basic

/-!
# Model of jsonld/engine/json_input.py with lists and dictionaries as objects

`Jsonld/Intake.lean` models documents by their contents.  Here lists, dictionaries and instances have addresses, so that it can be said which
of them are changed and which are shared.  The result of a call is given with the memory after it, whether it returns or raises.
-/
namespace Verif.Jsonld

/-- A Python value: a basic one, or a reference. (values of jsonld/engine/json_input.py:69-123) -/
inductive Pv where
  | none
  | bool (b : Bool)
  | int (i : Int)
  | float (negative : Bool) (repr : String)
  | str (s : String)
  | ref (a : Nat)
  deriving DecidableEq

/-- What is at an address: a list, a tuple, a set, a dictionary with texts as keys, an object with attributes, or something else, by its class and
`repr` (it is not iterable). (values of jsonld/engine/json_input.py:69-123) -/
inductive Node where
  | list (xs : List Pv)
  | tuple (xs : List Pv)
  | set (xs : List Pv)
  | dict (kvs : PyDict String Pv)
  | inst (cls : String) (attrs : PyDict String Pv)
  | other (cls repr : String)
  deriving DecidableEq

/-- The memory: addresses from `next` on are free. (objects made in jsonld/engine/json_input.py:84-123) -/
structure Mem where
  node : Nat → Node
  next : Nat

namespace Mem

/-- A new object. (`[...]` and `{...}` in jsonld/engine/json_input.py:84-123) -/
def alloc (m : Mem) (x : Node) : Mem := ⟨Function.update m.node m.next x, m.next + 1⟩

/-- An object is changed in place. (`data.update`, jsonld/engine/json_input.py:113) -/
def write (m : Mem) (a : Nat) (x : Node) : Mem := ⟨Function.update m.node a x, m.next⟩

/-- `bool(x)` (jsonld/engine/json_input.py:111) -/
def truthy (m : Mem) : Pv → Bool
  | .none => false
  | .bool b => b
  | .int i => i != 0
  | .float _ r => r != "0.0" && r != "-0.0"
  | .str s => s != ""
  | .ref a => match m.node a with
    | .list xs => !xs.isEmpty
    | .tuple xs => !xs.isEmpty
    | .set xs => !xs.isEmpty
    | .dict kvs => !kvs.isEmpty
    | .inst _ _ => true
    | .other _ _ => true

end Mem

/-- Exceptions; `tooDeep` is RecursionError (Python limits the depth of calls). (exceptions of jsonld/engine/json_input.py:69-123) -/
inductive Exc where
  | raised (e : PyErr)
  | tooDeep
  deriving DecidableEq

/-- A call that may make and change objects. (functions of jsonld/engine/json_input.py:69-123) -/
abbrev Act (α : Type) := Mem → Except Exc α × Mem

/-- The surroundings of an engine: `expand` looks at a dictionary, a constructor takes values. (jsonld/engine/json_input.py:19-38) -/
structure MemEngine where
  expand : Mem → Nat → Outcome Expansion
  registry : PyDict String String
  props : String → List String
  construct : String → PyDict String Pv → Mem → Outcome Pv × Mem

namespace MemEngine

/-- jsonld/engine/json_input.py:57-64: the class for a type, the default class if the type is not known. -/
def classFor (e : MemEngine) (type : String) : Option String :=
  e.registry.dget (if type ∈ e.registry.dkeys then type else "default")

/-- jsonld/engine/json_input.py:40-67 `_get_object_class` -/
def getObjectClass (e : MemEngine) (m : Mem) (a : Nat) : Outcome (Option String) :=
  match e.expand m a with
  | .error x => .error x
  | .ok .empty => .ok (e.classFor "")
  | .ok .untyped => .ok (e.classFor "")
  | .ok (.typed []) => .error .indexError
  | .ok (.typed (t :: _)) => .ok (e.classFor t)

/-- jsonld/engine/json_input.py:98-99: the items of a list, one after the other. -/
def items (act : Pv → Act Pv) : List Pv → Act (List Pv)
  | [], m => (.ok [], m)
  | x :: xs, m => match act x m with
    | (.error e, m1) => (.error e, m1)
    | (.ok v, m1) => match items act xs m1 with
      | (.error e, m2) => (.error e, m2)
      | (.ok vs, m2) => (.ok (v :: vs), m2)

/-- jsonld/engine/json_input.py:90-91: the values of a dictionary, one after the other. -/
def entries (act : Pv → Act Pv) : PyDict String Pv → Act (PyDict String Pv)
  | [], m => (.ok [], m)
  | (k, x) :: kvs, m => match act x m with
    | (.error e, m1) => (.error e, m1)
    | (.ok v, m1) => match entries act kvs m1 with
      | (.error e, m2) => (.error e, m2)
      | (.ok vs, m2) => (.ok ((k, v) :: vs), m2)

/-- jsonld/engine/json_input.py:118-121: the values of the properties (`data.get(key, None)`), one after the other. -/
def filtered (act : Pv → Act Pv) (data : PyDict String Pv) : List String → Act (PyDict String Pv)
  | [], m => (.ok [], m)
  | p :: ps, m => match act ((data.dget p).getD .none) m with
    | (.error e, m1) => (.error e, m1)
    | (.ok v, m1) => match filtered act data ps m1 with
      | (.error e, m2) => (.error e, m2)
      | (.ok kw, m2) => (.ok ((p, v) :: kw), m2)

/-- The default context as a value. (jsonld/utils.py:36) -/
def defaultCtx : Pv := .str "http://www.w3.org/ns/activitystreams#"

/-- jsonld/engine/json_input.py:110 `data.get('@context', DEFAULT_CONTEXT)` -/
def contextOf (kvs : PyDict String Pv) : Pv := (kvs.dget "@context").getD defaultCtx

/-- jsonld/engine/json_input.py:111-113: the copy at `d`, with the default context if it has none (or a false one). -/
def normalize (m : Mem) (d : Nat) (kvs : PyDict String Pv) : Mem :=
  if m.truthy ((kvs.dget "@context").getD .none) then m else m.write d (.dict (kvs.dset "@context" defaultCtx))

/-- The contents of a dictionary. (jsonld/engine/json_input.py:109-123) -/
def dictAt (m : Mem) (a : Nat) : PyDict String Pv :=
  match m.node a with
  | .dict kvs => kvs
  | _ => []

/-- jsonld/engine/json_input.py:101-123 `from_json` of the dictionary at `a`; `unpack ctx` is `_unpack_objects` in a context. -/
def load (e : MemEngine) (unpack : Pv → Pv → Act Pv) (a : Nat) : Act Pv := fun m =>
  let kvs := dictAt m a
  let d := m.next
  let m2 := normalize (m.alloc (.dict kvs)) d kvs
  match e.getObjectClass m2 d with
  | .error x => (.error (.raised x), m2)
  | .ok none => (.error (.raised .attributeError), m2)
  | .ok (some cls) =>
    match filtered (unpack (contextOf kvs)) (dictAt m2 d) (e.props cls) m2 with
    | (.error x, m3) => (.error x, m3)
    | (.ok kw, m3) =>
      match e.construct cls (kw.dset "acontext" (contextOf kvs)) m3 with
      | (.error x, m4) => (.error (.raised x), m4)
      | (.ok v, m4) => (.ok v, m4)

/-- jsonld/engine/json_input.py:84: `{'@context': context, **data}` -/
def withContext (ctx : Pv) (kvs : PyDict String Pv) : PyDict String Pv :=
  ("@context", (kvs.dget "@context").getD ctx) :: kvs.ddel "@context"

/-- A new list or dictionary with what an action gives. (jsonld/engine/json_input.py:90-91, 98-99) -/
def wrap {α : Type} (f : α → Node) (r : Except Exc α × Mem) : Except Exc Pv × Mem :=
  match r with
  | (.error x, m) => (.error x, m)
  | (.ok v, m) => (.ok (.ref m.next), m.alloc (f v))

/-- jsonld/engine/json_input.py:69-99 `_unpack_objects`: the number is how deep calls may get.  Instances do not occur in JSON documents; None is
returned for them (if they are not iterable). -/
def unpack (e : MemEngine) : Nat → Pv → Pv → Act Pv
  | _, _, .none, m => (.ok .none, m)
  | _, _, .bool b, m => (.ok (.bool b), m)
  | _, _, .int i, m => (.ok (.int i), m)
  | _, _, .float s r, m => (.ok (.float s r), m)
  | _, _, .str s, m => (.ok (.str s), m)
  | 0, _, .ref _, m => (.error .tooDeep, m)
  | n + 1, ctx, .ref a, m => match m.node a with
    | .inst _ _ => (.ok .none, m)
    | .other _ _ => (.ok .none, m)
    | .list xs => wrap .list (items (unpack e n ctx) xs m)
    | .tuple xs => wrap .list (items (unpack e n ctx) xs m)
    | .set xs => wrap .list (items (unpack e n ctx) xs m)
    | .dict kvs =>
      let c := m.next
      let m1 := m.alloc (.dict (withContext ctx kvs))
      match e.expand m1 c with
      | .error x => (.error (.raised x), m1)
      | .ok (.typed _) => match e.getObjectClass m1 c with
        | .error x => (.error (.raised x), m1)
        | .ok none => (.ok .none, m1)
        | .ok (some _) => load e (unpack e n) c m1
      | .ok _ => wrap .dict (entries (unpack e n ctx) kvs m1)

/-- jsonld/engine/json_input.py:101-123 `from_json` of the dictionary at `a` -/
def fromJson (e : MemEngine) (n : Nat) (a : Nat) : Act Pv := load e (unpack e n) a

/-- A constructor that keeps its arguments as attributes. (activitystreams/models.py, whose setters keep what they are given or lists made from it;
`acontext`: jsonld/jsonld.py:27-43) -/
def keeping (cls : String) (args : PyDict String Pv) (m : Mem) : Outcome Pv × Mem := (.ok (.ref m.next), m.alloc (.inst cls args))

end MemEngine
end Verif.Jsonld
