import Verif.Jsonld.Mem
import Verif.Jsonld.Data

/-!
# Model of jsonld/jsonld.py, `PropertyJsonLD.data`, with lists and dictionaries as objects

`Data.lean` models `data` by the contents of values.  Here values have addresses (`Mem.lean`), so that it can be said what the result shares with the
object.  The attributes of an object are its properties with the values their getters return in the JSON output context.  Dictionaries have texts as
keys; iterables of other classes are left out.
-/
namespace Verif.Jsonld
open Verif

/-- jsonld/jsonld.py:90-95: the condition of the comprehension; `rejected` tells which values are equal to one of `reject_values`. -/
def picksIn (a : DataArgs) (rejected : Pv → Bool) (p : String) (v : Pv) : Bool :=
  (a.includeNone || v != .none) && (!a.include_.truthy || a.include_.has p) && !(a.exclude.truthy && a.exclude.has p) && !rejected v

/-- The properties the comprehension of jsonld/jsonld.py:85-95 runs through, under their new names. -/
def pickedIn (a : DataArgs) (rejected : Pv → Bool) (fs : PyDict String Pv) : PyDict String Pv :=
  (fs.filter fun pv => picksIn a rejected pv.1 pv.2).map fun pv => (a.newName pv.1, pv.2)

/-- jsonld/jsonld.py:85-101: the dictionary of the comprehension without the values that are None (the dictionary before that is not kept). -/
def finish (a : DataArgs) (kvs : PyDict String Pv) : Node :=
  .dict ((dictOf kvs).filter fun kv => a.includeNone || kv.2 != .none)

/-- jsonld/jsonld.py:66-101 `data` of an object with these properties; `handle` is `__handler`. -/
def dataWith (handle : Pv → Act Pv) (a : DataArgs) (rejected : Pv → Bool) (fs : PyDict String Pv) : Act Pv := fun m =>
  MemEngine.wrap (finish a) (MemEngine.entries handle (pickedIn a rejected fs) m)

/-- jsonld/jsonld.py:45-63 `__handler`; the number is how deep calls may get. -/
def handlerIn : Nat → Pv → Act Pv
  | _, .none, m => (.ok (.str "None"), m)
  | _, .bool b, m => (.ok (.str (if b then "True" else "False")), m)
  | _, .int i, m => (.ok (.int i), m)
  | _, .float n r, m => (.ok (.float n r), m)
  | _, .str s, m => (.ok (.str s), m)
  | 0, .ref _, m => (.error .tooDeep, m)
  | n + 1, .ref a, m => match m.node a with
    | .list xs => MemEngine.wrap .list (MemEngine.items (handlerIn n) xs m)
    | .tuple xs => MemEngine.wrap .list (MemEngine.items (handlerIn n) xs m)
    | .set xs => MemEngine.wrap .list (MemEngine.items (handlerIn n) xs m)
    | .dict kvs => MemEngine.wrap .dict (MemEngine.entries (handlerIn n) kvs m)
    | .inst _ fs => dataWith (handlerIn n) nestedArgs (fun _ => false) fs m
    | .other _ r => (.ok (.str r), m)

/-- jsonld/jsonld.py:66-101 `data` of the object at `o`; the number is how deep calls may get. -/
def dataIn (n : Nat) (a : DataArgs) (rejected : Mem → Pv → Bool) (o : Nat) : Act Pv := fun m =>
  match m.node o with
  | .inst _ fs => dataWith (handlerIn n) a (rejected m) fs m
  | _ => (.error (.raised .attributeError), m)

end Verif.Jsonld
