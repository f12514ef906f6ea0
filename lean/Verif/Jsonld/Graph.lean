import Verif.Jsonld.Data

/-!
# Model of jsonld/jsonld.py: `PropertyJsonLD.data` on objects that refer to each other

`Data.lean` describes values as trees.  Here values are cells of a heap, so that an object can be shared or can contain itself.  The
number given to `showAt` bounds the nesting of calls of `__handler` (Python's recursion limit): `none` is a RecursionError.
-/
namespace Verif.Jsonld.Graph
open Verif Verif.Jsonld

/-- A cell: a value without references to other cells, a list, tuple, set or other iterable, a dictionary or a `PropertyJsonLD`
object with the values of its properties. (values handled by jsonld/jsonld.py:45-101) -/
inductive Cell where
  | leaf (v : Val)
  | seq (rs : List Nat)
  | dict (kvs : List (Key × Nat))
  | obj (fields : List (String × Nat))

/-- The values in memory by address. (values handled by jsonld/jsonld.py:45-101) -/
abbrev Mem := Nat → Cell

/-- `val is not None` (jsonld/jsonld.py:90) -/
def Cell.isNone : Cell → Bool
  | .leaf v => v.isNone
  | _ => false

/-- All results, or `none` if one is missing. (the comprehensions of jsonld/jsonld.py:49-53, 85-95) -/
def allSome {X : Type} : List (Option X) → Option (List X)
  | [] => some []
  | none :: _ => none
  | some x :: l => (allSome l).map (x :: ·)

/-- jsonld/jsonld.py:90-95: the condition of the comprehension, for the property `p` with the value at `r`; no `reject_values`. -/
def picks (m : Mem) (a : DataArgs) (p : String) (r : Nat) : Bool :=
  (a.includeNone || !(m r).isNone) && (!a.include_.truthy || a.include_.has p) && !(a.exclude.truthy && a.exclude.has p)

/-- The properties the comprehension of jsonld/jsonld.py:85-95 runs through. -/
def picked (m : Mem) (a : DataArgs) (fs : List (String × Nat)) : List (String × Nat) := fs.filter fun pr => picks m a pr.1 pr.2

/-- jsonld/jsonld.py:45-63 `__handler`, nested at most `n` deep -/
def showAt (m : Mem) : Nat → Nat → Option Val
  | 0, _ => none
  | n + 1, r => match m r with
    | .leaf v => some (handler v)
    | .seq rs => (allSome (rs.map (showAt m n))).map .list
    | .dict kvs => (allSome (kvs.map fun kr => (showAt m n kr.2).map fun v => (kr.1, v))).map .dict
    | .obj fs => (allSome ((picked m nestedArgs fs).map fun pr => (showAt m n pr.2).map fun v => (Key.str (nestedArgs.newName pr.1), v))).map
        fun kvs => .dict ((dictOf kvs).filter fun kv => !kv.2.isNone)

/-- jsonld/jsonld.py:66-101 `data` of an object with these properties -/
def dataAt (m : Mem) (n : Nat) (a : DataArgs) (fs : List (String × Nat)) : Option (PyDict String Val) :=
  (allSome ((picked m a fs).map fun pr => (showAt m n pr.2).map fun v => (a.newName pr.1, v))).map
    fun kvs => (dictOf kvs).filter fun kv => a.includeNone || !kv.2.isNone

end Verif.Jsonld.Graph
