import Verif.Jsonld.Value

/-!
# Model of jsonld/jsonld.py: `PropertyJsonLD.data`

An object is given by its properties with the values their getters return in the JSON output
context (getters do not raise and do not change the object).  `Val` is a tree, so objects that
contain themselves (for which the code does not end) are left out.
-/
namespace Verif.Jsonld

/-- Python's `p in s` for strings. (used by jsonld/jsonld.py:85-95) -/
def isSubstr (p s : String) : Bool := s.toList.tails.any fun t => p.toList.isPrefixOf t

/-- A value given for `include` or `exclude`: a collection of names or a string. (jsonld/jsonld.py:66-68) -/
inductive Names where
  | many (l : List String)
  | text (s : String)

/-- `bool(names)` (jsonld/jsonld.py:85-95) -/
def Names.truthy : Names → Bool
  | .many l => !l.isEmpty
  | .text s => s != ""

/-- `prop in names` (jsonld/jsonld.py:85-95) -/
def Names.has : Names → String → Bool
  | .many l, p => l.contains p
  | .text s, p => isSubstr p s

/-- jsonld/utils.py:9-33 `JSON_LD_KEYMAP` -/
def jsonLdKeymap : PyDict String String :=
  [("abase", "@base"), ("acontainer", "@container"), ("acontext", "@context"), ("adirection", "@direction"),
   ("agraph", "@graph"), ("aid", "@id"), ("aimport", "@import"), ("aincluded", "@included"), ("aindex", "@index"),
   ("ajson", "@json"), ("alanguage", "@language"), ("alist", "@list"), ("anest", "@nest"), ("anone", "@none"),
   ("aprefix", "@prefix"), ("apropagate", "@propagate"), ("aprotected", "@protected"), ("areverse", "@reverse"),
   ("aset", "@set"), ("atype", "@type"), ("avalue", "@value"), ("aversion", "@version"), ("avocab", "@vocab")]

/-- The arguments of `data` (jsonld/jsonld.py:66-68) that have an effect; `rejected` tells which values are
equal to one of `reject_values`.  `transforms` is not used by the code. -/
structure DataArgs where
  include_ : Names := .many []
  exclude : Names := .many []
  rename : PyDict String String := []
  includeNone : Bool := false
  rejected : Val → Bool := fun _ => false

/-- jsonld/jsonld.py:84 and `rename.get(prop, prop)` of line 87 -/
def DataArgs.newName (a : DataArgs) (p : String) : String := ((jsonLdKeymap.dmerge a.rename).dget p).getD p

/-- `val is not None` (jsonld/jsonld.py:90-95) -/
def Val.isNone : Val → Bool
  | .none => true
  | _ => false

/-- jsonld/jsonld.py:90-95: the condition of the comprehension. -/
def DataArgs.selects (a : DataArgs) (p : String) (v : Val) : Bool :=
  (a.includeNone || !v.isNone) && (!a.include_.truthy || a.include_.has p) && !(a.exclude.truthy && a.exclude.has p) &&
    !a.rejected v

/-- The arguments used for nested objects (jsonld/jsonld.py:58): `data(exclude='acontext')`. -/
def nestedArgs : DataArgs := { exclude := .text "acontext" }

/-- A dict comprehension over pairs. (jsonld/jsonld.py:85-101) -/
def dictOf {K V : Type} [DecidableEq K] (kvs : List (K × V)) : PyDict K V := kvs.foldl (fun d p => d.dset p.1 p.2) []

mutual
/-- jsonld/jsonld.py:45-63 `__handler` -/
def handler : Val → Val
  | .obj _ fs => .dict ((dictOf (nestedPairs fs)).filter fun kv => !kv.2.isNone)
  | .str s => .str s
  | .int i => .int i
  | .float n r => .float n r
  | .list xs => .list (handlerAll xs)
  | .set xs => .list (handlerAll xs)
  | .tuple xs => .list (handlerAll xs)
  | .dict kvs => .dict (handlerDict kvs)
  | .iter _ xs => .list (handlerAll xs)
  | .none => .str "None"
  | .bool b => .str (if b then "True" else "False")
  | .other _ r => .str r
/-- jsonld/jsonld.py:49-51: `[fn(item) for item in val]` -/
def handlerAll : List Val → List Val
  | [] => []
  | x :: xs => handler x :: handlerAll xs
/-- jsonld/jsonld.py:52-53: `{key: fn(item) for key, item in val.items()}` (the keys are distinct) -/
def handlerDict : List (Key × Val) → List (Key × Val)
  | [] => []
  | (k, v) :: kvs => (k, handler v) :: handlerDict kvs
/-- The pairs the comprehension of `data` (jsonld/jsonld.py:85-95) produces for a nested object. -/
def nestedPairs : List (String × Val) → List (Key × Val)
  | [] => []
  | (p, v) :: fs => if nestedArgs.selects p v then (.str (nestedArgs.newName p), handler v) :: nestedPairs fs else nestedPairs fs
end

/-- The pairs the comprehension of `data` (jsonld/jsonld.py:85-95) produces. -/
def dataPairs (a : DataArgs) (fs : List (String × Val)) : List (String × Val) :=
  (fs.filter fun pv => a.selects pv.1 pv.2).map fun pv => (a.newName pv.1, handler pv.2)

/-- jsonld/jsonld.py:66-101 `data` -/
def data (a : DataArgs) (fs : List (String × Val)) : PyDict String Val :=
  (dictOf (dataPairs a fs)).filter fun kv => a.includeNone || !kv.2.isNone

end Verif.Jsonld
