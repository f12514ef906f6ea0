import Verif.Jsonld.Intake
import Verif.Jsonld.Data

/-!
# Model of the text that `json` writes and `from_json` reads

jsonld/jsonld.py:103-123 ends in `json.dumps(data, separators=…, indent=…)`, jsonld/engine/json_input.py:108 starts with
`json.loads(text)`.  Both are of the standard library (json/encoder.py, json/decoder.py, json/scanner.py), modelled here from their
text.  Not modelled: the recursion limit, the limit of 4300 digits of ints, and texts with half of a surrogate pair (Python has them, Lean has not; reading one is a
ValueError here).  `readFloat` is
`float` of a text, given as sign and repr.
-/
namespace Verif.Jsonld.Text
open Verif Verif.Jsonld

/-! ### Writing -/

/-- The arguments `minified` and `indent` of `json` (a negative number of blanks counts as 0). (jsonld/jsonld.py:103-105) -/
structure Layout where
  minified : Bool := false
  indent : Option Nat := none

namespace Layout

/-- What is written between items: jsonld/jsonld.py:117 gives `,` if minified; else the default of json.dumps, which depends on `indent`. -/
def item (o : Layout) : List Char := if o.minified then [','] else if o.indent.isSome then [','] else [',', ' ']

/-- What is written between key and value. (jsonld/jsonld.py:117) -/
def colon (o : Layout) : List Char := if o.minified then [':'] else [':', ' ']

/-- The start of a new line at a level, if `indent` is given. (jsonld/jsonld.py:123) -/
def line (o : Layout) (level : Nat) : List Char := match o.indent with
  | none => []
  | some n => '\n' :: List.replicate (n * level) ' '

end Layout

/-- `'\\u{0:04x}'.format(n)` (json.dumps, jsonld/jsonld.py:118) -/
def hex4 (n : Nat) : List Char :=
  ['\\', 'u', Nat.digitChar (n / 4096 % 16), Nat.digitChar (n / 256 % 16), Nat.digitChar (n / 16 % 16), Nat.digitChar (n % 16)]

/-- One character of a text; everything but printable ASCII is escaped. (json.dumps, jsonld/jsonld.py:118) -/
def escape (c : Char) : List Char :=
  if c = '"' then ['\\', '"'] else if c = '\\' then ['\\', '\\'] else if c = '\n' then ['\\', 'n'] else if c = '\r' then ['\\', 'r']
  else if c = '\t' then ['\\', 't'] else if c = '\x0c' then ['\\', 'f'] else if c = '\x08' then ['\\', 'b']
  else if 32 ≤ c.toNat ∧ c.toNat ≤ 126 then [c]
  else if c.toNat < 65536 then hex4 c.toNat
  else hex4 (55296 + (c.toNat - 65536) / 1024) ++ hex4 (56320 + (c.toNat - 65536) % 1024)

/-- A text with its quotes. (json.dumps, jsonld/jsonld.py:118) -/
def quoted (s : String) : List Char := '"' :: (s.toList.flatMap escape ++ ['"'])

/-- `int.__repr__` (json.dumps, jsonld/jsonld.py:118) -/
def intText : Int → List Char
  | .ofNat n => Nat.toDigits 10 n
  | .negSucc n => '-' :: Nat.toDigits 10 (n + 1)

/-- The text of a float, with json.dumps' names for those that are no numbers. (json.dumps, jsonld/jsonld.py:118) -/
def floatText (r : String) : List Char :=
  if r = "nan" then "NaN".toList else if r = "inf" then "Infinity".toList else if r = "-inf" then "-Infinity".toList else r.toList

mutual
/-- A value at a level. (json.dumps, jsonld/jsonld.py:118) -/
def write (o : Layout) : Nat → Tree → List Char
  | _, .null => "null".toList
  | _, .bool b => if b then "true".toList else "false".toList
  | _, .int i => intText i
  | _, .float _ r => floatText r
  | _, .str s => quoted s
  | l, .arr xs => '[' :: writeItems o l true xs
  | l, .obj kvs => '{' :: writePairs o l true kvs
/-- The items of a list from the first one (or a later one) on, and the bracket. (json.dumps, jsonld/jsonld.py:118) -/
def writeItems (o : Layout) : Nat → Bool → List Tree → List Char
  | l, first, [] => (if first then [] else o.line l) ++ [']']
  | l, first, x :: xs => (if first then [] else o.item) ++ (o.line (l + 1) ++ (write o (l + 1) x ++ writeItems o l false xs))
/-- The same for dictionaries. (json.dumps, jsonld/jsonld.py:118) -/
def writePairs (o : Layout) : Nat → Bool → List (String × Tree) → List Char
  | l, first, [] => (if first then [] else o.line l) ++ ['}']
  | l, first, (k, x) :: kvs => (if first then [] else o.item) ++ (o.line (l + 1) ++ (quoted k ++ (o.colon ++
      (write o (l + 1) x ++ writePairs o l false kvs))))
end

/-- `json.dumps(data, separators=separators, indent=indent)` (jsonld/jsonld.py:117-123) -/
def dumps (o : Layout) (t : Tree) : String := String.ofList (write o 0 t)

/-! ### Reading -/

/-- Blanks that JSON allows. (json.loads, jsonld/engine/json_input.py:108) -/
def blank (c : Char) : Bool := c == ' ' || c == '\t' || c == '\n' || c == '\r'

/-- Skip blanks. (json.loads, jsonld/engine/json_input.py:108) -/
def skip (s : List Char) : List Char := s.dropWhile blank

/-- The value of a hexadecimal digit. (json.loads, jsonld/engine/json_input.py:108) -/
def hexVal (c : Char) : Option Nat :=
  if '0' ≤ c ∧ c ≤ '9' then some (c.toNat - 48) else if 'a' ≤ c ∧ c ≤ 'f' then some (c.toNat - 87)
  else if 'A' ≤ c ∧ c ≤ 'F' then some (c.toNat - 55) else none

/-- Four hexadecimal digits. (json.loads, jsonld/engine/json_input.py:108) -/
def readHex : List Char → Option (Nat × List Char)
  | a :: b :: c :: d :: r => match hexVal a, hexVal b, hexVal c, hexVal d with
    | some a, some b, some c, some d => some (a * 4096 + b * 256 + c * 16 + d, r)
    | _, _, _, _ => none
  | _ => none

/-- After the first half of a surrogate pair: the second half. (json.loads, jsonld/engine/json_input.py:108) -/
def readLow : List Char → Option (Nat × List Char)
  | '\\' :: 'u' :: r => match readHex r with
    | some (n, r') => if 56320 ≤ n ∧ n < 57344 then some (n, r') else none
    | none => none
  | _ => none

/-- The number after `\u`: a character, or the first half of a pair. (json.loads, jsonld/engine/json_input.py:108) -/
def readCode (n : Nat) (r : List Char) : Outcome (Option Char × List Char) :=
  if 55296 ≤ n ∧ n < 56320 then match readLow r with
    | some (m, r) => .ok (some (Char.ofNat (65536 + (n - 55296) * 1024 + (m - 56320))), r)
    | none => .error .valueError
  else if 56320 ≤ n ∧ n < 57344 then .error .valueError
  else .ok (some (Char.ofNat n), r)

/-- The characters with an escape of one letter. (json.loads, jsonld/engine/json_input.py:108) -/
def shorts : PyDict Char Char :=
  [('"', '"'), ('\\', '\\'), ('/', '/'), ('b', '\x08'), ('f', '\x0c'), ('n', '\n'), ('r', '\r'), ('t', '\t')]

/-- After a backslash. (json.loads, jsonld/engine/json_input.py:108) -/
def readEscape : List Char → Outcome (Option Char × List Char)
  | [] => .error .valueError
  | e :: r =>
    if e = 'u' then match readHex r with
      | none => .error .valueError
      | some (n, r) => readCode n r
    else match shorts.dget e with
      | some c => .ok (some c, r)
      | none => .error .valueError

/-- One character of a text as written, or its end (`none`). (json.loads, jsonld/engine/json_input.py:108) -/
def readUnit : List Char → Outcome (Option Char × List Char)
  | [] => .error .valueError
  | c :: r =>
    if c = '"' then .ok (none, r)
    else if c = '\\' then readEscape r
    else if c.toNat < 32 then .error .valueError
    else .ok (some c, r)

/-- A text after its first quote (with fuel: every step reads a character). (json.loads, jsonld/engine/json_input.py:108) -/
def readText : Nat → List Char → Outcome (List Char × List Char)
  | 0, _ => .error .valueError
  | n + 1, s => match readUnit s with
    | .error e => .error e
    | .ok (none, r) => .ok ([], r)
    | .ok (some c, r) => match readText n r with
      | .error e => .error e
      | .ok (cs, r) => .ok (c :: cs, r)

/-- The digits at the start. (json.loads, jsonld/engine/json_input.py:108) -/
def digits (s : List Char) : List Char × List Char := (s.takeWhile Char.isDigit, s.dropWhile Char.isDigit)

/-- The number decimal digits stand for. (json.loads, jsonld/engine/json_input.py:108) -/
def natOf (ds : List Char) : Nat := ds.foldl (fun a c => a * 10 + (c.toNat - 48)) 0

/-- `-?` (json.loads, jsonld/engine/json_input.py:108) -/
def readSign : List Char → List Char × List Char
  | '-' :: r => (['-'], r)
  | s => ([], s)

/-- `0|[1-9]\d*` (json.loads, jsonld/engine/json_input.py:108) -/
def readNat : List Char → Option (List Char × List Char)
  | [] => none
  | c :: r => if c = '0' then some (['0'], r) else if c.isDigit then some (c :: (digits r).1, (digits r).2) else none

/-- `(\.\d+)?` (json.loads, jsonld/engine/json_input.py:108) -/
def readFrac : List Char → List Char × List Char
  | '.' :: r => if (digits r).1 = [] then ([], '.' :: r) else ('.' :: (digits r).1, (digits r).2)
  | s => ([], s)

/-- `[-+]?` (json.loads, jsonld/engine/json_input.py:108) -/
def readPlus : List Char → List Char × List Char
  | '-' :: r => (['-'], r)
  | '+' :: r => (['+'], r)
  | s => ([], s)

/-- `([eE][-+]?\d+)?` (json.loads, jsonld/engine/json_input.py:108) -/
def readExp : List Char → List Char × List Char
  | [] => ([], [])
  | c :: r => if c = 'e' ∨ c = 'E' then
      (if (digits (readPlus r).2).1 = [] then ([], c :: r)
       else (c :: ((readPlus r).1 ++ (digits (readPlus r).2).1), (digits (readPlus r).2).2))
    else ([], c :: r)

/-- A number: an int, or a float if there is a fraction or an exponent. (json.loads, jsonld/engine/json_input.py:108) -/
def readNumber (readFloat : String → Bool × String) (s : List Char) : Option (Tree × List Char) :=
  match readNat (readSign s).2 with
  | none => none
  | some (ds, r) =>
    let f := readFrac r
    let e := readExp f.2
    if f.1 = [] ∧ e.1 = [] then some (.int (if (readSign s).1 = [] then natOf ds else - (natOf ds : Int)), e.2)
    else
      let v := readFloat (String.ofList ((readSign s).1 ++ ds ++ f.1 ++ e.1))
      some (.float v.1 v.2, e.2)

/-- If the text starts with a word: what follows. (json.loads, jsonld/engine/json_input.py:108) -/
def word (w s : List Char) : Option (List Char) := if w.isPrefixOf s then some (s.drop w.length) else none

/-- What is neither text nor list nor dictionary. (json.loads, jsonld/engine/json_input.py:108) -/
def readAtom (readFloat : String → Bool × String) (s : List Char) : Outcome (Tree × List Char) :=
  match word "null".toList s with
  | some r => .ok (.null, r)
  | none => match word "true".toList s with
    | some r => .ok (.bool true, r)
    | none => match word "false".toList s with
      | some r => .ok (.bool false, r)
      | none => match readNumber readFloat s with
        | some v => .ok v
        | none => match word "NaN".toList s with
          | some r => .ok (.float false "nan", r)
          | none => match word "Infinity".toList s with
            | some r => .ok (.float false "inf", r)
            | none => match word "-Infinity".toList s with
              | some r => .ok (.float true "-inf", r)
              | none => .error .valueError

mutual
/-- A value (with fuel: every call reads a character or is followed by one that does). (json.loads, jsonld/engine/json_input.py:108) -/
def readValue (readFloat : String → Bool × String) : Nat → List Char → Outcome (Tree × List Char)
  | 0, _ => .error .valueError
  | n + 1, s => match s with
    | [] => .error .valueError
    | c :: r =>
      if c = '"' then match readText n r with
        | .error e => .error e
        | .ok (cs, r) => .ok (.str (String.ofList cs), r)
      else if c = '[' then
        (if (skip r).head? = some ']' then .ok (.arr [], (skip r).tail) else match readItems readFloat n (skip r) with
          | .error e => .error e
          | .ok (xs, r) => .ok (.arr xs, r))
      else if c = '{' then
        (if (skip r).head? = some '}' then .ok (.obj [], (skip r).tail) else match readPairs readFloat n (skip r) with
          | .error e => .error e
          | .ok (kvs, r) => .ok (.obj (dictOf kvs), r))
      else readAtom readFloat (c :: r)
/-- Items up to the bracket. (json.loads, jsonld/engine/json_input.py:108) -/
def readItems (readFloat : String → Bool × String) : Nat → List Char → Outcome (List Tree × List Char)
  | 0, _ => .error .valueError
  | n + 1, s => match readValue readFloat n s with
    | .error e => .error e
    | .ok (x, r) => match skip r with
      | [] => .error .valueError
      | c :: r =>
        if c = ']' then .ok ([x], r)
        else if c = ',' then match readItems readFloat n (skip r) with
          | .error e => .error e
          | .ok (xs, r) => .ok (x :: xs, r)
        else .error .valueError
/-- Keys and values up to the brace. (json.loads, jsonld/engine/json_input.py:108) -/
def readPairs (readFloat : String → Bool × String) : Nat → List Char → Outcome (List (String × Tree) × List Char)
  | 0, _ => .error .valueError
  | n + 1, s => match s with
    | [] => .error .valueError
    | q :: r => if q = '"' then match readText n r with
        | .error e => .error e
        | .ok (k, r) => match skip r with
          | [] => .error .valueError
          | c :: r => if c = ':' then match readValue readFloat n (skip r) with
              | .error e => .error e
              | .ok (x, r) => match skip r with
                | [] => .error .valueError
                | c :: r =>
                  if c = '}' then .ok ([(String.ofList k, x)], r)
                  else if c = ',' then match readPairs readFloat n (skip r) with
                    | .error e => .error e
                    | .ok (kvs, r) => .ok ((String.ofList k, x) :: kvs, r)
                  else .error .valueError
            else .error .valueError
      else .error .valueError
end

/-- `json.loads(s)`: a value and nothing else but blanks. (jsonld/engine/json_input.py:108) -/
def loads (readFloat : String → Bool × String) (s : String) : Outcome Tree :=
  match readValue readFloat (s.toList.length + 1) (skip s.toList) with
  | .error e => .error e
  | .ok (t, r) => if skip r = [] then .ok t else .error .valueError

end Verif.Jsonld.Text
