import Verif.Jsonld.Intake
import Verif.Jsonld.Data

/-!
# Specification: JSON texts and what they stand for (RFC 8259)

A relation between texts and trees, written after the grammar of the RFC and independent of how texts are written or read.
With `ext` the three words `NaN`, `Infinity` and `-Infinity`, which are no JSON, are allowed too.  `value` gives the float (sign and
repr) a literal with a fraction or an exponent stands for.  An object with a name twice stands for the dictionary with the
last value (Python; the RFC leaves it open).
-/
namespace Verif.Spec.Json
open Verif Verif.Jsonld

/-- RFC 8259, 2: insignificant whitespace. -/
def Blanks (w : List Char) : Prop := ∀ c ∈ w, c = ' ' ∨ c = '\t' ∨ c = '\n' ∨ c = '\r'

/-- A decimal digit and its value. -/
def Digit (c : Char) (d : Nat) : Prop := (c, d) ∈ [('0', 0), ('1', 1), ('2', 2), ('3', 3), ('4', 4), ('5', 5), ('6', 6), ('7', 7), ('8', 8), ('9', 9)]

/-- One or more decimal digits, and the number they stand for. -/
inductive Digits : List Char → Nat → Prop where
  | one {c : Char} {d : Nat} : Digit c d → Digits [c] d
  | snoc {ds : List Char} {n : Nat} {c : Char} {d : Nat} : Digits ds n → Digit c d → Digits (ds ++ [c]) (10 * n + d)

/-- RFC 8259, 6 `int`: no leading zeros. -/
def Natural (ds : List Char) (n : Nat) : Prop := Digits ds n ∧ (ds = ['0'] ∨ ds.head? ≠ some '0')

/-- RFC 8259, 6: `[ minus ] int`. -/
inductive Integer : List Char → Int → Prop where
  | pos {ds : List Char} {n : Nat} : Natural ds n → Integer ds n
  | neg {ds : List Char} {n : Nat} : Natural ds n → Integer ('-' :: ds) (-n)

/-- RFC 8259, 6 `[ frac ]`. -/
inductive Frac : List Char → Prop where
  | none : Frac []
  | some {ds : List Char} {n : Nat} : Digits ds n → Frac ('.' :: ds)

/-- RFC 8259, 6 `[ exp ]`. -/
inductive Exp : List Char → Prop where
  | none : Exp []
  | some {e : Char} {sign ds : List Char} {n : Nat} : e = 'e' ∨ e = 'E' → sign = [] ∨ sign = ['-'] ∨ sign = ['+'] → Digits ds n →
      Exp (e :: (sign ++ ds))

/-- RFC 8259, 6: a number with a fraction or an exponent. -/
def Decimal (s : List Char) : Prop :=
  ∃ (i f e : List Char) (n : Int), Integer i n ∧ Frac f ∧ Exp e ∧ ¬ (f = [] ∧ e = []) ∧ s = i ++ f ++ e

/-- A hexadecimal digit and its value. -/
def HexDigit (c : Char) (d : Nat) : Prop := Digit c d ∨
  (c, d) ∈ [('a', 10), ('b', 11), ('c', 12), ('d', 13), ('e', 14), ('f', 15), ('A', 10), ('B', 11), ('C', 12), ('D', 13), ('E', 14), ('F', 15)]

/-- `\uXXXX` and the number it stands for. -/
inductive Hex : List Char → Nat → Prop where
  | mk {a b c d : Char} {x y z w : Nat} : HexDigit a x → HexDigit b y → HexDigit c z → HexDigit d w →
      Hex ['\\', 'u', a, b, c, d] (((x * 16 + y) * 16 + z) * 16 + w)

/-- RFC 8259, 7 `char`: a character as it may be written in a text. -/
inductive CharText : List Char → Char → Prop where
  | plain {c : Char} : 32 ≤ c.toNat → c ≠ '"' → c ≠ '\\' → CharText [c] c
  | short {e c : Char} : (e, c) ∈ [('"', '"'), ('\\', '\\'), ('/', '/'), ('b', '\x08'), ('f', '\x0c'), ('n', '\n'), ('r', '\r'), ('t', '\t')] →
      CharText ['\\', e] c
  | hex {s : List Char} {c : Char} : Hex s c.toNat → CharText s c
  | pair {s t : List Char} {h l : Nat} {c : Char} : Hex s h → Hex t l → 0xD800 ≤ h → h ≤ 0xDBFF → 0xDC00 ≤ l → l ≤ 0xDFFF →
      c.toNat = 0x10000 + (h - 0xD800) * 0x400 + (l - 0xDC00) → CharText (s ++ t) c

/-- The inside of a text. -/
inductive Chars : List Char → List Char → Prop where
  | nil : Chars [] []
  | cons {s r cs : List Char} {c : Char} : CharText s c → Chars r cs → Chars (s ++ r) (c :: cs)

/-- RFC 8259, 7 `string` -/
def Quoted (s : List Char) (t : String) : Prop := ∃ r, Chars r t.toList ∧ s = '"' :: (r ++ ['"'])

mutual
/-- RFC 8259, 3 `value` -/
inductive Value (ext : Bool) (value : String → Bool × String) : List Char → Tree → Prop where
  | null : Value ext value ['n', 'u', 'l', 'l'] .null
  | true : Value ext value ['t', 'r', 'u', 'e'] (.bool true)
  | false : Value ext value ['f', 'a', 'l', 's', 'e'] (.bool false)
  | int {s : List Char} {i : Int} : Integer s i → Value ext value s (.int i)
  | float {s : List Char} {n : Bool} {r : String} : Decimal s → value (String.ofList s) = (n, r) → Value ext value s (.float n r)
  | nan : ext = Bool.true → Value ext value ['N', 'a', 'N'] (.float .false "nan")
  | inf : ext = Bool.true → Value ext value ['I', 'n', 'f', 'i', 'n', 'i', 't', 'y'] (.float .false "inf")
  | negInf : ext = Bool.true → Value ext value ['-', 'I', 'n', 'f', 'i', 'n', 'i', 't', 'y'] (.float .true "-inf")
  | str {s : List Char} {t : String} : Quoted s t → Value ext value s (.str t)
  | arrNil {w : List Char} : Blanks w → Value ext value ('[' :: (w ++ [']'])) (.arr [])
  | arr {s : List Char} {xs : List Tree} : Items ext value s xs → Value ext value ('[' :: (s ++ [']'])) (.arr xs)
  | objNil {w : List Char} : Blanks w → Value ext value ('{' :: (w ++ ['}'])) (.obj [])
  | obj {s : List Char} {kvs : List (String × Tree)} : Members ext value s kvs → Value ext value ('{' :: (s ++ ['}'])) (.obj (dictOf kvs))
/-- RFC 8259, 5: one or more values separated by commas, with blanks around them. -/
inductive Items (ext : Bool) (value : String → Bool × String) : List Char → List Tree → Prop where
  | one {w s w' : List Char} {x : Tree} : Blanks w → Value ext value s x → Blanks w' → Items ext value (w ++ (s ++ w')) [x]
  | more {w s w' r : List Char} {x : Tree} {xs : List Tree} : Blanks w → Value ext value s x → Blanks w' → Items ext value r xs →
      Items ext value (w ++ (s ++ (w' ++ ',' :: r))) (x :: xs)
/-- RFC 8259, 4: one or more members separated by commas, with blanks around names and values. -/
inductive Members (ext : Bool) (value : String → Bool × String) : List Char → List (String × Tree) → Prop where
  | one {w k w1 w2 s w' : List Char} {n : String} {x : Tree} : Blanks w → Quoted k n → Blanks w1 → Blanks w2 → Value ext value s x → Blanks w' →
      Members ext value (w ++ (k ++ (w1 ++ ':' :: (w2 ++ (s ++ w'))))) [(n, x)]
  | more {w k w1 w2 s w' r : List Char} {n : String} {x : Tree} {kvs : List (String × Tree)} : Blanks w → Quoted k n → Blanks w1 → Blanks w2 →
      Value ext value s x → Blanks w' → Members ext value r kvs →
      Members ext value (w ++ (k ++ (w1 ++ ':' :: (w2 ++ (s ++ (w' ++ ',' :: r)))))) ((n, x) :: kvs)
end

/-- RFC 8259, 2 `JSON-text`: a value with blanks around it. -/
def Reads (ext : Bool) (value : String → Bool × String) (text : String) (t : Tree) : Prop :=
  ∃ w s w', Blanks w ∧ Value ext value s t ∧ Blanks w' ∧ text.toList = w ++ (s ++ w')

end Verif.Spec.Json
