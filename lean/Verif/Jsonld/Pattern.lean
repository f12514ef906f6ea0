import Verif.Py

/-!
# Regular expressions as backtracking matchers

Python's `re` explores alternatives in order and takes the first that lets the whole pattern
succeed.  A pattern is a function giving all ways to match a prefix, in that order; what is left
of the input comes with each of them.  Strings are lists of characters and are taken to be
ASCII (`\d` is `[0-9]`).
-/
namespace Verif.Jsonld

/-- All ways to match a prefix, best first: a value and the rest of the input. (library `re`, used by jsonld/tools/datetime.py:5-19) -/
abbrev Pat (α : Type) := List Char → List (α × List Char)

namespace Pat
variable {α β : Type}

/-- One character of a class. (library `re`, used by jsonld/tools/datetime.py:5-19) -/
def chr (p : Char → Bool) : Pat Char
  | [] => []
  | c :: r => if p c then [(c, r)] else []

/-- The empty pattern. (library `re`, used by jsonld/tools/datetime.py:5-19) -/
def pure (a : α) : Pat α := fun s => [(a, s)]

/-- `ab` (library `re`, used by jsonld/tools/datetime.py:5-19) -/
def bind (p : Pat α) (f : α → Pat β) : Pat β := fun s => (p s).flatMap fun x => f x.1 x.2

/-- `a|b` (library `re`, used by jsonld/tools/datetime.py:5-19) -/
def alt (p q : Pat α) : Pat α := fun s => p s ++ q s

/-- `a?` (greedy) (library `re`, used by jsonld/tools/datetime.py:5-19) -/
def opt (p : Pat α) : Pat (Option α) := fun s => (p s).map (fun x => (some x.1, x.2)) ++ [(none, s)]

/-- `$`: at the end, or before a newline at the end. (library `re`, used by jsonld/tools/datetime.py:5-19) -/
def eos : Pat Unit := fun s => if s = [] ∨ s = ['\n'] then [((), s)] else []

/-- `a{0,n}` (greedy) (library `re`, used by jsonld/tools/datetime.py:5-19) -/
def upTo (p : Pat α) : Nat → Pat (List α)
  | 0 => pure []
  | n + 1 => fun s => ((p s).flatMap fun x => (upTo p n x.2).map fun y => (x.1 :: y.1, y.2)) ++ [([], s)]

/-- A character. (library `re`, used by jsonld/tools/datetime.py:5-19) -/
def lit (c : Char) : Pat Char := chr (· == c)

/-- `[0-9]`, `\d` (library `re`, used by jsonld/tools/datetime.py:5-19) -/
def digit : Pat Char := chr Char.isDigit

/-- `[lo-hi]` for digits (library `re`, used by jsonld/tools/datetime.py:5-19) -/
def range (lo hi : Char) : Pat Char := chr fun c => lo.toNat ≤ c.toNat && c.toNat ≤ hi.toNat

/-- Value of a digit character. (library `re`, used by jsonld/tools/datetime.py:5-19) -/
def dval (c : Char) : Nat := c.toNat - '0'.toNat

/-- A one-digit pattern as a number. (library `re`, used by jsonld/tools/datetime.py:5-19) -/
def num1 (a : Pat Char) : Pat Nat := a.bind fun x => pure (dval x)

/-- A two-digit pattern `ab` as a number. (library `re`, used by jsonld/tools/datetime.py:5-19) -/
def num2 (a b : Pat Char) : Pat Nat := a.bind fun x => b.bind fun y => pure (10 * dval x + dval y)

/-- `re.search`: the length of the leftmost match. (library `re`, used by jsonld/tools/datetime.py:5-19) -/
def search (p : Pat α) : List Char → Option Nat
  | [] => match p [] with
    | [] => none
    | x :: _ => some (0 - x.2.length)
  | c :: s => match p (c :: s) with
    | x :: _ => some ((c :: s).length - x.2.length)
    | [] => search p s

end Pat
end Verif.Jsonld
