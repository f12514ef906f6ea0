import Verif.Storage.Usage
import Mathlib.Data.Int.Log
import Mathlib.Analysis.Real.Sqrt

/-!
# The figures that the code computes with floating point

`Storage/Utils.lean`, `Storage/Collection.lean` and `Storage/Usage.lean` compute with
exact numbers where the code uses Python floats.  Here the same lines are modelled with
IEEE 754 binary64 arithmetic, so that the difference can be studied (`Props/Float.lean`).
Only numbers that are not negative occur.  Simplification: no overflow and no subnormal
numbers (the quotients of integers below 2^1000 and their multiples by 100 are normal).
-/
namespace Verif.Storage
variable {V : Type}

/-- The rounding of Python's floats (citrine/storage/utils.py:11 and 45, citrine/storage/collection.py:61 and 70 rely on it): to the
nearest integer, ties to even. -/
noncomputable def roundEven (y : ℝ) : ℤ :=
  if Int.fract y < 1 / 2 then ⌊y⌋
  else if 1 / 2 < Int.fract y then ⌊y⌋ + 1
  else if Even ⌊y⌋ then ⌊y⌋ else ⌊y⌋ + 1

/-- The distance of neighbouring floats at `x` (binary64: 53 significant bits); used by citrine/storage/utils.py:45. -/
noncomputable def ulp (x : ℝ) : ℝ := 2 ^ (Int.log 2 x - 52)

/-- The float that an exact result `x ≥ 0` is rounded to, e.g. in citrine/storage/utils.py:45. -/
noncomputable def fl (x : ℝ) : ℝ := roundEven (x / ulp x) * ulp x

/-- Python's `a / b` of two integers (citrine/storage/collection.py:61, citrine/storage/utils.py:45): the exact quotient is rounded once. -/
noncomputable def floatDiv (a b : Nat) : ℝ := fl ((a : ℝ) / b)

/-- citrine/storage/collection.py:58-61, 98-100 `usage`, in floats. -/
noncomputable def Collection.usageF (c : Collection V) : ℝ := floatDiv c.size c.maxSize

/-- citrine/storage/collection.py:63-70 `status`, in floats: the largest level `v <= ceil(usage * 100)`. -/
noncomputable def Collection.statusF (c : Collection V) : Nat :=
  (Collection.levels.filter fun v : Nat => decide ((v : ℤ) ≤ ⌈fl (c.usageF * 100)⌉)).foldl max 0

namespace CGroup

/-- citrine/storage/group.py:87-90, 153-158 `usage`, in floats. -/
noncomputable def usageF (g : CGroup V) : Outcome ℝ :=
  if g.maxSize = 0 then .error .zeroDivision else .ok (floatDiv g.size g.maxSize)

/-- citrine/storage/group.py:92-95, 160-165 `collection_usage`, in floats. -/
noncomputable def collectionUsageF (g : CGroup V) : List ℝ := g.collections.map Collection.usageF

/-- citrine/storage/group.py:97-99, 167-172 `highest_collection_usage`, in floats. -/
noncomputable def highestUsageF (g : CGroup V) : Outcome ℝ :=
  match g.collectionUsageF with
  | [] => .error .valueError
  | u :: us => .ok (us.foldl max u)

/-- citrine/storage/group.py:101-103, 174-179 `lowest_collection_usage`, in floats. -/
noncomputable def lowestUsageF (g : CGroup V) : Outcome ℝ :=
  match g.collectionUsageF with
  | [] => .error .valueError
  | u :: us => .ok (us.foldl min u)

/-- citrine/storage/group.py:104-112, 181-186 `status`, in floats: the highest of the collections. -/
noncomputable def statusF (g : CGroup V) : Outcome Nat :=
  match g.collections.map Collection.statusF with
  | [] => .error .valueError
  | s :: ss => .ok (ss.foldl max s)

end CGroup

/-- citrine/storage/container.py:61-66, 144-149 `usage`, in floats: of the primary group. -/
noncomputable def Container.usageF (c : Container V) : Outcome ℝ := (c.heap c.primary).usageF

/-- citrine/storage/utils.py:11 `int(sqrt(num))`: the number is converted to a float, its root is rounded, then cut off. -/
noncomputable def intSqrtF (num : Nat) : Nat := ⌊fl (Real.sqrt (fl num))⌋₊

/-- citrine/storage/utils.py:5-14 `is_prime`, in floats. -/
noncomputable def isPrimeF (num : Nat) : Bool :=
  (List.range' 2 (intSqrtF num + 1 - 2)).all fun i => num % i != 0

/-- citrine/storage/utils.py:17-29 `next(get_primes(min=val))`, in floats: the first `steps` rounds of the loop; `none` = still running. -/
noncomputable def searchPrimeF : (steps : Nat) → (val : Nat) → Option Nat
  | 0, _ => none
  | steps + 1, val => if isPrimeF val then some val else searchPrimeF steps (val + 1)

/-- citrine/storage/utils.py:45 `ceil(capacity / max_collection_size)`, in floats. -/
noncomputable def ceilDivF (a b : Nat) : Nat := ⌈floatDiv a b⌉₊

/-- citrine/storage/utils.py:31-51 `number_of_collections`, in floats, with the search for the prime cut off after `steps` rounds. -/
noncomputable def numberOfCollectionsF (steps capacity maxCollectionSize : Nat) : Option (Outcome Nat) :=
  if maxCollectionSize = 0 then some (.error .zeroDivision)
  else (searchPrimeF steps (ceilDivF capacity maxCollectionSize)).map .ok

/-- citrine/storage/utils.py:53-69 `next_number_of_collections`, in floats: the integer is converted, then multiplied by 1.5. -/
noncomputable def nextNumberOfCollectionsF (steps currentMaxSize maxCollectionSize : Nat) : Option (Outcome Nat) :=
  if maxCollectionSize = 0 then some (.error .zeroDivision)
  else (searchPrimeF steps (ceilDivF ⌈fl (fl currentMaxSize * 1.5)⌉₊ maxCollectionSize)).map .ok

end Verif.Storage
