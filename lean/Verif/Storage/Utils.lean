import Verif.Py
import Mathlib.Data.Nat.Prime.Infinite
import Mathlib.Data.Nat.Sqrt
import Mathlib.Data.Nat.Find

/-!
# Model of citrine/storage/utils.py and citrine/storage/consts.py
-/
namespace Verif.Storage

/-- citrine/storage/consts.py:3-8 -/
def defaultCollectionSize : Nat := 5000
/-- citrine/storage/consts.py:3-8 -/
def defaultContainerSize : Nat := 100000

/-- citrine/storage/utils.py:5-14 `is_prime`: the loop
`for i in range(2, int(sqrt(num)) + 1): if num % i == 0: return False`.
Simplification: `int(sqrt(num))` is the exact integer square root (C126,
`Props.isPrimeF_eq`: the float computation gives the same answer up to 2^53); negative arguments (ValueError from `sqrt`) are
excluded by the type. -/
def isPrime (num : Nat) : Bool :=
  (List.range' 2 (Nat.sqrt num + 1 - 2)).all fun i => num % i != 0

/-- The loop test really is trial division up to the square root. -/
theorem isPrime_iff_no_divisor (n : Nat) :
    isPrime n = true ↔ ∀ i, 2 ≤ i → i ≤ Nat.sqrt n → ¬ i ∣ n := by
  unfold isPrime
  rw [List.all_eq_true]
  constructor
  · intro h i h2 hi hd
    have := h i (by rw [List.mem_range']; exact ⟨i - 2, by omega, by omega⟩)
    simp [Nat.mod_eq_zero_of_dvd hd] at this
  · intro h i hi
    rw [List.mem_range'] at hi
    obtain ⟨j, hj, rfl⟩ := hi
    have := h (2 + 1 * j) (by omega) (by omega)
    simpa [Nat.dvd_iff_mod_eq_zero] using this

theorem isPrime_of_prime {p : Nat} (hp : p.Prime) : isPrime p = true := by
  rw [isPrime_iff_no_divisor]
  intro i h2 hi hd
  rcases (Nat.dvd_prime hp).1 hd with h | h
  · omega
  · subst h
    have h1 := Nat.sqrt_lt_self (n := i) (by omega)
    omega

theorem exists_isPrime_ge (v : Nat) : ∃ p, v ≤ p ∧ isPrime p = true := by
  obtain ⟨p, hle, hp⟩ := Nat.exists_infinite_primes v
  exact ⟨p, hle, isPrime_of_prime hp⟩

/-- citrine/storage/utils.py:17-29 `get_primes(min)` without `max`, up to the first
`yield`: `next(get_primes(min=val))`.  The loop increments `val` until
`is_prime(val)`; Lean demands a proof that it ends. -/
def nextPrime (val : Nat) : Nat :=
  if h : isPrime val = true then val else nextPrime (val + 1)
termination_by Nat.find (exists_isPrime_ge val) - val
decreasing_by
  have h1 := Nat.find_spec (exists_isPrime_ge val)
  have hne : Nat.find (exists_isPrime_ge val) ≠ val := by
    intro he; rw [he] at h1; exact h h1.2
  have hle : val + 1 ≤ Nat.find (exists_isPrime_ge val) := by
    have := h1.1; omega
  have h2 : Nat.find (exists_isPrime_ge (val + 1)) ≤ Nat.find (exists_isPrime_ge val) :=
    Nat.find_min' _ ⟨hle, h1.2⟩
  omega

/-- citrine/storage/utils.py:17-29 `get_primes(min, max)`: the values yielded during
the first `steps` iterations of the `while not max or val > max` loop
(`max = None` and `max = 0` are both "no max"). -/
def getPrimes (max : Option Nat) : (steps : Nat) → (val : Nat) → List Nat
  | 0, _ => []
  | steps + 1, val =>
    if (match max with | none => true | some m => m == 0 || decide (val > m)) then
      if isPrime val then val :: getPrimes max steps (val + 1)
      else getPrimes max steps (val + 1)
    else []

/-- citrine/storage/utils.py:31-51 `number_of_collections`.  `ceil(capacity / m)` is
computed exactly (the code divides floats; C126: the same up to 2^52). -/
def numberOfCollections (capacity maxCollectionSize : Nat) : Outcome Nat :=
  if maxCollectionSize = 0 then .error .zeroDivision
  else .ok (nextPrime ((capacity + maxCollectionSize - 1) / maxCollectionSize))

/-- citrine/storage/utils.py:53-69 `next_number_of_collections`;
`ceil(current_max_size * 1.5)` is `⌈3x/2⌉`. -/
def nextNumberOfCollections (currentMaxSize maxCollectionSize : Nat) : Outcome Nat :=
  if maxCollectionSize = 0 then .error .zeroDivision
  else
    let neededSize := (3 * currentMaxSize + 1) / 2
    .ok (nextPrime ((neededSize + maxCollectionSize - 1) / maxCollectionSize))

end Verif.Storage
