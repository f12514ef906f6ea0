import Verif.Storage.Utils
import Mathlib.Tactic.NormNum.Prime
import Mathlib.Tactic.IntervalCases

/-!
# Properties C01, C02 (and C72): sizing

Specification vocabulary: Mathlib's `Nat.Prime`.
-/
namespace Verif.Props
open Verif.Storage

/-- **C02.** For every `n ≥ 2`, `is_prime(n)` answers exactly whether `n` is prime. -/
theorem isPrime_correct (n : Nat) (h : 2 ≤ n) : isPrime n = true ↔ n.Prime := by
  constructor
  · intro hp
    rw [isPrime_iff_no_divisor] at hp
    rw [Nat.prime_def_le_sqrt]
    exact ⟨h, hp⟩
  · exact isPrime_of_prime

/-- C02 does not depend on how `sqrt` rounds: with any bound from the integer square root to `n - 1` instead of `int(sqrt(n))` the same loop
decides primality. -/
theorem isPrime_rounding (n r : Nat) (h : 2 ≤ n) (hr : Nat.sqrt n ≤ r) (hn : r < n) :
    ((List.range' 2 (r + 1 - 2)).all fun i => n % i != 0) = true ↔ n.Prime := by
  rw [List.all_eq_true]
  constructor
  · intro hp
    rw [Nat.prime_def_le_sqrt]
    refine ⟨h, fun i h2 hi hd => ?_⟩
    have := hp i (by rw [List.mem_range']; exact ⟨i - 2, by omega, by omega⟩)
    simp [Nat.mod_eq_zero_of_dvd hd] at this
  · intro hp i hi
    rw [List.mem_range'] at hi
    obtain ⟨j, hj, rfl⟩ := hi
    have hnd : ¬ (2 + 1 * j) ∣ n := by
      intro hd
      rcases (Nat.dvd_prime hp).1 hd with h | h <;> omega
    simpa [Nat.dvd_iff_mod_eq_zero] using hnd

example : ((List.range' 2 (6 + 1 - 2)).all fun i => 35 % i != 0) = true ↔ Nat.Prime 35 := isPrime_rounding 35 6 (by omega) (Nat.sqrt_le_sqrt (by omega : 35 ≤ 36) |>.trans (by rw [show 36 = 6 * 6 from rfl, Nat.sqrt_eq])) (by omega)

/-- C02, the degenerate inputs: 0 and 1 are accepted as well. -/
theorem isPrime_small : isPrime 0 = true ∧ isPrime 1 = true := by
  constructor <;> rw [isPrime_iff_no_divisor] <;> intro i h2 hi <;> simp at hi <;> omega

theorem isPrime_iff (n : Nat) : isPrime n = true ↔ (n.Prime ∨ n ≤ 1) := by
  by_cases h : 2 ≤ n
  · rw [isPrime_correct n h]
    constructor
    · exact .inl
    · rintro (h' | h')
      · exact h'
      · omega
  · have : n = 0 ∨ n = 1 := by omega
    rcases this with rfl | rfl <;> simp [isPrime_small]

example : isPrime 25 = false ∧ isPrime 23 = true ∧ isPrime 169 = false := by
  refine ⟨?_, ?_, ?_⟩
  · rw [← Bool.not_eq_true, isPrime_iff]; norm_num
  · rw [isPrime_iff]; norm_num
  · rw [← Bool.not_eq_true, isPrime_iff]; norm_num

theorem nextPrime_spec (v : Nat) :
    isPrime (nextPrime v) = true ∧ v ≤ nextPrime v ∧
      ∀ n, v ≤ n → isPrime n = true → nextPrime v ≤ n := by
  fun_induction nextPrime v with
  | case1 v h => exact ⟨h, le_refl v, fun n hn _ => hn⟩
  | case2 v h ih =>
    refine ⟨ih.1, by omega, ?_⟩
    intro n hn hp
    refine ih.2.2 n ?_ hp
    rcases Nat.lt_or_ge v n with h' | h'
    · exact h'
    · have : n = v := le_antisymm h' hn
      subst this; exact absurd hp h

theorem ceil_le_iff {c m n : Nat} (hm : 0 < m) : (c + m - 1) / m ≤ n ↔ c ≤ n * m := by
  rw [Nat.div_le_iff_le_mul hm]
  constructor <;> intro h <;> omega

/-- **C01.** For every capacity and every positive collection size the function
returns (the search terminates), and its result is the smallest number that is
prime — or at most 1, when 0 or 1 collections suffice — and whose collections
together can hold the capacity. -/
theorem numberOfCollections_correct (capacity m : Nat) (hm : 1 ≤ m) :
    ∃ n, numberOfCollections capacity m = .ok n ∧
      (n.Prime ∨ n ≤ 1) ∧ capacity ≤ n * m ∧
      ∀ n', (n'.Prime ∨ n' ≤ 1) → capacity ≤ n' * m → n ≤ n' := by
  have hm' : m ≠ 0 := by omega
  refine ⟨nextPrime ((capacity + m - 1) / m), by simp only [numberOfCollections, hm', if_false], ?_⟩
  obtain ⟨h1, h2, h3⟩ := nextPrime_spec ((capacity + m - 1) / m)
  refine ⟨(isPrime_iff _).1 h1, (ceil_le_iff (by omega)).1 h2, ?_⟩
  intro n' hp hc
  exact h3 n' ((ceil_le_iff (by omega)).2 hc) ((isPrime_iff n').2 hp)

/-- C01, corollary: as soon as more than one collection is needed the number is prime. -/
theorem numberOfCollections_prime (capacity m : Nat) (hm : 1 ≤ m) (h : m < capacity) :
    ∃ n, numberOfCollections capacity m = .ok n ∧ n.Prime := by
  obtain ⟨n, h1, h2, h3, _⟩ := numberOfCollections_correct capacity m hm
  refine ⟨n, h1, h2.resolve_right ?_⟩
  intro hn
  have : n * m ≤ 1 * m := Nat.mul_le_mul_right m hn
  omega

/-- C01: a zero collection size is the only error (ZeroDivisionError). -/
theorem numberOfCollections_error (capacity m : Nat) :
    (∃ e, numberOfCollections capacity m = .error e) ↔ m = 0 := by
  unfold numberOfCollections
  split_ifs with h <;> simp [h]

/-- The default container: 23 collections (`Container.new()` of the test-suite). -/
example : numberOfCollections 100000 5000 = .ok 23 := by
  have : nextPrime ((100000 + 5000 - 1) / 5000) = 23 := by
    have h := nextPrime_spec 20
    have h23 := h.2.2 23 (by omega) ((isPrime_iff 23).2 (by norm_num))
    have hp := (isPrime_iff _).1 h.1
    have hge := h.2.1
    show nextPrime 20 = 23
    generalize nextPrime 20 = n at *
    interval_cases n <;> revert hp <;> norm_num
  simp [numberOfCollections, this]

/-- Same guarantee for `next_number_of_collections`: the smallest prime (or ≤ 1)
number of collections that holds 1.5 times the current size. -/
theorem nextNumberOfCollections_correct (current m : Nat) (hm : 1 ≤ m) :
    ∃ n, nextNumberOfCollections current m = .ok n ∧
      (n.Prime ∨ n ≤ 1) ∧ 3 * current ≤ 2 * (n * m) ∧
      ∀ n', (n'.Prime ∨ n' ≤ 1) → 3 * current ≤ 2 * (n' * m) → n ≤ n' := by
  have hm' : m ≠ 0 := by omega
  refine ⟨nextPrime (((3 * current + 1) / 2 + m - 1) / m),
    by simp only [nextNumberOfCollections, hm', if_false], ?_⟩
  obtain ⟨h1, h2, h3⟩ := nextPrime_spec (((3 * current + 1) / 2 + m - 1) / m)
  have h2' := (ceil_le_iff (by omega)).1 h2
  refine ⟨(isPrime_iff _).1 h1, by omega, ?_⟩
  intro n' hp hc
  exact h3 n' ((ceil_le_iff (by omega)).2 (by omega)) ((isPrime_iff n').2 hp)

theorem getPrimes_none (steps v : Nat) :
    getPrimes none steps v = (List.range' v steps).filter isPrime := by
  induction steps generalizing v with
  | zero => rfl
  | succ n ih =>
    rw [List.range'_succ, List.filter_cons, getPrimes]
    simp only [if_true, ih]

/-- **C72 (partial).** Without `max` the generator yields, in increasing order and
without omission, exactly the primes (and 0/1) from `min` on: after any number of
loop iterations it has yielded those below `min + steps`. -/
theorem getPrimes_unbounded_partial (steps min p : Nat) :
    (p ∈ getPrimes none steps min ↔ min ≤ p ∧ p < min + steps ∧ (p.Prime ∨ p ≤ 1)) ∧
    (getPrimes none steps min).Pairwise (· < ·) := by
  rw [getPrimes_none]
  constructor
  · rw [List.mem_filter, List.mem_range'_1, isPrime_iff, and_assoc]
  · exact (List.pairwise_lt_range' ..).filter _

/-- **C72 (counterexample).** With a `max`, the documented "stopping value", the
test is reversed: nothing is ever yielded when `min ≤ max` ... -/
theorem getPrimes_max_counterexample (min max steps : Nat) (h1 : 1 ≤ max) (h2 : min ≤ max) :
    getPrimes (some max) steps min = [] := by
  cases steps with
  | zero => rfl
  | succ n =>
    rw [getPrimes]
    have : ¬ max = 0 := by omega
    simp [this, h2]

/-- ... although there are primes to yield. -/
example : (7 : Nat).Prime ∧ 2 ≤ 7 ∧ 7 ≤ 10 ∧ ∀ s, 7 ∉ getPrimes (some 10) s 2 := by
  refine ⟨by norm_num, by decide, by decide, fun s => ?_⟩
  rw [getPrimes_max_counterexample 2 10 s (by decide) (by decide)]
  exact List.not_mem_nil

end Verif.Props
