import Verif.Storage.Float
import Verif.Props.Sizing
import Verif.Props.Usage
import Mathlib.NumberTheory.Bertrand

/-!
# The figures computed with floating point (C126)
-/
namespace Verif.Props
open Verif.Storage Verif.Spec
variable {V : Type}

/-! ### Specification -/

/-- The numbers a binary64 float can hold: an integer of at most 53 bits times a power of two. -/
def IsFloat (y : ℝ) : Prop := ∃ k e : ℤ, |k| ≤ 2 ^ 53 ∧ y = k * 2 ^ e

/-! ### Rounding -/

theorem roundEven_int (n : ℤ) : roundEven (n : ℝ) = n := by simp [roundEven]

theorem roundEven_ge (y : ℝ) : ⌊y⌋ ≤ roundEven y := by unfold roundEven; split_ifs <;> omega

theorem roundEven_le (y : ℝ) : roundEven y ≤ ⌊y⌋ + 1 := by unfold roundEven; split_ifs <;> omega

theorem roundEven_mono {x y : ℝ} (h : x ≤ y) : roundEven x ≤ roundEven y := by
  rcases (Int.floor_mono h).lt_or_eq with hf | hf
  · have := roundEven_le x; have := roundEven_ge y; omega
  · have hx := Int.fract_add_floor x
    have hy := Int.fract_add_floor y
    have hfr : Int.fract x ≤ Int.fract y := by
      have : ((⌊x⌋ : ℤ) : ℝ) = ⌊y⌋ := by rw [hf]
      linarith
    unfold roundEven
    rw [hf]
    split_ifs <;> first | omega | (exfalso; linarith)

theorem roundEven_err (y : ℝ) : |(roundEven y : ℝ) - y| ≤ 1 / 2 := by
  have hy := Int.fract_add_floor y
  have h0 := Int.fract_nonneg y
  have h1 := Int.fract_lt_one y
  unfold roundEven
  rw [abs_le]
  split_ifs <;> push_cast <;> constructor <;> linarith

theorem roundEven_of_near {y : ℝ} {k : ℤ} (h : |y - k| < 1 / 2) : roundEven y = k := by
  have h1 := abs_lt.1 h
  have h2 := abs_le.1 (roundEven_err y)
  have : |(roundEven y : ℝ) - k| < 1 := by rw [abs_lt]; constructor <;> linarith
  have : |roundEven y - k| < 1 := by exact_mod_cast this
  rw [abs_lt] at this
  omega

theorem ulp_pos (x : ℝ) : 0 < ulp x := by unfold ulp; positivity

theorem log_le {x : ℝ} (hx : 0 < x) : (2 : ℝ) ^ Int.log 2 x ≤ x := by
  simpa using Int.zpow_log_le_self (b := 2) (r := x) (by norm_num) hx

theorem lt_log (x : ℝ) : x < (2 : ℝ) ^ (Int.log 2 x + 1) := by
  simpa using Int.lt_zpow_succ_log_self (b := 2) (by norm_num) x

theorem ulp_mul (x : ℝ) : (2 : ℝ) ^ Int.log 2 x = (2 ^ 52 : ℤ) * ulp x := by
  unfold ulp
  rw [zpow_sub₀ (by norm_num)]
  push_cast
  norm_num
  ring

theorem ulp_mul' (x : ℝ) : (2 : ℝ) ^ (Int.log 2 x + 1) = (2 ^ 53 : ℤ) * ulp x := by
  rw [zpow_add₀ (by norm_num), ulp_mul]
  push_cast
  ring

theorem fl_ge_pow {x : ℝ} (hx : 0 < x) : (2 : ℝ) ^ Int.log 2 x ≤ fl x := by
  have h : ((2 ^ 52 : ℤ) : ℝ) ≤ x / ulp x := by
    rw [le_div_iff₀ (ulp_pos x), ← ulp_mul]; exact log_le hx
  have h2 := roundEven_mono h
  rw [roundEven_int] at h2
  rw [ulp_mul, fl]
  exact mul_le_mul_of_nonneg_right (by exact_mod_cast h2) (ulp_pos x).le

theorem fl_le_pow (x : ℝ) : fl x ≤ (2 : ℝ) ^ (Int.log 2 x + 1) := by
  have h : x / ulp x ≤ ((2 ^ 53 : ℤ) : ℝ) := by
    rw [div_le_iff₀ (ulp_pos x), ← ulp_mul']; exact (lt_log x).le
  have h2 := roundEven_mono h
  rw [roundEven_int] at h2
  rw [ulp_mul', fl]
  exact mul_le_mul_of_nonneg_right (by exact_mod_cast h2) (ulp_pos x).le

theorem fl_zero : fl 0 = 0 := by simp [fl, roundEven]

theorem fl_pos {x : ℝ} (hx : 0 < x) : 0 < fl x := lt_of_lt_of_le (by positivity) (fl_ge_pow hx)

theorem fl_nonneg {x : ℝ} (hx : 0 ≤ x) : 0 ≤ fl x := by
  rcases hx.eq_or_lt with h | h
  · rw [← h, fl_zero]
  · exact (fl_pos h).le

theorem fl_mono {x y : ℝ} (hx : 0 ≤ x) (h : x ≤ y) : fl x ≤ fl y := by
  rcases hx.eq_or_lt with h0 | h0
  · rw [← h0, fl_zero]; exact fl_nonneg (hx.trans h)
  · rcases (Int.log_mono_right (b := 2) h0 h).lt_or_eq with hl | hl
    · calc fl x ≤ 2 ^ (Int.log 2 x + 1) := fl_le_pow x
        _ ≤ 2 ^ Int.log 2 y := zpow_le_zpow_right₀ (by norm_num) (by omega)
        _ ≤ fl y := fl_ge_pow (h0.trans_le h)
    · have hu : ulp x = ulp y := by unfold ulp; rw [hl]
      unfold fl
      rw [hu]
      have := roundEven_mono (div_le_div_of_nonneg_right h (ulp_pos y).le)
      exact mul_le_mul_of_nonneg_right (by exact_mod_cast this) (ulp_pos y).le

theorem fl_err {x : ℝ} (hx : 0 < x) : |fl x - x| ≤ x * 2 ^ (-53 : ℤ) := by
  have h := roundEven_err (x / ulp x)
  have hu := ulp_pos x
  have e : fl x - x = (roundEven (x / ulp x) - x / ulp x) * ulp x := by
    unfold fl; field_simp
  rw [e, abs_mul, abs_of_pos hu]
  have h2 : ulp x ≤ x * 2 ^ (-52 : ℤ) := by
    have := log_le hx
    rw [ulp_mul] at this
    rw [zpow_neg, ← div_eq_mul_inv, le_div_iff₀ (by positivity)]
    push_cast at this
    norm_num at this ⊢
    linarith
  have h3 : x * 2 ^ (-53 : ℤ) = 1 / 2 * (x * 2 ^ (-52 : ℤ)) := by norm_num; ring
  rw [h3]
  exact mul_le_mul h h2 hu.le (by norm_num)

theorem fl_eq {x : ℝ} {e k : ℤ} (h1 : (2 : ℝ) ^ e ≤ x) (h2 : x < 2 ^ (e + 1)) (hk : |x / 2 ^ (e - 52) - k| < 1 / 2) : fl x = k * 2 ^ (e - 52) := by
  have h0 : 0 < x := lt_of_lt_of_le (by positivity) h1
  have hl : Int.log 2 x = e := by
    apply le_antisymm
    · have := (Int.lt_zpow_iff_log_lt (b := 2) (by norm_num) (x := e + 1) h0).1 (by simpa using h2)
      omega
    · exact (Int.zpow_le_iff_le_log (b := 2) (by norm_num) h0).1 (by simpa using h1)
  unfold fl ulp
  rw [hl, roundEven_of_near hk]

/-- A float is not changed by rounding. -/
theorem fl_of_isFloat {y : ℝ} (h0 : 0 ≤ y) (h : IsFloat y) : fl y = y := by
  rcases h0.eq_or_lt with h0 | h0
  · rw [← h0, fl_zero]
  obtain ⟨k, e, hk, rfl⟩ := h
  have hpe : (0 : ℝ) < 2 ^ e := by positivity
  have hk0 : (0 : ℝ) < k := by
    by_contra hc
    push Not at hc
    exact absurd (mul_nonpos_of_nonpos_of_nonneg hc hpe.le) (by linarith)
  have hk0' : 0 < k := by exact_mod_cast hk0
  rw [abs_of_pos hk0'] at hk
  set x : ℝ := k * 2 ^ e with hx
  by_cases hk53 : k = 2 ^ 53
  · have hl : Int.log 2 x = e + 53 := by
      have : x = ((2 : ℕ) : ℝ) ^ (e + 53) := by
        rw [hx, hk53]; push_cast; rw [zpow_add₀ (by norm_num)]; norm_num; ring
      rw [this, Int.log_zpow (by norm_num)]
    have : x / ulp x = ((2 ^ 52 : ℤ) : ℝ) := by
      rw [div_eq_iff (ulp_pos x).ne', ← ulp_mul, hl, hx, hk53]
      push_cast; rw [zpow_add₀ (by norm_num)]; norm_num; ring
    unfold fl
    rw [this, roundEven_int, ← this]
    exact div_mul_cancel₀ _ (ulp_pos x).ne'
  · have hlt : k < 2 ^ 53 := lt_of_le_of_ne hk hk53
    have hl : Int.log 2 x ≤ e + 52 := by
      have : Int.log 2 x < e + 53 := by
        refine (Int.lt_zpow_iff_log_lt (b := 2) (by norm_num) h0).1 ?_
        push_cast
        rw [zpow_add₀ (by norm_num), hx, mul_comm]
        exact mul_lt_mul_of_pos_left (by exact_mod_cast hlt) hpe
      omega
    obtain ⟨d, hd⟩ : ∃ d : ℕ, e = (Int.log 2 x - 52) + d := ⟨(e - (Int.log 2 x - 52)).toNat, by omega⟩
    have : x / ulp x = ((k * 2 ^ d : ℤ) : ℝ) := by
      rw [div_eq_iff (ulp_pos x).ne']
      conv_lhs => rw [hx, hd]
      unfold ulp
      rw [zpow_add₀ (by norm_num)]
      push_cast
      rw [zpow_natCast]; ring
    unfold fl
    rw [this, roundEven_int, ← this]
    exact div_mul_cancel₀ _ (ulp_pos x).ne'

theorem isFloat_fl (x : ℝ) (hx : 0 ≤ x) : IsFloat (fl x) := by
  rcases hx.eq_or_lt with h0 | h0
  · exact ⟨0, 0, by norm_num, by rw [← h0, fl_zero]; simp⟩
  refine ⟨roundEven (x / ulp x), Int.log 2 x - 52, ?_, rfl⟩
  have h : x / ulp x ≤ ((2 ^ 53 : ℤ) : ℝ) := by
    rw [div_le_iff₀ (ulp_pos x), ← ulp_mul']; exact (lt_log x).le
  have h2 := roundEven_mono h
  rw [roundEven_int] at h2
  have h3 : ((0 : ℤ) : ℝ) ≤ x / ulp x := by push_cast; exact div_nonneg hx (ulp_pos x).le
  have h4 := roundEven_mono h3
  rw [roundEven_int] at h4
  rw [abs_of_nonneg h4]
  exact h2

theorem roundEven_nearest (t : ℝ) (j : ℤ) : |(roundEven t : ℝ) - t| ≤ |(j : ℝ) - t| := by
  have h := roundEven_err t
  by_contra hc
  push Not at hc
  have hj : |t - j| < 1 / 2 := by rw [abs_sub_comm]; exact lt_of_lt_of_le hc h
  rw [roundEven_of_near hj] at hc
  exact lt_irrefl _ hc

theorem fl_nearest_multiple (x : ℝ) (j : ℤ) : |fl x - x| ≤ |j * ulp x - x| := by
  have hu := ulp_pos x
  have e1 : fl x - x = (roundEven (x / ulp x) - x / ulp x) * ulp x := by unfold fl; field_simp
  have e2 : j * ulp x - x = (j - x / ulp x) * ulp x := by field_simp
  rw [e1, e2, abs_mul, abs_mul]
  exact mul_le_mul_of_nonneg_right (roundEven_nearest _ _) (abs_nonneg _)

/-- The rounding is the one of IEEE 754: the result is a float and no float is nearer to the exact number. -/
theorem fl_nearest (x : ℝ) (hx : 0 ≤ x) : IsFloat (fl x) ∧ ∀ y, IsFloat y → |fl x - x| ≤ |y - x| := by
  refine ⟨isFloat_fl x hx, fun y hy => ?_⟩
  rcases hx.eq_or_lt with h0 | h0
  · rw [← h0, fl_zero]; simp
  rcases lt_or_ge y (2 ^ Int.log 2 x) with hn | hn
  · have h1 := fl_nearest_multiple x (2 ^ 52)
    rw [← ulp_mul, abs_of_nonpos (sub_nonpos.2 (log_le h0))] at h1
    have h2 := log_le h0
    rw [abs_of_neg (by linarith : y - x < 0)]
    linarith
  · have hy0 : 0 < y := lt_of_lt_of_le (by positivity) hn
    have hfy := fl_of_isFloat hy0.le hy
    have hl : Int.log 2 x ≤ Int.log 2 y := (Int.zpow_le_iff_le_log (b := 2) (by norm_num) hy0).1 (by simpa using hn)
    obtain ⟨d, hd⟩ : ∃ d : ℕ, Int.log 2 y - 52 = (Int.log 2 x - 52) + d := ⟨(Int.log 2 y - Int.log 2 x).toNat, by omega⟩
    have : y = ((roundEven (y / ulp y) * 2 ^ d : ℤ) : ℝ) * ulp x := by
      conv_lhs => rw [← hfy, fl]
      have hu : ulp y = 2 ^ d * ulp x := by
        unfold ulp
        rw [hd, zpow_add₀ (by norm_num), zpow_natCast]; ring
      push_cast
      rw [mul_assoc, ← hu]
    rw [this]
    exact fl_nearest_multiple x _

example : IsFloat (fl (1 / 3)) := (fl_nearest (1 / 3) (by norm_num)).1

theorem isFloat_nat {n : Nat} (h : n ≤ 2 ^ 53) : IsFloat (n : ℝ) :=
  ⟨n, 0, by rw [abs_of_nonneg (by omega)]; exact_mod_cast h, by simp⟩

theorem fl_nat {n : Nat} (h : n ≤ 2 ^ 53) : fl (n : ℝ) = n := fl_of_isFloat (by positivity) (isFloat_nat h)

/-! ### Primality -/

theorem intSqrtF_ge {n : Nat} (h : n ≤ 2 ^ 53) : Nat.sqrt n ≤ intSqrtF n := by
  unfold intSqrtF
  rw [fl_nat h]
  refine Nat.le_floor ?_
  rw [← fl_nat (n := Nat.sqrt n) ((Nat.sqrt_le_self n).trans h)]
  exact fl_mono (by positivity) Real.nat_sqrt_le_real_sqrt

theorem intSqrtF_lt {n : Nat} (h2 : 2 ≤ n) (h : n ≤ 2 ^ 53) : intSqrtF n < n := by
  unfold intSqrtF
  rw [fl_nat h]
  rcases h2.eq_or_lt with rfl | h3
  · have hs : Real.sqrt ((2 : ℕ) : ℝ) ≤ 3 / 2 := by
      rw [Real.sqrt_le_left (by norm_num)]; norm_num
    have h32 : fl (3 / 2 : ℝ) = 3 / 2 := fl_of_isFloat (by norm_num) ⟨3, -1, by norm_num, by norm_num⟩
    have := fl_mono (Real.sqrt_nonneg _) hs
    rw [h32] at this
    rw [Nat.floor_lt (fl_nonneg (Real.sqrt_nonneg _))]
    push_cast at this ⊢
    linarith
  · have hs : Real.sqrt (n : ℝ) ≤ ((n - 1 : ℕ) : ℝ) := by
      rw [Real.sqrt_le_left (by positivity)]
      have : n ≤ (n - 1) ^ 2 := by
        obtain ⟨k, rfl⟩ : ∃ k, n = k + 3 := ⟨n - 3, by omega⟩
        have : k + 3 - 1 = k + 2 := by omega
        rw [this]; nlinarith
      exact_mod_cast this
    have := fl_mono (Real.sqrt_nonneg _) hs
    rw [fl_nat (n := n - 1) (by omega)] at this
    rw [Nat.floor_lt (fl_nonneg (Real.sqrt_nonneg _))]
    refine lt_of_le_of_lt this ?_
    exact_mod_cast (by omega : n - 1 < n)

/-- **C126 (primes).** Up to 2^53 the float version of `is_prime` gives the exact answer. -/
theorem isPrimeF_correct (n : Nat) (h2 : 2 ≤ n) (h : n ≤ 2 ^ 53) : isPrimeF n = true ↔ n.Prime :=
  isPrime_rounding n (intSqrtF n) h2 (intSqrtF_ge h) (intSqrtF_lt h2 h)

theorem isPrimeF_eq (n : Nat) (h : n ≤ 2 ^ 53) : isPrimeF n = isPrime n := by
  by_cases h2 : 2 ≤ n
  · rw [Bool.eq_iff_iff, isPrimeF_correct n h2 h, isPrime_correct n h2]
  · have hs : intSqrtF n ≤ 1 := by
      unfold intSqrtF
      rw [fl_nat h]
      have : Real.sqrt (n : ℝ) ≤ ((1 : ℕ) : ℝ) := by
        rw [Real.sqrt_le_left (by norm_num)]
        have : n ≤ 1 := by omega
        push_cast; rw [one_pow]; exact_mod_cast this
      have := fl_mono (Real.sqrt_nonneg _) this
      rw [fl_nat (by norm_num)] at this
      exact Nat.floor_le_of_le (by exact_mod_cast this)
    have e1 : isPrimeF n = true := by
      unfold isPrimeF
      rw [show intSqrtF n + 1 - 2 = 0 by omega]; rfl
    rw [e1]
    symm
    exact (isPrime_iff n).2 (.inr (by omega))

theorem searchPrimeF_nextPrime (v : Nat) (h : nextPrime v ≤ 2 ^ 53) (steps : Nat) :
    searchPrimeF (nextPrime v - v + 1 + steps) v = some (nextPrime v) := by
  fun_induction nextPrime v with
  | case1 v hp =>
    rw [show v - v + 1 + steps = steps + 1 by omega, searchPrimeF, isPrimeF_eq v h, if_pos hp]
  | case2 v hp ih =>
    have h1 := (nextPrime_spec (v + 1)).2.1
    rw [show nextPrime (v + 1) - v + 1 + steps = (nextPrime (v + 1) - (v + 1) + 1 + steps) + 1 by omega, searchPrimeF,
      isPrimeF_eq v (by omega), if_neg hp, ih h]

theorem nextPrime_le_two_mul (v : Nat) (h : 1 ≤ v) : nextPrime v ≤ 2 * v := by
  obtain ⟨p, hp, h1, h2⟩ := Nat.exists_prime_lt_and_le_two_mul v (by omega)
  exact ((nextPrime_spec v).2.2 p h1.le ((isPrime_iff p).2 (.inl hp))).trans h2

theorem nextPrime_bound {v : Nat} (h : v ≤ 2 ^ 52) : nextPrime v ≤ 2 ^ 53 := by
  rcases Nat.eq_zero_or_pos v with rfl | h1
  · exact ((nextPrime_spec 0).2.2 0 le_rfl isPrime_small.1).trans (by norm_num)
  · have := nextPrime_le_two_mul v h1; omega

/-! ### Sizes -/

theorem ceil_eq (c m : Nat) (hm : 1 ≤ m) : ((c + m - 1) / m : ℕ) = ⌈(c : ℝ) / m⌉₊ := by
  refine eq_of_forall_ge_iff fun n => ?_
  rw [ceil_le_iff (by omega), Nat.ceil_le, div_le_iff₀ (by exact_mod_cast hm)]
  exact_mod_cast Iff.rfl

/-- **C126 (sizes).** Up to 2^52 objects, `ceil(capacity / max_collection_size)` in floats is the exact number. -/
theorem ceilDivF_eq (c m : Nat) (hm : 1 ≤ m) (hc : c ≤ 2 ^ 52) : ceilDivF c m = (c + m - 1) / m := by
  rw [ceil_eq c m hm]
  unfold ceilDivF floatDiv
  have hm' : (0 : ℝ) < m := by exact_mod_cast hm
  set q : ℝ := (c : ℝ) / m with hq
  have hq0 : 0 ≤ q := by positivity
  have hk : ⌈q⌉₊ ≤ 2 ^ 53 := by
    rw [← ceil_eq c m hm, ceil_le_iff (by omega)]; nlinarith
  apply le_antisymm
  · rw [Nat.ceil_le, ← fl_nat hk]
    exact fl_mono hq0 (Nat.le_ceil q)
  · by_contra hcon
    push Not at hcon
    set k := ⌈fl q⌉₊ with hkdef
    have hkq : (k : ℝ) < q := Nat.lt_ceil.1 hcon
    have hfk : fl q ≤ k := Nat.le_ceil _
    have hqp : 0 < q := lt_of_le_of_lt (by positivity) hkq
    have he := abs_le.1 (fl_err hqp)
    have hgap : q - k ≥ 1 / m := by
      have h1 : k * m + 1 ≤ c := by
        have : (k : ℝ) * m < c := by rwa [hq, lt_div_iff₀ hm'] at hkq
        exact_mod_cast this
      have h2 : (k : ℝ) * m + 1 ≤ c := by exact_mod_cast h1
      rw [hq, ge_iff_le, le_sub_iff_add_le, ← sub_nonneg]
      have : (c : ℝ) / m - (1 / m + k) = (c - 1 - k * m) / m := by field_simp; ring
      rw [this]
      exact div_nonneg (by linarith) hm'.le
    have hsm : q * 2 ^ (-53 : ℤ) < 1 / m := by
      rw [hq, div_mul_eq_mul_div]
      refine div_lt_div_of_pos_right ?_ hm'
      have : (c : ℝ) ≤ 2 ^ 52 := by exact_mod_cast hc
      have e : (2 : ℝ) ^ (-53 : ℤ) = 1 / (2 * 2 ^ 52) := by norm_num
      rw [e, mul_one_div, div_lt_one (by positivity)]
      linarith [show (0 : ℝ) < 2 ^ 52 by positivity]
    have h9 : q - fl q ≤ q * 2 ^ (-53 : ℤ) := by
      have := neg_le.1 he.1
      rwa [neg_sub] at this
    exact absurd (lt_of_le_of_lt (hgap.le.trans ((sub_le_sub_left hfk q).trans h9)) hsm) (lt_irrefl _)

/-- **C126 (number of collections).** Up to 2^52 objects the float version of `number_of_collections` returns, after finitely many rounds of its
search, the exact result. -/
theorem numberOfCollectionsF_eq (c m : Nat) (hc : c ≤ 2 ^ 52) :
    ∃ rounds, ∀ steps, numberOfCollectionsF (rounds + steps) c m = some (numberOfCollections c m) := by
  by_cases hm : m = 0
  · exact ⟨0, fun steps => by simp [numberOfCollectionsF, numberOfCollections, hm]⟩
  · have hv : (c + m - 1) / m ≤ 2 ^ 52 := by
      rw [ceil_le_iff (by omega)]
      exact hc.trans (Nat.le_mul_of_pos_right _ (by omega))
    refine ⟨nextPrime ((c + m - 1) / m) - (c + m - 1) / m + 1, fun steps => ?_⟩
    simp only [numberOfCollectionsF, numberOfCollections, hm, if_false]
    rw [ceilDivF_eq c m (by omega) hc, searchPrimeF_nextPrime _ (nextPrime_bound hv)]
    rfl

/-- The same for `next_number_of_collections`. -/
theorem nextNumberOfCollectionsF_eq (c m : Nat) (hc : c ≤ 2 ^ 51) :
    ∃ rounds, ∀ steps, nextNumberOfCollectionsF (rounds + steps) c m = some (nextNumberOfCollections c m) := by
  by_cases hm : m = 0
  · exact ⟨0, fun steps => by simp [nextNumberOfCollectionsF, nextNumberOfCollections, hm]⟩
  · have hn : ⌈fl (fl (c : ℝ) * 1.5)⌉₊ = (3 * c + 1) / 2 := by
      rw [fl_nat (by omega), fl_of_isFloat (by positivity)]
      · refine eq_of_forall_ge_iff fun n => ?_
        rw [Nat.ceil_le]
        have : (c : ℝ) * 1.5 ≤ n ↔ ((3 * c : ℕ) : ℝ) ≤ ((2 * n : ℕ) : ℝ) := by
          push_cast; constructor <;> intro h <;> linarith
        rw [this, Nat.cast_le]
        omega
      · refine ⟨3 * c, -1, ?_, by push_cast; norm_num; ring⟩
        rw [abs_of_nonneg (by omega)]
        have : (c : ℤ) ≤ 2 ^ 51 := by exact_mod_cast hc
        omega
    have hv : (((3 * c + 1) / 2) + m - 1) / m ≤ 2 ^ 52 := by
      rw [ceil_le_iff (by omega)]
      exact (by omega : (3 * c + 1) / 2 ≤ 2 ^ 52).trans (Nat.le_mul_of_pos_right _ (by omega))
    refine ⟨nextPrime ((((3 * c + 1) / 2) + m - 1) / m) - (((3 * c + 1) / 2) + m - 1) / m + 1, fun steps => ?_⟩
    simp only [nextNumberOfCollectionsF, nextNumberOfCollections, hm, if_false]
    rw [hn, ceilDivF_eq _ m (by omega) (by omega), searchPrimeF_nextPrime _ (nextPrime_bound hv)]
    rfl

example : ∃ rounds, ∀ steps, numberOfCollectionsF (rounds + steps) 100000 5000 = some (numberOfCollections 100000 5000) :=
  numberOfCollectionsF_eq 100000 5000 (by norm_num)

/-- C126 is false for absurdly large capacities: 2^54 + 1 objects in collections of 2^53 get two collections, one object too few. -/
theorem huge_capacity_counterexample (steps : Nat) :
    numberOfCollectionsF (steps + 1) (2 ^ 54 + 1) (2 ^ 53) = some (.ok 2) ∧ ¬ 2 ^ 54 + 1 ≤ 2 * 2 ^ 53 := by
  refine ⟨?_, by norm_num⟩
  have hd : floatDiv (2 ^ 54 + 1) (2 ^ 53) = 2 := by
    unfold floatDiv
    rw [fl_eq (e := 1) (k := 2 ^ 52)]
    · norm_num
    · norm_num
    · norm_num
    · norm_num [abs_lt]
  have hc : ceilDivF (2 ^ 54 + 1) (2 ^ 53) = 2 := by
    unfold ceilDivF; rw [hd]; simp
  have hp : isPrimeF 2 = true := (isPrimeF_correct 2 le_rfl (by norm_num)).2 Nat.prime_two
  unfold numberOfCollectionsF
  rw [if_neg (by norm_num), hc, searchPrimeF, if_pos hp]
  rfl

/-! ### Usage and status -/

theorem boundary (j : Nat) (hj : j ∈ [59, 69, 79, 89]) : fl (fl ((j : ℝ) / 100) * 100) ≤ j := by
  have hle : ∀ {x : ℝ} {n : Nat}, 0 ≤ x → x ≤ n → n ≤ 2 ^ 53 → fl x ≤ n := fun h0 h1 h2 => by
    rw [← fl_nat h2]; exact fl_mono h0 h1
  simp only [List.mem_cons, List.not_mem_nil, or_false] at hj
  rcases hj with rfl | rfl | rfl | rfl
  · rw [fl_eq (x := ((59 : ℕ) : ℝ) / 100) (e := -1) (k := 5314247560297185) (by norm_num) (by norm_num) (by norm_num [abs_lt])]
    exact hle (by norm_num) (by norm_num) (by norm_num)
  · rw [fl_eq (x := ((69 : ℕ) : ℝ) / 100) (e := -1) (k := 6214967485771284) (by norm_num) (by norm_num) (by norm_num [abs_lt])]
    exact hle (by norm_num) (by norm_num) (by norm_num)
  · rw [fl_eq (x := ((79 : ℕ) : ℝ) / 100) (e := -1) (k := 7115687411245384) (by norm_num) (by norm_num) (by norm_num [abs_lt])]
    rw [fl_eq (e := 6) (k := 79 * 2 ^ 46) (by norm_num) (by norm_num) (by norm_num [abs_lt])]
    norm_num
  · rw [fl_eq (x := ((89 : ℕ) : ℝ) / 100) (e := -1) (k := 8016407336719483) (by norm_num) (by norm_num) (by norm_num [abs_lt])]
    rw [fl_eq (e := 6) (k := 89 * 2 ^ 46) (by norm_num) (by norm_num) (by norm_num [abs_lt])]
    norm_num

theorem level_iff (n m j : Nat) (hm : 1 ≤ m) (hm' : m ≤ 2 ^ 45) (hj : j ∈ [59, 69, 79, 89]) :
    ((j + 1 : ℕ) : ℤ) ≤ ⌈fl (floatDiv n m * 100)⌉ ↔ j * m < 100 * n := by
  have e : ((j + 1 : ℕ) : ℤ) ≤ ⌈fl (floatDiv n m * 100)⌉ ↔ (j : ℝ) < fl (floatDiv n m * 100) := by
    rw [show ((j + 1 : ℕ) : ℤ) = (j : ℤ) + 1 by push_cast; ring, Int.add_one_le_iff, Int.lt_ceil]; simp
  have hj' : j ≤ 89 ∧ 59 ≤ j := by
    simp only [List.mem_cons, List.not_mem_nil, or_false] at hj; omega
  rw [e]
  have hmr : (0 : ℝ) < m := by exact_mod_cast hm
  constructor
  · intro h
    by_contra hc
    push Not at hc
    have h1 : (n : ℝ) / m ≤ (j : ℝ) / 100 := by
      rw [div_le_div_iff₀ hmr (by norm_num)]
      have : n * 100 ≤ j * m := by omega
      exact_mod_cast this
    have h2 : floatDiv n m ≤ fl ((j : ℝ) / 100) := fl_mono (by positivity) h1
    have h3 := fl_mono (mul_nonneg (fl_nonneg (by positivity)) (by norm_num)) (mul_le_mul_of_nonneg_right h2 (by norm_num : (0 : ℝ) ≤ 100))
    have h4 := boundary j hj
    exact absurd (lt_of_lt_of_le h (h3.trans h4)) (lt_irrefl _)
  · intro h
    have hn : 0 < n := by by_contra hc; have : n = 0 := by omega
                          subst this; omega
    have hnr : (0 : ℝ) < n := by exact_mod_cast hn
    have hq : 0 < (n : ℝ) / m := by positivity
    have h1 := (abs_le.1 (fl_err hq)).1
    have hfp : 0 < floatDiv n m * 100 := mul_pos (fl_pos hq) (by norm_num)
    have h2 := (abs_le.1 (fl_err hfp)).1
    have hd : floatDiv n m = fl ((n : ℝ) / m) := rfl
    rw [← hd] at h1
    have h3 : (j : ℝ) * m + 1 ≤ 100 * n := by exact_mod_cast h
    have hmb : (m : ℝ) ≤ 2 ^ 45 := by exact_mod_cast hm'
    have hjb : (j : ℝ) ≤ 89 := by exact_mod_cast hj'.1
    -- j < 100 (n / m) (1 - 2^-53)^2
    have key : (j : ℝ) < 100 * ((n : ℝ) / m) * (1 - 2 ^ (-53 : ℤ)) * (1 - 2 ^ (-53 : ℤ)) := by
      rw [show 100 * ((n : ℝ) / m) * (1 - 2 ^ (-53 : ℤ)) * (1 - 2 ^ (-53 : ℤ)) = (100 * n * ((1 - 2 ^ (-53 : ℤ)) * (1 - 2 ^ (-53 : ℤ)))) / m by ring, lt_div_iff₀ hmr]
      have hc : (1 : ℝ) - 2 ^ (-52 : ℤ) ≤ (1 - 2 ^ (-53 : ℤ)) * (1 - 2 ^ (-53 : ℤ)) := by norm_num
      have hjm : (j : ℝ) * m ≤ 89 * 2 ^ 45 := mul_le_mul hjb hmb hmr.le (by norm_num)
      have h5 : (j : ℝ) * m < ((j : ℝ) * m + 1) * (1 - 2 ^ (-52 : ℤ)) := by
        norm_num at hjm ⊢
        linarith
      refine lt_of_lt_of_le h5 ?_
      exact mul_le_mul h3 hc (by norm_num) (by positivity)
    have h4 : ((n : ℝ) / m) * (1 - 2 ^ (-53 : ℤ)) ≤ floatDiv n m := by linarith
    have h6 : floatDiv n m * 100 * (1 - 2 ^ (-53 : ℤ)) ≤ fl (floatDiv n m * 100) := by linarith
    refine lt_of_lt_of_le key (le_trans ?_ h6)
    have : (0 : ℝ) ≤ 1 - 2 ^ (-53 : ℤ) := by norm_num
    nlinarith [mul_le_mul_of_nonneg_right h4 this]

/-- **C126 (status).** For collections of up to 2^45 objects the float version of `status` is the exact one, whatever is stored. -/
theorem statusF_eq (c : Collection V) (h1 : 1 ≤ c.maxSize) (h2 : c.maxSize ≤ 2 ^ 45) : c.statusF = c.status := by
  have key : ∀ v ∈ Collection.levels, decide ((v : ℤ) ≤ ⌈fl (c.usageF * 100)⌉) = decide (v ≤ (100 * c.size + c.maxSize - 1) / c.maxSize) := by
    intro v hv
    have hx : 0 ≤ fl (c.usageF * 100) := fl_nonneg (mul_nonneg (fl_nonneg (by positivity)) (by norm_num))
    have hgen : ∀ j, j ∈ [59, 69, 79, 89] → (((j + 1 : ℕ) : ℤ) ≤ ⌈fl (c.usageF * 100)⌉ ↔ j + 1 ≤ (100 * c.size + c.maxSize - 1) / c.maxSize) := by
      intro j hj
      have := level_iff c.size c.maxSize j h1 h2 hj
      have h3 := ceil_le_iff (c := 100 * c.size) (m := c.maxSize) (n := j) (by omega)
      unfold Collection.usageF
      rw [this]
      constructor <;> intro h <;> by_contra hc
      · have := h3.1 (by omega); omega
      · have := h3.2 (by omega); omega
    have h0 : ((0 : ℕ) : ℤ) ≤ ⌈fl (c.usageF * 100)⌉ := by exact_mod_cast Int.ceil_nonneg hx
    simp only [Collection.levels, List.mem_cons, List.not_mem_nil, or_false] at hv
    rw [decide_eq_decide]
    rcases hv with rfl | rfl | rfl | rfl | rfl
    · exact ⟨fun _ => Nat.zero_le _, fun _ => h0⟩
    · exact hgen 59 (by simp)
    · exact hgen 69 (by simp)
    · exact hgen 79 (by simp)
    · exact hgen 89 (by simp)
  unfold Collection.statusF Collection.status Collection.statusOf
  rw [List.filter_congr key]

/-- The same for groups. -/
theorem group_statusF_eq (g : CGroup V) (h : ∀ c ∈ g.collections, 1 ≤ c.maxSize ∧ c.maxSize ≤ 2 ^ 45) : g.statusF = g.status := by
  unfold CGroup.statusF CGroup.status
  rw [List.map_congr_left fun c hc => statusF_eq c (h c hc).1 (h c hc).2]
  rfl

/-- **C126 (usage).** The float reported as usage is off by at most one part in 2^53; it is 0 exactly for nothing stored and reaches 1 exactly when the
limit is reached. -/
theorem floatDiv_usage (n m : Nat) (h1 : 1 ≤ m) (h2 : m ≤ 2 ^ 53) :
    |floatDiv n m - (n : ℝ) / m| ≤ (n : ℝ) / m * 2 ^ (-53 : ℤ) ∧ (floatDiv n m = 0 ↔ n = 0) ∧ (1 ≤ floatDiv n m ↔ m ≤ n) := by
  have hmr : (0 : ℝ) < m := by exact_mod_cast h1
  have hz : floatDiv 0 m = 0 := by unfold floatDiv; simp [fl_zero]
  rcases Nat.eq_zero_or_pos n with rfl | hn
  · rw [hz]
    refine ⟨by simp, by simp, ?_⟩
    constructor
    · intro h; norm_num at h
    · intro h; omega
  · have hnr : (0 : ℝ) < n := by exact_mod_cast hn
    have hq : 0 < (n : ℝ) / m := by positivity
    refine ⟨fl_err hq, ⟨fun h => absurd h (fl_pos hq).ne', fun h => by omega⟩, ?_⟩
    constructor
    · intro h
      by_contra hc
      push Not at hc
      have h3 := (abs_le.1 (fl_err hq)).2
      have h4 : (n : ℝ) / m ≤ 1 - 1 / m := by
        rw [div_le_iff₀ hmr, sub_mul, one_div, inv_mul_cancel₀ hmr.ne', one_mul, le_sub_iff_add_le]
        exact_mod_cast hc
      have h5 : (2 : ℝ) ^ (-53 : ℤ) ≤ 1 / m := by
        rw [zpow_neg, ← one_div]
        refine one_div_le_one_div_of_le hmr ?_
        exact_mod_cast h2
      have h6 : floatDiv n m ≤ (n : ℝ) / m + (n : ℝ) / m * 2 ^ (-53 : ℤ) := by
        have : floatDiv n m = fl ((n : ℝ) / m) := rfl
        linarith
      have h7 : (0 : ℝ) < 2 ^ (-53 : ℤ) := by positivity
      nlinarith
    · intro h
      have : ((1 : ℕ) : ℝ) ≤ (n : ℝ) / m := by
        rw [le_div_iff₀ hmr]; push_cast; rw [one_mul]; exact_mod_cast h
      have h3 := fl_mono (by norm_num) this
      rw [fl_nat (by norm_num)] at h3
      exact_mod_cast h3

theorem foldl_max_fl (l : List ℚ) (a : ℚ) (h0 : 0 ≤ a) (h : ∀ x ∈ l, 0 ≤ x) :
    (l.map fun q : ℚ => fl (q : ℝ)).foldl max (fl (a : ℝ)) = fl ((l.foldl max a : ℚ) : ℝ) := by
  induction l generalizing a with
  | nil => rfl
  | cons b l ih =>
    simp only [List.map_cons, List.foldl_cons]
    have hb : 0 ≤ b := h b List.mem_cons_self
    have : max (fl (a : ℝ)) (fl (b : ℝ)) = fl ((max a b : ℚ) : ℝ) := by
      rcases le_total a b with hab | hab
      · rw [max_eq_right hab, max_eq_right (fl_mono (by exact_mod_cast h0) (by exact_mod_cast hab))]
      · rw [max_eq_left hab, max_eq_left (fl_mono (by exact_mod_cast hb) (by exact_mod_cast hab))]
    rw [this]
    exact ih (max a b) (le_max_of_le_left h0) fun x hx => h x (List.mem_cons_of_mem _ hx)

theorem foldl_min_fl (l : List ℚ) (a : ℚ) (h0 : 0 ≤ a) (h : ∀ x ∈ l, 0 ≤ x) :
    (l.map fun q : ℚ => fl (q : ℝ)).foldl min (fl (a : ℝ)) = fl ((l.foldl min a : ℚ) : ℝ) := by
  induction l generalizing a with
  | nil => rfl
  | cons b l ih =>
    simp only [List.map_cons, List.foldl_cons]
    have hb : 0 ≤ b := h b List.mem_cons_self
    have : min (fl (a : ℝ)) (fl (b : ℝ)) = fl ((min a b : ℚ) : ℝ) := by
      rcases le_total a b with hab | hab
      · rw [min_eq_left hab, min_eq_left (fl_mono (by exact_mod_cast h0) (by exact_mod_cast hab))]
      · rw [min_eq_right hab, min_eq_right (fl_mono (by exact_mod_cast hb) (by exact_mod_cast hab))]
    rw [this]
    exact ih (min a b) (le_min h0 hb) fun x hx => h x (List.mem_cons_of_mem _ hx)

/-- What an exact figure becomes in floats. -/
noncomputable def rounded : Outcome ℚ → Outcome ℝ
  | .ok u => .ok (fl (u : ℝ))
  | .error e => .error e

theorem usageF_rounded (c : Collection V) : c.usageF = fl ((c.usage : ℚ) : ℝ) := by
  unfold Collection.usageF Collection.usage floatDiv; push_cast; rfl

theorem usage_nonneg (c : Collection V) : 0 ≤ c.usage := by unfold Collection.usage; positivity

/-- **C126 (figures of groups and containers).** Every usage figure in floats is the exact one rounded once, including the highest and the lowest, and
raises in exactly the same cases. -/
theorem usage_figures_rounded (g : CGroup V) (c : Container V) :
    g.usageF = rounded g.usage ∧ g.highestUsageF = rounded g.highestUsage ∧ g.lowestUsageF = rounded g.lowestUsage ∧ c.usageF = rounded c.usage := by
  have hg : ∀ g : CGroup V, g.usageF = rounded g.usage := by
    intro g
    unfold CGroup.usageF CGroup.usage
    by_cases h : g.maxSize = 0
    · rw [if_pos h, if_pos h]; rfl
    · rw [if_neg h, if_neg h]; unfold rounded floatDiv; push_cast; rfl
  have hm : g.collectionUsageF = g.collectionUsage.map fun q : ℚ => fl (q : ℝ) := by
    unfold CGroup.collectionUsageF CGroup.collectionUsage
    rw [List.map_map]
    exact List.map_congr_left fun c _ => usageF_rounded c
  have hnn : ∀ x ∈ g.collectionUsage, 0 ≤ x := by
    intro x hx
    obtain ⟨c, _, rfl⟩ := List.mem_map.1 hx
    exact usage_nonneg c
  refine ⟨hg g, ?_, ?_, hg _⟩
  · unfold CGroup.highestUsageF CGroup.highestUsage
    rw [hm]
    cases hcu : g.collectionUsage with
    | nil => rfl
    | cons u us =>
      rw [hcu] at hnn
      exact congrArg Except.ok (foldl_max_fl us u (hnn u List.mem_cons_self) fun x hx => hnn x (List.mem_cons_of_mem _ hx))
  · unfold CGroup.lowestUsageF CGroup.lowestUsage
    rw [hm]
    cases hcu : g.collectionUsage with
    | nil => rfl
    | cons u us =>
      rw [hcu] at hnn
      exact congrArg Except.ok (foldl_min_fl us u (hnn u List.mem_cons_self) fun x hx => hnn x (List.mem_cons_of_mem _ hx))

/-- A collection of 100 with 79 objects: `0.79` is rounded up, so `0.79 * 100` is more than 79 before it is rounded; the status is still 70, not 80. -/
example (c : Collection V) (h : c.maxSize = 100) (hs : c.size = 79) : c.statusF = 70 := by
  rw [statusF_eq c (by omega) (by omega), Collection.status, hs, h]; decide

end Verif.Props
