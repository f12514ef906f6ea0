import Verif.Jsonld.Text
import Verif.Spec.Json
import Mathlib.Tactic.Ring

/-!
# json.loads reads every JSON text (C140)
-/
namespace Verif.Props.JsonText
open Verif Verif.Jsonld Verif.Jsonld.Text Verif.Spec.Json

/-- What may follow a value. -/
def Follow (rest : List Char) : Prop := ∀ c, rest.head? = some c → blank c = true ∨ c = ',' ∨ c = ']' ∨ c = '}'

/-- What follows starts with no digit. -/
def NoDigit (rest : List Char) : Prop := ∀ c, rest.head? = some c → c.isDigit = false

/-! ### Blanks -/

theorem blank_iff (c : Char) : blank c = true ↔ c = ' ' ∨ c = '\t' ∨ c = '\n' ∨ c = '\r' := by
  unfold blank; simp [or_assoc]

theorem skip_blanks {w s : List Char} (h : Blanks w) : skip (w ++ s) = skip s := by
  induction w with
  | nil => rfl
  | cons c w ih =>
    have hc : blank c = true := (blank_iff c).2 (h c (by simp))
    unfold skip at ih ⊢
    rw [List.cons_append, List.dropWhile_cons_of_pos hc]
    exact ih fun d hd => h d (by simp [hd])

theorem skip_all {w : List Char} (h : Blanks w) : skip w = [] := by
  have := skip_blanks (s := []) h
  rwa [List.append_nil] at this

theorem skip_cons {c : Char} {s : List Char} (h : blank c = false) : skip (c :: s) = c :: s := by
  unfold skip; exact List.dropWhile_cons_of_neg (by simp [h])

theorem follow_blanks {w rest : List Char} (h : Blanks w) (hr : Follow rest) : Follow (w ++ rest) := by
  cases w with
  | nil => exact hr
  | cons c w =>
    intro d hd
    simp only [List.cons_append, List.head?_cons, Option.some.injEq] at hd
    subst hd
    exact .inl ((blank_iff c).2 (h c (by simp)))

theorem follow_comma (r : List Char) : Follow (',' :: r) := by intro c hc; simp at hc; simp [← hc]
theorem follow_bracket (r : List Char) : Follow (']' :: r) := by intro c hc; simp at hc; simp [← hc]
theorem follow_brace (r : List Char) : Follow ('}' :: r) := by intro c hc; simp at hc; simp [← hc]
theorem follow_nil : Follow [] := by intro c hc; simp at hc

theorem follow_noDigit {rest : List Char} (h : Follow rest) : NoDigit rest := by
  intro c hc
  rcases h c hc with hb | rfl | rfl | rfl
  · rcases (blank_iff c).1 hb with rfl | rfl | rfl | rfl <;> decide
  all_goals decide

/-! ### Texts -/

theorem hexVal_of {c : Char} {d : Nat} (h : HexDigit c d) : hexVal c = some d := by
  unfold HexDigit Digit at h
  simp only [List.mem_cons, Prod.mk.injEq, List.not_mem_nil, or_false] at h
  rcases h with h | h
  all_goals
    rcases h with ⟨rfl, rfl⟩ | h
    · decide
  all_goals
    rcases h with ⟨rfl, rfl⟩ | h
    · decide
  all_goals
    rcases h with ⟨rfl, rfl⟩ | h
    · decide
  all_goals
    rcases h with ⟨rfl, rfl⟩ | h
    · decide
  all_goals
    rcases h with ⟨rfl, rfl⟩ | h
    · decide
  all_goals
    rcases h with ⟨rfl, rfl⟩ | h
    · decide
  all_goals
    rcases h with ⟨rfl, rfl⟩ | h
    · decide
  all_goals
    rcases h with ⟨rfl, rfl⟩ | h
    · decide
  all_goals
    rcases h with ⟨rfl, rfl⟩ | h
    · decide
  · rcases h with ⟨rfl, rfl⟩; decide
  all_goals
    rcases h with ⟨rfl, rfl⟩ | h
    · decide
  all_goals
    rcases h with ⟨rfl, rfl⟩ | h
    · decide
  · rcases h with ⟨rfl, rfl⟩; decide

theorem readHex_of {s : List Char} {n : Nat} (h : Hex s n) (rest : List Char) :
    ∃ r, s = '\\' :: 'u' :: r ∧ readHex (r ++ rest) = some (n, rest) := by
  cases h with
  | mk ha hb hc hd =>
    refine ⟨_, rfl, ?_⟩
    simp only [List.cons_append, List.nil_append, readHex, hexVal_of ha, hexVal_of hb, hexVal_of hc, hexVal_of hd]
    refine congrArg some (Prod.ext ?_ rfl)
    show _ * 4096 + _ * 256 + _ * 16 + _ = _
    ring

theorem char_not_surrogate (c : Char) : c.toNat < 55296 ∨ 57343 < c.toNat := by
  rcases c.valid with h | h
  · exact .inl h
  · exact .inr h.1

theorem readUnit_of {s : List Char} {c : Char} (h : CharText s c) (rest : List Char) : readUnit (s ++ rest) = .ok (some c, rest) := by
  cases h with
  | plain h1 h2 h3 =>
    simp only [List.cons_append, List.nil_append, readUnit]
    rw [if_neg h2, if_neg h3, if_neg (by omega)]
  | short h =>
    simp only [List.mem_cons, Prod.mk.injEq, List.not_mem_nil, or_false] at h
    rcases h with ⟨rfl, rfl⟩ | ⟨rfl, rfl⟩ | ⟨rfl, rfl⟩ | ⟨rfl, rfl⟩ | ⟨rfl, rfl⟩ | ⟨rfl, rfl⟩ | ⟨rfl, rfl⟩ | ⟨rfl, rfl⟩ <;> rfl
  | hex h =>
    obtain ⟨r, rfl, hr⟩ := readHex_of h rest
    have hs := char_not_surrogate c
    have : readUnit ('\\' :: 'u' :: (r ++ rest)) = readEscape ('u' :: (r ++ rest)) := rfl
    rw [List.cons_append, List.cons_append, this, readEscape, if_pos rfl, hr]
    simp only [readCode]
    rw [if_neg (by omega), if_neg (by omega), Char.ofNat_toNat]
  | pair hh hl h1 h2 h3 h4 h5 =>
    rename_i s t hi lo
    obtain ⟨r', rfl, hr'⟩ := readHex_of hl rest
    obtain ⟨r, rfl, hr⟩ := readHex_of hh ('\\' :: 'u' :: r' ++ rest)
    have : readUnit ('\\' :: 'u' :: (r ++ ('\\' :: 'u' :: r' ++ rest))) = readEscape ('u' :: (r ++ ('\\' :: 'u' :: r' ++ rest))) := rfl
    have hlow : readLow ('\\' :: 'u' :: r' ++ rest) = some (lo, rest) := by
      simp only [List.cons_append, readLow, hr']
      rw [if_pos (by omega)]
    rw [List.append_assoc, List.cons_append, List.cons_append, this, readEscape, if_pos rfl, hr]
    simp only [readCode, hlow]
    rw [if_pos (by omega)]
    have : 65536 + (hi - 55296) * 1024 + (lo - 56320) = c.toNat := by omega
    rw [this, Char.ofNat_toNat]

theorem charText_pos {s : List Char} {c : Char} (h : CharText s c) : 1 ≤ s.length := by
  cases h with
  | plain => simp
  | short => simp
  | hex h => obtain ⟨r, rfl, -⟩ := readHex_of h []; simp
  | pair h => obtain ⟨r, rfl, -⟩ := readHex_of h []; simp

theorem readText_of {r cs : List Char} (h : Chars r cs) (rest : List Char) (n : Nat) (hn : r.length + 1 ≤ n) :
    readText n (r ++ '"' :: rest) = .ok (cs, rest) := by
  induction h generalizing n with
  | nil =>
    obtain ⟨n, rfl⟩ := Nat.exists_eq_add_of_le' hn
    rfl
  | @cons s r cs c hc _ ih =>
    have hp := charText_pos hc
    rw [List.length_append] at hn
    obtain ⟨m, rfl⟩ : ∃ m, n = m + 1 := ⟨n - 1, by omega⟩
    rw [List.append_assoc, readText, readUnit_of hc]
    try simp only []
    rw [ih m (by omega)]

/-! ### Numbers -/

theorem digit_facts {c : Char} {d : Nat} (h : Digit c d) : c.isDigit = true ∧ c.toNat - 48 = d := by
  unfold Digit at h
  simp only [List.mem_cons, Prod.mk.injEq, List.not_mem_nil, or_false] at h
  rcases h with ⟨rfl, rfl⟩ | ⟨rfl, rfl⟩ | ⟨rfl, rfl⟩ | ⟨rfl, rfl⟩ | ⟨rfl, rfl⟩ | ⟨rfl, rfl⟩ | ⟨rfl, rfl⟩ | ⟨rfl, rfl⟩ | ⟨rfl, rfl⟩ | ⟨rfl, rfl⟩ <;>
    decide

theorem digits_facts {ds : List Char} {n : Nat} (h : Digits ds n) : (∀ c ∈ ds, c.isDigit = true) ∧ natOf ds = n ∧ ds ≠ [] := by
  induction h with
  | one h =>
    obtain ⟨h1, h2⟩ := digit_facts h
    refine ⟨by simpa using h1, ?_, by simp⟩
    simp [natOf, h2]
  | snoc _ h ih =>
    obtain ⟨h1, h2⟩ := digit_facts h
    obtain ⟨i1, i2, i3⟩ := ih
    refine ⟨fun c hc => ?_, ?_, by simp⟩
    · rcases List.mem_append.1 hc with hc | hc
      · exact i1 c hc
      · simp at hc; subst hc; exact h1
    · unfold natOf at i2 ⊢
      rw [List.foldl_append, i2]
      simp only [List.foldl_cons, List.foldl_nil, h2]
      ring

theorem digits_append {ds rest : List Char} (h : ∀ c ∈ ds, c.isDigit = true) (hr : NoDigit rest) : digits (ds ++ rest) = (ds, rest) := by
  unfold digits
  induction ds with
  | nil =>
    cases rest with
    | nil => rfl
    | cons c r =>
      have : c.isDigit = false := hr c rfl
      simp [this]
  | cons c ds ih =>
    have hc := h c (by simp)
    have := ih fun d hd => h d (by simp [hd])
    simp only [Prod.mk.injEq] at this
    simp [hc, this.1, this.2]

theorem readNat_of {ds : List Char} {n : Nat} (h : Natural ds n) {rest : List Char} (hr : NoDigit rest) :
    readNat (ds ++ rest) = some (ds, rest) := by
  obtain ⟨hd, hz⟩ := h
  obtain ⟨h1, -, h3⟩ := digits_facts hd
  obtain ⟨c, ds, rfl⟩ := List.exists_cons_of_ne_nil h3
  by_cases hc : c = '0'
  · subst hc
    rcases hz with hz | hz
    · rw [hz]; rfl
    · simp at hz
  · rw [List.cons_append, readNat, if_neg hc, if_pos (h1 c (by simp)), digits_append (fun d hd => h1 d (by simp [hd])) hr]

theorem natural_head {ds : List Char} {n : Nat} (h : Natural ds n) : ∃ c r, ds = c :: r ∧ c.isDigit = true := by
  obtain ⟨h1, -, h3⟩ := digits_facts h.1
  obtain ⟨c, r, rfl⟩ := List.exists_cons_of_ne_nil h3
  exact ⟨c, r, rfl, h1 c (by simp)⟩

theorem readSign_digit {c : Char} (hc : c.isDigit = true) (r : List Char) : readSign (c :: r) = ([], c :: r) := by
  unfold readSign
  split
  · rename_i h
    simp only [List.cons.injEq] at h
    rw [h.1] at hc; exact absurd hc (by decide)
  · rfl

theorem integer_read {i : List Char} {z : Int} (h : Integer i z) {rest : List Char} (hr : NoDigit rest) :
    ∃ sign ds, i = sign ++ ds ∧ readSign (i ++ rest) = (sign, ds ++ rest) ∧ readNat (ds ++ rest) = some (ds, rest) ∧
      (if sign = [] then (natOf ds : Int) else - (natOf ds : Int)) = z := by
  cases h with
  | pos h =>
    rename_i n
    obtain ⟨c, r, rfl, hc⟩ := natural_head h
    refine ⟨[], _, rfl, ?_, readNat_of h hr, ?_⟩
    · rw [List.cons_append]; exact readSign_digit hc _
    · rw [if_pos rfl, (digits_facts h.1).2.1]
  | neg h =>
    refine ⟨['-'], _, rfl, rfl, readNat_of h hr, ?_⟩
    rw [if_neg (by simp), (digits_facts h.1).2.1]

theorem frac_noDigit {f : List Char} (h : Frac f) {rest : List Char} (hr : NoDigit rest) : NoDigit (f ++ rest) := by
  cases h with
  | none => exact hr
  | some _ => intro c hc; simp at hc; subst hc; decide

theorem exp_noDigit {e : List Char} (h : Exp e) {rest : List Char} (hr : NoDigit rest) : NoDigit (e ++ rest) := by
  cases h with
  | none => exact hr
  | some he _ _ => intro c hc; simp at hc; subst hc; rcases he with rfl | rfl <;> decide

theorem exp_head {e : List Char} (h : Exp e) {rest : List Char} (hr : Follow rest) : ∀ c, (e ++ rest).head? = some c → c ≠ '.' := by
  cases h with
  | none =>
    intro c hc
    rcases hr c hc with hb | rfl | rfl | rfl
    · rcases (blank_iff c).1 hb with rfl | rfl | rfl | rfl <;> decide
    all_goals decide
  | some he _ _ => intro c hc; simp at hc; subst hc; rcases he with rfl | rfl <;> decide

theorem readFrac_of {f : List Char} (h : Frac f) {rest : List Char} (hr : NoDigit rest) (hd : ∀ c, rest.head? = some c → c ≠ '.') :
    readFrac (f ++ rest) = (f, rest) := by
  cases h with
  | none =>
    rw [List.nil_append]
    unfold readFrac
    split
    · exact absurd rfl (hd '.' rfl)
    · rfl
  | some h =>
    obtain ⟨h1, -, h3⟩ := digits_facts h
    rw [List.cons_append, readFrac, digits_append h1 hr, if_neg h3]

theorem readPlus_of {sign ds : List Char} {n : Nat} (hs : sign = [] ∨ sign = ['-'] ∨ sign = ['+']) (hd : Digits ds n) (rest : List Char) :
    readPlus (sign ++ (ds ++ rest)) = (sign, ds ++ rest) := by
  rcases hs with rfl | rfl | rfl
  · obtain ⟨h1, -, h3⟩ := digits_facts hd
    obtain ⟨c, ds, rfl⟩ := List.exists_cons_of_ne_nil h3
    have hc := h1 c (by simp)
    rw [List.nil_append, List.cons_append]
    unfold readPlus
    split
    · rename_i h; simp only [List.cons.injEq] at h; rw [h.1] at hc; exact absurd hc (by decide)
    · rename_i h; simp only [List.cons.injEq] at h; rw [h.1] at hc; exact absurd hc (by decide)
    · rfl
  · rfl
  · rfl

theorem readExp_of {e : List Char} (h : Exp e) {rest : List Char} (hr : Follow rest) : readExp (e ++ rest) = (e, rest) := by
  cases h with
  | none =>
    rw [List.nil_append]
    cases rest with
    | nil => rfl
    | cons c r =>
      rw [readExp, if_neg]
      rintro hc
      rcases hr c rfl with hb | rfl | rfl | rfl
      · rcases (blank_iff c).1 hb with rfl | rfl | rfl | rfl <;> simp at hc
      all_goals simp at hc
  | some he hs hd =>
    obtain ⟨h1, -, h3⟩ := digits_facts hd
    rw [List.cons_append, readExp, if_pos he, List.append_assoc, readPlus_of hs hd, digits_append h1 (follow_noDigit hr), if_neg h3]

theorem readNumber_int (rf : String → Bool × String) {s : List Char} {z : Int} (h : Integer s z) {rest : List Char} (hr : Follow rest) :
    readNumber rf (s ++ rest) = some (.int z, rest) := by
  obtain ⟨sign, ds, -, h2, h3, h4⟩ := integer_read h (follow_noDigit hr)
  have hf : readFrac rest = ([], rest) := readFrac_of Frac.none (follow_noDigit hr) (exp_head Exp.none hr)
  have he : readExp rest = ([], rest) := readExp_of Exp.none hr
  unfold readNumber
  simp only [h2, h3, hf, he]
  simp only [and_self, if_true]
  rw [h4]

theorem readNumber_float (rf : String → Bool × String) {s : List Char} (h : Decimal s) {rest : List Char} (hr : Follow rest) :
    readNumber rf (s ++ rest) = some (.float (rf (String.ofList s)).1 (rf (String.ofList s)).2, rest) := by
  obtain ⟨i, f, e, z, hi, hf, he, hne, rfl⟩ := h
  have hn := exp_noDigit he (follow_noDigit hr)
  obtain ⟨sign, ds, rfl, h2, h3, -⟩ := integer_read hi (frac_noDigit hf hn)
  have hfr : readFrac (f ++ (e ++ rest)) = (f, e ++ rest) := readFrac_of hf hn (exp_head he hr)
  have hex : readExp (e ++ rest) = (e, rest) := readExp_of he hr
  have : sign ++ ds ++ f ++ e ++ rest = sign ++ ds ++ (f ++ (e ++ rest)) := by simp
  rw [this]
  unfold readNumber
  simp only [h2, h3, hfr, hex]
  rw [if_neg hne]

/-! ### Values -/

theorem word_miss {a c : Char} {w r : List Char} (h : a ≠ c) : word (a :: w) (c :: r) = none := by
  unfold word
  rw [if_neg]
  simp [List.isPrefixOf, h]

theorem integer_head {s : List Char} {z : Int} (h : Integer s z) : ∃ c r, s = c :: r ∧ (c = '-' ∨ c.isDigit = true) := by
  cases h with
  | pos h => obtain ⟨c, r, rfl, hc⟩ := natural_head h; exact ⟨c, r, rfl, .inr hc⟩
  | neg h => exact ⟨_, _, rfl, .inl rfl⟩

theorem decimal_head {s : List Char} (h : Decimal s) : ∃ c r, s = c :: r ∧ (c = '-' ∨ c.isDigit = true) := by
  obtain ⟨i, f, e, z, hi, -, -, -, rfl⟩ := h
  obtain ⟨c, r, rfl, hc⟩ := integer_head hi
  exact ⟨c, r ++ f ++ e, by simp, hc⟩

theorem numeric_ne {c : Char} (h : c = '-' ∨ c.isDigit = true) : c ≠ '"' ∧ c ≠ '[' ∧ c ≠ '{' ∧ c ≠ 'n' ∧ c ≠ 't' ∧ c ≠ 'f' ∧ c ≠ ']' ∧ c ≠ '}' ∧
    blank c = false := by
  rcases h with rfl | h
  · decide
  · refine ⟨?_, ?_, ?_, ?_, ?_, ?_, ?_, ?_, ?_⟩
    all_goals try (rintro rfl; exact absurd h (by decide))
    cases hb : blank c with
    | false => rfl
    | true => rcases (blank_iff c).1 hb with rfl | rfl | rfl | rfl <;> exact absurd h (by decide)

theorem readValue_number (rf : String → Bool × String) {c : Char} {r : List Char} (hc : c = '-' ∨ c.isDigit = true) {t : Tree} {rest : List Char}
    (hn : readNumber rf (c :: r) = some (t, rest)) (n : Nat) : readValue rf (n + 1) (c :: r) = .ok (t, rest) := by
  obtain ⟨h1, h2, h3, h4, h5, h6, -⟩ := numeric_ne hc
  rw [readValue]
  try simp only []
  rw [if_neg h1, if_neg h2, if_neg h3, readAtom]
  have e1 : word "null".toList (c :: r) = none := word_miss (fun e => h4 e.symm)
  have e2 : word "true".toList (c :: r) = none := word_miss (fun e => h5 e.symm)
  have e3 : word "false".toList (c :: r) = none := word_miss (fun e => h6 e.symm)
  simp only [e1, e2, e3, hn]

/-- Values start with a character that is neither blank nor a closing bracket. -/
theorem value_head {ext : Bool} {rf : String → Bool × String} {s : List Char} {t : Tree} (h : Value ext rf s t) :
    ∃ c r, s = c :: r ∧ blank c = false ∧ c ≠ ']' ∧ c ≠ '}' := by
  cases h with
  | int h => obtain ⟨c, r, rfl, hc⟩ := integer_head h; have := numeric_ne hc; exact ⟨c, r, rfl, this.2.2.2.2.2.2.2.2, this.2.2.2.2.2.2.1, this.2.2.2.2.2.2.2.1⟩
  | float h _ => obtain ⟨c, r, rfl, hc⟩ := decimal_head h; have := numeric_ne hc; exact ⟨c, r, rfl, this.2.2.2.2.2.2.2.2, this.2.2.2.2.2.2.1, this.2.2.2.2.2.2.2.1⟩
  | str h => obtain ⟨r, -, rfl⟩ := h; exact ⟨_, _, rfl, by decide, by decide, by decide⟩
  | _ => exact ⟨_, _, rfl, by decide, by decide, by decide⟩

theorem items_head {ext : Bool} {rf : String → Bool × String} {s : List Char} {xs : List Tree} (h : Items ext rf s xs) (rest : List Char) :
    ∃ c r, skip (s ++ rest) = c :: r ∧ c ≠ ']' := by
  cases h with
  | one hw hv _ =>
    obtain ⟨c, r, rfl, hb, hc, -⟩ := value_head hv
    rw [List.append_assoc, skip_blanks hw, List.append_assoc, List.cons_append, skip_cons hb]
    exact ⟨c, _, rfl, hc⟩
  | more hw hv _ _ =>
    obtain ⟨c, r, rfl, hb, hc, -⟩ := value_head hv
    rw [List.append_assoc, skip_blanks hw, List.append_assoc, List.cons_append, skip_cons hb]
    exact ⟨c, _, rfl, hc⟩

theorem members_head {ext : Bool} {rf : String → Bool × String} {s : List Char} {kvs : List (String × Tree)} (h : Members ext rf s kvs)
    (rest : List Char) : ∃ r, skip (s ++ rest) = '"' :: r := by
  cases h with
  | one hw hq _ _ _ _ =>
    obtain ⟨r, -, rfl⟩ := hq
    rw [List.append_assoc, skip_blanks hw, List.append_assoc, List.cons_append, skip_cons (by decide)]
    exact ⟨_, rfl⟩
  | more hw hq _ _ _ _ _ =>
    obtain ⟨r, -, rfl⟩ := hq
    rw [List.append_assoc, skip_blanks hw, List.append_assoc, List.cons_append, skip_cons (by decide)]
    exact ⟨_, rfl⟩

theorem blanks_bracket {w : List Char} (hw : Blanks w) (c : Char) (hc : blank c = false) (rest : List Char) : skip (w ++ [c] ++ rest) = c :: rest := by
  rw [List.append_assoc, skip_blanks hw]; exact skip_cons hc

mutual
theorem readValue_of {ext : Bool} {rf : String → Bool × String} {s : List Char} {t : Tree} (h : Value ext rf s t) (rest : List Char)
    (hr : Follow rest) (n : Nat) (hn : s.length ≤ n) : readValue rf n (s ++ rest) = .ok (t, rest) := by
  obtain ⟨m, rfl⟩ : ∃ m, n = m + 1 := by
    obtain ⟨c, r, rfl, -⟩ := value_head h
    exact ⟨n - 1, by simp at hn; omega⟩
  cases h with
  | null => rfl
  | true => rfl
  | false => rfl
  | nan => rfl
  | inf => rfl
  | negInf => rfl
  | int h =>
    obtain ⟨c, r, rfl, hc⟩ := integer_head h
    exact readValue_number rf hc (readNumber_int rf h hr) m
  | float h hv =>
    obtain ⟨c, r, rfl, hc⟩ := decimal_head h
    have := readNumber_float rf h hr
    rw [hv] at this
    exact readValue_number rf hc this m
  | str h =>
    rename_i t
    obtain ⟨r, hr', rfl⟩ := h
    simp only [List.length_cons, List.length_append, List.length_nil] at hn
    have := readText_of hr' rest m (by omega)
    have e : '"' :: (r ++ ['"']) ++ rest = '"' :: (r ++ '"' :: rest) := by simp
    rw [e, readValue]
    try simp only []
    rw [if_pos (by simp), this]
    simp only [String.ofList_toList]
  | arrNil hw =>
    rename_i w
    have e : '[' :: (w ++ [']']) ++ rest = '[' :: (w ++ [']'] ++ rest) := rfl
    rw [e, readValue]
    try simp only []
    rw [if_neg (by decide), if_pos (by simp), blanks_bracket hw ']' (by decide), if_pos (by simp)]
    rfl
  | arr hi =>
    rename_i s xs
    simp only [List.length_cons, List.length_append, List.length_nil] at hn
    have ih := readItems_of hi rest m (by omega)
    have e : '[' :: (s ++ [']']) ++ rest = '[' :: (s ++ ']' :: rest) := by simp
    obtain ⟨c, r, hs, hc⟩ := items_head hi (']' :: rest)
    have hne : ¬ (skip (s ++ ']' :: rest)).head? = some ']' := by rw [hs]; simpa using hc
    rw [e, readValue]
    try simp only []
    rw [if_neg (by decide), if_pos (by simp), if_neg hne, ih]
  | objNil hw =>
    rename_i w
    have e : '{' :: (w ++ ['}']) ++ rest = '{' :: (w ++ ['}'] ++ rest) := rfl
    rw [e, readValue]
    try simp only []
    rw [if_neg (by decide), if_neg (by decide), if_pos (by simp), blanks_bracket hw '}' (by decide), if_pos (by simp)]
    rfl
  | obj hi =>
    rename_i s kvs
    simp only [List.length_cons, List.length_append, List.length_nil] at hn
    have ih := readPairs_of hi rest m (by omega)
    have e : '{' :: (s ++ ['}']) ++ rest = '{' :: (s ++ '}' :: rest) := by simp
    obtain ⟨r, hs⟩ := members_head hi ('}' :: rest)
    have hne : ¬ (skip (s ++ '}' :: rest)).head? = some '}' := by rw [hs]; simp
    rw [e, readValue]
    try simp only []
    rw [if_neg (by decide), if_neg (by decide), if_pos (by simp), if_neg hne, ih]
theorem readItems_of {ext : Bool} {rf : String → Bool × String} {s : List Char} {xs : List Tree} (h : Items ext rf s xs) (rest : List Char)
    (n : Nat) (hn : s.length + 1 ≤ n) : readItems rf n (skip (s ++ ']' :: rest)) = .ok (xs, rest) := by
  obtain ⟨m, rfl⟩ : ∃ m, n = m + 1 := ⟨n - 1, by omega⟩
  cases h with
  | one hw hv hw' =>
    rename_i w s w' x
    simp only [List.length_append] at hn
    obtain ⟨c, r, hs, hb, -, -⟩ := value_head hv
    have e : skip (w ++ (s ++ w') ++ ']' :: rest) = s ++ (w' ++ ']' :: rest) := by
      rw [List.append_assoc, skip_blanks hw, List.append_assoc, hs, List.cons_append, skip_cons hb]
    have ih := readValue_of hv (w' ++ ']' :: rest) (follow_blanks hw' (follow_bracket rest)) m (by omega)
    rw [e, readItems, ih]
    try simp only []
    rw [skip_blanks hw', skip_cons (by decide)]
    try simp only []
    rw [if_pos (by simp)]
  | more hw hv hw' hi =>
    rename_i w s w' r x xs
    simp only [List.length_append, List.length_cons] at hn
    obtain ⟨c, r', hs, hb, -, -⟩ := value_head hv
    have e : skip (w ++ (s ++ (w' ++ ',' :: r)) ++ ']' :: rest) = s ++ (w' ++ ',' :: (r ++ ']' :: rest)) := by
      rw [List.append_assoc, skip_blanks hw, List.append_assoc, hs, List.cons_append, skip_cons hb]
      simp
    have ih := readValue_of hv (w' ++ ',' :: (r ++ ']' :: rest)) (follow_blanks hw' (follow_comma _)) m (by omega)
    have ih' := readItems_of hi rest m (by omega)
    rw [e, readItems, ih]
    try simp only []
    rw [skip_blanks hw', skip_cons (by decide)]
    try simp only []
    rw [if_neg (by decide), if_pos (by simp), ih']
theorem readPairs_of {ext : Bool} {rf : String → Bool × String} {s : List Char} {kvs : List (String × Tree)} (h : Members ext rf s kvs)
    (rest : List Char) (n : Nat) (hn : s.length + 1 ≤ n) : readPairs rf n (skip (s ++ '}' :: rest)) = .ok (kvs, rest) := by
  obtain ⟨m, rfl⟩ : ∃ m, n = m + 1 := ⟨n - 1, by omega⟩
  cases h with
  | one hw hq h1 h2 hv hw' =>
    rename_i w k w1 w2 s w' nm x
    obtain ⟨kr, hk, rfl⟩ := hq
    simp only [List.length_append, List.length_cons, List.length_nil] at hn
    obtain ⟨c, r', hs, hb, -, -⟩ := value_head hv
    have e : skip (w ++ ('"' :: (kr ++ ['"']) ++ (w1 ++ ':' :: (w2 ++ (s ++ w')))) ++ '}' :: rest) =
        '"' :: (kr ++ '"' :: (w1 ++ ':' :: (w2 ++ (s ++ (w' ++ '}' :: rest))))) := by
      rw [List.append_assoc, skip_blanks hw, List.cons_append, List.cons_append, skip_cons (by decide)]
      simp
    have ih := readValue_of hv (w' ++ '}' :: rest) (follow_blanks hw' (follow_brace _)) m (by omega)
    have hv' : skip (w2 ++ (s ++ (w' ++ '}' :: rest))) = s ++ (w' ++ '}' :: rest) := by
      rw [skip_blanks h2, hs, List.cons_append, skip_cons hb]
    rw [e, readPairs]
    try simp only []
    rw [if_pos (by simp), readText_of hk _ m (by omega)]
    try simp only []
    rw [skip_blanks h1, skip_cons (by decide)]
    try simp only []
    rw [if_pos (by simp), hv', ih]
    try simp only []
    rw [skip_blanks hw', skip_cons (by decide)]
    try simp only []
    rw [if_pos (by simp), String.ofList_toList]
  | more hw hq h1 h2 hv hw' hm =>
    rename_i w k w1 w2 s w' r nm x kvs
    obtain ⟨kr, hk, rfl⟩ := hq
    simp only [List.length_append, List.length_cons, List.length_nil] at hn
    obtain ⟨c, r', hs, hb, -, -⟩ := value_head hv
    have e : skip (w ++ ('"' :: (kr ++ ['"']) ++ (w1 ++ ':' :: (w2 ++ (s ++ (w' ++ ',' :: r))))) ++ '}' :: rest) =
        '"' :: (kr ++ '"' :: (w1 ++ ':' :: (w2 ++ (s ++ (w' ++ ',' :: (r ++ '}' :: rest)))))) := by
      rw [List.append_assoc, skip_blanks hw, List.cons_append, List.cons_append, skip_cons (by decide)]
      simp
    have ih := readValue_of hv (w' ++ ',' :: (r ++ '}' :: rest)) (follow_blanks hw' (follow_comma _)) m (by omega)
    have ih' := readPairs_of hm rest m (by omega)
    have hv' : skip (w2 ++ (s ++ (w' ++ ',' :: (r ++ '}' :: rest)))) = s ++ (w' ++ ',' :: (r ++ '}' :: rest)) := by
      rw [skip_blanks h2, hs, List.cons_append, skip_cons hb]
    rw [e, readPairs]
    try simp only []
    rw [if_pos (by simp), readText_of hk _ m (by omega)]
    try simp only []
    rw [skip_blanks h1, skip_cons (by decide)]
    try simp only []
    rw [if_pos (by simp), hv', ih]
    try simp only []
    rw [skip_blanks hw', skip_cons (by decide)]
    try simp only []
    rw [if_neg (by decide), if_pos (by simp), ih', String.ofList_toList]
end

/-- C140: every JSON text, also with the three extra words, is read as what it stands for. -/
theorem loads_reads {ext : Bool} {value : String → Bool × String} {text : String} {t : Tree} (h : Reads ext value text t) :
    loads value text = .ok t := by
  obtain ⟨w, s, w', hw, hv, hw', he⟩ := h
  obtain ⟨c, r, hs, hb, -, -⟩ := value_head hv
  have e : skip text.toList = s ++ w' := by rw [he, skip_blanks hw, hs, List.cons_append, skip_cons hb]
  have hf : Follow w' := by
    have := follow_blanks hw' follow_nil; rwa [List.append_nil] at this
  unfold loads
  rw [e, readValue_of hv w' hf _ (by rw [he]; simp only [List.length_append]; omega)]
  try simp only []
  rw [if_pos (skip_all hw')]

end Verif.Props.JsonText
