import Verif.Props.JsonRead
import Mathlib.Tactic.IntervalCases

/-!
# json.dumps writes JSON that stands for the data, in every layout (C140)
-/
namespace Verif.Props.JsonText
open Verif Verif.Jsonld Verif.Jsonld.Text Verif.Spec.Json

/-! ### Specification -/

/-- A float as Python prints it: a decimal that reads as itself (`float(repr(x)) == x`), or one of the three that are no numbers. -/
def PyFloat (value : String → Bool × String) (n : Bool) (r : String) : Prop :=
  (Decimal r.toList ∧ value r = (n, r)) ∨ (n, r) ∈ [(false, "nan"), (false, "inf"), (true, "-inf")]

/-- A float that is a number. -/
def Finite (r : String) : Prop := r ≠ "nan" ∧ r ≠ "inf" ∧ r ≠ "-inf"

mutual
/-- Data as Python has it: all floats satisfy `P` and no dictionary has a key twice. -/
def PyData (P : Bool → String → Prop) : Tree → Prop
  | .null | .bool _ | .int _ | .str _ => True
  | .float n r => P n r
  | .arr xs => PyItems P xs
  | .obj kvs => (kvs.map Prod.fst).Nodup ∧ PyPairs P kvs
/-- Lists of it. -/
def PyItems (P : Bool → String → Prop) : List Tree → Prop
  | [] => True
  | x :: xs => PyData P x ∧ PyItems P xs
/-- The values of dictionaries. -/
def PyPairs (P : Bool → String → Prop) : List (String × Tree) → Prop
  | [] => True
  | (_, x) :: kvs => PyData P x ∧ PyPairs P kvs
end

/-! ### Texts and numbers -/

theorem hexDigit_digitChar (d : Nat) (h : d < 16) : HexDigit (Nat.digitChar d) d := by
  unfold HexDigit Digit
  interval_cases d <;> decide

theorem hex_hex4 (n : Nat) (h : n < 65536) : Hex (hex4 n) n := by
  have := Hex.mk (hexDigit_digitChar (n / 4096 % 16) (by omega)) (hexDigit_digitChar (n / 256 % 16) (by omega))
    (hexDigit_digitChar (n / 16 % 16) (by omega)) (hexDigit_digitChar (n % 16) (by omega))
  have e : ((n / 4096 % 16 * 16 + n / 256 % 16) * 16 + n / 16 % 16) * 16 + n % 16 = n := by omega
  rw [e] at this
  exact this

theorem char_lt (c : Char) : c.toNat < 1114112 := by
  rcases c.valid with h | h
  · have : c.toNat < 55296 := h; omega
  · exact h.2

theorem escape_charText (c : Char) : CharText (escape c) c := by
  unfold escape
  split_ifs with h1 h2 h3 h4 h5 h6 h7 h8 h9
  all_goals try (subst_vars; exact .short (by decide))
  · exact .plain h8.1 h1 h2
  · exact .hex (hex_hex4 _ h9)
  · have := char_lt c
    refine .pair (hex_hex4 _ (by omega)) (hex_hex4 _ (by omega)) (by omega) (by omega) (by omega) (by omega) (by omega)

theorem chars_flatMap (cs : List Char) : Chars (cs.flatMap escape) cs := by
  induction cs with
  | nil => exact .nil
  | cons c cs ih => rw [List.flatMap_cons]; exact .cons (escape_charText c) ih

theorem quoted_text (s : String) : Quoted (quoted s) s := ⟨_, chars_flatMap s.toList, rfl⟩

theorem digit_digitChar (d : Nat) (h : d < 10) : Digit (Nat.digitChar d) d := by
  unfold Digit
  interval_cases d <;> decide

theorem toDigits_digits (n : Nat) : Digits (Nat.toDigits 10 n) n := by
  induction n using Nat.strong_induction_on with
  | _ n ih =>
    by_cases h : n < 10
    · rw [Nat.toDigits_of_lt_base h]; exact .one (digit_digitChar n h)
    · rw [Nat.toDigits_of_base_le (by omega) (by omega)]
      have := Digits.snoc (ih (n / 10) (by omega)) (digit_digitChar (n % 10) (by omega))
      rwa [Nat.div_add_mod] at this

theorem toDigits_head (n : Nat) (h : 0 < n) : (Nat.toDigits 10 n).head? ≠ some '0' := by
  induction n using Nat.strong_induction_on with
  | _ n ih =>
    by_cases h10 : n < 10
    · rw [Nat.toDigits_of_lt_base h10]
      interval_cases n <;> decide
    · rw [Nat.toDigits_of_base_le (by omega) (by omega), List.head?_append]
      have hne := ih (n / 10) (by omega) (by omega)
      cases hh : (Nat.toDigits 10 (n / 10)).head? with
      | none => exact absurd (List.head?_eq_none_iff.1 hh) Nat.toDigits_ne_nil
      | some c => rw [hh] at hne; exact hne

theorem toDigits_natural (n : Nat) : Natural (Nat.toDigits 10 n) n := by
  refine ⟨toDigits_digits n, ?_⟩
  rcases Nat.eq_zero_or_pos n with rfl | h
  · exact .inl (Nat.toDigits_zero 10)
  · exact .inr (toDigits_head n h)

theorem intText_integer (i : Int) : Integer (intText i) i := by
  cases i with
  | ofNat n => exact .pos (toDigits_natural n)
  | negSucc n =>
    have := Integer.neg (toDigits_natural (n + 1))
    rwa [show (-((n + 1 : Nat) : Int)) = Int.negSucc n from rfl] at this

theorem floatText_finite {r : String} (h : Finite r) : floatText r = r.toList := by
  unfold floatText; rw [if_neg h.1, if_neg h.2.1, if_neg h.2.2]

theorem decimal_finite {r : String} (h : Decimal r.toList) : Finite r := by
  obtain ⟨c, s, hs, hc⟩ := decimal_head h
  refine ⟨?_, ?_, ?_⟩
  · rintro rfl
    have : c = 'n' := (List.cons.inj hs).1.symm
    subst this; exact absurd hc (by decide)
  · rintro rfl
    have : c = 'i' := (List.cons.inj hs).1.symm
    subst this; exact absurd hc (by decide)
  · rintro rfl
    obtain ⟨i, f, e, z, hi, -, -, -, he⟩ := h
    cases hi with
    | pos h =>
      obtain ⟨c', r', rfl, hc'⟩ := natural_head h
      have : c' = '-' := by simpa using (congrArg List.head? he).symm
      subst this; exact absurd hc' (by decide)
    | neg h =>
      obtain ⟨c', r', rfl, hc'⟩ := natural_head h
      have : c' = 'i' := by simpa using (congrArg (fun l => l.tail.head?) he).symm
      subst this; exact absurd hc' (by decide)

theorem floatText_value {value : String → Bool × String} {n : Bool} {r : String} (h : PyFloat value n r) :
    Value true value (floatText r) (.float n r) := by
  rcases h with ⟨hd, hv⟩ | h
  · rw [floatText_finite (decimal_finite hd)]
    exact .float hd (by rw [String.ofList_toList]; exact hv)
  · simp only [List.mem_cons, Prod.mk.injEq, List.not_mem_nil, or_false] at h
    rcases h with ⟨rfl, rfl⟩ | ⟨rfl, rfl⟩ | ⟨rfl, rfl⟩
    · exact .nan rfl
    · exact .inf rfl
    · exact .negInf rfl

theorem floatText_json {value : String → Bool × String} {n : Bool} {r : String} (h : PyFloat value n r) (hf : Finite r) :
    Value false value (floatText r) (.float n r) := by
  rcases h with ⟨hd, hv⟩ | h
  · rw [floatText_finite hf]
    exact .float hd (by rw [String.ofList_toList]; exact hv)
  · simp only [List.mem_cons, Prod.mk.injEq, List.not_mem_nil, or_false] at h
    rcases h with ⟨rfl, rfl⟩ | ⟨rfl, rfl⟩ | ⟨rfl, rfl⟩
    · exact absurd rfl hf.1
    · exact absurd rfl hf.2.1
    · exact absurd rfl hf.2.2

/-! ### Layouts -/

theorem blanks_nil : Blanks [] := fun _ h => absurd h (by simp)

theorem line_blanks (o : Layout) (l : Nat) : Blanks (o.line l) := by
  unfold Layout.line
  cases o.indent with
  | none => exact blanks_nil
  | some n =>
    intro c hc
    rcases List.mem_cons.1 hc with rfl | hc
    · simp
    · rw [(List.mem_replicate.1 hc).2]; simp

theorem item_shape (o : Layout) : ∃ w, Blanks w ∧ o.item = ',' :: w := by
  unfold Layout.item
  split_ifs
  · exact ⟨[], blanks_nil, rfl⟩
  · exact ⟨[], blanks_nil, rfl⟩
  · exact ⟨[' '], fun c hc => by simp at hc; simp [hc], rfl⟩

theorem colon_shape (o : Layout) : ∃ w, Blanks w ∧ o.colon = ':' :: w := by
  unfold Layout.colon
  split_ifs
  · exact ⟨[], blanks_nil, rfl⟩
  · exact ⟨[' '], fun c hc => by simp at hc; simp [hc], rfl⟩

theorem blanks_append {w w' : List Char} (h : Blanks w) (h' : Blanks w') : Blanks (w ++ w') := by
  intro c hc
  rcases List.mem_append.1 hc with hc | hc
  · exact h c hc
  · exact h' c hc

theorem dictOf_nodup (kvs : List (String × Tree)) (h : (kvs.map Prod.fst).Nodup) : dictOf kvs = kvs := by
  have key : ∀ (kvs acc : List (String × Tree)), ((acc ++ kvs).map Prod.fst).Nodup →
      kvs.foldl (fun d p => List.dset d p.1 p.2) acc = acc ++ kvs := by
    intro kvs
    induction kvs with
    | nil => intro acc _; simp
    | cons p kvs ih =>
      intro acc hn
      have hfresh : ∀ (a : List (String × Tree)), p.1 ∉ a.map Prod.fst → List.dset a p.1 p.2 = a ++ [p] := by
        intro a
        induction a with
        | nil => intro _; rfl
        | cons q a iha =>
          intro ha
          simp only [List.map_cons, List.mem_cons, not_or] at ha
          obtain ⟨k, v⟩ := q
          simp only [List.dset, List.cons_append]
          rw [if_neg (fun e => ha.1 e.symm), iha ha.2]
      rw [List.foldl_cons, hfresh acc ?_, ih (acc ++ [p]) (by simpa using hn)]
      · simp
      · rw [List.map_append, List.map_cons] at hn
        exact fun hm => (List.nodup_append.1 hn).2.2 p.1 hm p.1 (by simp) rfl
  have := key kvs [] (by simpa using h)
  simpa [dictOf] using this

/-! ### Values -/

/-- Items from a later one on, with the bracket: what the grammar has after a value. -/
def ItemsTail (ext : Bool) (value : String → Bool × String) (s : List Char) (xs : List Tree) : Prop :=
  (∃ w, Blanks w ∧ xs = [] ∧ s = w ++ [']']) ∨ (∃ r, Items ext value r xs ∧ s = ',' :: (r ++ [']']))

/-- The same for dictionaries. -/
def PairsTail (ext : Bool) (value : String → Bool × String) (s : List Char) (kvs : List (String × Tree)) : Prop :=
  (∃ w, Blanks w ∧ kvs = [] ∧ s = w ++ ['}']) ∨ (∃ r, Members ext value r kvs ∧ s = ',' :: (r ++ ['}']))

theorem items_cons {ext : Bool} {value : String → Bool × String} {w s t : List Char} {x : Tree} {xs : List Tree} (hw : Blanks w)
    (hv : Value ext value s x) (ht : ItemsTail ext value t xs) : ∃ r, Items ext value r (x :: xs) ∧ w ++ (s ++ t) = r ++ [']'] := by
  rcases ht with ⟨w', hw', rfl, rfl⟩ | ⟨r, hr, rfl⟩
  · exact ⟨_, .one hw hv hw', by simp⟩
  · exact ⟨_, .more hw hv blanks_nil hr, by simp⟩

theorem members_cons {ext : Bool} {value : String → Bool × String} {w k w2 s t : List Char} {n : String} {x : Tree} {kvs : List (String × Tree)}
    (hw : Blanks w) (hk : Quoted k n) (h2 : Blanks w2) (hv : Value ext value s x) (ht : PairsTail ext value t kvs) :
    ∃ r, Members ext value r ((n, x) :: kvs) ∧ w ++ (k ++ (':' :: w2 ++ (s ++ t))) = r ++ ['}'] := by
  rcases ht with ⟨w', hw', rfl, rfl⟩ | ⟨r, hr, rfl⟩
  · exact ⟨_, .one hw hk blanks_nil h2 hv hw', by simp⟩
  · exact ⟨_, .more hw hk blanks_nil h2 hv blanks_nil hr, by simp⟩

mutual
theorem write_value (ext : Bool) (value : String → Bool × String) (P : Bool → String → Prop)
    (hP : ∀ n r, P n r → Value ext value (floatText r) (.float n r)) (o : Layout) :
    ∀ (t : Tree) (l : Nat), PyData P t → Value ext value (write o l t) t
  | .null, _, _ => by rw [write]; exact .null
  | .bool b, _, _ => by
    rw [write]
    cases b
    · exact .false
    · exact .true
  | .int i, _, _ => by rw [write]; exact .int (intText_integer i)
  | .float n r, _, h => by rw [write]; rw [PyData] at h; exact hP n r h
  | .str s, _, _ => by rw [write]; exact .str (quoted_text s)
  | .arr [], l, _ => by
    rw [write, writeItems]
    exact .arrNil blanks_nil
  | .arr (x :: xs), l, h => by
    rw [PyData, PyItems] at h
    obtain ⟨r, hr, e⟩ := items_cons (line_blanks o (l + 1)) (write_value ext value P hP o x (l + 1) h.1) (write_items ext value P hP o xs l h.2)
    rw [write, writeItems, if_pos rfl, List.nil_append, e]
    exact .arr hr
  | .obj [], l, _ => by
    rw [write, writePairs]
    exact .objNil blanks_nil
  | .obj ((k, x) :: kvs), l, h => by
    rw [PyData, PyPairs] at h
    obtain ⟨w2, h2, ec⟩ := colon_shape o
    obtain ⟨r, hr, e⟩ := members_cons (line_blanks o (l + 1)) (quoted_text k) h2 (write_value ext value P hP o x (l + 1) h.2.1)
      (write_pairs ext value P hP o kvs l h.2.2)
    have := Value.obj hr
    rw [dictOf_nodup _ h.1] at this
    rw [write, writePairs, if_pos rfl, List.nil_append, ec, e]
    exact this
theorem write_items (ext : Bool) (value : String → Bool × String) (P : Bool → String → Prop)
    (hP : ∀ n r, P n r → Value ext value (floatText r) (.float n r)) (o : Layout) :
    ∀ (xs : List Tree) (l : Nat), PyItems P xs → ItemsTail ext value (writeItems o l false xs) xs
  | [], l, _ => by
    rw [writeItems, if_neg (by simp)]
    exact .inl ⟨_, line_blanks o l, rfl, rfl⟩
  | x :: xs, l, h => by
    rw [PyItems] at h
    obtain ⟨wi, hi, ei⟩ := item_shape o
    obtain ⟨r, hr, e⟩ := items_cons (blanks_append hi (line_blanks o (l + 1))) (write_value ext value P hP o x (l + 1) h.1)
      (write_items ext value P hP o xs l h.2)
    refine .inr ⟨r, hr, ?_⟩
    rw [writeItems, if_neg (by simp), ei, ← e]
    simp
theorem write_pairs (ext : Bool) (value : String → Bool × String) (P : Bool → String → Prop)
    (hP : ∀ n r, P n r → Value ext value (floatText r) (.float n r)) (o : Layout) :
    ∀ (kvs : List (String × Tree)) (l : Nat), PyPairs P kvs → PairsTail ext value (writePairs o l false kvs) kvs
  | [], l, _ => by
    rw [writePairs, if_neg (by simp)]
    exact .inl ⟨_, line_blanks o l, rfl, rfl⟩
  | (k, x) :: kvs, l, h => by
    rw [PyPairs] at h
    obtain ⟨wi, hi, ei⟩ := item_shape o
    obtain ⟨w2, h2, ec⟩ := colon_shape o
    obtain ⟨r, hr, e⟩ := members_cons (blanks_append hi (line_blanks o (l + 1))) (quoted_text k) h2 (write_value ext value P hP o x (l + 1) h.1)
      (write_pairs ext value P hP o kvs l h.2)
    refine .inr ⟨r, hr, ?_⟩
    rw [writePairs, if_neg (by simp), ei, ec, ← e]
    simp
end

/-! ### C140 -/

/-- C140: whatever `minified` and `indent` are, the text written for data without NaN and infinities is JSON (RFC 8259) and stands for the data. -/
theorem dumps_json_partial (value : String → Bool × String) (o : Layout) (t : Tree)
    (h : PyData (fun n r => PyFloat value n r ∧ Finite r) t) : Reads false value (dumps o t) t :=
  ⟨[], _, [], blanks_nil, write_value false value _ (fun _ _ h => floatText_json h.1 h.2) o t 0 h, blanks_nil, by simp [dumps]⟩

/-- C140: whatever `minified` and `indent` are, the text written for any data is read back as the data. -/
theorem loads_dumps (value : String → Bool × String) (o : Layout) (t : Tree) (h : PyData (PyFloat value) t) :
    loads value (dumps o t) = .ok t :=
  loads_reads (ext := true) ⟨[], _, [], blanks_nil, write_value true value _ (fun _ _ h => floatText_value h) o t 0 h, blanks_nil, by simp [dumps]⟩

end Verif.Props.JsonText
