import Verif.Props.JsonSound
import Verif.Props.Data
import Verif.Props.RoundTrip4
import Verif.AS.Text

/-!
# The text between writing and loading an object (C140)
-/
namespace Verif.Props.JsonText
open Verif Verif.Jsonld Verif.Jsonld.Text Verif.Spec.Json Verif.AS

/-! ### Specification -/

/-- A value `json` can write: floats are Python's, and every dictionary has text keys, each once. -/
inductive Writable (P : Bool → String → Prop) : Val → Prop where
  | none : Writable P .none
  | bool (b : Bool) : Writable P (.bool b)
  | int (i : Int) : Writable P (.int i)
  | float (n : Bool) (r : String) : P n r → Writable P (.float n r)
  | str (s : String) : Writable P (.str s)
  | other (c r : String) : Writable P (.other c r)
  | list (xs : List Val) : (∀ x ∈ xs, Writable P x) → Writable P (.list xs)
  | tuple (xs : List Val) : (∀ x ∈ xs, Writable P x) → Writable P (.tuple xs)
  | set (xs : List Val) : (∀ x ∈ xs, Writable P x) → Writable P (.set xs)
  | iter (c : String) (xs : List Val) : (∀ x ∈ xs, Writable P x) → Writable P (.iter c xs)
  | dict (kvs : List (Key × Val)) : (∀ kv ∈ kvs, ∃ s, kv.1 = .str s) → (kvs.map Prod.fst).Nodup → (∀ kv ∈ kvs, Writable P kv.2) → Writable P (.dict kvs)
  | obj (c : String) (fs : List (String × Val)) : (∀ pv ∈ fs, Writable P pv.2) → Writable P (.obj c fs)

/-! ### Errors of loads -/

theorem readText_error (n : Nat) : ∀ {s : List Char} {e : PyErr}, readText n s = .error e → e = .valueError := by
  have hlow : ∀ {m : Nat} {r : List Char} {e : PyErr}, readCode m r = .error e → e = .valueError := by
    intro m r e h
    unfold readCode at h
    by_cases k1 : 55296 ≤ m ∧ m < 56320
    · rw [if_pos k1] at h
      split at h
      · cases h
      · injection h with h; exact h.symm
    · rw [if_neg k1] at h
      by_cases k2 : 56320 ≤ m ∧ m < 57344
      · rw [if_pos k2] at h; injection h with h; exact h.symm
      · rw [if_neg k2] at h; cases h
  have hesc : ∀ {s : List Char} {e : PyErr}, readEscape s = .error e → e = .valueError := by
    intro s e h
    cases s with
    | nil => rw [readEscape] at h; injection h with h; exact h.symm
    | cons c s =>
      rw [readEscape] at h
      by_cases hc : c = 'u'
      · rw [if_pos hc] at h
        split at h
        · injection h with h; exact h.symm
        · exact hlow h
      · rw [if_neg hc] at h
        split at h
        · cases h
        · injection h with h; exact h.symm
  have hunit : ∀ {s : List Char} {e : PyErr}, readUnit s = .error e → e = .valueError := by
    intro s e h
    cases s with
    | nil => rw [readUnit] at h; injection h with h; exact h.symm
    | cons c s =>
      rw [readUnit] at h
      by_cases h1 : c = '"'
      · rw [if_pos h1] at h; cases h
      · rw [if_neg h1] at h
        by_cases h2 : c = '\\'
        · rw [if_pos h2] at h; exact hesc h
        · rw [if_neg h2] at h
          by_cases h3 : c.toNat < 32
          · rw [if_pos h3] at h; injection h with h; exact h.symm
          · rw [if_neg h3] at h; cases h
  induction n with
  | zero => intro s e h; rw [readText] at h; injection h with h; exact h.symm
  | succ n ih =>
    intro s e h
    rw [readText] at h
    split at h
    · rename_i hu; injection h with h; rw [← h]; exact hunit hu
    · cases h
    · split at h
      · rename_i hu; injection h with h; rw [← h]; exact ih hu
      · cases h

theorem read_error (rf : String → Bool × String) (n : Nat) :
    (∀ s e, readValue rf n s = .error e → e = .valueError) ∧ (∀ s e, readItems rf n s = .error e → e = .valueError) ∧
    (∀ s e, readPairs rf n s = .error e → e = .valueError) := by
  have err : ∀ {A : Type} {e : PyErr}, (Except.error .valueError : Outcome A) = .error e → e = .valueError := by
    intro A e h; injection h with h; exact h.symm
  induction n with
  | zero =>
    refine ⟨fun s e h => ?_, fun s e h => ?_, fun s e h => ?_⟩
    · rw [readValue] at h; exact err h
    · rw [readItems] at h; exact err h
    · rw [readPairs] at h; exact err h
  | succ n ih =>
    obtain ⟨ihv, ihi, ihp⟩ := ih
    refine ⟨fun s e h => ?_, fun s e h => ?_, fun s e h => ?_⟩
    · cases s with
      | nil => rw [readValue] at h; exact err h
      | cons c s =>
        rw [readValue] at h
        split_ifs at h with h1 h2 h3 h4 h5
        · split at h
          · rename_i ht; injection h with h; rw [← h]; exact readText_error n ht
          · cases h
        · split at h
          · rename_i ht; injection h with h; rw [← h]; exact ihi _ _ ht
          · cases h
        · split at h
          · rename_i ht; injection h with h; rw [← h]; exact ihp _ _ ht
          · cases h
        · unfold readAtom at h
          repeat' split at h
          all_goals first | exact err h | cases h
    · rw [readItems] at h
      split at h
      · rename_i ht; injection h with h; rw [← h]; exact ihv _ _ ht
      · split at h
        · exact err h
        · split_ifs at h with h1 h2
          · split at h
            · rename_i ht; injection h with h; rw [← h]; exact ihi _ _ ht
            · cases h
          · exact err h
    · cases s with
      | nil => rw [readPairs] at h; exact err h
      | cons c s =>
        rw [readPairs] at h
        split_ifs at h with h1
        · split at h
          · rename_i ht; injection h with h; rw [← h]; exact readText_error n ht
          · split at h
            · exact err h
            · split_ifs at h with h2
              · split at h
                · rename_i ht; injection h with h; rw [← h]; exact ihv _ _ ht
                · split at h
                  · exact err h
                  · split_ifs at h with h3 h4
                    · split at h
                      · rename_i ht; injection h with h; rw [← h]; exact ihp _ _ ht
                      · cases h
                    · exact err h
              · exact err h
        · exact err h

/-- C140: a text that is no JSON (and has none of the three extra words either) raises ValueError. -/
theorem loads_error (value : String → Bool × String) (text : String) (h : ∀ t, ¬ Reads true value text t) :
    loads value text = .error .valueError := by
  cases hl : loads value text with
  | ok t => exact absurd ((loads_iff value text t).1 hl) (h t)
  | error e =>
    refine congrArg Except.error ?_
    unfold loads at hl
    split at hl
    · rename_i hv; injection hl with hl; rw [← hl]; exact (read_error value _).1 _ _ hv
    · split_ifs at hl with hs
      injection hl with hl; exact hl.symm

/-! ### C140: text of data -/

/-- C140: different data never has the same text, whatever the layouts. -/
theorem dumps_injective (value : String → Bool × String) (o o' : Layout) (t t' : Tree) (h : PyData (PyFloat value) t) (h' : PyData (PyFloat value) t')
    (he : dumps o t = dumps o' t') : t = t' := by
  have h1 := loads_dumps value o t h
  rw [he, loads_dumps value o' t' h'] at h1
  exact (Except.ok.inj h1).symm

theorem reads_head {value : String → Bool × String} {text : String} {t : Tree} (h : Reads false value text t) :
    ∃ w c r, Blanks w ∧ text.toList = w ++ c :: r ∧ blank c = false ∧ (c ∈ ['n', 't', 'f', '"', '[', '{', '-'] ∨ c.isDigit = true) := by
  obtain ⟨w, s, w', hw, hv, -, he⟩ := h
  have num : ∀ {c : Char}, (c = '-' ∨ c.isDigit = true) → (c ∈ ['n', 't', 'f', '"', '[', '{', '-'] ∨ c.isDigit = true) := by
    rintro c (rfl | h)
    · exact .inl (by decide)
    · exact .inr h
  have key : ∃ c r, s = c :: r ∧ (c ∈ ['n', 't', 'f', '"', '[', '{', '-'] ∨ c.isDigit = true) := by
    cases hv with
    | int h => obtain ⟨c, r, rfl, hc⟩ := integer_head h; exact ⟨c, r, rfl, num hc⟩
    | float h _ => obtain ⟨c, r, rfl, hc⟩ := decimal_head h; exact ⟨c, r, rfl, num hc⟩
    | str h => obtain ⟨r, -, rfl⟩ := h; exact ⟨_, _, rfl, .inl (by decide)⟩
    | nan h => cases h
    | inf h => cases h
    | negInf h => cases h
    | _ => exact ⟨_, _, rfl, .inl (by decide)⟩
  obtain ⟨c, r, rfl, hc⟩ := key
  obtain ⟨c', r', hcr, hb, -⟩ := value_head hv
  obtain ⟨rfl, rfl⟩ := List.cons.inj hcr
  exact ⟨w, c, r ++ w', hw, by rw [he]; simp, hb, hc⟩

/-- C140 (counterexample): a float that is NaN is written as a text that is no JSON. -/
theorem dumps_json_counterexample (value : String → Bool × String) (o : Layout) : ∀ t, ¬ Reads false value (dumps o (.float false "nan")) t := by
  intro t h
  obtain ⟨w, c, r, hw, he, -, hc⟩ := reads_head h
  have : (dumps o (.float false "nan")).toList = ['N', 'a', 'N'] := by rw [dumps, write, String.toList_ofList]; decide +kernel
  rw [this] at he
  cases w with
  | nil =>
    obtain ⟨rfl, -⟩ := List.cons.inj he
    rcases hc with hc | hc <;> exact absurd hc (by decide)
  | cons d w =>
    obtain ⟨rfl, -⟩ := List.cons.inj he
    exact absurd (hw _ List.mem_cons_self) (by decide)

/-! ### Only printable ASCII -/

/-- Printable ASCII, or a newline. -/
def Printable (c : Char) : Prop := 32 ≤ c.toNat ∧ c.toNat ≤ 126

theorem digitChar_printable (d : Nat) (h : d < 16) : Printable (Nat.digitChar d) := by
  unfold Printable
  interval_cases d <;> decide

theorem hex4_printable (n : Nat) : ∀ c ∈ hex4 n, Printable c := by
  intro c hc
  unfold hex4 at hc
  simp only [List.mem_cons, List.not_mem_nil, or_false] at hc
  rcases hc with rfl | rfl | rfl | rfl | rfl | rfl
  · unfold Printable; decide
  · unfold Printable; decide
  all_goals exact digitChar_printable _ (Nat.mod_lt _ (by decide))

theorem escape_printable (x : Char) : ∀ c ∈ escape x, Printable c := by
  unfold escape
  split_ifs with h1 h2 h3 h4 h5 h6 h7 h8 h9
  all_goals intro c hc
  all_goals try (simp only [List.mem_cons, List.not_mem_nil, or_false] at hc; rcases hc with rfl | rfl <;> (unfold Printable; decide))
  · simp only [List.mem_cons, List.not_mem_nil, or_false] at hc; subst hc; exact h8
  · exact hex4_printable _ c hc
  · rcases List.mem_append.1 hc with hc | hc
    · exact hex4_printable _ c hc
    · exact hex4_printable _ c hc

theorem quoted_printable (s : String) : ∀ c ∈ quoted s, Printable c := by
  intro c hc
  unfold quoted at hc
  rcases List.mem_cons.1 hc with rfl | hc
  · unfold Printable; decide
  · rcases List.mem_append.1 hc with hc | hc
    · obtain ⟨x, -, hx⟩ := List.mem_flatMap.1 hc
      exact escape_printable x c hx
    · simp only [List.mem_cons, List.not_mem_nil, or_false] at hc; subst hc; unfold Printable; decide

theorem digits_printable {ds : List Char} {n : Nat} (h : Digits ds n) : ∀ c ∈ ds, Printable c := by
  intro c hc
  have hd := (digits_facts h).1 c hc
  unfold Char.isDigit at hd
  simp only [Bool.and_eq_true, decide_eq_true_eq] at hd
  have h1 : 48 ≤ c.toNat := hd.1
  have h2 : c.toNat ≤ 57 := hd.2
  exact ⟨by omega, by omega⟩

theorem integer_printable {s : List Char} {z : Int} (h : Integer s z) : ∀ c ∈ s, Printable c := by
  cases h with
  | pos h => exact digits_printable h.1
  | neg h =>
    intro c hc
    rcases List.mem_cons.1 hc with rfl | hc
    · unfold Printable; decide
    · exact digits_printable h.1 c hc

theorem decimal_printable {s : List Char} (h : Decimal s) : ∀ c ∈ s, Printable c := by
  obtain ⟨i, f, e, z, hi, hf, he, -, rfl⟩ := h
  intro c hc
  rcases List.mem_append.1 hc with hc | hc
  · rcases List.mem_append.1 hc with hc | hc
    · exact integer_printable hi c hc
    · cases hf with
      | none => cases hc
      | some hd =>
        rcases List.mem_cons.1 hc with rfl | hc
        · unfold Printable; decide
        · exact digits_printable hd c hc
  · cases he with
    | none => cases hc
    | some h1 h2 hd =>
      rcases List.mem_cons.1 hc with rfl | hc
      · rcases h1 with rfl | rfl <;> (unfold Printable; decide)
      · rcases List.mem_append.1 hc with hc | hc
        · rcases h2 with rfl | rfl | rfl
          · cases hc
          · simp only [List.mem_cons, List.not_mem_nil, or_false] at hc; subst hc; unfold Printable; decide
          · simp only [List.mem_cons, List.not_mem_nil, or_false] at hc; subst hc; unfold Printable; decide
        · exact digits_printable hd c hc

theorem floatText_printable {value : String → Bool × String} {n : Bool} {r : String} (h : PyFloat value n r) : ∀ c ∈ floatText r, Printable c := by
  rcases h with ⟨hd, hv⟩ | h
  · rw [floatText_finite (decimal_finite hd)]; exact decimal_printable hd
  · have key : ∀ s ∈ ["nan", "inf", "-inf"], ∀ c ∈ floatText s, 32 ≤ c.toNat ∧ c.toNat ≤ 126 := by decide +kernel
    simp only [List.mem_cons, Prod.mk.injEq, List.not_mem_nil, or_false] at h
    rcases h with ⟨-, rfl⟩ | ⟨-, rfl⟩ | ⟨-, rfl⟩ <;> exact key _ (by simp)

/-- What layouts add: printable characters and, with `indent`, newlines. -/
def Plainly (o : Layout) (c : Char) : Prop := Printable c ∨ (c = '\n' ∧ o.indent.isSome = true)

theorem line_plainly (o : Layout) (l : Nat) : ∀ c ∈ o.line l, Plainly o c := by
  intro c hc
  unfold Layout.line at hc
  unfold Plainly
  cases hi : o.indent with
  | none => rw [hi] at hc; cases hc
  | some n =>
    rw [hi] at hc
    rcases List.mem_cons.1 hc with rfl | hc
    · exact .inr ⟨rfl, rfl⟩
    · rw [(List.mem_replicate.1 hc).2]; left; unfold Printable; decide

theorem item_plainly (o : Layout) : ∀ c ∈ o.item, Plainly o c := by
  intro c hc
  left
  unfold Layout.item at hc
  split_ifs at hc <;> simp only [List.mem_cons, List.not_mem_nil, or_false] at hc
  · subst hc; unfold Printable; decide
  · subst hc; unfold Printable; decide
  · rcases hc with rfl | rfl <;> (unfold Printable; decide)

theorem colon_plainly (o : Layout) : ∀ c ∈ o.colon, Plainly o c := by
  intro c hc
  left
  unfold Layout.colon at hc
  split_ifs at hc <;> simp only [List.mem_cons, List.not_mem_nil, or_false] at hc
  · subst hc; unfold Printable; decide
  · rcases hc with rfl | rfl <;> (unfold Printable; decide)

theorem all_append {P : Char → Prop} {a b : List Char} (ha : ∀ c ∈ a, P c) (hb : ∀ c ∈ b, P c) : ∀ c ∈ a ++ b, P c := by
  intro c hc
  rcases List.mem_append.1 hc with hc | hc
  · exact ha c hc
  · exact hb c hc

theorem all_cons {P : Char → Prop} {a : Char} {b : List Char} (ha : P a) (hb : ∀ c ∈ b, P c) : ∀ c ∈ a :: b, P c := by
  intro c hc
  rcases List.mem_cons.1 hc with rfl | hc
  · exact ha
  · exact hb c hc

mutual
theorem write_plainly (value : String → Bool × String) (o : Layout) : ∀ (t : Tree) (l : Nat), PyData (PyFloat value) t →
    ∀ c ∈ write o l t, Plainly o c
  | .null, _, _ => by rw [write]; intro c hc; left; revert c hc; unfold Printable; decide +kernel
  | .bool b, _, _ => by rw [write]; intro c hc; left; revert c hc; unfold Printable; cases b <;> decide +kernel
  | .int i, _, _ => by rw [write]; exact fun c hc => .inl (integer_printable (intText_integer i) c hc)
  | .float n r, _, h => by rw [write]; rw [PyData] at h; exact fun c hc => .inl (floatText_printable h c hc)
  | .str s, _, _ => by rw [write]; exact fun c hc => .inl (quoted_printable s c hc)
  | .arr xs, l, h => by
    rw [write]; rw [PyData] at h
    exact all_cons (.inl (by unfold Printable; decide)) (writeItems_plainly value o xs l true h)
  | .obj kvs, l, h => by
    rw [write]; rw [PyData] at h
    exact all_cons (.inl (by unfold Printable; decide)) (writePairs_plainly value o kvs l true h.2)
theorem writeItems_plainly (value : String → Bool × String) (o : Layout) : ∀ (xs : List Tree) (l : Nat) (first : Bool),
    PyItems (PyFloat value) xs → ∀ c ∈ writeItems o l first xs, Plainly o c
  | [], l, first, _ => by
    rw [writeItems]
    refine all_append ?_ (all_cons (.inl (by unfold Printable; decide)) (by simp))
    cases first
    · exact line_plainly o l
    · simp
  | x :: xs, l, first, h => by
    rw [writeItems]; rw [PyItems] at h
    refine all_append ?_ (all_append (line_plainly o _) (all_append (write_plainly value o x _ h.1) (writeItems_plainly value o xs l false h.2)))
    cases first
    · exact item_plainly o
    · simp
theorem writePairs_plainly (value : String → Bool × String) (o : Layout) : ∀ (kvs : List (String × Tree)) (l : Nat) (first : Bool),
    PyPairs (PyFloat value) kvs → ∀ c ∈ writePairs o l first kvs, Plainly o c
  | [], l, first, _ => by
    rw [writePairs]
    refine all_append ?_ (all_cons (.inl (by unfold Printable; decide)) (by simp))
    cases first
    · exact line_plainly o l
    · simp
  | (k, x) :: kvs, l, first, h => by
    rw [writePairs]; rw [PyPairs] at h
    refine all_append ?_ (all_append (line_plainly o _) (all_append (fun c hc => .inl (quoted_printable k c hc)) (all_append (colon_plainly o)
      (all_append (write_plainly value o x _ h.1) (writePairs_plainly value o kvs l false h.2)))))
    cases first
    · exact item_plainly o
    · simp
end

/-- C140: the text has printable ASCII characters only; without `indent` it is one line, whatever texts the data has. -/
theorem dumps_ascii (value : String → Bool × String) (o : Layout) (t : Tree) (h : PyData (PyFloat value) t) :
    ∀ c ∈ (dumps o t).toList, (32 ≤ c.toNat ∧ c.toNat ≤ 126) ∨ (c = '\n' ∧ o.indent.isSome = true) := by
  unfold dumps
  rw [String.toList_ofList]
  exact write_plainly value o t 0 h

/-! ### Minified is shortest -/

theorem line_none {o : Layout} (h : o.indent = none) (l : Nat) : o.line l = [] := by unfold Layout.line; rw [h]

mutual
theorem write_shortest (o : Layout) : ∀ (t : Tree) (l l' : Nat), (write ⟨true, none⟩ l t).length ≤ (write o l' t).length
  | .null, _, _ => by rw [write, write]
  | .bool b, _, _ => by rw [write, write]
  | .int i, _, _ => by rw [write, write]
  | .float n r, _, _ => by rw [write, write]
  | .str s, _, _ => by rw [write, write]
  | .arr xs, l, l' => by
    rw [write, write, List.length_cons, List.length_cons]
    exact Nat.succ_le_succ (writeItems_shortest o xs l l' true)
  | .obj kvs, l, l' => by
    rw [write, write, List.length_cons, List.length_cons]
    exact Nat.succ_le_succ (writePairs_shortest o kvs l l' true)
theorem writeItems_shortest (o : Layout) : ∀ (xs : List Tree) (l l' : Nat) (first : Bool),
    (writeItems ⟨true, none⟩ l first xs).length ≤ (writeItems o l' first xs).length
  | [], l, l', first => by
    rw [writeItems, writeItems]
    cases first <;> simp [line_none]
  | x :: xs, l, l', first => by
    rw [writeItems, writeItems]
    have h1 := write_shortest o x (l + 1) (l' + 1)
    have h2 := writeItems_shortest o xs l l' false
    obtain ⟨w, -, hw⟩ := item_shape o
    have h3 : (Layout.item ⟨true, none⟩).length = 1 := rfl
    cases first <;> simp [line_none, hw, h3] <;> omega
theorem writePairs_shortest (o : Layout) : ∀ (kvs : List (String × Tree)) (l l' : Nat) (first : Bool),
    (writePairs ⟨true, none⟩ l first kvs).length ≤ (writePairs o l' first kvs).length
  | [], l, l', first => by
    rw [writePairs, writePairs]
    cases first <;> simp [line_none]
  | (k, x) :: kvs, l, l', first => by
    rw [writePairs, writePairs]
    have h1 := write_shortest o x (l + 1) (l' + 1)
    have h2 := writePairs_shortest o kvs l l' false
    obtain ⟨w, -, hw⟩ := item_shape o
    obtain ⟨w2, -, hw2⟩ := colon_shape o
    have h3 : (Layout.item ⟨true, none⟩).length = 1 := rfl
    have h4 : (Layout.colon ⟨true, none⟩).length = 1 := rfl
    cases first <;> simp [line_none, hw, hw2, h3, h4] <;> omega
end

/-- C140: no layout is shorter than `minified=True`. -/
theorem minified_shortest (o : Layout) (t : Tree) : (dumps ⟨true, none⟩ t).length ≤ (dumps o t).length := by
  unfold dumps
  rw [String.length_ofList, String.length_ofList]
  exact write_shortest o t 0 0

/-! ### C140: objects -/

theorem pyItems_iff (P : Bool → String → Prop) (xs : List Val) : PyItems P (toTrees xs) ↔ ∀ x ∈ xs, PyData P (toTree x) := by
  induction xs with
  | nil => simp [toTrees, PyItems]
  | cons x xs ih => simp [toTrees, PyItems, ih]

theorem toTreePairs_map (kvs : List (Key × Val)) (h : ∀ kv ∈ kvs, ∃ s, kv.1 = .str s) :
    ((toTreePairs kvs).map Prod.fst).map Key.str = kvs.map Prod.fst ∧ ∀ P, PyPairs P (toTreePairs kvs) ↔ ∀ kv ∈ kvs, PyData P (toTree kv.2) := by
  induction kvs with
  | nil => exact ⟨rfl, fun P => by simp [toTreePairs, PyPairs]⟩
  | cons kv kvs ih =>
    obtain ⟨k, x⟩ := kv
    obtain ⟨s, hs⟩ := h (k, x) (by simp)
    simp only at hs
    subst hs
    obtain ⟨ih1, ih2⟩ := ih fun kv hkv => h kv (by simp [hkv])
    refine ⟨?_, fun P => ?_⟩
    · simp only [toTreePairs, List.map_cons, ih1]
    · simp [toTreePairs, PyPairs, ih2]

theorem pyData_dict {P : Bool → String → Prop} {kvs : List (Key × Val)} (h : ∀ kv ∈ kvs, ∃ s, kv.1 = .str s) (hn : (kvs.map Prod.fst).Nodup)
    (hv : ∀ kv ∈ kvs, PyData P (toTree kv.2)) : PyData P (toTree (.dict kvs)) := by
  obtain ⟨h1, h2⟩ := toTreePairs_map kvs h
  rw [toTree, PyData]
  refine ⟨?_, (h2 P).2 hv⟩
  rw [← h1] at hn
  exact List.Nodup.of_map _ hn

theorem dictOf_wf {K V : Type} [DecidableEq K] (l : List (K × V)) : ((dictOf l).map Prod.fst).Nodup := by
  have : ∀ (l : List (K × V)) (d : PyDict K V), List.WF d → List.WF (l.foldl (fun d p => d.dset p.1 p.2) d) := by
    intro l
    induction l with
    | nil => exact fun d h => h
    | cons p l ih => exact fun d h => ih _ (PyDict.wf_dset h _ _)
  exact this l [] PyDict.wf_nil

theorem handler_pyData {P : Bool → String → Prop} {v : Val} (h : Writable P v) : PyData P (toTree (handler v)) := by
  have hlist : ∀ {xs : List Val}, (∀ x ∈ xs, PyData P (toTree (handler x))) → PyData P (toTree (.list (handlerAll xs))) := by
    intro xs hx
    rw [handlerAll_map, toTree, PyData, pyItems_iff]
    intro y hy
    obtain ⟨x, hx', rfl⟩ := List.mem_map.1 hy
    exact hx x hx'
  induction h with
  | none => rw [handler, toTree, PyData]; trivial
  | bool b => rw [handler, toTree, PyData]; trivial
  | int i => rw [handler, toTree, PyData]; trivial
  | float n r h => rw [handler, toTree, PyData]; exact h
  | str s => rw [handler, toTree, PyData]; trivial
  | other c r => rw [handler, toTree, PyData]; trivial
  | list xs _ ih => rw [handler]; exact hlist ih
  | tuple xs _ ih => rw [handler]; exact hlist ih
  | set xs _ ih => rw [handler]; exact hlist ih
  | iter c xs _ ih => rw [handler]; exact hlist ih
  | dict kvs hk hn _ ih =>
    rw [handler, handlerDict_map]
    refine pyData_dict ?_ ?_ ?_
    · intro kv hkv
      obtain ⟨x, hx, rfl⟩ := List.mem_map.1 hkv
      exact hk x hx
    · rw [List.map_map]; exact hn
    · intro kv hkv
      obtain ⟨x, hx, rfl⟩ := List.mem_map.1 hkv
      exact ih x hx
  | obj c fs _ ih =>
    rw [handler_obj]
    refine pyData_dict ?_ (dictOf_wf _) ?_ <;> intro kv hkv <;> have hm := mem_dictOf hkv <;> rw [nestedPairs_map] at hm <;>
      obtain ⟨pv, hpv, rfl⟩ := List.mem_map.1 hm
    · exact ⟨_, rfl⟩
    · exact ih pv (List.mem_of_mem_filter hpv)

theorem toTreeFields_map (fs : List (String × Val)) : toTreeFields fs = fs.map fun f => (f.1, toTree f.2) := by
  induction fs with
  | nil => rfl
  | cons f fs ih => obtain ⟨k, x⟩ := f; rw [toTreeFields, ih]; rfl

theorem pyPairs_iff (P : Bool → String → Prop) (kvs : List (String × Tree)) : PyPairs P kvs ↔ ∀ kv ∈ kvs, PyData P kv.2 := by
  induction kvs with
  | nil => simp [PyPairs]
  | cons f fs ih => obtain ⟨k, x⟩ := f; simp [PyPairs, ih]

/-- C140: the data of an object with writable values is data that json.dumps can write. -/
theorem data_pyData (P : Bool → String → Prop) (a : DataArgs) (fs : List (String × Val)) (h : ∀ pv ∈ fs, Writable P pv.2) :
    PyData P (.obj (toTreeFields (data a fs))) := by
  rw [PyData, toTreeFields_map, List.map_map, pyPairs_iff]
  constructor
  · have : (data a fs).map (Prod.fst ∘ fun f => (f.1, toTree f.2)) = (data a fs).map Prod.fst := rfl
    rw [this]
    unfold data
    exact List.Nodup.sublist (List.Sublist.map _ List.filter_sublist) (dictOf_wf _)
  · intro kv hkv
    obtain ⟨f, hf, rfl⟩ := List.mem_map.1 hkv
    unfold data at hf
    have hm := mem_dictOf (List.mem_of_mem_filter hf)
    unfold dataPairs at hm
    obtain ⟨pv, hpv, rfl⟩ := List.mem_map.1 hm
    exact handler_pyData (h pv (List.mem_of_mem_filter hpv))

/-- C140: the text of an object (`obj.json(...)`, any arguments) is read as the data of the object (`obj.data(...)` with the same arguments); without NaN
and infinities it is JSON. -/
theorem json_reads_back_partial (value : String → Bool × String) (o : Layout) (a : DataArgs) (ha : a.rejected = fun _ => false)
    (fs : List (String × Val)) :
    ((∀ pv ∈ fs, Writable (PyFloat value) pv.2) → loads value (jsonText o a fs) = .ok (.obj (toTreeFields (data a fs)))) ∧
    ((∀ pv ∈ fs, Writable (fun n r => PyFloat value n r ∧ Finite r) pv.2) →
      Reads false value (jsonText o a fs) (.obj (toTreeFields (data a fs)))) := by
  have e : ({ a with rejected := fun _ => false } : DataArgs) = a := by cases a; simp only at ha; rw [ha]
  unfold jsonText
  rw [e]
  exact ⟨fun h => loads_dumps value o _ (data_pyData _ a fs h), fun h => dumps_json_partial value o _ (data_pyData _ a fs h)⟩

/-- C140: loading the text of an object is loading its data: layout, escapes and order of blanks change nothing. -/
theorem from_text (value : String → Bool × String) (e : Engine) (o : Layout) (kvs : List (String × Tree))
    (h : PyData (PyFloat value) (.obj kvs)) : fromText e value (dumps o (.obj kvs)) = e.fromJson kvs := by
  unfold fromText fromData
  simp only [loads_dumps value o _ h]

/-- C140: a text that is no JSON, or is JSON but no dictionary, makes no object: ValueError and AttributeError. -/
theorem from_other_text (value : String → Bool × String) (e : Engine) (text : String) :
    ((∀ t, ¬ Reads true value text t) → fromText e value text = .error .valueError) ∧
    (∀ t, Reads true value text t → (∀ kvs, t ≠ .obj kvs) → fromText e value text = .error .attributeError) := by
  constructor
  · intro h
    unfold fromText fromData
    simp only [loads_error value text h]
  · intro t h ht
    unfold fromText fromData
    have h' := loads_reads h
    cases t with
    | obj kvs => exact absurd rfl (ht kvs)
    | _ => simp only [h']

/-- C140 (counterexample): a dictionary with two keys that are written alike (1 and "1") loses the first value in the text. -/
theorem json_keys_counterexample (value : String → Bool × String) (o : Layout) (v v' : String) :
    loads value (dumps o (toTree (.dict [(.other "1", .str v), (.str "1", .str v')]))) = .ok (.obj [("1", .str v')]) := by
  have hP : ∀ n r, PyFloat value n r → Value true value (floatText r) (.float n r) := fun _ _ h => floatText_value h
  obtain ⟨w2, h2, ec⟩ := colon_shape o
  have hx : Value true value (write o 1 (.str v)) (.str v) := write_value true value _ hP o _ 1 (by rw [PyData]; trivial)
  have ht := write_pairs true value _ hP o [("1", Tree.str v')] 0 (by rw [PyPairs, PyData, PyPairs]; exact ⟨trivial, trivial⟩)
  obtain ⟨r, hr, e⟩ := members_cons (line_blanks o 1) (quoted_text "1") h2 hx ht
  have hv := Value.obj hr
  have hd : dictOf [("1", Tree.str v), ("1", Tree.str v')] = [("1", Tree.str v')] := rfl
  rw [hd] at hv
  refine loads_reads (ext := true) ⟨[], _, [], blanks_nil, hv, blanks_nil, ?_⟩
  show (dumps o (.obj [("1", .str v), ("1", .str v')])).toList = _
  rw [dumps, write, writePairs, if_pos rfl, List.nil_append, ec, e]
  simp

/-- C140 with C88: whatever `minified` and `indent` are, `engine.from_json(obj.json(...))` gives an object that is equal to `obj`, for every object
whose values come back. -/
theorem text_round_trip_partial {J : Type} (value : String → Bool × String) (repr : Nat → String) (hrepr : ∀ i, (repr i).toList.head? = some '<') :
    ∃ p e, createPackage = .ok p ∧ createEngine repr = .ok e ∧ ∀ (w : World J) (expand : Tree → Outcome Expansion) (ctx : Tree),
      Plain ctx.toVal → ctx.truthy = true → Recognises expand ctx → ∀ c s, ComesBack w ctx none (objVal c s) →
      (∀ fs, jsonFields w c s (propNames c) = .ok fs → ∀ f ∈ fs, Writable (PyFloat value) f.2) → ∀ o : Layout,
      ∃ text, outputText w o c s = .ok text ∧ fromText (asEngine w expand (registryOf p e)) value text = .ok (objVal c s) := by
  obtain ⟨p, e, hp, he, h⟩ := round_trip_partial (J := J) repr hrepr
  refine ⟨p, e, hp, he, fun w expand ctx h1 h2 h3 c s hc hw o => ?_⟩
  obtain ⟨d, hd, hl⟩ := h w expand ctx h1 h2 h3 c s hc
  unfold output at hd
  unfold outputText
  cases hf : jsonFields w c s (propNames c) with
  | error x => rw [hf] at hd; cases hd
  | ok fs =>
    rw [hf] at hd
    have hd' : data {} fs = d := Except.ok.inj hd
    refine ⟨_, rfl, ?_⟩
    have : jsonText o {} fs = dumps o (.obj (toTreeFields d)) := by rw [← hd']; rfl
    rw [this, from_text value _ o _ (by rw [← hd']; exact data_pyData _ _ fs (hw fs hf))]
    exact hl

/-! ### Non-vacuity -/

/-- Data with everything in it. -/
def exData : Tree := .obj [("a", .arr [.int (-30), .float false "0.5", .str "é😀\n\"", .null]), ("b", .obj []), ("c", .arr [])]

/-- A float whose text is its repr. -/
def asWritten (s : String) : Bool × String := (s.startsWith "-", s)

theorem half_float : PyFloat asWritten false "0.5" ∧ Finite "0.5" := by
  have h : Decimal "0.5".toList := ⟨['0'], ['.', '5'], [], 0, .pos ⟨.one (by unfold Digit; decide), .inl rfl⟩,
    .some (.one (d := 5) (by unfold Digit; decide)), .none, by simp, rfl⟩
  exact ⟨.inl ⟨h, by decide +kernel⟩, decimal_finite h⟩

example : PyData (fun n r => PyFloat asWritten n r ∧ Finite r) exData := by
  simp only [exData, PyData, PyItems, PyPairs, and_true, true_and]
  exact ⟨by decide, half_float, by simp⟩

example : dumps {} exData = "{\"a\": [-30, 0.5, \"\\u00e9\\ud83d\\ude00\\n\\\"\", null], \"b\": {}, \"c\": []}" := by decide +kernel
example : dumps { minified := true } exData = "{\"a\":[-30,0.5,\"\\u00e9\\ud83d\\ude00\\n\\\"\",null],\"b\":{},\"c\":[]}" := by decide +kernel
example : dumps { indent := some 2 } (.arr [.int 1, .obj [("k", .bool true)]]) = "[\n  1,\n  {\n    \"k\": true\n  }\n]" := by decide +kernel
example : dumps { minified := true, indent := some 1 } (.obj [("k", .int 0)]) = "{\n \"k\":0\n}" := by decide +kernel

mutual
/-- A value without floats whose dictionaries are empty (a check that computes). -/
def noFloats : Val → Bool
  | .float _ _ => false
  | .list xs => allNoFloats xs
  | .tuple xs => allNoFloats xs
  | .set xs => allNoFloats xs
  | .iter _ xs => allNoFloats xs
  | .dict kvs => kvs.isEmpty
  | .obj _ fs => fieldsNoFloats fs
  | _ => true
/-- Lists. -/
def allNoFloats : List Val → Bool
  | [] => true
  | x :: xs => noFloats x && allNoFloats xs
/-- Properties. -/
def fieldsNoFloats : List (String × Val) → Bool
  | [] => true
  | (_, x) :: fs => noFloats x && fieldsNoFloats fs
end

mutual
theorem noFloats_writable (P : Bool → String → Prop) : ∀ v : Val, noFloats v = true → Writable P v
  | .none, _ => .none
  | .bool b, _ => .bool b
  | .int i, _ => .int i
  | .float _ _, h => by rw [noFloats] at h; cases h
  | .str s, _ => .str s
  | .other c r, _ => .other c r
  | .list xs, h => .list _ (all_writable P xs (by rw [noFloats] at h; exact h))
  | .tuple xs, h => .tuple _ (all_writable P xs (by rw [noFloats] at h; exact h))
  | .set xs, h => .set _ (all_writable P xs (by rw [noFloats] at h; exact h))
  | .iter c xs, h => .iter c _ (all_writable P xs (by rw [noFloats] at h; exact h))
  | .dict kvs, h => by
    rw [noFloats, List.isEmpty_iff] at h
    subst h
    exact .dict [] (by simp) (by simp) (by simp)
  | .obj c fs, h => .obj c _ (fields_writable P fs (by rw [noFloats] at h; exact h))
theorem all_writable (P : Bool → String → Prop) : ∀ xs : List Val, allNoFloats xs = true → ∀ x ∈ xs, Writable P x
  | [], _ => by simp
  | x :: xs, h => by
    rw [allNoFloats, Bool.and_eq_true] at h
    have h1 := noFloats_writable P x h.1
    have h2 := all_writable P xs h.2
    intro y hy
    rcases List.mem_cons.1 hy with e | hy
    · rw [e]; exact h1
    · exact h2 y hy
theorem fields_writable (P : Bool → String → Prop) : ∀ fs : List (String × Val), fieldsNoFloats fs = true → ∀ f ∈ fs, Writable P f.2
  | [], _ => by simp
  | (k, x) :: fs, h => by
    rw [fieldsNoFloats, Bool.and_eq_true] at h
    have h1 := noFloats_writable P x h.1
    have h2 := fields_writable P fs h.2
    intro y hy
    rcases List.mem_cons.1 hy with e | hy
    · rw [e]; exact h1
    · exact h2 y hy
end

/-- What the Note of C88's example has is writable. -/
def exWritable : Bool := match construct backWorld true "Note" (loadArgs "Note" asCtx outerNote) with
  | .ok s => (match jsonFields backWorld "Note" s (propNames "Note") with
    | .ok fs => fieldsNoFloats fs
    | .error _ => false)
  | .error _ => false

theorem ex_writable : exWritable = true := by decide +kernel

/-- The Note of C88's example comes back from its text, in any layout. -/
example (o : Layout) : ∃ p e s text, createPackage = .ok p ∧ createEngine (fun _ => "<property object at 0x7f>") = .ok e ∧
    construct backWorld true "Note" (loadArgs "Note" asCtx outerNote) = .ok s ∧ outputText backWorld o "Note" s = .ok text ∧
    fromText (asEngine backWorld typeExpand (registryOf p e)) asWritten text = .ok (objectOf "Note" outerNote) := by
  obtain ⟨p, e, hp, he, h⟩ := text_round_trip_partial (J := Nat) asWritten (fun _ => "<property object at 0x7f>")
    (fun _ => by show "<property object at 0x7f>".toList.head? = _; decide +kernel)
  obtain ⟨s, hs, ho⟩ := construct_back backWorld (c := "Note") (by decide +kernel) (by decide) asCtx outerNote outerNote rfl (by rfl)
    (fun q hq => by have : lostOf "Note" = [] := by decide
                    rw [this] at hq; cases hq)
    (fun q hq h => absurd h (no_numbers q hq)) outer_stores
  obtain ⟨text, ht, hl⟩ := h backWorld typeExpand asCtx (.str _) (by decide +kernel) (typeExpand_recognises _) "Note" s (by rw [ho]; exact outer_back)
    (fun fs hf f hfm => by
      have hx := ex_writable
      unfold exWritable at hx
      rw [hs] at hx
      simp only [hf] at hx
      exact fields_writable _ fs hx f hfm) o
  exact ⟨p, e, s, text, hp, he, hs, ht, by rw [hl, ho]⟩

end Verif.Props.JsonText
