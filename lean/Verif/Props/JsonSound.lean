import Verif.Props.JsonWrite
import Mathlib.Data.List.Induction

/-!
# json.loads reads nothing but JSON texts (C140)
-/
namespace Verif.Props.JsonText
open Verif Verif.Jsonld Verif.Jsonld.Text Verif.Spec.Json

theorem skip_split (s : List Char) : ∃ w, Blanks w ∧ s = w ++ skip s := by
  refine ⟨s.takeWhile blank, fun c hc => (blank_iff c).1 ?_, (List.takeWhile_append_dropWhile).symm⟩
  have := List.all_takeWhile (p := blank) (l := s)
  exact List.all_eq_true.1 this c hc

/-! ### Texts -/

theorem char_eq {c : Char} {n : Nat} (h : c.toNat = n) : c = Char.ofNat n := by rw [← h, Char.ofNat_toNat]

theorem digit_of {c : Char} (h : c.isDigit = true) : Digit c (c.toNat - 48) := by
  have h1 : 48 ≤ c.toNat ∧ c.toNat ≤ 57 := by
    unfold Char.isDigit at h
    simp only [Bool.and_eq_true, decide_eq_true_eq] at h
    exact ⟨h.1, h.2⟩
  obtain ⟨n, hn⟩ : ∃ n, c.toNat = n := ⟨_, rfl⟩
  rw [char_eq hn]
  rw [hn] at h1
  obtain ⟨ha, hb⟩ := h1
  unfold Digit
  interval_cases n <;> decide

theorem hexDigit_of {c : Char} {d : Nat} (h : hexVal c = some d) : HexDigit c d := by
  unfold hexVal at h
  obtain ⟨n, hn⟩ : ∃ n, c.toNat = n := ⟨_, rfl⟩
  split_ifs at h with h1 h2 h3
  · have h1 : 48 ≤ n ∧ n ≤ 57 := by rw [← hn]; exact ⟨h1.1, h1.2⟩
    injection h with h; subst h
    rw [char_eq hn]
    obtain ⟨ha, hb⟩ := h1
    unfold HexDigit Digit
    interval_cases n <;> decide
  · have h1 : 97 ≤ n ∧ n ≤ 102 := by rw [← hn]; exact ⟨h2.1, h2.2⟩
    injection h with h; subst h
    rw [char_eq hn]
    obtain ⟨ha, hb⟩ := h1
    unfold HexDigit Digit
    interval_cases n <;> decide
  · have h1 : 65 ≤ n ∧ n ≤ 70 := by rw [← hn]; exact ⟨h3.1, h3.2⟩
    injection h with h; subst h
    rw [char_eq hn]
    obtain ⟨ha, hb⟩ := h1
    unfold HexDigit Digit
    interval_cases n <;> decide

theorem hexVal_lt {c : Char} {d : Nat} (h : hexVal c = some d) : d < 16 := by
  have := hexDigit_of h
  unfold HexDigit Digit at this
  simp only [List.mem_cons, Prod.mk.injEq, List.not_mem_nil, or_false] at this
  omega

theorem hex_of {s r : List Char} {n : Nat} (h : readHex s = some (n, r)) : ∃ p, Hex ('\\' :: 'u' :: p) n ∧ s = p ++ r ∧ n < 65536 := by
  unfold readHex at h
  split at h
  · rename_i a b c d r'
    split at h
    · rename_i x y z w ha hb hc hd
      injection h with h
      simp only [Prod.mk.injEq] at h
      obtain ⟨rfl, rfl⟩ := h
      have hx := hexVal_lt ha; have hy := hexVal_lt hb; have hz := hexVal_lt hc; have hw := hexVal_lt hd
      refine ⟨[a, b, c, d], ?_, rfl, by omega⟩
      have := Hex.mk (hexDigit_of ha) (hexDigit_of hb) (hexDigit_of hc) (hexDigit_of hd)
      have e : ((x * 16 + y) * 16 + z) * 16 + w = x * 4096 + y * 256 + z * 16 + w := by ring
      rwa [e] at this
    · cases h
  · cases h

theorem low_of {s r : List Char} {n : Nat} (h : readLow s = some (n, r)) : ∃ p, Hex p n ∧ s = p ++ r ∧ 56320 ≤ n ∧ n < 57344 := by
  unfold readLow at h
  split at h
  · rename_i s'
    split at h
    · rename_i n' r' hh
      split_ifs at h with hn
      injection h with h
      simp only [Prod.mk.injEq] at h
      obtain ⟨rfl, rfl⟩ := h
      obtain ⟨p, hp, rfl, -⟩ := hex_of hh
      exact ⟨_, hp, rfl, hn.1, hn.2⟩
    · cases h
  · cases h

theorem toNat_ofNat {n : Nat} (h : n < 55296 ∨ (57343 < n ∧ n < 1114112)) : (Char.ofNat n).toNat = n := by
  have hv : n.isValidChar := h
  rw [Char.ofNat, dif_pos hv]
  rfl

theorem code_of {n : Nat} {p r' r : List Char} {oc : Option Char} (hp : Hex p n) (hlt : n < 65536) (h : readCode n r' = .ok (oc, r)) :
    ∃ c q, oc = some c ∧ CharText q c ∧ p ++ r' = q ++ r := by
  unfold readCode at h
  by_cases k1 : 55296 ≤ n ∧ n < 56320
  · rw [if_pos k1] at h
    split at h
    · rename_i m r'' hl
      injection h with h
      simp only [Prod.mk.injEq] at h
      obtain ⟨rfl, rfl⟩ := h
      obtain ⟨q, hq, rfl, hm1, hm2⟩ := low_of hl
      refine ⟨_, _, rfl, .pair hp hq (by omega) (by omega) (by omega) (by omega) ?_, by simp⟩
      rw [toNat_ofNat (by omega)]
    · cases h
  · rw [if_neg k1] at h
    by_cases k2 : 56320 ≤ n ∧ n < 57344
    · rw [if_pos k2] at h; cases h
    · rw [if_neg k2] at h
      injection h with h
      simp only [Prod.mk.injEq] at h
      obtain ⟨rfl, rfl⟩ := h
      refine ⟨_, _, rfl, .hex ?_, rfl⟩
      rw [toNat_ofNat (by omega)]
      exact hp

theorem escape_of {s r : List Char} {oc : Option Char} (h : readEscape s = .ok (oc, r)) :
    ∃ c p, oc = some c ∧ CharText p c ∧ '\\' :: s = p ++ r := by
  cases s with
  | nil => rw [readEscape] at h; cases h
  | cons e s =>
    rw [readEscape] at h
    by_cases he : e = 'u'
    · rw [if_pos he] at h
      subst he
      split at h
      · cases h
      · rename_i n r' hh
        obtain ⟨p, hp, rfl, hlt⟩ := hex_of hh
        obtain ⟨c, q, h1, h2, h3⟩ := code_of hp hlt h
        exact ⟨c, q, h1, h2, by rw [← h3]; rfl⟩
    · rw [if_neg he] at h
      split at h
      · rename_i c hc
        injection h with h
        simp only [Prod.mk.injEq] at h
        obtain ⟨rfl, rfl⟩ := h
        exact ⟨c, ['\\', e], rfl, .short (PyDict.dget_mem hc), rfl⟩
      · cases h

theorem unit_of {s r : List Char} {oc : Option Char} (h : readUnit s = .ok (oc, r)) :
    (oc = none ∧ s = '"' :: r) ∨ ∃ c p, oc = some c ∧ CharText p c ∧ s = p ++ r := by
  cases s with
  | nil => rw [readUnit] at h; cases h
  | cons c s =>
    rw [readUnit] at h
    by_cases h1 : c = '"'
    · rw [if_pos h1] at h
      injection h with h
      simp only [Prod.mk.injEq] at h
      obtain ⟨rfl, rfl⟩ := h
      exact .inl ⟨rfl, by rw [h1]⟩
    · rw [if_neg h1] at h
      right
      by_cases h2 : c = '\\'
      · rw [if_pos h2] at h
        rw [h2]
        exact escape_of h
      · rw [if_neg h2] at h
        by_cases h3 : c.toNat < 32
        · rw [if_pos h3] at h; cases h
        · rw [if_neg h3] at h
          injection h with h
          simp only [Prod.mk.injEq] at h
          obtain ⟨rfl, rfl⟩ := h
          exact ⟨c, [c], rfl, .plain (by omega) h1 h2, rfl⟩

theorem text_of (n : Nat) : ∀ {s r cs : List Char}, readText n s = .ok (cs, r) → ∃ p, Chars p cs ∧ s = p ++ '"' :: r := by
  induction n with
  | zero => intro s r cs h; rw [readText] at h; cases h
  | succ n ih =>
    intro s r cs h
    rw [readText] at h
    split at h
    · cases h
    · rename_i r' hu
      injection h with h
      simp only [Prod.mk.injEq] at h
      obtain ⟨rfl, rfl⟩ := h
      rcases unit_of hu with ⟨-, rfl⟩ | ⟨c, p, hc, -⟩
      · exact ⟨[], .nil, rfl⟩
      · cases hc
    · rename_i c r' hu
      rcases unit_of hu with ⟨hc, -⟩ | ⟨c', p, hc, hp, rfl⟩
      · cases hc
      · injection hc with hc; subst hc
        split at h
        · cases h
        · rename_i cs' r'' ht
          injection h with h
          simp only [Prod.mk.injEq] at h
          obtain ⟨rfl, rfl⟩ := h
          obtain ⟨q, hq, rfl⟩ := ih ht
          exact ⟨p ++ q, .cons hp hq, by simp⟩

/-! ### Numbers -/

theorem digits_split (s : List Char) : s = (digits s).1 ++ (digits s).2 ∧ ∀ c ∈ (digits s).1, c.isDigit = true :=
  ⟨(List.takeWhile_append_dropWhile).symm, fun c hc => List.all_eq_true.1 (List.all_takeWhile (p := Char.isDigit) (l := s)) c hc⟩

theorem digits_of {ds : List Char} (h : ∀ c ∈ ds, c.isDigit = true) (hne : ds ≠ []) : Digits ds (natOf ds) := by
  induction ds using List.reverseRecOn with
  | nil => exact absurd rfl hne
  | append_singleton ds c ih =>
    have hc := digit_of (h c (by simp))
    by_cases hd : ds = []
    · subst hd
      have : natOf ([] ++ [c]) = c.toNat - 48 := by simp [natOf]
      rw [this]
      exact .one hc
    · have e : natOf (ds ++ [c]) = 10 * natOf ds + (c.toNat - 48) := by
        unfold natOf; rw [List.foldl_append]; simp only [List.foldl_cons, List.foldl_nil]; ring
      rw [e]
      exact .snoc (ih (fun d hd => h d (by simp [hd])) hd) hc

theorem natural_of {s ds r : List Char} (h : readNat s = some (ds, r)) : Natural ds (natOf ds) ∧ s = ds ++ r := by
  unfold readNat at h
  split at h
  · cases h
  · rename_i c s'
    split_ifs at h with h1 h2
    · injection h with h
      simp only [Prod.mk.injEq] at h
      obtain ⟨rfl, rfl⟩ := h
      subst h1
      exact ⟨⟨.one (by unfold Digit; decide), .inl rfl⟩, rfl⟩
    · injection h with h
      simp only [Prod.mk.injEq] at h
      obtain ⟨rfl, rfl⟩ := h
      obtain ⟨he, hd⟩ := digits_split s'
      refine ⟨⟨digits_of ?_ (by simp), .inr (by simpa using h1)⟩, ?_⟩
      · intro d hd'
        rcases List.mem_cons.1 hd' with rfl | hd'
        · exact h2
        · exact hd d hd'
      · rw [List.cons_append, ← he]

theorem sign_of (s : List Char) : s = (readSign s).1 ++ (readSign s).2 ∧ ((readSign s).1 = [] ∨ (readSign s).1 = ['-']) := by
  unfold readSign
  split
  · exact ⟨rfl, .inr rfl⟩
  · exact ⟨rfl, .inl rfl⟩

theorem frac_of (s : List Char) : s = (readFrac s).1 ++ (readFrac s).2 ∧ Frac (readFrac s).1 := by
  unfold readFrac
  split
  · rename_i r
    split_ifs with h
    · exact ⟨rfl, .none⟩
    · obtain ⟨he, hd⟩ := digits_split r
      exact ⟨by rw [List.cons_append, ← he], .some (digits_of hd h)⟩
  · exact ⟨rfl, .none⟩

theorem plus_of (s : List Char) : s = (readPlus s).1 ++ (readPlus s).2 ∧ ((readPlus s).1 = [] ∨ (readPlus s).1 = ['-'] ∨ (readPlus s).1 = ['+']) := by
  unfold readPlus
  split
  · exact ⟨rfl, .inr (.inl rfl)⟩
  · exact ⟨rfl, .inr (.inr rfl)⟩
  · exact ⟨rfl, .inl rfl⟩

theorem exp_of (s : List Char) : s = (readExp s).1 ++ (readExp s).2 ∧ Exp (readExp s).1 := by
  unfold readExp
  split
  · exact ⟨rfl, .none⟩
  · rename_i c r
    split_ifs with h1 h2
    · exact ⟨rfl, .none⟩
    · obtain ⟨he, hd⟩ := digits_split (readPlus r).2
      obtain ⟨pe, ps⟩ := plus_of r
      refine ⟨?_, .some h1 ps (digits_of hd h2)⟩
      rw [List.cons_append, List.append_assoc, ← he, ← pe]
    · exact ⟨rfl, .none⟩

theorem number_of {rf : String → Bool × String} {s r : List Char} {t : Tree} (h : readNumber rf s = some (t, r)) :
    ∃ p, Value true rf p t ∧ s = p ++ r := by
  unfold readNumber at h
  split at h
  · cases h
  · rename_i ds r' hn
    obtain ⟨hd, he⟩ := natural_of hn
    obtain ⟨es, hs⟩ := sign_of s
    obtain ⟨ef, hf⟩ := frac_of r'
    obtain ⟨ee, hE⟩ := exp_of (readFrac r').2
    have hint : Integer ((readSign s).1 ++ ds) (if (readSign s).1 = [] then natOf ds else - (natOf ds : Int)) := by
      rcases hs with hs | hs <;> rw [hs]
      · rw [if_pos rfl]; exact .pos hd
      · rw [if_neg (by simp)]; exact .neg hd
    simp only [] at h
    have hall : s = (readSign s).1 ++ ds ++ (readFrac r').1 ++ (readExp (readFrac r').2).1 ++ (readExp (readFrac r').2).2 := by
      rw [List.append_assoc _ (readExp (readFrac r').2).1, ← ee, List.append_assoc _ (readFrac r').1, ← ef, List.append_assoc, ← he, ← es]
    by_cases hz : (readFrac r').1 = [] ∧ (readExp (readFrac r').2).1 = []
    · rw [if_pos hz] at h
      injection h with h
      simp only [Prod.mk.injEq] at h
      obtain ⟨rfl, rfl⟩ := h
      refine ⟨_, .int hint, ?_⟩
      rw [hz.1, hz.2, List.append_nil, List.append_nil] at hall
      exact hall
    · rw [if_neg hz] at h
      injection h with h
      simp only [Prod.mk.injEq] at h
      obtain ⟨rfl, rfl⟩ := h
      exact ⟨_, .float ⟨_, _, _, _, hint, hf, hE, hz, rfl⟩ rfl, hall⟩

/-! ### Values -/

theorem word_of {w s r : List Char} (h : word w s = some r) : s = w ++ r := by
  unfold word at h
  split_ifs at h with hp
  injection h with h
  rw [List.isPrefixOf_iff_prefix] at hp
  obtain ⟨t, rfl⟩ := hp
  rw [List.drop_left] at h
  rw [h]

theorem atom_of {rf : String → Bool × String} {s r : List Char} {t : Tree} (h : readAtom rf s = .ok (t, r)) :
    ∃ p, Value true rf p t ∧ s = p ++ r := by
  have inj : ∀ {x : Tree} {y : List Char}, (Except.ok (x, y) : Outcome (Tree × List Char)) = .ok (t, r) → x = t ∧ y = r := by
    intro x y h
    injection h with h
    simpa only [Prod.mk.injEq] using h
  unfold readAtom at h
  split at h
  · rename_i hw; obtain ⟨rfl, rfl⟩ := inj h; exact ⟨_, .null, word_of hw⟩
  split at h
  · rename_i hw; obtain ⟨rfl, rfl⟩ := inj h; exact ⟨_, .true, word_of hw⟩
  split at h
  · rename_i hw; obtain ⟨rfl, rfl⟩ := inj h; exact ⟨_, .false, word_of hw⟩
  split at h
  · rename_i v hw
    obtain ⟨x, y⟩ := v
    obtain ⟨rfl, rfl⟩ := inj h
    exact number_of hw
  split at h
  · rename_i hw; obtain ⟨rfl, rfl⟩ := inj h; exact ⟨_, .nan rfl, word_of hw⟩
  split at h
  · rename_i hw; obtain ⟨rfl, rfl⟩ := inj h; exact ⟨_, .inf rfl, word_of hw⟩
  split at h
  · rename_i hw; obtain ⟨rfl, rfl⟩ := inj h; exact ⟨_, .negInf rfl, word_of hw⟩
  · cases h

theorem ok_inj {A : Type} {x x' : A} {y y' : List Char} (h : (Except.ok (x, y) : Outcome (A × List Char)) = .ok (x', y')) : x = x' ∧ y = y' := by
  injection h with h
  simpa only [Prod.mk.injEq] using h

theorem read_of (rf : String → Bool × String) (n : Nat) :
    (∀ s t r, readValue rf n s = .ok (t, r) → ∃ p, Value true rf p t ∧ s = p ++ r) ∧
    (∀ s xs r, readItems rf n s = .ok (xs, r) → ∃ p, Items true rf p xs ∧ s = p ++ ']' :: r) ∧
    (∀ s kvs r, readPairs rf n s = .ok (kvs, r) → ∃ p, Members true rf p kvs ∧ s = p ++ '}' :: r) := by
  induction n with
  | zero =>
    refine ⟨fun s t r h => ?_, fun s t r h => ?_, fun s t r h => ?_⟩
    · rw [readValue] at h; cases h
    · rw [readItems] at h; cases h
    · rw [readPairs] at h; cases h
  | succ n ih =>
    obtain ⟨ihv, ihi, ihp⟩ := ih
    have items_blank : ∀ {w p : List Char} {xs : List Tree}, Blanks w → Items true rf p xs → Items true rf (w ++ p) xs := by
      intro w p xs hw hp
      cases hp with
      | one h1 h2 h3 => rw [← List.append_assoc]; exact .one (blanks_append hw h1) h2 h3
      | more h1 h2 h3 h4 => rw [← List.append_assoc]; exact .more (blanks_append hw h1) h2 h3 h4
    have members_blank : ∀ {w p : List Char} {kvs : List (String × Tree)}, Blanks w → Members true rf p kvs → Members true rf (w ++ p) kvs := by
      intro w p xs hw hp
      cases hp with
      | one h1 h2 h3 h4 h5 h6 => rw [← List.append_assoc]; exact .one (blanks_append hw h1) h2 h3 h4 h5 h6
      | more h1 h2 h3 h4 h5 h6 h7 => rw [← List.append_assoc]; exact .more (blanks_append hw h1) h2 h3 h4 h5 h6 h7
    refine ⟨fun s t r h => ?_, fun s xs r h => ?_, fun s kvs r h => ?_⟩
    · cases s with
      | nil => rw [readValue] at h; cases h
      | cons c s =>
        rw [readValue] at h
        split_ifs at h with h1 h2 h3 h4 h5
        · subst h1
          split at h
          · cases h
          · rename_i cs r' ht
            obtain ⟨rfl, rfl⟩ := ok_inj h
            obtain ⟨p, hp, rfl⟩ := text_of n ht
            exact ⟨_, .str ⟨p, by rw [String.toList_ofList]; exact hp, rfl⟩, by simp⟩
        · obtain ⟨rfl, rfl⟩ := ok_inj h
          obtain ⟨w, hw, he⟩ := skip_split s
          subst h2
          obtain ⟨r', hr'⟩ : ∃ r', skip s = ']' :: r' := by
            cases hs : skip s with
            | nil => rw [hs] at h3; cases h3
            | cons c r' => rw [hs] at h3; simp at h3; exact ⟨r', by rw [h3]⟩
          refine ⟨_, .arrNil hw, ?_⟩
          rw [hr'] at he ⊢
          rw [he]; simp
        · split at h
          · cases h
          · rename_i xs r' hi
            obtain ⟨rfl, rfl⟩ := ok_inj h
            subst h2
            obtain ⟨w, hw, he⟩ := skip_split s
            obtain ⟨p, hp, hs⟩ := ihi _ _ _ hi
            refine ⟨_, .arr (items_blank hw hp), ?_⟩
            rw [hs] at he
            rw [he]; simp
        · obtain ⟨rfl, rfl⟩ := ok_inj h
          obtain ⟨w, hw, he⟩ := skip_split s
          subst h4
          obtain ⟨r', hr'⟩ : ∃ r', skip s = '}' :: r' := by
            cases hs : skip s with
            | nil => rw [hs] at h5; cases h5
            | cons c r' => rw [hs] at h5; simp at h5; exact ⟨r', by rw [h5]⟩
          refine ⟨_, .objNil hw, ?_⟩
          rw [hr'] at he ⊢
          rw [he]; simp
        · split at h
          · cases h
          · rename_i xs r' hi
            obtain ⟨rfl, rfl⟩ := ok_inj h
            subst h4
            obtain ⟨w, hw, he⟩ := skip_split s
            obtain ⟨p, hp, hs⟩ := ihp _ _ _ hi
            refine ⟨_, .obj (members_blank hw hp), ?_⟩
            rw [hs] at he
            rw [he]; simp
        · exact atom_of h
    · rw [readItems] at h
      split at h
      · cases h
      · rename_i x r' hv
        obtain ⟨p, hp, rfl⟩ := ihv _ _ _ hv
        obtain ⟨w', hw', he⟩ := skip_split r'
        split at h
        · cases h
        · rename_i c r'' hs
          rw [hs] at he
          split_ifs at h with h1 h2
          · obtain ⟨rfl, rfl⟩ := ok_inj h
            subst h1
            refine ⟨[] ++ (p ++ w'), .one blanks_nil hp hw', ?_⟩
            rw [he]; simp
          · split at h
            · cases h
            · rename_i xs' r3 hi
              obtain ⟨rfl, rfl⟩ := ok_inj h
              subst h2
              obtain ⟨q, hq, hs'⟩ := ihi _ _ _ hi
              obtain ⟨w2, hw2, he2⟩ := skip_split r''
              rw [hs'] at he2
              refine ⟨[] ++ (p ++ (w' ++ ',' :: (w2 ++ q))), .more blanks_nil hp hw' (items_blank hw2 hq), ?_⟩
              rw [he, he2]; simp
    · cases s with
      | nil => rw [readPairs] at h; cases h
      | cons c s =>
        rw [readPairs] at h
        split_ifs at h with h1
        subst h1
        split at h
        · cases h
        · rename_i k r1 ht
          obtain ⟨kp, hk, rfl⟩ := text_of n ht
          have hkq : Quoted ('"' :: (kp ++ ['"'])) (String.ofList k) := ⟨kp, by rw [String.toList_ofList]; exact hk, rfl⟩
          obtain ⟨w1, hw1, he1⟩ := skip_split r1
          split at h
          · cases h
          · rename_i c1 r2 hs1
            rw [hs1] at he1
            split_ifs at h with h2
            subst h2
            obtain ⟨w2, hw2, he2⟩ := skip_split r2
            split at h
            · cases h
            · rename_i x r3 hv
              obtain ⟨p, hp, hsv⟩ := ihv _ _ _ hv
              rw [hsv] at he2
              obtain ⟨w', hw', he3⟩ := skip_split r3
              split at h
              · cases h
              · rename_i c3 r4 hs3
                rw [hs3] at he3
                split_ifs at h with h4 h5
                · obtain ⟨rfl, rfl⟩ := ok_inj h
                  subst h4
                  refine ⟨_, .one blanks_nil hkq hw1 hw2 hp hw', ?_⟩
                  rw [he1, he2, he3]; simp
                · split at h
                  · cases h
                  · rename_i kvs' r5 hi
                    obtain ⟨rfl, rfl⟩ := ok_inj h
                    subst h5
                    obtain ⟨q, hq, hs'⟩ := ihp _ _ _ hi
                    obtain ⟨w4, hw4, he4⟩ := skip_split r4
                    rw [hs'] at he4
                    refine ⟨_, .more blanks_nil hkq hw1 hw2 hp hw' (members_blank hw4 hq), ?_⟩
                    rw [he1, he2, he3, he4]; simp

/-- C140: reading a text gives `t` exactly if the text is JSON (or has one of the three extra words) and stands for `t`; any other text raises
ValueError. -/
theorem loads_iff (value : String → Bool × String) (text : String) (t : Tree) : loads value text = .ok t ↔ Reads true value text t := by
  refine ⟨fun h => ?_, loads_reads⟩
  unfold loads at h
  split at h
  · cases h
  · rename_i t' r hv
    split_ifs at h with hs
    injection h with h
    subst h
    obtain ⟨p, hp, he⟩ := (read_of value _).1 _ _ _ hv
    obtain ⟨w, hw, ew⟩ := skip_split text.toList
    obtain ⟨w', hw', ew'⟩ := skip_split r
    rw [hs, List.append_nil] at ew'
    refine ⟨w, p, w', hw, hp, hw', ?_⟩
    rw [ew, he, ew']

end Verif.Props.JsonText
