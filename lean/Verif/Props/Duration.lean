import Verif.Jsonld.DateTime
import Mathlib.Data.List.Nodup

/-!
# Durations (C53)
-/
namespace Verif.Props
open Verif Verif.Jsonld

/-! ### Specification: ISO-8601 durations -/

/-- The components of a duration; `none` when a component is not written. -/
structure IsoDuration where
  years : Option Nat := none
  months : Option Nat := none
  days : Option Nat := none
  hours : Option Nat := none
  minutes : Option Nat := none
  seconds : Option Nat := none

/-- A written component: the decimal number and its letter. -/
def isoPart (n : Option Nat) (u : Char) : List Char :=
  match n with
  | none => []
  | some n => Nat.toDigits 10 n ++ [u]

/-- The date part without the letter P. -/
def IsoDuration.date (d : IsoDuration) : List Char := isoPart d.years 'Y' ++ isoPart d.months 'M' ++ isoPart d.days 'D'

/-- The time part without the letter T. -/
def IsoDuration.time (d : IsoDuration) : List Char := isoPart d.hours 'H' ++ isoPart d.minutes 'M' ++ isoPart d.seconds 'S'

/-- How a duration is written: `PnYnMnDTnHnMnS`, without T if there is no time part. -/
def IsoDuration.text (d : IsoDuration) : List Char :=
  'P' :: d.date ++ (if d.time = [] then [] else 'T' :: d.time)

/-- At least one component is written. -/
def IsoDuration.Valid (d : IsoDuration) : Prop := d.date ≠ [] ∨ d.time ≠ []

/-- Seconds of a duration with years of 365 and months of 30 days. -/
def IsoDuration.total (d : IsoDuration) : Nat :=
  (d.years.getD 0 * 365 + d.months.getD 0 * 30 + d.days.getD 0) * 86400 +
    d.hours.getD 0 * 3600 + d.minutes.getD 0 * 60 + d.seconds.getD 0

/-- The text is a valid ISO-8601 duration of `n` seconds. -/
def DurationText (s : List Char) (n : Nat) : Prop := ∃ d : IsoDuration, d.Valid ∧ s = d.text ∧ n = d.total

/-! ### Unique reading -/

/-- A character of a number. -/
def numChar (c : Char) : Bool := c.isDigit || c == '-'

/-- Optional components, each a number text and a letter, one after the other. -/
def optText : List (Option (List Char) × Char) → List Char
  | [] => []
  | (none, _) :: fs => optText fs
  | (some n, u) :: fs => n ++ u :: optText fs

theorem span_unique {p : Char → Bool} : ∀ {a a' : List Char} {c c' : Char} {r r' : List Char},
    (∀ x ∈ a, p x = true) → (∀ x ∈ a', p x = true) → p c = false → p c' = false →
    a ++ c :: r = a' ++ c' :: r' → a = a' ∧ c = c' ∧ r = r'
  | [], [], _, _, _, _, _, _, _, _, h => by simpa using h
  | [], x :: a', c, c', r, r', _, h2, h3, _, h => by
    simp only [List.nil_append, List.cons_append, List.cons.injEq] at h
    rw [h.1] at h3; rw [h2 x (by simp)] at h3; cases h3
  | x :: a, [], c, c', r, r', h1, _, _, h4, h => by
    simp only [List.nil_append, List.cons_append, List.cons.injEq] at h
    rw [← h.1] at h4; rw [h1 x (by simp)] at h4; cases h4
  | x :: a, y :: a', c, c', r, r', h1, h2, h3, h4, h => by
    simp only [List.cons_append, List.cons.injEq] at h
    obtain ⟨e1, e2, e3⟩ := span_unique (fun z hz => h1 z (by simp [hz])) (fun z hz => h2 z (by simp [hz])) h3 h4 h.2
    exact ⟨by rw [h.1, e1], e2, e3⟩

/-- All numbers are non-empty and made of number characters; letters are not number characters. -/
def OkFields (fs : List (Option (List Char) × Char)) : Prop :=
  ∀ f ∈ fs, numChar f.2 = false ∧ ∀ n, f.1 = some n → n ≠ [] ∧ ∀ c ∈ n, numChar c = true

/-- A rest that does not begin with a number character. -/
def Stops (r : List Char) : Prop := ∀ c r', r = c :: r' → numChar c = false

theorem optText_unit {n : List Char} {u : Char} {x : List Char} (hn : n ≠ []) (hnum : ∀ c ∈ n, numChar c = true)
    (hu : numChar u = false) : ∀ (fs : List (Option (List Char) × Char)) (r : List Char), OkFields fs → Stops r →
    n ++ u :: x = optText fs ++ r → u ∈ fs.map Prod.snd
  | [], r, _, hr, h => by
    obtain ⟨c, n', rfl⟩ := List.exists_cons_of_ne_nil hn
    have := hr c (n' ++ u :: x) (by simpa [optText] using h.symm)
    rw [hnum c (by simp)] at this; cases this
  | (none, w) :: fs, r, hf, hr, h => by
    have := optText_unit hn hnum hu fs r (fun f hf' => hf f (by simp [hf'])) hr h
    simp [this]
  | (some m, w) :: fs, r, hf, hr, h => by
    obtain ⟨h1, h2⟩ := hf _ (List.mem_cons_self ..)
    have h3 := h2 m rfl
    rw [optText, List.append_assoc] at h
    obtain ⟨_, e, _⟩ := span_unique hnum h3.2 hu h1 (by simpa using h)
    simp [e]

theorem optText_inj : ∀ (fs gs : List (Option (List Char) × Char)) (r r' : List Char), OkFields fs → OkFields gs →
    fs.map Prod.snd = gs.map Prod.snd → (fs.map Prod.snd).Nodup → Stops r → Stops r' →
    optText fs ++ r = optText gs ++ r' → fs = gs ∧ r = r'
  | [], [], r, r', _, _, _, _, _, _, h => by simpa [optText] using h
  | [], _ :: _, _, _, _, _, h, _, _, _, _ => by simp at h
  | _ :: _, [], _, _, _, _, h, _, _, _, _ => by simp at h
  | (a, u) :: fs, (b, w) :: gs, r, r', hf, hg, hu, hnd, hr, hr', h => by
    simp only [List.map_cons, List.cons.injEq] at hu
    obtain ⟨rfl, hu⟩ := hu
    simp only [List.map_cons, List.nodup_cons] at hnd
    have hf' : OkFields fs := fun f hf' => hf f (by simp [hf'])
    have hg' : OkFields gs := fun f hf' => hg f (by simp [hf'])
    obtain ⟨hu1, hf1⟩ := hf _ (List.mem_cons_self ..)
    obtain ⟨_, hg1⟩ := hg _ (List.mem_cons_self ..)
    cases a with
    | none => cases b with
      | none =>
        obtain ⟨e1, e2⟩ := optText_inj fs gs r r' hf' hg' hu hnd.2 hr hr' h
        exact ⟨by rw [e1], e2⟩
      | some m =>
        exfalso
        have h' : m ++ u :: (optText gs ++ r') = optText fs ++ r := by
          rw [optText, optText, List.append_assoc] at h; simpa using h.symm
        exact hnd.1 (optText_unit (hg1 m rfl).1 (hg1 m rfl).2 hu1 fs r hf' hr h')
    | some n => cases b with
      | none =>
        exfalso
        have h' : n ++ u :: (optText fs ++ r) = optText gs ++ r' := by
          rw [optText, optText, List.append_assoc] at h; simpa using h
        rw [hu] at hnd
        exact hnd.1 (optText_unit (hf1 n rfl).1 (hf1 n rfl).2 hu1 gs r' hg' hr' h')
      | some m =>
        rw [optText, optText, List.append_assoc, List.append_assoc] at h
        obtain ⟨e1, _, e3⟩ := span_unique (hf1 n rfl).2 (hg1 m rfl).2 hu1 hu1 (by simpa using h)
        obtain ⟨e4, e5⟩ := optText_inj fs gs r r' hf' hg' hu hnd.2 hr hr' e3
        exact ⟨by rw [e1, e4], e5⟩

theorem numChar_toDigits {n : Nat} {c : Char} (h : c ∈ Nat.toDigits 10 n) : numChar c = true := by
  unfold numChar; rw [Nat.isDigit_of_mem_toDigits (b := 10) (by omega) (by omega) h]; rfl

theorem toDigits_inj {a b : Nat} (h : Nat.toDigits 10 a = Nat.toDigits 10 b) : a = b := by
  have := congrArg (fun l => Nat.ofDigitChars 10 l 0) h
  simpa [Nat.ofDigitChars_ten_toDigits] using this

/-- The components of a duration in general form. -/
def isoFields (d : IsoDuration) : List (Option (List Char) × Char) × List (Option (List Char) × Char) :=
  ([(d.years.map (Nat.toDigits 10), 'Y'), (d.months.map (Nat.toDigits 10), 'M'), (d.days.map (Nat.toDigits 10), 'D')],
   [(d.hours.map (Nat.toDigits 10), 'H'), (d.minutes.map (Nat.toDigits 10), 'M'), (d.seconds.map (Nat.toDigits 10), 'S')])

theorem optText_cons (o : Option (List Char)) (u : Char) (fs : List (Option (List Char) × Char)) :
    optText ((o, u) :: fs) = (match o with | none => [] | some n => n ++ [u]) ++ optText fs := by
  cases o <;> simp [optText]

theorem date_eq (d : IsoDuration) : d.date = optText (isoFields d).1 := by
  unfold IsoDuration.date isoFields
  simp only [optText_cons, optText, List.append_nil]
  unfold isoPart
  cases d.years <;> cases d.months <;> cases d.days <;> simp

theorem time_eq (d : IsoDuration) : d.time = optText (isoFields d).2 := by
  unfold IsoDuration.time isoFields
  simp only [optText_cons, optText, List.append_nil]
  unfold isoPart
  cases d.hours <;> cases d.minutes <;> cases d.seconds <;> simp

theorem okFields_map (l : List (Option Nat × Char)) (hl : ∀ p ∈ l, numChar p.2 = false) :
    OkFields (l.map fun p => (p.1.map (Nat.toDigits 10), p.2)) := by
  intro f hf
  obtain ⟨p, hp, rfl⟩ := List.mem_map.1 hf
  refine ⟨hl p hp, ?_⟩
  intro n hn
  simp only [Option.map_eq_some_iff] at hn
  obtain ⟨a, _, rfl⟩ := hn
  exact ⟨Nat.toDigits_ne_nil, fun c hc => numChar_toDigits hc⟩

theorem okFields_iso (d : IsoDuration) : OkFields (isoFields d).1 ∧ OkFields (isoFields d).2 :=
  ⟨okFields_map [(d.years, 'Y'), (d.months, 'M'), (d.days, 'D')] (by intro p hp; simp only [List.mem_cons, List.not_mem_nil, or_false] at hp; rcases hp with rfl | rfl | rfl <;> rfl),
   okFields_map [(d.hours, 'H'), (d.minutes, 'M'), (d.seconds, 'S')] (by intro p hp; simp only [List.mem_cons, List.not_mem_nil, or_false] at hp; rcases hp with rfl | rfl | rfl <;> rfl)⟩

theorem stops_time (t : List Char) : Stops (if t = [] then [] else 'T' :: t) := by
  intro c r h
  split_ifs at h
  injection h with h1 _; subst h1; decide

theorem map_toDigits_inj {a b : Option Nat} (h : a.map (Nat.toDigits 10) = b.map (Nat.toDigits 10)) : a = b := by
  cases a <;> cases b <;> simp at h
  · rfl
  · rw [toDigits_inj h]

/-- ISO durations can be read in one way only. -/
theorem isoDuration_text_inj {d e : IsoDuration} (h : d.text = e.text) : d = e := by
  unfold IsoDuration.text at h
  simp only [List.cons_append, List.cons.injEq, true_and] at h
  rw [date_eq, date_eq] at h
  obtain ⟨h1, h2⟩ := optText_inj _ _ _ _ (okFields_iso d).1 (okFields_iso e).1 rfl (by simp [isoFields])
    (stops_time _) (stops_time _) h
  have h3 : d.time = e.time := by
    by_cases hd : d.time = [] <;> by_cases he : e.time = [] <;> simp [hd, he] at h2 ⊢
    exact h2
  rw [time_eq, time_eq] at h3
  obtain ⟨h4, _⟩ := optText_inj _ _ [] [] (okFields_iso d).2 (okFields_iso e).2 rfl (by simp [isoFields])
    (by intro c r h; cases h) (by intro c r h; cases h) (by simpa using h3)
  unfold isoFields at h1 h4
  simp only [List.cons.injEq, Prod.mk.injEq, and_true] at h1 h4
  obtain ⟨a1, a2, a3⟩ := h1
  obtain ⟨b1, b2, b3⟩ := h4
  cases d; cases e
  simp only [IsoDuration.mk.injEq]
  exact ⟨map_toDigits_inj a1, map_toDigits_inj a2, map_toDigits_inj a3, map_toDigits_inj b1, map_toDigits_inj b2,
    map_toDigits_inj b3⟩

/-- A component as written by the code: left out when zero. -/
def nz (n : Nat) : Option Nat := if n = 0 then none else some n

theorem part_nz (n : Nat) (u : Char) : part n u = isoPart (nz n) u := by
  unfold part nz isoPart intText
  by_cases h : n = 0
  · simp [h]
  · rw [if_neg (by omega), if_neg h, if_neg (by omega)]
    simp

/-- The components of a non-negative timedelta. -/
def tdIso (days seconds : Nat) : IsoDuration :=
  { years := nz (days / 365), months := nz (days % 365 / 30), days := nz (days % 365 % 30),
    hours := nz (seconds / 3600), minutes := nz (seconds % 3600 / 60), seconds := nz (seconds % 3600 % 60) }

theorem timedelta_iso (days seconds micros : Nat) :
    timedeltaStr ⟨days, seconds, micros⟩ = (tdIso days seconds).text := by
  unfold timedeltaStr IsoDuration.text IsoDuration.date IsoDuration.time tdIso
  simp only
  rw [← part_nz, ← part_nz, ← part_nz, ← part_nz, ← part_nz, ← part_nz]
  have hlen : ∀ l : List Char, (if ('T' :: l).length > 1 then 'T' :: l else []) = if l = [] then [] else 'T' :: l := by
    intro l; cases l <;> simp
  rw [hlen]
  have e1 : ((days / 365 : Nat) : Int) = (days : Int) / 365 := by omega
  have e2 : ((days % 365 / 30 : Nat) : Int) = (days : Int) % 365 / 30 := by omega
  have e3 : ((days % 365 % 30 : Nat) : Int) = (days : Int) % 365 % 30 := by omega
  have e4 : ((seconds / 3600 : Nat) : Int) = (seconds : Int) / 3600 := by omega
  have e5 : ((seconds % 3600 / 60 : Nat) : Int) = (seconds : Int) % 3600 / 60 := by omega
  have e6 : ((seconds % 3600 % 60 : Nat) : Int) = (seconds : Int) % 3600 % 60 := by omega
  rw [e1, e2, e3, e4, e5, e6]

theorem nz_getD (n : Nat) : (nz n).getD 0 = n := by unfold nz; split_ifs <;> simp_all

theorem isoPart_nil {n : Nat} {u : Char} : isoPart (nz n) u = [] ↔ n = 0 := by
  unfold isoPart nz; by_cases h : n = 0 <;> simp [h]

/-- **C53 (partial).** For every non-negative timedelta other than zero, `timedelta_str` gives a valid
ISO-8601 duration that denotes exactly its days and whole seconds. Missing: zero and negative
timedeltas (counterexamples below) and microseconds, which are dropped. -/
theorem timedelta_str_partial (days seconds micros : Nat) (_hs : seconds < 86400) (h0 : days ≠ 0 ∨ seconds ≠ 0) :
    DurationText (timedeltaStr ⟨days, seconds, micros⟩) (days * 86400 + seconds) := by
  refine ⟨tdIso days seconds, ?_, timedelta_iso .., ?_⟩
  · unfold IsoDuration.Valid IsoDuration.date IsoDuration.time tdIso
    simp only [ne_eq, List.append_eq_nil_iff, isoPart_nil]
    omega
  · unfold IsoDuration.total tdIso
    simp only [nz_getD]
    omega

/-- **C53.** A text is a valid duration of one length only, so the result of `timedelta_str` can be
read back. -/
theorem durationText_unique {s : List Char} {a b : Nat} (ha : DurationText s a) (hb : DurationText s b) : a = b := by
  obtain ⟨d, _, h1, rfl⟩ := ha
  obtain ⟨e, _, h2, rfl⟩ := hb
  rw [isoDuration_text_inj (h1.symm.trans h2)]

theorem intText_num {i : Int} {c : Char} (h : c ∈ intText i) : numChar c = true := by
  unfold intText at h
  split_ifs at h
  · rcases List.mem_cons.1 h with rfl | h
    · rfl
    · exact numChar_toDigits h
  · exact numChar_toDigits h

theorem intText_ne_nil (i : Int) : intText i ≠ [] := by
  unfold intText; split_ifs
  · simp
  · exact Nat.toDigits_ne_nil

theorem minus_not_digit {n : Nat} {l : List Char} (h : Nat.toDigits 10 n = '-' :: l) : False := by
  have := Nat.isDigit_of_mem_toDigits (b := 10) (n := n) (c := '-') (by omega) (by omega) (by rw [h]; simp)
  simp at this

theorem intText_inj {i j : Int} (h : intText i = intText j) : i = j := by
  unfold intText at h
  split_ifs at h
  · injection h with _ h; have := toDigits_inj h; omega
  · exact (minus_not_digit h.symm).elim
  · exact (minus_not_digit h).elim
  · have := toDigits_inj h; omega

/-- A component of the code in general form. -/
def nzText (i : Int) : Option (List Char) := if i = 0 then none else some (intText i)

theorem nzText_inj {i j : Int} (h : nzText i = nzText j) : i = j := by
  unfold nzText at h
  split_ifs at h with h1 h2 h2
  · rw [h1, h2]
  · exact intText_inj (by simpa using h)

theorem part_eq (i : Int) (u : Char) (r : List Char) : part i u ++ r = optText [(nzText i, u)] ++ r := by
  unfold part nzText; split_ifs <;> simp [optText]

/-- **C53.** Two timedeltas (also negative ones) print the same only if they have the same days and
whole seconds. -/
theorem timedelta_str_injective (s t : TimeDelta) (h : timedeltaStr s = timedeltaStr t) :
    s.days = t.days ∧ s.seconds = t.seconds := by
  have hok : ∀ (l : List (Int × Char)), (∀ p ∈ l, numChar p.2 = false) →
      OkFields (l.map fun p => (nzText p.1, p.2)) := by
    intro l hl f hf
    obtain ⟨p, hp, rfl⟩ := List.mem_map.1 hf
    refine ⟨hl p hp, ?_⟩
    intro n hn
    unfold nzText at hn
    simp only at hn
    split_ifs at hn
    injection hn with hn; subst hn
    exact ⟨intText_ne_nil _, fun c hc => intText_num hc⟩
  have h3 : ∀ (a b c : Int) (u v w : Char), part a u ++ part b v ++ part c w =
      optText ([(a, u), (b, v), (c, w)].map fun p => (nzText p.1, p.2)) := by
    intro a b c u v w
    unfold part nzText
    simp only [List.map_cons, List.map_nil]
    by_cases ha : a = 0 <;> by_cases hb : b = 0 <;> by_cases hc : c = 0 <;> simp [ha, hb, hc, optText]
  unfold timedeltaStr at h
  simp only [List.cons_append, List.cons.injEq, true_and, h3] at h
  have hlen : ∀ l : List Char, (if ('T' :: l).length > 1 then 'T' :: l else []) = if l = [] then [] else 'T' :: l := by
    intro l; cases l <;> simp
  rw [hlen, hlen] at h
  have ok1 : ∀ a b c : Int, OkFields ([(a, 'Y'), (b, 'M'), (c, 'D')].map fun p => (nzText p.1, p.2)) :=
    fun a b c => hok [(a, 'Y'), (b, 'M'), (c, 'D')] (by intro p hp; simp only [List.mem_cons, List.not_mem_nil, or_false] at hp; rcases hp with rfl | rfl | rfl <;> rfl)
  have ok2 : ∀ a b c : Int, OkFields ([(a, 'H'), (b, 'M'), (c, 'S')].map fun p => (nzText p.1, p.2)) :=
    fun a b c => hok [(a, 'H'), (b, 'M'), (c, 'S')] (by intro p hp; simp only [List.mem_cons, List.not_mem_nil, or_false] at hp; rcases hp with rfl | rfl | rfl <;> rfl)
  obtain ⟨g1, g2⟩ := optText_inj _ _ _ _ (ok1 (s.days / 365) (s.days % 365 / 30) (s.days % 365 % 30))
    (ok1 (t.days / 365) (t.days % 365 / 30) (t.days % 365 % 30)) rfl (by simp) (stops_time _) (stops_time _) h
  have g3 : ∀ a b : List Char, (if a = [] then [] else 'T' :: a) = (if b = [] then [] else 'T' :: b) → a = b := by
    intro a b hab
    by_cases ha : a = [] <;> by_cases hb : b = [] <;> simp [ha, hb] at hab ⊢
    exact hab
  have g4 := g3 _ _ g2
  obtain ⟨g5, _⟩ := optText_inj _ _ [] [] (ok2 (s.seconds / 3600) (s.seconds % 3600 / 60) (s.seconds % 3600 % 60))
    (ok2 (t.seconds / 3600) (t.seconds % 3600 / 60) (t.seconds % 3600 % 60)) rfl (by simp)
    (by intro c r h; cases h) (by intro c r h; cases h) (by simpa using g4)
  simp only [List.map_cons, List.map_nil, List.cons.injEq, Prod.mk.injEq, and_true] at g1 g5
  obtain ⟨a1, a2, a3⟩ := g1
  obtain ⟨b1, b2, b3⟩ := g5
  have := nzText_inj a1; have := nzText_inj a2; have := nzText_inj a3
  have := nzText_inj b1; have := nzText_inj b2; have := nzText_inj b3
  omega

/-- **C53 (counterexample).** The zero timedelta prints as "P", which is no ISO-8601 duration. -/
theorem timedelta_str_zero_counterexample (micros n : Nat) :
    timedeltaStr ⟨0, 0, micros⟩ = ['P'] ∧ ¬ DurationText ['P'] n := by
  refine ⟨by simp [timedeltaStr, part], ?_⟩
  rintro ⟨d, hv, ht, _⟩
  unfold IsoDuration.text at ht
  simp only [List.cons_append, List.cons.injEq, true_and] at ht
  have ht := ht.symm
  rw [List.append_eq_nil_iff] at ht
  rcases hv with h | h
  · exact h ht.1
  · rw [if_neg h] at ht; cases ht.2

/-- **C53 (counterexample).** A negative timedelta (here minus one second) prints with a minus sign on
the years only: no valid duration. -/
theorem timedelta_str_negative_counterexample (n : Nat) :
    String.ofList (timedeltaStr ⟨-1, 86399, 0⟩) = "P-1Y12M4DT23H59M59S" ∧
    ¬ DurationText (timedeltaStr ⟨-1, 86399, 0⟩) n := by
  refine ⟨by decide +kernel, ?_⟩
  rintro ⟨d, hv, ht, _⟩
  have hm : '-' ∈ timedeltaStr ⟨-1, 86399, 0⟩ := by decide +kernel
  rw [ht] at hm
  have hp : ∀ (o : Option Nat) (u : Char), u ≠ '-' → '-' ∉ isoPart o u := by
    intro o u hu hmem
    cases o with
    | none => simp [isoPart] at hmem
    | some k =>
      simp only [isoPart, List.mem_append, List.mem_cons, List.not_mem_nil, or_false] at hmem
      rcases hmem with h | h
      · exact absurd (Nat.isDigit_of_mem_toDigits (b := 10) (by omega) (by omega) h) (by decide)
      · exact hu h.symm
  unfold IsoDuration.text IsoDuration.date IsoDuration.time at hm
  simp only [List.cons_append, List.mem_cons, List.mem_append] at hm
  have a1 := hp d.years 'Y' (by decide); have a2 := hp d.months 'M' (by decide); have a3 := hp d.days 'D' (by decide)
  have b1 := hp d.hours 'H' (by decide); have b2 := hp d.minutes 'M' (by decide); have b3 := hp d.seconds 'S' (by decide)
  split_ifs at hm <;> simp [a1, a2, a3, b1, b2, b3] at hm

/-- Non-vacuity: a duration with all components. -/
example : String.ofList (timedeltaStr ⟨800, 3661, 5⟩) = "P2Y2M10DT1H1M1S" := by decide +kernel

end Verif.Props
