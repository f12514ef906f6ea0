import Verif.Props.Stamp
import Verif.Props.Property
import Mathlib.Data.List.Induction

/-!
# Texts taken as dates (C95)
-/
namespace Verif.Props
open Verif Verif.Jsonld Verif.Jsonld.Pat Verif.AS

/-! ### Specification -/

/-- Leap years of the Gregorian calendar. -/
def LeapYear (y : Nat) : Prop := (4 ∣ y ∧ ¬ 100 ∣ y) ∨ 400 ∣ y

instance (y : Nat) : Decidable (LeapYear y) := by unfold LeapYear; infer_instance

/-- Lengths of the months. -/
def monthLengths (y : Nat) : List Nat := [31, if LeapYear y then 29 else 28, 31, 30, 31, 30, 31, 31, 30, 31, 30, 31]

/-- The date exists and the time is a time of day (without leap seconds). -/
def RealMoment (m : DateTime) : Prop :=
  (1 ≤ m.year ∧ m.year ≤ 9999) ∧ 1 ≤ m.month ∧ 1 ≤ m.day ∧ (∃ n, (monthLengths m.year)[m.month - 1]? = some n ∧ m.day ≤ n) ∧
  m.hour < 24 ∧ m.minute < 60 ∧ m.second < 60

/-! ### Proofs -/

theorem daysIn_length (y mo d : Nat) : (∃ n, (monthLengths y)[mo - 1]? = some n ∧ d ≤ n) ∧ 1 ≤ mo ↔ (1 ≤ mo ∧ mo ≤ 12) ∧ d ≤ daysIn y mo := by
  have leap : (y % 4 = 0 ∧ (y % 100 ≠ 0 ∨ y % 400 = 0)) ↔ LeapYear y := by
    unfold LeapYear
    omega
  constructor
  · rintro ⟨⟨n, h1, h2⟩, h3⟩
    have hlt : mo - 1 < 12 := by
      have := (List.getElem?_eq_some_iff.1 h1).1
      simpa [monthLengths] using this
    refine ⟨⟨h3, by omega⟩, ?_⟩
    have hm : mo ≤ 12 := by omega
    unfold daysIn
    simp only [leap]
    interval_cases mo <;> simp [monthLengths] at h1 ⊢ <;> omega
  · rintro ⟨⟨h1, h2⟩, h3⟩
    refine ⟨?_, h1⟩
    unfold daysIn at h3
    simp only [leap] at h3
    interval_cases mo <;> simp [monthLengths] at h3 ⊢ <;> omega

theorem foldl_digits_lt (ds : List Nat) (h : ∀ d ∈ ds, d < 10) : ds.foldl (fun n d => 10 * n + d) 0 < 10 ^ ds.length := by
  induction ds using List.reverseRecOn with
  | nil => simp
  | append_singleton ds d ih =>
    rw [List.foldl_append, List.length_append]
    simp only [List.foldl_cons, List.foldl_nil, List.length_singleton]
    have h1 := ih fun x hx => h x (by simp [hx])
    have h2 := h d (by simp)
    rw [Nat.pow_succ]
    omega

theorem valid_stamp (t : Stamp) (h : t.Ok) : t.moment.Valid ↔ RealMoment t.moment := by
  obtain ⟨h1, h2, h3, h4, h5, h6, h7, h8⟩ := h
  have hmicro : t.moment.micro < 1000000 := by
    show (t.fraction.map fractionMicros).getD 0 < 1000000
    cases hf : t.fraction with
    | none => simp
    | some ds =>
      obtain ⟨a, b, c⟩ := h7 ds hf
      have := foldl_digits_lt ds c
      simp only [Option.map_some, Option.getD_some]
      unfold fractionMicros
      calc _ < 10 ^ ds.length * 10 ^ (6 - ds.length) := Nat.mul_lt_mul_of_pos_right this (by positivity)
        _ = 1000000 := by rw [← Nat.pow_add, show ds.length + (6 - ds.length) = 6 by omega]
  have hzone : ∀ o, t.moment.tz = some o → -1440 < o ∧ o < 1440 := by
    intro o ho
    have ho : t.zone.minutes = some o := ho
    cases hz : t.zone with
    | z => rw [hz] at ho; cases ho
    | offset w n hh mm =>
      obtain ⟨a, b⟩ := h8 w n hh mm hz
      rw [hz] at ho
      have ho := Option.some.inj ho
      subst ho
      split_ifs <;> omega
  have hd := daysIn_length t.moment.year t.moment.month t.moment.day
  unfold DateTime.Valid RealMoment
  constructor
  · rintro ⟨a1, a2, a3, a4, a5, a6, a7, a8, a9, -, -⟩
    exact ⟨⟨a1, a2⟩, a3, a5, (hd.2 ⟨⟨a3, a4⟩, a6⟩).1, a7, a8, a9⟩
  · rintro ⟨⟨a1, a2⟩, a3, a5, a6, a7, a8, a9⟩
    obtain ⟨⟨-, b2⟩, b3⟩ := hd.1 ⟨a6, a3⟩
    exact ⟨a1, a2, a3, b2, a5, b3, a7, a8, a9, hmicro, hzone⟩

/-- Every match of `p` uses up at most `n` characters, all of them with `P`. -/
def Uses {α : Type} (P : Char → Prop) (n : Nat) (p : Pat α) : Prop :=
  ∀ s a r, (a, r) ∈ p s → ∃ u, s = u ++ r ∧ (∀ c ∈ u, P c) ∧ u.length ≤ n

theorem Uses.chr {P : Char → Prop} {q : Char → Bool} (h : ∀ c, q c = true → P c) : Uses P 1 (Pat.chr q) := by
  intro s a r hm
  obtain ⟨rfl, hq⟩ := mem_chr.1 hm
  exact ⟨[a], rfl, by simpa using h a hq, by simp⟩

theorem Uses.pure {α : Type} {P : Char → Prop} (a : α) : Uses P 0 (Pat.pure a) := by
  intro s b r hm
  obtain ⟨-, rfl⟩ := mem_pure.1 hm
  exact ⟨[], rfl, by simp, by simp⟩

theorem Uses.mono {α : Type} {P : Char → Prop} {n m : Nat} {p : Pat α} (h : Uses P n p) (hm : n ≤ m) : Uses P m p := by
  intro s a r hx
  obtain ⟨u, h1, h2, h3⟩ := h s a r hx
  exact ⟨u, h1, h2, by omega⟩

theorem Uses.bind {α β : Type} {P : Char → Prop} {n m : Nat} {p : Pat α} {f : α → Pat β} (h : Uses P n p) (h' : ∀ a, Uses P m (f a)) :
    Uses P (n + m) (p.bind f) := by
  intro s b r hm
  obtain ⟨a, r', h1, h2⟩ := mem_bind.1 hm
  obtain ⟨u, rfl, hu, hul⟩ := h _ _ _ h1
  obtain ⟨v, rfl, hv, hvl⟩ := h' a _ _ _ h2
  refine ⟨u ++ v, by simp, ?_, by simp; omega⟩
  intro c hc
  rcases List.mem_append.1 hc with hc | hc
  · exact hu c hc
  · exact hv c hc

theorem Uses.alt {α : Type} {P : Char → Prop} {n : Nat} {p q : Pat α} (h : Uses P n p) (h' : Uses P n q) : Uses P n (p.alt q) := by
  intro s a r hm
  rcases mem_alt.1 hm with hm | hm
  · exact h _ _ _ hm
  · exact h' _ _ _ hm

theorem Uses.opt {α : Type} {P : Char → Prop} {n : Nat} {p : Pat α} (h : Uses P n p) : Uses P n (Pat.opt p) := by
  intro s o r hm
  unfold Pat.opt at hm
  rcases List.mem_append.1 hm with hm | hm
  · obtain ⟨x, hx, he⟩ := List.mem_map.1 hm
    obtain ⟨-, rfl⟩ := Prod.mk.inj he
    exact h _ _ _ hx
  · simp only [List.mem_singleton, Prod.mk.injEq] at hm
    obtain ⟨-, rfl⟩ := hm
    exact ⟨[], rfl, by simp, by simp⟩

theorem Uses.upTo {α : Type} {P : Char → Prop} {n : Nat} {p : Pat α} (h : Uses P n p) : ∀ k, Uses P (n * k) (Pat.upTo p k) := by
  intro k
  induction k with
  | zero => exact Uses.pure _
  | succ k ih =>
    intro s o r hm
    unfold Pat.upTo at hm
    rcases List.mem_append.1 hm with hm | hm
    · obtain ⟨x, hx, hm⟩ := List.mem_flatMap.1 hm
      obtain ⟨y, hy, he⟩ := List.mem_map.1 hm
      obtain ⟨-, rfl⟩ := Prod.mk.inj he
      obtain ⟨u, rfl, hu, hul⟩ := h _ _ _ hx
      obtain ⟨v, hv0, hv, hvl⟩ := ih _ _ _ hy
      refine ⟨u ++ v, by rw [List.append_assoc, ← hv0], ?_, by rw [List.length_append, Nat.mul_succ]; omega⟩
      intro c hc
      rcases List.mem_append.1 hc with hc | hc
      · exact hu c hc
      · exact hv c hc
    · simp only [List.mem_singleton, Prod.mk.injEq] at hm
      obtain ⟨-, rfl⟩ := hm
      exact ⟨[], rfl, by simp, by simp⟩

/-- No T and no newline. -/
def Dull (c : Char) : Prop := c ≠ 'T' ∧ c ≠ '\n'

instance (c : Char) : Decidable (Dull c) := by unfold Dull; infer_instance

theorem dull_digit : ∀ c : Char, c.isDigit = true → Dull c := by
  intro c h
  constructor <;> (rintro rfl; exact absurd h (by decide))

theorem dull_range {lo hi : Char} (h1 : 48 ≤ lo.toNat) (h2 : hi.toNat ≤ 57) (c : Char)
    (h : (decide (lo.toNat ≤ c.toNat) && decide (c.toNat ≤ hi.toNat)) = true) : Dull c := by
  simp only [Bool.and_eq_true, decide_eq_true_eq] at h
  constructor <;> rintro rfl
  · have : Char.toNat 'T' = 84 := rfl
    omega
  · have : Char.toNat '\n' = 10 := rfl
    omega

theorem uses_digit : Uses Dull 1 digit := Uses.chr dull_digit

theorem uses_range {lo hi : Char} (h1 : 48 ≤ lo.toNat) (h2 : hi.toNat ≤ 57) : Uses Dull 1 (range lo hi) := Uses.chr (dull_range h1 h2)

theorem uses_lit {x : Char} (h : Dull x) : Uses Dull 1 (lit x) := Uses.chr fun c hc => by
  simp only [beq_iff_eq] at hc
  subst hc; exact h

theorem uses_num2 {a b : Pat Char} (ha : Uses Dull 1 a) (hb : Uses Dull 1 b) : Uses Dull 2 (num2 a b) :=
  (ha.bind fun _ => (hb.bind fun _ => Uses.pure (P := Dull) _)).mono (by omega)

theorem uses_num1 {a : Pat Char} (ha : Uses Dull 1 a) : Uses Dull 2 (num1 a) :=
  (ha.bind fun _ => Uses.pure (P := Dull) _).mono (by omega)

theorem lower_T {c : Char} (h : c.toLower = '-' ∨ c.toLower = ':' ∨ c.toLower = '.' ∨ c.toLower = 'z') : Dull c := by
  constructor <;> rintro rfl <;> revert h <;> decide

theorem uses_litI {x : Char} (h : x.toLower = '-' ∨ x.toLower = ':' ∨ x.toLower = '.' ∨ x.toLower = 'z') : Uses Dull 1 (litI x) :=
  Uses.chr fun c hc => by
    simp only [beq_iff_eq] at hc
    exact lower_T (by rw [hc]; exact h)

theorem uses_month : Uses Dull 2 fmtMonth :=
  (uses_num2 (uses_lit (by decide +kernel)) (uses_range (by decide) (by decide))).alt
    ((uses_num2 (uses_lit (by decide +kernel)) (uses_range (by decide) (by decide))).alt (uses_num1 (uses_range (by decide) (by decide))))

theorem uses_day : Uses Dull 2 fmtDay := by
  refine (uses_num2 (uses_lit (by decide +kernel)) (uses_range (by decide) (by decide))).alt
    ((uses_num2 (uses_range (by decide) (by decide)) uses_digit).alt
    ((uses_num2 (uses_lit (by decide +kernel)) (uses_range (by decide) (by decide))).alt
    ((uses_num1 (uses_range (by decide) (by decide))).alt ?_)))
  refine ((uses_lit (x := ' ') (by decide +kernel)).bind (m := 1) fun _ => ?_)
  exact ((uses_range (lo := '1') (hi := '9') (by decide) (by decide)).bind fun _ => Uses.pure (P := Dull) _).mono (by omega)

theorem uses_hour : Uses Dull 2 fmtHour :=
  (uses_num2 (uses_lit (by decide +kernel)) (uses_range (by decide) (by decide))).alt
    ((uses_num2 (uses_range (by decide) (by decide)) uses_digit).alt (uses_num1 uses_digit))

theorem uses_minute : Uses Dull 2 fmtMinute :=
  (uses_num2 (uses_range (by decide) (by decide)) uses_digit).alt (uses_num1 uses_digit)

theorem uses_second : Uses Dull 2 fmtSecond :=
  (uses_num2 (uses_lit (by decide +kernel)) (uses_range (by decide) (by decide))).alt
    ((uses_num2 (uses_range (by decide) (by decide)) uses_digit).alt (uses_num1 uses_digit))

theorem uses_fraction : Uses Dull 6 fmtFraction :=
  (uses_digit.bind fun _ => ((Uses.upTo uses_digit 5).bind fun _ => Uses.pure (P := Dull) _)).mono (by omega)

theorem uses_offset : Uses Dull 6 fmtOffset := by
  refine Uses.alt (Uses.mono (n := 1 + (2 + (1 + (2 + 0)))) ?_ (by omega)) (Uses.mono (n := 1 + 0) ?_ (by omega))
  · refine Uses.bind (Uses.chr fun c hc => ?_) fun _ => Uses.bind (uses_num2 uses_digit uses_digit) fun _ =>
      Uses.bind (Uses.opt (uses_lit (by decide +kernel))) fun _ => Uses.bind (uses_num2 (uses_range (by decide) (by decide)) uses_digit) fun _ => Uses.pure _
    simp only [Bool.or_eq_true, beq_iff_eq] at hc
    rcases hc with rfl | rfl <;> decide +kernel
  · exact Uses.bind (uses_lit (by decide +kernel)) fun _ => Uses.pure _

theorem uses_year : Uses Dull 4 fmtYear :=
  Uses.mono (n := 1 + (1 + (1 + (1 + 0)))) (uses_digit.bind fun _ => uses_digit.bind fun _ => uses_digit.bind fun _ =>
    uses_digit.bind fun _ => Uses.pure _) (by omega)

/-- What `strptime` matches has one T, at most ten characters before it, and no newline. -/
theorem fmtAll_shape {seconds fraction : Bool} {tz : TzFmt} {s : List Char} {m : DateTime} (h : (m, []) ∈ fmtAll seconds fraction tz s) :
    ∃ d c e, s = d ++ c :: e ∧ d.length ≤ 10 ∧ (∀ x ∈ d, Dull x) ∧ c ≠ '\n' ∧ ∀ x ∈ e, Dull x := by
  unfold fmtAll at h
  obtain ⟨y, r1, k1, h⟩ := mem_bind.1 h
  obtain ⟨_, r2, k2, h⟩ := mem_bind.1 h
  obtain ⟨mo, r3, k3, h⟩ := mem_bind.1 h
  obtain ⟨_, r4, k4, h⟩ := mem_bind.1 h
  obtain ⟨dd, r5, k5, h⟩ := mem_bind.1 h
  obtain ⟨tt, r6, k6, h⟩ := mem_bind.1 h
  have hrest : ∀ {p : Pat DateTime} {n : Nat}, Uses Dull n p → (m, []) ∈ p r6 → ∀ x ∈ r6, Dull x := by
    intro p n hp hm
    obtain ⟨u, h1, h2, -⟩ := hp _ _ _ hm
    rw [List.append_nil] at h1
    subst h1; exact h2
  have hE : ∀ x ∈ r6, Dull x := by
    refine hrest (n := 2 + (1 + (2 + (3 + (7 + (7 + 0)))))) ?_ h
    refine uses_hour.bind fun _ => (uses_litI (by decide)).bind fun _ => uses_minute.bind fun _ => Uses.bind ?_ fun _ => Uses.bind ?_ fun _ =>
      Uses.bind ?_ fun _ => Uses.pure _
    · cases seconds
      · exact (Uses.pure _).mono (by omega)
      · exact ((uses_litI (by decide)).bind fun _ => uses_second).mono (by omega)
    · cases fraction
      · exact (Uses.pure _).mono (by omega)
      · exact ((uses_litI (by decide)).bind fun _ => uses_fraction).mono (by omega)
    · cases tz
      · exact ((uses_litI (by decide)).bind fun _ => Uses.pure (P := Dull) _).mono (by omega)
      · exact ((uses_litI (by decide)).bind fun _ => uses_offset.bind fun _ => Uses.pure (P := Dull) _).mono (by omega)
      · exact (uses_offset.bind fun _ => Uses.pure (P := Dull) _).mono (by omega)
  obtain ⟨u1, rfl, p1, l1⟩ := uses_year _ _ _ k1
  obtain ⟨u2, rfl, p2, l2⟩ := uses_litI (x := '-') (by decide) _ _ _ k2
  obtain ⟨u3, rfl, p3, l3⟩ := uses_month _ _ _ k3
  obtain ⟨u4, rfl, p4, l4⟩ := uses_litI (x := '-') (by decide) _ _ _ k4
  obtain ⟨u5, rfl, p5, l5⟩ := uses_day _ _ _ k5
  obtain ⟨rfl, hc⟩ := mem_chr.1 k6
  refine ⟨u1 ++ u2 ++ u3 ++ u4 ++ u5, tt, r6, by simp, by simp; omega, ?_, ?_, hE⟩
  · intro x hx
    simp only [List.mem_append, or_assoc] at hx
    rcases hx with hx | hx | hx | hx | hx
    exacts [p1 x hx, p2 x hx, p3 x hx, p4 x hx, p5 x hx]
  · rintro rfl
    revert hc; decide

theorem parse_whole {s : List Char} {m : DateTime} (h : parseDatetime (.str s) = .ok (.dt m)) :
    ∃ d c e, s = d ++ c :: e ∧ d.length ≤ 10 ∧ (∀ x ∈ d, Dull x) ∧ c ≠ '\n' ∧ ∀ x ∈ e, Dull x := by
  unfold parseDatetime at h
  simp only at h
  cases hs : search as2Time s with
  | none => rw [hs] at h; cases h
  | some len =>
    rw [hs] at h
    simp only at h
    unfold strptime at h
    generalize hf : (if (search as2Tz s).isNone then TzFmt.z else if s.contains 'Z' then TzFmt.zOffset else TzFmt.offset) = zf at h
    cases hm : fmtAll (len == 9) (s.contains '.') zf s with
    | nil => rw [hm] at h; cases h
    | cons x xs =>
      obtain ⟨t, r⟩ := x
      rw [hm] at h
      simp only at h
      by_cases hr : r = []
      · subst hr
        exact fmtAll_shape (m := t) (by rw [hm]; exact List.mem_cons_self)
      · rw [if_pos hr] at h; cases h

/-- **C95.** A text passes the validator and is read as the moment `m` exactly if it is a text of the ActivityStreams format that denotes `m`, and
`m` exists in the calendar. -/
theorem date_text_exact (s : List Char) (m : DateTime) :
    (isActivityDatetime (.str s) = .ok () ∧ parseDatetime (.str s) = .ok (.dt m)) ↔
      ∃ t : Stamp, t.Ok ∧ s = t.text ∧ m = t.moment ∧ RealMoment m := by
  constructor
  · rintro ⟨h1, h2⟩
    obtain ⟨pre, t, nl, ht, rfl, hnl⟩ := (validator_exact s).1 h1
    obtain ⟨d, c, e, hs, hd, pd, hc, pe⟩ := parse_whole h2
    have hnonl : '\n' ∉ pre ++ t.text ++ nl := by
      rw [hs]
      intro hm
      rcases List.mem_append.1 hm with hm | hm
      · exact (pd _ hm).2 rfl
      · rcases List.mem_cons.1 hm with hm | hm
        · exact hc hm.symm
        · exact (pe _ hm).2 rfl
    have hnl0 : nl = [] := by
      rcases hnl with rfl | rfl
      · rfl
      · exact absurd (by simp) hnonl
    subst hnl0
    have hpre : pre = [] := by
      have hT : (d ++ c :: e)[pre.length + 10]? = some 'T' := by
        rw [← hs, List.append_nil, List.getElem?_append_right (by omega)]
        have : pre.length + 10 - pre.length = 10 := by omega
        rw [this]; rfl
      by_contra hne
      have hpos : 0 < pre.length := List.length_pos_iff.2 hne
      rw [List.getElem?_append_right (by omega)] at hT
      have : pre.length + 10 - d.length = (pre.length + 9 - d.length) + 1 := by omega
      rw [this, List.getElem?_cons_succ] at hT
      exact (pe _ (List.mem_of_getElem? hT)).1 rfl
    subst hpre
    rw [List.nil_append, List.append_nil] at h2 ⊢
    rw [parse_stamp t ht] at h2
    by_cases hv : t.moment.Valid
    · rw [if_pos hv] at h2
      have := DateArg.dt.inj (Except.ok.inj h2)
      subst this
      exact ⟨t, ht, rfl, rfl, (valid_stamp t ht).1 hv⟩
    · rw [if_neg hv] at h2; cases h2
  · rintro ⟨t, ht, rfl, rfl, hr⟩
    refine ⟨(validator_exact _).2 ⟨[], t, [], ht, by simp, .inl rfl⟩, ?_⟩
    rw [parse_stamp t ht, if_pos ((valid_stamp t ht).2 hr)]

/-- A match stays a match when something is appended. -/
def Ext {α : Type} (p : Pat α) : Prop := ∀ s a r x, (a, r) ∈ p s → (a, r ++ x) ∈ p (s ++ x)

theorem Ext.chr (q : Char → Bool) : Ext (Pat.chr q) := by
  intro s a r x hm
  obtain ⟨rfl, hq⟩ := mem_chr.1 hm
  exact mem_chr.2 ⟨rfl, hq⟩

theorem Ext.pure {α : Type} (a : α) : Ext (Pat.pure a) := by
  intro s b r x hm
  obtain ⟨rfl, rfl⟩ := mem_pure.1 hm
  exact mem_pure.2 ⟨rfl, rfl⟩

theorem Ext.bind {α β : Type} {p : Pat α} {f : α → Pat β} (h : Ext p) (h' : ∀ a, Ext (f a)) : Ext (p.bind f) := by
  intro s b r x hm
  obtain ⟨a, r', h1, h2⟩ := mem_bind.1 hm
  exact mem_bind.2 ⟨a, r' ++ x, h _ _ _ _ h1, h' _ _ _ _ _ h2⟩

theorem Ext.alt {α : Type} {p q : Pat α} (h : Ext p) (h' : Ext q) : Ext (p.alt q) := by
  intro s a r x hm
  rcases mem_alt.1 hm with hm | hm
  · exact mem_alt.2 (.inl (h _ _ _ _ hm))
  · exact mem_alt.2 (.inr (h' _ _ _ _ hm))

theorem Ext.opt {α : Type} {p : Pat α} (h : Ext p) : Ext (Pat.opt p) := by
  intro s o r x hm
  unfold Pat.opt at hm ⊢
  rcases List.mem_append.1 hm with hm | hm
  · obtain ⟨⟨a, r'⟩, h1, h2⟩ := List.mem_map.1 hm
    cases h2
    exact List.mem_append_left _ (List.mem_map.2 ⟨(a, r' ++ x), h _ _ _ _ h1, rfl⟩)
  · cases List.mem_singleton.1 hm
    exact List.mem_append_right _ (by simp)

theorem Ext.num2 (p q : Char → Bool) : Ext (Pat.num2 (Pat.chr p) (Pat.chr q)) :=
  (Ext.chr p).bind fun _ => (Ext.chr q).bind fun _ => Ext.pure _

theorem ext_time : Ext as2Time :=
  ((Ext.num2 _ _).alt ((Ext.num2 _ _).alt (Ext.num2 _ _))).bind fun _ => (Ext.chr _).bind fun _ => (Ext.num2 _ _).bind fun _ =>
    (Ext.opt ((Ext.chr _).bind fun _ => (Ext.num2 _ _).alt (Ext.num2 _ _))).bind fun _ => Ext.chr _

/-- What passes the validator has a time in it, so that the parser finds it. -/
theorem validated_time {s : List Char} (h : isActivityDatetime (.str s) = .ok ()) : search as2Time s ≠ none := by
  obtain ⟨pre, t, nl, ht, rfl, -⟩ := (validator_exact s).1 h
  obtain ⟨pre', s', he, hne⟩ := search_suffix t.text (p := as2Time) (by rw [search_time t ht]; rfl)
  rw [he]
  obtain ⟨⟨a, r⟩, hm⟩ := List.exists_mem_of_ne_nil _ hne
  have := search_append_isSome (p := as2Time) (s' ++ nl) (List.ne_nil_of_mem (ext_time _ _ _ nl hm)) (pre ++ pre')
  intro hn
  rw [show pre ++ pre' ++ (s' ++ nl) = pre ++ (pre' ++ s') ++ nl by simp, hn] at this
  cases this

theorem strptime_cases (a b : Bool) (tz : TzFmt) (s : List Char) : strptime a b tz s = .error .valueError ∨ ∃ m, strptime a b tz s = .ok m := by
  unfold strptime
  split
  · exact .inl rfl
  · split_ifs
    · exact .inl rfl
    · exact .inr ⟨_, rfl⟩
    · exact .inl rfl

/-- The parser has no other error than ValueError on what passes the validator, and gives a moment. -/
theorem validated_parse {s : List Char} (h : isActivityDatetime (.str s) = .ok ()) :
    parseDatetime (.str s) = .error .valueError ∨ ∃ m, parseDatetime (.str s) = .ok (.dt m) := by
  have ht := validated_time h
  unfold parseDatetime
  cases hs : search as2Time s with
  | none => exact absurd hs ht
  | some len =>
    simp only [hs]
    generalize (if (search as2Tz s).isNone then TzFmt.z else if s.contains 'Z' then TzFmt.zOffset else TzFmt.offset) = zf
    rcases strptime_cases (len == 9) (s.contains '.') zf s with h | ⟨m, h⟩
    · rw [h]; exact .inl rfl
    · rw [h]; exact .inr ⟨m, rfl⟩

/-- The date properties. -/
theorem date_properties : (propTable.filter (·.parse)).map (·.name) = ["endTime", "published", "startTime", "updated"] := by decide +kernel

/-- **C95.** Assigning a text to endTime, published, startTime or updated succeeds exactly if it is a text of the ActivityStreams format that denotes
an existing moment; this moment is then stored, and otherwise ValueError is raised and nothing changes. -/
theorem date_setter_exact {r : PropRow} (hr : r ∈ propTable) (hp : r.parse = true) (env : Env) (mk : Ctor) (s : Slots) (text : String) :
    (∀ t : Stamp, t.Ok → text.toList = t.text → RealMoment t.moment →
      r.set env mk s (.str text) = (.ok (), s.dset r.write (.other "datetime" (env.dateRepr t.moment)))) ∧
    ((¬ ∃ t : Stamp, t.Ok ∧ text.toList = t.text ∧ RealMoment t.moment) →
      r.set env mk s (.str text) = (.error .valueError, s)) := by
  have hrow : ∀ r ∈ propTable, r.parse = true → r.fromStr = false ∧ r.functional = true ∧ r.additional = [.datetime] ∧
      "str" ∈ r.allTypes := by decide +kernel
  obtain ⟨hf, hfun, hadd, hstr⟩ := hrow r hr hp
  have hchk : r.check env (.str text) = match isActivityDatetime (.str text.toList) with
      | .ok _ => .ok (.str text)
      | .error _ => .error .valueError := by
    unfold PropRow.check
    rw [hadd]
    rcases hv : isActivityDatetime (.str text.toList) with e | u
    · simp only
      have : e = .valueError := by
        unfold isActivityDatetime at hv
        simp only at hv
        split at hv <;> cases hv; rfl
      subst this
      rw [evaluate]
      have hi : (Val.str text).isinstance env.mro (effTypes r.allTypes r.functional) = true := by
        refine (isinstance_eff _ _ _ _).2 ⟨"str", ?_, .inl hstr⟩
        simp [Val.classes]
      rw [hi]
      · simp [runAdditional, Check.run, checkDatetime, hv]
      all_goals simp
    · simp only
      refine (evaluate_spec _ _ _ _ _ _).2 ⟨.leaf _ rfl ⟨"str", by simp [Val.classes], .inl hstr⟩ ?_, rfl⟩
      simp only [List.map_cons, List.map_nil, List.mem_singleton]
      rintro c rfl
      exact hv
  have hset : r.set env mk s (.str text) = match isActivityDatetime (.str text.toList) with
      | .ok _ => (match parseDatetime (.str text.toList) with
        | .ok (.dt t) => (.ok (), s.dset r.write (.other "datetime" (env.dateRepr t)))
        | .ok _ => (.error .typeError, s)
        | .error e => (.error e, s))
      | .error _ => (.error .valueError, s) := by
    unfold PropRow.set PropRow.stores PropRow.convert
    rw [hf]
    simp only [Bool.false_eq_true, if_false, hchk]
    rcases isActivityDatetime (.str text.toList) with e | u
    · rfl
    · simp only [PropRow.parsed, hp, if_true, parseVal]
      rcases parseDatetime (.str text.toList) with e | a
      · rfl
      · cases a <;> rfl
  refine ⟨fun t ht htext hreal => ?_, fun hno => ?_⟩
  · obtain ⟨h1, h2⟩ := (date_text_exact text.toList t.moment).2 ⟨t, ht, htext, rfl, hreal⟩
    rw [hset, h1, h2]
  · rw [hset]
    rcases h1 : isActivityDatetime (.str text.toList) with e | u
    · rfl
    · rcases validated_parse h1 with h2 | ⟨m, h2⟩
      · rw [h2]
      · obtain ⟨t, k1, k2, rfl, k4⟩ := (date_text_exact text.toList m).1 ⟨h1, h2⟩
        exact absurd ⟨t, k1, k2, k4⟩ hno

/-- Non-vacuity: a leap day is taken, the same day of 1900 is not. -/
example : RealMoment (Stamp.moment ⟨2024, 2, 29, 23, 59, some 5, some [1, 2], .offset true true 5 30⟩) ∧
    ¬ RealMoment (Stamp.moment ⟨1900, 2, 29, 23, 59, none, none, .z⟩) :=
  ⟨⟨by decide, by decide, by decide, ⟨29, by decide +kernel, by decide⟩, by decide, by decide, by decide⟩, by
    rintro ⟨-, -, -, ⟨n, h1, h2⟩, -⟩
    have h3 : (monthLengths 1900)[2 - 1]? = some 28 := by decide +kernel
    have h1 : (monthLengths 1900)[2 - 1]? = some n := h1
    rw [h3] at h1
    have := Option.some.inj h1
    subst this
    exact absurd h2 (by decide)⟩

end Verif.Props
