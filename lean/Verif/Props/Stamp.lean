import Verif.Jsonld.DateTime
import Mathlib.Tactic.IntervalCases

/-!
# Timestamps (C54)
-/
namespace Verif.Props
open Verif Verif.Jsonld Verif.Jsonld.Pat

/-! ### Specification: the texts of the ActivityStreams format -/

/-- The end of a timestamp: `Z`, or an offset `±hh:mm` that may follow a `Z`. -/
inductive StampZone where
  | z
  | offset (withZ negative : Bool) (hh mm : Nat)

/-- A timestamp text `YYYY-mm-ddTHH:MM[:SS][.f](Z|Z?±hh:mm)`, given by its fields. -/
structure Stamp where
  year : Nat
  month : Nat
  day : Nat
  hour : Nat
  minute : Nat
  second : Option Nat := none
  /-- the digits after the point -/
  fraction : Option (List Nat) := none
  zone : StampZone := .z

/-- Decimal digits of a number below 10000, padded to four. -/
def pad4 (n : Nat) : List Char :=
  [Nat.digitChar (n / 1000), Nat.digitChar (n / 100 % 10), Nat.digitChar (n / 10 % 10), Nat.digitChar (n % 10)]

/-- The zone as written. -/
def StampZone.text : StampZone → List Char
  | .z => ['Z']
  | .offset w neg hh mm => (if w then ['Z'] else []) ++ ((if neg then '-' else '+') :: (pad2 hh ++ ':' :: pad2 mm))

/-- The seconds as written. -/
def secondText : Option Nat → List Char
  | none => []
  | some s => ':' :: pad2 s

/-- The fraction as written. -/
def fractionText : Option (List Nat) → List Char
  | none => []
  | some ds => '.' :: ds.map Nat.digitChar

/-- The whole text. -/
def Stamp.text (t : Stamp) : List Char :=
  pad4 t.year ++ '-' :: (pad2 t.month ++ '-' :: (pad2 t.day ++ 'T' :: (pad2 t.hour ++ ':' :: (pad2 t.minute ++
    (secondText t.second ++ (fractionText t.fraction ++ t.zone.text))))))

/-- The ranges the ActivityStreams format allows (60 seconds are allowed). -/
def Stamp.Ok (t : Stamp) : Prop :=
  t.year < 10000 ∧ (1 ≤ t.month ∧ t.month ≤ 12) ∧ (1 ≤ t.day ∧ t.day ≤ 31) ∧ t.hour < 24 ∧ t.minute < 60 ∧
  (∀ s, t.second = some s → s ≤ 60) ∧
  (∀ ds, t.fraction = some ds → 1 ≤ ds.length ∧ ds.length ≤ 6 ∧ ∀ d ∈ ds, d < 10) ∧
  (∀ w n hh mm, t.zone = .offset w n hh mm → hh < 24 ∧ mm < 60)

/-- The microseconds a fraction stands for. -/
def fractionMicros (ds : List Nat) : Nat := ds.foldl (fun n d => 10 * n + d) 0 * 10 ^ (6 - ds.length)

/-- The offset from UTC in minutes. -/
def StampZone.minutes : StampZone → Option Int
  | .z => none
  | .offset _ neg hh mm => some (if neg then -((60 * hh + mm : Nat) : Int) else ((60 * hh + mm : Nat) : Int))

/-- The moment a text denotes (without zone for `Z`, as `strptime` does for a literal Z). -/
def Stamp.moment (t : Stamp) : DateTime :=
  ⟨t.year, t.month, t.day, t.hour, t.minute, t.second.getD 0, (t.fraction.map fractionMicros).getD 0, t.zone.minutes⟩

/-! ### Matching -/

/-- `p` matches a prefix of `s` first with value `a`, leaving `r`. -/
def First {α : Type} (p : Pat α) (s : List Char) (a : α) (r : List Char) : Prop := (p s).head? = some (a, r)

theorem First.pure {α : Type} (a : α) (s : List Char) : First (Pat.pure a) s a s := rfl

theorem First.bind {α β : Type} {p : Pat α} {f : α → Pat β} {s r r' : List Char} {a : α} {b : β}
    (h : First p s a r) (h' : First (f a) r b r') : First (p.bind f) s b r' := by
  unfold First at *
  unfold Pat.bind
  cases hp : p s with
  | nil => rw [hp] at h; cases h
  | cons x xs =>
    rw [hp] at h
    simp only [List.head?_cons, Option.some.injEq] at h
    subst h
    rw [List.flatMap_cons, List.head?_append, h']
    rfl

theorem First.chr {p : Char → Bool} {c : Char} (h : p c = true) (r : List Char) : First (Pat.chr p) (c :: r) c r := by
  unfold First Pat.chr; simp [h]

theorem First.lit (c : Char) (r : List Char) : First (Pat.lit c) (c :: r) c r := First.chr (by simp) r

theorem First.litI (c : Char) (r : List Char) : First (Jsonld.litI c) (c :: r) c r := First.chr (by simp) r

theorem First.mem {α : Type} {p : Pat α} {s r : List Char} {a : α} (h : First p s a r) : (a, r) ∈ p s :=
  List.mem_of_mem_head? h

theorem First.opt_some {α : Type} {p : Pat α} {s r : List Char} {a : α} (h : First p s a r) :
    First (Pat.opt p) s (some a) r := by
  unfold First at *
  unfold Pat.opt
  cases hp : p s with
  | nil => rw [hp] at h; cases h
  | cons x xs =>
    rw [hp] at h
    simp only [List.head?_cons, Option.some.injEq] at h
    subst h; rfl

theorem First.opt_none {α : Type} {p : Pat α} {s : List Char} (h : p s = []) : First (Pat.opt p) s none s := by
  unfold First Pat.opt; rw [h]; rfl

theorem first_month (n : Nat) (h : 1 ≤ n ∧ n ≤ 12) (r : List Char) : First fmtMonth (pad2 n ++ r) n r := by
  obtain ⟨h1, h2⟩ := h; interval_cases n <;> rfl

theorem first_day (n : Nat) (h : 1 ≤ n ∧ n ≤ 31) (r : List Char) : First fmtDay (pad2 n ++ r) n r := by
  obtain ⟨h1, h2⟩ := h; interval_cases n <;> rfl

theorem first_hour (n : Nat) (h : n < 24) (r : List Char) : First fmtHour (pad2 n ++ r) n r := by
  interval_cases n <;> rfl

theorem first_minute (n : Nat) (h : n < 60) (r : List Char) : First fmtMinute (pad2 n ++ r) n r := by
  interval_cases n <;> rfl

theorem first_second (n : Nat) (h : n ≤ 60) (r : List Char) : First fmtSecond (pad2 n ++ r) n r := by
  interval_cases n <;> rfl

theorem first_reHour (n : Nat) (h : n < 24) (r : List Char) : First reHour (pad2 n ++ r) n r := by
  interval_cases n <;> rfl

theorem first_reMinute (n : Nat) (h : n < 60) (r : List Char) : First reMinute (pad2 n ++ r) n r := by
  interval_cases n <;> rfl

theorem first_re60 (n : Nat) (h : n ≤ 60) (r : List Char) :
    First (reMinute.alt (num2 (Pat.lit '6') (Pat.lit '0'))) (pad2 n ++ r) n r := by
  interval_cases n <;> rfl

theorem first_num2 (n : Nat) (h : n < 24) (r : List Char) : First (num2 digit digit) (pad2 n ++ r) n r := by
  interval_cases n <;> rfl

theorem first_num05 (n : Nat) (h : n < 60) (r : List Char) : First (num2 (range '0' '5') digit) (pad2 n ++ r) n r := by
  interval_cases n <;> rfl

theorem isDigit_digitChar (d : Nat) (h : d < 10) : (Nat.digitChar d).isDigit = true := by interval_cases d <;> rfl

theorem dval_digitChar (d : Nat) (h : d < 10) : dval (Nat.digitChar d) = d := by interval_cases d <;> rfl

theorem first_digit (d : Nat) (h : d < 10) (r : List Char) : First digit (Nat.digitChar d :: r) (Nat.digitChar d) r :=
  First.chr (isDigit_digitChar d h) r

theorem first_year (n : Nat) (h : n < 10000) (r : List Char) : First fmtYear (pad4 n ++ r) n r := by
  unfold fmtYear pad4
  refine (first_digit _ (by omega) _).bind ((first_digit _ (by omega) _).bind ((first_digit _ (by omega) _).bind
    ((first_digit _ (by omega) _).bind ?_)))
  rw [dval_digitChar _ (by omega), dval_digitChar _ (by omega), dval_digitChar _ (by omega), dval_digitChar _ (by omega)]
  have : 1000 * (n / 1000) + 100 * (n / 100 % 10) + 10 * (n / 10 % 10) + n % 10 = n := by omega
  rw [this]
  exact First.pure ..

/-- A rest that does not begin with a digit. -/
def NoDigit (r : List Char) : Prop := digit r = []

theorem first_upTo (r : List Char) (hr : NoDigit r) : ∀ (n : Nat) (ds : List Nat), ds.length ≤ n → (∀ d ∈ ds, d < 10) →
    First (upTo digit n) (ds.map Nat.digitChar ++ r) (ds.map Nat.digitChar) r
  | 0, [], _, _ => rfl
  | 0, _ :: _, h, _ => by simp at h
  | n + 1, [], _, _ => by
    unfold First upTo
    rw [List.map_nil, List.nil_append]
    have : digit r = [] := hr
    rw [this]; rfl
  | n + 1, d :: ds, h, hd => by
    have ih := first_upTo r hr n ds (by simpa using h) (fun x hx => hd x (by simp [hx]))
    have h1 := first_digit d (hd d (by simp)) (ds.map Nat.digitChar ++ r)
    unfold First at *
    rw [List.map_cons, List.cons_append, upTo]
    cases hp : digit (Nat.digitChar d :: (ds.map Nat.digitChar ++ r)) with
    | nil => rw [hp] at h1; cases h1
    | cons x xs =>
      rw [hp] at h1
      simp only [List.head?_cons, Option.some.injEq] at h1
      subst h1
      simp only [hp]
      rw [List.flatMap_cons, List.head?_append, List.head?_append, List.head?_map, ih]
      rfl

theorem foldl_digits (ds : List Nat) (h : ∀ d ∈ ds, d < 10) (n : Nat) :
    (ds.map Nat.digitChar).foldl (fun n c => 10 * n + dval c) n = ds.foldl (fun n d => 10 * n + d) n := by
  induction ds generalizing n with
  | nil => rfl
  | cons d ds ih =>
    rw [List.map_cons, List.foldl_cons, List.foldl_cons, dval_digitChar d (h d (by simp))]
    exact ih (fun x hx => h x (by simp [hx])) _

theorem first_fraction (ds : List Nat) (h : 1 ≤ ds.length ∧ ds.length ≤ 6 ∧ ∀ d ∈ ds, d < 10) (r : List Char)
    (hr : NoDigit r) : First fmtFraction (ds.map Nat.digitChar ++ r) (fractionMicros ds) r := by
  cases ds with
  | nil => simp at h
  | cons d ds =>
    obtain ⟨_, h2, h3⟩ := h
    unfold fmtFraction fractionMicros
    rw [List.map_cons, List.cons_append]
    refine (first_digit d (h3 d (by simp)) _).bind ((first_upTo r hr 5 ds (by simpa using h2)
      (fun x hx => h3 x (by simp [hx]))).bind ?_)
    have := foldl_digits (d :: ds) h3 0
    rw [List.map_cons] at this
    rw [this]
    have hl : (Nat.digitChar d :: ds.map Nat.digitChar).length = (d :: ds).length := by simp
    rw [hl]
    exact First.pure ..

theorem zone_noDigit (zo : StampZone) : NoDigit zo.text := by
  unfold NoDigit StampZone.text
  cases zo with
  | z => rfl
  | offset w n hh mm => cases w <;> cases n <;> rfl

theorem first_offset (n : Bool) (hh mm : Nat) (h1 : hh < 24) (h2 : mm < 60) :
    First fmtOffset ((if n then '-' else '+') :: (pad2 hh ++ ':' :: pad2 mm))
      (if n then -((60 * hh + mm : Nat) : Int) else ((60 * hh + mm : Nat) : Int)) [] := by
  unfold fmtOffset First Pat.alt
  rw [List.head?_append]
  have key : First ((chr fun c => c == '-' || c == '+').bind fun sg => (num2 digit digit).bind fun h =>
      (opt (lit ':')).bind fun _ => (num2 (range '0' '5') digit).bind fun m =>
      Pat.pure (if sg = '-' then -((60 * h + m : Nat) : Int) else ((60 * h + m : Nat) : Int)))
      ((if n then '-' else '+') :: (pad2 hh ++ ':' :: pad2 mm))
      (if n then -((60 * hh + mm : Nat) : Int) else ((60 * hh + mm : Nat) : Int)) [] := by
    refine (First.chr (by cases n <;> rfl) _).bind ((first_num2 hh h1 _).bind
      ((First.opt_some (First.lit ':' _)).bind ?_))
    have := first_num05 mm h2 []
    rw [List.append_nil] at this
    refine this.bind ?_
    cases n <;> exact First.pure ..
  unfold First at key
  rw [key]; rfl

/-- The part of the format string for the zone (as in `parseDatetime`). -/
def zoneFmt : StampZone → TzFmt
  | .z => .z
  | .offset w _ _ _ => if w then .zOffset else .offset

theorem first_all (t : Stamp) (h : t.Ok) :
    First (fmtAll t.second.isSome t.fraction.isSome (zoneFmt t.zone)) t.text t.moment [] := by
  obtain ⟨hy, hmo, hd, hh, hmi, hs, hf, hz⟩ := h
  unfold fmtAll Stamp.text Stamp.moment
  refine (first_year _ hy _).bind ((First.litI '-' _).bind ((first_month _ hmo _).bind ((First.litI '-' _).bind
    ((first_day _ hd _).bind ((First.litI 'T' _).bind ((first_hour _ hh _).bind ((First.litI ':' _).bind
    ((first_minute _ hmi _).bind ?_))))))))
  refine First.bind (a := t.second.getD 0) (r := fractionText t.fraction ++ t.zone.text) ?_ ?_
  · cases hsec : t.second with
    | none => exact First.pure ..
    | some s => exact First.bind (f := fun _ => fmtSecond) (First.litI ':' _) (first_second s (hs s hsec) _)
  refine First.bind (a := (t.fraction.map fractionMicros).getD 0) (r := t.zone.text) ?_ ?_
  · cases hfr : t.fraction with
    | none => exact First.pure ..
    | some ds => exact First.bind (f := fun _ => fmtFraction) (First.litI '.' _) (first_fraction ds (hf ds hfr) _ (zone_noDigit _))
  refine First.bind (a := t.zone.minutes) (r := []) ?_ (First.pure ..)
  cases hzo : t.zone with
  | z => exact (First.litI 'Z' _).bind (First.pure ..)
  | offset w n hh mm =>
    obtain ⟨h1, h2⟩ := hz w n hh mm hzo
    cases w with
    | true => exact (First.litI 'Z' _).bind ((first_offset n hh mm h1 h2).bind (First.pure ..))
    | false => exact (first_offset n hh mm h1 h2).bind (First.pure ..)

/-! ### The searches made by the parser -/

theorem search_first {α : Type} {p : Pat α} {s r : List Char} {a : α} (h : First p s a r) :
    search p s = some (s.length - r.length) := by
  unfold First at h
  cases hp : p s with
  | nil => rw [hp] at h; cases h
  | cons x xs =>
    rw [hp] at h
    simp only [List.head?_cons, Option.some.injEq] at h
    subst h
    cases s with
    | nil => simp [search, hp]
    | cons c s => simp [search, hp]

theorem search_skip {α : Type} {p : Pat α} {c : Char} {s : List Char} (h : p (c :: s) = []) :
    search p (c :: s) = search p s := by
  rw [search, h]

/-- A match of the time pattern needs a colon at the third place. -/
theorem as2Time_colon (a b c : Char) (s : List Char) (h : c ≠ ':') : as2Time (a :: b :: c :: s) = [] := by
  have hl : ∀ (f : Char → Pat Char), (lit ':').bind f (c :: s) = [] := by
    intro f; unfold Pat.bind lit chr; simp [h]
  unfold as2Time reHour
  unfold Pat.bind Pat.alt num2 Pat.bind
  unfold lit range digit chr Pat.pure
  by_cases h1 : a == '0' <;> by_cases h2 : a == '1' <;> by_cases h3 : a == '2' <;> by_cases h4 : b.isDigit <;>
    by_cases h5 : ('0'.toNat ≤ b.toNat && b.toNat ≤ '3'.toNat) <;> simp_all

theorem search_time (t : Stamp) (h : t.Ok) :
    search as2Time t.text = some (if t.second.isSome then 9 else 6) := by
  obtain ⟨hy, hmo, hd, hh, hmi, hs, hf, hz⟩ := h
  have hdc : ∀ d, d < 10 → Nat.digitChar d ≠ ':' := by intro d hd; interval_cases d <;> decide
  have stop : ∃ c r, fractionText t.fraction ++ t.zone.text = c :: r ∧
      (c == '.' || c == '-' || c == '+' || c == 'Z') = true ∧ c ≠ ':' := by
    cases t.fraction with
    | some ds => exact ⟨'.', _, rfl, rfl, by decide⟩
    | none => cases t.zone with
      | z => exact ⟨'Z', _, rfl, rfl, by decide⟩
      | offset w n hh mm => cases w <;> cases n <;> exact ⟨_, _, rfl, rfl, by decide⟩
  obtain ⟨c, r, hcr, hc, hcol⟩ := stop
  have first : First as2Time (pad2 t.hour ++ ':' :: (pad2 t.minute ++ (secondText t.second ++ (c :: r)))) c r := by
    unfold as2Time
    refine (first_reHour _ hh _).bind ((First.lit ':' _).bind ((first_reMinute _ hmi _).bind ?_))
    refine First.bind (a := t.second) (r := c :: r) ?_ (First.chr hc r)
    unfold reSeconds
    cases hsec : t.second with
    | none =>
      refine First.opt_none ?_
      show (lit ':').bind _ (c :: r) = []
      unfold Pat.bind lit chr; simp [hcol]
    | some s => exact First.opt_some ((First.lit ':' _).bind (first_re60 s (hs s hsec) _))
  unfold Stamp.text
  rw [hcr]
  unfold pad4
  simp only [List.cons_append, List.nil_append]
  have hp2 : ∀ n, pad2 n = [Nat.digitChar (n / 10), Nat.digitChar (n % 10)] := fun _ => rfl
  rw [hp2 t.month, hp2 t.day]
  simp only [List.cons_append, List.nil_append]
  rw [search_skip (as2Time_colon _ _ _ _ (hdc _ (by omega))), search_skip (as2Time_colon _ _ _ _ (hdc _ (by omega))),
    search_skip (as2Time_colon _ _ _ _ (by decide)), search_skip (as2Time_colon _ _ _ _ (hdc _ (by omega))),
    search_skip (as2Time_colon _ _ _ _ (hdc _ (by omega))), search_skip (as2Time_colon _ _ _ _ (by decide)),
    search_skip (as2Time_colon _ _ _ _ (hdc _ (by omega))), search_skip (as2Time_colon _ _ _ _ (hdc _ (by omega))),
    search_skip (as2Time_colon _ _ _ _ (by decide))]
  have hlen := search_first first
  rw [hp2 t.hour] at hlen ⊢
  simp only [List.cons_append, List.nil_append] at hlen ⊢
  rw [search_skip (as2Time_colon _ _ _ _ (hdc _ (by omega))), search_skip (as2Time_colon _ _ _ _ (hdc _ (by omega))), hlen]
  cases t.second with
  | none => simp [secondText, pad2]; omega
  | some s => simp [secondText, pad2]; omega

theorem search_append_isSome {α : Type} {p : Pat α} (s : List Char) (h : p s ≠ []) : ∀ pre, (search p (pre ++ s)).isSome
  | [] => by
    cases hp : p s with
    | nil => exact absurd hp h
    | cons x xs => cases s <;> simp [search, hp]
  | c :: pre => by
    rw [List.cons_append, search]
    split
    · rfl
    · exact search_append_isSome s h pre

theorem search_none {α : Type} {p : Pat α} : ∀ s, (∀ pre s', s = pre ++ s' → p s' = []) → search p s = none
  | [], h => by simp [search, h [] [] rfl]
  | c :: s, h => by
    rw [search_skip (h [] _ rfl)]
    exact search_none s (fun pre s' hs => h (c :: pre) s' (by rw [hs]; rfl))

theorem mem_bind {α β : Type} {p : Pat α} {f : α → Pat β} {s r : List Char} {b : β} :
    (b, r) ∈ p.bind f s ↔ ∃ a r', (a, r') ∈ p s ∧ (b, r) ∈ f a r' := by
  unfold Pat.bind
  simp [List.mem_flatMap]

theorem mem_chr {p : Char → Bool} {s r : List Char} {c : Char} : (c, r) ∈ Pat.chr p s ↔ s = c :: r ∧ p c = true := by
  cases s with
  | nil => simp [Pat.chr]
  | cons x xs =>
    unfold Pat.chr
    by_cases h : p x <;> simp [h]
    · constructor
      · rintro ⟨rfl, rfl⟩; exact ⟨⟨rfl, rfl⟩, h⟩
      · rintro ⟨⟨rfl, rfl⟩, _⟩; exact ⟨rfl, rfl⟩
    · rintro rfl _; simpa using h

theorem mem_eos {s r : List Char} {u : Unit} : (u, r) ∈ eos s ↔ r = s ∧ (s = [] ∨ s = ['\n']) := by
  unfold eos; split_ifs with h <;> simp [h]

theorem mem_alt {α : Type} {p q : Pat α} {s r : List Char} {a : α} :
    (a, r) ∈ p.alt q s ↔ (a, r) ∈ p s ∨ (a, r) ∈ q s := by unfold Pat.alt; exact List.mem_append

theorem mem_opt {α : Type} {p : Pat α} {s r : List Char} {o : Option α} :
    (o, r) ∈ Pat.opt p s ↔ (∃ a, o = some a ∧ (a, r) ∈ p s) ∨ (o = none ∧ r = s) := by
  unfold Pat.opt
  simp only [List.mem_append, List.mem_map, Prod.exists, Prod.mk.injEq, List.mem_cons, List.not_mem_nil, or_false]
  constructor
  · rintro (⟨a, b, h, rfl, rfl⟩ | h)
    · exact .inl ⟨a, rfl, h⟩
    · exact .inr h
  · rintro (⟨a, rfl, h⟩ | h)
    · exact .inl ⟨a, r, h, rfl, rfl⟩
    · exact .inr h

theorem mem_pure {α : Type} {a b : α} {s r : List Char} : (b, r) ∈ Pat.pure a s ↔ b = a ∧ r = s := by
  unfold Pat.pure; simp

/-- What a pattern leaves is the end of the input. -/
def Consumes {α : Type} (p : Pat α) : Prop := ∀ s a r, (a, r) ∈ p s → r <:+ s

theorem Consumes.chr (p : Char → Bool) : Consumes (Pat.chr p) := by
  intro s a r h; rw [mem_chr] at h; rw [h.1]; exact List.suffix_cons _ _

theorem Consumes.pure {α : Type} (a : α) : Consumes (Pat.pure a) := by
  intro s b r h; rw [mem_pure] at h; rw [h.2]; exact List.suffix_rfl

theorem Consumes.bind {α β : Type} {p : Pat α} {f : α → Pat β} (h : Consumes p) (h' : ∀ a, Consumes (f a)) :
    Consumes (p.bind f) := by
  intro s b r hm
  rw [mem_bind] at hm
  obtain ⟨a, r', h1, h2⟩ := hm
  exact (h' a r' b r h2).trans (h s a r' h1)

theorem Consumes.alt {α : Type} {p q : Pat α} (h : Consumes p) (h' : Consumes q) : Consumes (p.alt q) := by
  intro s b r hm
  rw [mem_alt] at hm
  rcases hm with hm | hm
  · exact h s b r hm
  · exact h' s b r hm

theorem Consumes.opt {α : Type} {p : Pat α} (h : Consumes p) : Consumes (Pat.opt p) := by
  intro s b r hm
  rw [mem_opt] at hm
  rcases hm with ⟨a, _, hm⟩ | ⟨_, rfl⟩
  · exact h s a r hm
  · exact List.suffix_rfl

theorem Consumes.num2 {p q : Pat Char} (h : Consumes p) (h' : Consumes q) : Consumes (Pat.num2 p q) :=
  h.bind fun _ => h'.bind fun _ => Consumes.pure _

theorem consumes_reHour : Consumes reHour :=
  (Consumes.num2 (.chr _) (.chr _)).alt ((Consumes.num2 (.chr _) (.chr _)).alt (Consumes.num2 (.chr _) (.chr _)))

/-- A match of the zone pattern ends with a digit (and perhaps a newline). -/
theorem as2Tz_last {s : List Char} (h : as2Tz s ≠ []) :
    ∃ (pre : List Char) (d : Char) (r : List Char), s = pre ++ d :: r ∧ d.isDigit = true ∧ (r = [] ∨ r = ['\n']) := by
  obtain ⟨⟨u, r⟩, hx⟩ := List.exists_mem_of_ne_nil _ h
  have hpre : Consumes ((opt (lit 'Z')).bind fun _ => (chr fun c => c == '-' || c == '+').bind fun _ =>
      reHour.bind fun _ => (lit ':').bind fun _ => range '0' '5') :=
    (Consumes.opt (.chr _)).bind fun _ => (Consumes.chr _).bind fun _ => consumes_reHour.bind fun _ =>
      (Consumes.chr _).bind fun _ => .chr _
  unfold as2Tz reOffset reMinute num2 digit at hx
  simp only [mem_bind, mem_chr, mem_eos, mem_pure] at hx
  obtain ⟨a, r', ⟨b1, r1, h1, b2, r2, h2, b3, r3, h3, b4, r4, h4, b5, r5, h5, b6, r6, ⟨h6, hd⟩, h7, h8⟩, h9, he⟩ := hx
  have hm : (b5, r5) ∈ ((opt (lit 'Z')).bind fun _ => (chr fun c => c == '-' || c == '+').bind fun _ =>
      reHour.bind fun _ => (lit ':').bind fun _ => range '0' '5') s := by
    simp only [mem_bind, mem_chr]
    exact ⟨b1, r1, h1, b2, r2, h2, b3, r3, h3, b4, r4, h4, h5⟩
  obtain ⟨pre, hp⟩ := hpre _ _ _ hm
  exact ⟨pre, b6, r6, by rw [← hp, h6], hd, by rw [← h8]; exact he⟩

theorem search_zone (t : Stamp) (h : t.Ok) : (search as2Tz t.text).isNone = (match t.zone with | .z => true | _ => false) := by
  have hpre : ∃ pre, t.text = pre ++ t.zone.text := ⟨pad4 t.year ++ '-' :: (pad2 t.month ++ '-' :: (pad2 t.day ++ 'T' ::
    (pad2 t.hour ++ ':' :: (pad2 t.minute ++ (secondText t.second ++ (fractionText t.fraction)))))), by
      unfold Stamp.text; simp⟩
  obtain ⟨pre, hp⟩ := hpre
  rw [hp]
  cases hz : t.zone with
  | z =>
    rw [search_none]
    · rfl
    · intro q s' hs
      by_contra hne
      obtain ⟨pre', d, r, h1, h2, h3⟩ := as2Tz_last hne
      rw [h1] at hs
      have hl := congrArg List.getLast? hs
      simp only [StampZone.text] at hl
      rcases h3 with rfl | rfl
      · rw [← List.append_assoc, List.getLast?_concat, List.getLast?_concat] at hl
        injection hl with hl; subst hl; exact absurd h2 (by decide)
      · rw [show q ++ (pre' ++ [d, '\n']) = (q ++ pre' ++ [d]) ++ ['\n'] by simp, List.getLast?_concat,
          List.getLast?_concat] at hl
        exact absurd hl (by decide)
  | offset w n hh mm =>
    obtain ⟨h1, h2⟩ := h.2.2.2.2.2.2.2 w n hh mm hz
    have hne : as2Tz (StampZone.offset w n hh mm).text ≠ [] := by
      have : First as2Tz (StampZone.offset w n hh mm).text () [] := by
        unfold as2Tz reOffset
        refine First.bind (a := mm) (r := []) ?_ rfl
        refine First.bind (a := if w then some 'Z' else none)
          (r := (if n then '-' else '+') :: (pad2 hh ++ ':' :: pad2 mm)) ?_ ?_
        · cases w
          · cases n <;> exact First.opt_none rfl
          · exact First.opt_some (First.lit 'Z' _)
        · have h3 := first_reMinute mm h2 []
          rw [List.append_nil] at h3
          exact (First.chr (by cases n <;> rfl) _).bind ((first_reHour hh h1 _).bind
            (First.bind (f := fun _ => reMinute) (First.lit ':' _) h3))
      intro h0; unfold First at this; rw [h0] at this; cases this
    have := search_append_isSome _ hne pre
    rw [← Option.not_isSome, this]; rfl

theorem digitChar_ne (d : Nat) (h : d < 10) : Nat.digitChar d ≠ '.' ∧ Nat.digitChar d ≠ 'Z' := by
  interval_cases d <;> exact ⟨by decide, by decide⟩

theorem mem_pad2 {c : Char} (hc : ∀ d, d < 10 → Nat.digitChar d ≠ c) {n : Nat} (hn : n < 100) : c ∉ pad2 n := by
  unfold pad2
  simp only [List.mem_cons, List.not_mem_nil, or_false, not_or]
  exact ⟨fun h => hc _ (by omega) h.symm, fun h => hc _ (by omega) h.symm⟩

theorem mem_text {c : Char} (hc : ∀ d, d < 10 → Nat.digitChar d ≠ c) (h1 : c ≠ '-') (h2 : c ≠ ':') (h3 : c ≠ 'T')
    (t : Stamp) (h : t.Ok) : c ∈ t.text ↔ c ∈ fractionText t.fraction ∨ c ∈ t.zone.text := by
  obtain ⟨hy, hmo, hd, hh, hmi, hs, hf, hz⟩ := h
  have a0 : c ∉ pad4 t.year := by
    unfold pad4
    simp only [List.mem_cons, List.not_mem_nil, or_false, not_or]
    exact ⟨fun h => hc _ (by omega) h.symm, fun h => hc _ (by omega) h.symm, fun h => hc _ (by omega) h.symm,
      fun h => hc _ (by omega) h.symm⟩
  have a1 := mem_pad2 hc (n := t.month) (by omega)
  have a2 := mem_pad2 hc (n := t.day) (by omega)
  have a3 := mem_pad2 hc (n := t.hour) (by omega)
  have a4 := mem_pad2 hc (n := t.minute) (by omega)
  have a5 : c ∉ secondText t.second := by
    cases hsec : t.second with
    | none => simp [secondText]
    | some s =>
      have := hs s hsec
      have := mem_pad2 hc (n := s) (by omega)
      simp [secondText, this, h2]
  unfold Stamp.text
  simp [a0, a1, a2, a3, a4, a5, h1, h2, h3]

theorem contains_dot (t : Stamp) (h : t.Ok) : t.text.contains '.' = t.fraction.isSome := by
  have := mem_text (c := '.') (fun d hd => (digitChar_ne d hd).1) (by decide) (by decide) (by decide) t h
  have hz : '.' ∉ t.zone.text := by
    cases hz : t.zone with
    | z => decide
    | offset w n hh mm =>
      obtain ⟨h1, h2⟩ := h.2.2.2.2.2.2.2 w n hh mm hz
      have b1 := mem_pad2 (c := '.') (fun d hd => (digitChar_ne d hd).1) (n := hh) (by omega)
      have b2 := mem_pad2 (c := '.') (fun d hd => (digitChar_ne d hd).1) (n := mm) (by omega)
      cases w <;> cases n <;> simp [StampZone.text, b1, b2]
  rw [Bool.eq_iff_iff, List.contains_iff_mem, this]
  cases t.fraction <;> simp [fractionText, hz]

theorem contains_z (t : Stamp) (h : t.Ok) (w n : Bool) (hh mm : Nat) (hz : t.zone = .offset w n hh mm) :
    t.text.contains 'Z' = w := by
  have := mem_text (c := 'Z') (fun d hd => (digitChar_ne d hd).2) (by decide) (by decide) (by decide) t h
  have hf : 'Z' ∉ fractionText t.fraction := by
    cases hf : t.fraction with
    | none => simp [fractionText]
    | some ds =>
      simp only [fractionText, List.mem_cons, List.mem_map, not_or, not_exists, not_and]
      exact ⟨by decide, fun d hd => (digitChar_ne d ((h.2.2.2.2.2.2.1 ds hf).2.2 d hd)).2⟩
  obtain ⟨h1, h2⟩ := h.2.2.2.2.2.2.2 w n hh mm hz
  have b1 := mem_pad2 (c := 'Z') (fun d hd => (digitChar_ne d hd).2) (n := hh) (by omega)
  have b2 := mem_pad2 (c := 'Z') (fun d hd => (digitChar_ne d hd).2) (n := mm) (by omega)
  rw [Bool.eq_iff_iff, List.contains_iff_mem, this, hz]
  cases w <;> cases n <;> simp [StampZone.text, b1, b2, hf]

/-- **C54.** `parse_activitystream_datetime` reads every text of the ActivityStreams format: the
result is exactly the moment it denotes, and ValueError if there is no such moment (31 February,
second 60, year 0). -/
theorem parse_stamp (t : Stamp) (h : t.Ok) :
    parseDatetime (.str t.text) = if t.moment.Valid then .ok (.dt t.moment) else .error .valueError := by
  have e : (if (search as2Tz t.text).isNone then TzFmt.z else if t.text.contains 'Z' then .zOffset else .offset) =
      zoneFmt t.zone := by
    rw [search_zone t h]
    cases hz : t.zone with
    | z => rfl
    | offset w n hh mm => rw [contains_z t h w n hh mm hz]; cases w <;> rfl
  have e2 : ((if t.second.isSome then 9 else 6) == 9) = t.second.isSome := by cases t.second <;> rfl
  have hf := first_all t h
  unfold First at hf
  unfold parseDatetime
  simp only [search_time t h, e, contains_dot t h, e2]
  unfold strptime
  cases hp : fmtAll t.second.isSome t.fraction.isSome (zoneFmt t.zone) t.text with
  | nil => rw [hp] at hf; cases hf
  | cons x xs =>
    rw [hp] at hf
    simp only [List.head?_cons, Option.some.injEq] at hf
    subst hf
    by_cases hv : t.moment.Valid <;> simp [hv]

/-! ### The texts the validator accepts -/

theorem char_digit {c : Char} {lo hi : Nat} (hlo : 48 ≤ lo) (hhi : hi ≤ 57) (h1 : lo ≤ c.toNat) (h2 : c.toNat ≤ hi) :
    ∃ d, lo ≤ d + 48 ∧ d + 48 ≤ hi ∧ c = Nat.digitChar d := by
  refine ⟨c.toNat - 48, by omega, by omega, ?_⟩
  have hc : c = Char.ofNat c.toNat := (Char.ofNat_toNat c).symm
  obtain ⟨n, hn⟩ : ∃ n, n = c.toNat := ⟨_, rfl⟩
  rw [← hn] at hc h1 h2 ⊢
  rw [hc]
  have h3 : 48 ≤ n := by omega
  have h4 : n ≤ 57 := by omega
  interval_cases n <;> rfl

theorem digit_of_isDigit {c : Char} (h : c.isDigit = true) : ∃ d, d < 10 ∧ c = Nat.digitChar d := by
  have h' : 48 ≤ c.toNat ∧ c.toNat ≤ 57 := by
    unfold Char.isDigit at h
    simp only [Bool.and_eq_true, decide_eq_true_eq, UInt32.le_iff_toNat_le, ge_iff_le] at h
    exact h
  obtain ⟨d, h1, h2, h3⟩ := char_digit (by omega) (by omega) h'.1 h'.2
  exact ⟨d, by omega, h3⟩

theorem mem_digit {s r : List Char} {c : Char} (h : (c, r) ∈ digit s) : ∃ d, d < 10 ∧ c = Nat.digitChar d ∧ s = c :: r := by
  unfold digit at h; rw [mem_chr] at h
  obtain ⟨d, h1, h2⟩ := digit_of_isDigit h.2
  exact ⟨d, h1, h2, h.1⟩

theorem mem_range {s r : List Char} {c lo hi : Char} (hlo : 48 ≤ lo.toNat) (hhi : hi.toNat ≤ 57)
    (h : (c, r) ∈ range lo hi s) : ∃ d, lo.toNat ≤ d + 48 ∧ d + 48 ≤ hi.toNat ∧ c = Nat.digitChar d ∧ s = c :: r := by
  unfold range at h; rw [mem_chr] at h
  simp only [Bool.and_eq_true, decide_eq_true_eq] at h
  obtain ⟨d, h1, h2, h3⟩ := char_digit hlo hhi h.2.1 h.2.2
  exact ⟨d, h1, h2, h3, h.1⟩

theorem mem_lit {s r : List Char} {c x : Char} (h : (c, r) ∈ lit x s) : s = x :: r ∧ c = x := by
  unfold lit at h; rw [mem_chr] at h
  have := beq_iff_eq.1 h.2
  exact ⟨by rw [← this]; exact h.1, this⟩

/-- A two-digit pattern reads a padded number. -/
theorem mem_num2 {p q : Pat Char} {P Q : Nat → Prop}
    (hp : ∀ s c r, (c, r) ∈ p s → ∃ d, d < 10 ∧ P d ∧ c = Nat.digitChar d ∧ s = c :: r)
    (hq : ∀ s c r, (c, r) ∈ q s → ∃ d, d < 10 ∧ Q d ∧ c = Nat.digitChar d ∧ s = c :: r)
    {s r : List Char} {n : Nat} (h : (n, r) ∈ num2 p q s) : s = pad2 n ++ r ∧ n < 100 ∧ P (n / 10) ∧ Q (n % 10) := by
  unfold num2 at h
  simp only [mem_bind, mem_pure] at h
  obtain ⟨a, r1, h1, b, r2, h2, rfl, rfl⟩ := h
  obtain ⟨d, hd, hP, rfl, rfl⟩ := hp _ _ _ h1
  obtain ⟨e, he, hQ, rfl, rfl⟩ := hq _ _ _ h2
  rw [dval_digitChar d hd, dval_digitChar e he]
  have e1 : (10 * d + e) / 10 = d := by omega
  have e2 : (10 * d + e) % 10 = e := by omega
  unfold pad2
  rw [e1, e2]
  exact ⟨rfl, by omega, hP, hQ⟩

theorem lit_digit (k : Nat) (hk : k < 10) (s : List Char) (c : Char) (r : List Char) (h : (c, r) ∈ lit (Nat.digitChar k) s) :
    ∃ d, d < 10 ∧ d = k ∧ c = Nat.digitChar d ∧ s = c :: r := by
  obtain ⟨h1, h2⟩ := mem_lit h
  exact ⟨k, hk, rfl, h2, by rw [h1, h2]⟩

theorem range_digit (lo hi : Nat) (hlo : lo < 10) (hhi : hi < 10) (s : List Char) (c : Char) (r : List Char)
    (h : (c, r) ∈ range (Nat.digitChar lo) (Nat.digitChar hi) s) :
    ∃ d, d < 10 ∧ (lo ≤ d ∧ d ≤ hi) ∧ c = Nat.digitChar d ∧ s = c :: r := by
  have e : ∀ k, k < 10 → (Nat.digitChar k).toNat = k + 48 := by intro k hk; interval_cases k <;> rfl
  obtain ⟨d, h1, h2, h3, h4⟩ := mem_range (by rw [e _ hlo]; omega) (by rw [e _ hhi]; omega) h
  rw [e _ hlo] at h1
  rw [e _ hhi] at h2
  exact ⟨d, by omega, by omega, h3, h4⟩

theorem any_digit (s : List Char) (c : Char) (r : List Char) (h : (c, r) ∈ digit s) :
    ∃ d, d < 10 ∧ True ∧ c = Nat.digitChar d ∧ s = c :: r := by
  obtain ⟨d, h1, h2, h3⟩ := mem_digit h
  exact ⟨d, h1, trivial, h2, h3⟩

theorem mem_reHour {s r : List Char} {n : Nat} (h : (n, r) ∈ reHour s) : s = pad2 n ++ r ∧ n < 24 := by
  unfold reHour at h
  rw [mem_alt, mem_alt] at h
  rcases h with h | h | h
  · obtain ⟨h1, h2, h3, h4⟩ := mem_num2 (lit_digit 0 (by omega)) any_digit h
    exact ⟨h1, by omega⟩
  · obtain ⟨h1, h2, h3, h4⟩ := mem_num2 (lit_digit 1 (by omega)) any_digit h
    exact ⟨h1, by omega⟩
  · obtain ⟨h1, h2, h3, h4⟩ := mem_num2 (lit_digit 2 (by omega)) (range_digit 0 3 (by omega) (by omega)) h
    exact ⟨h1, by omega⟩

theorem mem_reMinute {s r : List Char} {n : Nat} (h : (n, r) ∈ reMinute s) : s = pad2 n ++ r ∧ n < 60 := by
  obtain ⟨h1, h2, h3, h4⟩ := mem_num2 (range_digit 0 5 (by omega) (by omega)) any_digit h
  exact ⟨h1, by omega⟩

theorem mem_reSeconds {s r : List Char} {o : Option Nat} (h : (o, r) ∈ reSeconds s) :
    s = secondText o ++ r ∧ ∀ n, o = some n → n ≤ 60 := by
  unfold reSeconds at h
  rw [mem_opt] at h
  rcases h with ⟨n, rfl, h⟩ | ⟨rfl, rfl⟩
  · rw [mem_bind] at h
    obtain ⟨c, r', h1, h2⟩ := h
    obtain ⟨rfl, _⟩ := mem_lit h1
    rw [mem_alt] at h2
    rcases h2 with h2 | h2
    · obtain ⟨rfl, h3⟩ := mem_reMinute h2
      exact ⟨rfl, by rintro m ⟨⟩; omega⟩
    · obtain ⟨rfl, h3, h4, h5⟩ := mem_num2 (lit_digit 6 (by omega)) (lit_digit 0 (by omega)) h2
      exact ⟨rfl, by rintro m ⟨⟩; omega⟩
  · exact ⟨rfl, by rintro m ⟨⟩⟩

theorem mem_upTo : ∀ (n : Nat) {s r cs : List Char}, (cs, r) ∈ upTo digit n s →
    ∃ ds : List Nat, ds.length ≤ n ∧ (∀ d ∈ ds, d < 10) ∧ cs = ds.map Nat.digitChar ∧ s = cs ++ r
  | 0, s, r, cs, h => by
    unfold upTo at h; rw [mem_pure] at h
    exact ⟨[], by simp, by simp, h.1, by rw [h.1, h.2]; rfl⟩
  | n + 1, s, r, cs, h => by
    rw [upTo] at h
    simp only [List.mem_append, List.mem_flatMap, List.mem_map, Prod.exists, Prod.mk.injEq, List.mem_cons,
      List.not_mem_nil, or_false] at h
    rcases h with ⟨c, r1, h1, cs', r2, h2, rfl, rfl⟩ | ⟨rfl, rfl⟩
    · obtain ⟨d, hd, rfl, rfl⟩ := mem_digit h1
      obtain ⟨ds, g1, g2, g3, g4⟩ := mem_upTo n h2
      refine ⟨d :: ds, by simpa using g1, ?_, by rw [g3]; rfl, by rw [g4]; rfl⟩
      intro x hx
      rcases List.mem_cons.1 hx with rfl | hx
      · exact hd
      · exact g2 x hx
    · exact ⟨[], by simp, by simp, rfl, rfl⟩

theorem mem_reOffset {s r : List Char} {m : Nat} (h : (m, r) ∈ reOffset s) :
    ∃ w n hh mm, hh < 24 ∧ mm < 60 ∧ s = (StampZone.offset w n hh mm).text ++ r := by
  unfold reOffset at h
  simp only [mem_bind, mem_opt, mem_chr] at h
  obtain ⟨o, r1, hz, c, r2, ⟨rfl, hc⟩, hh, r3, h3, _, r4, h4, h5⟩ := h
  obtain ⟨rfl, b1⟩ := mem_reHour h3
  obtain ⟨rfl, _⟩ := mem_lit h4
  obtain ⟨rfl, b2⟩ := mem_reMinute h5
  have hc' : c = (if (c == '-') then '-' else '+') := by
    simp only [Bool.or_eq_true, beq_iff_eq] at hc
    rcases hc with rfl | rfl <;> rfl
  rcases hz with ⟨a, _, hz⟩ | ⟨_, hz⟩
  · obtain ⟨rfl, _⟩ := mem_lit hz
    refine ⟨true, c == '-', hh, m, b1, b2, ?_⟩
    simp only [StampZone.text]
    rw [← hc']; simp
  · refine ⟨false, c == '-', hh, m, b1, b2, ?_⟩
    simp only [StampZone.text]
    rw [← hc', ← hz]; simp

/-- Every match of the whole pattern is a text of the format (and perhaps a newline after it). -/
theorem mem_as2 {s r : List Char} {u : Unit} (h : (u, r) ∈ as2DateTime s) :
    ∃ t : Stamp, t.Ok ∧ s = t.text ++ r ∧ (r = [] ∨ r = ['\n']) := by
  unfold as2DateTime at h
  simp only [mem_bind] at h
  obtain ⟨c1, r1, h1, c2, r2, h2, c3, r3, h3, c4, r4, h4, _, r5, h5, mo, r6, h6, _, r7, h7, d, r8, h8, _, r9, h9,
    hh, r10, h10, _, r11, h11, mi, r12, h12, se, r13, h13, fr, r14, h14, zo, r15, h15, h16⟩ := h
  obtain ⟨y1, hy1, rfl, rfl⟩ := mem_digit h1
  obtain ⟨y2, hy2, rfl, rfl⟩ := mem_digit h2
  obtain ⟨y3, hy3, rfl, rfl⟩ := mem_digit h3
  obtain ⟨y4, hy4, rfl, rfl⟩ := mem_digit h4
  obtain ⟨rfl, _⟩ := mem_lit h5
  have hmo : r5 = pad2 mo ++ r6 ∧ 1 ≤ mo ∧ mo ≤ 12 := by
    rw [mem_alt] at h6
    rcases h6 with h | h
    · obtain ⟨a1, a2, a3, a4⟩ := mem_num2 (lit_digit 0 (by omega)) (range_digit 1 9 (by omega) (by omega)) h
      exact ⟨a1, by omega⟩
    · obtain ⟨a1, a2, a3, a4⟩ := mem_num2 (lit_digit 1 (by omega)) (range_digit 0 2 (by omega) (by omega)) h
      exact ⟨a1, by omega⟩
  obtain ⟨rfl, hmo⟩ := hmo
  obtain ⟨rfl, _⟩ := mem_lit h7
  have hd : r7 = pad2 d ++ r8 ∧ 1 ≤ d ∧ d ≤ 31 := by
    rw [mem_alt, mem_alt, mem_alt] at h8
    rcases h8 with h | h | h | h
    · obtain ⟨a1, a2, a3, a4⟩ := mem_num2 (lit_digit 0 (by omega)) (range_digit 1 9 (by omega) (by omega)) h
      exact ⟨a1, by omega⟩
    · obtain ⟨a1, a2, a3, a4⟩ := mem_num2 (lit_digit 1 (by omega)) any_digit h
      exact ⟨a1, by omega⟩
    · obtain ⟨a1, a2, a3, a4⟩ := mem_num2 (lit_digit 2 (by omega)) any_digit h
      exact ⟨a1, by omega⟩
    · obtain ⟨a1, a2, a3, a4⟩ := mem_num2 (lit_digit 3 (by omega)) (range_digit 0 1 (by omega) (by omega)) h
      exact ⟨a1, by omega⟩
  obtain ⟨rfl, hd⟩ := hd
  obtain ⟨rfl, _⟩ := mem_lit h9
  obtain ⟨rfl, hhh⟩ := mem_reHour h10
  obtain ⟨rfl, _⟩ := mem_lit h11
  obtain ⟨rfl, hmi⟩ := mem_reMinute h12
  obtain ⟨rfl, hse⟩ := mem_reSeconds h13
  have hfr : ∃ f : Option (List Nat), r13 = fractionText f ++ r14 ∧
      ∀ ds, f = some ds → 1 ≤ ds.length ∧ ds.length ≤ 6 ∧ ∀ d ∈ ds, d < 10 := by
    rw [mem_opt] at h14
    rcases h14 with ⟨cs, _, h⟩ | ⟨_, rfl⟩
    · simp only [mem_bind] at h
      obtain ⟨_, q1, g1, c, q2, g2, g3⟩ := h
      obtain ⟨rfl, _⟩ := mem_lit g1
      obtain ⟨k, hk, rfl, rfl⟩ := mem_digit g2
      obtain ⟨ds, b1, b2, rfl, rfl⟩ := mem_upTo 5 g3
      refine ⟨some (k :: ds), rfl, ?_⟩
      rintro _ ⟨⟩
      refine ⟨by simp, by simpa using b1, ?_⟩
      intro x hx
      rcases List.mem_cons.1 hx with rfl | hx
      · exact hk
      · exact b2 x hx
    · exact ⟨none, rfl, by rintro _ ⟨⟩⟩
  obtain ⟨f, rfl, hf⟩ := hfr
  have hzo : ∃ zo : StampZone, r14 = zo.text ++ r15 ∧ ∀ w n hh mm, zo = .offset w n hh mm → hh < 24 ∧ mm < 60 := by
    rw [mem_alt] at h15
    rcases h15 with h | h
    · rw [mem_bind] at h
      obtain ⟨_, q1, g1, g2⟩ := h
      rw [mem_pure] at g2
      obtain ⟨rfl, _⟩ := mem_lit g1
      exact ⟨.z, by rw [g2.2]; rfl, by rintro _ _ _ _ ⟨⟩⟩
    · obtain ⟨w, n, hh, mm, g1, g2, rfl⟩ := mem_reOffset h
      exact ⟨.offset w n hh mm, rfl, by rintro _ _ _ _ ⟨⟩; exact ⟨g1, g2⟩⟩
  obtain ⟨zz, rfl, hz⟩ := hzo
  rw [mem_eos] at h16
  obtain ⟨rfl, hnl⟩ := h16
  refine ⟨⟨1000 * y1 + 100 * y2 + 10 * y3 + y4, mo, d, hh, mi, se, f, zz⟩,
    ⟨by simp only; omega, hmo, hd, hhh, hmi, hse, hf, hz⟩, ?_, hnl⟩
  have e1 : (1000 * y1 + 100 * y2 + 10 * y3 + y4) / 1000 = y1 := by omega
  have e2 : (1000 * y1 + 100 * y2 + 10 * y3 + y4) / 100 % 10 = y2 := by omega
  have e3 : (1000 * y1 + 100 * y2 + 10 * y3 + y4) / 10 % 10 = y3 := by omega
  have e4 : (1000 * y1 + 100 * y2 + 10 * y3 + y4) % 10 = y4 := by omega
  simp only [Stamp.text, pad4, e1, e2, e3, e4]
  simp

theorem as2_month (n : Nat) (h : 1 ≤ n ∧ n ≤ 12) (r : List Char) :
    First ((num2 (lit '0') (range '1' '9')).alt (num2 (lit '1') (range '0' '2'))) (pad2 n ++ r) n r := by
  obtain ⟨h1, h2⟩ := h; interval_cases n <;> rfl

theorem as2_day (n : Nat) (h : 1 ≤ n ∧ n ≤ 31) (r : List Char) :
    First ((num2 (lit '0') (range '1' '9')).alt ((num2 (lit '1') digit).alt ((num2 (lit '2') digit).alt
    (num2 (lit '3') (range '0' '1'))))) (pad2 n ++ r) n r := by
  obtain ⟨h1, h2⟩ := h; interval_cases n <;> rfl

/-- Every text of the format is matched. -/
theorem as2_text (t : Stamp) (h : t.Ok) (nl : List Char) (hnl : nl = [] ∨ nl = ['\n']) :
    as2DateTime (t.text ++ nl) ≠ [] := by
  obtain ⟨hy, hmo, hd, hh, hmi, hs, hf, hz⟩ := h
  have key : ((), nl) ∈ as2DateTime (t.text ++ nl) := by
    have htext : t.text ++ nl = pad4 t.year ++ '-' :: (pad2 t.month ++ '-' :: (pad2 t.day ++ 'T' :: (pad2 t.hour ++ ':' ::
        (pad2 t.minute ++ (secondText t.second ++ (fractionText t.fraction ++ (t.zone.text ++ nl))))))) := by
      unfold Stamp.text; simp
    rw [htext]
    unfold as2DateTime pad4
    simp only [mem_bind]
    refine ⟨_, _, (first_digit _ (by omega) _).mem, _, _, (first_digit _ (by omega) _).mem, _, _,
      (first_digit _ (by omega) _).mem, _, _, (first_digit _ (by omega) _).mem, _, _, (First.lit '-' _).mem, _, _,
      (as2_month _ hmo _).mem, _, _, (First.lit '-' _).mem, _, _, (as2_day _ hd _).mem, _, _, (First.lit 'T' _).mem,
      _, _, (first_reHour _ hh _).mem, _, _, (First.lit ':' _).mem, _, _, (first_reMinute _ hmi _).mem, t.second,
      fractionText t.fraction ++ (t.zone.text ++ nl), ?_, t.fraction.map (fun ds => ds.tail.map Nat.digitChar),
      t.zone.text ++ nl, ?_, ?_⟩
    · unfold reSeconds
      rw [mem_opt]
      cases hsec : t.second with
      | none => exact .inr ⟨rfl, rfl⟩
      | some s =>
        refine .inl ⟨s, rfl, ?_⟩
        rw [mem_bind]
        exact ⟨_, _, (First.lit ':' _).mem, (first_re60 s (hs s hsec) _).mem⟩
    · rw [mem_opt]
      cases hfr : t.fraction with
      | none => exact .inr ⟨rfl, rfl⟩
      | some ds =>
        obtain ⟨g1, g2, g3⟩ := hf ds hfr
        cases ds with
        | nil => simp at g1
        | cons d ds =>
          refine .inl ⟨_, rfl, ?_⟩
          simp only [mem_bind]
          have hnd : NoDigit (t.zone.text ++ nl) := by
            unfold NoDigit
            cases t.zone with
            | z => rfl
            | offset w n hh mm => cases w <;> cases n <;> rfl
          exact ⟨_, _, (First.lit '.' _).mem, _, _, (first_digit d (g3 d (by simp)) _).mem,
            (first_upTo _ hnd 5 ds (by simpa using g2) (fun x hx => g3 x (by simp [hx]))).mem⟩
    · cases hzo : t.zone with
      | z =>
        refine ⟨0, nl, ?_, mem_eos.2 ⟨rfl, hnl⟩⟩
        rw [mem_alt]
        left
        rw [mem_bind]
        exact ⟨_, _, (First.lit 'Z' _).mem, mem_pure.2 ⟨rfl, rfl⟩⟩
      | offset w n hh mm =>
        obtain ⟨h1, h2⟩ := hz w n hh mm hzo
        refine ⟨mm, nl, ?_, mem_eos.2 ⟨rfl, hnl⟩⟩
        rw [mem_alt]
        right
        unfold reOffset
        simp only [mem_bind]
        refine ⟨if w then some 'Z' else none, (if n then '-' else '+') :: (pad2 hh ++ ':' :: (pad2 mm ++ nl)), ?_, _, _,
          (First.chr (c := if n then '-' else '+') (by cases n <;> rfl) _).mem, _, _, (first_reHour hh h1 _).mem, _, _,
          (First.lit ':' _).mem, (first_reMinute mm h2 _).mem⟩
        rw [mem_opt]
        cases w with
        | false => right; exact ⟨rfl, by simp [StampZone.text]⟩
        | true =>
          left
          refine ⟨'Z', rfl, ?_⟩
          have := (First.lit 'Z' ((if n then '-' else '+') :: (pad2 hh ++ ':' :: (pad2 mm ++ nl)))).mem
          simpa [StampZone.text] using this
  intro h0; rw [h0] at key; cases key

theorem search_suffix {α : Type} {p : Pat α} : ∀ s, (search p s).isSome → ∃ pre s', s = pre ++ s' ∧ p s' ≠ [] := by
  intro s h
  by_contra hn
  push Not at hn
  rw [search_none s hn] at h; cases h

/-- **C54.** Exactly the strings that end with a text of the ActivityStreams format (perhaps followed by
a newline) pass the validator; all others raise ValueError. -/
theorem validator_exact (s : List Char) :
    isActivityDatetime (.str s) = .ok () ↔
      ∃ pre t nl, Stamp.Ok t ∧ s = pre ++ t.text ++ nl ∧ (nl = [] ∨ nl = ['\n']) := by
  have h1 : isActivityDatetime (.str s) = .ok () ↔ (search as2DateTime s).isSome := by
    unfold isActivityDatetime
    cases h : search as2DateTime s <;> simp [h]
  rw [h1]
  constructor
  · intro h
    obtain ⟨pre, s', rfl, hne⟩ := search_suffix s h
    obtain ⟨⟨u, r⟩, hx⟩ := List.exists_mem_of_ne_nil _ hne
    obtain ⟨t, ht, rfl, hr⟩ := mem_as2 hx
    exact ⟨pre, t, r, ht, by simp, hr⟩
  · rintro ⟨pre, t, nl, ht, rfl, hnl⟩
    rw [List.append_assoc]
    exact search_append_isSome _ (as2_text t ht nl hnl) pre

theorem toDigits_four (y : Nat) (h1 : 1000 ≤ y) (h2 : y ≤ 9999) : Nat.toDigits 10 y = pad4 y := by
  unfold pad4
  rw [Nat.toDigits_of_base_le (by omega) (by omega), Nat.toDigits_of_base_le (by omega) (by omega),
    Nat.toDigits_of_base_le (by omega) (by omega), Nat.toDigits_of_lt_base (by omega)]
  have e1 : y / 10 / 10 / 10 = y / 1000 := by omega
  have e2 : y / 10 / 10 % 10 = y / 100 % 10 := by omega
  rw [e1, e2]; rfl

/-- The text `datetime_str` produces. -/
def stampOf (t : DateTime) : Stamp := ⟨t.year, t.month, t.day, t.hour, t.minute, some t.second, none, .z⟩

theorem datetimeStr_text (t : DateTime) (h1 : 1000 ≤ t.year) (h2 : t.year ≤ 9999) : datetimeStr t = (stampOf t).text := by
  unfold datetimeStr stampOf Stamp.text
  rw [toDigits_four _ h1 h2]
  simp [secondText, fractionText, StampZone.text]

theorem stampOf_ok (t : DateTime) (h : t.Valid) (_h1 : 1000 ≤ t.year) : (stampOf t).Ok := by
  obtain ⟨a1, a2, a3, a4, a5, a6, a7, a8, a9, _⟩ := h
  have hd : daysIn t.year t.month ≤ 31 := by unfold daysIn; split_ifs <;> omega
  refine ⟨by simp only [stampOf]; omega, ⟨a3, a4⟩, ⟨a5, by simp only [stampOf]; omega⟩, a7, a8, ?_, ?_, ?_⟩
  · rintro s ⟨⟩; omega
  · rintro _ ⟨⟩
  · rintro _ _ _ _ ⟨⟩

/-- **C54.** What `datetime_str` prints for any datetime with a four-digit year is accepted by the
validator. -/
theorem datetime_str_format (t : DateTime) (h : t.Valid) (h1 : 1000 ≤ t.year) :
    isActivityDatetime (.str (datetimeStr t)) = .ok () := by
  rw [validator_exact, datetimeStr_text t h1 h.2.1]
  exact ⟨[], stampOf t, [], stampOf_ok t h h1, by simp, .inl rfl⟩

/-- **C54.** Reading back what was printed gives the same datetime without its microseconds and zone. -/
theorem datetime_read_back (t : DateTime) (h : t.Valid) (h1 : 1000 ≤ t.year) :
    parseDatetime (.str (datetimeStr t)) = .ok (.dt { t with micro := 0, tz := none }) := by
  rw [datetimeStr_text t h1 h.2.1, parse_stamp _ (stampOf_ok t h h1)]
  have e : (stampOf t).moment = { t with micro := 0, tz := none } := rfl
  rw [e]
  have hv : DateTime.Valid { t with micro := 0, tz := none } := by
    obtain ⟨a1, a2, a3, a4, a5, a6, a7, a8, a9, _, _⟩ := h
    exact ⟨a1, a2, a3, a4, a5, a6, a7, a8, a9, by simp, by rintro _ ⟨⟩⟩
  rw [if_pos hv]

/-- **C54.** The round trip is exact for naive datetimes with whole seconds. -/
theorem datetime_round_trip (t : DateTime) (h : t.Valid) (h1 : 1000 ≤ t.year) (hm : t.micro = 0) (hz : t.tz = none) :
    parseDatetime (.str (datetimeStr t)) = .ok (.dt t) := by
  rw [datetime_read_back t h h1]
  cases t; simp_all

/-- Non-vacuity: a leap day. -/
example : DateTime.Valid ⟨2024, 2, 29, 23, 59, 59, 0, none⟩ ∧
    String.ofList (datetimeStr ⟨2024, 2, 29, 23, 59, 59, 0, none⟩) = "2024-02-29T23:59:59Z" := by decide +kernel

/-- Non-vacuity: a text with fraction and offset. -/
example : Stamp.Ok ⟨2024, 2, 29, 23, 59, some 5, some [1, 2], .offset true true 5 30⟩ ∧
    String.ofList (Stamp.text ⟨2024, 2, 29, 23, 59, some 5, some [1, 2], .offset true true 5 30⟩) =
      "2024-02-29T23:59:05.12Z-05:30" :=
  ⟨⟨by decide, by decide, by decide, by decide, by decide, by rintro _ ⟨⟩; decide, by rintro _ ⟨⟩; decide,
    by rintro _ _ _ _ ⟨⟩; decide⟩, by decide +kernel⟩

/-- **C54 (limit).** An aware datetime does not survive: its zone is lost and the time is not
converted, so another moment is read back. -/
theorem datetime_aware_counterexample (t : DateTime) (h : t.Valid) (h1 : 1000 ≤ t.year) (o : Int) (ho : t.tz = some o) :
    parseDatetime (.str (datetimeStr t)) ≠ .ok (.dt t) := by
  rw [datetime_read_back t h h1]
  intro hh
  injection hh with hh
  injection hh with hh
  have := congrArg DateTime.tz hh
  rw [ho] at this
  cases this

/-- **C54 (limit).** A leap second passes the validator but cannot be read. -/
theorem leap_second_counterexample :
    isActivityDatetime (.str "2016-12-31T23:59:60Z".toList) = .ok () ∧
    parseDatetime (.str "2016-12-31T23:59:60Z".toList) = .error .valueError := by decide +kernel

/-- **C54 (limit).** A year below 1000 is printed without padding, which the validator rejects. -/
theorem early_year_counterexample :
    isActivityDatetime (.str (datetimeStr ⟨999, 1, 1, 0, 0, 0, 0, none⟩)) = .error .valueError := by decide +kernel

end Verif.Props
