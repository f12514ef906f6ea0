import Verif.Jsonld.Pattern

/-!
# Model of jsonld/tools/datetime.py

Strings are lists of (ASCII) characters.
-/
namespace Verif.Jsonld

/-! ### Durations -/

/-- A `datetime.timedelta`: Python normalises it to 0 ≤ seconds < 86400, 0 ≤ microseconds < 10^6.
(argument of jsonld/tools/datetime.py:46) -/
structure TimeDelta where
  days : Int
  seconds : Nat
  micros : Nat := 0
  deriving DecidableEq

/-- Text of an int, as in f'{years}'. (jsonld/tools/datetime.py:46-68) -/
def intText (i : Int) : List Char :=
  if i < 0 then '-' :: Nat.toDigits 10 i.natAbs else Nat.toDigits 10 i.natAbs

/-- jsonld/tools/datetime.py:59-65: `f'{n}U' if n else ''` -/
def part (n : Int) (u : Char) : List Char := if n = 0 then [] else intText n ++ [u]

/-- jsonld/tools/datetime.py:46-68 `timedelta_str` (also jsonld/engine/utils.py:64-86) -/
def timedeltaStr (t : TimeDelta) : List Char :=
  let years := t.days / 365
  let months := (t.days % 365) / 30
  let days := (t.days % 365) % 30
  let hours : Int := t.seconds / 3600
  let minutes : Int := (t.seconds % 3600) / 60
  let seconds : Int := (t.seconds % 3600) % 60
  let ymd := 'P' :: (part years 'Y' ++ part months 'M' ++ part days 'D')
  let hms := 'T' :: (part hours 'H' ++ part minutes 'M' ++ part seconds 'S')
  ymd ++ (if hms.length > 1 then hms else [])

/-! ### Timestamps -/

/-- A `datetime.datetime`; `tz` is the offset from UTC in minutes, none for naive ones. (argument of jsonld/tools/datetime.py:71) -/
structure DateTime where
  year : Nat
  month : Nat
  day : Nat
  hour : Nat
  minute : Nat
  second : Nat := 0
  micro : Nat := 0
  tz : Option Int := none
  deriving DecidableEq

/-- Two digits (`%m`, `%d`, `%H`, `%M`, `%S` of strftime). (strftime in jsonld/tools/datetime.py:71-78) -/
def pad2 (n : Nat) : List Char := [Nat.digitChar (n / 10), Nat.digitChar (n % 10)]

/-- jsonld/tools/datetime.py:71-79 `datetime_str`: `strftime('%Y-%m-%dT%H:%M:%SZ')`; `%Y` is the plain decimal
number (glibc). -/
def datetimeStr (t : DateTime) : List Char :=
  Nat.toDigits 10 t.year ++ '-' :: (pad2 t.month ++ '-' :: (pad2 t.day ++ 'T' :: (pad2 t.hour ++
    ':' :: (pad2 t.minute ++ ':' :: (pad2 t.second ++ ['Z'])))))

open Pat

/-- `(0\d|1\d|2[0123])` (jsonld/tools/datetime.py:5-19) -/
def reHour : Pat Nat := (num2 (lit '0') digit).alt ((num2 (lit '1') digit).alt (num2 (lit '2') (range '0' '3')))

/-- `[012345]\d` (jsonld/tools/datetime.py:5-19) -/
def reMinute : Pat Nat := num2 (range '0' '5') digit

/-- `(:([012345]\d|60))?` (jsonld/tools/datetime.py:5-19) -/
def reSeconds : Pat (Option Nat) :=
  opt ((lit ':').bind fun _ => reMinute.alt (num2 (lit '6') (lit '0')))

/-- `[\.\-+Z]` (jsonld/tools/datetime.py:5-19) -/
def reStop : Pat Char := chr fun c => c == '.' || c == '-' || c == '+' || c == 'Z'

/-- jsonld/tools/datetime.py:5-6 `AS2_TIME` -/
def as2Time : Pat Char :=
  reHour.bind fun _ => (lit ':').bind fun _ => reMinute.bind fun _ => reSeconds.bind fun _ => reStop

/-- `Z?[\-+](0\d|1\d|2[0123]):[012345]\d` (jsonld/tools/datetime.py:5-19) -/
def reOffset : Pat Nat :=
  (opt (lit 'Z')).bind fun _ => (chr fun c => c == '-' || c == '+').bind fun _ =>
    reHour.bind fun _ => (lit ':').bind fun _ => reMinute

/-- jsonld/tools/datetime.py:7 `AS2_TZ` -/
def as2Tz : Pat Unit := reOffset.bind fun _ => eos

/-- jsonld/tools/datetime.py:9-19 `AS2_DATE_TIME` -/
def as2DateTime : Pat Unit :=
  digit.bind fun _ => digit.bind fun _ => digit.bind fun _ => digit.bind fun _ => (lit '-').bind fun _ =>
  ((num2 (lit '0') (range '1' '9')).alt (num2 (lit '1') (range '0' '2'))).bind fun _ => (lit '-').bind fun _ =>
  ((num2 (lit '0') (range '1' '9')).alt ((num2 (lit '1') digit).alt ((num2 (lit '2') digit).alt
    (num2 (lit '3') (range '0' '1'))))).bind fun _ =>
  (lit 'T').bind fun _ => reHour.bind fun _ => (lit ':').bind fun _ => reMinute.bind fun _ => reSeconds.bind fun _ =>
  (opt ((lit '.').bind fun _ => digit.bind fun _ => upTo digit 5)).bind fun _ =>
  (((lit 'Z').bind fun _ => pure 0).alt reOffset).bind fun _ => eos

/-- What a setter may be given. (argument of jsonld/tools/datetime.py:22, 33) -/
inductive DateArg where
  | none
  | dt (t : DateTime)
  | str (s : List Char)
  deriving DecidableEq

/-- jsonld/tools/datetime.py:22-30 `is_activity_datetime` -/
def isActivityDatetime : DateArg → Outcome Unit
  | .none => .ok ()
  | .dt _ => .ok ()
  | .str s => match search as2DateTime s with
    | none => .error .valueError
    | some _ => .ok ()

/-- The end of the format string (jsonld/tools/datetime.py:41-42). -/
inductive TzFmt where
  | z | zOffset | offset
  deriving DecidableEq

/-- A literal of a `strptime` format (matched ignoring case). (library `datetime`, used by jsonld/tools/datetime.py:33-43) -/
def litI (c : Char) : Pat Char := chr fun x => x.toLower == c.toLower

/-- `%z` of `strptime`: `[+-]\d\d:?[0-5]\d` or `Z` (offsets with seconds are not modelled).
(library `datetime`, used by jsonld/tools/datetime.py:33-43) -/
def fmtOffset : Pat Int :=
  ((chr fun c => c == '-' || c == '+').bind fun sg => (num2 digit digit).bind fun h => (opt (lit ':')).bind fun _ =>
    (num2 (range '0' '5') digit).bind fun m =>
      pure (if sg = '-' then -((60 * h + m : Nat) : Int) else ((60 * h + m : Nat) : Int))).alt
  ((lit 'Z').bind fun _ => pure 0)

/-- `%f` of `strptime`: `[0-9]{1,6}`, in microseconds. (library `datetime`, used by jsonld/tools/datetime.py:33-43) -/
def fmtFraction : Pat Nat :=
  digit.bind fun d => (upTo digit 5).bind fun ds =>
    pure ((d :: ds).foldl (fun n c => 10 * n + dval c) 0 * 10 ^ (6 - (d :: ds).length))

/-- `%S` of `strptime` (library `datetime`, used by jsonld/tools/datetime.py:33-43) -/
def fmtSecond : Pat Nat :=
  (num2 (lit '6') (range '0' '1')).alt ((num2 (range '0' '5') digit).alt (num1 digit))

/-- `%m` of `strptime` (library `datetime`, used by jsonld/tools/datetime.py:33-43) -/
def fmtMonth : Pat Nat :=
  (num2 (lit '1') (range '0' '2')).alt ((num2 (lit '0') (range '1' '9')).alt (num1 (range '1' '9')))

/-- `%d` of `strptime` (library `datetime`, used by jsonld/tools/datetime.py:33-43) -/
def fmtDay : Pat Nat :=
  (num2 (lit '3') (range '0' '1')).alt ((num2 (range '1' '2') digit).alt ((num2 (lit '0') (range '1' '9')).alt
    ((num1 (range '1' '9')).alt ((lit ' ').bind fun _ => num1 (range '1' '9')))))

/-- `%H` of `strptime` (library `datetime`, used by jsonld/tools/datetime.py:33-43) -/
def fmtHour : Pat Nat :=
  (num2 (lit '2') (range '0' '3')).alt ((num2 (range '0' '1') digit).alt (num1 digit))

/-- `%M` of `strptime` (library `datetime`, used by jsonld/tools/datetime.py:33-43) -/
def fmtMinute : Pat Nat := (num2 (range '0' '5') digit).alt (num1 digit)

/-- `%Y` of `strptime` (library `datetime`, used by jsonld/tools/datetime.py:33-43) -/
def fmtYear : Pat Nat :=
  digit.bind fun a => digit.bind fun b => digit.bind fun c => digit.bind fun d =>
    pure (1000 * dval a + 100 * dval b + 10 * dval c + dval d)

/-- The format `%Y-%m-%dT%H:%M[:%S][.%f](Z|Z%z|%z)` put together in jsonld/tools/datetime.py:36-42. -/
def fmtAll (seconds fraction : Bool) (tz : TzFmt) : Pat DateTime :=
  fmtYear.bind fun y => (litI '-').bind fun _ => fmtMonth.bind fun mo => (litI '-').bind fun _ => fmtDay.bind fun d =>
  (litI 'T').bind fun _ => fmtHour.bind fun h => (litI ':').bind fun _ => fmtMinute.bind fun mi =>
  (if seconds then (litI ':').bind fun _ => fmtSecond else pure 0).bind fun s =>
  (if fraction then (litI '.').bind fun _ => fmtFraction else pure 0).bind fun f =>
  (match tz with
    | .z => (litI 'Z').bind fun _ => pure none
    | .zOffset => (litI 'Z').bind fun _ => fmtOffset.bind fun o => pure (some o)
    | .offset => fmtOffset.bind fun o => pure (some o)).bind fun z =>
  pure ⟨y, mo, d, h, mi, s, f, z⟩

/-- Days of a month (Gregorian calendar). (library `datetime`, used by jsonld/tools/datetime.py:33-43) -/
def daysIn (y m : Nat) : Nat :=
  if m = 2 then (if y % 4 = 0 ∧ (y % 100 ≠ 0 ∨ y % 400 = 0) then 29 else 28)
  else if m = 4 ∨ m = 6 ∨ m = 9 ∨ m = 11 then 30 else 31

/-- The values a `datetime` can have (Python raises ValueError for others). (library `datetime`, used by jsonld/tools/datetime.py:33-43) -/
def DateTime.Valid (t : DateTime) : Prop :=
  1 ≤ t.year ∧ t.year ≤ 9999 ∧ 1 ≤ t.month ∧ t.month ≤ 12 ∧ 1 ≤ t.day ∧ t.day ≤ daysIn t.year t.month ∧
  t.hour < 24 ∧ t.minute < 60 ∧ t.second < 60 ∧ t.micro < 1000000 ∧
  ∀ o, t.tz = some o → -1440 < o ∧ o < 1440

instance (t : DateTime) : Decidable t.Valid := by
  unfold DateTime.Valid
  have : Decidable (∀ o, t.tz = some o → -1440 < o ∧ o < 1440) := by
    cases h : t.tz with
    | none => exact .isTrue (by simp)
    | some o =>
      by_cases h2 : -1440 < o ∧ o < 1440
      · exact .isTrue (by intro x hx; injection hx with hx; subst hx; exact h2)
      · exact .isFalse (fun hh => h2 (hh o rfl))
  infer_instance

/-- `datetime.strptime(val, fmt)` with that format: the first match must use up the whole
string and give a possible date. (library `datetime`, used by jsonld/tools/datetime.py:33-43) -/
def strptime (seconds fraction : Bool) (tz : TzFmt) (s : List Char) : Outcome DateTime :=
  match fmtAll seconds fraction tz s with
  | [] => .error .valueError
  | (t, r) :: _ => if r ≠ [] then .error .valueError else if t.Valid then .ok t else .error .valueError

/-- jsonld/tools/datetime.py:33-43 `parse_activitystream_datetime`; `val_time.span()` of no match raises
AttributeError. -/
def parseDatetime : DateArg → Outcome DateArg
  | .none => .ok .none
  | .dt t => .ok (.dt t)
  | .str s =>
    match search as2Time s with
    | none => .error .attributeError
    | some len =>
      match strptime (len == 9) (s.contains '.')
          (if (search as2Tz s).isNone then .z else if s.contains 'Z' then .zOffset else .offset) s with
      | .error e => .error e
      | .ok t => .ok (.dt t)

end Verif.Jsonld
