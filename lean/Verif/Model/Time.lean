import Verif.Py.Text
/-
Model of the time columns: date parsing, start time, experiment time, clock offset.
A `datetime` is the number of seconds since day 0; a `timedelta` is a number of milliseconds where fractions occur.
-/
namespace Ledsa

/-- A calendar date. -/
structure Date where
  y : Nat
  m : Nat
  d : Nat
deriving DecidableEq, Repr

/-- Leap years (`datetime._is_leap`). -/
def isLeap (y : Nat) : Bool := y % 4 == 0 && (y % 100 != 0 || y % 400 == 0)

/-- Days of a month (`datetime._days_in_month`). -/
def daysInMonth (y m : Nat) : Nat :=
  if m = 2 then (if isLeap y then 29 else 28)
  else if m = 4 ∨ m = 6 ∨ m = 9 ∨ m = 11 then 30 else 31

/-- Dates accepted by the `datetime` constructor. -/
def Date.Valid (x : Date) : Prop :=
  1 ≤ x.y ∧ x.y ≤ 9999 ∧ 1 ≤ x.m ∧ x.m ≤ 12 ∧ 1 ≤ x.d ∧ x.d ≤ daysInMonth x.y x.m

instance (x : Date) : Decidable x.Valid := by unfold Date.Valid; infer_instance

/-- `datetime._days_before_year`. -/
def daysBeforeYear (y : Nat) : Nat := (y - 1) * 365 + (y - 1) / 4 - (y - 1) / 100 + (y - 1) / 400

/-- `datetime._days_before_month`: days of the months `1 .. m-1`. -/
def daysBeforeMonth (y : Nat) : Nat → Nat
  | 0 => 0
  | 1 => 0
  | m + 2 => daysBeforeMonth y (m + 1) + daysInMonth y (m + 1)

/-- `date.toordinal()`. -/
def Date.ordinal (x : Date) : Nat := daysBeforeYear x.y + daysBeforeMonth x.y x.m + x.d

/-- A digit field of `strptime` with between `lo` and `hi` digits. -/
def strpField (lo hi : Nat) (s : Str) : Option Nat :=
  if lo ≤ s.length ∧ s.length ≤ hi then parseNat s else none

/-- The checked construction of a datetime from its fields; value in seconds. -/
def mkDateTime (y m d : Str) (time : Str) : Except PyErr Int :=
  match strpField 4 4 y, strpField 1 2 m, strpField 1 2 d, (splitChar ':' time).map (strpField 1 2) with
  | some y, some m, some d, [some hh, some mm, some ss] =>
    if Date.Valid ⟨y, m, d⟩ ∧ hh < 24 ∧ mm < 60 ∧ ss < 60 then
      .ok ((((Date.ordinal ⟨y, m, d⟩) * 86400 + hh * 3600 + mm * 60 + ss : Nat)) : Int)
    else .error .valueError
  | _, _, _, _ => .error .valueError

/-- `_get_datetime_from_str`, /repo/ledsa/core/ConfigData.py 426-445 and (identically)
/repo/ledsa/data_extraction/init_functions.py 130-145: a `:` in the date selects `%Y:%m:%d`, else `%d.%m.%Y`. -/
def getDatetimeFromStr (date time : Str) : Except PyErr Int :=
  if ':' ∈ date then
    match splitChar ':' date with
    | [y, m, d] => mkDateTime y m d time
    | _ => .error .valueError
  else
    match splitChar '.' date with
    | [d, m, y] => mkDateTime y m d time
    | _ => .error .valueError

/-- Seconds per day. -/
def daySec : Int := 86400

/-- `get_start_time`, /repo/ledsa/core/ConfigData.py 410-423: EXIF time of the first image minus the integer clock
offset, of which only `%H:%M:%S` is stored: the second of the day. -/
def startTimeOfDay (exifFirst offset : Int) : Int := (exifFirst - offset) % daySec

/-- `get_datetime`, /repo/ledsa/core/ConfigData.py 223-240: the configured `date` (day number) with the start time of
day. -/
def startDatetime (dateDay sod : Int) : Int := dateDay * daySec + sod

/-- `experiment_time` in `_calc_experiment_and_real_time`,
/repo/ledsa/data_extraction/init_functions.py 120-121. -/
def experimentTime (exif dateDay sod : Int) : Int := exif - startDatetime dateDay sod

/-- Real time in milliseconds, /repo/ledsa/data_extraction/init_functions.py 122-125: EXIF seconds minus
`timedelta(seconds=int(a), milliseconds=int(b))` for the offset text `a.b` split at dots. -/
def offsetMillis (s : Str) : Except PyErr Int :=
  match splitChar '.' s with
  | [a] => match pyInt a with
    | .ok x => .ok (1000 * x)
    | .error e => .error e
  | a :: b :: _ => match pyInt a, pyInt b with
    | .ok x, .ok y => .ok (1000 * x + y)
    | .error e, _ => .error e
    | _, .error e => .error e
  | [] => .error .indexError

/-- The real time of an image in milliseconds. -/
def realTimeMillis (exif : Int) (offset : Str) : Except PyErr Int :=
  match offsetMillis offset with
  | .ok o => .ok (1000 * exif - o)
  | .error e => .error e

end Ledsa
