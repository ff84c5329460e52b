import Verif.Model.DateTime

/-!
# Calendar

The Gregorian calendar, for a C library with a fixed distance between local time and UTC.
-/
set_option autoImplicit false
namespace Vlpp
namespace Spec
open Dates (Tm Library)

def leap (y : Int) : Bool := y % 4 = 0 && (y % 100 ≠ 0 || y % 400 = 0)

/-- the number of days of a month, from 1 to 12 -/
def daysInMonth (y m : Int) : Int :=
  if m = 2 then (if leap y then 29 else 28) else if m = 4 ∨ m = 6 ∨ m = 9 ∨ m = 11 then 30 else 31

/-- a moment: date, time and milliseconds -/
structure Moment where
  year : Int
  month : Int
  day : Int
  hour : Int
  minute : Int
  second : Int
  milliseconds : Int
  deriving DecidableEq, Repr

/-- it exists -/
structure Moment.Valid (m : Moment) : Prop where
  month : 1 ≤ m.month ∧ m.month ≤ 12
  day : 1 ≤ m.day ∧ m.day ≤ daysInMonth m.year m.month
  hour : 0 ≤ m.hour ∧ m.hour < 24
  minute : 0 ≤ m.minute ∧ m.minute < 60
  second : 0 ≤ m.second ∧ m.second < 60
  milliseconds : 0 ≤ m.milliseconds ∧ m.milliseconds < 1000

/-- one is before the other: the first component that differs decides -/
def Moment.Before (a b : Moment) : Prop :=
  a.year < b.year ∨ a.year = b.year ∧ (a.month < b.month ∨ a.month = b.month ∧ (a.day < b.day ∨ a.day = b.day ∧
    (a.hour < b.hour ∨ a.hour = b.hour ∧ (a.minute < b.minute ∨ a.minute = b.minute ∧ (a.second < b.second ∨ a.second = b.second ∧
      a.milliseconds < b.milliseconds)))))

/-- days since 1970-01-01; months from 1 to 12 -/
def daysOf (year month day : Int) : Int :=
  let y := if month ≤ 2 then year - 1 else year
  let mp := if month ≤ 2 then month + 9 else month - 3
  365 * y + y / 4 - y / 100 + y / 400 + (153 * mp + 2) / 5 + (day - 1) - 719468

/-- the date of a day: cycles of 400, 100 and 4 years, and years; years begin in March -/
def dateOf (days : Int) : Int × Int × Int :=
  let z := days + 719468
  let n400 := z / 146097
  let r := z % 146097
  let n100 := if r / 36524 = 4 then 3 else r / 36524
  let r := r - 36524 * n100
  let n4 := r / 1461
  let r := r % 1461
  let n1 := if r / 365 = 4 then 3 else r / 365
  let doy := r - 365 * n1
  let y := 400 * n400 + 100 * n100 + 4 * n4 + n1
  let mp := (5 * doy + 2) / 153
  let d := doy - (153 * mp + 2) / 5 + 1
  if mp < 10 then (y, mp + 3, d) else (y + 1, mp - 9, d)

/-- broken-down time without a distance -/
def breakDown (t : Int) : Tm :=
  let days := t / 86400
  let s := t % 86400
  let (y, m, d) := dateOf days
  ⟨y - 1900, m - 1, d, (days + 4) % 7, s / 3600, s / 60 % 60, s % 60⟩

/-- seconds since 1970-01-01 00:00:00; members need not be in their ranges -/
def buildUp (tm : Tm) : Int :=
  (daysOf (tm.year + 1900 + tm.mon / 12) (tm.mon % 12 + 1) 1 + (tm.mday - 1)) * 86400 + tm.hour * 3600 + tm.min * 60 + tm.sec

/-- seconds of a moment since 1970-01-01 00:00:00, in the time of the moment -/
def Moment.seconds (m : Moment) : Int := daysOf m.year m.month m.day * 86400 + m.hour * 3600 + m.minute * 60 + m.second

/-- A library for a place whose time differs from UTC by `offset` seconds all year. -/
def fixedOffset (offset : Int) : Library where
  localtime t := breakDown (t + offset)
  gmtime := breakDown
  mktime tm := (buildUp tm - offset, breakDown (buildUp tm))

/-- what a library has to satisfy: `mktime` is the inverse of `localtime`, for all times that `vuint64_t` milliseconds can express -/
def Consistent (lib : Library) : Prop :=
  ∀ t, 0 ≤ t → t ≤ 18446744073709551 → lib.mktime (lib.localtime t) = (t, lib.localtime t)

end Spec
end Vlpp
