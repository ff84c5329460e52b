import Verif.Model.DateTimeWin
import Verif.Spec.DateTime

/-!
# Windows

What the documentation of Windows says about the functions: a file time is a number of intervals of 100 nanoseconds since 1601-01-01,
`FileTimeToSystemTime` fails from 2^63 on, `SystemTimeToFileTime` fails for times that do not exist and outside of the years 1601 to
30827.  The time zone has a fixed distance from UTC.
-/
set_option autoImplicit false
namespace Vlpp
namespace Spec
open Dates (SystemTime FileTime WinLibrary)

/-- the moment that is in a system time -/
def momentOf (s : SystemTime) : Moment := ⟨s.year, s.month, s.day, s.hour, s.minute, s.second, s.milliseconds⟩

/-- the time exists and is in the range of Windows -/
def OnWindows (m : Moment) : Prop := m.Valid ∧ 1601 ≤ m.year ∧ m.year ≤ 30827

/-- intervals of 100 nanoseconds since 1601-01-01 -/
def intervals (m : Moment) : Int := (m.seconds + 11644473600) * 10000000 + m.milliseconds * 10000

/-- the system time of a number of intervals -/
def systemTimeOf (x : Int) : SystemTime :=
  let tm := breakDown (x / 10000000 - 11644473600)
  ⟨tm.year + 1900, tm.mon + 1, tm.wday, tm.mday, tm.hour, tm.min, tm.sec, x / 10000 % 1000⟩

/-- a number of 64 bits -/
def fileTimeOf (x : Int) : FileTime := ⟨(x / 4294967296).toNat, (x % 4294967296).toNat⟩

def valueOf (f : FileTime) : Int := f.high * 4294967296 + f.low

/-- what `FileTimeToSystemTime` accepts: less than 2^63 -/
def InFileTime (x : Int) : Prop := 0 ≤ x ∧ x < 9223372036854775808

open Classical in
/-- Windows, at a place whose time differs from UTC by `offset` seconds all year -/
noncomputable def windows (offset : Int) : WinLibrary where
  fileTimeToSystemTime f := if InFileTime (valueOf f) then some (systemTimeOf (valueOf f)) else none
  systemTimeToFileTime s := if OnWindows (momentOf s) then some (fileTimeOf (intervals (momentOf s))) else none
  localToSystem s :=
    if OnWindows (momentOf s) ∧ InFileTime (intervals (momentOf s) - offset * 10000000)
    then some (systemTimeOf (intervals (momentOf s) - offset * 10000000)) else none
  systemToLocal s :=
    if OnWindows (momentOf s) ∧ InFileTime (intervals (momentOf s) + offset * 10000000)
    then some (systemTimeOf (intervals (momentOf s) + offset * 10000000)) else none

/-- the first moment that Windows cannot represent is 30828-01-01 -/
def windowsEnd : Int := 9223149888000000000

end Spec
end Vlpp
