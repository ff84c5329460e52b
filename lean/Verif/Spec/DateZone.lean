import Verif.Model.DateZone
import Verif.Spec.DateTime
import Verif.Spec.DateTimeWin

/-!
# Time zones with daylight saving time

A zone has a standard distance from UTC and a further one that applies at some times, which times is arbitrary.  What the C
standard says about `localtime`, `gmtime` and `mktime` in such a zone, and what Windows documents about its functions.
-/
set_option autoImplicit false
namespace Vlpp
namespace Spec
open Dates (Tm DateTime SystemTime FileTime WinLibrary)

/-- `summer t`: daylight saving time is in effect `t` seconds after 1970-01-01 00:00:00 UTC.  Distances are in seconds. -/
structure Zone where
  standard : Int
  saving : Int
  summer : Int → Bool

/-- the distance of the time of the zone from UTC -/
def Zone.offset (z : Zone) (t : Int) : Int := z.standard + if z.summer t then z.saving else 0

/-- what clocks in the zone show, as the number of seconds after 1970-01-01 00:00:00 on these clocks -/
def Zone.clock (z : Zone) (t : Int) : Int := t + z.offset t

/-- a date-time that shows the date, the day of the week and the time that clocks show `b` seconds after they showed
1970-01-01 00:00:00, and the milliseconds -/
def Displays (d : DateTime) (b : Int) (milliseconds : Int) : Prop :=
  (d.year, d.month, d.day) = dateOf (b / 86400) ∧ d.dayOfWeek = (b / 86400 + 4) % 7 ∧
  d.hour * 3600 + d.minute * 60 + d.second = b % 86400 ∧ (0 ≤ d.minute ∧ d.minute < 60) ∧ (0 ≤ d.second ∧ d.second < 60) ∧
  d.milliseconds = milliseconds

/-- The C library in a zone.  `tm_isdst` decides what `mktime` takes the members for; if it is negative, `mktime` finds a time at which
clocks show the members, if there is one.  `mktime` then stores the members of the time that it returns. -/
structure FollowsC (z : Zone) (lib : DateZone.Library) : Prop where
  localtime : ∀ t, lib.localtime t = ⟨breakDown (z.clock t), if z.summer t then 1 else 0⟩
  gmtime : ∀ t, lib.gmtime t = ⟨breakDown t, 0⟩
  standard : ∀ tm, (lib.mktime ⟨tm, 0⟩).1 = buildUp tm - z.standard
  summer : ∀ tm, (lib.mktime ⟨tm, 1⟩).1 = buildUp tm - (z.standard + z.saving)
  unknown : ∀ tm, (∃ t, z.clock t = buildUp tm) → z.clock (lib.mktime ⟨tm, -1⟩).1 = buildUp tm
  members : ∀ tm, (lib.mktime tm).2 = lib.localtime (lib.mktime tm).1

/-- Windows in a zone: `SystemTimeToTzSpecificLocalTime` adds the distance; `TzSpecificLocalTimeToSystemTime` finds a time at which
clocks show the given time, if there is one.  Seconds are counted from 1970, intervals from 1601. -/
structure FollowsWin (z : Zone) (lib : WinLibrary) : Prop where
  toSystem : ∀ f, lib.fileTimeToSystemTime f = (windows 0).fileTimeToSystemTime f
  toFile : ∀ s, lib.systemTimeToFileTime s = (windows 0).systemTimeToFileTime s
  toLocal : ∀ s, OnWindows (momentOf s) →
    lib.systemToLocal s = (windows (z.offset (momentOf s).seconds)).systemToLocal s
  toUtc : ∀ s, OnWindows (momentOf s) → (∃ t, z.clock t = (momentOf s).seconds ∧
      0 ≤ t + 11644473600 ∧ (t + 11644473600) * 10000000 < windowsEnd) →
    ∃ t, z.clock t = (momentOf s).seconds ∧ 0 ≤ t + 11644473600 ∧ (t + 11644473600) * 10000000 < windowsEnd ∧
      lib.localToSystem s = some (systemTimeOf ((t + 11644473600) * 10000000 + (momentOf s).milliseconds * 10000))

/-- the seconds after 1970 of a number of intervals -/
def secondsOf (now : Nat) : Int := (now : Int) / 10000000 - 11644473600

/-- what Windows says when its clock is at `now` intervals: the file time, and the local time in milliseconds -/
structure ShowsNow (z : Zone) (now : Nat) (c : DateZone.WinClock) : Prop where
  file : c.getSystemTimeAsFileTime = fileTimeOf now
  here : c.getLocalTime = systemTimeOf (now + z.offset (secondsOf now) * 10000000)

end Spec
end Vlpp
