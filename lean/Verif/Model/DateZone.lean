import Verif.Model.DateTime
import Verif.Model.DateTimeWin

/-!
# Model of `DateTime` with clocks and daylight saving time

Source/Primitives/DateTime.Linux.cpp, DateTime.Windows.cpp, DateTime.cpp.  In difference to Model/DateTime.lean, `tm` has its member
`tm_isdst`, and the functions that read the clock are here.  The functions of the C library and of Windows are parameters.
-/
set_option autoImplicit false
namespace Vlpp
namespace DateZone
open Dates (Tm DateTime wrap timeToOSInternal osInternalToTime)

/-- `tm` with `tm_isdst` (negative: not known) -/
structure TmZ where
  tm : Tm
  isdst : Int
  deriving DecidableEq, Repr

/-- `mktime` changes its argument. -/
structure Library where
  localtime : Int → TmZ
  gmtime : Int → TmZ
  mktime : TmZ → Int × TmZ

/-- `timeval`, DateTime.Linux.cpp 90-91: what `gettimeofday` stores -/
structure Clock where
  sec : Int
  usec : Int

variable (lib : Library)

/-- DateTime.Linux.cpp 37-43 `ConvertTMTToOSInternal` -/
def convertTMToOSInternal (tm : TmZ) (milliseconds : Int) : Nat := timeToOSInternal (lib.mktime tm).1 milliseconds

/-- DateTime.Linux.cpp 45-62 `ConvertTMToDateTime` -/
def convertTMToDateTime (tm : TmZ) (milliseconds : Int) : DateTime :=
  let (timer, z) := lib.mktime tm
  { year := z.tm.year + 1900, month := z.tm.mon + 1, day := z.tm.mday, dayOfWeek := z.tm.wday, hour := z.tm.hour,
    minute := z.tm.min, second := z.tm.sec, milliseconds, osInternal := timeToOSInternal timer milliseconds,
    osMilliseconds := timeToOSInternal timer milliseconds }

/-- DateTime.Linux.cpp 64-76, DateTime.cpp 38-41 `FromDateTime` -/
def fromDateTime (year month day hour minute second milliseconds : Int) : DateTime :=
  convertTMToDateTime lib ⟨⟨year - 1900, month - 1, day, 0, hour, minute, second⟩, -1⟩ milliseconds

/-- DateTime.Linux.cpp 78-86, DateTime.cpp 43-46 `FromOSInternal` -/
def fromOSInternal (x : Nat) : DateTime :=
  let (timer, milliseconds) := osInternalToTime x
  convertTMToDateTime lib (lib.localtime timer) milliseconds

/-- DateTime.Linux.cpp 88-94, DateTime.cpp 28-31 `LocalTime` -/
def localTime (c : Clock) : DateTime :=
  fromOSInternal lib (convertTMToOSInternal lib (lib.localtime c.sec) (c.usec.tdiv 1000))

/-- DateTime.Linux.cpp 96-102, DateTime.cpp 33-36 `UtcTime` -/
def utcTime (c : Clock) : DateTime :=
  fromOSInternal lib (convertTMToOSInternal lib (lib.gmtime c.sec) (c.usec.tdiv 1000))

/-- DateTime.Linux.cpp 104-112, DateTime.cpp 53-56 `ToUtcTime` -/
def toUtcTime (d : DateTime) : DateTime :=
  let (timer, milliseconds) := osInternalToTime d.osInternal
  fromOSInternal lib (convertTMToOSInternal lib (lib.gmtime timer) milliseconds)

/-- DateTime.Linux.cpp 114-126, DateTime.cpp 48-51 `ToLocalTime` -/
def toLocalTime (d : DateTime) : DateTime :=
  let (timer, milliseconds) := osInternalToTime d.osInternal
  let localTimer := (lib.mktime (lib.localtime timer)).1
  let utcTimer := (lib.mktime (lib.gmtime timer)).1
  fromOSInternal lib (timeToOSInternal (timer + (localTimer - utcTimer)) milliseconds)

/-- DateTime.Linux.cpp 128-131, DateTime.cpp 58-61 `Forward` -/
def forward (d : DateTime) (delta : Nat) : DateTime := fromOSInternal lib (wrap (d.osInternal + delta))

/-- DateTime.Linux.cpp 133-136, DateTime.cpp 63-66 `Backward` -/
def backward (d : DateTime) (delta : Nat) : DateTime := fromOSInternal lib (wrap (d.osInternal - delta))

/-- what Windows says about the present: `GetLocalTime` and `GetSystemTimeAsFileTime` -/
structure WinClock where
  getLocalTime : Dates.SystemTime
  getSystemTimeAsFileTime : Dates.FileTime

/-- DateTime.Windows.cpp 95-103, DateTime.cpp 28-31 `LocalTime`; `none`: a variable is used to which nothing was assigned -/
def winLocalTime (lib : Dates.WinLibrary) (c : WinClock) : Option DateTime :=
  match lib.systemTimeToFileTime c.getLocalTime with
  | none => none
  | some f => Dates.Win.fromOSInternal lib (Dates.fileTimeToOSInternal f)

/-- DateTime.Windows.cpp 105-110, DateTime.cpp 33-36 `UtcTime` -/
def winUtcTime (lib : Dates.WinLibrary) (c : WinClock) : Option DateTime :=
  Dates.Win.fromOSInternal lib (Dates.fileTimeToOSInternal c.getSystemTimeAsFileTime)

end DateZone
end Vlpp
