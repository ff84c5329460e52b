import Verif.Model.Outcome

/-!
# Model of `DateTime` on Linux

Source/Primitives/DateTime.Linux.cpp, DateTime.cpp and DateTime.h.  `vuint64_t` is a natural number below 2^64 with explicit reduction.
`time_t` and `vint` are integers; members of `tm` do not overflow.  The functions `mktime`, `localtime` and `gmtime` of the C library
are a parameter (`Library`).
-/
set_option autoImplicit false
namespace Vlpp
namespace Dates

/-- conversion to `vuint64_t` -/
def wrap (x : Int) : Nat := (x % 18446744073709551616).toNat

/-- `tm`; `isdst` is left to the library -/
structure Tm where
  year : Int
  mon : Int
  mday : Int
  wday : Int
  hour : Int
  min : Int
  sec : Int
  deriving DecidableEq, Repr

/-- `mktime` changes its argument. -/
structure Library where
  localtime : Int → Tm
  gmtime : Int → Tm
  mktime : Tm → Int × Tm

/-- DateTime.h 18-52 -/
structure DateTime where
  year : Int
  month : Int
  day : Int
  dayOfWeek : Int
  hour : Int
  minute : Int
  second : Int
  milliseconds : Int
  osMilliseconds : Nat
  osInternal : Nat
  deriving DecidableEq, Repr

/-- DateTime.Linux.cpp 26-29 `TimeToOSInternal` -/
def timeToOSInternal (timer milliseconds : Int) : Nat := wrap (wrap (wrap timer * 1000) + wrap milliseconds)

/-- DateTime.Linux.cpp 31-35 `OSInternalToTime` -/
def osInternalToTime (x : Nat) : Int × Int := (x / 1000, x % 1000)

variable (lib : Library)

/-- DateTime.Linux.cpp 37-43 `ConvertTMTToOSInternal` -/
def convertTMToOSInternal (tm : Tm) (milliseconds : Int) : Nat := timeToOSInternal (lib.mktime tm).1 milliseconds

/-- DateTime.Linux.cpp 45-62 `ConvertTMToDateTime` -/
def convertTMToDateTime (tm : Tm) (milliseconds : Int) : DateTime :=
  let (timer, tm) := lib.mktime tm
  { year := tm.year + 1900, month := tm.mon + 1, day := tm.mday, dayOfWeek := tm.wday, hour := tm.hour, minute := tm.min, second := tm.sec,
    milliseconds, osInternal := timeToOSInternal timer milliseconds, osMilliseconds := timeToOSInternal timer milliseconds }

/-- DateTime.Linux.cpp 64-76 -/
def fromDateTime (year month day hour minute second milliseconds : Int) : DateTime :=
  convertTMToDateTime lib ⟨year - 1900, month - 1, day, 0, hour, minute, second⟩ milliseconds

/-- DateTime.Linux.cpp 78-86 -/
def fromOSInternal (x : Nat) : DateTime :=
  let (timer, milliseconds) := osInternalToTime x
  convertTMToDateTime lib (lib.localtime timer) milliseconds

/-- DateTime.Linux.cpp 128-131, DateTime.cpp 58-61 -/
def DateTime.forward (d : DateTime) (delta : Nat) : DateTime := fromOSInternal lib (wrap (d.osInternal + delta))

/-- DateTime.Linux.cpp 133-136, DateTime.cpp 63-66 -/
def DateTime.backward (d : DateTime) (delta : Nat) : DateTime := fromOSInternal lib (wrap (d.osInternal - delta))

/-- DateTime.Linux.cpp 104-112, DateTime.cpp 53-56 -/
def DateTime.toUtcTime (d : DateTime) : DateTime :=
  let (timer, milliseconds) := osInternalToTime d.osInternal
  fromOSInternal lib (convertTMToOSInternal lib (lib.gmtime timer) milliseconds)

/-- DateTime.Linux.cpp 114-126, DateTime.cpp 48-51 -/
def DateTime.toLocalTime (d : DateTime) : DateTime :=
  let (timer, milliseconds) := osInternalToTime d.osInternal
  let localTimer := (lib.mktime (lib.localtime timer)).1
  let utcTimer := (lib.mktime (lib.gmtime timer)).1
  fromOSInternal lib (timeToOSInternal (timer + (localTimer - utcTimer)) milliseconds)

end Dates
end Vlpp
