import Verif.Model.DateTime

/-!
# Model of `DateTime` on Windows

Source/Primitives/DateTime.Windows.cpp and DateTime.cpp.  The functions of Windows are a parameter (`WinLibrary`).  When one of them
fails it leaves its result as it is; the code does not look at whether it failed.  Using a local variable that nothing was
assigned to is undefined behaviour: `none`.
-/
set_option autoImplicit false
namespace Vlpp
namespace Dates

/-- `SYSTEMTIME`; the members have 16 bits -/
structure SystemTime where
  year : Int
  month : Int
  dayOfWeek : Int
  day : Int
  hour : Int
  minute : Int
  second : Int
  milliseconds : Int
  deriving DecidableEq, Repr

/-- `FILETIME`; the members have 32 bits -/
structure FileTime where
  high : Nat
  low : Nat
  deriving DecidableEq, Repr

/-- `none`: the function fails.  The last two are `TzSpecificLocalTimeToSystemTime` and `SystemTimeToTzSpecificLocalTime` for the current
time zone. -/
structure WinLibrary where
  fileTimeToSystemTime : FileTime → Option SystemTime
  systemTimeToFileTime : SystemTime → Option FileTime
  localToSystem : SystemTime → Option SystemTime
  systemToLocal : SystemTime → Option SystemTime

/-- `(WORD)x` -/
def word (x : Int) : Int := x % 65536

/-- DateTime.Windows.cpp 25-31 `FileTimeToOSInternal` -/
def fileTimeToOSInternal (f : FileTime) : Nat := f.high * 4294967296 + f.low

/-- DateTime.Windows.cpp 33-42 `OSInternalToFileTime` (also written out in lines 84-88) -/
def osInternalToFileTime (x : Nat) : FileTime := ⟨x / 4294967296, x % 4294967296⟩

namespace Win
variable (lib : WinLibrary)

/-- DateTime.Windows.cpp 44-62 `SystemTimeToDateTime` -/
def systemTimeToDateTime (s : SystemTime) : Option DateTime :=
  match lib.systemTimeToFileTime s with
  | none => none
  | some f =>
    let x := fileTimeToOSInternal f
    some { year := s.year, month := s.month, dayOfWeek := s.dayOfWeek, day := s.day, hour := s.hour, minute := s.minute, second := s.second,
           milliseconds := s.milliseconds, osInternal := x, osMilliseconds := x / 10000 }

/-- DateTime.Windows.cpp 64-80.  If `FileTimeToSystemTime` fails, `systemTime` is still what it was before. -/
def fromDateTime (year month day hour minute second milliseconds : Int) : Option DateTime :=
  let s : SystemTime := ⟨word year, word month, 0, word day, word hour, word minute, word second, word milliseconds⟩
  match lib.systemTimeToFileTime s with
  | none => none
  | some f => systemTimeToDateTime lib ((lib.fileTimeToSystemTime f).getD s)

/-- DateTime.Windows.cpp 82-93 -/
def fromOSInternal (x : Nat) : Option DateTime :=
  match lib.fileTimeToSystemTime (osInternalToFileTime x) with
  | none => none
  | some s => systemTimeToDateTime lib s

/-- DateTime.Windows.cpp 112-120.  If the last function fails, `fileTime` is still what it was before. -/
def localToUtcTime (x : Nat) : Option Nat :=
  let f := osInternalToFileTime x
  match lib.fileTimeToSystemTime f with
  | none => none
  | some localTime =>
    match lib.localToSystem localTime with
    | none => none
    | some utcTime => some (fileTimeToOSInternal ((lib.systemTimeToFileTime utcTime).getD f))

/-- DateTime.Windows.cpp 122-130 -/
def utcToLocalTime (x : Nat) : Option Nat :=
  let f := osInternalToFileTime x
  match lib.fileTimeToSystemTime f with
  | none => none
  | some utcTime =>
    match lib.systemToLocal utcTime with
    | none => none
    | some localTime => some (fileTimeToOSInternal ((lib.systemTimeToFileTime localTime).getD f))

/-- DateTime.Windows.cpp 132-135, DateTime.cpp 58-61 -/
def forward (d : DateTime) (delta : Nat) : Option DateTime := fromOSInternal lib (wrap (d.osInternal + wrap (delta * 10000)))

/-- DateTime.Windows.cpp 137-140, DateTime.cpp 63-66 -/
def backward (d : DateTime) (delta : Nat) : Option DateTime := fromOSInternal lib (wrap (d.osInternal - wrap (delta * 10000)))

/-- DateTime.cpp 53-56 -/
def toUtcTime (d : DateTime) : Option DateTime := (localToUtcTime lib d.osInternal).bind (fromOSInternal lib)

/-- DateTime.cpp 48-51 -/
def toLocalTime (d : DateTime) : Option DateTime := (utcToLocalTime lib d.osInternal).bind (fromOSInternal lib)

end Win
end Dates
end Vlpp
