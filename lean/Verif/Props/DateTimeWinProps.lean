import Verif.Spec.DateTimeWin
import Verif.Props.DateTimeProps

/-! # Property C84: date-times on Windows -/
set_option autoImplicit false
namespace Vlpp
open Dates Spec

namespace Dates

theorem valueOf_fileTimeOf {x : Int} (h : 0 ≤ x) : valueOf (fileTimeOf x) = x := by
  simp only [valueOf, fileTimeOf]
  omega

theorem toOS_fileTimeOf {x : Int} (h : 0 ≤ x) : (fileTimeToOSInternal (fileTimeOf x) : Int) = x := by
  simp only [fileTimeToOSInternal, fileTimeOf]
  omega

theorem valueOf_osInternal (x : Nat) : valueOf (osInternalToFileTime x) = x := by
  simp only [valueOf, osInternalToFileTime]
  omega

/-- whole seconds of the range of Windows -/
theorem seconds_range {m : Moment} (h : OnWindows m) : -11644473600 ≤ m.seconds ∧ m.seconds < 910670515200 := by
  obtain ⟨hv, h1, h2⟩ := h
  have a := hv.hour; have b := hv.minute; have c := hv.second
  have d1 := daysOf_year (y := m.year) hv.month hv.day
  have d2 := daysOf_mono (y := 1601) (y' := m.year) h1
  have d3 := daysOf_mono (y := m.year + 1) (y' := 30828) (by omega)
  have e1 : daysOf 1601 1 1 = -134774 := by decide
  have e2 : daysOf 30828 1 1 = 10540168 := by decide
  unfold Moment.seconds
  omega

theorem intervals_range {m : Moment} (h : OnWindows m) : 0 ≤ intervals m ∧ intervals m < windowsEnd ∧ intervals m % 10000 = 0 := by
  have h1 := seconds_range h
  have h2 := h.1.milliseconds
  unfold intervals windowsEnd
  omega

/-- from a moment to a system time -/
theorem systemTimeOf_intervals {m : Moment} (h : m.Valid) : systemTimeOf (intervals m) =
    ⟨m.year, m.month, (daysOf m.year m.month m.day + 4) % 7, m.day, m.hour, m.minute, m.second, m.milliseconds⟩ := by
  have hm := h.milliseconds
  unfold systemTimeOf intervals
  rw [show ((m.seconds + 11644473600) * 10000000 + m.milliseconds * 10000) / 10000000 - 11644473600 = m.seconds by omega,
    breakDown_seconds h]
  simp only [SystemTime.mk.injEq]
  refine ⟨by omega, by omega, trivial, trivial, trivial, trivial, trivial, by omega⟩

/-- a system time is a moment of the range -/
theorem systemTimeOf_onWindows {x : Int} (h0 : 0 ≤ x) (h1 : x < windowsEnd) :
    OnWindows (momentOf (systemTimeOf x)) ∧ intervals (momentOf (systemTimeOf x)) = x - x % 10000 := by
  unfold windowsEnd at h1
  generalize hdays : (x / 10000000 - 11644473600) / 86400 = days
  have hv := dateOf_valid days
  have hd := daysOf_dateOf days
  have hmonth : (dateOf days).2.1 - 1 + 1 = (dateOf days).2.1 := by omega
  have hyear : (dateOf days).1 - 1900 + 1900 = (dateOf days).1 := by omega
  have hm : momentOf (systemTimeOf x) = ⟨(dateOf days).1, (dateOf days).2.1, (dateOf days).2.2,
      (x / 10000000 - 11644473600) % 86400 / 3600, (x / 10000000 - 11644473600) % 86400 / 60 % 60,
      (x / 10000000 - 11644473600) % 86400 % 60, x / 10000 % 1000⟩ := by
    simp only [momentOf, systemTimeOf, breakDown, hdays, hmonth, hyear]
  rw [hm]
  have hvalid : (⟨(dateOf days).1, (dateOf days).2.1, (dateOf days).2.2,
      (x / 10000000 - 11644473600) % 86400 / 3600, (x / 10000000 - 11644473600) % 86400 / 60 % 60,
      (x / 10000000 - 11644473600) % 86400 % 60, x / 10000 % 1000⟩ : Moment).Valid := by
    refine ⟨⟨hv.1, hv.2.1⟩, ⟨hv.2.2.1, hv.2.2.2⟩, ?_, ?_, ?_, ?_⟩ <;> simp only <;> omega
  have e1 : daysOf 1601 1 1 = -134774 := by decide
  have e2 : daysOf 30828 1 1 = 10540168 := by decide
  have hy := daysOf_year ⟨hv.1, hv.2.1⟩ ⟨hv.2.2.1, hv.2.2.2⟩
  refine ⟨⟨hvalid, ?_, ?_⟩, ?_⟩
  · refine Classical.byContradiction fun hn => ?_
    have := daysOf_mono (y := (dateOf days).1 + 1) (y' := 1601) (by simp only at hn; omega)
    omega
  · refine Classical.byContradiction fun hn => ?_
    have := daysOf_mono (y := 30828) (y' := (dateOf days).1) (by simp only at hn; omega)
    omega
  · simp only [intervals, Moment.seconds, hd]
    omega

theorem systemTimeOf_not {x : Int} (h1 : windowsEnd ≤ x) : ¬ OnWindows (momentOf (systemTimeOf x)) := by
  intro h
  unfold windowsEnd at h1
  have hy : (momentOf (systemTimeOf x)).year = (dateOf ((x / 10000000 - 11644473600) / 86400)).1 := by
    simp only [momentOf, systemTimeOf, breakDown]
    omega
  have hv := dateOf_valid ((x / 10000000 - 11644473600) / 86400)
  have hd := daysOf_dateOf ((x / 10000000 - 11644473600) / 86400)
  have h2 := daysOf_year ⟨hv.1, hv.2.1⟩ ⟨hv.2.2.1, hv.2.2.2⟩
  have h3 := h.2.2
  rw [hy] at h3
  have h4 := daysOf_mono (y := (dateOf ((x / 10000000 - 11644473600) / 86400)).1 + 1) (y' := 30828) (by omega)
  have e2 : daysOf 30828 1 1 = 10540168 := by decide
  omega

/-- the date-time for a number of intervals -/
def winDateTime (s : SystemTime) (x : Nat) : DateTime :=
  { year := s.year, month := s.month, dayOfWeek := s.dayOfWeek, day := s.day, hour := s.hour, minute := s.minute, second := s.second,
    milliseconds := s.milliseconds, osInternal := x, osMilliseconds := x / 10000 }

section
variable {lib : WinLibrary}

theorem win_sys {s : SystemTime} {f : FileTime} (h : lib.systemTimeToFileTime s = some f) :
    Win.systemTimeToDateTime lib s = some (winDateTime s (fileTimeToOSInternal f)) := by
  unfold Win.systemTimeToDateTime
  rw [h]
  rfl

theorem win_sys_none {s : SystemTime} (h : lib.systemTimeToFileTime s = none) : Win.systemTimeToDateTime lib s = none := by
  unfold Win.systemTimeToDateTime
  rw [h]

theorem win_os {x : Nat} {s : SystemTime} (h : lib.fileTimeToSystemTime (osInternalToFileTime x) = some s) :
    Win.fromOSInternal lib x = Win.systemTimeToDateTime lib s := by
  unfold Win.fromOSInternal
  rw [h]

theorem win_os_none {x : Nat} (h : lib.fileTimeToSystemTime (osInternalToFileTime x) = none) : Win.fromOSInternal lib x = none := by
  unfold Win.fromOSInternal
  rw [h]

theorem win_utc {x : Nat} {s t : SystemTime} {f : FileTime} (h : lib.fileTimeToSystemTime (osInternalToFileTime x) = some s)
    (h' : lib.localToSystem s = some t) (hf : lib.systemTimeToFileTime t = some f) :
    Win.localToUtcTime lib x = some (fileTimeToOSInternal f) := by
  unfold Win.localToUtcTime
  simp only [h, h', hf, Option.getD_some]

theorem win_local {x : Nat} {s t : SystemTime} {f : FileTime} (h : lib.fileTimeToSystemTime (osInternalToFileTime x) = some s)
    (h' : lib.systemToLocal s = some t) (hf : lib.systemTimeToFileTime t = some f) :
    Win.utcToLocalTime lib x = some (fileTimeToOSInternal f) := by
  unfold Win.utcToLocalTime
  simp only [h, h', hf, Option.getD_some]

end

variable (offset : Int)

theorem windows_toSystem {f : FileTime} {x : Int} (hf : valueOf f = x) (h : InFileTime x) :
    (windows offset).fileTimeToSystemTime f = some (systemTimeOf x) := by
  subst hf
  exact if_pos h

theorem windows_toSystem_none {f : FileTime} (h : ¬ InFileTime (valueOf f)) :
    (windows offset).fileTimeToSystemTime f = none := if_neg h

theorem windows_toFile {s : SystemTime} (h : OnWindows (momentOf s)) :
    (windows offset).systemTimeToFileTime s = some (fileTimeOf (intervals (momentOf s))) := if_pos h

theorem windows_toFile_none {s : SystemTime} (h : ¬ OnWindows (momentOf s)) :
    (windows offset).systemTimeToFileTime s = none := if_neg h

theorem windows_localToSystem {s : SystemTime} (h : OnWindows (momentOf s)) {x : Int} (hx : intervals (momentOf s) - offset * 10000000 = x)
    (h1 : InFileTime x) : (windows offset).localToSystem s = some (systemTimeOf x) := by
  subst hx
  exact if_pos ⟨h, h1⟩

theorem windows_systemToLocal {s : SystemTime} (h : OnWindows (momentOf s)) {x : Int} (hx : intervals (momentOf s) + offset * 10000000 = x)
    (h1 : InFileTime x) : (windows offset).systemToLocal s = some (systemTimeOf x) := by
  subst hx
  exact if_pos ⟨h, h1⟩

theorem inFileTime {x : Int} (h0 : 0 ≤ x) (h : x < windowsEnd) : InFileTime x := by
  unfold windowsEnd at h
  unfold InFileTime
  omega

theorem toOS_eq {x : Int} {y : Nat} (h : x = y) : fileTimeToOSInternal (fileTimeOf x) = y := by
  have := toOS_fileTimeOf (x := x) (by omega)
  omega

theorem win_systemTimeToDateTime (s : SystemTime) (h : OnWindows (momentOf s)) {y : Nat} (hy : intervals (momentOf s) = y) :
    Win.systemTimeToDateTime (windows offset) s = some (winDateTime s y) := by
  rw [win_sys (windows_toFile offset h), toOS_eq hy]

theorem win_fromOSInternal {x : Nat} (h : (x : Int) < windowsEnd) :
    Win.fromOSInternal (windows offset) x = some (winDateTime (systemTimeOf x) (x - x % 10000)) := by
  have h1 := systemTimeOf_onWindows (x := x) (by omega) h
  rw [win_os (windows_toSystem offset (valueOf_osInternal x) (inFileTime (by omega) h))]
  exact win_systemTimeToDateTime offset _ h1.1 (h1.2.trans (by omega))

theorem win_fromOSInternal_none {x : Nat} (h : windowsEnd ≤ x) : Win.fromOSInternal (windows offset) x = none := by
  by_cases h2 : InFileTime x
  · rw [win_os (windows_toSystem offset (valueOf_osInternal x) h2)]
    exact win_sys_none (windows_toFile_none offset (systemTimeOf_not h))
  · exact win_os_none (windows_toSystem_none offset (by rw [valueOf_osInternal x]; exact h2))

theorem win_toLocal {x z : Nat} (h : (x : Int) < windowsEnd) (hz : (z : Int) = x - x % 10000 + offset * 10000000) (h1 : (z : Int) < windowsEnd) :
    Win.utcToLocalTime (windows offset) x = some z := by
  have hs := systemTimeOf_onWindows (x := x) (by omega) h
  have ht := systemTimeOf_onWindows (x := z) (by omega) h1
  rw [win_local (windows_toSystem offset (valueOf_osInternal x) (inFileTime (by omega) h))
    (windows_systemToLocal offset hs.1 (x := z) (by rw [hs.2]; omega) (inFileTime (by omega) h1)) (windows_toFile offset ht.1),
    toOS_eq (y := z) (by rw [ht.2]; omega)]

theorem win_toUtc {x z : Nat} (h : (x : Int) < windowsEnd) (hz : (z : Int) = x - x % 10000 - offset * 10000000) (h1 : (z : Int) < windowsEnd) :
    Win.localToUtcTime (windows offset) x = some z := by
  have hs := systemTimeOf_onWindows (x := x) (by omega) h
  have ht := systemTimeOf_onWindows (x := z) (by omega) h1
  rw [win_utc (windows_toSystem offset (valueOf_osInternal x) (inFileTime (by omega) h))
    (windows_localToSystem offset hs.1 (x := z) (by rw [hs.2]; omega) (inFileTime (by omega) h1)) (windows_toFile offset ht.1),
    toOS_eq (y := z) (by rw [ht.2]; omega)]

theorem win_whole {x : Nat} (h : (x : Int) < windowsEnd) :
    Win.fromOSInternal (windows offset) (x - x % 10000) = Win.fromOSInternal (windows offset) x := by
  rw [win_fromOSInternal offset h, win_fromOSInternal offset (x := x - x % 10000) (by omega)]
  have : systemTimeOf ((x - x % 10000 : Nat) : Int) = systemTimeOf x := by
    unfold systemTimeOf
    rw [show ((x - x % 10000 : Nat) : Int) / 10000000 = (x : Int) / 10000000 by omega,
      show ((x - x % 10000 : Nat) : Int) / 10000 = (x : Int) / 10000 by omega]
  rw [this, show x - x % 10000 - (x - x % 10000) % 10000 = x - x % 10000 by omega]

theorem win_forward (lib : WinLibrary) (s : SystemTime) (x delta y : Nat) (h : x + delta * 10000 = y) (hy : (y : Int) < windowsEnd) :
    Win.forward lib (winDateTime s x) delta = Win.fromOSInternal lib y := by
  unfold windowsEnd at hy
  have e1 : wrap ((delta : Int) * 10000) = delta * 10000 := by
    have := wrap_of_nonneg (x := (delta : Int) * 10000) (by omega) (by omega); omega
  have e2 : wrap ((x : Int) + (delta * 10000 : Nat)) = y := by
    have := wrap_of_nonneg (x := (x : Int) + (delta * 10000 : Nat)) (by omega) (by omega); omega
  show Win.fromOSInternal lib (wrap (x + wrap (delta * 10000))) = _
  rw [e1, e2]

theorem win_backward (lib : WinLibrary) (s : SystemTime) (x delta y : Nat) (h : y + delta * 10000 = x) (hy : (x : Int) < windowsEnd) :
    Win.backward lib (winDateTime s x) delta = Win.fromOSInternal lib y := by
  unfold windowsEnd at hy
  have e1 : wrap ((delta : Int) * 10000) = delta * 10000 := by
    have := wrap_of_nonneg (x := (delta : Int) * 10000) (by omega) (by omega); omega
  have e2 : wrap ((x : Int) - (delta * 10000 : Nat)) = y := by
    have := wrap_of_nonneg (x := (x : Int) - (delta * 10000 : Nat)) (by omega) (by omega); omega
  show Win.fromOSInternal lib (wrap (x - wrap (delta * 10000))) = _
  rw [e1, e2]

end Dates

/-- **C84**: on Windows, `FromDateTime` of a date and time that exist, in the years 1601 to 30827, has these members, the right day of the
week, and the number of milliseconds since 1601-01-01; and `FromOSInternal` gives the same date-time again. -/
theorem C84_fields (offset : Int) (m : Moment) (h : OnWindows m) :
    ∃ d, Win.fromDateTime (windows offset) m.year m.month m.day m.hour m.minute m.second m.milliseconds = some d ∧
      (⟨d.year, d.month, d.day, d.hour, d.minute, d.second, d.milliseconds⟩ : Moment) = m ∧
      d.dayOfWeek = (daysOf m.year m.month m.day - daysOf 1970 1 1 + 4) % 7 ∧
      (d.osInternal : Int) = ((m.seconds - (⟨1601, 1, 1, 0, 0, 0, 0⟩ : Moment).seconds) * 1000 + m.milliseconds) * 10000 ∧
      (d.osMilliseconds : Int) = (m.seconds - (⟨1601, 1, 1, 0, 0, 0, 0⟩ : Moment).seconds) * 1000 + m.milliseconds ∧
      Win.fromOSInternal (windows offset) d.osInternal = some d := by
  have hv := h.1
  have a1 := hv.month; have a2 := hv.day; have a3 := hv.hour; have a4 := hv.minute; have a5 := hv.second; have a6 := hv.milliseconds
  have a7 := h.2
  have a8 := daysInMonth_le a2.2
  have hr := intervals_range h
  have hs := systemTimeOf_intervals hv
  have e0 : (⟨1601, 1, 1, 0, 0, 0, 0⟩ : Moment).seconds = -11644473600 := by decide
  have e1 : daysOf 1970 1 1 = 0 := by decide
  have hsys : momentOf (systemTimeOf (intervals m)) = m := by rw [hs]; rfl
  have hw : Win.fromDateTime (windows offset) m.year m.month m.day m.hour m.minute m.second m.milliseconds =
      some (winDateTime (systemTimeOf (intervals m)) (intervals m).toNat) := by
    have hword : (⟨word m.year, word m.month, 0, word m.day, word m.hour, word m.minute, word m.second, word m.milliseconds⟩ : SystemTime) =
        ⟨m.year, m.month, 0, m.day, m.hour, m.minute, m.second, m.milliseconds⟩ := by
      simp only [word, SystemTime.mk.injEq]
      refine ⟨by omega, by omega, trivial, by omega, by omega, by omega, by omega, by omega⟩
    have hmo : momentOf ⟨m.year, m.month, 0, m.day, m.hour, m.minute, m.second, m.milliseconds⟩ = m := rfl
    unfold Win.fromDateTime
    simp only [hword]
    rw [windows_toFile offset (by rw [hmo]; exact h), hmo]
    simp only
    rw [windows_toSystem offset (valueOf_fileTimeOf hr.1) (inFileTime hr.1 hr.2.1)]
    rw [Option.getD_some, win_systemTimeToDateTime offset _ (by rw [hsys]; exact h) (y := (intervals m).toNat) (by rw [hsys]; have := hr.1; omega)]
  refine ⟨_, hw, ?_, ?_, ?_, ?_, ?_⟩
  · rw [hs]; rfl
  · rw [hs, e1, Int.sub_zero]; rfl
  · rw [e0]
    simp only [winDateTime]
    have := hr.1
    unfold intervals at *
    omega
  · rw [e0]
    simp only [winDateTime]
    have := hr.1
    unfold intervals at *
    omega
  · have hlt : (((intervals m).toNat : Nat) : Int) = intervals m := by have := hr.1; omega
    show Win.fromOSInternal (windows offset) (intervals m).toNat = _
    rw [win_fromOSInternal offset (by rw [hlt]; exact hr.2.1), hlt,
      show (intervals m).toNat - (intervals m).toNat % 10000 = (intervals m).toNat by have := hr.2.2; omega]

/-- **C84**: date-times are in the order of the moments that they were made from. -/
theorem C84_order (offset : Int) (a b : Moment) (ha : OnWindows a) (hb : OnWindows b) :
    ∃ d e, Win.fromDateTime (windows offset) a.year a.month a.day a.hour a.minute a.second a.milliseconds = some d ∧
      Win.fromDateTime (windows offset) b.year b.month b.day b.hour b.minute b.second b.milliseconds = some e ∧
      (a.Before b ↔ d.osInternal < e.osInternal) ∧ (a = b ↔ d.osInternal = e.osInternal) := by
  obtain ⟨d, h1, _, _, h2, _⟩ := C84_fields offset a ha
  obtain ⟨e, g1, _, _, g2, _⟩ := C84_fields offset b hb
  have key : ∀ {x y : Moment}, OnWindows x → OnWindows y → x.Before y → x.seconds * 1000 + x.milliseconds < y.seconds * 1000 + y.milliseconds := by
    intro x y hx hy h
    have := seconds_lt hx.1 hy.1 h
    have := hx.1.milliseconds
    have := hy.1.milliseconds
    omega
  refine ⟨d, e, h1, g1, ?_, ?_⟩
  · constructor
    · intro h
      have := key ha hb h
      omega
    · intro h
      rcases before_total a b with h' | rfl | h'
      · exact h'
      · omega
      · have := key hb ha h'; omega
  · constructor
    · rintro rfl; omega
    · intro h
      rcases before_total a b with h' | h' | h'
      · have := key ha hb h'; omega
      · exact h'
      · have := key hb ha h'; omega

/-- **C84**, exactly: which dates are undefined behaviour.  Arguments are reduced to 16 bits; what does not exist then makes the code use a
`FILETIME` that nothing was assigned to. -/
theorem C84_undefined (offset year month day hour minute second milliseconds : Int) :
    Win.fromDateTime (windows offset) year month day hour minute second milliseconds = none ↔
      ¬ OnWindows ⟨year % 65536, month % 65536, day % 65536, hour % 65536, minute % 65536, second % 65536, milliseconds % 65536⟩ := by
  constructor
  · intro h ho
    obtain ⟨d, hd, _⟩ := C84_fields offset _ ho
    simp only [Win.fromDateTime, word, Int.emod_emod] at hd h
    rw [h] at hd
    cases hd
  · intro h
    unfold Win.fromDateTime
    simp only [windows_toFile_none offset (s := ⟨word year, word month, 0, word day, word hour, word minute, word second, word milliseconds⟩) h]

/-- **C84**, partial: `FromOSInternal` keeps whole milliseconds, and the members are those of the moment.  Missing: the rest of the value,
see `C84_violated_internal`. -/
theorem C84_from_internal_partial (offset : Int) (x : Nat) (h : (x : Int) < windowsEnd) :
    ∃ d, Win.fromOSInternal (windows offset) x = some d ∧ d.osInternal = x - x % 10000 ∧ d.osMilliseconds = x / 10000 ∧
      OnWindows ⟨d.year, d.month, d.day, d.hour, d.minute, d.second, d.milliseconds⟩ ∧
      intervals ⟨d.year, d.month, d.day, d.hour, d.minute, d.second, d.milliseconds⟩ = d.osInternal := by
  have h1 := systemTimeOf_onWindows (x := x) (by omega) h
  refine ⟨_, win_fromOSInternal offset h, rfl, ?_, h1.1, ?_⟩
  · show (x - x % 10000) / 10000 = _
    omega
  · have := h1.2
    simp only [momentOf] at this
    simp only [winDateTime, this]
    omega

/-- **C84** is violated: an internal value that is not a whole number of milliseconds is not kept, and values from the year 30828 on are
undefined behaviour. -/
theorem C84_violated_internal (offset : Int) (x : Nat) :
    ((x : Int) < windowsEnd → x % 10000 ≠ 0 → ∃ d, Win.fromOSInternal (windows offset) x = some d ∧ d.osInternal ≠ x) ∧
    (windowsEnd ≤ x → Win.fromOSInternal (windows offset) x = none) := by
  refine ⟨fun h hx => ?_, win_fromOSInternal_none offset⟩
  obtain ⟨d, h1, h2, _⟩ := C84_from_internal_partial offset x h
  exact ⟨d, h1, by omega⟩

/-- **C84**: `Forward` and `Backward` move by the given number of milliseconds and cancel, as long as the result is in the range. -/
theorem C84_cancel (offset : Int) (x : Nat) (hx : (x : Int) < windowsEnd) (delta : Nat) :
    ∃ d, Win.fromOSInternal (windows offset) x = some d ∧
      ((x + delta * 10000 : Int) < windowsEnd → ∃ e, Win.forward (windows offset) d delta = some e ∧
        e.osInternal = d.osInternal + delta * 10000 ∧ Win.backward (windows offset) e delta = some d) ∧
      (delta * 10000 ≤ x → ∃ e, Win.backward (windows offset) d delta = some e ∧
        e.osInternal + delta * 10000 = d.osInternal ∧ Win.forward (windows offset) e delta = some d) := by
  have hw := win_fromOSInternal offset hx
  refine ⟨_, hw, ?_, ?_⟩
  · intro hlt
    have hin : ((x - x % 10000 + delta * 10000 : Nat) : Int) < windowsEnd := by omega
    refine ⟨_, (win_forward _ _ _ _ _ rfl hin).trans (win_fromOSInternal offset hin), ?_, ?_⟩
    · show x - x % 10000 + delta * 10000 - (x - x % 10000 + delta * 10000) % 10000 = x - x % 10000 + delta * 10000
      omega
    · rw [win_backward _ _ _ _ (x - x % 10000) (by omega) (by omega), win_whole offset hx, hw]
  · intro hle
    have hin : ((x - x % 10000 - delta * 10000 : Nat) : Int) < windowsEnd := by omega
    refine ⟨_, (win_backward _ _ _ _ (x - x % 10000 - delta * 10000) (by omega) (by omega)).trans (win_fromOSInternal offset hin), ?_, ?_⟩
    · show x - x % 10000 - delta * 10000 - (x - x % 10000 - delta * 10000) % 10000 + delta * 10000 = x - x % 10000
      omega
    · rw [win_forward _ _ _ _ (x - x % 10000) (by omega) (by omega), win_whole offset hx, hw]

/-- **C84**: `ToLocalTime` and `ToUtcTime` move by the distance from UTC and cancel, as long as both are in the range. -/
theorem C84_time_zone (offset : Int) (x : Nat) (hx : (x : Int) < windowsEnd) :
    ∃ d, Win.fromOSInternal (windows offset) x = some d ∧
      (0 ≤ (x : Int) + offset * 10000000 → (x : Int) + offset * 10000000 < windowsEnd →
        ∃ e, Win.toLocalTime (windows offset) d = some e ∧ (e.osInternal : Int) = d.osInternal + offset * 10000000 ∧
          Win.toUtcTime (windows offset) e = some d) ∧
      (0 ≤ (x : Int) - offset * 10000000 → (x : Int) - offset * 10000000 < windowsEnd →
        ∃ e, Win.toUtcTime (windows offset) d = some e ∧ (e.osInternal : Int) = d.osInternal - offset * 10000000 ∧
          Win.toLocalTime (windows offset) e = some d) := by
  have hw := win_fromOSInternal offset hx
  refine ⟨_, hw, ?_, ?_⟩
  · intro h0 h1
    obtain ⟨z, hz⟩ := Int.eq_ofNat_of_zero_le (a := (x : Int) - x % 10000 + offset * 10000000) (by omega)
    have hzr : (z : Int) < windowsEnd := by omega
    refine ⟨winDateTime (systemTimeOf z) (z - z % 10000), ?_, ?_, ?_⟩
    · show (Win.utcToLocalTime (windows offset) (x - x % 10000)).bind _ = _
      rw [win_toLocal offset (z := z) (by omega) (by omega) hzr, Option.bind_some, win_fromOSInternal offset hzr]
    · show ((z - z % 10000 : Nat) : Int) = (x - x % 10000 : Nat) + offset * 10000000
      omega
    · show (Win.localToUtcTime (windows offset) (z - z % 10000)).bind _ = _
      rw [win_toUtc offset (z := x - x % 10000) (by omega) (by omega) (by omega), Option.bind_some, win_whole offset hx, hw]
  · intro h0 h1
    obtain ⟨z, hz⟩ := Int.eq_ofNat_of_zero_le (a := (x : Int) - x % 10000 - offset * 10000000) (by omega)
    have hzr : (z : Int) < windowsEnd := by omega
    refine ⟨winDateTime (systemTimeOf z) (z - z % 10000), ?_, ?_, ?_⟩
    · show (Win.localToUtcTime (windows offset) (x - x % 10000)).bind _ = _
      rw [win_toUtc offset (z := z) (by omega) (by omega) hzr, Option.bind_some, win_fromOSInternal offset hzr]
    · show ((z - z % 10000 : Nat) : Int) = (x - x % 10000 : Nat) - offset * 10000000
      omega
    · show (Win.utcToLocalTime (windows offset) (z - z % 10000)).bind _ = _
      rw [win_toLocal offset (z := x - x % 10000) (by omega) (by omega) (by omega), Option.bind_some, win_whole offset hx, hw]

/-! Concrete cases. -/

example : windowsEnd = intervals ⟨30828, 1, 1, 0, 0, 0, 0⟩ ∧ intervals ⟨1601, 1, 1, 0, 0, 0, 0⟩ = 0 := by decide
example : OnWindows leapDay := ⟨⟨by decide, by decide, by decide, by decide, by decide, by decide⟩, by decide, by decide⟩
example : OnWindows landing := ⟨⟨by decide, by decide, by decide, by decide, by decide, by decide⟩, by decide, by decide⟩
example : intervals leapDay = 133536816000050000 := by decide
/-- the thirtieth of February -/
example : Win.fromDateTime (windows 0) 2024 2 30 0 0 0 0 = none :=
  (C84_undefined 0 2024 2 30 0 0 0 0).2 fun h => absurd h.1.day (by decide)
/-- a date before 1970, which Linux cannot order -/
example : ∃ d e, Win.fromDateTime (windows 0) 1969 7 20 20 17 40 0 = some d ∧ Win.fromDateTime (windows 0) 2024 2 29 12 0 0 5 = some e ∧
    d.osInternal < e.osInternal := by
  obtain ⟨d, e, h1, h2, h3, _⟩ := C84_order 0 landing leapDay
    ⟨⟨by decide, by decide, by decide, by decide, by decide, by decide⟩, by decide, by decide⟩
    ⟨⟨by decide, by decide, by decide, by decide, by decide, by decide⟩, by decide, by decide⟩
  exact ⟨d, e, h1, h2, h3.1 (.inl (by decide))⟩
example : ∃ d, Win.fromOSInternal (windows 0) 133536816000050001 = some d ∧ d.osInternal ≠ 133536816000050001 :=
  (C84_violated_internal 0 133536816000050001).1 (by decide) (by decide)

end Vlpp
