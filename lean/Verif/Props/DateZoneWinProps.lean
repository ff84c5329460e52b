import Verif.Props.DateTimeWinProps
import Verif.Props.DateZoneProps

/-!
# C108: clocks and daylight saving time on Windows
-/
set_option autoImplicit false
namespace Vlpp
open Spec
open Dates
open DateZone (WinClock winLocalTime winUtcTime)

namespace DateZone

theorem win_displays (x : Int) (y : Nat) :
    Displays (winDateTime (systemTimeOf x) y) (x / 10000000 - 11644473600) (x / 10000 % 1000) := by
  simp only [Displays, winDateTime, systemTimeOf, breakDown]
  generalize x / 10000000 - 11644473600 = b
  generalize dateOf (b / 86400) = p
  obtain ⟨yy, m, d⟩ := p
  simp only [Prod.mk.injEq]
  refine ⟨⟨by omega, by omega, trivial⟩, trivial, by omega, by omega, by omega, trivial⟩

/-- what is below a millisecond does not matter -/
theorem systemTimeOf_whole (x : Int) : systemTimeOf (x - x % 10000) = systemTimeOf x := by
  unfold systemTimeOf
  rw [show (x - x % 10000) / 10000000 = x / 10000000 by omega, show (x - x % 10000) / 10000 = x / 10000 by omega]

theorem seconds_systemTimeOf {x : Int} (h0 : 0 ≤ x) (h1 : x < windowsEnd) :
    (Spec.momentOf (systemTimeOf x)).seconds = x / 10000000 - 11644473600 ∧
    (Spec.momentOf (systemTimeOf x)).milliseconds = x / 10000 % 1000 := by
  have h := systemTimeOf_onWindows h0 h1
  have hm := h.1.1.milliseconds
  have he := h.2
  have e : (Spec.momentOf (systemTimeOf x)).milliseconds = x / 10000 % 1000 := rfl
  unfold intervals at he
  omega

section
variable {z : Zone} {lib : WinLibrary}

theorem winSys (F : FollowsWin z lib) (s : SystemTime) : Win.systemTimeToDateTime lib s = Win.systemTimeToDateTime (windows 0) s := by
  unfold Win.systemTimeToDateTime
  rw [F.toFile]

theorem winFromOS (F : FollowsWin z lib) {x : Nat} (h : (x : Int) < windowsEnd) :
    Win.fromOSInternal lib x = some (winDateTime (systemTimeOf x) (x - x % 10000)) := by
  rw [← win_fromOSInternal 0 h]
  unfold Win.fromOSInternal
  rw [F.toSystem]
  simp only [winSys F]

/-- the conversion to local time -/
theorem winToLocal (F : FollowsWin z lib) {x y : Nat} (h : (x : Int) < windowsEnd)
    (hy : (y : Int) = x - x % 10000 + z.offset (secondsOf x) * 10000000) (h1 : (y : Int) < windowsEnd) :
    Win.utcToLocalTime lib x = some y := by
  have hs := systemTimeOf_onWindows (x := x) (by omega) h
  have hsec := (seconds_systemTimeOf (x := x) (by omega) h).1
  have ht := systemTimeOf_onWindows (x := y) (by omega) h1
  refine (win_local (s := systemTimeOf x) (t := systemTimeOf y) (f := fileTimeOf (intervals (Spec.momentOf (systemTimeOf y)))) ?_ ?_ ?_).trans ?_
  · rw [F.toSystem, windows_toSystem 0 (valueOf_osInternal x) (inFileTime (by omega) h)]
  · rw [F.toLocal _ hs.1, hsec]
    refine windows_systemToLocal _ hs.1 ?_ (inFileTime (by omega) h1)
    rw [hs.2]
    unfold secondsOf at hy
    omega
  · rw [F.toFile, windows_toFile 0 ht.1]
  · rw [toOS_eq (y := y) (by rw [ht.2]; omega)]

/-- the conversion to UTC finds a time at which clocks show the local time -/
theorem winToUtc (F : FollowsWin z lib) {y : Nat} (h : (y : Int) < windowsEnd) (t : Int) (ht : z.clock t = secondsOf y)
    (h0 : 0 ≤ t + 11644473600) (h1 : (t + 11644473600) * 10000000 < windowsEnd) :
    ∃ u : Int, z.clock u = secondsOf y ∧ 0 ≤ u + 11644473600 ∧ (u + 11644473600) * 10000000 < windowsEnd ∧
      ∃ x : Nat, (x : Int) = (u + 11644473600) * 10000000 + (y : Int) / 10000 % 1000 * 10000 ∧ Win.localToUtcTime lib y = some x := by
  have hs := systemTimeOf_onWindows (x := y) (by omega) h
  obtain ⟨hsec, hms⟩ := seconds_systemTimeOf (x := y) (by omega) h
  obtain ⟨u, hu, u0, u1, hl⟩ := F.toUtc (systemTimeOf y) hs.1 ⟨t, by rw [hsec, ht]; rfl, h0, h1⟩
  rw [hsec] at hu
  rw [hms] at hl
  obtain ⟨x, hx⟩ := Int.eq_ofNat_of_zero_le (a := (u + 11644473600) * 10000000 + (y : Int) / 10000 % 1000 * 10000) (by omega)
  have hxe : (x : Int) < windowsEnd := by unfold windowsEnd at *; omega
  have hv := systemTimeOf_onWindows (x := x) (by omega) hxe
  refine ⟨u, hu, u0, u1, x, hx.symm, ?_⟩
  rw [hx] at hl
  refine (win_utc (s := systemTimeOf y) (t := systemTimeOf x) (f := fileTimeOf (intervals (Spec.momentOf (systemTimeOf x)))) ?_ hl ?_).trans ?_
  · rw [F.toSystem, windows_toSystem 0 (valueOf_osInternal y) (inFileTime (by omega) h)]
  · rw [F.toFile, windows_toFile 0 hv.1]
  · rw [toOS_eq (y := x) (by rw [hv.2]; omega)]

end

/-- Windows can represent the present, in UTC and as local time. -/
structure Represented (z : Zone) (now : Nat) : Prop where
  utc : (now : Int) < windowsEnd
  low : 0 ≤ (now : Int) + z.offset (secondsOf now) * 10000000
  high : (now : Int) + z.offset (secondsOf now) * 10000000 < windowsEnd

section
variable {z : Zone} {lib : WinLibrary} {now : Nat} {c : WinClock}

theorem winUtc_eq (F : FollowsWin z lib) (S : ShowsNow z now c) (R : Represented z now) :
    winUtcTime lib c = some (winDateTime (systemTimeOf now) (now - now % 10000)) := by
  unfold winUtcTime
  rw [S.file, toOS_eq (y := now) rfl, winFromOS F R.utc]

theorem winLocal_eq (F : FollowsWin z lib) (S : ShowsNow z now c) (R : Represented z now) {y : Nat}
    (hy : (y : Int) = now + z.offset (secondsOf now) * 10000000) :
    winLocalTime lib c = some (winDateTime (systemTimeOf y) (y - y % 10000)) := by
  have hlt : (y : Int) < windowsEnd := by rw [hy]; exact R.high
  have hs := systemTimeOf_onWindows (x := y) (by omega) hlt
  have e : lib.systemTimeToFileTime c.getLocalTime = some (fileTimeOf ((y : Int) - y % 10000)) := by
    rw [S.here, ← hy, F.toFile, windows_toFile 0 hs.1, hs.2]
  unfold winLocalTime
  rw [e]
  simp only
  have e2 : fileTimeToOSInternal (fileTimeOf ((y : Int) - y % 10000)) = y - y % 10000 := toOS_eq (by omega)
  have h3 : ((y - y % 10000 : Nat) : Int) = (y : Int) - y % 10000 := by omega
  rw [e2, winFromOS F (by omega), h3, systemTimeOf_whole, show y - y % 10000 - (y - y % 10000) % 10000 = y - y % 10000 by omega]

end
end DateZone

open DateZone
variable {z : Zone} {lib : WinLibrary} {now : Nat} {c : WinClock}

/-- **C108**: on Windows, `UtcTime` displays the date and time in UTC and `LocalTime` displays what clocks in the zone show, in milliseconds,
for every zone and every time that Windows can represent; the internal values count intervals of what is displayed. -/
theorem C108_now (F : FollowsWin z lib) (S : ShowsNow z now c) (R : Represented z now) :
    (∃ d, winUtcTime lib c = some d ∧ Displays d (secondsOf now) ((now : Int) / 10000 % 1000) ∧
      (d.osInternal : Int) = now - now % 10000 ∧ d.osMilliseconds = now / 10000) ∧
    (∃ e, winLocalTime lib c = some e ∧ Displays e (z.clock (secondsOf now)) ((now : Int) / 10000 % 1000) ∧
      (e.osInternal : Int) = now - now % 10000 + z.offset (secondsOf now) * 10000000 ∧
      (e.osMilliseconds : Int) = now / 10000 + z.offset (secondsOf now) * 1000) := by
  have h0 := R.low
  obtain ⟨y, hy⟩ := Int.eq_ofNat_of_zero_le h0
  refine ⟨⟨_, winUtc_eq F S R, win_displays _ _, ?_, ?_⟩, ⟨_, winLocal_eq F S R hy.symm, ?_, ?_, ?_⟩⟩
  · simp only [winDateTime]; omega
  · simp only [winDateTime]; omega
  · have h := win_displays (y : Int) (y - y % 10000)
    have e1 : (y : Int) / 10000000 - 11644473600 = z.clock (secondsOf now) := by
      unfold Zone.clock
      generalize z.offset (secondsOf now) = o at *
      unfold secondsOf
      omega
    have e2 : (y : Int) / 10000 % 1000 = (now : Int) / 10000 % 1000 := by
      generalize z.offset (secondsOf now) = o at *
      omega
    rw [e1, e2] at h
    exact h
  · simp only [winDateTime]
    generalize z.offset (secondsOf now) = o at *
    omega
  · simp only [winDateTime]
    generalize z.offset (secondsOf now) = o at *
    omega

/-- **C108**: `ToLocalTime` of `UtcTime` is `LocalTime`, at the same clock, for every zone, also while daylight saving time is in effect. -/
theorem C108_to_local (F : FollowsWin z lib) (S : ShowsNow z now c) (R : Represented z now) :
    ∃ d e, winUtcTime lib c = some d ∧ winLocalTime lib c = some e ∧ Win.toLocalTime lib d = some e := by
  have h0 := R.low
  have h1 := R.high
  have h2 := R.utc
  obtain ⟨y, hy⟩ := Int.eq_ofNat_of_zero_le h0
  refine ⟨_, _, winUtc_eq F S R, winLocal_eq F S R hy.symm, ?_⟩
  unfold Win.toLocalTime
  have hsec : secondsOf (now - now % 10000) = secondsOf now := by unfold secondsOf; omega
  have hl : Win.utcToLocalTime lib (now - now % 10000) = some (y - y % 10000) := by
    refine winToLocal F (by omega) ?_ (by omega)
    rw [hsec]
    generalize z.offset (secondsOf now) = o at *
    omega
  show (Win.utcToLocalTime lib (now - now % 10000)).bind _ = _
  rw [hl, Option.bind_some, winFromOS F (by omega), show ((y - y % 10000 : Nat) : Int) = (y : Int) - y % 10000 by omega, systemTimeOf_whole,
    show y - y % 10000 - (y - y % 10000) % 10000 = y - y % 10000 by omega]

/-- the full statement: `ToUtcTime` of `LocalTime` is `UtcTime`, at every clock -/
def C108_statement (z : Zone) (lib : WinLibrary) : Prop :=
  ∀ now c, ShowsNow z now c → Represented z now →
    ∃ d e, winUtcTime lib c = some d ∧ winLocalTime lib c = some e ∧ Win.toUtcTime lib e = some d

/-- **C108**, partial: `ToUtcTime` of `LocalTime` is a date-time at which clocks show the same, and it is `UtcTime` if clocks show this only
once.

Missing: times that clocks show twice, see `C108_violated`. -/
theorem C108_to_utc_partial (F : FollowsWin z lib) (S : ShowsNow z now c) (R : Represented z now) :
    ∃ d e, winUtcTime lib c = some d ∧ winLocalTime lib c = some e ∧
      (∃ u g, z.clock u = z.clock (secondsOf now) ∧ Win.toUtcTime lib e = some g ∧ Displays g u ((now : Int) / 10000 % 1000)) ∧
      ((∀ u, z.clock u = z.clock (secondsOf now) → u = secondsOf now) → Win.toUtcTime lib e = some d) := by
  have h0 := R.low
  have h1 := R.high
  have h2 := R.utc
  obtain ⟨y, hy⟩ := Int.eq_ofNat_of_zero_le h0
  have hsec : secondsOf (y - y % 10000) = z.clock (secondsOf now) := by
    unfold Zone.clock
    generalize z.offset (secondsOf now) = o at *
    unfold secondsOf
    omega
  have hms : ((y - y % 10000 : Nat) : Int) / 10000 % 1000 = (now : Int) / 10000 % 1000 := by
    generalize z.offset (secondsOf now) = o at *
    omega
  obtain ⟨u, hu, u0, u1, x, hx, hl⟩ := winToUtc F (y := y - y % 10000) (by omega) (secondsOf now) hsec.symm
    (by unfold secondsOf; omega) (by unfold secondsOf; omega)
  rw [hsec] at hu
  rw [hms] at hx
  have hxe : (x : Int) < windowsEnd := by unfold windowsEnd at *; omega
  have hto : Win.toUtcTime lib (winDateTime (systemTimeOf y) (y - y % 10000)) =
      some (winDateTime (systemTimeOf x) (x - x % 10000)) := by
    unfold Win.toUtcTime
    show (Win.localToUtcTime lib (y - y % 10000)).bind _ = _
    rw [hl, Option.bind_some, winFromOS F hxe]
  refine ⟨_, _, winUtc_eq F S R, winLocal_eq F S R hy.symm, ⟨u, _, hu, hto, ?_⟩, fun hone => ?_⟩
  · have h := win_displays (x : Int) (x - x % 10000)
    rw [show (x : Int) / 10000000 - 11644473600 = u by omega, show (x : Int) / 10000 % 1000 = (now : Int) / 10000 % 1000 by omega] at h
    exact h
  · have hun := hone u hu
    rw [hto]
    have e : x = now - now % 10000 := by
      rw [hun] at hx
      unfold secondsOf at hx
      omega
    subst e
    rw [show ((now - now % 10000 : Nat) : Int) = (now : Int) - now % 10000 by omega, systemTimeOf_whole,
      show now - now % 10000 - (now - now % 10000) % 10000 = now - now % 10000 by omega]

/-- **C108** is violated, whatever Windows does, in every zone in which clocks show some time twice: for at least one of the two times,
`ToUtcTime` of `LocalTime` is not `UtcTime`. -/
theorem C108_violated (F : FollowsWin z lib) (a b : Nat) (ca cb : WinClock) (Sa : ShowsNow z a ca) (Sb : ShowsNow z b cb)
    (Ra : Represented z a) (Rb : Represented z b) (hne : a / 10000 ≠ b / 10000)
    (he : (a : Int) + z.offset (secondsOf a) * 10000000 = b + z.offset (secondsOf b) * 10000000) : ¬ C108_statement z lib := by
  intro St
  obtain ⟨d, e, hd, h1, h2⟩ := St a ca Sa Ra
  obtain ⟨d', e', hd', h1', h2'⟩ := St b cb Sb Rb
  obtain ⟨y, hy⟩ := Int.eq_ofNat_of_zero_le Ra.low
  rw [winLocal_eq F Sa Ra hy.symm] at h1
  rw [winLocal_eq F Sb Rb (hy.symm.trans he)] at h1'
  rw [← Option.some.inj h1] at h2
  rw [← Option.some.inj h1', h2] at h2'
  rw [winUtc_eq F Sa Ra] at hd
  rw [winUtc_eq F Sb Rb] at hd'
  have h3 := congrArg DateTime.osInternal (Option.some.inj (hd.trans (h2'.trans hd'.symm)))
  simp only [winDateTime] at h3
  omega

/-! Every zone has a Windows, and a concrete case. -/

open Classical in
/-- Windows in a zone -/
noncomputable def DateZone.windowsIn (z : Zone) : WinLibrary where
  fileTimeToSystemTime := (windows 0).fileTimeToSystemTime
  systemTimeToFileTime := (windows 0).systemTimeToFileTime
  systemToLocal s := (windows (z.offset (Spec.momentOf s).seconds)).systemToLocal s
  localToSystem s :=
    if h : ∃ t, z.clock t = (Spec.momentOf s).seconds ∧ 0 ≤ t + 11644473600 ∧ (t + 11644473600) * 10000000 < windowsEnd
    then some (systemTimeOf ((Classical.choose h + 11644473600) * 10000000 + (Spec.momentOf s).milliseconds * 10000)) else none

theorem DateZone.windowsIn_follows (z : Zone) : FollowsWin z (windowsIn z) where
  toSystem _ := rfl
  toFile _ := rfl
  toLocal _ _ := rfl
  toUtc s _ h := by
    have hc := Classical.choose_spec h
    exact ⟨Classical.choose h, hc.1, hc.2.1, hc.2.2, dif_pos h⟩

/-- what Windows says at a time -/
def DateZone.clockAt (z : Zone) (now : Nat) : WinClock := ⟨systemTimeOf (now + z.offset (secondsOf now) * 10000000), fileTimeOf now⟩

theorem DateZone.clockAt_shows (z : Zone) (now : Nat) : ShowsNow z now (clockAt z now) := ⟨rfl, rfl⟩

/-- 2024-07-01 12:00:00.250 UTC in Berlin -/
example : (∃ d, winUtcTime (windowsIn berlin) (clockAt berlin 133643088002500000) = some d ∧ Displays d 1719835200 250) ∧
    ∃ e, winLocalTime (windowsIn berlin) (clockAt berlin 133643088002500000) = some e ∧ Displays e (1719835200 + 7200) 250 := by
  obtain ⟨⟨d, h1, h2, _⟩, ⟨e, h3, h4, _⟩⟩ := C108_now (windowsIn_follows berlin) (clockAt_shows berlin 133643088002500000)
    ⟨by decide, by decide, by decide⟩
  exact ⟨⟨d, h1, h2⟩, ⟨e, h3, h4⟩⟩

/-- 02:30 of 2024-10-27, twice -/
example : ¬ C108_statement berlin (windowsIn berlin) :=
  C108_violated (windowsIn_follows berlin) 133744626000000000 133744662000000000 _ _ (clockAt_shows _ _) (clockAt_shows _ _)
    ⟨by decide, by decide, by decide⟩ ⟨by decide, by decide, by decide⟩ (by decide) (by decide)

end Vlpp
