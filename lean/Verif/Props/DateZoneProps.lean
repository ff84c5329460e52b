import Verif.Props.DateTimeProps
import Verif.Spec.DateZone

/-!
# C107: date-times on Linux in time zones with daylight saving time
-/
set_option autoImplicit false
namespace Vlpp
open Spec
open Dates (Tm DateTime wrap timeToOSInternal osInternalToTime timeToOSInternal_eq wrap_of_nonneg wrap_of_lt wrap_lt wrap_add_left
  wrap_sub_left dateOf_valid daysOf_dateOf buildUp_breakDown breakDown_seconds buildUp_tmOf dateOf_daysOf)

namespace DateZone

/-- the members that belong to what clocks show -/
def shown (b milliseconds : Int) (x : Nat) : DateTime :=
  let tm := breakDown b
  ⟨tm.year + 1900, tm.mon + 1, tm.mday, tm.wday, tm.hour, tm.min, tm.sec, milliseconds, x, x⟩

theorem shown_displays (b ms : Int) (x : Nat) : Displays (shown b ms x) b ms := by
  simp only [Displays, shown, breakDown]
  generalize dateOf (b / 86400) = p
  obtain ⟨y, m, d⟩ := p
  simp only [Prod.mk.injEq]
  refine ⟨⟨by omega, by omega, trivial⟩, trivial, by omega, by omega, by omega, trivial⟩

theorem Displays_inj {d : DateTime} {b b' ms ms' : Int} (h : Displays d b ms) (h' : Displays d b' ms') : b = b' ∧ ms = ms' := by
  have e : dateOf (b / 86400) = dateOf (b' / 86400) := h.1.symm.trans h'.1
  have hd : b / 86400 = b' / 86400 := by
    rw [← daysOf_dateOf (b / 86400), ← daysOf_dateOf (b' / 86400), e]
  have hs : b % 86400 = b' % 86400 := h.2.2.1.symm.trans h'.2.2.1
  refine ⟨by omega, h.2.2.2.2.2.symm.trans h'.2.2.2.2.2⟩

/-- what a moment is displayed as -/
theorem displays_moment {m : Moment} (hv : m.Valid) {d : DateTime} (h : Displays d m.seconds m.milliseconds) :
    (⟨d.year, d.month, d.day, d.hour, d.minute, d.second, d.milliseconds⟩ : Moment) = m ∧
    d.dayOfWeek = (daysOf m.year m.month m.day + 4) % 7 := by
  have h1 := hv.hour
  have h2 := hv.minute
  have h3 := hv.second
  have hd : m.seconds / 86400 = daysOf m.year m.month m.day := by unfold Moment.seconds; omega
  have hs : m.seconds % 86400 = m.hour * 3600 + m.minute * 60 + m.second := by unfold Moment.seconds; omega
  obtain ⟨a, b, c, ⟨e1, e2⟩, ⟨f1, f2⟩, g⟩ := h
  rw [hd, dateOf_daysOf hv.month hv.day] at a
  simp only [Prod.mk.injEq] at a
  rw [hs] at c
  obtain ⟨y, mo, da, ho, mi, se, ms⟩ := m
  simp only [Moment.mk.injEq] at *
  refine ⟨⟨by omega, by omega, by omega, by omega, by omega, by omega, by omega⟩, by rw [b, hd]⟩

theorem moment_displays {m : Moment} (hv : m.Valid) {d : DateTime} {b ms : Int} (h : Displays d b ms)
    (he : (⟨d.year, d.month, d.day, d.hour, d.minute, d.second, d.milliseconds⟩ : Moment) = m) : b = m.seconds := by
  obtain ⟨a, _, c, _, _, _⟩ := h
  have hd : daysOf d.year d.month d.day = b / 86400 := by
    have := daysOf_dateOf (b / 86400)
    rw [← a] at this
    exact this
  subst he
  have := hv.hour
  unfold Moment.seconds
  simp only
  rw [hd]
  omega

section
variable {z : Zone} {lib : Library}

theorem mktime_localtime (F : FollowsC z lib) (t : Int) : lib.mktime (lib.localtime t) = (t, lib.localtime t) := by
  have h1 : (lib.mktime (lib.localtime t)).1 = t := by
    rw [F.localtime]
    cases hs : z.summer t
    · rw [if_neg (by decide), F.standard, buildUp_breakDown]
      simp only [Zone.clock, Zone.offset, hs, Bool.false_eq_true, if_false]
      omega
    · rw [if_pos rfl, F.summer, buildUp_breakDown]
      simp only [Zone.clock, Zone.offset, hs, if_true]
      omega
  have h2 := F.members (lib.localtime t)
  rw [h1] at h2
  exact Prod.ext h1 h2

theorem mktime_gmtime (F : FollowsC z lib) (t : Int) : (lib.mktime (lib.gmtime t)).1 = t - z.standard := by
  rw [F.gmtime, F.standard, buildUp_breakDown]

theorem convert_eq (F : FollowsC z lib) (tm : TmZ) (ms : Int) :
    convertTMToDateTime lib tm ms = shown (z.clock (lib.mktime tm).1) ms (wrap ((lib.mktime tm).1 * 1000 + ms)) := by
  unfold convertTMToDateTime shown
  have h := F.members tm
  have h' := F.localtime (lib.mktime tm).1
  generalize lib.mktime tm = r at *
  obtain ⟨t, q⟩ := r
  simp only at h h' ⊢
  rw [h, h']
  simp only [timeToOSInternal_eq]

theorem fromOS_eq (F : FollowsC z lib) {x : Nat} (hx : x < 18446744073709551616) :
    fromOSInternal lib x = shown (z.clock ((x : Int) / 1000)) ((x : Int) % 1000) x := by
  show convertTMToDateTime lib (lib.localtime ((x : Int) / 1000)) ((x : Int) % 1000) = _
  rw [convert_eq F, mktime_localtime F]
  simp only
  have : wrap ((x : Int) / 1000 * 1000 + (x : Int) % 1000) = x := by
    rw [show (x : Int) / 1000 * 1000 + (x : Int) % 1000 = (x : Int) by omega]
    exact wrap_of_lt hx
  rw [this]

theorem fromOS_internal (F : FollowsC z lib) {x : Nat} (hx : x < 18446744073709551616) : (fromOSInternal lib x).osInternal = x := by
  rw [fromOS_eq F hx]
  rfl

theorem toUtc_eq (F : FollowsC z lib) (d : DateTime) :
    toUtcTime lib d = fromOSInternal lib (wrap (d.osInternal - z.standard * 1000)) := by
  simp only [toUtcTime, osInternalToTime, convertTMToOSInternal, timeToOSInternal_eq, mktime_gmtime F]
  congr 2
  omega

theorem toLocal_eq (F : FollowsC z lib) (d : DateTime) :
    toLocalTime lib d = fromOSInternal lib (wrap (d.osInternal + z.standard * 1000)) := by
  simp only [toLocalTime, osInternalToTime, timeToOSInternal_eq, mktime_gmtime F, mktime_localtime F]
  congr 2
  omega

theorem localTime_eq (F : FollowsC z lib) (c : Clock) :
    localTime lib c = fromOSInternal lib (wrap (c.sec * 1000 + c.usec.tdiv 1000)) := by
  simp only [localTime, convertTMToOSInternal, timeToOSInternal_eq, mktime_localtime F]

theorem utcTime_eq (F : FollowsC z lib) (c : Clock) :
    utcTime lib c = fromOSInternal lib (wrap ((c.sec - z.standard) * 1000 + c.usec.tdiv 1000)) := by
  simp only [utcTime, convertTMToOSInternal, timeToOSInternal_eq, mktime_gmtime F]

end

/-- A clock from 1970 on: microseconds are below a million, and the milliseconds fit into 64 bits. -/
structure Clock.Good (c : Clock) : Prop where
  sec : 0 ≤ c.sec
  usec : 0 ≤ c.usec ∧ c.usec < 1000000
  fits : c.sec * 1000 + c.usec / 1000 < 18446744073709551616

theorem Clock.Good.usec_eq {c : Clock} (h : c.Good) : c.usec.tdiv 1000 = c.usec / 1000 :=
  Int.tdiv_eq_ediv_of_nonneg h.usec.1

end DateZone

open DateZone
variable {z : Zone} {lib : DateZone.Library}

/-- **C107**: `LocalTime` displays what clocks in the zone show, with the milliseconds of the clock, and its internal value is the number
of milliseconds after 1970 in UTC; for every zone and every clock. -/
theorem C107_local_time (F : FollowsC z lib) (c : Clock) (hc : c.Good) :
    Displays (localTime lib c) (z.clock c.sec) (c.usec / 1000) ∧
    ((localTime lib c).osInternal : Int) = c.sec * 1000 + c.usec / 1000 ∧
    (localTime lib c).osMilliseconds = (localTime lib c).osInternal := by
  have h1 := hc.usec; have h2 := hc.sec; have h3 := hc.fits
  have hw := wrap_of_nonneg (x := c.sec * 1000 + c.usec / 1000) (by omega) h3
  rw [localTime_eq F, hc.usec_eq, fromOS_eq F (wrap_lt _), hw]
  have e1 : (c.sec * 1000 + c.usec / 1000) / 1000 = c.sec := by omega
  have e2 : (c.sec * 1000 + c.usec / 1000) % 1000 = c.usec / 1000 := by omega
  rw [e1, e2]
  exact ⟨shown_displays _ _ _, hw, rfl⟩

/-- **C107**: `FromOSInternal` displays what clocks in the zone show at that time and keeps the value, for every value. -/
theorem C107_from_internal (F : FollowsC z lib) (x : Nat) (hx : x < 18446744073709551616) :
    Displays (fromOSInternal lib x) (z.clock ((x : Int) / 1000)) ((x : Int) % 1000) ∧
    (fromOSInternal lib x).osInternal = x ∧ (fromOSInternal lib x).osMilliseconds = x := by
  rw [fromOS_eq F hx]
  exact ⟨shown_displays _ _ _, rfl, rfl⟩

/-- **C107**: `Forward` goes forward by exactly that many milliseconds, and displays what clocks show then, also if they were changed in
between; `Backward` undoes it. -/
theorem C107_forward (F : FollowsC z lib) (x delta : Nat) (hx : x + delta < 18446744073709551616) :
    forward lib (fromOSInternal lib x) delta = fromOSInternal lib (x + delta) ∧
    backward lib (forward lib (fromOSInternal lib x) delta) delta = fromOSInternal lib x := by
  have h1 : forward lib (fromOSInternal lib x) delta = fromOSInternal lib (x + delta) := by
    unfold forward
    rw [fromOS_internal F (by omega)]
    have := wrap_of_lt (x := x + delta) hx
    rw [← this]
    congr 2
  refine ⟨h1, ?_⟩
  rw [h1]
  unfold backward
  rw [fromOS_internal F hx, show ((x + delta : Nat) : Int) - delta = (x : Int) by omega, wrap_of_lt (by omega)]

/-- **C107**: `ToUtcTime` and `ToLocalTime` cancel, in both orders, for every value, in every zone; also while daylight saving time is in
effect, or begins or ends in between. -/
theorem C107_cancel (F : FollowsC z lib) (x : Nat) (hx : x < 18446744073709551616) :
    toLocalTime lib (toUtcTime lib (fromOSInternal lib x)) = fromOSInternal lib x ∧
    toUtcTime lib (toLocalTime lib (fromOSInternal lib x)) = fromOSInternal lib x := by
  rw [toUtc_eq F, toLocal_eq F, toLocal_eq F (fromOSInternal lib x), toUtc_eq F, fromOS_internal F hx, fromOS_internal F (wrap_lt _),
    fromOS_internal F (wrap_lt _), wrap_add_left, wrap_sub_left, Int.sub_add_cancel, Int.add_sub_cancel, wrap_of_lt hx]
  exact ⟨rfl, rfl⟩

/-- **C107**: at the same clock, `LocalTime` and `UtcTime` are converted to each other. -/
theorem C107_convert (F : FollowsC z lib) (c : Clock) (hc : c.Good) :
    toUtcTime lib (localTime lib c) = utcTime lib c ∧ toLocalTime lib (utcTime lib c) = localTime lib c := by
  have h1 := hc.usec; have h2 := hc.sec; have h3 := hc.fits
  rw [localTime_eq F, utcTime_eq F, toUtc_eq F, toLocal_eq F, fromOS_internal F (wrap_lt _), fromOS_internal F (wrap_lt _),
    wrap_add_left, wrap_sub_left]
  constructor <;> congr 2 <;> omega

/-- the full statement about UTC: `UtcTime` displays the date and time in UTC, and `ToUtcTime` displays the date and time in UTC of the
same time -/
def C107_statement (z : Zone) (lib : DateZone.Library) : Prop :=
  (∀ c : Clock, c.Good → 0 ≤ c.sec - z.standard → c.sec - z.standard ≤ 18446744073709550 → Displays (utcTime lib c) c.sec (c.usec / 1000)) ∧
  (∀ x : Nat, x < 18446744073709551616 → 0 ≤ (x : Int) - z.standard * 1000 → (x : Int) - z.standard * 1000 < 18446744073709551616 →
    Displays (toUtcTime lib (fromOSInternal lib x)) ((x : Int) / 1000) ((x : Int) % 1000))

/-- **C107**, partial: what `ToUtcTime` displays, for every value whose result can be expressed.  It is UTC if and only if daylight saving
time is not in effect at the time that many seconds of the standard distance earlier.

Missing: UTC while daylight saving time is in effect, see `C107_violated`. -/
theorem C107_to_utc_partial (F : FollowsC z lib) (x : Nat) (hx : x < 18446744073709551616) (h0 : 0 ≤ (x : Int) - z.standard * 1000)
    (h1 : (x : Int) - z.standard * 1000 < 18446744073709551616) :
    Displays (toUtcTime lib (fromOSInternal lib x))
      ((x : Int) / 1000 + if z.summer ((x : Int) / 1000 - z.standard) then z.saving else 0) ((x : Int) % 1000) ∧
    (Displays (toUtcTime lib (fromOSInternal lib x)) ((x : Int) / 1000) ((x : Int) % 1000) ↔
      z.summer ((x : Int) / 1000 - z.standard) = false ∨ z.saving = 0) := by
  have hd : Displays (toUtcTime lib (fromOSInternal lib x))
      ((x : Int) / 1000 + if z.summer ((x : Int) / 1000 - z.standard) then z.saving else 0) ((x : Int) % 1000) := by
    have hw := wrap_of_nonneg h0 h1
    rw [toUtc_eq F, fromOS_internal F hx]
    have h := (C107_from_internal F (wrap ((x : Int) - z.standard * 1000)) (wrap_lt _)).1
    rw [hw] at h
    have e1 : ((x : Int) - z.standard * 1000) / 1000 = (x : Int) / 1000 - z.standard := by omega
    have e2 : ((x : Int) - z.standard * 1000) % 1000 = (x : Int) % 1000 := by omega
    rw [e1, e2] at h
    have e3 : z.clock ((x : Int) / 1000 - z.standard) =
        (x : Int) / 1000 + if z.summer ((x : Int) / 1000 - z.standard) then z.saving else 0 := by
      unfold Zone.clock Zone.offset
      omega
    rw [e3] at h
    exact h
  refine ⟨hd, fun h => ?_, fun h => ?_⟩
  · have := (Displays_inj hd h).1
    cases hs : z.summer ((x : Int) / 1000 - z.standard)
    · exact .inl rfl
    · rw [hs, if_pos rfl] at this
      exact .inr (by omega)
  · rcases h with h | h
    · rw [h] at hd
      simpa using hd
    · rw [h] at hd
      simpa using hd

/-- **C107**, partial: the same for `UtcTime`.

Missing: UTC while daylight saving time is in effect, see `C107_violated`. -/
theorem C107_utc_partial (F : FollowsC z lib) (c : Clock) (hc : c.Good) (h0 : 0 ≤ c.sec - z.standard)
    (h1 : c.sec - z.standard ≤ 18446744073709550) :
    Displays (utcTime lib c) (c.sec + if z.summer (c.sec - z.standard) then z.saving else 0) (c.usec / 1000) ∧
    (Displays (utcTime lib c) c.sec (c.usec / 1000) ↔ z.summer (c.sec - z.standard) = false ∨ z.saving = 0) := by
  have g1 := hc.usec; have g2 := hc.sec; have g3 := hc.fits
  obtain ⟨x, hx⟩ := Int.eq_ofNat_of_zero_le (a := c.sec * 1000 + c.usec / 1000) (by omega)
  have e1 : (x : Int) / 1000 = c.sec := by omega
  have e2 : (x : Int) % 1000 = c.usec / 1000 := by omega
  have h := C107_to_utc_partial F x (by omega) (by omega) (by omega)
  have hl : localTime lib c = fromOSInternal lib x := by
    rw [localTime_eq F, hc.usec_eq, hx]
    exact congrArg _ (wrap_of_lt (by omega))
  rw [← hl, (C107_convert F c hc).1, e1, e2] at h
  exact h

/-- **C107** is violated while daylight saving time is in effect: `UtcTime` displays a time that is not UTC (it is later by what is saved),
at every such clock, in every zone. -/
theorem C107_violated (F : FollowsC z lib) (c : Clock) (hc : c.Good) (h0 : 0 ≤ c.sec - z.standard)
    (h1 : c.sec - z.standard ≤ 18446744073709550) (hs : z.summer (c.sec - z.standard) = true) (hz : z.saving ≠ 0) :
    Displays (utcTime lib c) (c.sec + z.saving) (c.usec / 1000) ∧ ¬ Displays (utcTime lib c) c.sec (c.usec / 1000) ∧
    ¬ C107_statement z lib := by
  have h := C107_utc_partial F c hc h0 h1
  rw [hs] at h
  have hn : ¬ Displays (utcTime lib c) c.sec (c.usec / 1000) := fun hd => by
    rcases h.2.1 hd with e | e
    · cases e
    · exact hz e
  exact ⟨by simpa using h.1, hn, fun S => hn (S.1 c hc h0 h1)⟩

namespace DateZone

/-- a date-time made from a moment -/
abbrev ofMoment (lib : Library) (m : Moment) : DateTime :=
  fromDateTime lib m.year m.month m.day m.hour m.minute m.second m.milliseconds

/-- the date and the time that a date-time has as members -/
def momentOf (d : DateTime) : Moment := ⟨d.year, d.month, d.day, d.hour, d.minute, d.second, d.milliseconds⟩

end DateZone

/-- **C107**: `FromDateTime` returns the members that it was given if and only if clocks in the zone show them at some time; then the day of
the week is right, and the internal value is a time at which they do, from 1970 on, and `FromOSInternal` gives the same date-time again. -/
theorem C107_from_date_time (F : FollowsC z lib) (m : Moment) (hv : m.Valid) :
    (DateZone.momentOf (DateZone.ofMoment lib m) = m ↔ ∃ t, z.clock t = m.seconds) ∧
    (∀ t, z.clock t = m.seconds → (DateZone.ofMoment lib m).dayOfWeek = (daysOf m.year m.month m.day + 4) % 7 ∧
      ∃ u, z.clock u = m.seconds ∧ (0 ≤ u → u * 1000 + m.milliseconds < 18446744073709551616 →
        ((DateZone.ofMoment lib m).osInternal : Int) = u * 1000 + m.milliseconds ∧
        DateZone.ofMoment lib m = fromOSInternal lib (DateZone.ofMoment lib m).osInternal)) := by
  have hb := buildUp_tmOf hv
  have hm := hv.milliseconds
  generalize hu : (lib.mktime ⟨Dates.tmOf m, -1⟩).1 = u
  have he : DateZone.ofMoment lib m = shown (z.clock u) m.milliseconds (wrap (u * 1000 + m.milliseconds)) := by
    rw [← hu]
    exact convert_eq F _ _
  have hd : Displays (DateZone.ofMoment lib m) (z.clock u) m.milliseconds := by
    rw [he]
    exact shown_displays _ _ _
  have hk : ∀ t, z.clock t = m.seconds → z.clock u = m.seconds := by
    intro t ht
    have := F.unknown (Dates.tmOf m) ⟨t, ht.trans hb.symm⟩
    rw [hu, hb] at this
    exact this
  refine ⟨⟨fun h => ⟨u, moment_displays hv hd h⟩, fun ⟨t, ht⟩ => ?_⟩, fun t ht => ?_⟩
  · rw [hk t ht] at hd
    exact (displays_moment hv hd).1
  · have hc := hk t ht
    rw [hc] at hd
    refine ⟨(displays_moment hv hd).2, u, hc, fun h0 h1 => ?_⟩
    have hw := wrap_of_nonneg (x := u * 1000 + m.milliseconds) (by omega) h1
    have hi : ((DateZone.ofMoment lib m).osInternal : Int) = u * 1000 + m.milliseconds := by
      rw [he]
      exact hw
    refine ⟨hi, ?_⟩
    rw [fromOS_eq F (by omega), hi, show (u * 1000 + m.milliseconds) / 1000 = u by omega,
      show (u * 1000 + m.milliseconds) % 1000 = m.milliseconds by omega, he]
    congr 1

/-- **C107**: what clocks show twice is lost.  If clocks show the same at two times, `FromDateTime` of the members returns another time for
at least one of them, whatever the library does. -/
theorem C107_violated_repeated (F : FollowsC z lib) (t u : Int) (ht : 0 ≤ t) (hu : 0 ≤ u) (ht' : t ≤ 18446744073709550) (hu' : u ≤ 18446744073709550)
    (hne : t ≠ u) (he : z.clock t = z.clock u) :
    ¬ (DateZone.ofMoment lib (DateZone.momentOf (fromOSInternal lib (wrap (t * 1000)))) = fromOSInternal lib (wrap (t * 1000)) ∧
       DateZone.ofMoment lib (DateZone.momentOf (fromOSInternal lib (wrap (u * 1000)))) = fromOSInternal lib (wrap (u * 1000))) := by
  intro ⟨h1, h2⟩
  have wt := wrap_of_nonneg (x := t * 1000) (by omega) (by omega)
  have wu := wrap_of_nonneg (x := u * 1000) (by omega) (by omega)
  have e : DateZone.momentOf (fromOSInternal lib (wrap (t * 1000))) = DateZone.momentOf (fromOSInternal lib (wrap (u * 1000))) := by
    rw [fromOS_eq F (wrap_lt _), fromOS_eq F (wrap_lt _), wt, wu, show t * 1000 / 1000 = t by omega, show u * 1000 / 1000 = u by omega,
      show t * 1000 % 1000 = 0 by omega, show u * 1000 % 1000 = 0 by omega, he]
    rfl
  rw [e] at h1
  have h3 := congrArg DateTime.osInternal (h1.symm.trans h2)
  rw [fromOS_internal F (wrap_lt _), fromOS_internal F (wrap_lt _)] at h3
  omega

/-! Every zone has a library, and a concrete zone. -/

open Classical in
/-- a library for a zone -/
noncomputable def DateZone.libraryOf (z : Zone) : DateZone.Library :=
  let localtime := fun t => (⟨breakDown (z.clock t), if z.summer t then 1 else 0⟩ : TmZ)
  let time := fun (tm : TmZ) =>
    if tm.isdst = 0 then buildUp tm.tm - z.standard
    else if tm.isdst = 1 then buildUp tm.tm - (z.standard + z.saving)
    else if h : ∃ t, z.clock t = buildUp tm.tm then Classical.choose h else buildUp tm.tm - z.standard
  { localtime, gmtime := fun t => ⟨breakDown t, 0⟩, mktime := fun tm => (time tm, localtime (time tm)) }

open Classical in
theorem DateZone.libraryOf_follows (z : Zone) : FollowsC z (libraryOf z) where
  localtime _ := rfl
  gmtime _ := rfl
  standard _ := rfl
  summer _ := rfl
  unknown tm h := by
    simp only [libraryOf]
    rw [if_neg (by decide), if_neg (by decide), dif_pos h]
    exact Classical.choose_spec h
  members _ := rfl

/-- Central Europe in 2024: one hour more from 2024-03-31 01:00 UTC to 2024-10-27 01:00 UTC -/
def DateZone.berlin : Zone := ⟨3600, 3600, fun t => decide (1711846800 ≤ t ∧ t < 1729990800)⟩

/-- 2024-07-01 12:00:00.250 UTC -/
def DateZone.july : Clock := ⟨1719835200, 250000⟩

theorem DateZone.july_good : july.Good := ⟨by decide, by decide, by decide⟩

example : Displays (utcTime (libraryOf berlin) july) (1719835200 + 3600) 250 ∧
    ¬ Displays (utcTime (libraryOf berlin) july) 1719835200 250 :=
  let h := C107_violated (libraryOf_follows berlin) july july_good (by decide) (by decide) (by decide) (by decide)
  ⟨h.1, h.2.1⟩

example : (localTime (libraryOf berlin) july).hour = 14 ∧ (utcTime (libraryOf berlin) july).hour = 13 := by
  have F := libraryOf_follows berlin
  rw [localTime_eq F, utcTime_eq F, fromOS_eq F (wrap_lt _), fromOS_eq F (wrap_lt _)]
  decide +kernel

/-- in January the hours are right -/
example : Displays (utcTime (libraryOf berlin) ⟨1705320000, 0⟩) 1705320000 0 :=
  (C107_utc_partial (libraryOf_follows berlin) ⟨1705320000, 0⟩ ⟨by decide, by decide, by decide⟩ (by decide) (by decide)).2.2 (.inl (by decide))

/-- 02:30 does not exist on 2024-03-31: another time is returned -/
example : DateZone.momentOf (DateZone.ofMoment (libraryOf berlin) ⟨2024, 3, 31, 2, 30, 0, 0⟩) ≠ ⟨2024, 3, 31, 2, 30, 0, 0⟩ := by
  intro h
  obtain ⟨t, ht⟩ := (C107_from_date_time (libraryOf_follows berlin) ⟨2024, 3, 31, 2, 30, 0, 0⟩
    ⟨by decide, by decide, by decide, by decide, by decide, by decide⟩).1.1 h
  have e : (⟨2024, 3, 31, 2, 30, 0, 0⟩ : Moment).seconds = 1711852200 := by decide
  rw [e] at ht
  simp only [Zone.clock, Zone.offset, berlin, decide_eq_true_eq] at ht
  split at ht <;> omega

/-- 02:30 of 2024-10-27 is there twice -/
example : berlin.clock 1729989000 = berlin.clock 1729992600 ∧
    ¬ (DateZone.ofMoment (libraryOf berlin) (DateZone.momentOf (fromOSInternal (libraryOf berlin) (wrap (1729989000 * 1000)))) =
         fromOSInternal (libraryOf berlin) (wrap (1729989000 * 1000)) ∧
       DateZone.ofMoment (libraryOf berlin) (DateZone.momentOf (fromOSInternal (libraryOf berlin) (wrap (1729992600 * 1000)))) =
         fromOSInternal (libraryOf berlin) (wrap (1729992600 * 1000))) :=
  ⟨by decide, C107_violated_repeated (libraryOf_follows berlin) _ _ (by decide) (by decide) (by decide) (by decide) (by decide) (by decide)⟩

end Vlpp
