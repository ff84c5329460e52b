import Verif.Spec.DateTime

/-! # C53, C62: dates -/
set_option autoImplicit false
namespace Vlpp
open Dates Spec

namespace Dates

/-- the parts of a day number -/
theorem dateOf_cases (days : Int) : ∃ y doy mp : Int, 0 ≤ doy ∧ doy ≤ 365 ∧
    (doy = 365 → (y + 1) % 4 = 0 ∧ ((y + 1) % 100 ≠ 0 ∨ (y + 1) % 400 = 0)) ∧ mp = (5 * doy + 2) / 153 ∧
    days = 365 * y + y / 4 - y / 100 + y / 400 + doy - 719468 ∧
    dateOf days = if mp < 10 then (y, mp + 3, doy - (153 * mp + 2) / 5 + 1) else (y + 1, mp - 9, doy - (153 * mp + 2) / 5 + 1) := by
  simp only [dateOf]
  generalize hz : days + 719468 = z
  generalize hq : z / 146097 = n400
  generalize hr : z % 146097 = r
  have h1 : 0 ≤ r ∧ r < 146097 := by omega
  generalize hc : (if r / 36524 = 4 then 3 else r / 36524) = n100
  have h2 : 0 ≤ n100 ∧ n100 ≤ 3 ∧ 0 ≤ r - 36524 * n100 ∧ (n100 < 3 → r - 36524 * n100 < 36524) ∧ (n100 = 3 → r - 36524 * n100 ≤ 36524) := by
    split at hc <;> omega
  generalize hr2 : r - 36524 * n100 = r2 at *
  generalize h4 : r2 / 1461 = n4
  generalize hr3 : r2 % 1461 = r3
  have h3 : 0 ≤ n4 ∧ n4 ≤ 24 ∧ 0 ≤ r3 ∧ r3 < 1461 := by omega
  generalize hy : (if r3 / 365 = 4 then 3 else r3 / 365) = n1
  have h5 : 0 ≤ n1 ∧ n1 ≤ 3 ∧ 0 ≤ r3 - 365 * n1 ∧ (n1 < 3 → r3 - 365 * n1 < 365) ∧ r3 - 365 * n1 ≤ 365 := by
    split at hy <;> omega
  clear hc hy
  refine ⟨400 * n400 + 100 * n100 + 4 * n4 + n1, r3 - 365 * n1, _, by omega, by omega, ?_, rfl, ?_, rfl⟩
  · intro h
    omega
  · have e1 : (400 * n400 + 100 * n100 + 4 * n4 + n1) / 4 = 100 * n400 + 25 * n100 + n4 := by omega
    have e2 : (400 * n400 + 100 * n100 + 4 * n4 + n1) / 100 = 4 * n400 + n100 := by omega
    have e3 : (400 * n400 + 100 * n100 + 4 * n4 + n1) / 400 = n400 := by omega
    rw [e1, e2, e3]
    omega

theorem leap_iff (y : Int) : leap y = true ↔ y % 4 = 0 ∧ (y % 100 ≠ 0 ∨ y % 400 = 0) := by
  simp [leap]

theorem daysInMonth_le {y m d : Int} (h : d ≤ daysInMonth y m) : d ≤ 31 ∧ ((m = 4 ∨ m = 6 ∨ m = 9 ∨ m = 11) → d ≤ 30) ∧
    (m = 2 → d ≤ 29 ∧ (d = 29 → y % 4 = 0 ∧ (y % 100 ≠ 0 ∨ y % 400 = 0))) := by
  unfold daysInMonth at h
  have hl := leap_iff y
  cases hle : leap y
  · rw [hle] at h hl
    split at h
    · refine ⟨by omega, by omega, fun _ => ⟨by simp at h; omega, fun h29 => ?_⟩⟩
      simp at h; omega
    · split at h <;> omega
  · rw [hle] at h hl
    have := hl.1 rfl
    split at h
    · simp at h
      omega
    · split at h <;> omega

theorem le_daysInMonth {y m d : Int} (h : d ≤ 31) (h1 : (m = 4 ∨ m = 6 ∨ m = 9 ∨ m = 11) → d ≤ 30)
    (h2 : m = 2 → d ≤ 29 ∧ (d = 29 → y % 4 = 0 ∧ (y % 100 ≠ 0 ∨ y % 400 = 0))) : d ≤ daysInMonth y m := by
  unfold daysInMonth
  split
  · next hm =>
    have := h2 hm
    split
    · omega
    · next hl =>
      rw [leap_iff] at hl
      have : d ≠ 29 := fun h => hl (this.2 h)
      omega
  · split <;> omega

/-- the day number of the date of a day -/
theorem daysOf_dateOf (days : Int) : daysOf (dateOf days).1 (dateOf days).2.1 (dateOf days).2.2 = days := by
  obtain ⟨y, doy, mp, h0, h1, h2, hm, hd, he⟩ := dateOf_cases days
  rw [he]
  by_cases h9 : mp < 10
  · simp only [h9, if_true, daysOf]
    rw [if_neg (by omega), if_neg (by omega), show mp + 3 - 3 = mp by omega]
    generalize (153 * mp + 2) / 5 = q
    omega
  · simp only [h9, if_false, daysOf]
    rw [if_pos (by omega), if_pos (by omega), show mp - 9 + 9 = mp by omega, show y + 1 - 1 = y by omega]
    generalize (153 * mp + 2) / 5 = q
    omega

/-- the date of a day exists -/
theorem dateOf_valid (days : Int) : 1 ≤ (dateOf days).2.1 ∧ (dateOf days).2.1 ≤ 12 ∧ 1 ≤ (dateOf days).2.2 ∧
    (dateOf days).2.2 ≤ daysInMonth (dateOf days).1 (dateOf days).2.1 := by
  obtain ⟨y, doy, mp, h0, h1, h2, hm, hd, he⟩ := dateOf_cases days
  rw [he]
  by_cases h9 : mp < 10
  · simp only [h9, if_true]
    refine ⟨by omega, by omega, by omega, le_daysInMonth (by omega) (by omega) (by omega)⟩
  · simp only [h9, if_false]
    refine ⟨by omega, by omega, by omega, le_daysInMonth (by omega) (by omega) ?_⟩
    intro h
    constructor
    · omega
    · intro h29
      exact h2 (by omega)

/-- a day in its year -/
theorem daysOf_year {y m d : Int} (hm : 1 ≤ m ∧ m ≤ 12) (hd : 1 ≤ d ∧ d ≤ daysInMonth y m) :
    daysOf y 1 1 ≤ daysOf y m d ∧ daysOf y m d < daysOf (y + 1) 1 1 := by
  have h := daysInMonth_le hd.2
  simp only [daysOf, show (1 : Int) ≤ 2 by omega, if_true]
  by_cases h2 : m ≤ 2
  · simp only [h2, if_true]
    omega
  · simp only [h2, if_false]
    omega

/-- a later month -/
theorem daysOf_month {y m d m' d' : Int} (hm : 1 ≤ m) (hm' : m' ≤ 12) (hlt : m < m') (hd : 1 ≤ d ∧ d ≤ daysInMonth y m) (hd' : 1 ≤ d') :
    daysOf y m d < daysOf y m' d' := by
  have h := daysInMonth_le hd.2
  simp only [daysOf]
  by_cases h2 : m ≤ 2
  · by_cases h2' : m' ≤ 2
    · simp only [h2, h2', if_true]
      omega
    · simp only [h2, h2', if_true, if_false]
      omega
  · have h2' : ¬ m' ≤ 2 := by omega
    simp only [h2, h2', if_false]
    have : m = 3 ∨ m = 4 ∨ m = 5 ∨ m = 6 ∨ m = 7 ∨ m = 8 ∨ m = 9 ∨ m = 10 ∨ m = 11 := by omega
    rcases this with rfl | rfl | rfl | rfl | rfl | rfl | rfl | rfl | rfl <;> omega

theorem daysOf_mono {y y' : Int} (h : y ≤ y') : daysOf y 1 1 ≤ daysOf y' 1 1 := by
  simp only [daysOf, show (1 : Int) ≤ 2 by omega, if_true]
  omega

/-- Dates are in the order of their day numbers. -/
theorem daysOf_lt {y m d y' m' d' : Int} (hm : 1 ≤ m ∧ m ≤ 12) (hd : 1 ≤ d ∧ d ≤ daysInMonth y m)
    (hm' : 1 ≤ m' ∧ m' ≤ 12) (hd' : 1 ≤ d' ∧ d' ≤ daysInMonth y' m')
    (h : y < y' ∨ y = y' ∧ (m < m' ∨ m = m' ∧ d < d')) : daysOf y m d < daysOf y' m' d' := by
  rcases h with h | ⟨rfl, h | ⟨rfl, h⟩⟩
  · have h1 := (daysOf_year hm hd).2
    have h2 := (daysOf_year hm' hd').1
    have h3 := daysOf_mono (y := y + 1) (y' := y') (by omega)
    omega
  · exact daysOf_month hm.1 hm'.2 h hd hd'.1
  · simp only [daysOf]
    omega

/-- the date of a day number -/
theorem dateOf_daysOf {y m d : Int} (hm : 1 ≤ m ∧ m ≤ 12) (hd : 1 ≤ d ∧ d ≤ daysInMonth y m) : dateOf (daysOf y m d) = (y, m, d) := by
  have h1 := daysOf_dateOf (daysOf y m d)
  obtain ⟨v1, v2, v3, v4⟩ := dateOf_valid (daysOf y m d)
  generalize dateOf (daysOf y m d) = p at *
  obtain ⟨y', m', d'⟩ := p
  simp only at h1 v1 v2 v3 v4
  refine Classical.byContradiction fun hne => ?_
  have : (y < y' ∨ y = y' ∧ (m < m' ∨ m = m' ∧ d < d')) ∨ (y' < y ∨ y' = y ∧ (m' < m ∨ m' = m ∧ d' < d)) := by
    simp only [Prod.mk.injEq] at hne
    omega
  rcases this with h | h
  · have := daysOf_lt hm hd ⟨v1, v2⟩ ⟨v3, v4⟩ h; omega
  · have := daysOf_lt ⟨v1, v2⟩ ⟨v3, v4⟩ hm hd h; omega

theorem buildUp_breakDown (t : Int) : buildUp (breakDown t) = t := by
  obtain ⟨h1, h2, _, _⟩ := dateOf_valid (t / 86400)
  have h := daysOf_dateOf (t / 86400)
  simp only [buildUp, breakDown]
  generalize dateOf (t / 86400) = p at *
  obtain ⟨y, m, d⟩ := p
  simp only at h1 h2 h ⊢
  rw [show y - 1900 + 1900 + (m - 1) / 12 = y by omega, show (m - 1) % 12 + 1 = m by omega]
  have h3 : daysOf y m 1 + (d - 1) = t / 86400 := by
    rw [← h]
    simp only [daysOf]
    omega
  rw [h3]
  omega

/-- the broken-down time of a moment -/
def tmOf (m : Moment) : Tm := ⟨m.year - 1900, m.month - 1, m.day, 0, m.hour, m.minute, m.second⟩

theorem buildUp_tmOf {m : Moment} (hv : m.Valid) : buildUp (tmOf m) = m.seconds := by
  have := hv.month
  simp only [buildUp, tmOf, Moment.seconds]
  rw [show m.year - 1900 + 1900 + (m.month - 1) / 12 = m.year by omega, show (m.month - 1) % 12 + 1 = m.month by omega]
  have h3 : daysOf m.year m.month 1 + (m.day - 1) = daysOf m.year m.month m.day := by
    simp only [daysOf]
    omega
  rw [h3]

theorem breakDown_seconds {m : Moment} (hv : m.Valid) :
    breakDown m.seconds = ⟨m.year - 1900, m.month - 1, m.day, (daysOf m.year m.month m.day + 4) % 7, m.hour, m.minute, m.second⟩ := by
  have h1 := hv.hour
  have h2 := hv.minute
  have h3 := hv.second
  have hd : m.seconds / 86400 = daysOf m.year m.month m.day := by unfold Moment.seconds; omega
  have hs : m.seconds % 86400 = m.hour * 3600 + m.minute * 60 + m.second := by unfold Moment.seconds; omega
  simp only [breakDown, hd, hs, dateOf_daysOf hv.month hv.day, Tm.mk.injEq]
  exact ⟨trivial, trivial, trivial, trivial, by omega, by omega, by omega⟩

theorem seconds_lt {a b : Moment} (ha : a.Valid) (hb : b.Valid) (h : a.Before b) :
    a.seconds < b.seconds ∨ a.seconds = b.seconds ∧ a.milliseconds < b.milliseconds := by
  have a1 := ha.hour; have a2 := ha.minute; have a3 := ha.second
  have b1 := hb.hour; have b2 := hb.minute; have b3 := hb.second
  simp only [Moment.Before] at h
  by_cases hd : a.year < b.year ∨ a.year = b.year ∧ (a.month < b.month ∨ a.month = b.month ∧ a.day < b.day)
  · have := daysOf_lt ha.month ha.day hb.month hb.day hd
    unfold Moment.seconds
    omega
  · have e1 : a.year = b.year := by omega
    have e2 : a.month = b.month := by omega
    have e3 : a.day = b.day := by omega
    unfold Moment.seconds
    rw [e1, e2, e3]
    omega

theorem before_total (a b : Moment) : a.Before b ∨ a = b ∨ b.Before a := by
  obtain ⟨y, mo, d, h, mi, s, ms⟩ := a
  obtain ⟨y', mo', d', h', mi', s', ms'⟩ := b
  simp only [Moment.Before, Moment.mk.injEq]
  omega

theorem wrap_cast (x : Int) : (wrap x : Int) = x % 18446744073709551616 := by
  unfold wrap
  exact Int.toNat_of_nonneg (Int.emod_nonneg _ (by decide))

theorem wrap_lt (x : Int) : wrap x < 18446744073709551616 := by
  have := wrap_cast x
  have := Int.emod_lt_of_pos x (b := 18446744073709551616) (by decide)
  omega

theorem wrap_of_nonneg {x : Int} (h : 0 ≤ x) (h' : x < 18446744073709551616) : (wrap x : Int) = x := by
  rw [wrap_cast, Int.emod_eq_of_lt h h']

theorem wrap_of_neg {x : Int} (h : x < 0) (h' : -18446744073709551616 ≤ x) : (wrap x : Int) = x + 18446744073709551616 := by
  rw [wrap_cast, ← Int.add_emod_right, Int.emod_eq_of_lt (by omega) (by omega)]

theorem wrap_of_lt {x : Nat} (h : x < 18446744073709551616) : wrap x = x := by
  have := wrap_of_nonneg (x := x) (by omega) (by omega)
  omega

theorem wrap_congr {x y : Int} (h : x % 18446744073709551616 = y % 18446744073709551616) : wrap x = wrap y := by
  unfold wrap; rw [h]

theorem wrap_add_left (x y : Int) : wrap (wrap x + y) = wrap (x + y) := by
  refine wrap_congr ?_
  rw [wrap_cast, Int.emod_add_emod]

theorem wrap_add_right (x y : Int) : wrap (x + wrap y) = wrap (x + y) := by
  rw [Int.add_comm, wrap_add_left, Int.add_comm]

theorem wrap_sub_left (x y : Int) : wrap (wrap x - y) = wrap (x - y) := wrap_add_left x (-y)

theorem wrap_mul_left (x y : Int) : wrap (wrap x * y) = wrap (x * y) := by
  refine wrap_congr ?_
  rw [wrap_cast, Int.mul_emod, Int.emod_emod, ← Int.mul_emod]

theorem timeToOSInternal_eq (t ms : Int) : timeToOSInternal t ms = wrap (t * 1000 + ms) := by
  unfold timeToOSInternal
  rw [wrap_add_right, wrap_add_left, ← wrap_add_left, wrap_mul_left, wrap_add_left]

theorem fixedOffset_consistent (offset : Int) : Consistent (fixedOffset offset) := by
  intro t _ _
  simp only [fixedOffset, buildUp_breakDown]
  rw [show t + offset - offset = t by omega]

end Dates

/-- **C53**: splitting an internal value and joining it again gives the same value, for every value; the parts are seconds and milliseconds. -/
theorem C53_split_join (x : Nat) (hx : x < 18446744073709551616) :
    timeToOSInternal (osInternalToTime x).1 (osInternalToTime x).2 = x ∧
    0 ≤ (osInternalToTime x).1 ∧ 0 ≤ (osInternalToTime x).2 ∧ (osInternalToTime x).2 < 1000 := by
  simp only [osInternalToTime, timeToOSInternal_eq]
  have := wrap_of_nonneg (x := (x : Int) / 1000 * 1000 + (x : Int) % 1000) (by omega) (by omega)
  omega

/-- **C53**, partial: joining seconds and milliseconds and splitting them again gives the same, if the time is not before 1970.

Missing: times before 1970, see `C53_violated_split`. -/
theorem C53_join_split_partial (t ms : Int) (ht : 0 ≤ t) (hm : 0 ≤ ms) (hm' : ms < 1000) (hx : t * 1000 + ms < 18446744073709551616) :
    osInternalToTime (timeToOSInternal t ms) = (t, ms) := by
  simp only [osInternalToTime, timeToOSInternal_eq, Prod.mk.injEq]
  have := wrap_of_nonneg (x := t * 1000 + ms) (by omega) (by omega)
  omega

/-- **C53** is violated: every time before 1970 becomes another one when it is joined and split. -/
theorem C53_violated_split (t ms : Int) (ht : t < 0) (ht' : -9223372036854775 ≤ t) (hm : 0 ≤ ms) (hm' : ms < 1000) :
    9223372036854775 < (osInternalToTime (timeToOSInternal t ms)).1 ∧ (osInternalToTime (timeToOSInternal t ms)).2 ≠ ms := by
  simp only [osInternalToTime, timeToOSInternal_eq]
  have := wrap_of_neg (x := t * 1000 + ms) (by omega) (by omega)
  omega

variable {lib : Library}

namespace Dates

theorem fromOSInternal_eq (h : Consistent lib) {x : Nat} (hx : x < 18446744073709551616) :
    fromOSInternal lib x = (let tm := lib.localtime (x / 1000)
      ⟨tm.year + 1900, tm.mon + 1, tm.mday, tm.wday, tm.hour, tm.min, tm.sec, x % 1000, x, x⟩ : DateTime) := by
  have h' := h (x / 1000) (by omega) (by omega)
  have hw := (C53_split_join x hx).1
  simp only [osInternalToTime] at hw
  show convertTMToDateTime lib (lib.localtime ((x : Int) / 1000)) ((x : Int) % 1000) = _
  unfold convertTMToDateTime
  rw [h']
  simp only [hw]

end Dates

/-- **C53**: `FromOSInternal` keeps the internal value, for every value. -/
theorem C53_from_internal (h : Consistent lib) (x : Nat) (hx : x < 18446744073709551616) :
    (fromOSInternal lib x).osInternal = x ∧ (fromOSInternal lib x).osMilliseconds = x := by
  rw [fromOSInternal_eq h hx]
  exact ⟨rfl, rfl⟩

/-- **C53**: `Forward` and `Backward` by the same amount cancel, for every date-time, every amount, and in both orders; also if the value wraps around.
The result is equal to the original in the sense of `operator==`, and all its members are the same if the original came from `FromOSInternal`. -/
theorem C53_cancel (h : Consistent lib) (d : DateTime) (hd : d.osInternal < 18446744073709551616) (delta : Nat) :
    ((d.forward lib delta).backward lib delta).osInternal = d.osInternal ∧
    ((d.backward lib delta).forward lib delta).osInternal = d.osInternal ∧
    (d = fromOSInternal lib d.osInternal →
      (d.forward lib delta).backward lib delta = d ∧ (d.backward lib delta).forward lib delta = d) := by
  have h1 : (d.forward lib delta).backward lib delta = fromOSInternal lib d.osInternal := by
    unfold DateTime.backward
    rw [DateTime.forward, (C53_from_internal h _ (wrap_lt _)).1, wrap_sub_left, Int.add_sub_cancel, wrap_of_lt hd]
  have h2 : (d.backward lib delta).forward lib delta = fromOSInternal lib d.osInternal := by
    unfold DateTime.forward
    rw [DateTime.backward, (C53_from_internal h _ (wrap_lt _)).1, wrap_add_left, Int.sub_add_cancel, wrap_of_lt hd]
  rw [h1, h2, (C53_from_internal h _ hd).1]
  exact ⟨rfl, rfl, fun e => ⟨e.symm, e.symm⟩⟩

/-- **C53**: `Forward` moves by exactly the amount, in milliseconds, if there is no overflow. -/
theorem C53_moves (h : Consistent lib) (d : DateTime) (delta : Nat) (hx : d.osInternal + delta < 18446744073709551616) :
    (d.forward lib delta).osInternal = d.osInternal + delta := by
  rw [DateTime.forward, (C53_from_internal h _ (wrap_lt _)).1]
  have := wrap_of_nonneg (x := (d.osInternal : Int) + delta) (by omega) (by omega)
  omega

/-- a date-time made from a moment -/
abbrev Dates.ofMoment (lib : Library) (m : Moment) : DateTime :=
  fromDateTime lib m.year m.month m.day m.hour m.minute m.second m.milliseconds

namespace Dates

theorem ofMoment_eq (offset : Int) {m : Moment} (hv : m.Valid) : ofMoment (fixedOffset offset) m =
    (let x := wrap ((m.seconds - offset) * 1000 + m.milliseconds)
     ⟨m.year, m.month, m.day, (daysOf m.year m.month m.day + 4) % 7, m.hour, m.minute, m.second, m.milliseconds, x, x⟩ : DateTime) := by
  have h := buildUp_tmOf hv
  unfold tmOf at h
  simp only [ofMoment, fromDateTime, convertTMToDateTime, fixedOffset, h, breakDown_seconds hv, timeToOSInternal_eq]
  congr 1 <;> omega

/-- the time can be expressed: not before 1970 in UTC, and milliseconds of 64 bits -/
def Expressible (offset : Int) (m : Moment) : Prop :=
  0 ≤ m.seconds - offset ∧ (m.seconds - offset) * 1000 + m.milliseconds < 18446744073709551616

theorem internal_of_expressible {offset : Int} {m : Moment} (hv : m.Valid) (he : Expressible offset m) :
    ((ofMoment (fixedOffset offset) m).osInternal : Int) = (m.seconds - offset) * 1000 + m.milliseconds := by
  rw [ofMoment_eq offset hv]
  simp only
  have := hv.milliseconds
  obtain ⟨h1, h2⟩ := he
  exact wrap_of_nonneg (by omega) (by omega)

end Dates

/-- **C53**, partial.  Of two date-times, the earlier one has the smaller internal value, and only the earlier one: with the Gregorian calendar at any place
whose time has a fixed distance from UTC, for all times from 1970 on.

Missing: times before 1970, see `C53_violated_order`; places where clocks are changed (there "earlier" is not the order of the members). -/
theorem C53_order_partial (offset : Int) (a b : Moment) (ha : a.Valid) (hb : b.Valid) (ea : Expressible offset a) (eb : Expressible offset b) :
    (a.Before b ↔ (ofMoment (fixedOffset offset) a).osInternal < (ofMoment (fixedOffset offset) b).osInternal) ∧
    (a = b ↔ (ofMoment (fixedOffset offset) a).osInternal = (ofMoment (fixedOffset offset) b).osInternal) := by
  have ia := internal_of_expressible ha ea
  have ib := internal_of_expressible hb eb
  have key : ∀ {x y : Moment}, x.Valid → y.Valid → Expressible offset x → Expressible offset y → x.Before y →
      (ofMoment (fixedOffset offset) x).osInternal < (ofMoment (fixedOffset offset) y).osInternal := by
    intro x y hx hy ex ey h
    have ix := internal_of_expressible hx ex
    have iy := internal_of_expressible hy ey
    have mx := hx.milliseconds
    have my := hy.milliseconds
    have := seconds_lt hx hy h
    omega
  rcases before_total a b with h | h | h
  · have := key ha hb ea eb h
    refine ⟨⟨fun _ => this, fun _ => h⟩, ⟨fun e => ?_, fun e => by omega⟩⟩
    subst e; omega
  · subst h
    refine ⟨⟨fun h => ?_, fun h => by omega⟩, ⟨fun _ => rfl, fun _ => rfl⟩⟩
    have := key ha hb ea eb h; omega
  · have := key hb ha eb ea h
    refine ⟨⟨fun h' => ?_, fun _ => by omega⟩, ⟨fun e => ?_, fun e => by omega⟩⟩
    · have := key ha hb ea eb h'; omega
    · subst e; omega

/-- **C53** is violated: every date before 1970 (in UTC) has a greater internal value than every date from 1970 on, for almost 300 million years in each direction. -/
theorem C53_violated_order (offset : Int) (a b : Moment) (ha : a.Valid) (hb : b.Valid)
    (h1 : a.seconds - offset < 0) (h2 : 0 ≤ b.seconds - offset) (h1' : -9223372036854775 ≤ a.seconds - offset)
    (h2' : b.seconds - offset < 9223372036854775) :
    (ofMoment (fixedOffset offset) b).osInternal < (ofMoment (fixedOffset offset) a).osInternal := by
  rw [ofMoment_eq offset ha, ofMoment_eq offset hb]
  have := ha.milliseconds
  have := hb.milliseconds
  have := wrap_of_neg (x := (a.seconds - offset) * 1000 + a.milliseconds) (by omega) (by omega)
  have := wrap_of_nonneg (x := (b.seconds - offset) * 1000 + b.milliseconds) (by omega) (by omega)
  simp only
  omega

/-- **C62**: a date-time made from a date that exists has exactly these members, the right day of the week, and `FromOSInternal` of its internal value
reproduces all members, for all dates from 1970 on.

Missing: dates before 1970, see `C62_violated`; places where clocks are changed. -/
theorem C62_fields_partial (offset : Int) (m : Moment) (hv : m.Valid) (he : Expressible offset m) :
    let d := ofMoment (fixedOffset offset) m
    (⟨d.year, d.month, d.day, d.hour, d.minute, d.second, d.milliseconds⟩ : Moment) = m ∧
    d.dayOfWeek = (daysOf m.year m.month m.day - daysOf 1970 1 1 + 4) % 7 ∧
    fromOSInternal (fixedOffset offset) d.osInternal = d := by
  have hi := internal_of_expressible hv he
  have hlt : (ofMoment (fixedOffset offset) m).osInternal < 18446744073709551616 := by
    have := he.2; omega
  have hms := hv.milliseconds
  intro d
  refine ⟨?_, ?_, ?_⟩
  · simp only [d, ofMoment_eq offset hv]
  · simp only [d, ofMoment_eq offset hv]
    rw [show daysOf 1970 1 1 = 0 by decide]
    congr 1; omega
  · rw [fromOSInternal_eq (fixedOffset_consistent offset) hlt]
    have hdiv : (d.osInternal : Int) / 1000 = m.seconds - offset := by simp only [d]; omega
    have hmod : (d.osInternal : Int) % 1000 = m.milliseconds := by simp only [d]; omega
    have hd : d = _ := ofMoment_eq offset hv
    change (let tm := (fixedOffset offset).localtime ((d.osInternal : Int) / 1000); (⟨tm.year + 1900, tm.mon + 1, tm.mday, tm.wday, tm.hour, tm.min, tm.sec,
      (d.osInternal : Int) % 1000, d.osInternal, d.osInternal⟩ : DateTime)) = d
    rw [hdiv, hmod]
    simp only [fixedOffset]
    rw [show m.seconds - offset + offset = m.seconds by omega, breakDown_seconds hv]
    rw [hd]
    simp only
    congr 1 <;> omega

/-- **C62** is violated by every date before 1970: `FromOSInternal` of its internal value is a date in the far future. -/
theorem C62_violated (offset : Int) (hoff : -86400 < offset) (hoff' : offset < 86400) (m : Moment) (hv : m.Valid)
    (h1 : m.seconds - offset < 0) (h1' : -9223372036854775 ≤ m.seconds - offset) :
    290000000 < (fromOSInternal (fixedOffset offset) (ofMoment (fixedOffset offset) m).osInternal).year := by
  have hms := hv.milliseconds
  have hlt : (ofMoment (fixedOffset offset) m).osInternal < 18446744073709551616 := by
    rw [ofMoment_eq offset hv]; exact wrap_lt _
  have hge : 9223372036854775616 < (ofMoment (fixedOffset offset) m).osInternal := by
    rw [ofMoment_eq offset hv]
    have := wrap_of_neg (x := (m.seconds - offset) * 1000 + m.milliseconds) (by omega) (by omega)
    simp only
    omega
  rw [fromOSInternal_eq (fixedOffset_consistent offset) hlt]
  generalize (ofMoment (fixedOffset offset) m).osInternal = x at *
  simp only [fixedOffset, breakDown]
  obtain ⟨y, doy, mp, h0, h1, h2, hm, hd, he⟩ := dateOf_cases (((x : Int) / 1000 + offset) / 86400)
  rw [he]
  split <;> simp only <;> omega

/-- **C63**: `ToUtcTime` and `ToLocalTime` cancel, in both orders, for every internal value, at any place whose time has a fixed distance from UTC. -/
theorem C63_cancel (offset : Int) (x : Nat) (hx : x < 18446744073709551616) :
    let d := fromOSInternal (fixedOffset offset) x
    (d.toUtcTime (fixedOffset offset)).toLocalTime (fixedOffset offset) = d ∧
    (d.toLocalTime (fixedOffset offset)).toUtcTime (fixedOffset offset) = d := by
  have hC := fixedOffset_consistent offset
  have hu : ∀ d : DateTime, d.osInternal < 18446744073709551616 →
      d.toUtcTime (fixedOffset offset) = fromOSInternal (fixedOffset offset) (wrap (d.osInternal - offset * 1000)) := by
    intro d hd
    simp only [DateTime.toUtcTime, osInternalToTime, convertTMToOSInternal, timeToOSInternal_eq]
    congr 2
    simp only [fixedOffset, buildUp_breakDown]
    omega
  have hl : ∀ d : DateTime, d.osInternal < 18446744073709551616 →
      d.toLocalTime (fixedOffset offset) = fromOSInternal (fixedOffset offset) (wrap (d.osInternal + offset * 1000)) := by
    intro d hd
    simp only [DateTime.toLocalTime, osInternalToTime, timeToOSInternal_eq]
    congr 2
    simp only [fixedOffset, buildUp_breakDown]
    omega
  intro d
  have hd : d.osInternal = x := (C53_from_internal hC x hx).1
  refine ⟨?_, ?_⟩
  · rw [hu d (by omega), hl _ (by rw [(C53_from_internal hC _ (wrap_lt _)).1]; exact wrap_lt _), (C53_from_internal hC _ (wrap_lt _)).1, hd,
      wrap_add_left, Int.sub_add_cancel, wrap_of_lt hx]
  · rw [hl d (by omega), hu _ (by rw [(C53_from_internal hC _ (wrap_lt _)).1]; exact wrap_lt _), (C53_from_internal hC _ (wrap_lt _)).1, hd,
      wrap_sub_left, Int.add_sub_cancel, wrap_of_lt hx]

/-! Concrete cases. -/

/-- noon of a leap day -/
def Dates.leapDay : Moment := ⟨2024, 2, 29, 12, 0, 0, 5⟩

/-- a day of 1969 -/
def Dates.landing : Moment := ⟨1969, 7, 20, 20, 17, 40, 0⟩

example : leapDay.Valid := ⟨by decide, by decide, by decide, by decide, by decide, by decide⟩
example : landing.Valid := ⟨by decide, by decide, by decide, by decide, by decide, by decide⟩
example : Expressible 3600 leapDay := by constructor <;> decide
example : (ofMoment (fixedOffset 3600) leapDay).osInternal = 1709204400005 := by decide
example : (ofMoment (fixedOffset 3600) leapDay).dayOfWeek = 4 := by decide
example : landing.Before leapDay ∧ landing.seconds < 0 ∧
    (ofMoment (fixedOffset 0) leapDay).osInternal < (ofMoment (fixedOffset 0) landing).osInternal := by
  refine ⟨.inl (by decide), by decide, ?_⟩
  exact C53_violated_order 0 _ _ ⟨by decide, by decide, by decide, by decide, by decide, by decide⟩
    ⟨by decide, by decide, by decide, by decide, by decide, by decide⟩ (by decide) (by decide) (by decide) (by decide)
example : 290000000 < (fromOSInternal (fixedOffset 0) (ofMoment (fixedOffset 0) landing).osInternal).year :=
  C62_violated 0 (by decide) (by decide) _ ⟨by decide, by decide, by decide, by decide, by decide, by decide⟩ (by decide) (by decide)
example : ((fromOSInternal (fixedOffset 3600) 1709204400005).toUtcTime (fixedOffset 3600)).hour = 11 := by decide +kernel
example : Consistent (fixedOffset (-18000)) := fixedOffset_consistent _
example : osInternalToTime (timeToOSInternal 1709208000 5) = (1709208000, 5) :=
  C53_join_split_partial _ _ (by decide) (by decide) (by decide) (by decide)

end Vlpp
