import Verif.Lemmas.Float

/-! # C69 - C72: floating point numbers as strings, case of narrow strings -/
set_option autoImplicit false
set_option exponentiation.threshold 2200
namespace Vlpp
open Spec Number

/-! ## C69: `ftoa` -/

/-- C69: for every finite `double`, `± m * 2 ^ (b - 1074)`, `ftoa` stays within its buffer of 320 characters, and the result is
the canonical numeral with up to six decimals of the nearest number that has six decimals. -/
theorem C69_ftoa (neg : Bool) (m b : Nat) (h : Fits m b) :
    ∃ t n, ftoa (.finite neg m b) = some t ∧ SixNumeral t neg n ∧ Nearest (m * 2 ^ b * 1000000) (2 ^ 1074) n := by
  obtain ⟨t, h1, h2⟩ := ftoa_finite (neg := neg) (m := m) (b := b) h
  exact ⟨t, _, h1, h2, roundEven_nearest _ _ (Nat.two_pow_pos _)⟩

/-- C69: the others are "inf" and "nan", with a minus sign if they have one. -/
theorem C69_special (neg : Bool) :
    ftoa (.inf neg) = some ((if neg then [45] else []) ++ [105, 110, 102]) ∧
    ftoa (.nan neg) = some ((if neg then [45] else []) ++ [110, 97, 110]) := by
  cases neg <;> decide

/-- `-1.5` -/
example : ftoa (.finite true (3 * 2 ^ 51) 1022) = some [45, 49, 46, 53] := by decide +kernel

/-- the largest one -/
example : Fits (2 ^ 53 - 1) 2045 := ⟨by decide, by decide, .inl (by decide)⟩

/-! ## C70: round trips -/

/-- C70: a numeral with up to six decimals below `2 ^ 33` survives `atof` and `ftoa`. -/
theorem C70_decimal (space : Nat → Bool) (hs : FloatSpaces space)
    (special : List Nat → Option ((Bool → Double) × List Nat)) (hsp : FloatSpecial special)
    (t : List Nat) (neg : Bool) (n : Nat) (h : SixNumeral t neg n) (hn : n < 2 ^ 33 * 1000000) :
    ∃ x, atof space special t = some x ∧ ftoa x = some t := by
  obtain ⟨m, b, h1, h2, h3⟩ := toDouble_near (neg := neg) hn
  obtain ⟨t', h4, h5⟩ := ftoa_finite h2
  rw [h3] at h5
  refine ⟨.finite neg m b, ?_, ?_⟩
  · simp [atof, atof_six hs hsp h, h1]
  · rw [h4, sixNumeral_unique h5 h]

/-- C70 (partial): `atof (ftoa x) = x` for every finite `double` with at most six decimals, and for every one from `2 ^ 33` on.
The full statement is for every finite `double`; see `C70_violated`. -/
theorem C70_double_partial (space : Nat → Bool) (hs : FloatSpaces space)
    (special : List Nat → Option ((Bool → Double) × List Nat)) (hsp : FloatSpecial special)
    (neg : Bool) (m b : Nat) (h : Fits m b)
    (hx : (∃ k, m * 2 ^ b * 1000000 = k * 2 ^ 1074) ∨ 2 ^ 33 * 2 ^ 1074 ≤ m * 2 ^ b) :
    ∃ t, ftoa (.finite neg m b) = some t ∧ atof space special t = some (.finite neg m b) := by
  obtain ⟨t, h1, h2⟩ := ftoa_finite (neg := neg) (m := m) (b := b) h
  refine ⟨t, h1, ?_⟩
  rw [← unit_eq] at hx
  simp only [atof, atof_six hs hsp h2, Option.map_some, if_true, Option.some.injEq]
  rcases hx with ⟨k, hk⟩ | hx
  · have e : roundEven (m * 2 ^ b * 1000000) unit = k := by rw [hk]; exact roundEven_exact k _ unit_pos
    rw [e]
    exact toDouble_exact h (by omega) hk.symm
  · exact toDouble_large h hx

/-- C70: exactly which numbers come back: those that `atof` gives for some numeral with six decimals, and those from `2 ^ 33`
on. -/
theorem C70_exact (space : Nat → Bool) (hs : FloatSpaces space)
    (special : List Nat → Option ((Bool → Double) × List Nat)) (hsp : FloatSpecial special)
    (neg : Bool) (m b : Nat) (h : Fits m b) (t : List Nat) (ht : ftoa (.finite neg m b) = some t) :
    atof space special t = some (.finite neg m b) ↔
      (∃ u n, SixNumeral u neg n ∧ n < 2 ^ 33 * 1000000 ∧ atof space special u = some (.finite neg m b)) ∨
        2 ^ 33 * 2 ^ 1074 ≤ m * 2 ^ b := by
  obtain ⟨t', h1, h2⟩ := ftoa_finite (neg := neg) (m := m) (b := b) h
  rw [ht] at h1
  injection h1 with h1
  subst h1
  constructor
  · intro hr
    by_cases hl : 2 ^ 33 * 2 ^ 1074 ≤ m * 2 ^ b
    · exact .inr hl
    · refine .inl ⟨t, _, h2, ?_, hr⟩
      refine Classical.byContradiction fun hc => ?_
      -- the decimal is `2 ^ 33` or more, so what is read is
      have hle := roundEven_nearest (m * 2 ^ b * 1000000) unit unit_pos
      have hn : roundEven (m * 2 ^ b * 1000000) unit = 2 ^ 33 * 1000000 := by
        have h5 : roundEven (m * 2 ^ b * 1000000) unit ≤ 2 ^ 33 * 1000000 := by
          refine Classical.byContradiction fun hc2 => ?_
          have h3 : (2 ^ 33 * 1000000 + 1) * unit ≤ roundEven (m * 2 ^ b * 1000000) unit * unit :=
            Nat.mul_le_mul_right _ (by omega)
          have h4 : m * 2 ^ b < 2 ^ 33 * unit := Nat.lt_of_not_le hl
          have := hle.1
          generalize roundEven (m * 2 ^ b * 1000000) unit * unit = Q at *
          generalize m * 2 ^ b = P at *
          have h0 := unit_pos
          generalize unit = U at *
          omega
        omega
      have hv : (Double.finite neg (2 ^ 52) 1055).Valid := ⟨by decide, by decide, .inl (by decide)⟩
      have e : toDouble neg (2 ^ 33 * 1000000) 1000000 = .finite neg (2 ^ 52) 1055 := by
        apply toDouble_exact hv (by omega)
        have : (2 : Nat) ^ 52 * 2 ^ 1055 = 2 ^ 33 * unit := by rw [unit, ← Nat.pow_add]
        rw [this, Nat.mul_assoc, Nat.mul_assoc, Nat.mul_comm unit]
      simp only [atof, atof_six hs hsp h2, hn, e, Option.map_some, if_true, Option.some.injEq] at hr
      injection hr with _ e1 e2
      apply hl
      rw [← e1, ← e2]
      exact Nat.le_of_eq (by rw [← Nat.pow_add])
  · rintro (⟨u, n, hu, hn, hr⟩ | hl)
    · obtain ⟨m', b', g1, g2, g3⟩ := toDouble_near (neg := neg) hn
      simp only [atof, atof_six hs hsp hu, g1, Option.map_some, if_true, Option.some.injEq] at hr
      injection hr with _ e1 e2
      subst e1; subst e2
      rw [g3] at h2
      simp only [atof, atof_six hs hsp h2, g1, Option.map_some, if_true]
    · obtain ⟨t', g1, g2⟩ := C70_double_partial space hs special hsp neg m b h (.inr hl)
      rw [ht] at g1
      injection g1 with g1
      rw [g1]; exact g2

/-- C70: every number other than zero below `0.0000005` is written as "0" or "-0", and does not come back. -/
theorem C70_violated (space : Nat → Bool) (hs : FloatSpaces space)
    (special : List Nat → Option ((Bool → Double) × List Nat)) (hsp : FloatSpecial special)
    (neg : Bool) (m b : Nat) (h : Fits m b) (h0 : 0 < m) (hx : 2 * (m * 2 ^ b * 1000000) < 2 ^ 1074) :
    ftoa (.finite neg m b) = some (if neg then [45, 48] else [48]) ∧
    atof space special (if neg then [45, 48] else [48]) = some (.finite neg 0 0) ∧ Double.finite neg 0 0 ≠ .finite neg m b := by
  obtain ⟨t, h1, h2⟩ := ftoa_finite (neg := neg) (m := m) (b := b) h
  have hr : roundEven (m * 2 ^ b * 1000000) unit = 0 := by
    rw [← nearest_iff _ _ _ unit_pos]
    have hx' : 2 * (m * 2 ^ b * 1000000) < unit := hx
    generalize unit = U at *
    refine ⟨by omega, by omega, by omega⟩
  rw [hr] at h2
  have h3 : SixNumeral (if neg then [45, 48] else [48]) neg 0 := by
    refine ⟨[48], [], 0, ?_, ⟨by simp, by simp, by simp, by decide⟩, by simp, by simp, by simp, by decide⟩
    cases neg <;> simp
  refine ⟨by rw [h1, sixNumeral_unique h2 h3], ?_, fun e => by injection e; omega⟩
  simp only [atof, atof_six hs hsp h3, Option.map_some, if_true, Option.some.injEq]
  exact toDouble_exact ⟨by decide, by decide, .inr rfl⟩ (by omega) (by simp)

/-- spaces of the C locale, no other forms -/
example : FloatSpaces (fun c => c == 32 || (9 ≤ c && c ≤ 13)) ∧ FloatSpecial (fun _ => (none : Option ((Bool → Double) × List Nat))) := by
  refine ⟨⟨⟨by decide, by decide, fun d h1 h2 => ?_⟩, by decide, by decide⟩, fun cs h => absurd rfl h⟩
  simp; omega

/-- `-12.25` is a numeral below `2 ^ 33` -/
example : SixNumeral [45, 49, 50, 46, 50, 53] true 12250000 :=
  ⟨[49, 50], [50, 53], 12, by decide, ⟨by decide, by decide, by decide, by decide⟩, by decide, by decide, by decide, by decide⟩

/-- `0.5` has less than six decimals; the smallest number does not come back -/
example : (∃ k, 2 ^ 52 * 2 ^ 1021 * 1000000 = k * 2 ^ 1074) ∧ 2 * (1 * 2 ^ 0 * 1000000) < 2 ^ 1074 :=
  ⟨⟨500000, by decide +kernel⟩, by decide +kernel⟩

/-! ## C71: `atof_test` -/

/-- the value of a numeral for `± m * 10 ^ e`: the nearest `double`, or infinity -/
def Number.ReadAs (r : Double) (neg : Bool) (m : Nat) (e : Int) : Prop :=
  (∃ m' b', r = .finite neg m' b' ∧ NearestFinite (m * 10 ^ e.toNat) (10 ^ (-e).toNat) m' b') ∨
    (r = .inf neg ∧ TooLarge (m * 10 ^ e.toNat) (10 ^ (-e).toNat))

theorem Number.ofDecimal_spec (neg : Bool) (m : Nat) (e : Int) : ReadAs (ofDecimal neg m e) neg m e := by
  unfold ReadAs ofDecimal
  by_cases he : 0 ≤ e
  · have e1 : (-e).toNat = 0 := by omega
    rw [if_pos he, e1, Nat.pow_zero]
    exact toDouble_spec neg _ 1 (by omega)
  · have e1 : e.toNat = 0 := by omega
    rw [if_neg he, e1, Nat.pow_zero, Nat.mul_one]
    exact toDouble_spec neg m _ (Nat.pow_pos (by omega))

/-- C71: a decimal floating point numeral is read completely, as the nearest `double`. -/
theorem C71_numeral (space : Nat → Bool) (hs : FloatSpaces space)
    (special : List Nat → Option ((Bool → Double) × List Nat)) (hsp : FloatSpecial special)
    (xs : List Nat) (neg : Bool) (m : Nat) (e : Int) (hx : FloatNumeral xs neg m e) (hp : Plain xs) :
    ∃ r, atof_test space special xs = some (r, true) ∧ ReadAs r neg m e :=
  ⟨_, by simpa using atof_test_numeral hs hsp (sp := []) (by simp) hx hp, ofDecimal_spec neg m e⟩

/-- C71 (partial): a string without the letters of "inf", "nan" and "0x" is accepted exactly if it is a numeral after spaces,
or empty.  The full statement is: exactly if it is a numeral; see `C71_violated`. -/
theorem C71_test_partial (space : Nat → Bool) (hs : FloatSpaces space)
    (special : List Nat → Option ((Bool → Double) × List Nat)) (hsp : FloatSpecial special)
    (s : List Nat) (hp : Plain s) :
    ∃ r b, atof_test space special s = some (r, b) ∧ atof space special s = some (if b then r else .finite false 0 0) ∧
      (b = true ↔ s = [] ∨ ∃ sp xs neg m e, s = sp ++ xs ∧ (∀ c ∈ sp, space c = true) ∧ FloatNumeral xs neg m e) := by
  obtain ⟨r, b, h1, h2⟩ := atof_test_total hs hsp hp
  refine ⟨r, b, h1, by simp [atof, h1], h2, ?_⟩
  rintro (rfl | ⟨sp, xs, neg, m, e, rfl, hsps, hx⟩)
  · rw [strtod_plain hs [] (neg := false) (r1 := []) (by simp [sign]) (special_none hsp hp)
      (ds := []) (fs := []) (r2 := []) (by decide) (x := 0) (r3 := []) (by decide)] at h1
    simp at h1
    exact h1.2
  · have := atof_test_numeral hs hsp hsps hx (plain_sub hp fun c hc => List.mem_append_right _ hc)
    rw [this] at h1
    simp at h1
    exact h1.2

/-- no numeral is empty, or begins with a space -/
theorem Number.numeral_head {space : Nat → Bool} (hs : FloatSpaces space) {xs : List Nat} {neg : Bool} {m : Nat} {e : Int}
    (h : FloatNumeral xs neg m e) : ∃ c r, xs = c :: r ∧ space c = false := by
  obtain ⟨s, ds, fs, ex, x, hsg, hd, hf, h0, hex, hxs, rfl, rfl⟩ := h
  rcases hsg with ⟨rfl, rfl⟩ | ⟨rfl, rfl⟩ | ⟨rfl, rfl⟩
  · cases ds with
    | cons d ds =>
      have := hs.1.2.2 d (hd d (by simp)).1 (hd d (by simp)).2
      rcases hxs with rfl | ⟨-, rfl⟩
      · exact ⟨_, _, rfl, this⟩
      · exact ⟨_, _, rfl, this⟩
    | nil =>
      rcases hxs with rfl | ⟨rfl, rfl⟩
      · exact ⟨_, _, rfl, hs.2.2⟩
      · exact absurd rfl h0
  · rcases hxs with rfl | ⟨-, rfl⟩
    · exact ⟨_, _, rfl, hs.2.1⟩
    · exact ⟨_, _, rfl, hs.2.1⟩
  · rcases hxs with rfl | ⟨-, rfl⟩
    · exact ⟨_, _, rfl, hs.1.2.1⟩
    · exact ⟨_, _, rfl, hs.1.2.1⟩

/-- C71: the empty string is accepted as zero, and so is every numeral after spaces; none of them is a numeral. -/
theorem C71_violated (space : Nat → Bool) (hs : FloatSpaces space)
    (special : List Nat → Option ((Bool → Double) × List Nat)) (hsp : FloatSpecial special) :
    (atof_test space special [] = some (.finite false 0 0, true) ∧ ∀ neg m e, ¬ FloatNumeral [] neg m e) ∧
    ∀ sp xs neg m e, sp ≠ [] → (∀ c ∈ sp, space c = true) → FloatNumeral xs neg m e → Plain xs →
      (∃ r, atof_test space special (sp ++ xs) = some (r, true)) ∧ ∀ neg' m' e', ¬ FloatNumeral (sp ++ xs) neg' m' e' := by
  refine ⟨⟨?_, fun neg m e h => ?_⟩, fun sp xs neg m e h0 h1 h2 h3 => ⟨⟨_, atof_test_numeral hs hsp h1 h2 h3⟩, fun neg' m' e' h => ?_⟩⟩
  · rw [strtod_plain hs [] (neg := false) (r1 := []) (by simp [sign]) (special_none hsp (by simp [Plain]))
      (ds := []) (fs := []) (r2 := []) (by decide) (x := 0) (r3 := []) (by decide)]
    simp
  · obtain ⟨c, r, h, -⟩ := numeral_head hs h
    simp at h
  · obtain ⟨c, r, h, hc⟩ := numeral_head hs h
    cases sp with
    | nil => exact h0 rfl
    | cons d sp =>
      simp only [List.cons_append, List.cons.injEq] at h
      have := h1 d (by simp)
      rw [h.1] at this
      rw [this] at hc
      exact absurd hc (by simp)

/-- "-1.5e3" -/
example : FloatNumeral [45, 49, 46, 53, 101, 51] true 15 2 ∧ Plain [45, 49, 46, 53, 101, 51] :=
  ⟨⟨[45], [49], [53], [101, 51], 3, .inr (.inr ⟨rfl, rfl⟩), by simp [Digits], by simp [Digits], by simp,
    .inr ⟨101, [], [51], false, .inl rfl, .inl ⟨rfl, rfl⟩, by simp [Digits], by simp, rfl, by decide⟩, .inl rfl, by decide, by decide⟩,
    by simp [Plain]⟩

/-! ## C72: case of narrow strings -/

theorem Number.strcase_s_eq (f : Int → Int) (xs : List Int) (h : ∀ c ∈ xs, c ≠ 0 ∧ -1 ≤ c ∧ c ≤ 255) :
    strcase_s f (xs ++ [0]) = some (xs.map (fun c => viaChar (f c)) ++ [0]) := by
  induction xs with
  | nil => simp [strcase_s]
  | cons c cs ih =>
    have hc := h c (by simp)
    have := ih fun x hx => h x (by simp [hx])
    simp [strcase_s, ctype, hc, this]

theorem Number.strcase_s_none (f : Int → Int) (xs : List Int) (h0 : 0 ∉ xs) (h : ∃ c ∈ xs, c < -1) :
    strcase_s f (xs ++ [0]) = none := by
  induction xs with
  | nil => obtain ⟨c, hc, -⟩ := h; simp at hc
  | cons c cs ih =>
    have hc0 : c ≠ 0 := fun e => h0 (by simp [e])
    by_cases hr : -1 ≤ c ∧ c ≤ 255
    · have : strcase_s f (cs ++ [0]) = none := by
        apply ih (fun e => h0 (by simp [e]))
        obtain ⟨d, hd, hl⟩ := h
        rcases List.mem_cons.1 hd with rfl | hd
        · omega
        · exact ⟨d, hd, hl⟩
      simp [strcase_s, ctype, hc0, hr, this]
    · simp [strcase_s, ctype, hc0, hr]

/-- C72 (partial): `alower` and `aupper` give the string of the results of `tolower`, `toupper`, if all characters are ASCII and
none is zero, and the results are characters.  The full statement is for all strings; see `C72_violated`. -/
theorem C72_case_partial (f : Int → Int) (s : List Int) (h : ∀ c ∈ s, 0 < c ∧ c ≤ 127) (hf : ∀ c ∈ s, -128 ≤ f c ∧ f c ≤ 127) :
    acase f s = some (s.map f) := by
  have h0 : 0 ∉ s := fun h0 => by have := h 0 h0; omega
  have e : s.map (fun c => viaChar (f c)) = s.map f := by
    apply List.map_congr_left
    intro c hc
    have := hf c hc
    unfold viaChar
    omega
  have h1 := strcase_s_eq f s fun c hc => by have := h c hc; omega
  simp only [acase, takeWhile_self h0, h1, e, Option.map_some]
  simp

/-- C72: a character that is not ASCII is undefined behaviour; a zero character cuts the result. -/
theorem C72_violated (f : Int → Int) (s : List Int) :
    (0 ∉ s → (∃ c ∈ s, c < -1) → acase f s = none) ∧
    ∀ r, 0 ∈ s → acase f s = some r → r.length < s.length := by
  constructor
  · intro h0 h
    simp only [acase, takeWhile_self h0, strcase_s_none f s h0 h, Option.map_none]
  · intro r h0 hr
    have hl : (s.takeWhile (· ≠ 0)).length < s.length := by
      refine Classical.byContradiction fun hc => ?_
      have e := List.takeWhile_append_dropWhile (p := fun c : Int => decide (c ≠ 0)) (l := s)
      have : s.dropWhile (fun c : Int => decide (c ≠ 0)) = [] := by
        apply List.eq_nil_of_length_eq_zero
        have := congrArg List.length e
        rw [List.length_append] at this
        omega
      rw [this, List.append_nil] at e
      rw [← e] at h0
      exact mem_takeWhile_ne h0 rfl
    simp only [acase, Option.map_eq_some_iff] at hr
    obtain ⟨xs, -, rfl⟩ := hr
    rw [List.length_take]
    omega

/-- "aZ1" -/
example : acase asciiLower [97, 90, 49] = some [97, 122, 49] ∧ acase asciiUpper [97, 90, 49] = some [65, 90, 49] := by decide

example : ∀ c ∈ ([97, 90, 49] : List Int), -128 ≤ asciiLower c ∧ asciiLower c ≤ 127 := by decide

end Vlpp
