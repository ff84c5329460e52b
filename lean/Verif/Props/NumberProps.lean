import Verif.Model.Number
import Verif.Spec.Number

/-! # C41, C42, C58: numbers and case conversion -/
set_option autoImplicit false
namespace Vlpp
open Number Spec

namespace Number

theorem decimalNat_digits (n : Nat) : ∀ d ∈ decimalNat n, 48 ≤ d ∧ d ≤ 57 := by
  induction n using decimalNat.induct with
  | case1 n h =>
    unfold decimalNat
    rw [if_pos h]
    intro d hd
    simp at hd
    omega
  | case2 n h ih =>
    unfold decimalNat
    rw [if_neg h]
    intro d hd
    rcases List.mem_append.mp hd with hd | hd
    · exact ih d hd
    · simp at hd; omega

theorem decimalNat_ne_nil (n : Nat) : decimalNat n ≠ [] := by
  unfold decimalNat
  split <;> simp

theorem digitsValue_append (xs : List Nat) (d : Nat) : digitsValue (xs ++ [d]) = 10 * digitsValue xs + (d - 48) := by
  simp [digitsValue]

theorem digitsValue_decimalNat (n : Nat) : digitsValue (decimalNat n) = n := by
  induction n using decimalNat.induct with
  | case1 n h =>
    unfold decimalNat
    rw [if_pos h]
    simp [digitsValue]
  | case2 n h ih =>
    unfold decimalNat
    rw [if_neg h, digitsValue_append, ih]
    omega

theorem decimalNat_head (n : Nat) : (decimalNat n).head? = some 48 → decimalNat n = [48] := by
  induction n using decimalNat.induct with
  | case1 n h =>
    unfold decimalNat
    rw [if_pos h]
    intro e
    simp at e
    rw [e]
  | case2 n h ih =>
    unfold decimalNat
    rw [if_neg h, List.head?_append]
    intro e
    have hne := decimalNat_ne_nil (n / 10)
    cases hd : decimalNat (n / 10) with
    | nil => exact absurd hd hne
    | cons d ds =>
      rw [hd] at e ih
      simp at e
      subst e
      have := ih rfl
      have hv := digitsValue_decimalNat (n / 10)
      rw [hd, this] at hv
      simp [digitsValue] at hv
      omega

theorem decimalNat_length (n k : Nat) (hk : 0 < k) (h : n < 10 ^ k) : (decimalNat n).length ≤ k := by
  induction k generalizing n with
  | zero => omega
  | succ k ih =>
    unfold decimalNat
    by_cases h10 : n < 10
    · rw [if_pos h10]; simp
    · rw [if_neg h10]
      have hk' : 0 < k := by
        rcases Nat.eq_zero_or_pos k with rfl | h'
        · simp at h; omega
        · exact h'
      have := ih (n / 10) hk' (by rw [Nat.pow_succ] at h; omega)
      simp
      omega

/-- Canonical digits are exactly what is printed. -/
theorem naturalNumeral_iff (xs : List Nat) (n : Nat) : NaturalNumeral xs n ↔ xs = decimalNat n := by
  constructor
  · rintro ⟨h1, h2, h3, h4⟩
    induction n using decimalNat.induct generalizing xs with
    | case1 n h =>
      unfold decimalNat
      rw [if_pos h]
      rcases List.eq_nil_or_concat xs with rfl | ⟨ys, d, rfl⟩
      · exact absurd rfl h1
      · rw [List.concat_eq_append] at h2 h3 h4 ⊢
        rw [digitsValue_append] at h4
        have hd := h2 d (by simp)
        have h0 : digitsValue ys = 0 := by omega
        cases ys with
        | nil => simp; omega
        | cons y ys =>
          exfalso
          have hy := h2 y (by simp)
          -- the first digit is not zero, so the value is not zero
          have hpos : ∀ (l : List Nat) (a : Nat), 0 < a → 0 < l.foldl (fun a d => 10 * a + (d - 48)) a := by
            intro l
            induction l with
            | nil => intro a ha; exact ha
            | cons b l ih =>
              intro a ha
              rw [List.foldl_cons]
              exact ih (10 * a + (b - 48)) (by omega)
          simp only [digitsValue, List.foldl_cons] at h0
          by_cases hy0 : y = 48
          · have := h3 (by simp [hy0])
            simp at this
          · have := hpos ys (10 * 0 + (y - 48)) (by omega)
            omega
    | case2 n h ih =>
      unfold decimalNat
      rw [if_neg h]
      rcases List.eq_nil_or_concat xs with rfl | ⟨ys, d, rfl⟩
      · exact absurd rfl h1
      · rw [List.concat_eq_append] at h2 h3 h4 ⊢
        rw [digitsValue_append] at h4
        have hd := h2 d (by simp)
        have hv : digitsValue ys = n / 10 := by omega
        have hne : ys ≠ [] := by
          rintro rfl
          simp [digitsValue] at hv
          omega
        have := ih ys hne (fun x hx => h2 x (by simp [hx])) (fun e => by
          obtain ⟨y, ys', rfl⟩ := List.exists_cons_of_ne_nil hne
          simp at e
          subst e
          have := h3 (by simp)
          simp at this) hv
        rw [← this]
        congr 1
        simp
        omega
  · rintro rfl
    exact ⟨decimalNat_ne_nil n, decimalNat_digits n, decimalNat_head n, digitsValue_decimalNat n⟩

theorem numeral_iff (xs : List Nat) (z : Int) : Numeral xs z ↔ xs = decimalInt z := by
  unfold Numeral decimalInt
  constructor
  · rintro (⟨n, rfl, h⟩ | ⟨n, ys, hn, rfl, rfl, h⟩)
    · rw [if_neg (by omega)]
      simpa using (naturalNumeral_iff xs n).mp h
    · rw [if_pos (by omega), (naturalNumeral_iff ys n).mp h]
      simp
  · intro h
    by_cases hz : z < 0
    · rw [if_pos hz] at h
      exact .inr ⟨z.natAbs, decimalNat z.natAbs, by omega, by omega, h, (naturalNumeral_iff _ _).mpr rfl⟩
    · rw [if_neg hz] at h
      exact .inl ⟨z.toNat, by omega, (naturalNumeral_iff _ _).mpr h⟩

theorem readDigits_all (xs : List Nat) (h : ∀ d ∈ xs, 48 ≤ d ∧ d ≤ 57) (acc k : Nat) :
    readDigits (xs ++ [0]) acc k = some (xs.foldl (fun a d => 10 * a + (d - 48)) acc, k + xs.length) := by
  induction xs generalizing acc k with
  | nil => simp [readDigits]
  | cons d xs ih =>
    rw [List.cons_append, readDigits, if_pos (h d (by simp)), ih (fun e he => h e (by simp [he]))]
    simp only [List.foldl_cons, List.length_cons]
    congr 2
    · rw [Nat.mul_comm]
    · omega

theorem skipSpaces_none {space : Nat → Bool} {c : Nat} (h : space c = false) (cs : List Nat) (k : Nat) :
    skipSpaces space (c :: cs) k = some (c :: cs, k) := by
  simp [skipSpaces, h]

theorem scan_decimalNat {space : Nat → Bool} (hs : SaneSpaces space) (n : Nat) :
    scan space (decimalNat n ++ [0]) = some (false, n, (decimalNat n).length) := by
  have hd := decimalNat_digits n
  have hv := digitsValue_decimalNat n
  obtain ⟨d, ds, e⟩ := List.exists_cons_of_ne_nil (decimalNat_ne_nil n)
  rw [e] at hd hv ⊢
  have h1 := hd d (by simp)
  unfold scan
  rw [List.cons_append, skipSpaces_none (hs.2.2 d h1.1 h1.2)]
  simp only []
  rw [if_neg (by omega), if_neg (by omega)]
  simp only []
  rw [← List.cons_append, readDigits_all _ hd]
  simp only [Nat.zero_add]
  rw [if_neg (by simp)]
  simp only [digitsValue] at hv
  rw [hv]

theorem scan_minus {space : Nat → Bool} (hs : SaneSpaces space) (n : Nat) :
    scan space (45 :: decimalNat n ++ [0]) = some (true, n, (decimalNat n).length + 1) := by
  have hd := decimalNat_digits n
  have hv := digitsValue_decimalNat n
  have hl : (decimalNat n).length ≠ 0 := by simp [decimalNat_ne_nil]
  unfold scan
  rw [List.cons_append, skipSpaces_none hs.2.1]
  simp only [if_true]
  rw [readDigits_all _ hd]
  simp only [digitsValue] at hv
  rw [hv]
  simp only []
  rw [if_neg (by omega)]
  congr 3
  omega

/-- The library function ends before the end of the memory, whatever is in the string. -/
theorem skipSpaces_total {space : Nat → Bool} (h0 : space 0 = false) (xs : List Nat) (k : Nat) :
    ∃ ys k', skipSpaces space (xs ++ [0]) k = some (ys ++ [0], k') := by
  induction xs generalizing k with
  | nil => exact ⟨[], k, by simp [skipSpaces, h0]⟩
  | cons c cs ih =>
    rw [List.cons_append, skipSpaces]
    split
    · exact ih (k + 1)
    · exact ⟨c :: cs, k, rfl⟩

theorem readDigits_total (xs : List Nat) (acc k : Nat) : ∃ m k', readDigits (xs ++ [0]) acc k = some (m, k') := by
  induction xs generalizing acc k with
  | nil => exact ⟨acc, k, by simp [readDigits]⟩
  | cons c cs ih =>
    rw [List.cons_append, readDigits]
    split
    · exact ih _ _
    · exact ⟨_, _, rfl⟩

theorem scan_total {space : Nat → Bool} (h0 : space 0 = false) (xs : List Nat) :
    ∃ r, scan space (xs ++ [0]) = some r := by
  obtain ⟨ys, k, e⟩ := skipSpaces_total h0 xs 0
  unfold scan
  rw [e]
  cases ys with
  | nil => simp [readDigits]
  | cons c cs =>
    simp only [List.cons_append]
    by_cases h1 : c = 45
    · rw [if_pos h1]
      obtain ⟨m, k', e'⟩ := readDigits_total cs 0 (k + 1)
      simp only [e']
      split <;> exact ⟨_, rfl⟩
    · rw [if_neg h1]
      by_cases h2 : c = 43
      · rw [if_pos h2]
        obtain ⟨m, k', e'⟩ := readDigits_total cs 0 (k + 1)
        simp only [e']
        split <;> exact ⟨_, rfl⟩
      · rw [if_neg h2]
        obtain ⟨m, k', e'⟩ := readDigits_total (c :: cs) 0 k
        rw [List.cons_append] at e'
        simp only [e']
        split <;> exact ⟨_, rfl⟩

/-- The 64-bit range. -/
def InI64 (z : Int) : Prop := -9223372036854775808 ≤ z ∧ z ≤ 9223372036854775807

theorem strtol_total {space : Nat → Bool} (h0 : space 0 = false) (xs : List Nat) :
    ∃ z k, strtol space (xs ++ [0]) = some (z, k) ∧ InI64 z := by
  obtain ⟨⟨neg, m, k⟩, e⟩ := scan_total h0 xs
  unfold strtol
  rw [e]
  refine ⟨_, k, rfl, ?_⟩
  generalize (if neg = true then -(m : Int) else (m : Int)) = v
  simp only [InI64]
  by_cases h1 : v < -9223372036854775808
  · rw [if_pos h1]; omega
  · rw [if_neg h1]
    by_cases h2 : v > 9223372036854775807
    · rw [if_pos h2]; omega
    · rw [if_neg h2]; omega

theorem strtoul_total {space : Nat → Bool} (h0 : space 0 = false) (xs : List Nat) :
    ∃ n k, strtoul space (xs ++ [0]) = some (n, k) ∧ n ≤ 18446744073709551615 := by
  obtain ⟨⟨neg, m, k⟩, e⟩ := scan_total h0 xs
  unfold strtoul
  rw [e]
  refine ⟨_, k, rfl, ?_⟩
  by_cases h1 : m > 18446744073709551615
  · rw [if_pos h1]; omega
  · rw [if_neg h1]
    cases neg
    · simp; omega
    · simp; omega

theorem strtol_decimalInt {space : Nat → Bool} (hs : SaneSpaces space) {z : Int} (hz : InI64 z) :
    strtol space (decimalInt z ++ [0]) = some (z, (decimalInt z).length) := by
  obtain ⟨h1, h2⟩ := hz
  unfold strtol decimalInt
  by_cases hn : z < 0
  · rw [if_pos hn, scan_minus hs]
    have e : -(z.natAbs : Int) = z := by omega
    simp only [Option.map_some, if_true, e]
    rw [if_neg (by omega), if_neg (by omega)]
    rfl
  · rw [if_neg hn, scan_decimalNat hs]
    have e : (z.toNat : Int) = z := by omega
    simp only [Option.map_some, Bool.false_eq_true, if_false, e]
    rw [if_neg (by omega), if_neg (by omega)]

theorem strtoul_decimalNat {space : Nat → Bool} (hs : SaneSpaces space) {n : Nat} (hn : n ≤ 18446744073709551615) :
    strtoul space (decimalNat n ++ [0]) = some (n, (decimalNat n).length) := by
  unfold strtoul
  rw [scan_decimalNat hs]
  simp only [Option.map_some, Bool.false_eq_true, if_false]
  rw [if_neg (by omega)]

theorem i64toa_eq {C : Chars} (hC : 99 ≤ C.size) {z : Int} (hz : InI64 z) : i64toa C z = some (decimalInt z) := by
  obtain ⟨h1, h2⟩ := hz
  unfold i64toa printInto
  have : (decimalInt z).length ≤ 21 := by
    unfold decimalInt
    split
    · have := decimalNat_length z.natAbs 20 (by omega) (by omega)
      simp only [List.length_cons]
      omega
    · have := decimalNat_length z.toNat 20 (by omega) (by omega)
      omega
  rw [if_pos (by omega)]

theorem u64toa_eq {C : Chars} (hC : 99 ≤ C.size) {n : Nat} (hn : n ≤ 18446744073709551615) :
    u64toa C n = some (decimalNat n) := by
  unfold u64toa printInto
  have := decimalNat_length n 20 (by omega) (by omega)
  rw [if_pos (by omega)]

end Number

/-- One of the character types: enough room, and sane spaces. -/
def Number.Chars.Sane (C : Chars) : Prop := 99 ≤ C.size ∧ SaneSpaces C.space

theorem narrow_sane : narrow.Sane := by
  refine ⟨by simp [narrow], by decide, by decide, fun d h1 h2 => ?_⟩
  simp [narrow]
  omega

theorem wide_sane {sp : Nat → Bool} (h : SaneSpaces sp) : (wide sp).Sane := ⟨by simp [wide], h⟩

/-- **C42.** `atoi64_test` and `wtoi64_test`: for every string, success exactly for the canonical numerals of the 64-bit
range, with the number as the result; the value function returns it, or 0. -/
theorem C42_atoi64 (C : Chars) (hC : C.Sane) (s : List Nat) :
    ∃ r ok, atoi64_test C s = some (r, ok) ∧
      (ok = true ↔ ∃ z, InI64 z ∧ Numeral s z) ∧ (ok = true → Numeral s r) ∧
      valueOf (atoi64_test C s) = some (if ok then r else 0) := by
  obtain ⟨z, k, e, hz⟩ := strtol_total hC.2.1 s
  have h1 : atoi64_test C s = some (z, decide (k = s.length) && decide (decimalInt z = s)) := by
    unfold atoi64_test
    simp only [e, i64toa_eq hC.1 hz]
  refine ⟨z, _, h1, ?_, ?_, by rw [h1]; rfl⟩
  · simp only [Bool.and_eq_true, decide_eq_true_eq]
    constructor
    · rintro ⟨-, h⟩
      exact ⟨z, hz, (numeral_iff _ _).mpr h.symm⟩
    · rintro ⟨z', hz', h⟩
      have h := (numeral_iff _ _).mp h
      subst h
      rw [strtol_decimalInt hC.2 hz'] at e
      simp only [Option.some.injEq, Prod.mk.injEq] at e
      exact ⟨e.2.symm, by rw [e.1]⟩
  · simp only [Bool.and_eq_true, decide_eq_true_eq]
    rintro ⟨-, h⟩
    exact (numeral_iff _ _).mpr h.symm

/-- **C42.** `atou64_test` and `wtou64_test`. -/
theorem C42_atou64 (C : Chars) (hC : C.Sane) (s : List Nat) :
    ∃ r ok, atou64_test C s = some (r, ok) ∧
      (ok = true ↔ ∃ n : Nat, n ≤ 18446744073709551615 ∧ Numeral s n) ∧ (ok = true → Numeral s r) ∧
      valueOf (atou64_test C s) = some (if ok then r else 0) := by
  obtain ⟨z, k, e, hz⟩ := strtoul_total hC.2.1 s
  have h1 : atou64_test C s = some (z, decide (k = s.length) && decide (decimalNat z = s)) := by
    unfold atou64_test
    simp only [e, u64toa_eq hC.1 hz]
  have hi : ∀ n : Nat, Numeral s n ↔ s = decimalNat n := by
    intro n
    rw [numeral_iff]
    unfold decimalInt
    rw [if_neg (by omega)]
    simp
  refine ⟨z, _, h1, ?_, ?_, by rw [h1]; rfl⟩
  · simp only [Bool.and_eq_true, decide_eq_true_eq]
    constructor
    · rintro ⟨-, h⟩
      exact ⟨z, hz, (hi z).mpr h.symm⟩
    · rintro ⟨z', hz', h⟩
      have h := (hi _).mp h
      subst h
      rw [strtoul_decimalNat hC.2 hz'] at e
      simp only [Option.some.injEq, Prod.mk.injEq] at e
      exact ⟨e.2.symm, by rw [e.1]⟩
  · simp only [Bool.and_eq_true, decide_eq_true_eq]
    rintro ⟨-, h⟩
    exact (hi _).mpr h.symm

/-- **C42.** `atoi_test` and `wtoi_test`: the range is that of 32 bits. -/
theorem C42_atoi (C : Chars) (hC : C.Sane) (s : List Nat) :
    ∃ r ok, atoi_test C s = some (r, ok) ∧
      (ok = true ↔ ∃ z : Int, (-2147483648 ≤ z ∧ z ≤ 2147483647) ∧ Numeral s z) ∧ (ok = true → Numeral s r) ∧
      valueOf (atoi_test C s) = some (if ok then r else 0) := by
  obtain ⟨z, k, e, hz⟩ := strtol_total hC.2.1 s
  have h1 : atoi_test C s = some (z, (decide (k = s.length) && decide (decimalInt z = s)) &&
      decide (-2147483648 ≤ z ∧ z ≤ 2147483647)) := by
    unfold atoi_test
    simp only [e, i64toa_eq hC.1 hz]
    cases (decide (k = s.length) && decide (decimalInt z = s)) <;> simp
  refine ⟨z, _, h1, ?_, ?_, by rw [h1]; rfl⟩
  · simp only [Bool.and_eq_true, decide_eq_true_eq]
    constructor
    · rintro ⟨⟨-, h⟩, hr⟩
      exact ⟨z, hr, (numeral_iff _ _).mpr h.symm⟩
    · rintro ⟨z', hz', h⟩
      have h := (numeral_iff _ _).mp h
      subst h
      rw [strtol_decimalInt hC.2 (by simp only [InI64]; omega)] at e
      simp only [Option.some.injEq, Prod.mk.injEq] at e
      exact ⟨⟨e.2.symm, by rw [e.1]⟩, by rw [← e.1]; exact hz'⟩
  · simp only [Bool.and_eq_true, decide_eq_true_eq]
    rintro ⟨⟨-, h⟩, -⟩
    exact (numeral_iff _ _).mpr h.symm

/-- **C42.** `atou_test` and `wtou_test`: the range is that of 32 bits. -/
theorem C42_atou (C : Chars) (hC : C.Sane) (s : List Nat) :
    ∃ r ok, atou_test C s = some (r, ok) ∧
      (ok = true ↔ ∃ n : Nat, n ≤ 4294967295 ∧ Numeral s n) ∧ (ok = true → Numeral s r) ∧
      valueOf (atou_test C s) = some (if ok then r else 0) := by
  obtain ⟨z, k, e, hz⟩ := strtoul_total hC.2.1 s
  have h1 : atou_test C s = some (z, (decide (k = s.length) && decide (decimalNat z = s)) &&
      decide (z ≤ 4294967295)) := by
    unfold atou_test
    simp only [e, u64toa_eq hC.1 hz]
    cases (decide (k = s.length) && decide (decimalNat z = s)) <;> simp
  have hi : ∀ n : Nat, Numeral s n ↔ s = decimalNat n := by
    intro n
    rw [numeral_iff]
    unfold decimalInt
    rw [if_neg (by omega)]
    simp
  refine ⟨z, _, h1, ?_, ?_, by rw [h1]; rfl⟩
  · simp only [Bool.and_eq_true, decide_eq_true_eq]
    constructor
    · rintro ⟨⟨-, h⟩, hr⟩
      exact ⟨z, hr, (hi z).mpr h.symm⟩
    · rintro ⟨z', hz', h⟩
      have h := (hi _).mp h
      subst h
      rw [strtoul_decimalNat hC.2 (by omega)] at e
      simp only [Option.some.injEq, Prod.mk.injEq] at e
      exact ⟨⟨e.2.symm, by rw [e.1]⟩, by rw [← e.1]; exact hz'⟩
  · simp only [Bool.and_eq_true, decide_eq_true_eq]
    rintro ⟨⟨-, h⟩, -⟩
    exact (hi _).mpr h.symm

/-- **C41.** `i64toa`/`i64tow` and back, for every 64-bit number. -/
theorem C41_i64 (C : Chars) (hC : C.Sane) (z : Int) (hz : InI64 z) :
    ∃ s, i64toa C z = some s ∧ atoi64_test C s = some (z, true) ∧ valueOf (atoi64_test C s) = some z := by
  have h1 : atoi64_test C (decimalInt z) = some (z, true) := by
    unfold atoi64_test
    simp [strtol_decimalInt hC.2 hz, i64toa_eq hC.1 hz]
  exact ⟨_, i64toa_eq hC.1 hz, h1, by rw [h1]; rfl⟩

/-- **C41.** `u64toa`/`u64tow` and back, for every unsigned 64-bit number. -/
theorem C41_u64 (C : Chars) (hC : C.Sane) (n : Nat) (hn : n ≤ 18446744073709551615) :
    ∃ s, u64toa C n = some s ∧ atou64_test C s = some (n, true) ∧ valueOf (atou64_test C s) = some n := by
  have h1 : atou64_test C (decimalNat n) = some (n, true) := by
    unfold atou64_test
    simp [strtoul_decimalNat hC.2 hn, u64toa_eq hC.1 hn]
  exact ⟨_, u64toa_eq hC.1 hn, h1, by rw [h1]; rfl⟩

/-- **C41 (partial).** `itoa`/`itow` (whose argument is a `vint`, 64 bits) and `atoi`/`wtoi`: for the numbers of 32 bits. -/
theorem C41_i32_partial (C : Chars) (hC : C.Sane) (z : Int) (h1 : -2147483648 ≤ z) (h2 : z ≤ 2147483647) :
    ∃ s, i64toa C z = some s ∧ atoi_test C s = some (z, true) ∧ valueOf (atoi_test C s) = some z := by
  have hz : InI64 z := by simp only [InI64]; omega
  have h1 : atoi_test C (decimalInt z) = some (z, true) := by
    unfold atoi_test
    simp [strtol_decimalInt hC.2 hz, i64toa_eq hC.1 hz, h1, h2]
  exact ⟨_, i64toa_eq hC.1 hz, h1, by rw [h1]; rfl⟩

/-- **C41 (partial).** `utoa`/`utow` and `atou`/`wtou`: for the unsigned numbers of 32 bits. -/
theorem C41_u32_partial (C : Chars) (hC : C.Sane) (n : Nat) (hn : n ≤ 4294967295) :
    ∃ s, u64toa C n = some s ∧ atou_test C s = some (n, true) ∧ valueOf (atou_test C s) = some n := by
  have h1 : atou_test C (decimalNat n) = some (n, true) := by
    unfold atou_test
    simp [strtoul_decimalNat (n := n) hC.2 (by omega), u64toa_eq (n := n) hC.1 (by omega), hn]
  exact ⟨_, u64toa_eq hC.1 (by omega), h1, by rw [h1]; rfl⟩

/-- **C41, violated.** Every other number of type `vint` is printed by `itoa` but not accepted by `atoi_test`, and `atoi`
returns 0. -/
theorem C41_violated_itoa (C : Chars) (hC : C.Sane) (z : Int) (hz : InI64 z) (ho : z < -2147483648 ∨ 2147483647 < z) :
    ∃ s, i64toa C z = some s ∧ atoi_test C s = some (z, false) ∧ valueOf (atoi_test C s) = some 0 := by
  have h1 : atoi_test C (decimalInt z) = some (z, false) := by
    unfold atoi_test
    simp [strtol_decimalInt hC.2 hz, i64toa_eq hC.1 hz]
    omega
  exact ⟨_, i64toa_eq hC.1 hz, h1, by rw [h1]; rfl⟩

/-- **C41, violated.** The same for `vuint`, `utoa` and `atou`. -/
theorem C41_violated_utoa (C : Chars) (hC : C.Sane) (n : Nat) (hn : n ≤ 18446744073709551615) (ho : 4294967295 < n) :
    ∃ s, u64toa C n = some s ∧ atou_test C s = some (n, false) ∧ valueOf (atou_test C s) = some 0 := by
  have h1 : atou_test C (decimalNat n) = some (n, false) := by
    unfold atou_test
    simp [strtoul_decimalNat hC.2 hn, u64toa_eq hC.1 hn]
    omega
  exact ⟨_, u64toa_eq hC.1 hn, h1, by rw [h1]; rfl⟩

example : ∃ s, i64toa narrow (-9223372036854775808) = some s ∧ valueOf (atoi64_test narrow s) = some (-9223372036854775808) := by
  obtain ⟨s, h1, -, h2⟩ := C41_i64 narrow narrow_sane (-9223372036854775808) (by simp [InI64])
  exact ⟨s, h1, h2⟩

/-- "007" is not accepted. -/
example : ∃ r, atoi64_test narrow [48, 48, 55] = some (r, false) := by
  obtain ⟨r, ok, h, hi, -⟩ := C42_atoi64 narrow narrow_sane [48, 48, 55]
  cases ok with
  | false => exact ⟨r, h⟩
  | true =>
    obtain ⟨z, -, hz⟩ := hi.mp rfl
    rcases hz with ⟨n, -, -, -, h3, -⟩ | ⟨n, ys, -, -, h3, -⟩
    · simp at h3
    · simp at h3

/-! ## C58 -/

theorem Number.mem_takeWhile_ne {s : List Int} {x : Int} (h : x ∈ s.takeWhile (· ≠ 0)) : x ≠ 0 := by
  induction s with
  | nil => simp at h
  | cons a s ih =>
    rw [List.takeWhile_cons] at h
    split at h
    · rename_i ha
      rcases List.mem_cons.mp h with rfl | h
      · simpa using ha
      · exact ih h
    · simp at h

theorem Number.takeWhile_self {s : List Int} (h : 0 ∉ s) : s.takeWhile (· ≠ 0) = s := by
  induction s with
  | nil => rfl
  | cons a s ih =>
    rw [List.mem_cons, not_or] at h
    rw [List.takeWhile_cons, if_pos (by simpa using Ne.symm h.1), ih h.2]

theorem Number.wcscase_s_eq (f : Int → Int) (xs : List Int) (h : ∀ x ∈ xs, x ≠ 0) :
    wcscase_s f (xs ++ [0]) = some (xs.map (fun x => viaChar (f x)) ++ [0]) := by
  induction xs with
  | nil => simp [wcscase_s]
  | cons x xs ih =>
    rw [List.cons_append, wcscase_s, if_pos (h x (by simp)), ih (fun y hy => h y (by simp [hy]))]
    rfl

theorem Number.wcase_eq (f : Int → Int) (s : List Int) :
    wcase f s = some ((s.takeWhile (· ≠ 0)).map (fun x => viaChar (f x))) := by
  unfold wcase
  simp only []
  rw [wcscase_s_eq f _ (fun x hx => mem_takeWhile_ne hx)]
  simp

/-- **C58 (partial).** `wlower`/`wupper` map every character by the platform's mapping `f` if the string contains no zero
and the mapped characters fit in a `char`; in particular for ASCII. -/
theorem C58_case_partial (f : Int → Int) (s : List Int) (h0 : 0 ∉ s) (h : ∀ c ∈ s, -128 ≤ f c ∧ f c ≤ 127) :
    wcase f s = some (s.map f) := by
  rw [wcase_eq, takeWhile_self h0]
  congr 1
  apply List.map_congr_left
  intro c hc
  have := h c hc
  simp only [viaChar]
  omega

/-- **C58, violated.** In all other cases the result is wrong: a mapped character that does not fit in a `char` loses
its upper bits, a zero ends the string. -/
theorem C58_violated (f : Int → Int) (s : List Int) (h : 0 ∈ s ∨ ∃ c ∈ s, f c < -128 ∨ 127 < f c) :
    ∃ t, wcase f s = some t ∧ t ≠ s.map f := by
  refine ⟨_, wcase_eq f s, fun e => ?_⟩
  have hl := congrArg List.length e
  simp only [List.length_map] at hl
  have h1 : s.takeWhile (· ≠ 0) = s := (List.takeWhile_prefix _).eq_of_length hl
  rw [h1] at e
  rcases h with h | ⟨c, hc, h⟩
  · rw [← h1] at h
    exact mem_takeWhile_ne h rfl
  · have := (List.map_inj_left.mp e) c hc
    simp only [viaChar] at this
    omega

/-- `wupper` of `"é"` (U+00E9), the mapping being that of Latin-1 here, is the character -55 instead of U+00C9. -/
example : wcase (fun c => if c = 0xE9 then 0xC9 else c) [0xE9] = some [-55] := by
  rw [wcase_eq]; rfl

example : wcase (fun c => if 97 ≤ c ∧ c ≤ 122 then c - 32 else c) [97, 98] = some [65, 66] :=
  C58_case_partial _ [97, 98] (by simp) (by simp)

end Vlpp
