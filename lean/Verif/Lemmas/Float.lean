import Verif.Model.Float
import Verif.Spec.Float
import Verif.Props.NumberProps

/-! # Lemmas about floating point conversions -/
set_option autoImplicit false
set_option exponentiation.threshold 2200
namespace Vlpp
namespace Number
open Spec

/-! ## Rounding -/

theorem roundEven_nearest (a b : Nat) (hb : 0 < b) : Nearest a b (roundEven a b) := by
  have h1 := Nat.div_add_mod a b
  have h2 := Nat.mod_lt a hb
  have e1 : a / b * b = b * (a / b) := Nat.mul_comm _ _
  have e2 : (a / b + 1) * b = b * (a / b) + b := by rw [Nat.add_mul, e1]; omega
  simp only [Nearest, roundEven]
  split
  · rw [e1]; omega
  · split
    · rw [e2]; omega
    · split
      · rw [e1]; omega
      · rw [e2]; omega

theorem nearest_unique {a b n k : Nat} (hb : 0 < b) (h : Nearest a b n) (g : Nearest a b k) : n = k := by
  obtain ⟨h1, h2, h3⟩ := h
  obtain ⟨g1, g2, g3⟩ := g
  have key : ∀ {x y : Nat}, x < y → 2 * (y * b) ≤ 2 * a + b → 2 * a ≤ 2 * (x * b) + b →
      y = x + 1 ∧ 2 * (y * b) = 2 * a + b ∧ 2 * a = 2 * (x * b) + b := by
    intro x y hxy h1 h2
    have e : y * b = x * b + (y - x) * b := by rw [← Nat.add_mul]; congr 1; omega
    have hle : (y - x) * b ≤ b := by omega
    have hyx : y - x = 1 := by
      refine Classical.byContradiction fun hc => ?_
      have : 2 * b ≤ (y - x) * b := Nat.mul_le_mul_right b (by omega)
      omega
    rw [hyx] at e
    exact ⟨by omega, by omega, by omega⟩
  rcases Nat.lt_trichotomy n k with hlt | he | hlt
  · obtain ⟨e, ea, eb⟩ := key hlt g1 h2
    have := h3 (.inr eb)
    have := g3 (.inl ea)
    omega
  · exact he
  · obtain ⟨e, ea, eb⟩ := key hlt h1 g2
    have := g3 (.inr eb)
    have := h3 (.inl ea)
    omega

theorem nearest_exact (n b : Nat) (hb : 0 < b) : Nearest (n * b) b n := ⟨by omega, by omega, by omega⟩

theorem roundEven_exact (n b : Nat) (hb : 0 < b) : roundEven (n * b) b = n :=
  nearest_unique hb (roundEven_nearest _ _ hb) (nearest_exact n b hb)

theorem nearest_iff (a b n : Nat) (hb : 0 < b) : Nearest a b n ↔ roundEven a b = n :=
  ⟨fun h => nearest_unique hb (roundEven_nearest a b hb) h, fun h => h ▸ roundEven_nearest a b hb⟩

theorem unit_eq : unit = 2 ^ 1074 := rfl

theorem unit_pos : 0 < unit := Nat.two_pow_pos _

/-- a bound that is an integer is kept -/
theorem roundEven_le {a b n : Nat} (hb : 0 < b) (h : a ≤ n * b) : roundEven a b ≤ n := by
  obtain ⟨h1, -, h3⟩ := roundEven_nearest a b hb
  refine Classical.byContradiction fun hc => ?_
  have h4 : (n + 1) * b ≤ roundEven a b * b := Nat.mul_le_mul_right b (by omega)
  rw [Nat.add_mul] at h4
  omega

/-! ## `%f` -/

theorem finite_bound {m b : Nat} (hm : m < 2 ^ 53) (hb : b ≤ 2045) :
    roundEven (m * 2 ^ b * 1000000) unit / 1000000 ≤ 2 ^ 1024 := by
  have h1 : m * 2 ^ b ≤ 2 ^ 53 * 2 ^ 2045 := Nat.mul_le_mul (by omega) (Nat.pow_le_pow_right (by omega) hb)
  have h2 : (2 : Nat) ^ 53 * 2 ^ 2045 = 2 ^ 1024 * unit := by
    rw [unit, ← Nat.pow_add]
  have h3 : roundEven (m * 2 ^ b * 1000000) unit ≤ 2 ^ 1024 * 1000000 := by
    apply roundEven_le unit_pos
    calc m * 2 ^ b * 1000000 ≤ 2 ^ 1024 * unit * 1000000 := Nat.mul_le_mul_right _ (by rw [← h2]; exact h1)
      _ = 2 ^ 1024 * 1000000 * unit := by rw [Nat.mul_assoc, Nat.mul_assoc, Nat.mul_comm unit]
  calc roundEven (m * 2 ^ b * 1000000) unit / 1000000 ≤ 2 ^ 1024 * 1000000 / 1000000 := Nat.div_le_div_right h3
    _ = 2 ^ 1024 := Nat.mul_div_cancel _ (by omega)

theorem pow_bound : (2 : Nat) ^ 1024 < 10 ^ 309 := by decide +kernel

theorem sixDigits_length (n : Nat) : (sixDigits n).length = 6 := rfl

theorem sixDigits_digits (n : Nat) : ∀ d ∈ sixDigits n, 48 ≤ d ∧ d ≤ 57 := by
  intro d hd
  simp only [sixDigits, List.mem_cons, List.not_mem_nil, or_false] at hd
  rcases hd with rfl | rfl | rfl | rfl | rfl | rfl <;> omega

theorem sixDigits_value (n : Nat) (h : n < 1000000) : digitsValue (sixDigits n) = n := by
  simp only [digitsValue, sixDigits, List.foldl_cons, List.foldl_nil]
  omega

/-! ## Trailing zeros -/

theorem trimZeros_eq (rds r : List Nat) : trimZeros (rds ++ 46 :: r) = some (rds.dropWhile (· == 48) ++ 46 :: r) := by
  induction rds with
  | nil => simp [trimZeros]
  | cons c cs ih =>
    simp only [List.cons_append, trimZeros, List.dropWhile_cons]
    by_cases h : c = 48
    · simp [h, ih]
    · simp [h]

theorem strip_value (rds : List Nat) : digitsValue rds.reverse =
    digitsValue (rds.dropWhile (· == 48)).reverse * 10 ^ (rds.length - (rds.dropWhile (· == 48)).length) := by
  induction rds with
  | nil => simp [digitsValue]
  | cons c cs ih =>
    rw [List.reverse_cons, digitsValue_append, List.dropWhile_cons]
    by_cases h : c = 48
    · subst h
      simp only [BEq.rfl, if_true, List.length_cons]
      have hl : (cs.dropWhile (· == 48)).length ≤ cs.length := (List.dropWhile_suffix _).length_le
      rw [show cs.length + 1 - (cs.dropWhile (· == 48)).length = (cs.length - (cs.dropWhile (· == 48)).length) + 1 by omega,
        Nat.pow_succ, ← Nat.mul_assoc, ← ih]
      omega
    · simp [h, digitsValue_append]

theorem digit_ne_period {d : Nat} (h : 48 ≤ d ∧ d ≤ 57) : d ≠ 46 := by omega

theorem gcvt_s_eq (s ds : List Nat) (h : ∀ d ∈ ds, 48 ≤ d ∧ d ≤ 57) :
    gcvt_s (s ++ [46] ++ ds) = some (s ++ if ds.reverse.dropWhile (· == 48) = [] then [] else 46 :: (ds.reverse.dropWhile (· == 48)).reverse) := by
  have hr : (s ++ [46] ++ ds).reverse = ds.reverse ++ 46 :: s.reverse := by simp
  simp only [gcvt_s, hr, trimZeros_eq]
  rw [if_pos (by simp)]
  cases e : ds.reverse.dropWhile (· == 48) with
  | nil => simp
  | cons c cs =>
    have hc : c ∈ ds := by
      have : c ∈ ds.reverse.dropWhile (· == 48) := by rw [e]; simp
      exact List.mem_reverse.mp ((List.dropWhile_suffix _).mem this)
    have := digit_ne_period (h c hc)
    simp [this]

theorem dropWhile_head_ne {l : List Nat} {c : Nat} {cs : List Nat} (e : l.dropWhile (· == 48) = c :: cs) : c ≠ 48 := by
  induction l with
  | nil => cases e
  | cons a l ih =>
    rw [List.dropWhile_cons] at e
    split at e
    · exact ih e
    · rename_i h; cases e; simpa using h

theorem ftoa_finite {neg : Bool} {m b : Nat} (hv : (Double.finite neg m b).Valid) :
    ∃ t, ftoa (.finite neg m b) = some t ∧ SixNumeral t neg (roundEven (m * 2 ^ b * 1000000) unit) := by
  obtain ⟨hm, hb, -⟩ := hv
  have hq := finite_bound hm hb
  generalize hn : roundEven (m * 2 ^ b * 1000000) unit = n at hq ⊢
  have hlen : (decimalNat (n / 1000000)).length ≤ 309 := decimalNat_length _ _ (by decide) (Nat.lt_of_le_of_lt hq pow_bound)
  clear hq
  have hs : (signText neg).length ≤ 1 := by cases neg <;> simp [signText]
  have hp : printInto 320 (printfF (.finite neg m b)) = some (printfF (.finite neg m b)) := by
    rw [printInto, if_pos]
    simp only [printfF, hn, List.length_append, sixDigits_length, List.length_cons, List.length_nil]
    omega
  simp only [ftoa, hp]
  simp only [printfF, hn]
  rw [gcvt_s_eq _ _ (sixDigits_digits _)]
  have hval := strip_value (sixDigits (n % 1000000)).reverse
  rw [List.reverse_reverse, sixDigits_value _ (by omega), List.length_reverse, sixDigits_length] at hval
  generalize hfp : ((sixDigits (n % 1000000)).reverse.dropWhile (· == 48)).reverse = fp at hval ⊢
  have hfp' : (sixDigits (n % 1000000)).reverse.dropWhile (· == 48) = fp.reverse := by rw [← hfp, List.reverse_reverse]
  rw [hfp'] at hval ⊢
  have hfd : ∀ d ∈ fp, 48 ≤ d ∧ d ≤ 57 := by
    intro d hd
    refine sixDigits_digits (n % 1000000) d ?_
    have : d ∈ fp.reverse := by simpa using hd
    rw [← hfp'] at this
    exact List.mem_reverse.mp ((List.dropWhile_suffix _).mem this)
  have hfl : fp.length ≤ 6 := by
    have := (List.dropWhile_suffix (l := (sixDigits (n % 1000000)).reverse) (· == 48)).length_le
    rw [hfp'] at this
    simpa [sixDigits_length] using this
  have hlast : ∀ h : fp ≠ [], fp.getLast h ≠ 48 := by
    intro h
    cases e : fp.reverse with
    | nil => exact absurd (by simpa using e) h
    | cons c cs =>
      rw [e] at hfp'
      have := dropWhile_head_ne hfp'
      have e2 : fp = cs.reverse ++ [c] := by
        have := congrArg List.reverse e
        simpa using this
      simp only [e2, List.getLast_concat]
      exact this
  have hnum : n = n / 1000000 * 1000000 + digitsValue fp * 10 ^ (6 - fp.length) := by
    rw [List.length_reverse] at hval
    rw [← hval]; omega
  refine ⟨signText neg ++ decimalNat (n / 1000000) ++ if fp = [] then [] else 46 :: fp, ?_, decimalNat (n / 1000000), fp, n / 1000000,
    ?_, (naturalNumeral_iff _ _).mpr rfl, hfd, hfl, hlast, hnum⟩
  · have e : (if fp.reverse = [] then [] else 46 :: fp) = if fp = [] then [] else 46 :: fp := by
      cases fp with
      | nil => rfl
      | cons c cs => simp
    rw [e]
    by_cases h0 : fp = []
    · subst h0
      have hne := decimalNat_ne_nil (n / 1000000)
      simp only [if_true, List.append_nil]
      rw [List.getLast?_append, List.getLast?_eq_some_getLast hne, Option.some_or]
      have := digit_ne_period (decimalNat_digits _ _ (List.getLast_mem hne))
      simp [this]
    · simp only [if_neg h0]
      have hg : ∀ xs : List Nat, (xs ++ 46 :: fp).getLast? = some (fp.getLast h0) := by
        intro xs
        rw [List.getLast?_append, List.getLast?_cons, List.getLast?_eq_some_getLast h0, Option.some_or, Option.getD_some]
      have := digit_ne_period (hfd _ (List.getLast_mem h0))
      simp only [hg, if_neg this]
  · simp [signText]

/-! ## The nearest `double` -/

theorem toDouble_exact {neg : Bool} {m b : Nat} (hv : (Double.finite neg m b).Valid) {a d : Nat} (hd : 0 < d)
    (h : a * unit = m * 2 ^ b * d) : toDouble neg a d = .finite neg m b := by
  obtain ⟨hm, hb, hc⟩ := hv
  have hx : a * unit / d = m * 2 ^ b := by rw [h]; exact Nat.mul_div_cancel _ hd
  have hp : 0 < 2 ^ b := Nat.two_pow_pos b
  by_cases hx53 : m * 2 ^ b < 2 ^ 53
  · have hb0 : b = 0 := by
      rcases hc with hc | hc
      · refine Classical.byContradiction fun hne => ?_
        have h1 : (2 : Nat) ^ 1 ≤ 2 ^ b := Nat.pow_le_pow_right (by omega) (by omega)
        have h2 : 2 ^ 52 * 2 ≤ m * 2 ^ b := Nat.mul_le_mul hc h1
        omega
      · exact hc
    subst hb0
    have hr : roundEven (a * unit) d = m := by
      rw [h, Nat.pow_zero, Nat.mul_one]; exact roundEven_exact m d hd
    rw [Nat.pow_zero, Nat.mul_one] at hx hx53
    simp only [toDouble, hx, if_pos hx53, Nat.pow_zero, Nat.mul_one, hr]
    rw [if_neg (by omega), if_pos (by omega)]
  · have hb0 : b ≠ 0 := by rintro rfl; simp at hx53; omega
    have hm52 : 2 ^ 52 ≤ m := by
      rcases hc with hc | hc
      · exact hc
      · exact absurd hc hb0
    have hlog : (m * 2 ^ b).log2 = 52 + b := by
      have hne : m * 2 ^ b ≠ 0 := by
        have : 0 < m * 2 ^ b := Nat.mul_pos (by omega) hp
        omega
      rw [Nat.log2_eq_iff hne]
      constructor
      · rw [Nat.pow_add]; exact Nat.mul_le_mul_right _ hm52
      · rw [show 52 + b + 1 = 53 + b by omega, Nat.pow_add]; exact Nat.mul_lt_mul_of_pos_right hm hp
    have hr : roundEven (a * unit) (d * 2 ^ b) = m := by
      rw [h, Nat.mul_assoc, Nat.mul_comm (2 ^ b) d]
      exact roundEven_exact m _ (Nat.mul_pos hd hp)
    simp only [toDouble, hx, if_neg hx53, hlog, Nat.add_sub_cancel_left, hr]
    rw [if_neg (by omega), if_pos hb]

theorem large_exponent {m b : Nat} (hm : m < 2 ^ 53) (h : 2 ^ 33 * unit ≤ m * 2 ^ b) : 1055 ≤ b := by
  refine Classical.byContradiction fun hc => ?_
  have h1 : (2 : Nat) ^ b ≤ 2 ^ 1054 := Nat.pow_le_pow_right (by omega) (by omega)
  have h2 : m * 2 ^ b ≤ m * 2 ^ 1054 := Nat.mul_le_mul_left m h1
  have h3 : m * 2 ^ 1054 < 2 ^ 53 * 2 ^ 1054 := Nat.mul_lt_mul_of_pos_right hm (Nat.two_pow_pos _)
  have h4 : (2 : Nat) ^ 53 * 2 ^ 1054 = 2 ^ 33 * unit := by rw [unit, ← Nat.pow_add]
  rw [h4] at h3
  exact absurd (Nat.lt_of_le_of_lt (Nat.le_trans h h2) h3) (Nat.lt_irrefl _)

/-- from `2 ^ 33` on, six decimals determine the number -/
theorem toDouble_large {neg : Bool} {m b : Nat} (hv : (Double.finite neg m b).Valid) (h : 2 ^ 33 * unit ≤ m * 2 ^ b) :
    toDouble neg (roundEven (m * 2 ^ b * 1000000) unit) 1000000 = .finite neg m b := by
  obtain ⟨hm, hb, hc⟩ := id hv
  have hb2 := large_exponent hm h
  have hm52 : 2 ^ 52 ≤ m := by
    rcases hc with hc | hc
    · exact hc
    · omega
  by_cases hm0 : m = 2 ^ 52
  · -- an integer
    have e : m * 2 ^ b = 2 ^ (b - 1022) * unit := by
      rw [hm0, unit, ← Nat.pow_add, ← Nat.pow_add, show 52 + b = b - 1022 + 1074 by omega]
    have hr : roundEven (m * 2 ^ b * 1000000) unit = 2 ^ (b - 1022) * 1000000 := by
      rw [e, Nat.mul_assoc, Nat.mul_comm unit, ← Nat.mul_assoc]
      exact roundEven_exact _ _ unit_pos
    rw [hr]
    apply toDouble_exact hv (by omega)
    rw [e, Nat.mul_assoc, Nat.mul_assoc, Nat.mul_comm unit]
  · obtain ⟨n1, n2, -⟩ := roundEven_nearest (m * 2 ^ b * 1000000) unit unit_pos
    generalize roundEven (m * 2 ^ b * 1000000) unit = n at n1 n2 ⊢
    have hp : 0 < 2 ^ b := Nat.two_pow_pos b
    have hU : unit ≤ 524288 * 2 ^ b := by
      have : (2 : Nat) ^ 1074 ≤ 2 ^ (19 + b) := Nat.pow_le_pow_right (by omega) (by omega)
      rw [Nat.pow_add] at this
      exact this
    have hm1 : (m - 1) * 2 ^ b + 2 ^ b = m * 2 ^ b := by
      rw [← Nat.succ_mul]; congr 1; omega
    have hlow : 2 ^ 52 * 2 ^ b ≤ (m - 1) * 2 ^ b := Nat.mul_le_mul_right _ (by omega)
    have hhigh : m * 2 ^ b + 2 ^ b ≤ 2 ^ 53 * 2 ^ b := by
      rw [← Nat.succ_mul]; exact Nat.mul_le_mul_right _ (by omega)
    have hx1 : 2 ^ 52 * 2 ^ b ≤ n * unit / 1000000 := by
      rw [Nat.le_div_iff_mul_le (by omega)]
      omega
    have hx2 : n * unit / 1000000 < 2 ^ 53 * 2 ^ b := by
      rw [Nat.div_lt_iff_lt_mul (by omega)]
      omega
    have hlog : (n * unit / 1000000).log2 = 52 + b := by
      have hne : n * unit / 1000000 ≠ 0 := by
        have : 0 < 2 ^ 52 * 2 ^ b := Nat.mul_pos (by omega) hp
        omega
      rw [Nat.log2_eq_iff hne]
      constructor
      · rw [Nat.pow_add]; exact hx1
      · rw [show 52 + b + 1 = 53 + b by omega, Nat.pow_add]; exact hx2
    have hbig : ¬ n * unit / 1000000 < 2 ^ 53 := by
      have h1 : (2 : Nat) ^ 1 ≤ 2 ^ b := Nat.pow_le_pow_right (by omega) (by omega)
      have : 2 ^ 52 * 2 ≤ 2 ^ 52 * 2 ^ b := Nat.mul_le_mul_left _ h1
      omega
    have hr : roundEven (n * unit) (1000000 * 2 ^ b) = m := by
      rw [← nearest_iff _ _ _ (by omega)]
      have e : m * (1000000 * 2 ^ b) = m * 2 ^ b * 1000000 := by
        rw [Nat.mul_comm 1000000, ← Nat.mul_assoc]
      refine ⟨?_, ?_, ?_⟩ <;> rw [e] <;> omega
    simp only [toDouble, if_neg hbig, hlog, Nat.add_sub_cancel_left, hr]
    rw [if_neg (by omega), if_pos hb]

/-! ## Scanning -/

theorem isDigit_iff (c : Nat) : isDigit c = true ↔ 48 ≤ c ∧ c ≤ 57 := by simp [isDigit]

theorem decimalValue_eq (ds : List Nat) : decimalValue ds = digitsValue ds := by
  simp only [decimalValue, digitsValue, Nat.mul_comm]

/-- does not begin with a digit -/
def Ends (r : List Nat) : Prop := ∀ c, r.head? = some c → isDigit c = false

theorem digits_zero (xs : List Nat) : digits (xs ++ [0]) = some (xs.takeWhile isDigit, xs.dropWhile isDigit ++ [0]) := by
  have h : (xs ++ [0]).dropWhile isDigit = xs.dropWhile isDigit ++ [0] ∧ (xs ++ [0]).takeWhile isDigit = xs.takeWhile isDigit := by
    induction xs with
    | nil => simp [List.dropWhile, List.takeWhile, isDigit]
    | cons x xs ih =>
      simp only [List.cons_append, List.dropWhile_cons, List.takeWhile_cons, ih]
      split <;> simp
  simp only [digits, h.1, h.2]
  cases hd : xs.dropWhile isDigit <;> simp

theorem dropWhile_ends (xs : List Nat) : Ends (xs.dropWhile isDigit) := by
  intro c hc
  induction xs with
  | nil => simp at hc
  | cons x xs ih =>
    rw [List.dropWhile_cons] at hc
    split at hc
    · exact ih hc
    · simp only [List.head?_cons, Option.some.injEq] at hc
      subst hc; exact Bool.eq_false_iff.2 (by assumption)

theorem takeWhile_digits (xs : List Nat) : Digits (xs.takeWhile isDigit) := by
  intro d hd
  induction xs with
  | nil => simp at hd
  | cons x xs ih =>
    rw [List.takeWhile_cons] at hd
    split at hd
    · rcases List.mem_cons.1 hd with rfl | hd
      · exact (isDigit_iff _).1 ‹_›
      · exact ih hd
    · simp at hd

theorem split_digits {ds r : List Nat} (hd : Digits ds) (hr : Ends r) :
    (ds ++ r).takeWhile isDigit = ds ∧ (ds ++ r).dropWhile isDigit = r := by
  induction ds with
  | nil =>
    cases r with
    | nil => simp
    | cons c r => simp [hr c rfl]
  | cons d ds ih =>
    have h1 : isDigit d = true := (isDigit_iff d).2 (hd d (by simp))
    have := ih fun x hx => hd x (by simp [hx])
    simp [h1, this]

theorem sign_zero (xs : List Nat) :
    ∃ neg s r, sign (xs ++ [0]) = (neg, r ++ [0]) ∧ xs = s ++ r ∧ Sign s neg := by
  cases xs with
  | nil => exact ⟨false, [], [], by simp [sign], rfl, .inl ⟨rfl, rfl⟩⟩
  | cons c r =>
    by_cases h1 : c = 45
    · subst h1; exact ⟨true, [45], r, by simp [sign], rfl, .inr (.inr ⟨rfl, rfl⟩)⟩
    · by_cases h2 : c = 43
      · subst h2; exact ⟨false, [43], r, by simp [sign], rfl, .inr (.inl ⟨rfl, rfl⟩)⟩
      · exact ⟨false, [], c :: r, by simp [sign, h1, h2], rfl, .inl ⟨rfl, rfl⟩⟩

/-- does not begin with a sign -/
def Unsigned (r : List Nat) : Prop := ∀ c, r.head? = some c → c ≠ 45 ∧ c ≠ 43

theorem sign_of {s r : List Nat} {neg : Bool} (hs : Sign s neg) (hr : Unsigned r) : sign (s ++ r) = (neg, r) := by
  rcases hs with ⟨rfl, rfl⟩ | ⟨rfl, rfl⟩ | ⟨rfl, rfl⟩
  · cases r with
    | nil => rfl
    | cons c r => have := hr c rfl; simp [sign, this]
  · simp [sign]
  · simp [sign]

theorem mantissa_zero (xs : List Nat) :
    ∃ ds fs r, mantissa (xs ++ [0]) = some (ds, fs, r ++ [0]) ∧ Digits ds ∧ Digits fs ∧
      (xs = ds ++ 46 :: fs ++ r ∨ fs = [] ∧ xs = ds ++ r) := by
  have e := List.takeWhile_append_dropWhile (p := isDigit) (l := xs)
  simp only [mantissa, digits_zero]
  cases hd : xs.dropWhile isDigit with
  | nil =>
    rw [hd, List.append_nil] at e
    exact ⟨xs.takeWhile isDigit, [], [], by simp, takeWhile_digits _, by simp [Digits], .inr ⟨rfl, by simp [e]⟩⟩
  | cons c r =>
    rw [hd] at e
    by_cases hc : c = 46
    · subst hc
      have e2 := List.takeWhile_append_dropWhile (p := isDigit) (l := r)
      refine ⟨_, _, _, by simp [digits_zero]; exact ⟨rfl, rfl, rfl⟩, takeWhile_digits _, takeWhile_digits _, .inl ?_⟩
      rw [List.append_assoc, List.cons_append, e2, e]
    · exact ⟨xs.takeWhile isDigit, [], c :: r, by simp [hc], takeWhile_digits _, by simp [Digits], .inr ⟨rfl, by simp [e]⟩⟩

theorem mantissa_of {ds fs r xs : List Nat} (h1 : Digits ds) (h2 : Digits fs) (hr : Ends r)
    (hx : xs = ds ++ 46 :: fs ++ r ∨ fs = [] ∧ xs = ds ++ r ∧ ∀ c, r.head? = some c → c ≠ 46) :
    mantissa (xs ++ [0]) = some (ds, fs, r ++ [0]) := by
  rcases hx with rfl | ⟨rfl, rfl, hp⟩
  · have a : Ends (46 :: fs ++ r) := by
      intro c hc; simp only [List.cons_append, List.head?_cons, Option.some.injEq] at hc; subst hc; decide
    have := split_digits h1 a
    rw [← List.append_assoc] at this
    simp only [mantissa, digits_zero, this.1, this.2, List.cons_append, if_true, split_digits h2 hr]
  · have := split_digits h1 hr
    simp only [mantissa, digits_zero, this.1, this.2]
    cases r with
    | nil => simp
    | cons c r => simp [hp c rfl]

theorem exponent_zero (xs : List Nat) :
    ∃ x ex r, exponent (xs ++ [0]) = some (x, r ++ [0]) ∧ Exponent ex x ∧ xs = ex ++ r := by
  cases xs with
  | nil => exact ⟨0, [], [], by simp [exponent], .inl ⟨rfl, rfl⟩, rfl⟩
  | cons c r =>
    by_cases hc : c = 101 ∨ c = 69
    · obtain ⟨neg, s, r1, e1, e2, hs⟩ := sign_zero r
      by_cases hd : r1.takeWhile isDigit = []
      · exact ⟨0, [], c :: r, by simp [exponent, hc, e1, digits_zero, hd], .inl ⟨rfl, rfl⟩, rfl⟩
      · refine ⟨_, c :: s ++ r1.takeWhile isDigit, _, by simp [exponent, hc, e1, digits_zero, hd]; exact ⟨rfl, rfl⟩,
          .inr ⟨c, s, _, neg, hc, hs, takeWhile_digits _, hd, rfl, by rw [decimalValue_eq]⟩, ?_⟩
        rw [List.append_assoc, List.takeWhile_append_dropWhile, e2]; rfl
    · exact ⟨0, [], c :: r, by simp [exponent, hc], .inl ⟨rfl, rfl⟩, rfl⟩

theorem unsigned_digits {ds r : List Nat} (hd : Digits ds) (h0 : ds ≠ []) : Unsigned (ds ++ r) := by
  intro c hc
  cases ds with
  | nil => exact absurd rfl h0
  | cons d ds =>
    simp only [List.cons_append, List.head?_cons, Option.some.injEq] at hc
    have := hd d (by simp)
    omega

theorem exponent_of {ex : List Nat} {x : Int} (h : Exponent ex x) : exponent (ex ++ [0]) = some (x, [0]) := by
  rcases h with ⟨rfl, rfl⟩ | ⟨c, s, ds, neg, hc, hs, hd, h0, rfl, rfl⟩
  · simp [exponent]
  · have e1 : sign (s ++ (ds ++ [0])) = (neg, ds ++ [0]) := sign_of hs (unsigned_digits hd h0)
    have e2 := split_digits hd (r := []) (by simp [Ends])
    rw [List.append_nil] at e2
    simp [exponent, hc, e1, digits_zero, e2, h0, decimalValue_eq]

theorem exponent_head {ex : List Nat} {x : Int} (h : Exponent ex x) (c : Nat) (hc : ex.head? = some c) : c = 101 ∨ c = 69 := by
  rcases h with ⟨rfl, rfl⟩ | ⟨c', s, ds, neg, hc', hs, hd, h0, rfl, rfl⟩
  · simp at hc
  · simp only [List.cons_append, List.head?_cons, Option.some.injEq] at hc
    omega

theorem dropWhile_zero {space : Nat → Bool} (h0 : space 0 = false) (xs : List Nat) :
    (xs ++ [0]).dropWhile space = xs.dropWhile space ++ [0] := by
  induction xs with
  | nil => simp [h0]
  | cons x xs ih =>
    simp only [List.cons_append, List.dropWhile_cons, ih]
    split <;> simp

theorem dropWhile_of {space : Nat → Bool} {sp r : List Nat} (h : ∀ c ∈ sp, space c = true)
    (hr : ∀ c, r.head? = some c → space c = false) : (sp ++ r).dropWhile space = r := by
  induction sp with
  | nil =>
    cases r with
    | nil => simp
    | cons c r => simp [hr c rfl]
  | cons x xs ih => simp [h x (by simp), ih fun c hc => h c (by simp [hc])]

theorem takeWhile_all {space : Nat → Bool} (xs : List Nat) : ∀ c ∈ xs.takeWhile space, space c = true := by
  induction xs with
  | nil => simp
  | cons x xs ih =>
    intro c hc
    rw [List.takeWhile_cons] at hc
    split at hc
    · rcases List.mem_cons.1 hc with rfl | hc
      · assumption
      · exact ih c hc
    · simp at hc

/-- `strtod` after the spaces and the sign -/
theorem strtod_plain {space : Nat → Bool} (hs : FloatSpaces space)
    {special : List Nat → Option ((Bool → Double) × List Nat)} (s : List Nat) {neg : Bool} {r1 : List Nat}
    (hsg : sign (s.dropWhile space ++ [0]) = (neg, r1 ++ [0])) (hsp : special (r1 ++ [0]) = none)
    {ds fs r2 : List Nat} (hm : mantissa (r1 ++ [0]) = some (ds, fs, r2 ++ [0]))
    {x : Int} {r3 : List Nat} (he : exponent (r2 ++ [0]) = some (x, r3 ++ [0])) :
    atof_test space special s = some (if ds ++ fs = [] then (.finite false 0 0, decide (s = []))
      else (ofDecimal neg (digitsValue (ds ++ fs)) (x - fs.length), decide (s.length - r3.length = s.length))) := by
  have e : (s ++ [0]).dropWhile space = s.dropWhile space ++ [0] := dropWhile_zero hs.1.1 s
  unfold atof_test strtod
  rw [e]
  have hne : s.dropWhile space ++ [0] ≠ [] := by simp
  split
  · exact absurd ‹_› hne
  · simp only [hsg, hsp, hm, he]
    by_cases h : ds ++ fs = []
    · rw [if_pos h, if_pos h]
      simp only [Option.map_some, Option.some.injEq, Prod.mk.injEq, true_and, decide_eq_decide]
      cases s <;> simp
    · rw [if_neg h, if_neg h]
      simp only [Option.map_some, decimalValue_eq, List.length_append, List.length_singleton]
      congr 3
      apply propext; omega

theorem special_none {special : List Nat → Option ((Bool → Double) × List Nat)} (hsp : FloatSpecial special)
    {r : List Nat} (h : Plain r) : special (r ++ [0]) = none := by
  refine Classical.byContradiction fun hc => ?_
  rcases hsp _ hc with ⟨c, t, e, hcc⟩ | ⟨c, t, e, hcc⟩
  · cases r with
    | nil => simp at e; omega
    | cons d r => simp at e; have := h d (by simp); omega
  · cases r with
    | nil => simp at e
    | cons d r =>
      cases r with
      | nil => simp at e; omega
      | cons d' r => simp at e; have := h d' (by simp); omega

/-- reading a numeral after spaces -/
theorem atof_test_numeral {space : Nat → Bool} (hs : FloatSpaces space)
    {special : List Nat → Option ((Bool → Double) × List Nat)} (hsp : FloatSpecial special)
    {sp xs : List Nat} {neg : Bool} {m : Nat} {e : Int} (h1 : ∀ c ∈ sp, space c = true) (h2 : FloatNumeral xs neg m e)
    (hp : Plain xs) :
    atof_test space special (sp ++ xs) = some (ofDecimal neg m e, true) := by
  obtain ⟨s, ds, fs, ex, x, hsg, hd, hf, h0, hex, hxs, rfl, rfl⟩ := h2
  -- what follows the sign
  obtain ⟨r1, e1, hr1⟩ : ∃ r1, xs = s ++ r1 ∧ (r1 = ds ++ 46 :: fs ++ ex ∨ fs = [] ∧ r1 = ds ++ ex) := by
    rcases hxs with hxs | ⟨hf0, hxs⟩
    · exact ⟨ds ++ 46 :: fs ++ ex, by simp [hxs], .inl rfl⟩
    · exact ⟨ds ++ ex, by simp [hxs], .inr ⟨hf0, rfl⟩⟩
  have hhead : ∃ c r, r1 = c :: r ∧ (c = 46 ∨ 48 ≤ c ∧ c ≤ 57) := by
    cases ds with
    | cons d ds =>
      refine ⟨d, ?_⟩
      have hdd := hd d (by simp)
      rcases hr1 with rfl | ⟨-, rfl⟩
      · exact ⟨_, rfl, .inr hdd⟩
      · exact ⟨_, rfl, .inr hdd⟩
    | nil =>
      rcases hr1 with rfl | ⟨rfl, rfl⟩
      · exact ⟨46, _, rfl, .inl rfl⟩
      · exact absurd rfl h0
  obtain ⟨c, r, ec, hc⟩ := hhead
  have hdig : ∀ d, 48 ≤ d → d ≤ 57 → space d = false := hs.1.2.2
  have hxhead : ∀ c, xs.head? = some c → space c = false := by
    intro c' hc'
    rw [e1, ec] at hc'
    rcases hsg with ⟨rfl, rfl⟩ | ⟨rfl, rfl⟩ | ⟨rfl, rfl⟩
    · simp only [List.nil_append, List.head?_cons, Option.some.injEq] at hc'
      subst hc'
      rcases hc with rfl | ⟨ha, hb⟩
      · exact hs.2.2
      · exact hdig _ ha hb
    · simp at hc'; subst hc'; exact hs.2.1
    · simp at hc'; subst hc'; exact hs.1.2.1
  have hdrop := dropWhile_of h1 hxhead
  have hsign : sign ((sp ++ xs).dropWhile space ++ [0]) = (neg, r1 ++ [0]) := by
    rw [hdrop, e1, List.append_assoc]
    apply sign_of hsg
    intro c' hc'
    rw [ec] at hc'
    simp at hc'
    omega
  have hends : Ends ex := by
    intro c' hc'
    rcases exponent_head hex c' hc' with rfl | rfl <;> decide
  have hman : mantissa (r1 ++ [0]) = some (ds, fs, ex ++ [0]) := by
    apply mantissa_of hd hf hends
    rcases hr1 with h | ⟨h, h'⟩
    · exact .inl h
    · refine .inr ⟨h, h', fun c' hc' => ?_⟩
      rcases exponent_head hex c' hc' with rfl | rfl <;> decide
  have hspn : special (r1 ++ [0]) = none := by
    apply special_none hsp
    intro c' hc'
    exact hp c' (by rw [e1]; exact List.mem_append_right _ hc')
  rw [strtod_plain hs _ hsign hspn hman (r3 := []) (exponent_of hex), if_neg h0]
  simp

theorem plain_sub {xs ys : List Nat} (h : Plain ys) (hs : ∀ c ∈ xs, c ∈ ys) : Plain xs := fun c hc => h c (hs c hc)

/-- every string without the letters of the special forms is read; it is accepted exactly if it is empty or a numeral after
spaces -/
theorem atof_test_total {space : Nat → Bool} (hs : FloatSpaces space)
    {special : List Nat → Option ((Bool → Double) × List Nat)} (hsp : FloatSpecial special) {s : List Nat} (hp : Plain s) :
    ∃ r b, atof_test space special s = some (r, b) ∧
      (b = true → s = [] ∨ ∃ sp xs neg m e, s = sp ++ xs ∧ (∀ c ∈ sp, space c = true) ∧ FloatNumeral xs neg m e) := by
  obtain ⟨neg, sg, r1, e1, e2, hsg⟩ := sign_zero (s.dropWhile space)
  have e0 := List.takeWhile_append_dropWhile (p := space) (l := s)
  have hp1 : Plain r1 := plain_sub hp fun c hc => by rw [← e0, e2]; simp [hc]
  obtain ⟨ds, fs, r2, e3, hd, hf, hr1⟩ := mantissa_zero r1
  obtain ⟨x, ex, r3, e4, hex, e5⟩ := exponent_zero r2
  rw [strtod_plain hs s e1 (special_none hsp hp1) e3 e4]
  by_cases h0 : ds ++ fs = []
  · rw [if_pos h0]
    exact ⟨_, _, rfl, fun h => .inl (by simpa using h)⟩
  · rw [if_neg h0]
    refine ⟨_, _, rfl, fun h => .inr ⟨s.takeWhile space, s.dropWhile space, neg, _, _, e0.symm, takeWhile_all s, sg, ds, fs, ex, x,
      hsg, hd, hf, h0, hex, ?_, rfl, rfl⟩⟩
    have hlen : s.length - r3.length = s.length := by simpa using h
    have hr3 : r3 = [] := by
      cases r3 with
      | nil => rfl
      | cons c r3 =>
        have : s.length ≠ 0 := by
          rw [← e0, e2]
          rcases hr1 with rfl | ⟨-, rfl⟩ <;> subst e5 <;> simp <;> omega
        simp at hlen; omega
    subst hr3
    rw [List.append_nil] at e5
    subst e5
    rcases hr1 with rfl | ⟨hf0, rfl⟩
    · exact .inl (by simp [e2])
    · exact .inr ⟨hf0, by simp [e2]⟩

theorem digitsValue_split (xs ys : List Nat) : digitsValue (xs ++ ys) = digitsValue xs * 10 ^ ys.length + digitsValue ys := by
  rw [← List.reverse_reverse ys]
  generalize ys.reverse = zs
  induction zs with
  | nil => simp [digitsValue]
  | cons y zs ih =>
    rw [List.reverse_cons, ← List.append_assoc, digitsValue_append, digitsValue_append, ih, List.length_append, List.length_singleton,
      Nat.pow_succ, Nat.mul_add, ← Nat.mul_assoc, Nat.mul_comm 10 (digitsValue xs), Nat.mul_assoc, Nat.mul_comm 10]
    omega

/-- six decimals are a numeral -/
theorem sixNumeral_float {t : List Nat} {neg : Bool} {n : Nat} (h : SixNumeral t neg n) :
    ∃ m k : Nat, k ≤ 6 ∧ FloatNumeral t neg m (-(k : Int)) ∧ n = m * 10 ^ (6 - k) ∧ Plain t := by
  obtain ⟨ip, fp, p, rfl, ⟨hi0, hid, -, hiv⟩, hfd, hfl, -, hn⟩ := h
  refine ⟨digitsValue (ip ++ fp), fp.length, hfl, ⟨if neg then [45] else [], ip, fp, [], 0, ?_, hid, hfd, by simp [hi0],
    .inl ⟨rfl, rfl⟩, ?_, rfl, by omega⟩, ?_, ?_⟩
  · cases neg
    · exact .inl ⟨rfl, rfl⟩
    · exact .inr (.inr ⟨rfl, rfl⟩)
  · by_cases h : fp = []
    · exact .inr ⟨h, by simp [h]⟩
    · exact .inl (by simp [h])
  · have : ∀ xs ys : List Nat, digitsValue (xs ++ ys) = digitsValue xs * 10 ^ ys.length + digitsValue ys := by
      exact digitsValue_split
    rw [this, hiv, Nat.add_mul, Nat.mul_assoc, ← Nat.pow_add, show fp.length + (6 - fp.length) = 6 by omega, hn]
  · intro c hc
    have hdig : ∀ c, 48 ≤ c ∧ c ≤ 57 → c ≠ 105 ∧ c ≠ 73 ∧ c ≠ 110 ∧ c ≠ 78 ∧ c ≠ 120 ∧ c ≠ 88 := by intro c h; omega
    rcases List.mem_append.1 hc with hc | hc
    · rcases List.mem_append.1 hc with hc | hc
      · cases neg <;> simp at hc; subst hc; decide
      · exact hdig c (hid c hc)
    · split at hc
      · simp at hc
      · rcases List.mem_cons.1 hc with rfl | hc
        · decide
        · exact hdig c (hfd c hc)

theorem roundEven_scale (a b k : Nat) (hb : 0 < b) (hk : 0 < k) : roundEven (a * k) (b * k) = roundEven a b := by
  rw [← nearest_iff _ _ _ (Nat.mul_pos hb hk)]
  obtain ⟨h1, h2, h3⟩ := roundEven_nearest a b hb
  generalize roundEven a b = n at *
  have e : n * (b * k) = n * b * k := by rw [Nat.mul_assoc]
  have d1 : (2 * (n * b)) * k = 2 * (n * b * k) := Nat.mul_assoc _ _ _
  have d2 : (2 * a + b) * k = 2 * (a * k) + b * k := by rw [Nat.add_mul, Nat.mul_assoc]
  have d3 : (2 * a) * k = 2 * (a * k) := Nat.mul_assoc _ _ _
  have d4 : (2 * (n * b) + b) * k = 2 * (n * b * k) + b * k := by rw [Nat.add_mul, Nat.mul_assoc 2]
  have := Nat.mul_le_mul_right k h1
  have := Nat.mul_le_mul_right k h2
  refine ⟨by rw [e]; omega, by rw [e]; omega, fun h => h3 ?_⟩
  rw [e] at h
  rcases h with h | h
  · exact .inl (Nat.eq_of_mul_eq_mul_right hk (by omega))
  · exact .inr (Nat.eq_of_mul_eq_mul_right hk (by omega))

theorem toDouble_scale (neg : Bool) (a b k : Nat) (hb : 0 < b) (hk : 0 < k) : toDouble neg (a * k) (b * k) = toDouble neg a b := by
  have e1 : a * k * unit / (b * k) = a * unit / b := by
    rw [show a * k * unit = a * unit * k by rw [Nat.mul_assoc, Nat.mul_comm k, ← Nat.mul_assoc]]
    exact Nat.mul_div_mul_right _ _ hk
  have e2 : ∀ e, roundEven (a * k * unit) (b * k * 2 ^ e) = roundEven (a * unit) (b * 2 ^ e) := by
    intro e
    rw [show a * k * unit = a * unit * k by rw [Nat.mul_assoc, Nat.mul_comm k, ← Nat.mul_assoc],
      show b * k * 2 ^ e = b * 2 ^ e * k by rw [Nat.mul_assoc, Nat.mul_comm k, ← Nat.mul_assoc]]
    exact roundEven_scale _ _ _ (Nat.mul_pos hb (Nat.two_pow_pos e)) hk
  simp only [toDouble, e1, e2]

/-- what is read from six decimals -/
theorem atof_six {space : Nat → Bool} (hs : FloatSpaces space)
    {special : List Nat → Option ((Bool → Double) × List Nat)} (hsp : FloatSpecial special)
    {t : List Nat} {neg : Bool} {n : Nat} (h : SixNumeral t neg n) :
    atof_test space special t = some (toDouble neg n 1000000, true) := by
  obtain ⟨m, k, hk, hf, rfl, hp⟩ := sixNumeral_float h
  have := atof_test_numeral hs hsp (sp := []) (by simp) hf hp
  rw [List.nil_append] at this
  rw [this]
  have e : (1000000 : Nat) = 10 ^ k * 10 ^ (6 - k) := by rw [← Nat.pow_add, show k + (6 - k) = 6 by omega]
  have e2 : ofDecimal neg m (-(k : Int)) = toDouble neg (m * 10 ^ (6 - k)) 1000000 := by
    rw [e, toDouble_scale _ _ _ _ (Nat.pow_pos (by omega)) (Nat.pow_pos (by omega))]
    unfold ofDecimal
    by_cases hk0 : k = 0
    · subst hk0; simp
    · rw [if_neg (by omega)]; simp
  rw [e2]

/-! ## `toDouble` is correctly rounded -/

theorem nearest_best {A B n : Nat} (h : Nearest A B n) (k : Nat) (hk : k ≠ n) :
    apart (n * B) A < apart (k * B) A ∨ (apart (n * B) A = apart (k * B) A ∧ n % 2 = 0) := by
  obtain ⟨h1, h2, h3⟩ := h
  unfold apart
  rcases Nat.lt_or_gt_of_ne hk with hlt | hgt
  · have : k * B + B ≤ n * B := by rw [← Nat.succ_mul]; exact Nat.mul_le_mul_right _ hlt
    by_cases ht : 2 * (n * B) = 2 * A + B
    · have := h3 (.inl ht)
      omega
    · omega
  · have : n * B + B ≤ k * B := by rw [← Nat.succ_mul]; exact Nat.mul_le_mul_right _ hgt
    by_cases ht : 2 * A = 2 * (n * B) + B
    · have := h3 (.inr ht)
      omega
    · omega

theorem toDouble_spec (neg : Bool) (a b : Nat) (hb : 0 < b) :
    (∃ m e, toDouble neg a b = .finite neg m e ∧ NearestFinite a b m e) ∨ (toDouble neg a b = .inf neg ∧ TooLarge a b) := by
  -- the exponent
  obtain ⟨e, he, hlow, hhigh⟩ : ∃ e, (if a * unit / b < 2 ^ 53 then 0 else (a * unit / b).log2 - 52) = e ∧
      (e = 0 ∨ 2 ^ 52 * 2 ^ e ≤ a * unit / b) ∧ a * unit / b < 2 ^ 53 * 2 ^ e := by
    by_cases hx : a * unit / b < 2 ^ 53
    · exact ⟨0, if_pos hx, .inl rfl, by simpa using hx⟩
    · refine ⟨_, if_neg hx, ?_⟩
      have hne : a * unit / b ≠ 0 := by omega
      have h1 := Nat.log2_self_le hne
      have h2 := @Nat.lt_log2_self (a * unit / b)
      have h3 : 52 < (a * unit / b).log2 := by
        refine Classical.byContradiction fun hc => ?_
        have : (2 : Nat) ^ ((a * unit / b).log2 + 1) ≤ 2 ^ 53 := Nat.pow_le_pow_right (by omega) (by omega)
        omega
      rw [← Nat.pow_add, ← Nat.pow_add, show 52 + ((a * unit / b).log2 - 52) = (a * unit / b).log2 by omega,
        show 53 + ((a * unit / b).log2 - 52) = (a * unit / b).log2 + 1 by omega]
      exact ⟨.inr h1, h2⟩
  have hp : 0 < 2 ^ e := Nat.two_pow_pos e
  have hB : 0 < b * 2 ^ e := Nat.mul_pos hb hp
  have hn := roundEven_nearest (a * unit) (b * 2 ^ e) hB
  have hdef : toDouble neg a b = (if roundEven (a * unit) (b * 2 ^ e) = 2 ^ 53 then
      (if e + 1 ≤ 2045 then .finite neg (2 ^ 52) (e + 1) else .inf neg)
      else if e ≤ 2045 then .finite neg (roundEven (a * unit) (b * 2 ^ e)) e else .inf neg) := by
    unfold toDouble
    simp only [he]
  rw [hdef]
  generalize roundEven (a * unit) (b * 2 ^ e) = n at hn ⊢
  obtain ⟨n1, n2, n3⟩ := id hn
  -- bounds for `a * unit`
  have hA2 : a * unit < 2 ^ 53 * (b * 2 ^ e) := by
    have := (Nat.div_lt_iff_lt_mul hb).1 hhigh
    rwa [Nat.mul_assoc, Nat.mul_comm (2 ^ e)] at this
  have hA1 : e = 0 ∨ 2 ^ 52 * (b * 2 ^ e) ≤ a * unit := by
    rcases hlow with h | h
    · exact .inl h
    · have := (Nat.le_div_iff_mul_le hb).1 h
      rw [Nat.mul_assoc, Nat.mul_comm (2 ^ e)] at this
      exact .inr this
  have hn53 : n ≤ 2 ^ 53 := by
    refine Classical.byContradiction fun hc => ?_
    have : (2 ^ 53 + 1) * (b * 2 ^ e) ≤ n * (b * 2 ^ e) := Nat.mul_le_mul_right _ (by omega)
    omega
  have hn52 : e = 0 ∨ 2 ^ 52 ≤ n := by
    rcases hA1 with h | h
    · exact .inl h
    · right
      refine Classical.byContradiction fun hc => ?_
      have : (n + 1) * (b * 2 ^ e) ≤ 2 ^ 52 * (b * 2 ^ e) := Nat.mul_le_mul_right _ (by omega)
      rw [Nat.succ_mul] at this
      omega
  -- no number is nearer than `n * 2 ^ e`
  have hbest : ∀ m' e', Fits m' e' → m' * 2 ^ e' ≠ n * 2 ^ e →
      apart (n * 2 ^ e * b) (a * unit) < apart (m' * 2 ^ e' * b) (a * unit) ∨
      (apart (n * 2 ^ e * b) (a * unit) = apart (m' * 2 ^ e' * b) (a * unit) ∧ n % 2 = 0) := by
    intro m' e' hf hne
    have en : n * 2 ^ e * b = n * (b * 2 ^ e) := by rw [Nat.mul_assoc, Nat.mul_comm (2 ^ e)]
    rw [en]
    by_cases hee : e ≤ e'
    · obtain ⟨d, rfl⟩ : ∃ d, e' = e + d := ⟨e' - e, by omega⟩
      have ek : m' * 2 ^ (e + d) = m' * 2 ^ d * 2 ^ e := by rw [Nat.add_comm, Nat.pow_add, Nat.mul_assoc]
      have ek2 : m' * 2 ^ (e + d) * b = m' * 2 ^ d * (b * 2 ^ e) := by
        rw [ek, Nat.mul_assoc, Nat.mul_comm (2 ^ e)]
      rw [ek2]
      apply nearest_best hn
      intro hc
      rw [ek, hc] at hne
      exact hne rfl
    · have hA : 2 ^ 52 * (b * 2 ^ e) ≤ a * unit := by
        rcases hA1 with h | h
        · omega
        · exact h
      have h1 : m' * 2 ^ e' < 2 ^ 53 * 2 ^ e' := Nat.mul_lt_mul_of_pos_right hf.1 (Nat.two_pow_pos e')
      have h2 : 2 ^ 53 * 2 ^ e' ≤ 2 ^ 52 * 2 ^ e := by
        have : (2 : Nat) ^ (53 + e') ≤ 2 ^ (52 + e) := Nat.pow_le_pow_right (by omega) (by omega)
        rwa [Nat.pow_add, Nat.pow_add] at this
      have h3 : m' * 2 ^ e' * b < 2 ^ 52 * 2 ^ e * b :=
        Nat.mul_lt_mul_of_pos_right (Nat.lt_of_lt_of_le h1 h2) hb
      rw [Nat.mul_assoc (2 ^ 52), Nat.mul_comm (2 ^ e)] at h3
      left
      have h4 : apart (n * (b * 2 ^ e)) (a * unit) ≤ apart (2 ^ 52 * (b * 2 ^ e)) (a * unit) := by
        by_cases hc : 2 ^ 52 = n
        · rw [hc]; exact Nat.le_refl _
        · rcases nearest_best hn (2 ^ 52) hc with h | ⟨h, -⟩
          · exact Nat.le_of_lt h
          · exact Nat.le_of_eq h
      refine Nat.lt_of_le_of_lt h4 ?_
      unfold apart
      omega
  -- the largest exponent
  have hstep : ∀ d, e + d ≤ 2045 → 2 ^ d * (b * 2 ^ e) ≤ 2 ^ 2045 * b := by
    intro d hd
    have : (2 : Nat) ^ (e + d) ≤ 2 ^ 2045 := Nat.pow_le_pow_right (by omega) hd
    rw [Nat.mul_comm b, ← Nat.mul_assoc, ← Nat.pow_add, Nat.add_comm d e]
    exact Nat.mul_le_mul_right _ this
  have hassoc : (2 ^ 54 - 1) * 2 ^ 2045 * b = (2 ^ 54 - 1) * (2 ^ 2045 * b) := Nat.mul_assoc _ _ _
  by_cases h53 : n = 2 ^ 53
  · rw [if_pos h53]
    by_cases he1 : e + 1 ≤ 2045
    · rw [if_pos he1]
      left
      refine ⟨2 ^ 52, e + 1, rfl, ⟨by omega, he1, .inl (Nat.le_refl _)⟩, ?_, ?_⟩
      · unfold TooLarge
        rw [hassoc]
        have h1 := hstep 1 he1
        change ¬ _ ≤ 2 * (a * unit)
        generalize 2 ^ 2045 * b = B at *
        generalize b * 2 ^ e = C at *
        omega
      · intro m' e' hf hne
        have e2 : 2 ^ 52 * 2 ^ (e + 1) = n * 2 ^ e := by
          rw [h53, ← Nat.pow_add, ← Nat.pow_add, show 52 + (e + 1) = 53 + e by omega]
        rw [e2] at hne ⊢
        rcases hbest m' e' hf hne with h | h
        · exact .inl h
        · exact .inr ⟨h.1, by decide⟩
    · rw [if_neg he1]
      right
      refine ⟨rfl, ?_⟩
      unfold TooLarge
      rw [hassoc]
      change _ ≤ 2 * (a * unit)
      have h1 : 2 ^ 2045 * b ≤ b * 2 ^ e := by
        rw [Nat.mul_comm]
        exact Nat.mul_le_mul_left _ (Nat.pow_le_pow_right (by omega) (by omega))
      subst h53
      generalize 2 ^ 2045 * b = B at *
      generalize b * 2 ^ e = C at *
      omega
  · rw [if_neg h53]
    by_cases he1 : e ≤ 2045
    · rw [if_pos he1]
      left
      refine ⟨n, e, rfl, ⟨by omega, he1, hn52.symm⟩, ?_, hbest⟩
      unfold TooLarge
      rw [hassoc]
      change ¬ _ ≤ 2 * (a * unit)
      have hm : n * (b * 2 ^ e) ≤ (2 ^ 53 - 1) * (b * 2 ^ e) := Nat.mul_le_mul_right _ (by omega)
      by_cases heq : e = 2045
      · have hC : b * 2 ^ e = 2 ^ 2045 * b := by rw [heq, Nat.mul_comm]
        rw [hC] at hm n1 n2 n3 hA2 hB
        by_cases hodd : n = 2 ^ 53 - 1
        · subst hodd
          have : ¬ (2 * (a * unit) = 2 * ((2 ^ 53 - 1) * (2 ^ 2045 * b)) + 2 ^ 2045 * b) := fun h => by
            have := n3 (.inr h); omega
          generalize 2 ^ 2045 * b = B at *
          omega
        · have : n * (2 ^ 2045 * b) ≤ (2 ^ 53 - 2) * (2 ^ 2045 * b) := Nat.mul_le_mul_right _ (by omega)
          generalize 2 ^ 2045 * b = B at *
          omega
      · have h1 := hstep 1 (by omega)
        generalize 2 ^ 2045 * b = B at *
        generalize b * 2 ^ e = C at *
        omega
    · rw [if_neg he1]
      right
      refine ⟨rfl, ?_⟩
      unfold TooLarge
      rw [hassoc]
      change _ ≤ 2 * (a * unit)
      have h1 : 2 * (2 ^ 2045 * b) ≤ b * 2 ^ e := by
        have : (2 : Nat) ^ 2046 ≤ 2 ^ e := Nat.pow_le_pow_right (by omega) (by omega)
        rw [Nat.pow_succ] at this
        have := Nat.mul_le_mul_left b this
        rw [Nat.mul_comm (2 ^ 2045) b, Nat.mul_left_comm, Nat.mul_comm 2]
        exact this
      have hA : 2 ^ 52 * (b * 2 ^ e) ≤ a * unit := by
        rcases hA1 with h | h
        · omega
        · exact h
      generalize 2 ^ 2045 * b = B at *
      generalize b * 2 ^ e = C at *
      omega

/-! ## From decimals and back -/

theorem digits_ext : ∀ (k : Nat) (xs ys : List Nat), xs.length = k → ys.length = k → Digits xs → Digits ys →
    digitsValue xs = digitsValue ys → xs = ys
  | 0, xs, ys, hx, hy, _, _, _ => by
    rw [List.eq_nil_of_length_eq_zero hx, List.eq_nil_of_length_eq_zero hy]
  | k + 1, xs, ys, hx, hy, dx, dy, h => by
    have x0 : xs ≠ [] := by rintro rfl; simp at hx
    have y0 : ys ≠ [] := by rintro rfl; simp at hy
    have ex := List.dropLast_concat_getLast x0
    have ey := List.dropLast_concat_getLast y0
    have hxl := dx _ (List.getLast_mem x0)
    have hyl := dy _ (List.getLast_mem y0)
    rw [← ex, ← ey, digitsValue_append, digitsValue_append] at h
    have h1 := digits_ext k xs.dropLast ys.dropLast (by simp [hx]) (by simp [hy])
      (fun d hd => dx d (List.dropLast_subset _ hd)) (fun d hd => dy d (List.dropLast_subset _ hd)) (by omega)
    rw [← ex, ← ey, h1]
    congr 2
    omega

theorem digitsValue_lt : ∀ (k : Nat) (xs : List Nat), xs.length = k → Digits xs → digitsValue xs < 10 ^ k
  | 0, xs, hx, _ => by rw [List.eq_nil_of_length_eq_zero hx]; decide
  | k + 1, xs, hx, dx => by
    have x0 : xs ≠ [] := by rintro rfl; simp at hx
    have hxl := dx _ (List.getLast_mem x0)
    have h1 := digitsValue_lt k xs.dropLast (by simp [hx]) fun d hd => dx d (List.dropLast_subset _ hd)
    rw [← List.dropLast_concat_getLast x0, digitsValue_append, Nat.pow_succ]
    omega

theorem digitsValue_zeros (k : Nat) : digitsValue (List.replicate k 48) = 0 := by
  induction k with
  | zero => rfl
  | succ k ih => rw [List.replicate_succ', digitsValue_append, ih]

theorem strip_padded {fp : List Nat} (h : ∀ h : fp ≠ [], fp.getLast h ≠ 48) (k : Nat) :
    (fp ++ List.replicate k 48).reverse.dropWhile (· == 48) = fp.reverse := by
  rw [List.reverse_append, List.reverse_replicate]
  apply dropWhile_of
  · intro c hc
    simp [(List.mem_replicate.1 hc).2]
  · intro c hc
    rw [List.head?_reverse] at hc
    cases fp with
    | nil => simp at hc
    | cons x xs =>
      have h0 := h (by simp)
      rw [List.getLast?_eq_some_getLast (by simp)] at hc
      simp only [Option.some.injEq] at hc
      simp [← hc, h0]

theorem sixNumeral_unique {t t' : List Nat} {neg : Bool} {n : Nat} (h : SixNumeral t neg n) (h' : SixNumeral t' neg n) : t = t' := by
  obtain ⟨ip, fp, p, rfl, hi, hfd, hfl, hfz, hn⟩ := h
  obtain ⟨ip', fp', p', rfl, hi', hfd', hfl', hfz', hn'⟩ := h'
  have pad : ∀ xs : List Nat, Digits xs → xs.length ≤ 6 → (xs ++ List.replicate (6 - xs.length) 48).length = 6 ∧
      Digits (xs ++ List.replicate (6 - xs.length) 48) ∧
      digitsValue (xs ++ List.replicate (6 - xs.length) 48) = digitsValue xs * 10 ^ (6 - xs.length) := by
    intro xs hd hl
    refine ⟨by simp; omega, ?_, ?_⟩
    · intro d hdm
      rcases List.mem_append.1 hdm with h | h
      · exact hd d h
      · have := (List.mem_replicate.1 h).2; omega
    · rw [digitsValue_split, digitsValue_zeros, List.length_replicate, Nat.add_zero]
  obtain ⟨a1, a2, a3⟩ := pad fp hfd hfl
  obtain ⟨b1, b2, b3⟩ := pad fp' hfd' hfl'
  have a4 := digitsValue_lt 6 _ a1 a2
  have b4 := digitsValue_lt 6 _ b1 b2
  have hp : p = p' := by omega
  subst hp
  have e1 : ip = ip' := by rw [(naturalNumeral_iff ip p).1 hi, (naturalNumeral_iff ip' p).1 hi']
  have e2 := digits_ext 6 _ _ a1 b1 a2 b2 (by omega)
  have e3 : fp.reverse = fp'.reverse := by
    rw [← strip_padded hfz (6 - fp.length), ← strip_padded hfz' (6 - fp'.length), e2]
  have e4 : fp = fp' := by simpa using congrArg List.reverse e3
  rw [e1, e4]

/-- below `2 ^ 33` the `double` nearest to a number with six decimals is less than half of the last decimal away -/
theorem toDouble_near {neg : Bool} {n : Nat} (h : n < 2 ^ 33 * 1000000) :
    ∃ m b, toDouble neg n 1000000 = .finite neg m b ∧ (Double.finite neg m b).Valid ∧
      roundEven (m * 2 ^ b * 1000000) unit = n := by
  have hx : n * unit / 1000000 < 2 ^ 33 * unit := by
    rw [Nat.div_lt_iff_lt_mul (by omega)]
    have := Nat.mul_lt_mul_of_pos_right h unit_pos
    rwa [Nat.mul_assoc, Nat.mul_comm 1000000, ← Nat.mul_assoc] at this
  obtain ⟨e, he, he2, hhigh⟩ : ∃ e, (if n * unit / 1000000 < 2 ^ 53 then 0 else (n * unit / 1000000).log2 - 52) = e ∧ e ≤ 1054 ∧
      n * unit / 1000000 < 2 ^ 53 * 2 ^ e := by
    by_cases hs : n * unit / 1000000 < 2 ^ 53
    · exact ⟨0, if_pos hs, by omega, by simpa using hs⟩
    · refine ⟨_, if_neg hs, ?_⟩
      have hne : n * unit / 1000000 ≠ 0 := by omega
      have h1 := Nat.log2_self_le hne
      have h2 := @Nat.lt_log2_self (n * unit / 1000000)
      have h3 : 52 < (n * unit / 1000000).log2 := by
        refine Classical.byContradiction fun hc => ?_
        have : (2 : Nat) ^ ((n * unit / 1000000).log2 + 1) ≤ 2 ^ 53 := Nat.pow_le_pow_right (by omega) (by omega)
        omega
      have h4 : (n * unit / 1000000).log2 < 1107 := by
        rw [Nat.log2_lt hne]
        have : 2 ^ 33 * unit = 2 ^ 1107 := by rw [unit, ← Nat.pow_add]
        rwa [← this]
      rw [← Nat.pow_add, show 53 + ((n * unit / 1000000).log2 - 52) = (n * unit / 1000000).log2 + 1 by omega]
      exact ⟨by omega, h2⟩
  have hpos : 0 < 2 ^ e := Nat.two_pow_pos e
  have hU : 1048576 * 2 ^ e ≤ unit := by
    have : (2 : Nat) ^ (20 + e) ≤ 2 ^ 1074 := Nat.pow_le_pow_right (by omega) (by omega)
    rw [Nat.pow_add] at this
    exact this
  have hn := roundEven_nearest (n * unit) (1000000 * 2 ^ e) (by omega)
  rcases toDouble_spec neg n 1000000 (by omega) with ⟨m, b, hd, hnf⟩ | ⟨-, hl⟩
  · refine ⟨m, b, hd, hnf.1, ?_⟩
    have hval : m * 2 ^ b = roundEven (n * unit) (1000000 * 2 ^ e) * 2 ^ e := by
      unfold toDouble at hd
      simp only [he] at hd
      by_cases h53 : roundEven (n * unit) (1000000 * 2 ^ e) = 2 ^ 53
      · rw [if_pos h53, if_pos (by omega)] at hd
        injection hd with _ h1 h2
        rw [h53, ← h1, ← h2, ← Nat.pow_add, ← Nat.pow_add, show 52 + (e + 1) = 53 + e by omega]
      · rw [if_neg h53, if_pos (by omega)] at hd
        injection hd with _ h1 h2
        rw [h1, ← h2]
    rw [hval]
    generalize roundEven (n * unit) (1000000 * 2 ^ e) = k at hn ⊢
    obtain ⟨n1, n2, -⟩ := hn
    have ek : k * (1000000 * 2 ^ e) = k * 2 ^ e * 1000000 := by rw [Nat.mul_comm 1000000, ← Nat.mul_assoc]
    rw [ek] at n1 n2
    rw [← nearest_iff _ _ _ unit_pos]
    refine ⟨by omega, by omega, fun hc => ?_⟩
    omega
  · exfalso
    unfold TooLarge at hl
    have h1 : n * 2 ^ 1074 < 2 ^ 33 * 1000000 * 2 ^ 1074 := Nat.mul_lt_mul_of_pos_right h (Nat.two_pow_pos _)
    have h2 : (2 ^ 33 * 1000000) * 2 ^ 1074 ≤ 2 ^ 2000 := by decide
    have h3 : 2 * 2 ^ 2000 ≤ (2 ^ 54 - 1) * 2 ^ 2045 * 1000000 := by decide
    exact absurd (Nat.lt_of_le_of_lt (Nat.le_trans h3 hl) (Nat.mul_lt_mul_of_pos_left (Nat.lt_of_lt_of_le h1 h2) (by decide)))
      (Nat.lt_irrefl _)

end Number
end Vlpp
