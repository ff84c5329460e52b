import Verif.Spec.Number

/-! # Floating point numerals -/
set_option autoImplicit false
set_option exponentiation.threshold 2200
namespace Vlpp
namespace Spec

/-- `n` is the integer nearest to `a / b`, the even one of two -/
def Nearest (a b n : Nat) : Prop :=
  2 * (n * b) ≤ 2 * a + b ∧ 2 * a ≤ 2 * (n * b) + b ∧ (2 * (n * b) = 2 * a + b ∨ 2 * a = 2 * (n * b) + b → n % 2 = 0)

/-- `t` is the canonical numeral of `± n / 1000000`: a minus sign exactly if `neg`, digits without leading zeros, and, unless
`n / 1000000` is an integer, a period and digits that do not end with a zero. -/
def SixNumeral (t : List Nat) (neg : Bool) (n : Nat) : Prop :=
  ∃ (ip fp : List Nat) (p : Nat), t = (if neg then [45] else []) ++ ip ++ (if fp = [] then [] else 46 :: fp) ∧
    NaturalNumeral ip p ∧ (∀ d ∈ fp, 48 ≤ d ∧ d ≤ 57) ∧ fp.length ≤ 6 ∧ (∀ h : fp ≠ [], fp.getLast h ≠ 48) ∧
    n = p * 1000000 + digitsValue fp * 10 ^ (6 - fp.length)

def Digits (ds : List Nat) : Prop := ∀ d ∈ ds, 48 ≤ d ∧ d ≤ 57

/-- `xs` is a sign or nothing -/
def Sign (xs : List Nat) (neg : Bool) : Prop := (xs = [] ∧ neg = false) ∨ (xs = [43] ∧ neg = false) ∨ (xs = [45] ∧ neg = true)

/-- `xs` is nothing or an exponent with the value `x` -/
def Exponent (xs : List Nat) (x : Int) : Prop :=
  (xs = [] ∧ x = 0) ∨ ∃ (c : Nat) (s ds : List Nat) (neg : Bool), (c = 101 ∨ c = 69) ∧ Sign s neg ∧ Digits ds ∧ ds ≠ [] ∧
    xs = c :: s ++ ds ∧ x = if neg then -(digitsValue ds : Int) else digitsValue ds

/-- `xs` is a decimal floating point numeral for `± m * 10 ^ e`: optional sign, digits with at most one period, optional
exponent -/
def FloatNumeral (xs : List Nat) (neg : Bool) (m : Nat) (e : Int) : Prop :=
  ∃ (s ds fs ex : List Nat) (x : Int), Sign s neg ∧ Digits ds ∧ Digits fs ∧ ds ++ fs ≠ [] ∧ Exponent ex x ∧
    (xs = s ++ ds ++ 46 :: fs ++ ex ∨ (fs = [] ∧ xs = s ++ ds ++ ex)) ∧ m = digitsValue (ds ++ fs) ∧ e = x - fs.length

/-- `m * 2 ^ (e - 1074)` is a number that binary64 has -/
def Fits (m e : Nat) : Prop := m < 2 ^ 53 ∧ e ≤ 2045 ∧ (2 ^ 52 ≤ m ∨ e = 0)

/-- distance -/
def apart (x y : Nat) : Nat := (x - y) + (y - x)

/-- `a / b` is at least as large as the middle between the largest number of binary64 and the next one there would be -/
def TooLarge (a b : Nat) : Prop := (2 ^ 54 - 1) * 2 ^ 2045 * b ≤ 2 * (a * 2 ^ 1074)

/-- `m * 2 ^ (e - 1074)` is the number of binary64 that is nearest to `a / b`, with an even `m` if there are two. -/
def NearestFinite (a b m e : Nat) : Prop :=
  Fits m e ∧ ¬ TooLarge a b ∧
    ∀ m' e', Fits m' e' → m' * 2 ^ e' ≠ m * 2 ^ e →
      apart (m * 2 ^ e * b) (a * 2 ^ 1074) < apart (m' * 2 ^ e' * b) (a * 2 ^ 1074) ∨
      (apart (m * 2 ^ e * b) (a * 2 ^ 1074) = apart (m' * 2 ^ e' * b) (a * 2 ^ 1074) ∧ m % 2 = 0)

/-- What is and what is not a space: the terminator, the signs, the period and the digits are not. -/
def FloatSpaces (space : Nat → Bool) : Prop := SaneSpaces space ∧ space 43 = false ∧ space 46 = false

/-- Where the other forms of floating point numbers may be: they begin with one of the letters of "inf" and "nan", or with
"0x". -/
def FloatSpecial {α : Type} (special : List Nat → Option α) : Prop :=
  ∀ cs, special cs ≠ none →
    (∃ c r, cs = c :: r ∧ (c = 105 ∨ c = 73 ∨ c = 110 ∨ c = 78)) ∨ ∃ c r, cs = 48 :: c :: r ∧ (c = 120 ∨ c = 88)

/-- none of the letters `i`, `n`, `x` -/
def Plain (s : List Nat) : Prop := ∀ c ∈ s, c ≠ 105 ∧ c ≠ 73 ∧ c ≠ 110 ∧ c ≠ 78 ∧ c ≠ 120 ∧ c ≠ 88

end Spec
end Vlpp
