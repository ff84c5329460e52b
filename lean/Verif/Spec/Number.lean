/-! # Canonical decimal numerals -/
set_option autoImplicit false
namespace Vlpp
namespace Spec

/-- value of a list of digit characters -/
def digitsValue (xs : List Nat) : Nat := xs.foldl (fun a d => 10 * a + (d - 48)) 0

/-- `xs` are the digits of `n` without leading zeros -/
def NaturalNumeral (xs : List Nat) (n : Nat) : Prop :=
  xs ≠ [] ∧ (∀ d ∈ xs, 48 ≤ d ∧ d ≤ 57) ∧ (xs.head? = some 48 → xs = [48]) ∧ digitsValue xs = n

/-- `xs` is the canonical numeral of `z`: digits without leading zeros, a minus sign if and only if `z` is negative -/
def Numeral (xs : List Nat) (z : Int) : Prop :=
  (∃ n : Nat, z = n ∧ NaturalNumeral xs n) ∨
    ∃ (n : Nat) (ys : List Nat), 0 < n ∧ z = -(n : Int) ∧ xs = 45 :: ys ∧ NaturalNumeral ys n

/-- What is and what is not a space: the terminator, the minus sign and the digits are not. -/
def SaneSpaces (space : Nat → Bool) : Prop :=
  space 0 = false ∧ space 45 = false ∧ ∀ d, 48 ≤ d → d ≤ 57 → space d = false

/-- `s` begins with a number: spaces, at most one sign, and digits, as many as there are -/
def LeadingNumber (space : Nat → Bool) (s : List Nat) (negative : Bool) (n : Nat) : Prop :=
  ∃ spaces sign digits rest : List Nat, s = spaces ++ (sign ++ (digits ++ rest)) ∧ (∀ c ∈ spaces, space c = true) ∧
    ((sign = [45] ∧ negative = true) ∨ ((sign = [43] ∨ sign = []) ∧ negative = false)) ∧
    digits ≠ [] ∧ (∀ d ∈ digits, 48 ≤ d ∧ d ≤ 57) ∧ (∀ c, rest.head? = some c → ¬ (48 ≤ c ∧ c ≤ 57)) ∧ digitsValue digits = n

end Spec
end Vlpp
