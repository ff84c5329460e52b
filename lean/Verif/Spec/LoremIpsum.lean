import Verif.Model.LoremIpsum

/-!
# Texts made of words
-/
set_option autoImplicit false
namespace Vlpp
namespace Spec
open Lorem (Casing)

/-- a word whose first letter is in upper case -/
def capital : List Nat → List Nat
  | [] => []
  | c :: cs => (c - 32) :: cs

/-- `k` words of a table from the word `i` on, cyclically, with spaces between them -/
def wordsText (table : List (List Nat)) (casing : Casing) (i : Nat) : Nat → List Nat
  | 0 => []
  | k + 1 =>
    let word := table[(i + k) % table.length]?.getD []
    wordsText table casing i k ++ (if k = 0 then [] else [32]) ++
      match casing with
      | .allLower => word
      | .firstUpper => if k = 0 then capital word else word
      | .allUpper => capital word

/-- distance between a length and the length that was asked for -/
def distance (a b : Nat) : Nat := a - b + (b - a)

/-- words that the function is made for: short, and letters in lower case at the beginning -/
def GoodTable (table : List (List Nat)) : Prop :=
  table ≠ [] ∧ ∀ w ∈ table, w ≠ [] ∧ w.length ≤ 12 ∧ (∀ c ∈ w, c ≠ 0) ∧ ∀ c, w.head? = some c → 97 ≤ c ∧ c ≤ 122

end Spec
end Vlpp
