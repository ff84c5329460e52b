import Verif.Model.Tuple

/-! # Lexicographic order and laws of comparisons -/
set_option autoImplicit false
namespace Vlpp
namespace Spec
open Tuple (Cmp ElemType Tup Category)

/-- comparison of the elements at position `k` -/
def elementCmp : (Es : List ElemType) → Tup Es → Tup Es → Nat → Option Cmp
  | [], _, _, _ => none
  | E :: _, x, y, 0 => some (E.cmp x.1 y.1)
  | _ :: Es, x, y, k + 1 => elementCmp Es x.2 y.2 k

/-- The lexicographic comparison has the result `o`: all elements are equal and so is `o`, or `o` is the result at the first
position where the elements are not equal. -/
def LexResult (element : Nat → Option Cmp) (n : Nat) (o : Cmp) : Prop :=
  (o = some .eq ∧ ∀ k < n, element k = some (some .eq)) ∨
  (o ≠ some .eq ∧ ∃ k < n, element k = some o ∧ ∀ j < k, element j = some (some .eq))

/-- Laws of a comparison: swapping the operands mirrors the result, and two results that are not `greater` (and not
unordered) are composed. -/
structure OrderLaws {T : Type} (cmp : T → T → Cmp) : Prop where
  swap : ∀ x y, cmp y x = (cmp x y).map Ordering.swap
  trans : ∀ x y z a b, cmp x y = some a → cmp y z = some b → a ≠ .gt → b ≠ .gt →
    cmp x z = some (if a = .lt ∨ b = .lt then .lt else .eq)

/-- no two values are unordered -/
def Total {T : Type} (cmp : T → T → Cmp) : Prop := ∀ x y, cmp x y ≠ none

/-- `==` means that `<=>` is equal -/
def EqAgrees {T : Type} (cmp : T → T → Cmp) (eq : T → T → Bool) : Prop := ∀ x y, eq x y = true ↔ cmp x y = some .eq

/-- The weakest of the categories: partial if one is, else weak if one is, else strong. -/
def IsWeakest (cs : List Category) (c : Category) : Prop :=
  (c = .partial' ↔ Category.partial' ∈ cs) ∧ (c = .strong ↔ ∀ d ∈ cs, d = .strong)

end Spec
end Vlpp
