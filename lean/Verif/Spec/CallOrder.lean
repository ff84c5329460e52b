import Verif.Model.SortEff
import Verif.Spec.Calls

/-! # What sorting a sequence may call -/
set_option autoImplicit false
namespace Vlpp.Spec
open QSortE (Answer)
variable {W α κ : Type}

/-- The comparer is called for these pairs, one after the other, and gives these answers. -/
def Compares (f : W → α → κ → Answer × W) (w : W) : List (α × κ × Answer) → W → Prop
  | [], w' => w' = w
  | (a, b, r) :: t, w' => ∃ w1, f w a b = (r, w1) ∧ Compares f w1 t w'

/-- The calls that may be made to sort `xs`: at most n(n-1) comparisons of elements of `xs`, and none after one that
throws. -/
structure SortCalls (f : W → α → α → Answer × W) (xs : List α) (w : W) (calls : List (α × α × Answer)) (w' : W) : Prop where
  happened : Compares f w calls w'
  few : calls.length ≤ xs.length * (xs.length - 1)
  args : ∀ c ∈ calls, c.1 ∈ xs ∧ c.2.1 ∈ xs
  stops : ∀ c ∈ calls.dropLast, c.2.2 ≠ .threw

end Vlpp.Spec
