import Verif.Model.LazyList
import Verif.Spec.Enum

/-! # Specification: the sequence a lazy list stands for -/
set_option autoImplicit false
namespace Vlpp
namespace LazyList
universe u v
variable {α : Type u}

/-- The lazy list holds the sequence `xs`; `i0` is the `Index()` of a new enumerator.
If `full` holds, its enumerators also support `Reset` and `Clone` in every position. -/
def Holds (L : LazyList.{u, v} α) (full : Bool) (xs : List α) (i0 : Int) : Prop :=
  ∃ c : L.A.Contract xs i0, c.R L.prototype [] xs ∧ (full = true → c.Resets ∧ c.Clones)

/-- Observable statement: a new enumerator delivers exactly `xs`. -/
def Yields (L : LazyList.{u, v} α) (xs : List α) : Prop := ∃ s, L.create = some s ∧ L.A.Delivers s 0 xs

end LazyList
end Vlpp
