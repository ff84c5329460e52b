import Verif.Model.ForEach
import Verif.Spec.LazyList

/-! # Specification of the range-based `for` loop -/
set_option autoImplicit false
namespace Vlpp

/-- In state `s` the enumerator still delivers the elements `xs`; the call of `Next` after that returns false, or raises
an Error if `fails`. -/
def Ator.DeliversThen {α : Type} (A : Ator.{0, 0} α) (fails : Bool) : A.σ → List α → Prop
  | s, [] => ∃ s', A.next s = some (if fails then .err s' else .ok false s')
  | s, x :: xs => ∃ s', A.next s = some (.ok true s') ∧ A.current s' = some x ∧ A.DeliversThen fails s' xs

/-- The enumerators of the lazy list deliver `xs` and then end, or raise an Error if `fails`. -/
def LazyList.YieldsThen {α : Type} (L : LazyList.{0, 0} α) (fails : Bool) (xs : List α) : Prop :=
  ∃ s, L.create = some s ∧ L.A.DeliversThen fails s xs

namespace Spec.For
variable {α β γ : Type}

/-- What a loop over a list does with the variables of the program: `f x i u` runs the body for the element `x` with
the index `i`; it returns true to go on, false to leave the loop. -/
def each (f : α → Int → β → Option (Outcome β Bool)) (fails : Bool) : List α → Int → β → Option (Outcome β Unit)
  | [], _, u => some (if fails then .err u else .ok () u)
  | x :: xs, i, u =>
    match f x i u with
    | none => none
    | some (.ok true u) => each f fails xs (i + 1) u
    | some (.ok false u) => some (.ok () u)
    | some (.err u) => some (.err u)
    | some .fault => some .fault

/-- A statement that began with the enumerators `before` and ended with `r` did what was expected with the variables
of the program; the enumerators that existed before are as they were, and all that were created since are deleted. -/
def Ends (before : List Bool) (r : Option (Outcome (ForEach.World β) γ)) : Option (Outcome β γ) → Prop
  | none => r = none
  | some .fault => r = some .fault
  | some (.ok v u) => ∃ n, r = some (.ok v ⟨before ++ List.replicate n false, u⟩)
  | some (.err u) => ∃ n, r = some (.err ⟨before ++ List.replicate n false, u⟩)

/-- The statement does what `f` says with the variables of the program; it leaves the enumerators that existed before
alone, and has deleted all that it created, however it is left. -/
def Does (stmt : ForEach.World β → Option (Outcome (ForEach.World β) γ)) (f : β → Option (Outcome β γ)) : Prop :=
  ∀ w : ForEach.World β, Ends w.alive (stmt w) (f w.user)

end Spec.For
end Vlpp
