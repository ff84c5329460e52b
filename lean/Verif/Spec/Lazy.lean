import Verif.Model.Outcome

/-! # Specification of the results of lazy list functions -/
set_option autoImplicit false
namespace Vlpp.Spec
universe u v
variable {α : Type u} {β : Type v}

/-- the first occurrence of every element -/
def firsts (eqv : α → α → Bool) : List α → List α
  | [] => []
  | x :: xs => x :: (firsts eqv xs).filter (fun y => !eqv x y)

/-- equality of elements according to an order -/
def eqBy (ord : α → α → Ordering) (a b : α) : Bool := ord a b == .eq

/-- the left fold of a non-empty list from its first element -/
def foldl1 (f : α → α → α) : List α → Option α
  | [] => none
  | x :: l => some (l.foldl f x)

/-- a function that raises an Error where there is no value -/
def orError : Option α → Outcome Unit α
  | none => .err ()
  | some x => .ok x ()

/-- lexicographic comparison -/
def lexOrd (ord : α → β → Ordering) : List α → List β → Ordering
  | [], [] => .eq
  | [], _ :: _ => .lt
  | _ :: _, [] => .gt
  | x :: xs, y :: ys =>
    match ord x y with
    | .eq => lexOrd ord xs ys
    | o => o

end Vlpp.Spec
