/-!
# Specification: sequences whose elements may raise an Error, and variables that hold sequences

An element is `some x`, or `none` if an Error is raised when it is asked for.  A function that reads the sequence raises this
Error exactly if it gets to this element.
-/
set_option autoImplicit false
namespace Vlpp.Spec

variable {α β : Type}

/-- All elements, for a function that reads the whole sequence; `none`: it raises an Error. -/
def whole : List (Option α) → Option (List α)
  | [] => some []
  | none :: _ => none
  | some x :: xs => (whole xs).map (x :: ·)

/-- The result of a function on the first element (`empty` if there is none) that reads nothing else. -/
def atFirst (empty : Option β) (f : α → β) : List (Option α) → Option β
  | [] => empty
  | x :: _ => x.map f

/-- Lexicographic comparison that reads both sequences element by element until it is decided, the left one first; `none`: an
Error was raised. -/
def compareUntil (ord : α → β → Ordering) : List (Option α) → List (Option β) → Option Ordering
  | none :: _, _ => none
  | _, none :: _ => none
  | [], [] => some .eq
  | [], some _ :: _ => some .lt
  | some _ :: _, [] => some .gt
  | some x :: xs, some y :: ys =>
    match ord x y with
    | .eq => compareUntil ord xs ys
    | o => some o

/-- `Select` with a function that may raise an Error. -/
def mapUntil (f : α → Option β) (xs : List (Option α)) : List (Option β) := xs.map (·.bind f)

/-- `Where`: Errors are passed on. -/
def filterUntil (p : α → Bool) (xs : List (Option α)) : List (Option α) := xs.filter fun x => (x.map p).getD true

/-- `Skip(n)`: an Error while skipping is raised by the first use. -/
def skipUntil : Nat → List (Option α) → List (Option α)
  | 0, xs => xs
  | _ + 1, [] => []
  | _ + 1, none :: _ => [none]
  | n + 1, some _ :: xs => skipUntil n xs

/-- `Pairwise`: the left sequence is read first. -/
def zipUntil : List (Option α) → List (Option β) → List (Option (α × β))
  | [], _ => []
  | none :: _, _ => [none]
  | some _ :: _, [] => []
  | some _ :: _, none :: _ => [none]
  | some x :: xs, some y :: ys => some (x, y) :: zipUntil xs ys

/-- Statements on variables that hold sequences. -/
inductive SeqVarOp (σ : Type 1) where
  /-- `x` is declared with a new sequence -/
  | new (x : Nat) (content : σ)
  /-- `LazyList<T> x;` -/
  | blank (x : Nat)
  /-- `LazyList<T> x(y);` -/
  | copy (x y : Nat)
  /-- `LazyList<T> x(std::move(y));` -/
  | move (x y : Nat)
  /-- `x = y;` -/
  | assign (x y : Nat)
  /-- `x = std::move(y);` -/
  | moveAssign (x y : Nat)
  /-- `x` goes out of scope -/
  | drop (x : Nat)

/-- What the variables hold after a statement (a copy holds the same sequence, a variable moved from holds the empty one);
`none`: the statement is not possible (declared variables must be new, others must exist). -/
def SeqVarOp.effect {σ : Type 1} {τ : Type} (f : σ → τ) (nothing : τ) (vars : Nat → Option τ) :
    SeqVarOp σ → Option (Nat → Option τ)
  | .new x c => if vars x = none then some fun v => if v = x then some (f c) else vars v else none
  | .blank x => if vars x = none then some fun v => if v = x then some nothing else vars v else none
  | .copy x y => if vars x = none ∧ (vars y).isSome then some fun v => if v = x then vars y else vars v else none
  | .move x y => if vars x = none ∧ (vars y).isSome then
      some fun v => if v = y then some nothing else if v = x then vars y else vars v else none
  | .assign x y => if (vars x).isSome ∧ (vars y).isSome then some fun v => if v = x then vars y else vars v else none
  | .moveAssign x y => if (vars x).isSome ∧ (vars y).isSome then
      some fun v => if v = y then some nothing else if v = x then vars y else vars v else none
  | .drop x => if (vars x).isSome then some fun v => if v = x then none else vars v else none

end Vlpp.Spec
