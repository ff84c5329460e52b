import Verif.Model.Pipe
import Verif.Spec.LazyErrors

/-!
# Model of lazy lists whose functions raise Errors, and of variables that hold lazy lists

The programs are those of Model/Pipe.lean, followed by functions of `LazyList` whose arguments may raise Errors.
-/
set_option autoImplicit false
namespace Vlpp
open Spec (SeqVarOp)

/-- A program that builds a lazy list; only `Select` takes functions that may raise an Error. -/
inductive RaisePipe : Type → Type 1 where
  | source {α : Type} (p : Pipe α) : RaisePipe α
  | select {α β : Type} (p : RaisePipe α) (f : α → Option β) : RaisePipe β
  | where' {α : Type} (p : RaisePipe α) (f : α → Bool) : RaisePipe α
  | concat {α : Type} (p q : RaisePipe α) : RaisePipe α
  | pairwise {α β : Type} (p : RaisePipe α) (q : RaisePipe β) : RaisePipe (α × β)
  | take {α : Type} (p : RaisePipe α) (n : Int) : RaisePipe α
  | skip {α : Type} (p : RaisePipe α) (n : Int) : RaisePipe α

/-- make the calls (Operation.h 328-331, 346-349, 686-689, 787-791, 702-705, 718-721) -/
def RaisePipe.build : {α : Type} → RaisePipe α → Option (Outcome Unit (LazyList.{0, 0} α))
  | _, .source p => p.build
  | _, .select p f => Pipe.andThen p.build fun L => Pipe.ofOption (L.select? f)
  | _, .where' p f => Pipe.andThen p.build fun L => Pipe.ofOption (L.where' f)
  | _, .concat p q => Pipe.andThen p.build fun L => Pipe.andThen q.build fun M => Pipe.ofOption (L.concat M)
  | _, .pairwise p q => Pipe.andThen p.build fun L => Pipe.andThen q.build fun M => Pipe.ofOption (L.pairwise M)
  | _, .take p n => Pipe.andThen p.build fun L => Pipe.ofOption (L.take n)
  | _, .skip p n => Pipe.andThen p.build fun L => Pipe.ofOption (L.skip n)

/-- Variables of type `LazyList<T>`. -/
abbrev LazyVars (α : Type) := Nat → Option (LazyList.{0, 0} α)

namespace LazyVars
variable {α : Type}

def set (vars : LazyVars α) (x : Nat) (L : Option (LazyList.{0, 0} α)) : LazyVars α := fun v => if v = x then L else vars v

/-- One statement; `none`: it uses a variable that does not exist or declares one that exists. -/
def step (vars : LazyVars α) : SeqVarOp (LazyList.{0, 0} α) → Option (LazyVars α)
  -- the constructors that take containers, and functions that return lazy lists
  | .new x L => if (vars x).isSome then none else some (vars.set x (some L))
  -- Operation.h 290-293
  | .blank x => if (vars x).isSome then none else some (vars.set x (some .empty))
  -- Operation.h 267-271
  | .copy x y => if (vars x).isSome then none else (vars y).map fun L => vars.set x (some L)
  -- Operation.h 275-279
  | .move x y => if (vars x).isSome then none else (vars y).map fun L => (vars.set x (some L.move.1)).set y (some L.move.2)
  -- Operation.h 295-300
  | .assign x y => if (vars x).isSome then (vars y).map fun L => vars.set x (some L) else none
  -- Operation.h 302-307
  | .moveAssign x y => if (vars x).isSome then (vars y).map fun L => (vars.set x (some L.move.1)).set y (some L.move.2) else none
  | .drop x => if (vars x).isSome then some (vars.set x none) else none

def run (vars : LazyVars α) : List (SeqVarOp (LazyList.{0, 0} α)) → Option (LazyVars α)
  | [] => some vars
  | op :: ops => (vars.step op).bind fun vars' => run vars' ops

end LazyVars
end Vlpp
