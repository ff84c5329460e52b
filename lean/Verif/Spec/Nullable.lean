import Verif.Model.Nullable

/-! # Optional values -/
set_option autoImplicit false
namespace Vlpp
namespace Spec
open Nullable (Op Result)
open Variant (Fate)

variable {V : Type}

/-- variables with optional values; `none`: the variable is gone -/
abbrev Optionals (V : Type) := List (Option (Option V))

/-- equality of optional values -/
def optEq (eq : V → V → Bool) : Option V → Option V → Bool
  | some x, some y => eq x y
  | none, none => true
  | _, _ => false

/-- order of optional values: null is the smallest -/
def optCmp (cmp : V → V → Ordering) : Option V → Option V → Ordering
  | some x, some y => cmp x y
  | some _, none => .gt
  | none, some _ => .lt
  | none, none => .eq

/-- What a failed assignment leaves in its target: what the assignment of `T` left in the value, if there was one and `T` can be
assigned, and otherwise nothing. -/
def optFailed (assignable : Bool) (x : Option V) (t : V) : Option V := if assignable then x.map fun _ => t else none

/-- What each operation does to optional values; `none`: a variable that does not exist.  A constructor that fails makes no
variable; an operation that fails because of `T` changes nothing but its target (`optFailed`) and, if it moves, its source, which
keeps what the failed move left of its value. -/
def optStep (copyAssignable moveAssignable : Bool) (eq : V → V → Bool) (cmp : V → V → Ordering) (w : Optionals V) :
    Op V → Option (Result V × Optionals V)
  | .newEmpty => some (.unit, w ++ [some none])
  | .newCopy v ft =>
    match ft with
    | .completes => some (.unit, w ++ [some (some v)])
    | .throws _ _ => some (.error, w ++ [none])
  | .newMove v ft =>
    match ft with
    | .completes => some (.unit, w ++ [some (some v)])
    | .throws _ _ => some (.error, w ++ [none])
  | .copyCtor b ft => w[b]?.join.map fun x =>
    match x, ft with
    | some _, .throws _ _ => (.error, w ++ [none])
    | _, _ => (.unit, w ++ [some x])
  | .moveCtor b ft => w[b]?.join.map fun x =>
    match x, ft with
    | some _, .throws _ s => (.error, w.set b (some (some s)) ++ [none])
    | _, _ => (.unit, w.set b (some none) ++ [some x])
  | .destroy a => w[a]?.join.map fun _ => (.unit, w.set a none)
  | .reset a => w[a]?.join.map fun _ => (.unit, w.set a (some none))
  | .assignValue a v ft => w[a]?.join.map fun x =>
    match ft with
    | .completes => (.unit, w.set a (some (some v)))
    | .throws t _ => (.error, w.set a (some (optFailed copyAssignable x t)))
  | .assignMoveValue a v ft => w[a]?.join.map fun x =>
    match ft with
    | .completes => (.unit, w.set a (some (some v)))
    | .throws t _ => (.error, w.set a (some (optFailed moveAssignable x t)))
  | .assignFrom a b ft => w[a]?.join.bind fun x => w[b]?.join.map fun y =>
    match y, ft with
    | none, _ => (.error, w)
    | some v, .completes => (.unit, w.set a (some (some v)))
    | some _, .throws t _ => (.error, w.set a (some (optFailed copyAssignable x t)))
  | .assignCopy a b ft => w[a]?.join.bind fun x => w[b]?.join.map fun y =>
    if a = b then (.unit, w) else
    match y, ft with
    | some _, .throws t _ => (.error, w.set a (some (optFailed copyAssignable x t)))
    | _, _ => (.unit, w.set a (some y))
  | .assignMove a b ft => w[a]?.join.bind fun x => w[b]?.join.map fun y =>
    if a = b then (.unit, w) else
    match y, ft with
    | some _, .throws t s => (.error, (w.set b (some (some s))).set a (some (optFailed moveAssignable x t)))
    | _, _ => (.unit, (w.set b (some none)).set a (some y))
  | .value a => w[a]?.join.map fun x =>
    match x with
    | none => (.error, w)
    | some v => (.value v, w)
  | .bool a => w[a]?.join.map fun x => (.bool x.isSome, w)
  | .equal a b => w[a]?.join.bind fun x => w[b]?.join.map fun y => (.bool (optEq eq x y), w)
  | .compare a b => w[a]?.join.bind fun x => w[b]?.join.map fun y => (.order (optCmp cmp x y), w)

/-- a history, going on after exceptions -/
def optRun (copyAssignable moveAssignable : Bool) (eq : V → V → Bool) (cmp : V → V → Ordering) (w : Optionals V) :
    List (Op V) → Option (List (Result V) × Optionals V)
  | [] => some ([], w)
  | op :: ops => do
    let (r, w) ← optStep copyAssignable moveAssignable eq cmp w op
    let (rs, w) ← optRun copyAssignable moveAssignable eq cmp w ops
    some (r :: rs, w)

/-- `a = a.Value()` -/
def SelfAssign : Op V → Prop
  | .assignFrom a b _ => a = b
  | _ => False

end Spec
end Vlpp
