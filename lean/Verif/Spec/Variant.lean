import Verif.Model.Variant

/-! # Values that are one of several alternatives -/
set_option autoImplicit false
namespace Vlpp
namespace Spec
open Variant (Op Result Fate Traits)

variable {V : Type}

/-- variables with the number and the value of their alternative; `none`: the variable is gone -/
abbrev Choices (V : Type) := List (Option (Nat × V))

def copyable (es : List Traits) (i : Nat) : Bool := (es[i]?.map (·.copyConstructible)).getD false
def movable (es : List Traits) (i : Nat) : Bool := (es[i]?.map (·.moveConstructible)).getD false
def assignable (es : List Traits) (i : Nat) : Bool := (es[i]?.map (·.copyAssignable)).getD false

/-- What each operation does.  `none`: a variable or an alternative that does not exist.
Elements that cannot be copied or moved, and elements whose constructor throws, make the operation fail.  A constructor that
fails makes no variable, an assignment that fails leaves its target with an alternative: with the same alternative, and if
another one was wanted, with the same value. -/
def choiceStep (moved : V → V) (es : List Traits) (w : Choices V) : Op V → Option (Result V × Choices V)
  | .new i v ft =>
    if i < es.length then
      match ft with
      | .completes => some (.unit, w ++ [some (i, v)])
      | .throws _ _ => some (.error, w ++ [none])
    else none
  | .copyCtor b ft => w[b]?.join.map fun y =>
    match copyable es y.1, ft with
    | true, .completes => (.unit, w ++ [some y])
    | _, _ => (.error, w ++ [none])
  | .moveCtor b ft => w[b]?.join.map fun y =>
    match movable es y.1, ft with
    | true, .completes => (.unit, w.set b (some (y.1, moved y.2)) ++ [some y])
    | true, .throws _ s => (.error, w.set b (some (y.1, s)) ++ [none])
    | false, _ => (.error, w ++ [none])
  | .destroy a => w[a]?.join.map fun _ => (.unit, w.set a none)
  | .assignCopy a b ft => w[a]?.join.bind fun x => w[b]?.join.map fun y =>
    if a = b then (.unit, w)
    else if x.1 = y.1 then
      match assignable es y.1, ft with
      | true, .completes => (.unit, w.set a (some y))
      | true, .throws t _ => (.error, w.set a (some (y.1, t)))
      | false, _ => (.error, w)
    else
      match copyable es y.1, ft with
      | true, .completes => (.unit, w.set a (some y))
      | _, _ => (.error, w)
  | .assignMove a b ft => w[a]?.join.bind fun x => w[b]?.join.map fun y =>
    if a = b then (.unit, w)
    else if x.1 = y.1 then
      match movable es y.1, ft with
      | true, .completes => (.unit, (w.set a (some y)).set b (some (y.1, moved y.2)))
      | true, .throws t s => (.error, (w.set a (some (y.1, t))).set b (some (y.1, s)))
      | false, _ => (.error, w)
    else
      match movable es y.1, ft with
      | true, .completes => (.unit, (w.set a (some y)).set b (some (y.1, moved y.2)))
      | true, .throws _ s => (.error, w.set b (some (y.1, s)))
      | false, _ => (.error, w)
  | .assign a i v ft => if i < es.length then w[a]?.join.map fun x =>
      match ft with
      | .completes => (.unit, w.set a (some (i, v)))
      | .throws t _ => (.error, if x.1 = i then w.set a (some (i, t)) else w)
    else none
  | .assignPart a b i part ft => if i < es.length then w[a]?.join.bind fun x => w[b]?.join.map fun y =>
      match ft with
      | .completes => (.unit, w.set a (some (i, part y.2)))
      | .throws t _ => (.error, if x.1 = i then w.set a (some (i, t)) else w)
    else none
  | .index a => w[a]?.join.map fun x => (.index x.1, w)
  | .get a i => w[a]?.join.map fun x => (if x.1 = i then .value x.2 else .error, w)
  | .tryGet a i => w[a]?.join.map fun x => (.pointer (if x.1 = i then some x.2 else none), w)
  | .apply a g => w[a]?.join.map fun x => (.called x.1 x.2, w.set a (some (x.1, g x.1 x.2)))
  | .tryApply a p g => w[a]?.join.map fun x =>
    if p x.1 then (.called x.1 x.2, w.set a (some (x.1, g x.1 x.2))) else (.notCalled, w)

def choiceRun (moved : V → V) (es : List Traits) (w : Choices V) : List (Op V) → Option (List (Result V) × Choices V)
  | [] => some ([], w)
  | op :: ops => do
    let (r, w) ← choiceStep moved es w op
    let (rs, w) ← choiceRun moved es w ops
    some (r :: rs, w)

/-- An assignment that replaces the alternative in `a` by another one, whose construction fails. -/
def Interrupted (es : List Traits) (w : Choices V) (a : Nat) : Op V → Prop
  | .assignCopy a' b ft => a' = a ∧ ∃ x y, w[a]?.join = some x ∧ w[b]?.join = some y ∧ x.1 ≠ y.1 ∧
      (copyable es y.1 = false ∨ ft ≠ .completes)
  | .assignMove a' b ft => a' = a ∧ ∃ x y, w[a]?.join = some x ∧ w[b]?.join = some y ∧ x.1 ≠ y.1 ∧
      (movable es y.1 = false ∨ ft ≠ .completes)
  | .assign a' i _ ft => a' = a ∧ ∃ x, w[a]?.join = some x ∧ x.1 ≠ i ∧ ft ≠ .completes
  | .assignPart a' b i _ ft => a' = a ∧ a ≠ b ∧ ∃ x y, w[a]?.join = some x ∧ w[b]?.join = some y ∧ x.1 ≠ i ∧ ft ≠ .completes
  | _ => False

/-- An assignment that replaces the alternative in `a` by a part of itself. -/
def FromInside (w : Choices V) (a : Nat) : Op V → Prop
  | .assignPart a' b i _ _ => a' = a ∧ b = a ∧ ∃ x, w[a]?.join = some x ∧ x.1 ≠ i
  | _ => False

/-- no assignment of the history is interrupted or from inside -/
def Smooth (moved : V → V) (es : List Traits) (w : Choices V) : List (Op V) → Prop
  | [] => True
  | op :: ops => (∀ a, ¬ Interrupted es w a op ∧ ¬ FromInside w a op) ∧
      ∀ r w', choiceStep moved es w op = some (r, w') → Smooth moved es w' ops

end Spec
end Vlpp
