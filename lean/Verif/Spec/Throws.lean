import Verif.Spec.Arr
import Verif.Spec.Sorted
import Verif.Spec.Moves

/-!
# Specification: exceptions of elements

What a user may expect of a container when copying or constructing an element throws: the call throws, the container is
what it was before the call, and it can be used and destroyed.  Only the element that is assigned to may have changed.
-/
set_option autoImplicit false
namespace Vlpp.Spec

/-- What copying, assigning and constructing elements does during a call. -/
inductive CopyFate (α : Type) where
  | completes
  /-- Element number `k` (from 0) of those the call copies or constructs throws; if the element was being assigned to, it
  is `t` afterwards.  Calls that copy or construct at most `k` elements complete. -/
  | throws (k : Nat) (t : α)

variable {α κ : Type}

/-- A call on a sequence. -/
def throwStep (eq : α → κ → Bool) (xs : List α) : SeqOp α κ × CopyFate α → List α × SeqRet α
  | (.add _, .throws 0 _) => (xs, .error)
  | (.insert _ _, .throws 0 _) => (xs, .error)
  | (.set i _, .throws 0 t) => if 0 ≤ i ∧ i < xs.length then (xs.set i.toNat t, .error) else (xs, .error)
  | (op, _) => seqStep eq xs op

/-- An element is being inserted at a position of the list, and constructing it throws. -/
def SeqInterrupted (xs : List α) : SeqOp α κ × CopyFate α → Prop
  | (.add _, .throws 0 _) => True
  | (.insert i _, .throws 0 _) => 0 ≤ i ∧ i ≤ xs.length
  | _ => False

/-- No call of the program is an interrupted insertion. -/
def Uninterrupted (eq : α → κ → Bool) (xs : Nat → List α) : List (MoveOp (SeqOp α κ × CopyFate α)) → Prop
  | [] => True
  | op :: ops => (∀ i o, op = .call i o → ¬ SeqInterrupted (xs i) o) ∧
    Uninterrupted eq (moveStep (throwStep eq) [] (.flag true) .error xs op).1 ops

/-- A call on an array; `d` is what a default-constructed element contains. -/
def arrThrowStep (eq : α → κ → Bool) (d : Option α) (xs : List (Option α)) :
    ArrCall α κ × CopyFate α → Option (List (Option α) × SeqRet α)
  | (.call (.set i v), .throws 0 t) => (arrStep eq d xs (.set i v)).map fun _ =>
      if 0 ≤ i ∧ i < xs.length then (xs.set i.toNat (some t), .error) else (xs, .error)
  | (.call (.resize n), .throws k _) => if xs.length + k < n then some (xs, .error) else arrStep eq d xs (.resize n)
  | (.create n, .throws k _) => if k < n then some ([], .error) else arrCall eq d xs (.create n)
  | (.createFrom src n, .throws k _) => (arrCall eq d xs (.createFrom src n)).map fun r => if k < n then ([], .error) else r
  | (op, _) => arrCall eq d xs op

/-- Elements are being constructed in a new buffer, and one of them throws. -/
def ArrInterrupted (xs : List (Option α)) : ArrCall α κ × CopyFate α → Prop
  | (.call (.resize n), .throws k _) => xs.length + k < n
  | (.create n, .throws k _) => k < n
  | (.createFrom _ n, .throws k _) => k < n
  | _ => False

/-- No call of the program is such a construction. -/
def ArrUninterrupted (eq : α → κ → Bool) (d : Option α) (xs : Nat → List (Option α)) :
    List (MoveOp (ArrCall α κ × CopyFate α)) → Prop
  | [] => True
  | op :: ops => (∀ i o, op = .call i o → ¬ ArrInterrupted (xs i) o) ∧
    ∀ p, moveStep? (arrThrowStep eq d) [] (.flag true) .error xs op = some p → ArrUninterrupted eq d p.1 ops

end Vlpp.Spec
