import Verif.Model.CallList
import Verif.Spec.Resume

/-!
# Programs that go on with an enumerator after an exception

The enumerators of Model/CallAtor.lean, whose `Next` also gives the state in which an exception leaves them.
-/
set_option autoImplicit false
namespace Vlpp.CallList
open Spec (GoOp GoRet)
variable {W α : Type}

/-- One call; `ss` are the enumerators; `none`: the call does not return.  `create`: Operation.h 309-312; the others are the virtual
functions of Interfaces.h 33-66.  An exception leaves the enumerator in the state it had at the throw. -/
def go1 (L : CallList W α) (ss : List L.A.σ) (w : W) : GoOp → Option (Outcome (List L.A.σ × W) (GoRet α))
  | .create =>
    match L.create with
    | some s => some (.ok .done (ss ++ [s], w))
    | none => some (.ok .threw (ss, w))
  | .clone i =>
    match ss[i]? with
    | none => some (.ok .missing (ss, w))
    | some s =>
      match L.A.clone s with
      | some s' => some (.ok .done (ss ++ [s'], w))
      | none => some (.ok .threw (ss, w))
  | .next i =>
    match ss[i]? with
    | none => some (.ok .missing (ss, w))
    | some s =>
      match L.A.next s w with
      | none => none
      | some (.ok true (s', w')) =>
        match L.A.current s' with
        | some x => some (.ok (.got x) (ss.set i s', w'))
        | none => some .fault
      | some (.ok false (s', w')) => some (.ok .ended (ss.set i s', w'))
      | some (.err (s', w')) => some (.ok .threw (ss.set i s', w'))
      | some .fault => some .fault
  | .reset i =>
    match ss[i]? with
    | none => some (.ok .missing (ss, w))
    | some s => some (.ok .done (ss.set i (L.A.reset s), w))

/-- All calls of a program: what they return, and what the world is after each of them. -/
def goRun (L : CallList W α) : List L.A.σ → W → List GoOp → Option (Outcome W (List (GoRet α × W)))
  | _, w, [] => some (.ok [] w)
  | ss, w, op :: ops =>
    match L.go1 ss w op with
    | none => none
    | some .fault => some .fault
    | some (.err (_, w')) => some (.err w')
    | some (.ok r (ss', w')) =>
      match goRun L ss' w' ops with
      | some (.ok l w'') => some (.ok ((r, w') :: l) w'')
      | o => o

end Vlpp.CallList
