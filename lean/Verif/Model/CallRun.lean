import Verif.Model.CallList
import Verif.Spec.Calls

/-!
# Programs that use enumerators of a lazy list
-/
set_option autoImplicit false
namespace Vlpp.CallList
open Spec (ReadOp ReadRet)
variable {W α : Type}

/-- One call; `ss` are the enumerators.  `none`: the call does not return, or there is no such enumerator.
`CreateEnumerator` (Operation.h 309-312) and `Clone` make new ones; the others are virtual functions of the enumerators
(Interfaces.h 33-66). -/
def perform (L : CallList W α) (ss : List L.A.σ) (w : W) : ReadOp → Option (Outcome (List L.A.σ × W) (ReadRet α))
  | .create =>
    match L.create with
    | some s => some (.ok .done (ss ++ [s], w))
    | none => some (.ok .threw (ss, w))
  | .clone i =>
    match ss[i]? with
    | none => none
    | some s =>
      match L.A.clone s with
      | some s' => some (.ok .done (ss ++ [s'], w))
      | none => some (.ok .threw (ss, w))
  | .next i =>
    match ss[i]? with
    | none => none
    | some s =>
      match L.A.next s w with
      | none => none
      | some (.ok b (s', w')) => some (.ok (.flag b) (ss.set i s', w'))
      | some (.err (s', w')) => some (.ok .threw (ss.set i s', w'))
      | some .fault => some .fault
  | .current i =>
    match ss[i]? with
    | none => none
    | some s =>
      match L.A.current s with
      | some x => some (.ok (.item x) (ss, w))
      | none => some .fault
  | .index i => ss[i]?.map fun s => .ok (.index (L.A.index s)) (ss, w)
  | .reset i => ss[i]?.map fun s => .ok .done (ss.set i (L.A.reset s), w)

/-- All calls of a program: what they return, and what the world is after each of them. -/
def run (L : CallList W α) : List L.A.σ → W → List ReadOp → Option (Outcome W (List (ReadRet α × W)))
  | _, w, [] => some (.ok [] w)
  | ss, w, op :: ops =>
    match L.perform ss w op with
    | none => none
    | some .fault => some .fault
    | some (.err (_, w')) => some (.err w')
    | some (.ok r (ss', w')) =>
      match run L ss' w' ops with
      | some (.ok l w'') => some (.ok ((r, w') :: l) w'')
      | o => o

end Vlpp.CallList
