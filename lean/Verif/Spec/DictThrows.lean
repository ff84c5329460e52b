import Verif.Spec.Map
import Verif.Spec.MultiMap
import Verif.Spec.Moves

/-!
# Specification: exceptions of keys and values

What a user may expect of a dictionary or a group when copying a key or a value throws: the call throws, the container is
what it was before the call, and it can be used and destroyed.  Only the value that is assigned to may have changed.
-/
set_option autoImplicit false
namespace Vlpp.Spec

/-- What copying the key and the value does during a call. -/
inductive EntryFate (ν : Type) where
  | completes
  /-- copying the key throws, if the call copies it -/
  | keyThrows
  /-- copying the value throws, if the call copies it; if a value was being assigned to, it is `t` afterwards -/
  | valueThrows (t : ν)

variable {κ ν : Type}

/-- A call on a map. -/
def mapThrowStep (ord : κ → κ → Ordering) (m : κ → Option ν) : MapOp κ ν × EntryFate ν → (κ → Option ν) × MapRet ν
  | (.add _ _, .keyThrows) => (m, .error)
  | (.add _ _, .valueThrows _) => (m, .error)
  | (.set k v, .keyThrows) => if (m k).isSome then (mapPut ord m k v, .flag true) else (m, .error)
  | (.set k _, .valueThrows t) => if (m k).isSome then (mapPut ord m k t, .error) else (m, .error)
  | (op, _) => mapStep ord m op

/-- An entry is being inserted, and copying its key or its value throws. -/
def MapInterrupted (m : κ → Option ν) : MapOp κ ν × EntryFate ν → Prop
  | (_, .completes) => False
  | (.add k _, _) => m k = none
  | (.set k _, _) => m k = none
  | _ => False

/-- No call of the program is an interrupted insertion. -/
def MapUninterrupted (ord : κ → κ → Ordering) (ms : Nat → κ → Option ν) : List (MoveOp (MapOp κ ν × EntryFate ν)) → Prop
  | [] => True
  | op :: ops => (∀ i o, op = .call i o → ¬ MapInterrupted (ms i) o) ∧
    MapUninterrupted ord (moveStep (mapThrowStep ord) (fun _ => none) (.flag true) .error ms op).1 ops

/-- A call on a multimap. -/
def groupThrowStep (ord : κ → κ → Ordering) (eq : ν → ν → Bool) (m : κ → List ν) :
    GroupOp κ ν × EntryFate ν → (κ → List ν) × GroupRet ν
  | (.add k v, .keyThrows) => if m k = [] then (m, .error) else groupStep ord eq m (.add k v)
  | (.add _ _, .valueThrows _) => (m, .error)
  | (op, _) => groupStep ord eq m op

/-- A value is being added to a multimap, and copying it or its key throws. -/
def GroupInterrupted (m : κ → List ν) : GroupOp κ ν × EntryFate ν → Prop
  | (.add k _, .keyThrows) => m k = []
  | (.add _ _, .valueThrows _) => True
  | _ => False

/-- No call of the program is an interrupted addition. -/
def GroupUninterrupted (ord : κ → κ → Ordering) (eq : ν → ν → Bool) (ms : Nat → κ → List ν) :
    List (MoveOp (GroupOp κ ν × EntryFate ν)) → Prop
  | [] => True
  | op :: ops => (∀ i o, op = .call i o → ¬ GroupInterrupted (ms i) o) ∧
    GroupUninterrupted ord eq (moveStep (groupThrowStep ord eq) (fun _ => []) (.flag true) .error ms op).1 ops

end Vlpp.Spec
