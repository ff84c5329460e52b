import Verif.Model.Outcome
import Verif.Spec.Moves

/-!
# Programs over a family of movable objects

The semantics of `Spec.MoveOp` for C++ objects numbered by `Nat`: calls, move assignment, destruction and construction.
-/
set_option autoImplicit false
namespace Vlpp

/-- What can be done with objects of a class, `σ` being the memory they live in. -/
structure Movable (σ Op Ret : Type) where
  /-- call a member function of object `i` -/
  call : Nat → Op → Cpp σ Ret
  /-- `operator=(T&&)`: object `i` from object `j` -/
  moveAssign : Nat → Nat → Cpp σ Unit
  /-- the move constructor in the storage `i`, which contains no object, from object `j` -/
  moveConstruct : Nat → Nat → Cpp σ Unit
  /-- the destructor of object `i`, then the default constructor -/
  renew : Nat → Cpp σ Unit

namespace Movable
variable {σ Op Ret : Type}

/-- What the caller sees; `none` is undefined behaviour. -/
def observe (error : Ret) : Outcome σ Ret → Option (σ × Ret)
  | .ok v w => some (w, v)
  | .err w => some (w, error)
  | .fault => none

/-- One step of a program. An object is not move constructed from itself. -/
def step (M : Movable σ Op Ret) (moved error : Ret) (w : σ) : Spec.MoveOp Op → Option (σ × Ret)
  | .call i op => observe error (M.call i op w)
  | .moveAssign i j => observe error ((do M.moveAssign i j; return moved : Cpp σ Ret) w)
  | .moveConstruct i j =>
    if i = j then some (w, error)
    else observe error ((do M.renew i; M.moveConstruct i j; return moved : Cpp σ Ret) w)
  | .renew i => observe error ((do M.renew i; return moved : Cpp σ Ret) w)

def run (M : Movable σ Op Ret) (moved error : Ret) (w : σ) : List (Spec.MoveOp Op) → Option (σ × List Ret)
  | [] => some (w, [])
  | op :: ops => do
    let (w, r) ← M.step moved error w op
    let (w, rs) ← M.run moved error w ops
    return (w, r :: rs)

end Movable
end Vlpp
