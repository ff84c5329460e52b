/-!
# Specification: programs over many containers that can be moved

A moved-from container is empty; so is one that is moved to itself.
-/
set_option autoImplicit false
namespace Vlpp.Spec

/-- What a program can do with a family of variables, numbered by `Nat`. -/
inductive MoveOp (Op : Type) where
  /-- call a member function of variable `i` -/
  | call (i : Nat) (op : Op)
  /-- `vars[i] = std::move(vars[j])` -/
  | moveAssign (i j : Nat)
  /-- variable `i` is destroyed and constructed again by the move constructor from variable `j` -/
  | moveConstruct (i j : Nat)
  /-- variable `i` is destroyed and constructed again empty -/
  | renew (i : Nat)

/-- One step, for containers that are values of type `C` with the operations `step`; `moved` is the result that is
recorded for a move that took place, `refused` that for constructing a variable from itself (which is not done). -/
def moveStep {C Op Ret : Type} (step : C → Op → C × Ret) (empty : C) (moved refused : Ret) (w : Nat → C) :
    MoveOp Op → (Nat → C) × Ret
  | .call i op => (fun n => if n = i then (step (w i) op).1 else w n, (step (w i) op).2)
  | .moveAssign i j => (fun n => if n = j then empty else if n = i then w j else w n, moved)
  | .moveConstruct i j =>
    if i = j then (w, refused) else (fun n => if n = j then empty else if n = i then w j else w n, moved)
  | .renew i => (fun n => if n = i then empty else w n, moved)

def moveRun {C Op Ret : Type} (step : C → Op → C × Ret) (empty : C) (moved refused : Ret) (w : Nat → C) :
    List (MoveOp Op) → (Nat → C) × List Ret
  | [] => (w, [])
  | op :: ops =>
    let r := moveStep step empty moved refused w op
    let rs := moveRun step empty moved refused r.1 ops
    (rs.1, r.2 :: rs.2)

/-- The same for operations that can be undefined (`none`). -/
def moveStep? {C Op Ret : Type} (step : C → Op → Option (C × Ret)) (empty : C) (moved refused : Ret) (w : Nat → C) :
    MoveOp Op → Option ((Nat → C) × Ret)
  | .call i op => (step (w i) op).map fun p => (fun n => if n = i then p.1 else w n, p.2)
  | .moveAssign i j => some (fun n => if n = j then empty else if n = i then w j else w n, moved)
  | .moveConstruct i j =>
    if i = j then some (w, refused) else some (fun n => if n = j then empty else if n = i then w j else w n, moved)
  | .renew i => some (fun n => if n = i then empty else w n, moved)

def moveRun? {C Op Ret : Type} (step : C → Op → Option (C × Ret)) (empty : C) (moved refused : Ret) (w : Nat → C) :
    List (MoveOp Op) → Option ((Nat → C) × List Ret)
  | [] => some (w, [])
  | op :: ops => do
    let (w, r) ← moveStep? step empty moved refused w op
    let (w, rs) ← moveRun? step empty moved refused w ops
    return (w, r :: rs)

/-- The same for operations `Step x op x' r` that leave some freedom: `op` on `x` may give `x'` and return `r`. -/
inductive MoveStep {C Op Ret : Type} (Step : C → Op → C → Ret → Prop) (empty : C) (moved refused : Ret) (w : Nat → C) :
    MoveOp Op → (Nat → C) → Ret → Prop where
  | call (i : Nat) (op : Op) (x : C) (r : Ret) : Step (w i) op x r →
      MoveStep Step empty moved refused w (.call i op) (fun n => if n = i then x else w n) r
  | moveAssign (i j : Nat) :
      MoveStep Step empty moved refused w (.moveAssign i j) (fun n => if n = j then empty else if n = i then w j else w n) moved
  | refused (i : Nat) : MoveStep Step empty moved refused w (.moveConstruct i i) w refused
  | moveConstruct (i j : Nat) : i ≠ j →
      MoveStep Step empty moved refused w (.moveConstruct i j) (fun n => if n = j then empty else if n = i then w j else w n)
        moved
  | renew (i : Nat) : MoveStep Step empty moved refused w (.renew i) (fun n => if n = i then empty else w n) moved

inductive MoveRun {C Op Ret : Type} (Step : C → Op → C → Ret → Prop) (empty : C) (moved refused : Ret) :
    (Nat → C) → List (MoveOp Op) → (Nat → C) → List Ret → Prop where
  | nil (w : Nat → C) : MoveRun Step empty moved refused w [] w []
  | cons {w w' w'' : Nat → C} {op : MoveOp Op} {ops : List (MoveOp Op)} {r : Ret} {rs : List Ret} :
      MoveStep Step empty moved refused w op w' r → MoveRun Step empty moved refused w' ops w'' rs →
      MoveRun Step empty moved refused w (op :: ops) w'' (r :: rs)

/-- the variables an operation mentions -/
def MoveOp.Mentions {Op : Type} (n : Nat) : MoveOp Op → Prop
  | .call i _ => n = i
  | .moveAssign i j => n = i ∨ n = j
  | .moveConstruct i j => n = i ∨ n = j
  | .renew i => n = i

end Vlpp.Spec
