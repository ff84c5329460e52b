import Verif.Spec.Moves

/-!
# Specification: programs over many containers that can be moved and copied to each other
-/
set_option autoImplicit false
namespace Vlpp.Spec

/-- What a program can do with a family of variables. -/
inductive CopyOp (Op : Type) where
  | op (o : MoveOp Op)
  /-- `CopyFrom(vars[d], vars[s], append)` -/
  | copy (d s : Nat) (append : Bool)

/-- One step. Copying joins what the target keeps, everything or nothing, with the source, which does not change; `Join x y z`:
`z` may be what `y` copied to `x` gives. -/
inductive CopyStep {C Op Ret : Type} (Step : C → Op → C → Ret → Prop) (Join : C → C → C → Prop) (empty : C) (moved refused : Ret)
    (w : Nat → C) : CopyOp Op → (Nat → C) → Ret → Prop where
  | op (o : MoveOp Op) (w' : Nat → C) (r : Ret) : MoveStep Step empty moved refused w o w' r →
      CopyStep Step Join empty moved refused w (.op o) w' r
  | copy (d s : Nat) (append : Bool) (x : C) : Join (if append then w d else empty) (w s) x →
      CopyStep Step Join empty moved refused w (.copy d s append) (fun n => if n = d then x else w n) moved

inductive CopyRun {C Op Ret : Type} (Step : C → Op → C → Ret → Prop) (Join : C → C → C → Prop) (empty : C) (moved refused : Ret) :
    (Nat → C) → List (CopyOp Op) → (Nat → C) → List Ret → Prop where
  | nil (w : Nat → C) : CopyRun Step Join empty moved refused w [] w []
  | cons {w w' w'' : Nat → C} {op : CopyOp Op} {ops : List (CopyOp Op)} {r : Ret} {rs : List Ret} :
      CopyStep Step Join empty moved refused w op w' r → CopyRun Step Join empty moved refused w' ops w'' rs →
      CopyRun Step Join empty moved refused w (op :: ops) w'' (r :: rs)

/-- The same when nothing is left open. -/
def copyStep {C Op Ret : Type} (step : C → Op → C × Ret) (join : C → C → C) (empty : C) (moved refused : Ret) (w : Nat → C) :
    CopyOp Op → (Nat → C) × Ret
  | .op o => moveStep step empty moved refused w o
  | .copy d s append => (fun n => if n = d then join (if append then w d else empty) (w s) else w n, moved)

def copyRun {C Op Ret : Type} (step : C → Op → C × Ret) (join : C → C → C) (empty : C) (moved refused : Ret) (w : Nat → C) :
    List (CopyOp Op) → (Nat → C) × List Ret
  | [] => (w, [])
  | op :: ops =>
    let r := copyStep step join empty moved refused w op
    let rs := copyRun step join empty moved refused r.1 ops
    (rs.1, r.2 :: rs.2)

/-- No container is copied to itself. -/
def NoSelfCopy {Op : Type} (ops : List (CopyOp Op)) : Prop := ∀ d s append, .copy d s append ∈ ops → d ≠ s

/-- maps: the entries of the source win -/
def mapJoin {κ ν : Type} (target source : κ → Option ν) : κ → Option ν := fun k => (source k).or (target k)

/-- multimaps: the values of the source come behind those of the target -/
def groupJoin {κ ν : Type} (target source : κ → List ν) : κ → List ν := fun k => target k ++ source k

/-- sorted lists: what is in either, in order -/
def SortedJoin {α κ : Type} (ord : κ → κ → Ordering) (key : α → κ) (target source joined : List α) : Prop :=
  joined.Pairwise (fun a b => ord (key a) (key b) ≠ .gt) ∧ joined.Perm (target ++ source)

end Vlpp.Spec
