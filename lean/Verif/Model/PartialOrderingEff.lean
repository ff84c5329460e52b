import Verif.Model.PartialOrdering

/-!
# `PartialOrderingProcessor::InitWithFunc` with a function that has effects

Source/Collections/PartialOrdering.h 274-288.  `Model/PartialOrdering.lean` has the same code for a function that is
a mathematical relation.  Here `depFunc` is any C++ function: it works on a state `σ × Proc`, which contains the processor
that is being initialised, it can answer differently when it is asked again, and it can throw.

Simplified: `items` does not change while `InitWithFunc` runs (it is a `const` reference); the comparison of the elements
has no effects.
-/
set_option autoImplicit false
namespace Vlpp
namespace PO
section
variable {σ τ : Type}

/-- PartialOrdering.h 283 `depGroup.Add(items[i], items[j])`: `depGroup` is a local variable, an Error leaves the rest of
the state as it is. -/
def put (cmp : τ → τ → Option Ordering) (x y : τ) (dep : GroupC τ τ) : Cpp (σ × Proc) (GroupC τ τ) := fun s =>
  match GroupC.add cmp x y dep with
  | .ok _ dep' => .ok dep' s
  | .err _ => .err s
  | .fault => .fault

/-- PartialOrdering.h 281-284: one answer of `depFunc`. -/
def record (cmp : τ → τ → Option Ordering) (x y : τ) (dep : GroupC τ τ) (answer : Bool) : Cpp (σ × Proc) (GroupC τ τ) :=
  if answer then put cmp x y dep else pure dep

/-- PartialOrdering.h 279-285: the inner loop, over the remaining `items[j]`. -/
def askInner (cmp : τ → τ → Option Ordering) (depFunc : τ → τ → Cpp (σ × Proc) Bool) (x : τ) :
    List τ → GroupC τ τ → Cpp (σ × Proc) (GroupC τ τ)
  | [], dep => pure dep
  | y :: ys, dep => do
    let b ← depFunc x y
    let dep' ← record cmp x y dep b
    askInner cmp depFunc x ys dep'

/-- PartialOrdering.h 277-286: the outer loop, over the remaining `items[i]`. -/
def askOuter (cmp : τ → τ → Option Ordering) (depFunc : τ → τ → Cpp (σ × Proc) Bool) (items : List τ) :
    List τ → GroupC τ τ → Cpp (σ × Proc) (GroupC τ τ)
  | [], dep => pure dep
  | x :: xs, dep => do
    let dep' ← askInner cmp depFunc x items dep
    askOuter cmp depFunc items xs dep'

/-- A member function of the processor, called in the state of the program. -/
def inProgram {β : Type} (m : Cpp Proc β) : Cpp (σ × Proc) β := fun s =>
  match m s.2 with
  | .ok a p => .ok a (s.1, p)
  | .err p => .err (s.1, p)
  | .fault => .fault

/-- PartialOrdering.h 274-288 `InitWithFunc`. -/
def initWithFuncE (cmp : τ → τ → Option Ordering) (eq : τ → τ → Bool) (items : List τ)
    (depFunc : τ → τ → Cpp (σ × Proc) Bool) : Cpp (σ × Proc) Unit := do
  let dep ← askOuter cmp depFunc items items GroupC.empty
  inProgram (initWithGroup eq items dep)
end
end PO
end Vlpp
