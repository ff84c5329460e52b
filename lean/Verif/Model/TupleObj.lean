import Verif.Model.Outcome
import Verif.Spec.TupleObj

/-!
# Model of tuples and pairs as objects

Source/Primitives/Tuple.h 14-96, 118-175, 198-255, 271-283; Source/Collections/Pair.h 56-94.  Objects live at addresses; a tuple
contains objects (`TupleElement<I, T>`) and pointers (`TupleElement<I, T&>`).

Simplifications: all elements are of one type `α` (the union of all types of elements), conversions between types of elements
do not change values, `x = std::move(x)` does not change `x`; addresses are not reused.  `mv` says what is left of an object
that was moved from; the value `none` is unspecified.  Constructors and assignments that the compiler generates for equal types
do the same as the templates.  A `Pair<K, V>` is a tuple of two elements; it has no assignment if `K` or `V` is a reference.
-/
set_option autoImplicit false
namespace Vlpp
open Spec.Tup (Expr Arg Kind Op Ret)

/-- The objects that exist; addresses from `next` on were never used. -/
structure TupleMem (α : Type) where
  next : Nat
  cell : Nat → Option (Option α)

namespace TupleMem
variable {α : Type}

def write (m : TupleMem α) (a : Nat) (v : Option (Option α)) : TupleMem α :=
  ⟨m.next, fun b => if b = a then v else m.cell b⟩

/-- Construction of an object. -/
def alloc (v : Option α) : Cpp (TupleMem α) Nat := fun m =>
  .ok m.next ⟨m.next + 1, fun b => if b = m.next then some v else m.cell b⟩

/-- Reading an object; undefined if there is none. -/
def load (a : Nat) : Cpp (TupleMem α) (Option α) := fun m =>
  match m.cell a with
  | some v => .ok v m
  | none => .fault

/-- Assigning to an object, or leaving it moved-from. -/
def store (a : Nat) (v : Option α) : Cpp (TupleMem α) Unit := fun m =>
  match m.cell a with
  | some _ => .ok () (m.write a (some v))
  | none => .fault

/-- Destruction of an object. -/
def free (a : Nat) : Cpp (TupleMem α) Unit := fun m =>
  match m.cell a with
  | some _ => .ok () (m.write a none)
  | none => .fault

end TupleMem

/-- Tuple.h 14-17 `TupleElement<I, T>` (the address of `element`), 56-59 `TupleElement<I, T&>` (the pointer). -/
inductive TupleElem where
  | own (a : Nat)
  | ref (isConst : Bool) (a : Nat)
  deriving DecidableEq

namespace TupleElem
open TupleMem
variable {α : Type}

/-- Tuple.h 45-53, 87-95 `GetElement`: the address of the object. -/
def address : TupleElem → Nat
  | own a => a
  | ref _ a => a

/-- Is `std::move(GetElement())` an expression one can move from?  (Not if it is const.) -/
def movable : TupleElem → Bool
  | own _ => true
  | ref c _ => !c

/-- Tuple.h 21-25, 63-67 the constructors, for the expression of the object at `a` (`move`: it is an rvalue).
Pair.h 68-74. -/
def construct (mv : Option α → Option α) (a : Nat) (move : Bool) : Kind → Cpp (TupleMem α) TupleElem
  | .value => do
    let v ← load a
    (show Cpp (TupleMem α) Unit from if move then store a (mv v) else pure ())
    return own (← alloc v)
  | .ref c => pure (ref c a)

/-- Tuple.h 27-37, 69-79 `AssignCopy`, `AssignMove`. -/
def assign (mv : Option α → Option α) (source : TupleElem) (move : Bool) : TupleElem → Cpp (TupleMem α) TupleElem
  | own b => do
    let v ← load source.address
    (show Cpp (TupleMem α) Unit from if move && source.movable then store source.address (mv v) else pure ())
    store b v
    return own b
  | ref c _ => pure (ref c source.address)

/-- Destruction of an element. -/
def destroy : TupleElem → Cpp (TupleMem α) Unit
  | own a => free a
  | ref _ _ => pure ()

/-- Tuple.h 137-141 `TupleBase(TupleCtorElementsTag, xs...)`: the elements are initialised in the order of their indexes. -/
def constructAll (mv : Option α → Option α) : List (Kind × Nat × Bool) → Cpp (TupleMem α) (List TupleElem)
  | [] => pure []
  | (k, a, move) :: rest => do
    let e ← construct mv a move k
    let es ← constructAll mv rest
    return e :: es

/-- Tuple.h 155-175 `AssignCopy`, `AssignMove` of `TupleBase`: pairs of an element and the element assigned to it. -/
def assignAll (mv : Option α → Option α) (move : Bool) : List (TupleElem × TupleElem) → Cpp (TupleMem α) (List TupleElem)
  | [] => pure []
  | (e, source) :: rest => do
    let e ← assign mv source move e
    let es ← assignAll mv move rest
    return e :: es

/-- The implicit destructor: the elements in reverse order. -/
def destroyAll : List TupleElem → Cpp (TupleMem α) Unit
  | [] => pure ()
  | e :: es => do
    destroyAll es
    destroy e

end TupleElem

/-- A program's variables (their addresses) and tuples. -/
structure TupleWorld (α : Type) where
  mem : TupleMem α
  vars : Nat → Option Nat
  tuples : Nat → Option (List TupleElem)

namespace TupleWorld
variable {α : Type}

def start : TupleWorld α := ⟨⟨0, fun _ => none⟩, fun _ => none, fun _ => none⟩

def onMem {β : Type} (m : Cpp (TupleMem α) β) : Cpp (TupleWorld α) β := fun w =>
  match m w.mem with
  | .ok v mem => .ok v { w with mem := mem }
  | .err mem => .err { w with mem := mem }
  | .fault => .fault

/-- Something that the program names; a program that names something else does not compile. -/
def named {β : Type} (f : TupleWorld α → Option β) : Cpp (TupleWorld α) β := fun w =>
  match f w with
  | some v => .ok v w
  | none => .fault

def setVar (x : Nat) (a : Option Nat) : Cpp (TupleWorld α) Unit := fun w =>
  .ok () { w with vars := fun y => if y = x then a else w.vars y }

def setTuple (t : Nat) (es : Option (List TupleElem)) : Cpp (TupleWorld α) Unit := fun w =>
  .ok () { w with tuples := fun u => if u = t then es else w.tuples u }

/-- The address of the object an expression denotes; Tuple.h 271-283 `get`, Pair.h 112-138. -/
def addressOf (w : TupleWorld α) : Expr → Option Nat
  | .var x => w.vars x
  | .get t i => (w.tuples t).bind fun es => es[i]?.map TupleElem.address

/-- Evaluation of arguments: temporary objects are constructed (their addresses are the second result). -/
def evalArgs : List (Arg α) → Cpp (TupleWorld α) (List (Nat × Bool) × List Nat)
  | [] => pure ([], [])
  | a :: as =>
    match a with
    | .lvalue e => do
      let p ← named (addressOf · e)
      let (ps, temps) ← evalArgs as
      return ((p, false) :: ps, temps)
    | .moved e => do
      let p ← named (addressOf · e)
      let (ps, temps) ← evalArgs as
      return ((p, true) :: ps, temps)
    | .temp v => do
      let p ← onMem (TupleMem.alloc (some v))
      let (ps, temps) ← evalArgs as
      return ((p, true) :: ps, p :: temps)

/-- Temporary objects are destroyed at the end of the statement. -/
def freeAll : List Nat → Cpp (TupleMem α) Unit
  | [] => pure ()
  | p :: ps => do
    freeAll ps
    TupleMem.free p

/-- One statement of a program. -/
def step (mv : Option α → Option α) : Op α → Cpp (TupleWorld α) (Ret α)
  | .var x v => do
    named (fun w => if (w.vars x).isSome then none else some ())
    let a ← onMem (TupleMem.alloc (some v))
    setVar x (some a)
    return .done
  | .endVar x => do
    let a ← named (·.vars x)
    onMem (TupleMem.free a)
    setVar x none
    return .done
  | .assign e v => do
    let a ← named (addressOf · e)
    onMem (TupleMem.store a (some v))
    return .done
  | .read e => do
    let a ← named (addressOf · e)
    return .value (← onMem (TupleMem.load a))
  | .same e1 e2 => do
    let a ← named (addressOf · e1)
    let b ← named (addressOf · e2)
    return .flag (a = b)
  -- Tuple.h 216-223 `Tuple(UArgs&&...)`
  | .make t ks args => do
    named (fun w => if (w.tuples t).isSome ∨ ks.length ≠ args.length then none else some ())
    let (ps, temps) ← evalArgs args
    let es ← onMem (TupleElem.constructAll mv (ks.zip ps))
    setTuple t (some es)
    onMem (freeAll temps)
    return .done
  -- Tuple.h 225-241 with 143-153; Pair.h 60-62, 71-87
  | .makeFrom t ks s move => do
    let srcs ← named fun w => if (w.tuples t).isSome then none else
      (w.tuples s).filter fun srcs => ks.length = srcs.length
    let es ← onMem (TupleElem.constructAll mv (ks.zip (srcs.map fun e => (e.address, move && e.movable))))
    setTuple t (some es)
    return .done
  -- Tuple.h 243-255; Pair.h 89-90
  | .assignFrom t s move => do
    let srcs ← named (·.tuples s)
    let es ← named fun w => (w.tuples t).filter fun es => es.length = srcs.length
    let es ← onMem (TupleElem.assignAll mv move (es.zip srcs))
    setTuple t (some es)
    return .done
  | .drop t => do
    let es ← named (·.tuples t)
    onMem (TupleElem.destroyAll es)
    setTuple t none
    return .done

/-- A program. -/
def run (mv : Option α → Option α) : List (Op α) → Cpp (TupleWorld α) (List (Ret α))
  | [] => pure []
  | op :: ops => do
    let r ← step mv op
    let rs ← run mv ops
    return r :: rs

end TupleWorld
end Vlpp
