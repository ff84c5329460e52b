import Verif.Model.Outcome

/-!
# Model of who owns the enumerators of lazy lists

Source/Collections/Operation.h 222-945, OperationSequence.h, OperationSet.h, OperationConcat.h, OperationPair.h, OperationSelect.h,
OperationWhere.h, OperationForEach.h.  Enumerators are made by `new` and hold plain pointers to the enumerators they read from.  The
pointers are set by the constructors and never change, so a pointer is represented by the number of the object together with its class and the
pointers in it; whether the object still exists is a matter of the heap, and using an object that does not is a fault.

User code (selectors, comparisons, copying of elements) may throw whenever it is called: `throws` says what it does.

Simplifications: elements and positions are left out (they are C17-C26, C86, C90), and with them how often `Next` is called; what a `Ptr`
does is taken from C43: the object is deleted when the last `Ptr` to it is gone.  Where the order of evaluation is unspecified
(arguments of constructors), it is from left to right.  `new` itself does not fail.
-/
set_option autoImplicit false
namespace Vlpp.EnmOwn

/-- classes of enumerators that hold no enumerator: `EmptyEnumerator` (OperationEnumerable.h 20-53), `RangeEnumerator` (59-117),
`ContainerEnumerator` (124-172), those of containers and of pointers (OperationSequence.h 338-408), `ReverseEnumerator` (276-330) -/
inductive Leaf where
  | empty | range | container | pointer | reverse
  deriving DecidableEq

/-- classes with one inner enumerator: OperationSequence.h 22-69, 75-132, 138-200, 206-270, OperationSelect.h 22-70, OperationWhere.h
20-70, OperationSet.h 22-82 -/
inductive Un where
  | take | skip | rep | distinct | select | where_ | intersect | except
  deriving DecidableEq

/-- classes with two inner enumerators: OperationConcat.h 20-98, OperationPair.h 20-79 -/
inductive Bin where
  | concat | pairwise
  deriving DecidableEq

/-- an `IEnumerator<T>*` -/
inductive Enm where
  | leaf (n : Nat) (k : Leaf)
  | un (n : Nat) (k : Un) (e : Enm)
  | bin (n : Nat) (k : Bin) (a b : Enm)
  deriving DecidableEq

/-- the address -/
def Enm.root : Enm → Nat
  | .leaf n _ => n
  | .un n _ _ => n
  | .bin n _ _ _ => n

/-- The enumerators ever made (`true`: not deleted), the variables of type `LazyList` (`enumeratorPrototype`, Operation.h 228), and what the
calls of user code to come do (`true`: throw; at the end of the list they return). -/
structure World where
  alive : List Bool
  vars : List (Option Enm)
  throws : List Bool
  deriving DecidableEq

/-- a call of user code -/
def user : Cpp World Unit := fun w =>
  match w.throws with
  | [] => .ok () w
  | b :: ts => if b then .err { w with throws := ts } else .ok () { w with throws := ts }

/-- `new` of an enumerator -/
def new : Cpp World Nat := fun w => .ok w.alive.length { w with alive := w.alive ++ [true] }

/-- use of an enumerator -/
def touch (n : Nat) : Cpp World Unit := fun w => if w.alive[n]? = some true then .ok () w else .fault

/-- the end of `delete` -/
def free (n : Nat) : Cpp World Unit := fun w =>
  if w.alive[n]? = some true then .ok () { w with alive := w.alive.set n false } else .fault

/-- `user`, if the class calls user code -/
def userIf (b : Bool) : Cpp World Unit := if b then user else pure ()

/-- Copying a `ReverseEnumerator` copies elements (OperationSequence.h 292-296). -/
def Leaf.copies : Leaf → Bool
  | .reverse => true
  | _ => false

/-- Copying an `IntersectExceptEnumerator` compares the elements of `reference` (OperationSet.h 38-43).  The other copies have no elements:
what is cloned here is never iterated (Operation.h 270, 297), so `current`, `lastValue` and `distinct` are empty. -/
def Un.copies : Un → Bool
  | .intersect | .except => true
  | _ => false

/-- The `Clone` of all classes: OperationEnumerable.h 22-25, 80-83, 138-141, OperationSequence.h 40-43, 94-97, 160-163, 222-227, 234-237,
288-300, 357-360, OperationSelect.h 41-44, OperationWhere.h 40-43, OperationSet.h 38-53, OperationConcat.h 44-47, OperationPair.h 42-45.  If the constructor throws,
nothing deletes the inner enumerator. -/
def clone : Enm → Cpp World Enm
  | .leaf n k => do
    touch n
    userIf k.copies
    let m ← new
    return .leaf m k
  | .un n k e => do
    touch n
    let e' ← clone e
    userIf k.copies
    let m ← new
    return .un m k e'
  | .bin n k a b => do
    touch n
    let a' ← clone a
    let b' ← clone b
    let m ← new
    return .bin m k a' b'

/-- `delete`: the destructors OperationSequence.h 35-38, 89-92, 155-158, 229-232, OperationSelect.h 36-39, OperationWhere.h 35-38,
OperationSet.h 45-48, OperationConcat.h 38-42, OperationPair.h 36-40. -/
def delete : Enm → Cpp World Unit
  | .leaf n _ => free n
  | .un n _ e => do
    touch n
    delete e
    free n
  | .bin n _ a b => do
    touch n
    delete a
    delete b
    free n

/-- Does `Next` call user code?  `Select`, `Where`: the function; `Distinct`, `Intersect`, `Except`: comparisons. -/
def Un.calls : Un → Bool
  | .take | .skip | .rep => false
  | _ => true

/-- `PairwiseEnumerator::Next` copies elements, OperationPair.h 60. -/
def Bin.calls : Bin → Bool
  | .pairwise => true
  | .concat => false

/-- `Next` (the functions cited in C17-C22), once on every inner enumerator; see the simplifications. -/
def next : Enm → Cpp World Unit
  | .leaf n _ => touch n
  | .un n k e => do
    touch n
    next e
    userIf k.calls
  | .bin n k a b => do
    touch n
    next a
    next b
    userIf k.calls

/-- a loop `while (enumerator->Next()) { user code }` of `n` rounds -/
def steps (e : Enm) : Nat → Cpp World Unit
  | 0 => pure ()
  | n + 1 => do
    next e
    user
    steps e n

/-- `{ Ptr<IEnumerator<T>> p(e); body }`: the enumerator is deleted however the block is left. -/
def withPtr {β : Type} (e : Enm) (body : Cpp World β) : Cpp World β := fun w =>
  match body w with
  | .ok r w =>
    match delete e w with
    | .ok _ w => .ok r w
    | .err w => .err w
    | .fault => .fault
  | .err w =>
    match delete e w with
    | .ok _ w => .err w
    | .err w => .err w
    | .fault => .fault
  | .fault => .fault

/-- Operation.h 230-240 `xs()` and 309-312 `CreateEnumerator` -/
def xs (v : Nat) : Cpp World Enm := fun w =>
  match w.vars[v]? with
  | none => .fault
  | some none => (do let n ← new; return Enm.leaf n .empty) w
  | some (some e) => clone e w

/-- does a variable refer to this object? -/
def held (w : World) (n : Nat) : Bool := w.vars.any fun p => decide (p.map Enm.root = some n)

/-- `enumeratorPrototype = p` (Operation.h 298, 304): the old enumerator is deleted with its last `Ptr`. -/
def assign (v : Nat) (p : Option Enm) : Cpp World Unit := fun w =>
  match w.vars[v]? with
  | none => .fault
  | some old =>
    let w := { w with vars := w.vars.set v p }
    match old with
    | none => .ok () w
    | some e => if held w e.root then .ok () w else delete e w

/-- `Evaluated()`: OperationEnumerable.h 48-51, 108-111, 163-166, OperationSequence.h 65-68, 128-131, 196-199, 326-329, 379-382, OperationConcat.h 91-94,
OperationPair.h 72-75, Interfaces.h 65 -/
def evaluated : Enm → Cpp World Bool
  | .leaf n _ => do touch n; return true
  | .un n k e => do
    touch n
    match k with
    | .take | .skip | .rep => evaluated e
    | _ => return false
  | .bin n _ a b => do
    touch n
    let r ← evaluated a
    if r then evaluated b else return false

/-- Statements of a program, `v`, `u`, `x` are variables of type `LazyList`. -/
inductive Op where
  /-- `v = LazyList(…)` from a container, a pointer, `Range` -/
  | source (v : Nat) (k : Leaf)
  /-- `v = u` -/
  | copy (v u : Nat)
  /-- `v = std::move(u)` -/
  | move (v u : Nat)
  /-- `v` is destroyed and made again -/
  | renew (v : Nat)
  /-- `v = u.Take(…)`, `Skip`, `Repeat`, `Distinct` -/
  | plain (v : Nat) (k : Un) (u : Nat)
  /-- `v = u.Select(f)`, `u.Where(f)`; `nothrow`: making a `Func` of `f` (copying `f`) does not throw -/
  | func (v : Nat) (k : Un) (u : Nat) (nothrow : Bool)
  /-- `v = u.Concat(x)`, `u.Pairwise(x)` -/
  | both (v : Nat) (k : Bin) (u x : Nat)
  /-- `v = u.Reverse()`, `rounds` elements -/
  | reverse (v u rounds : Nat)
  /-- `v = u.Intersect(x)`, `u.Except(x)`; `x` has `rounds` elements -/
  | set (v : Nat) (k : Un) (u x rounds : Nat)
  /-- `v = u.Union(x)` -/
  | union (v u x : Nat)
  /-- `v = u.Evaluate(force)` -/
  | evaluate (v u : Nat) (force : Bool) (rounds : Nat)
  /-- `u.First()`, `u.Last()`, `u.Count()`, `u.IsEmpty()`, `u.Aggregate(f)`, `u.Max()`, `u.Min()`, `CopyFrom(…, u)`, `OrderBy` … -/
  | consume (u rounds : Nat)
  /-- `CompareEnumerable(u, x)` -/
  | compare (u x rounds : Nat)
  /-- `for (auto y : u)`, `u.Aggregate(init, f)` -/
  | loop (u rounds : Nat)
  /-- `u.All(f)`, `u.Any(f)` -/
  | all (u rounds : Nat)

/-- `CopyFrom(…, ss)` for an enumerable (OperationCopyFrom.h 89-98 and others), also the functions Operation.h 483-500, 595-670: `auto enumerator =
Ptr(CreateEnumerator())` and a loop. -/
def consume (u rounds : Nat) : Cpp World Unit := do
  let e ← xs u
  withPtr e (steps e rounds)

/-- OperationForEach.h 31-49, 518-525 of Operation.h: the iterator makes the enumerator and calls `Next`; if that throws, its destructor does not run. -/
def loopOver (e : Enm) (rounds : Nat) : Cpp World Unit := do
  next e
  withPtr e (steps e rounds)

/-- `t` is held by a temporary `LazyList`, of which `Distinct()` is taken (Operation.h 749-752, 805-842). -/
def distinctOf (t : Enm) : Cpp World Enm := withPtr t do
  let e ← clone t
  let m ← new
  return Enm.un m .distinct e

/-- The statements; where they are in Operation.h: 260-307, 329-350, 396-460, 483-670, 686-842, 861-878. -/
def perform : Op → Cpp World Unit
  | .source v k => do
    let n ← new
    assign v (some (.leaf n k))
  | .copy v u => do
    let w ← Cpp.get
    match w.vars[u]? with
    | none => Cpp.faulting
    | some p => assign v p
  | .move v u => do
    let w ← Cpp.get
    match w.vars[u]? with
    | none => Cpp.faulting
    | some p => do
      assign v p
      assign u none
  | .renew v => assign v none
  | .plain v k u => do
    let e ← xs u
    let n ← new
    assign v (some (.un n k e))
  | .func v k u nothrow => do
    let e ← xs u
    userIf (!nothrow)
    let n ← new
    assign v (some (.un n k e))
  | .both v k u x => do
    let a ← xs u
    let b ← xs x
    let n ← new
    assign v (some (.bin n k a b))
  | .reverse v u rounds => do
    consume u rounds
    let n ← new
    assign v (some (.leaf n .reverse))
  | .set v k u x rounds => do
    let e ← xs u
    consume x rounds
    let n ← new
    let d ← distinctOf (.un n k e)
    assign v (some d)
  | .union v u x => do
    let a ← xs u
    let b ← xs x
    let n ← new
    let d ← distinctOf (.bin n .concat a b)
    assign v (some d)
  | .evaluate v u force rounds => do
    let w ← Cpp.get
    match w.vars[u]? with
    | none => Cpp.faulting
    | some none => assign v none
    | some (some e) => do
      let done ← evaluated e
      if force = false ∧ done = true then assign v (some e)
      else do
        consume u rounds
        let n ← new
        assign v (some (.leaf n .container))
  | .consume u rounds => consume u rounds
  | .compare u x rounds => do
    let a ← xs u
    withPtr a do
      let b ← xs x
      withPtr b do
        steps a rounds
        steps b rounds
  | .loop u rounds => do
    let e ← xs u
    loopOver e rounds
  | .all u rounds => do
    let e ← xs u
    user
    let n ← new
    let t := Enm.un n .select e
    withPtr t do
      let r ← clone t
      loopOver r rounds

/-- A program that catches all exceptions: for every statement, did it return?  `none`: undefined behaviour. -/
def run (w : World) : List Op → Option (World × List Bool)
  | [] => some (w, [])
  | op :: ops =>
    match perform op w with
    | .ok _ w => (run w ops).map fun r => (r.1, true :: r.2)
    | .err w => (run w ops).map fun r => (r.1, false :: r.2)
    | .fault => none

end Vlpp.EnmOwn
