import Verif.Model.CallAtor

/-!
# Model of `LazyList<T>`, with functions that do something

Source/Collections/Operation.h 225-944, the same code as in Model/LazyList.lean, but the functions given to the member functions work on a
world `W` (see Model/CallAtor.lean).  Functions return `Option (Outcome W β)`; `none` means that the call does not return.
-/
set_option autoImplicit false
namespace Vlpp

/-- Operation.h 225-229. -/
structure CallList (W α : Type) : Type 1 where
  A : CallAtor W α
  prototype : A.σ

namespace CallList
variable {W α β ι : Type}

/-- go on after a call -/
def andThen {W : Type} {α β : Type _} (r : Option (Outcome W α)) (k : α → W → Option (Outcome W β)) : Option (Outcome W β) :=
  match r with
  | some (.ok x w) => k x w
  | some (.err w) => some (.err w)
  | some .fault => some .fault
  | none => none

/-- a result, or an Error -/
def ofOption {β : Type _} (o : Option β) (w : W) : Option (Outcome W β) :=
  match o with
  | some b => some (.ok b w)
  | none => some (.err w)

/-- Operation.h 230-240 `xs()`, 309-312 `CreateEnumerator`. -/
def create (L : CallList W α) : Option L.A.σ := L.A.clone L.prototype

/-- Operation.h 260-263 `LazyList(const IEnumerable<T>&)`, 962 `From`; 284-288 `LazyList(Ptr<TContainer>)`. -/
def ofList (xs : List α) : CallList W α := ⟨.list xs, Ator.listStart⟩

/-- Operation.h 290-293 `LazyList()`. -/
def empty : CallList W α := ⟨.empty, ()⟩

/-! ## Enumeration -/

/-- `while (enumerator->Next()) { acc = body(acc, enumerator->Current()); }`; the range-based `for` loop over a lazy list
(OperationForEach.h 25-75) makes the same calls. -/
def foldLoop (A : CallAtor W α) (body : β → α → Cpp W β) (acc : β) (s : A.σ) (w : W) : Option (Outcome W β) :=
  match A.next s w with
  | none => none
  | some (.ok true (s', w')) =>
    match A.current s' with
    | none => some .fault
    | some x =>
      match body acc x w' with
      | .ok acc' w'' => foldLoop A body acc' s' w''
      | .err w'' => some (.err w'')
      | .fault => some .fault
  | some (.ok false (_, w')) => some (.ok acc w')
  | some (.err (_, w')) => some (.err w')
  | some .fault => some .fault
partial_fixpoint

/-- Operation.h 517-525 `Aggregate(init, f)`; the `for` loop. -/
def aggregateInit (L : CallList W α) (init : β) (f : β → α → Cpp W β) (w : W) : Option (Outcome W β) :=
  match L.create with
  | none => some (.err w)
  | some s => foldLoop L.A f init s w

/-- `CopyFrom(list, lazyList)`, OperationCopyFrom.h 91-103: clear the list, then add each element. -/
def toList (L : CallList W α) (w : W) : Option (Outcome W (List α)) := L.aggregateInit [] (fun l x => Cpp.pure' (l ++ [x])) w

/-- `auto enumerator = Ptr(CreateEnumerator()); enumerator->Next()`: the beginning of `Aggregate(f)`, `First`, `Last` and `IsEmpty` -/
def withFirst (L : CallList W α) (k : Bool → L.A.σ → W → Option (Outcome W β)) (w : W) : Option (Outcome W β) :=
  match L.create with
  | none => some (.err w)
  | some s =>
    match L.A.next s w with
    | none => none
    | some (.ok b (s', w')) => k b s' w'
    | some (.err (_, w')) => some (.err w')
    | some .fault => some .fault

/-- `enumerator->Current()` as the result of a function -/
def currentOf (A : CallAtor W α) (s : A.σ) (w : W) : Option (Outcome W α) :=
  match A.current s with
  | some x => some (.ok x w)
  | none => some .fault

/-- Operation.h 482-496 `Aggregate(f)`. -/
def aggregate (L : CallList W α) (f : α → α → Cpp W α) (w : W) : Option (Outcome W α) :=
  L.withFirst (fun b s w =>
    if b then andThen (currentOf L.A s w) (fun x w => foldLoop L.A f x s w) else some (.err w)) w

/-- Operation.h 595-603 `First()`. -/
def first (L : CallList W α) (w : W) : Option (Outcome W α) :=
  L.withFirst (fun b s w => if b then currentOf L.A s w else some (.err w)) w

/-- Operation.h 608-616 `First(defaultValue)`. -/
def firstOr (L : CallList W α) (defaultValue : α) (w : W) : Option (Outcome W α) :=
  L.withFirst (fun b s w => if b then currentOf L.A s w else some (.ok defaultValue w)) w

/-- Operation.h 620-636 `Last()`. -/
def last (L : CallList W α) (w : W) : Option (Outcome W α) :=
  L.withFirst (fun b s w =>
    if b then andThen (currentOf L.A s w) (fun x w => foldLoop L.A (fun _ y => Cpp.pure' y) x s w) else some (.err w)) w

/-- Operation.h 641-649 `Last(defaultValue)`. -/
def lastOr (L : CallList W α) (defaultValue : α) (w : W) : Option (Outcome W α) :=
  L.aggregateInit defaultValue (fun _ y => Cpp.pure' y) w

/-- Operation.h 653-662, the loop of `Count`; also OperationCopyFrom.h 70-74. -/
def countLoop (A : CallAtor W α) (n : Int) (s : A.σ) (w : W) : Option (Outcome W Int) :=
  match A.next s w with
  | none => none
  | some (.ok true (s', w')) => countLoop A (n + 1) s' w'
  | some (.ok false (_, w')) => some (.ok n w')
  | some (.err (_, w')) => some (.err w')
  | some .fault => some .fault
partial_fixpoint

/-- Operation.h 653-662 `Count`. -/
def count (L : CallList W α) (w : W) : Option (Outcome W Int) :=
  match L.create with
  | none => some (.err w)
  | some s => countLoop L.A 0 s w

/-- Operation.h 666-670 `IsEmpty`. -/
def isEmpty (L : CallList W α) (w : W) : Option (Outcome W Bool) := L.withFirst (fun b _ w => some (.ok (!b) w)) w

/-- List.h 431-449 `Array::Resize`: `fresh` is what the new elements are. -/
def resized (old : List α) (fresh : α) (n : Int) : List α :=
  old.take n.toNat ++ List.replicate (n.toNat - old.length) fresh

/-- OperationCopyFrom.h 79-83 `SetOp::Set`, `index++`; `Set` checks the index (Interfaces.h 212-215, List.h 399-404). -/
def setNext (p : Int × List α) (x : α) : Cpp W (Int × List α) := fun w =>
  if 0 ≤ p.1 ∧ p.1 < p.2.length then .ok (p.1 + 1, p.2.set p.1.toNat x) w else .err w

/-- `CopyFrom(array, lazyList)`, OperationCopyFrom.h 62-89 (an array can be resized, a lazy list cannot be indexed): count the elements,
resize the array, then enumerate again.  The result is the content of the array. -/
def toArray (L : CallList W α) (old : List α) (fresh : α) (w : W) : Option (Outcome W (List α)) :=
  andThen (L.count w) fun n w =>
    andThen (L.aggregateInit (0, resized old fresh n) setNext w) fun r w => some (.ok r.2 w)

/-! ## Operators -/

/-- Operation.h 328-331 `Select`. -/
def select (L : CallList W α) (f : α → Cpp W β) (w : W) : Option (Outcome W (CallList W β)) :=
  ofOption (L.create.map fun s => ⟨.select L.A f, (s, none)⟩) w

/-- Operation.h 346-349 `Where`. -/
def where' (L : CallList W α) (f : α → Cpp W Bool) (w : W) : Option (Outcome W (CallList W α)) :=
  ofOption (L.create.map fun s => ⟨.where' L.A f, (s, -1)⟩) w

/-- Operation.h 686-689 `Concat`. -/
def concat (L M : CallList W α) (w : W) : Option (Outcome W (CallList W α)) :=
  ofOption (L.create.bind fun s => M.create.map fun t => ⟨.concat L.A M.A, ⟨s, t, -1, false⟩⟩) w

/-- Operation.h 787-791 `Pairwise`. -/
def pairwise (L : CallList W α) (M : CallList W β) (w : W) : Option (Outcome W (CallList W (α × β))) :=
  ofOption (L.create.bind fun s => M.create.map fun t => ⟨.pairwise L.A M.A, ⟨s, t, none⟩⟩) w

/-- Operation.h 702-705 `Take`. -/
def take (L : CallList W α) (count : Int) (w : W) : Option (Outcome W (CallList W α)) :=
  ofOption (L.create.map fun s => ⟨.take L.A count, s⟩) w

/-- Operation.h 718-721 `Skip`. -/
def skip (L : CallList W α) (count : Int) (w : W) : Option (Outcome W (CallList W α)) :=
  ofOption (L.create.map fun s => ⟨.skip L.A count, (s, false)⟩) w

/-- Operation.h 734-737 `Repeat`. -/
def repeat' (L : CallList W α) (count : Int) (w : W) : Option (Outcome W (CallList W α)) :=
  ofOption (L.create.map fun s => ⟨.repeat' L.A count, ⟨s, -1, 0⟩⟩) w

/-- Operation.h 749-752 `Distinct`. -/
def distinct (L : CallList W α) (cmp : α → α → Option Ordering) (w : W) : Option (Outcome W (CallList W α)) :=
  ofOption (L.create.map fun s => ⟨.distinct L.A cmp, ⟨s, [], none⟩⟩) w

/-- Operation.h 764-767 `Reverse`; OperationSequence.h 286-290 (`CopyFrom(cache, enumerable)`). -/
def reverse (L : CallList W α) (w : W) : Option (Outcome W (CallList W α)) :=
  andThen (L.toList w) fun xs w => some (.ok ⟨.reverse xs, (-1 : Int)⟩ w)

/-- Operation.h 805-808, 822-825 `Intersect`, `Except`; OperationSet.h 31-36 (`CopyFrom(reference, remains)` into a sorted list). -/
def intersectExcept (L M : CallList W α) (cmp : α → α → Option Ordering) (intersect : Bool) (w : W) :
    Option (Outcome W (CallList W α)) :=
  match L.create with
  | none => some (.err w)
  | some s =>
    andThen (M.aggregateInit [] (fun l x => CallAtor.ofOption (Ator.addSorted cmp l [x])) w) fun reference w =>
      distinct ⟨.intersectExcept L.A cmp intersect, ⟨s, reference, -1⟩⟩ cmp w

/-- Operation.h 861-877 `Evaluate`. -/
def evaluate (L : CallList W α) (forceCopy : Bool) (w : W) : Option (Outcome W (CallList W α)) :=
  if !forceCopy && L.A.evaluated then some (.ok L w)
  else andThen (L.toList w) fun xs w => some (.ok (ofList xs) w)

/-- Operation.h 899-904 `SelectMany`: the loop of `Select(f).Aggregate(LazyList<U>(), Concat)`.  Simplification: `Select` and `Aggregate`
are one loop here: call `f` after `Next`, then `Concat`. -/
def manyLoop (A : CallAtor W α) (f : α → W → Option (Outcome W (CallList W β))) (acc : CallList W β) (s : A.σ) (w : W) :
    Option (Outcome W (CallList W β)) :=
  match A.next s w with
  | none => none
  | some (.ok true (s', w')) =>
    match A.current s' with
    | none => some .fault
    | some x =>
      match f x w' with
      | some (.ok b w'') =>
        match acc.concat b w'' with
        | some (.ok acc' w3) => manyLoop A f acc' s' w3
        | some (.err w3) => some (.err w3)
        | some .fault => some .fault
        | none => none
      | some (.err w'') => some (.err w'')
      | some .fault => some .fault
      | none => none
  | some (.ok false (_, w')) => some (.ok acc w')
  | some (.err (_, w')) => some (.err w')
  | some .fault => some .fault
partial_fixpoint

/-- Operation.h 899-904 `SelectMany`. -/
def selectMany (L : CallList W α) (f : α → W → Option (Outcome W (CallList W β))) (w : W) : Option (Outcome W (CallList W β)) :=
  match L.create with
  | none => some (.err w)
  | some s => manyLoop L.A f empty s w

/-- Operation.h 539-543 `All`. -/
def all (L : CallList W α) (f : α → Cpp W Bool) (w : W) : Option (Outcome W Bool) :=
  andThen (L.select f w) fun M w => M.aggregateInit true (fun a b => Cpp.pure' (a && b)) w

/-- Operation.h 557-561 `Any`. -/
def any (L : CallList W α) (f : α → Cpp W Bool) (w : W) : Option (Outcome W Bool) :=
  andThen (L.select f w) fun M w => M.aggregateInit false (fun a b => Cpp.pure' (a || b)) w

end CallList

/-- A program made of member functions of lazy lists; `build` makes the calls from the inside to the outside. -/
inductive CallPipe (W : Type) : Type → Type 1 where
  | list {α : Type} (xs : List α) : CallPipe W α
  | empty {α : Type} : CallPipe W α
  | select {α β : Type} (p : CallPipe W α) (f : α → Cpp W β) : CallPipe W β
  | where' {α : Type} (p : CallPipe W α) (f : α → Cpp W Bool) : CallPipe W α
  | concat {α : Type} (p q : CallPipe W α) : CallPipe W α
  | pairwise {α β : Type} (p : CallPipe W α) (q : CallPipe W β) : CallPipe W (α × β)
  | take {α : Type} (p : CallPipe W α) (n : Int) : CallPipe W α
  | skip {α : Type} (p : CallPipe W α) (n : Int) : CallPipe W α
  | repeat' {α : Type} (p : CallPipe W α) (n : Int) : CallPipe W α
  | distinct {α : Type} (p : CallPipe W α) (ord : α → α → Ordering) : CallPipe W α
  | reverse {α : Type} (p : CallPipe W α) : CallPipe W α
  | intersect {α : Type} (p q : CallPipe W α) (ord : α → α → Ordering) : CallPipe W α
  | except {α : Type} (p q : CallPipe W α) (ord : α → α → Ordering) : CallPipe W α
  /-- the function runs `f` and then builds the lazy list `q` that belongs to the result -/
  | selectMany {α β ι : Type} (p : CallPipe W α) (f : α → Cpp W ι) (q : ι → CallPipe W β) : CallPipe W β
  | evaluate {α : Type} (p : CallPipe W α) (forceCopy : Bool) : CallPipe W α

namespace CallPipe
variable {W : Type}
open CallList (andThen)

def build : {α : Type} → CallPipe W α → W → Option (Outcome W (CallList W α))
  | _, .list xs, w => some (.ok (.ofList xs) w)
  | _, .empty, w => some (.ok .empty w)
  | _, .select p f, w => andThen (p.build w) fun L w => L.select f w
  | _, .where' p f, w => andThen (p.build w) fun L w => L.where' f w
  | _, .concat p q, w => andThen (p.build w) fun L w => andThen (q.build w) fun M w => L.concat M w
  | _, .pairwise p q, w => andThen (p.build w) fun L w => andThen (q.build w) fun M w => L.pairwise M w
  | _, .take p n, w => andThen (p.build w) fun L w => L.take n w
  | _, .skip p n, w => andThen (p.build w) fun L w => L.skip n w
  | _, .repeat' p n, w => andThen (p.build w) fun L w => L.repeat' n w
  | _, .distinct p ord, w => andThen (p.build w) fun L w => L.distinct (fun a b => some (ord a b)) w
  | _, .reverse p, w => andThen (p.build w) fun L w => L.reverse w
  | _, .intersect p q ord, w => andThen (p.build w) fun L w => andThen (q.build w) fun M w =>
      L.intersectExcept M (fun a b => some (ord a b)) true w
  | _, .except p q ord, w => andThen (p.build w) fun L w => andThen (q.build w) fun M w =>
      L.intersectExcept M (fun a b => some (ord a b)) false w
  | _, .selectMany p f q, w => andThen (p.build w) fun L w => L.selectMany (fun x w =>
      match f x w with
      | .ok i w' => (q i).build w'
      | .err w' => some (.err w')
      | .fault => some .fault) w
  | _, .evaluate p forceCopy, w => andThen (p.build w) fun L w => L.evaluate forceCopy w

end CallPipe
end Vlpp
