import Verif.Model.AtorOps
import Verif.Model.Sort

/-!
# Model of `LazyList<T>`

Source/Collections/Operation.h 225-944.  A lazy list is its prototype enumerator.  A null prototype is represented by
an `EmptyEnumerator`, which is what `xs()` returns in this case (230-240).
Member functions that build a lazy list return `none` if an Error is raised while doing so (by cloning a prototype).
Functions that enumerate return `Option (Outcome Unit β)`; `none` means that the call does not return.
-/
set_option autoImplicit false
namespace Vlpp

/-- Operation.h 225-229. -/
structure LazyList.{u, v} (α : Type u) : Type (max u (v + 1)) where
  A : Ator.{u, v} α
  prototype : A.σ

namespace LazyList
universe u v u' v'
variable {α : Type u} {β : Type u'}

/-- Operation.h 230-240 `xs()`, 309-312 `CreateEnumerator`. -/
def create (L : LazyList.{u, v} α) : Option L.A.σ := L.A.clone L.prototype

/-! ## Construction -/

/-- Operation.h 260-263 `LazyList(const IEnumerable<T>&)`, 962 `From`: arrays, lists and sorted lists. -/
def ofList {α : Type} (xs : List α) : LazyList α := ⟨.list xs, Ator.listStart⟩

/-- 962 `From(dictionary)`. -/
def ofDict {κ ν : Type} (d : DictC κ ν) : LazyList (κ × ν) := ⟨.dict d, Ator.dictStart⟩

/-- 962 `From(group)`. -/
def ofGroup {κ ν : Type} (g : GroupC κ ν) : LazyList (κ × ν) := ⟨.group g, Ator.groupStart⟩

/-- Operation.h 982-1008 `From(begin, end)`, `From(items)`; OperationSequence.h 410-431. -/
def ofIter {α : Type} (xs : List α) : LazyList α := ⟨.iter xs, Ator.listStart⟩

/-- Operation.h 952-955 `Range`. -/
def range (start count : Int) : LazyList Int := ⟨.range start count, Ator.rangeStart start⟩

/-- Operation.h 290-293 `LazyList()`. -/
def empty : LazyList.{u, v} α := ⟨.empty, ⟨⟩⟩

/-- Operation.h 284-288 `LazyList(Ptr<TContainer>)` over a `List`; OperationEnumerable.h 124-167. -/
def ofContainer {α : Type} (xs : List α) : LazyList α := ⟨.list xs, Ator.listStart⟩

/-! ## Enumeration -/

/-- `while (enumerator->Next()) { acc = f(acc, enumerator->Current()); }`; `f` returns `none` to raise an Error.
The range-based `for` loop over a lazy list (OperationForEach.h 25-75) makes the same calls. -/
def foldLoop (A : Ator.{u, v} α) (f : β → α → Option β) (acc : β) (s : A.σ) : Option (Outcome Unit β) :=
  match A.next s with
  | none => none
  | some (.ok true s') =>
    match A.current s' with
    | none => some .fault
    | some x =>
      match f acc x with
      | none => some (.err ())
      | some acc' => foldLoop A f acc' s'
  | some (.ok false _) => some (.ok acc ())
  | some (.err _) => some (.err ())
  | some .fault => some .fault
partial_fixpoint

/-- Operation.h 517-525 `Aggregate(init, f)`, for an `f` that may raise an Error. -/
def aggregateInit? (L : LazyList.{u, v} α) (init : β) (f : β → α → Option β) : Option (Outcome Unit β) :=
  match L.create with
  | none => some (.err ())
  | some s => foldLoop L.A f init s

/-- Operation.h 517-525 `Aggregate(init, f)`. -/
def aggregateInit (L : LazyList.{u, v} α) (init : β) (f : β → α → β) : Option (Outcome Unit β) :=
  L.aggregateInit? init (fun b a => some (f b a))

/-- `CopyFrom(list, lazyList)`, OperationCopyFrom.h 91-103: clear the list, then add each element.  The result is the
content of the list. -/
def toList (L : LazyList.{u, v} α) : Option (Outcome Unit (List α)) := L.aggregateInit [] (fun l x => l ++ [x])

/-- the common beginning of `Aggregate(f)`, `First` and `Last`: create an enumerator and advance it once; `k` gets the
enumerator and what `Next` returned -/
def withFirst (L : LazyList.{u, v} α) (k : Bool → L.A.σ → Option (Outcome Unit β)) : Option (Outcome Unit β) :=
  match L.create with
  | none => some (.err ())
  | some s => (L.A.next s).bind fun r =>
    match r with
    | .ok b s' => k b s'
    | .err _ => some (.err ())
    | .fault => some .fault

/-- `enumerator->Current()` as the result of a function -/
def currentOf (A : Ator.{u, v} α) (s : A.σ) : Option (Outcome Unit α) :=
  match A.current s with
  | some x => some (.ok x ())
  | none => some .fault

/-- Operation.h 482-496 `Aggregate(f)`. -/
def aggregate (L : LazyList.{u, v} α) (f : α → α → α) : Option (Outcome Unit α) :=
  L.withFirst fun b s =>
    if b then
      match L.A.current s with
      | none => some .fault
      | some x => foldLoop L.A (fun b a => some (f b a)) x s
    else some (.err ())

/-- Operation.h 573-576 `Max`; `gt a b` is `a > b`. -/
def maximum (L : LazyList.{u, v} α) (gt : α → α → Bool) : Option (Outcome Unit α) :=
  L.aggregate (fun a b => if gt a b then a else b)

/-- Operation.h 588-591 `Min`; `lt a b` is `a < b`. -/
def minimum (L : LazyList.{u, v} α) (lt : α → α → Bool) : Option (Outcome Unit α) :=
  L.aggregate (fun a b => if lt a b then a else b)

/-- Operation.h 595-603 `First()`. -/
def first (L : LazyList.{u, v} α) : Option (Outcome Unit α) :=
  L.withFirst fun b s => if b then currentOf L.A s else some (.err ())

/-- Operation.h 608-616 `First(defaultValue)`. -/
def firstOr (L : LazyList.{u, v} α) (defaultValue : α) : Option (Outcome Unit α) :=
  L.withFirst fun b s => if b then currentOf L.A s else some (.ok defaultValue ())

/-- Operation.h 620-636 `Last()`. -/
def last (L : LazyList.{u, v} α) : Option (Outcome Unit α) :=
  L.withFirst fun b s =>
    if b then
      match L.A.current s with
      | none => some .fault
      | some x => foldLoop L.A (fun _ a => some a) x s
    else some (.err ())

/-- Operation.h 641-649 `Last(defaultValue)`. -/
def lastOr (L : LazyList.{u, v} α) (defaultValue : α) : Option (Outcome Unit α) :=
  L.aggregateInit defaultValue (fun _ a => a)

/-- Operation.h 653-662, the loop of `Count`. -/
def countLoop (A : Ator.{u, v} α) (n : Int) (s : A.σ) : Option (Outcome Unit Int) :=
  match A.next s with
  | none => none
  | some (.ok true s') => countLoop A (n + 1) s'
  | some (.ok false _) => some (.ok n ())
  | some (.err _) => some (.err ())
  | some .fault => some .fault
partial_fixpoint

/-- Operation.h 653-662 `Count`. -/
def count (L : LazyList.{u, v} α) : Option (Outcome Unit Int) :=
  match L.create with
  | none => some (.err ())
  | some s => countLoop L.A 0 s

/-- Operation.h 666-670 `IsEmpty`. -/
def isEmpty (L : LazyList.{u, v} α) : Option (Outcome Unit Bool) := L.withFirst fun b _ => some (.ok (!b) ())

/-- OperationEnumerable.h 191-209, the loop of `CompareEnumerable`; the result `none` is "unordered". -/
def compareLoop (A : Ator.{u, v} α) (B : Ator.{u', v'} β) (cmp : α → β → Option Ordering) (s : A.σ) (t : B.σ) :
    Option (Outcome Unit (Option Ordering)) :=
  match A.next s with
  | none => none
  | some (.ok a s') =>
    match B.next t with
    | none => none
    | some (.ok b t') =>
      if a && !b then some (.ok (some .gt) ())
      else if !a && b then some (.ok (some .lt) ())
      else if !a && !b then some (.ok (some .eq) ())
      else
        match A.current s', B.current t' with
        | some x, some y =>
          match cmp x y with
          | some .eq => compareLoop A B cmp s' t'
          | ordering => some (.ok ordering ())
        | _, _ => some .fault
    | some (.err _) => some (.err ())
    | some .fault => some .fault
  | some (.err _) => some (.err ())
  | some .fault => some .fault
partial_fixpoint

/-- OperationEnumerable.h 191-209 `CompareEnumerable`. -/
def compare (L : LazyList.{u, v} α) (M : LazyList.{u', v'} β) (cmp : α → β → Option Ordering) :
    Option (Outcome Unit (Option Ordering)) :=
  match L.create, M.create with
  | some s, some t => compareLoop L.A M.A cmp s t
  | _, _ => some (.err ())

/-! ## Operators -/

/-- Operation.h 328-331 `Select`, for a selector that may raise an Error. -/
def select? (L : LazyList.{u, v} α) (f : α → Option β) : Option (LazyList.{u', max v u'} β) :=
  L.create.map fun s => ⟨.select L.A f, (s, none)⟩

/-- Operation.h 328-331 `Select`. -/
def select (L : LazyList.{u, v} α) (f : α → β) : Option (LazyList.{u', max v u'} β) := L.select? (fun x => some (f x))

/-- Operation.h 346-349 `Where`; OperationWhere.h 28-33. -/
def where' (L : LazyList.{u, v} α) (p : α → Bool) : Option (LazyList.{u, v} α) :=
  L.create.map fun s => ⟨.where' L.A p, (s, -1)⟩

/-- Operation.h 686-689 `Concat`; OperationConcat.h 29-35. -/
def concat (L : LazyList.{u, v} α) (M : LazyList.{u, v'} α) : Option (LazyList.{u, max v v'} α) :=
  L.create.bind fun s => M.create.map fun t => ⟨.concat L.A M.A, ⟨s, t, -1, false⟩⟩

/-- Operation.h 787-791 `Pairwise`; OperationPair.h 28-33. -/
def pairwise (L : LazyList.{u, v} α) (M : LazyList.{u', v'} β) :
    Option (LazyList.{max u u', max u v u' v'} (α × β)) :=
  L.create.bind fun s => M.create.map fun t => ⟨.pairwise L.A M.A, ⟨s, t, none⟩⟩

/-- Operation.h 702-705 `Take`. -/
def take (L : LazyList.{u, v} α) (count : Int) : Option (LazyList.{u, v} α) :=
  L.create.map fun s => ⟨.take L.A count, s⟩

/-- Operation.h 718-721 `Skip`; OperationSequence.h 84-89. -/
def skip (L : LazyList.{u, v} α) (count : Int) : Option (LazyList.{u, v} α) :=
  L.create.map fun s => ⟨.skip L.A count, (s, false)⟩

/-- Operation.h 734-737 `Repeat`; OperationSequence.h 152-158. -/
def repeat' (L : LazyList.{u, v} α) (count : Int) : Option (LazyList.{u, v} α) :=
  L.create.map fun s => ⟨.repeat' L.A count, ⟨s, -1, 0⟩⟩

/-- Operation.h 539-543 `All`. -/
def all (L : LazyList.{u, v} α) (f : α → Bool) : Option (Outcome Unit Bool) :=
  match L.select f with
  | none => some (.err ())
  | some M => M.aggregateInit true (fun a b => a && b)

/-- Operation.h 557-561 `Any`. -/
def any (L : LazyList.{u, v} α) (f : α → Bool) : Option (Outcome Unit Bool) :=
  match L.select f with
  | none => some (.err ())
  | some M => M.aggregateInit false (fun a b => a || b)

section ordered
variable {α κ : Type}

/-- Operation.h 396-408 `OrderBy`: copy to a list, sort it in place, enumerate it. -/
def orderBy (L : LazyList.{0, v} α) (cmp : α → α → Option Ordering) : Option (Outcome Unit (LazyList.{0, 0} α)) :=
  L.toList.bind fun r =>
    match r with
    | .ok xs _ =>
      if xs.length > 0 then
        (QSort.sort cmp 0 xs.length 0 xs).map fun r =>
          match r with
          | .ok _ ys => .ok (ofContainer ys) ()
          | .err _ => .err ()
          | .fault => .fault
      else some (.ok (ofContainer xs) ())
    | .err _ => some (.err ())
    | .fault => some .fault

/-- Operation.h 423-435 `OrderByKey`. -/
def orderByKey (L : LazyList.{0, v} α) (f : α → κ) (cmp : κ → κ → Option Ordering) :
    Option (Outcome Unit (LazyList.{0, 0} α)) := L.orderBy (fun a b => cmp (f a) (f b))

/-- Operation.h 447-459 `OrderBySelf`; `cmp` is `<=>` of the element type. -/
def orderBySelf (L : LazyList.{0, v} α) (cmp : α → α → Option Ordering) :
    Option (Outcome Unit (LazyList.{0, 0} α)) := L.orderBy cmp

/-- Operation.h 749-752 `Distinct`; OperationSequence.h 221-224. -/
def distinct (L : LazyList.{0, v} α) (cmp : α → α → Option Ordering) : Option (LazyList.{0, v} α) :=
  L.create.map fun s => ⟨.distinct L.A cmp, ⟨s, [], none⟩⟩

/-- Operation.h 764-767 `Reverse`; OperationSequence.h 286-290 (`CopyFrom(cache, enumerable)`). -/
def reverse (L : LazyList.{0, v} α) : Option (Outcome Unit (LazyList.{0, 0} α)) :=
  L.toList.map fun r =>
    match r with
    | .ok xs _ => .ok ⟨.reverse, (xs, -1)⟩ ()
    | .err _ => .err ()
    | .fault => .fault

/-- Operation.h 805-808, 822-825 without the `Distinct`: `LazyList<T>(new IntersectExceptEnumerator<T, ...>(xs(), remains))`;
OperationSet.h 31-36 (`CopyFrom(reference, remains)` into a sorted list). -/
def intersectExcept (L : LazyList.{0, v} α) (M : LazyList.{0, v'} α) (cmp : α → α → Option Ordering)
    (intersect : Bool) : Option (Outcome Unit (LazyList.{0, v} α)) :=
  match L.create with
  | none => some (.err ())
  | some s =>
    (M.aggregateInit? [] (fun l x => Ator.addSorted cmp l [x])).map fun r =>
      match r with
      | .ok reference _ => .ok ⟨.intersectExcept L.A cmp intersect, ⟨s, reference, -1⟩⟩ ()
      | .err _ => .err ()
      | .fault => .fault

/-- `f().Distinct()` for a function `f` that may raise an Error -/
def thenDistinct (r : Option (Outcome Unit (LazyList.{0, v} α))) (cmp : α → α → Option Ordering) :
    Option (Outcome Unit (LazyList.{0, v} α)) :=
  r.map fun r =>
    match r with
    | .ok L _ =>
      match L.distinct cmp with
      | some L' => .ok L' ()
      | none => .err ()
    | .err _ => .err ()
    | .fault => .fault

/-- Operation.h 805-808 `Intersect`. -/
def intersect (L : LazyList.{0, v} α) (M : LazyList.{0, v'} α) (cmp : α → α → Option Ordering) :
    Option (Outcome Unit (LazyList.{0, v} α)) := thenDistinct (L.intersectExcept M cmp true) cmp

/-- Operation.h 822-825 `Except`. -/
def except (L : LazyList.{0, v} α) (M : LazyList.{0, v'} α) (cmp : α → α → Option Ordering) :
    Option (Outcome Unit (LazyList.{0, v} α)) := thenDistinct (L.intersectExcept M cmp false) cmp

/-- Operation.h 839-842 `Union`. -/
def union (L : LazyList.{0, v} α) (M : LazyList.{0, v'} α) (cmp : α → α → Option Ordering) :
    Option (LazyList.{0, max v v'} α) := (L.concat M).bind fun N => N.distinct cmp

/-- Operation.h 861-877 `Evaluate`.  (A lazy list with a null prototype is returned as it is; the copy made here with
`forceCopy` has the same content.) -/
def evaluate (L : LazyList.{0, 0} α) (forceCopy : Bool) : Option (Outcome Unit (LazyList.{0, 0} α)) :=
  if !forceCopy && L.A.evaluated then some (.ok L ())
  else
    L.toList.map fun r =>
      match r with
      | .ok xs _ => .ok (ofContainer xs) ()
      | .err _ => .err ()
      | .fault => .fault

/-- Operation.h 929-943 `GroupBy`; `eq a b` is `a == b` of the key type. -/
def groupBy (L : LazyList.{0, v} α) (f : α → κ) (cmp : κ → κ → Option Ordering) (eq : κ → κ → Bool) :
    Option (LazyList.{v + 1, v + 1} (κ × LazyList.{0, v} α)) :=
  ((L.select f).bind fun K => K.distinct cmp).bind fun K =>
    K.select? fun k => (L.where' (fun t => eq k (f t))).map fun M => (k, M)
end ordered

/-- Operation.h 899-904 `SelectMany`, for a function that may raise an Error. -/
def selectMany? (L : LazyList.{u, v} α) (f : α → Option (LazyList.{u', v'} β)) :
    Option (Outcome Unit (LazyList.{u', v'} β)) :=
  match L.select? f with
  | none => some (.err ())
  | some M => M.aggregateInit? (empty : LazyList.{u', v'} β) (fun a b => a.concat b)

/-- Operation.h 899-904 `SelectMany`. -/
def selectMany (L : LazyList.{u, v} α) (f : α → LazyList.{u', v'} β) :
    Option (Outcome Unit (LazyList.{u', v'} β)) := L.selectMany? (fun x => some (f x))

/-- Operation.h 275-279: move construction leaves the source without a prototype. The result is (target, source). -/
def move (L : LazyList.{u, v} α) : LazyList.{u, v} α × LazyList.{u, v} α := (L, empty)

end LazyList
end Vlpp
