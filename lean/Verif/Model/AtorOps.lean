import Verif.Model.Ator

/-!
# Model of the enumerators behind `LazyList<T>` operators

Source/Collections/OperationSelect.h, OperationWhere.h, OperationConcat.h, OperationPair.h, OperationSequence.h,
OperationSet.h.  Every operator takes the class of the enumerator(s) it owns; `inner` is the owned object.
Selectors and predicates are pure; a selector may raise an Error (`none`), a predicate is total (simplification).
`cmp a b` is `a <=> b` of the element type, `none` if unordered.
-/
set_option autoImplicit false
namespace Vlpp
namespace Ator
universe u v u' v'
variable {α : Type u} {β : Type u'}

/-- pass on the result of a call on the owned enumerator, wrapping its new state -/
def wrap {σ : Type v} {τ : Type v'} {β : Type} (f : σ → τ) : Outcome σ β → Outcome τ β
  | .ok b s => .ok b (f s)
  | .err s => .err (f s)
  | .fault => .fault

/-- `while (enumerator->Next()) { if (test(enumerator->Current())) return true; } return false;`
the loop used by `Where`, `Distinct`, `Intersect` and `Except`.  `test x = none`: the test raises an Error. -/
def nextWhere (A : Ator.{u, v} α) (test : α → Option Bool) (s : A.σ) : Option (Outcome A.σ Bool) := do
  match ← A.next s with
  | .ok true s' =>
    match A.current s' with
    | none => some .fault
    | some x =>
      match test x with
      | none => some (.err s')
      | some true => some (.ok true s')
      | some false => nextWhere A test s'
  | .ok false s' => some (.ok false s')
  | .err s' => some (.err s')
  | .fault => some .fault
partial_fixpoint

/-- OperationSelect.h 22-73 `SelectEnumerator`; the state is (enumerator, current). -/
def select (A : Ator.{u, v} α) (f : α → Option β) : Ator.{u', max v u'} β where
  σ := A.σ × Option β
  clone := fun (s, cur) => (A.clone s).map (fun s' => (s', cur))
  current := fun (_, cur) => cur
  index := fun (s, _) => A.index s
  next := fun (s, cur) => (A.next s).map fun r =>
    match r with
    | .ok true s' =>
      match A.current s' with
      | none => .fault
      | some x =>
        match f x with
        | none => .err (s', cur)
        | some y => .ok true (s', some y)
    | .ok false s' => .ok false (s', cur)
    | .err s' => .err (s', cur)
    | .fault => .fault
  reset := fun (s, cur) => wrap (fun s' => (s', cur)) (A.reset s)

/-- OperationWhere.h 20-73 `WhereEnumerator`; the state is (enumerator, index). -/
def where' (A : Ator.{u, v} α) (p : α → Bool) : Ator.{u, v} α where
  σ := A.σ × Int
  clone := fun (s, i) => (A.clone s).map (fun s' => (s', i))
  current := fun (s, _) => A.current s
  index := fun (_, i) => i
  next := fun (s, i) => (nextWhere A (fun x => some (p x)) s).map fun r =>
    match r with
    | .ok true s' => .ok true (s', i + 1)
    | .ok false s' => .ok false (s', i)
    | .err s' => .err (s', i)
    | .fault => .fault
  reset := fun (s, i) =>
    match A.reset s with
    | .ok _ s' => .ok () (s', -1)
    | .err s' => .err (s', i)
    | .fault => .fault

/-- Data members of `ConcatEnumerator`, OperationConcat.h 24-27. -/
structure ConcatState (σ : Type v) (τ : Type v') where
  enumerator1 : σ
  enumerator2 : τ
  index : Int
  turned : Bool

/-- OperationConcat.h 21-98 `ConcatEnumerator`. -/
def concat (A : Ator.{u, v} α) (B : Ator.{u, v'} α) : Ator.{u, max v v'} α where
  σ := ConcatState A.σ B.σ
  clone := fun s =>
    (A.clone s.enumerator1).bind fun a => (B.clone s.enumerator2).map fun b => ⟨a, b, s.index, s.turned⟩
  current := fun s => if s.turned then B.current s.enumerator2 else A.current s.enumerator1
  index := fun s => s.index
  next := fun s =>
    let i := s.index + 1
    if s.turned then
      (B.next s.enumerator2).map (wrap fun b => ⟨s.enumerator1, b, i, true⟩)
    else
      (A.next s.enumerator1).bind fun r =>
        match r with
        | .ok true a => some (.ok true ⟨a, s.enumerator2, i, false⟩)
        | .ok false a => (B.next s.enumerator2).map (wrap fun b => ⟨a, b, i, true⟩)
        | .err a => some (.err ⟨a, s.enumerator2, i, false⟩)
        | .fault => some .fault
  reset := fun s =>
    match A.reset s.enumerator1 with
    | .ok _ a =>
      match B.reset s.enumerator2 with
      | .ok _ b => .ok () ⟨a, b, -1, false⟩
      | .err b => .err ⟨a, b, s.index, s.turned⟩
      | .fault => .fault
    | .err a => .err ⟨a, s.enumerator2, s.index, s.turned⟩
    | .fault => .fault
  evaluated := A.evaluated && B.evaluated

/-- Data members of `PairwiseEnumerator`, OperationPair.h 24-26. -/
structure PairState (σ : Type v) (τ : Type v') (α : Type u) (β : Type u') where
  enumerator1 : σ
  enumerator2 : τ
  current : Option (α × β)

/-- OperationPair.h 21-79 `PairwiseEnumerator`. -/
def pairwise (A : Ator.{u, v} α) (B : Ator.{u', v'} β) : Ator.{max u u', max u v u' v'} (α × β) where
  σ := PairState A.σ B.σ α β
  clone := fun s =>
    (A.clone s.enumerator1).bind fun a => (B.clone s.enumerator2).map fun b => ⟨a, b, s.current⟩
  current := fun s => s.current
  index := fun s => A.index s.enumerator1
  next := fun s =>
    (A.next s.enumerator1).bind fun r =>
      match r with
      | .ok true a =>
        (B.next s.enumerator2).map fun r =>
          match r with
          | .ok true b =>
            match A.current a, B.current b with
            | some x, some y => .ok true ⟨a, b, some (x, y)⟩
            | _, _ => .fault
          | .ok false b => .ok false ⟨a, b, s.current⟩
          | .err b => .err ⟨a, b, s.current⟩
          | .fault => .fault
      | .ok false a => some (.ok false ⟨a, s.enumerator2, s.current⟩)
      | .err a => some (.err ⟨a, s.enumerator2, s.current⟩)
      | .fault => some .fault
  reset := fun s =>
    match A.reset s.enumerator1 with
    | .ok _ a =>
      match B.reset s.enumerator2 with
      | .ok _ b => .ok () ⟨a, b, s.current⟩
      | .err b => .err ⟨a, b, s.current⟩
      | .fault => .fault
    | .err a => .err ⟨a, s.enumerator2, s.current⟩
    | .fault => .fault
  evaluated := A.evaluated && B.evaluated

/-- OperationSequence.h 23-70 `TakeEnumerator`. -/
def take (A : Ator.{u, v} α) (count : Int) : Ator.{u, v} α where
  σ := A.σ
  clone := A.clone
  current := A.current
  index := A.index
  next := fun s => if A.index s ≥ count - 1 then some (.ok false s) else A.next s
  reset := A.reset
  evaluated := A.evaluated

/-- OperationSequence.h 116-122: the loop of `SkipEnumerator::Next`; the result is false if it was left by
`return false`. -/
def skipLoop (A : Ator.{u, v} α) : Nat → A.σ → Option (Outcome A.σ Bool)
  | 0, s => some (.ok true s)
  | n + 1, s => (A.next s).bind fun r =>
    match r with
    | .ok true s' => skipLoop A n s'
    | .ok false s' => some (.ok false s')
    | .err s' => some (.err s')
    | .fault => some .fault

/-- OperationSequence.h 77-137 `SkipEnumerator`; the state is (enumerator, skipped). -/
def skip (A : Ator.{u, v} α) (count : Int) : Ator.{u, v} α where
  σ := A.σ × Bool
  clone := fun (s, skipped) => (A.clone s).map (fun s' => (s', skipped))
  current := fun (s, _) => A.current s
  index := fun (s, _) => A.index s - count
  next := fun (s, skipped) =>
    if skipped then (A.next s).map (wrap fun s' => (s', true))
    else
      (skipLoop A count.toNat s).bind fun r =>
        match r with
        | .ok true s' => (A.next s').map (wrap fun s'' => (s'', true))
        | .ok false s' => some (.ok false (s', true))
        | .err s' => some (.err (s', true))
        | .fault => some .fault
  reset := fun (s, skipped) =>
    match A.reset s with
    | .ok _ s' => .ok () (s', false)
    | .err s' => .err (s', skipped)
    | .fault => .fault
  evaluated := A.evaluated

/-- Data members of `RepeatEnumerator`, OperationSequence.h 147-150 (without `count`). -/
structure RepeatState (σ : Type v) where
  enumerator : σ
  index : Int
  repeatedCount : Int

/-- OperationSequence.h 180-193 `RepeatEnumerator::Next`. -/
def repeatNext (A : Ator.{u, v} α) (count : Int) (s : RepeatState A.σ) : Option (Outcome (RepeatState A.σ) Bool) :=
  if s.repeatedCount < count then do
    match ← A.next s.enumerator with
    | .ok true e => some (.ok true ⟨e, s.index + 1, s.repeatedCount⟩)
    | .ok false e =>
      match A.reset e with
      | .ok _ e => repeatNext A count ⟨e, s.index, s.repeatedCount + 1⟩
      | .err e => some (.err ⟨e, s.index, s.repeatedCount + 1⟩)
      | .fault => some .fault
    | .err e => some (.err ⟨e, s.index, s.repeatedCount⟩)
    | .fault => some .fault
  else some (.ok false s)
partial_fixpoint

/-- OperationSequence.h 144-206 `RepeatEnumerator`. -/
def repeat' (A : Ator.{u, v} α) (count : Int) : Ator.{u, v} α where
  σ := RepeatState A.σ
  clone := fun s => (A.clone s.enumerator).map (fun e => ⟨e, s.index, s.repeatedCount⟩)
  current := fun s => A.current s.enumerator
  index := fun s => s.index
  next := repeatNext A count
  reset := fun s =>
    match A.reset s.enumerator with
    | .ok _ e => .ok () ⟨e, -1, 0⟩
    | .err e => .err ⟨e, s.index, s.repeatedCount⟩
    | .fault => .fault
  evaluated := A.evaluated

/-- OperationEnumerable.h 211-227 `SortedListOperations<T>::Contains`; `none`: an Error is raised. -/
def sortedContains {α : Type} (cmp : α → α → Option Ordering) (items : List α) (x : α) : Option Bool :=
  valueOf (SortedSeq.contains cmp x items)

/-- `CopyFrom(sortedList, ...)`: OperationCopyFrom.h 45-60, 88-103; `AppendValue` is `SortedList::Add`.  The elements
are added one after another to the sorted list `acc`. -/
def addSorted {α : Type} (cmp : α → α → Option Ordering) : List α → List α → Option (List α)
  | acc, [] => some acc
  | acc, x :: xs =>
    match SortedSeq.add cmp id x acc with
    | .ok _ acc' => addSorted cmp acc' xs
    | _ => none

/-- Data members of `DistinctEnumerator`, OperationSequence.h 216-219. -/
structure DistinctState (σ : Type v) (α : Type) where
  enumerator : σ
  distinct : List α
  lastValue : Option α

/-- OperationSequence.h 213-273 `DistinctEnumerator`. -/
def distinct {α : Type} (A : Ator.{0, v} α) (cmp : α → α → Option Ordering) : Ator.{0, v} α where
  σ := DistinctState A.σ α
  clone := fun s => (A.clone s.enumerator).bind fun e => (addSorted cmp [] s.distinct).map fun d => ⟨e, d, s.lastValue⟩
  current := fun s => s.lastValue
  index := fun s => (s.distinct.length : Int) - 1
  next := fun s =>
    (nextWhere A (fun x => (sortedContains cmp s.distinct x).map (! ·)) s.enumerator).map fun r =>
      match r with
      | .ok true e =>
        match A.current e with
        | none => .fault
        | some x =>
          match SortedSeq.add cmp id x s.distinct with
          | .ok _ d => .ok true ⟨e, d, some x⟩
          | .err d => .err ⟨e, d, some x⟩
          | .fault => .fault
      | .ok false e => .ok false ⟨e, s.distinct, s.lastValue⟩
      | .err e => .err ⟨e, s.distinct, s.lastValue⟩
      | .fault => .fault
  reset := fun s =>
    match A.reset s.enumerator with
    | .ok _ e => .ok () ⟨e, [], s.lastValue⟩
    | .err e => .err ⟨e, s.distinct, s.lastValue⟩
    | .fault => .fault

/-- OperationSequence.h 280-332 `ReverseEnumerator`; the state is (cache, index).  Simplification: `Clone` copies the
cache by `CopyFrom` between lists, which yields the same sequence (C57). -/
def reverse {α : Type} : Ator α where
  σ := List α × Int
  clone := fun (cache, i) => some (cache, i)
  current := fun (cache, i) => valueOf (SeqList.get ((cache.length : Int) - 1 - i) cache)
  index := fun (_, i) => i
  next := fun (cache, i) => some (.ok (decide (i + 1 < cache.length)) (cache, i + 1))
  reset := fun (cache, _) => .ok () (cache, -1)
  evaluated := true

/-- Data members of `IntersectExceptEnumerator`, OperationSet.h 26-29. -/
structure SetState (σ : Type v) (α : Type) where
  enumerator : σ
  reference : List α
  index : Int

/-- OperationSet.h 23-83 `IntersectExceptEnumerator<T, Intersect>`. -/
def intersectExcept {α : Type} (A : Ator.{0, v} α) (cmp : α → α → Option Ordering) (intersect : Bool) :
    Ator.{0, v} α where
  σ := SetState A.σ α
  clone := fun s => (A.clone s.enumerator).bind fun e => (addSorted cmp [] s.reference).map fun d => ⟨e, d, s.index⟩
  current := fun s => A.current s.enumerator
  index := fun s => s.index
  next := fun s =>
    (nextWhere A (fun x => (sortedContains cmp s.reference x).map (· == intersect)) s.enumerator).map fun r =>
      match r with
      | .ok true e => .ok true ⟨e, s.reference, s.index + 1⟩
      | .ok false e => .ok false ⟨e, s.reference, s.index⟩
      | .err e => .err ⟨e, s.reference, s.index⟩
      | .fault => .fault
  reset := fun s =>
    match A.reset s.enumerator with
    | .ok _ e => .ok () ⟨e, s.reference, -1⟩
    | .err e => .err ⟨e, s.reference, s.index⟩
    | .fault => .fault

end Ator
end Vlpp
