import Verif.Model.AtorOps

/-!
# Model of the enumerators behind `LazyList<T>` operators, with functions that do something

The same classes as in Model/AtorOps.lean.  There the functions given to `Select` and `Where` are pure; here they work on a world `W`: they
may change it, depend on it, and throw.  Only `Next` calls them: the other virtual functions of the classes have no access to the world
because their code does not mention the functions.

Simplifications: as in Model/AtorOps.lean; comparisons of elements (`Distinct`, `Intersect`, `Except`) do not touch the world.
-/
set_option autoImplicit false
namespace Vlpp

/-- `IEnumerator<T>`, Interfaces.h 33-66. -/
structure CallAtor (W α : Type) : Type 1 where
  /-- the data members -/
  σ : Type
  /-- `Clone()`; `none`: an Error is raised -/
  clone : σ → Option σ
  /-- `Current()`; `none`: an Error is raised or there is no value -/
  current : σ → Option α
  /-- `Index()` -/
  index : σ → Int
  /-- `Next()`; `none`: the call does not return -/
  next : σ → W → Option (Outcome (σ × W) Bool)
  /-- `Reset()` -/
  reset : σ → σ
  /-- `Evaluated()` -/
  evaluated : Bool := false

namespace CallAtor
variable {W α β : Type}
open Ator (ConcatState PairState RepeatState DistinctState SetState)

/-- pass on the result of a call on the owned enumerator, wrapping its new state -/
def wrap {σ τ β : Type} (f : σ → τ) : Outcome (σ × W) β → Outcome (τ × W) β
  | .ok b (s, w) => .ok b (f s, w)
  | .err (s, w) => .err (f s, w)
  | .fault => .fault

/-- List.h 220-263 `ArrayBase::Enumerator`; the same code as `ContainerEnumerator`, OperationEnumerable.h 124-167. -/
def list (xs : List α) : CallAtor W α where
  σ := Int
  clone := fun i => some i
  current := fun i => Ator.valueOf (SeqList.get i xs)
  index := fun i => i
  next := fun i w => some (.ok (decide (i + 1 ≥ 0 ∧ i + 1 < xs.length)) (i + 1, w))
  reset := fun _ => -1
  evaluated := true

/-- OperationEnumerable.h 22-52 `EmptyEnumerator`. -/
def empty : CallAtor W α where
  σ := Unit
  clone := fun s => some s
  current := fun _ => none
  index := fun _ => -1
  next := fun s w => some (.ok false (s, w))
  reset := fun s => s
  evaluated := true

/-- OperationSelect.h 22-73 `SelectEnumerator`; the state is (enumerator, current). -/
def select (A : CallAtor W α) (f : α → Cpp W β) : CallAtor W β where
  σ := A.σ × Option β
  clone := fun (s, cur) => (A.clone s).map (fun s' => (s', cur))
  current := fun (_, cur) => cur
  index := fun (s, _) => A.index s
  next := fun (s, cur) w => (A.next s w).map fun r =>
    match r with
    | .ok true (s', w') =>
      match A.current s' with
      | none => .fault
      | some x =>
        match f x w' with
        | .ok y w'' => .ok true ((s', some y), w'')
        | .err w'' => .err ((s', cur), w'')
        | .fault => .fault
    | .ok false (s', w') => .ok false ((s', cur), w')
    | .err (s', w') => .err ((s', cur), w')
    | .fault => .fault
  reset := fun (s, cur) => (A.reset s, cur)

/-- OperationWhere.h 55-66, OperationSequence.h 253-266, OperationSet.h 65-76:
`while (enumerator->Next()) { if (test(enumerator->Current())) return true; } return false;` -/
def nextWhere (A : CallAtor W α) (test : α → Cpp W Bool) (s : A.σ) (w : W) : Option (Outcome (A.σ × W) Bool) := do
  match ← A.next s w with
  | .ok true (s', w') =>
    match A.current s' with
    | none => some .fault
    | some x =>
      match test x w' with
      | .ok true w'' => some (.ok true (s', w''))
      | .ok false w'' => nextWhere A test s' w''
      | .err w'' => some (.err (s', w''))
      | .fault => some .fault
  | .ok false (s', w') => some (.ok false (s', w'))
  | .err (s', w') => some (.err (s', w'))
  | .fault => some .fault
partial_fixpoint

/-- OperationWhere.h 20-73 `WhereEnumerator`; the state is (enumerator, index). -/
def where' (A : CallAtor W α) (f : α → Cpp W Bool) : CallAtor W α where
  σ := A.σ × Int
  clone := fun (s, i) => (A.clone s).map (fun s' => (s', i))
  current := fun (s, _) => A.current s
  index := fun (_, i) => i
  next := fun (s, i) w => (nextWhere A f s w).map fun r =>
    match r with
    | .ok true (s', w') => .ok true ((s', i + 1), w')
    | .ok false (s', w') => .ok false ((s', i), w')
    | .err (s', w') => .err ((s', i), w')
    | .fault => .fault
  reset := fun (s, _) => (A.reset s, -1)

/-- OperationConcat.h 21-98 `ConcatEnumerator`. -/
def concat (A B : CallAtor W α) : CallAtor W α where
  σ := ConcatState A.σ B.σ
  clone := fun s =>
    (A.clone s.enumerator1).bind fun a => (B.clone s.enumerator2).map fun b => ⟨a, b, s.index, s.turned⟩
  current := fun s => if s.turned then B.current s.enumerator2 else A.current s.enumerator1
  index := fun s => s.index
  next := fun s w =>
    if s.turned then
      (B.next s.enumerator2 w).map (wrap fun b => ⟨s.enumerator1, b, s.index + 1, true⟩)
    else
      (A.next s.enumerator1 w).bind fun r =>
        match r with
        | .ok true (a, w') => some (.ok true (⟨a, s.enumerator2, s.index + 1, false⟩, w'))
        | .ok false (a, w') => (B.next s.enumerator2 w').map (wrap fun b => ⟨a, b, s.index + 1, true⟩)
        | .err (a, w') => some (.err (⟨a, s.enumerator2, s.index + 1, false⟩, w'))
        | .fault => some .fault
  reset := fun s => ⟨A.reset s.enumerator1, B.reset s.enumerator2, -1, false⟩
  evaluated := A.evaluated && B.evaluated

/-- OperationPair.h 21-79 `PairwiseEnumerator`. -/
def pairwise (A : CallAtor W α) (B : CallAtor W β) : CallAtor W (α × β) where
  σ := PairState A.σ B.σ α β
  clone := fun s =>
    (A.clone s.enumerator1).bind fun a => (B.clone s.enumerator2).map fun b => ⟨a, b, s.current⟩
  current := fun s => s.current
  index := fun s => A.index s.enumerator1
  next := fun s w =>
    (A.next s.enumerator1 w).bind fun r =>
      match r with
      | .ok true (a, w') =>
        (B.next s.enumerator2 w').map fun r =>
          match r with
          | .ok true (b, w'') =>
            match A.current a, B.current b with
            | some x, some y => .ok true (⟨a, b, some (x, y)⟩, w'')
            | _, _ => .fault
          | .ok false (b, w'') => .ok false (⟨a, b, s.current⟩, w'')
          | .err (b, w'') => .err (⟨a, b, s.current⟩, w'')
          | .fault => .fault
      | .ok false (a, w') => some (.ok false (⟨a, s.enumerator2, s.current⟩, w'))
      | .err (a, w') => some (.err (⟨a, s.enumerator2, s.current⟩, w'))
      | .fault => some .fault
  reset := fun s => ⟨A.reset s.enumerator1, B.reset s.enumerator2, s.current⟩
  evaluated := A.evaluated && B.evaluated

/-- OperationSequence.h 23-70 `TakeEnumerator`. -/
def take (A : CallAtor W α) (count : Int) : CallAtor W α where
  σ := A.σ
  clone := A.clone
  current := A.current
  index := A.index
  next := fun s w => if A.index s ≥ count - 1 then some (.ok false (s, w)) else A.next s w
  reset := A.reset
  evaluated := A.evaluated

/-- OperationSequence.h 116-122: the loop of `SkipEnumerator::Next`; the result is false if it was left by `return false`. -/
def skipLoop (A : CallAtor W α) : Nat → A.σ → W → Option (Outcome (A.σ × W) Bool)
  | 0, s, w => some (.ok true (s, w))
  | n + 1, s, w => (A.next s w).bind fun r =>
    match r with
    | .ok true (s', w') => skipLoop A n s' w'
    | .ok false (s', w') => some (.ok false (s', w'))
    | .err (s', w') => some (.err (s', w'))
    | .fault => some .fault

/-- OperationSequence.h 77-137 `SkipEnumerator`; the state is (enumerator, skipped). -/
def skip (A : CallAtor W α) (count : Int) : CallAtor W α where
  σ := A.σ × Bool
  clone := fun (s, skipped) => (A.clone s).map (fun s' => (s', skipped))
  current := fun (s, _) => A.current s
  index := fun (s, _) => A.index s - count
  next := fun (s, skipped) w =>
    if skipped then (A.next s w).map (wrap fun s' => (s', true))
    else
      (skipLoop A count.toNat s w).bind fun r =>
        match r with
        | .ok true (s', w') => (A.next s' w').map (wrap fun s'' => (s'', true))
        | .ok false (s', w') => some (.ok false ((s', true), w'))
        | .err (s', w') => some (.err ((s', true), w'))
        | .fault => some .fault
  reset := fun (s, _) => (A.reset s, false)
  evaluated := A.evaluated

/-- OperationSequence.h 180-193 `RepeatEnumerator::Next`. -/
def repeatNext (A : CallAtor W α) (count : Int) (s : RepeatState A.σ) (w : W) :
    Option (Outcome (RepeatState A.σ × W) Bool) :=
  if s.repeatedCount < count then do
    match ← A.next s.enumerator w with
    | .ok true (e, w') => some (.ok true (⟨e, s.index + 1, s.repeatedCount⟩, w'))
    | .ok false (e, w') => repeatNext A count ⟨A.reset e, s.index, s.repeatedCount + 1⟩ w'
    | .err (e, w') => some (.err (⟨e, s.index, s.repeatedCount⟩, w'))
    | .fault => some .fault
  else some (.ok false (s, w))
partial_fixpoint

/-- OperationSequence.h 144-206 `RepeatEnumerator`. -/
def repeat' (A : CallAtor W α) (count : Int) : CallAtor W α where
  σ := RepeatState A.σ
  clone := fun s => (A.clone s.enumerator).map (fun e => ⟨e, s.index, s.repeatedCount⟩)
  current := fun s => A.current s.enumerator
  index := fun s => s.index
  next := repeatNext A count
  reset := fun s => ⟨A.reset s.enumerator, -1, 0⟩
  evaluated := A.evaluated

/-- a comparison inside `Next`, which does not touch the world; `none`: an Error is raised -/
def ofOption (o : Option β) : Cpp W β := fun w =>
  match o with
  | some b => .ok b w
  | none => .err w

/-- OperationSequence.h 213-273 `DistinctEnumerator`. -/
def distinct (A : CallAtor W α) (cmp : α → α → Option Ordering) : CallAtor W α where
  σ := DistinctState A.σ α
  clone := fun s => (A.clone s.enumerator).bind fun e => (Ator.addSorted cmp [] s.distinct).map fun d => ⟨e, d, s.lastValue⟩
  current := fun s => s.lastValue
  index := fun s => (s.distinct.length : Int) - 1
  next := fun s w =>
    (nextWhere A (fun x => ofOption ((Ator.sortedContains cmp s.distinct x).map (! ·))) s.enumerator w).map fun r =>
      match r with
      | .ok true (e, w') =>
        match A.current e with
        | none => .fault
        | some x =>
          match SortedSeq.add cmp id x s.distinct with
          | .ok _ d => .ok true (⟨e, d, some x⟩, w')
          | .err d => .err (⟨e, d, some x⟩, w')
          | .fault => .fault
      | .ok false (e, w') => .ok false (⟨e, s.distinct, s.lastValue⟩, w')
      | .err (e, w') => .err (⟨e, s.distinct, s.lastValue⟩, w')
      | .fault => .fault
  reset := fun s => ⟨A.reset s.enumerator, [], s.lastValue⟩

/-- OperationSequence.h 280-332 `ReverseEnumerator` over the content `cache`, which does not change after the construction. -/
def reverse (cache : List α) : CallAtor W α where
  σ := Int
  clone := fun i => some i
  current := fun i => Ator.valueOf (SeqList.get ((cache.length : Int) - 1 - i) cache)
  index := fun i => i
  next := fun i w => some (.ok (decide (i + 1 < cache.length)) (i + 1, w))
  reset := fun _ => -1
  evaluated := true

/-- OperationSet.h 23-83 `IntersectExceptEnumerator<T, Intersect>`. -/
def intersectExcept (A : CallAtor W α) (cmp : α → α → Option Ordering) (intersect : Bool) : CallAtor W α where
  σ := SetState A.σ α
  clone := fun s => (A.clone s.enumerator).bind fun e => (Ator.addSorted cmp [] s.reference).map fun d => ⟨e, d, s.index⟩
  current := fun s => A.current s.enumerator
  index := fun s => s.index
  next := fun s w =>
    (nextWhere A (fun x => ofOption ((Ator.sortedContains cmp s.reference x).map (· == intersect))) s.enumerator w).map fun r =>
      match r with
      | .ok true (e, w') => .ok true (⟨e, s.reference, s.index + 1⟩, w')
      | .ok false (e, w') => .ok false (⟨e, s.reference, s.index⟩, w')
      | .err (e, w') => .err (⟨e, s.reference, s.index⟩, w')
      | .fault => .fault
  reset := fun s => ⟨A.reset s.enumerator, s.reference, -1⟩

end CallAtor
end Vlpp
