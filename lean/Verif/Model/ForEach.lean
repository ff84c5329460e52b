import Verif.Model.LazyList

/-!
# Model of the range-based `for` loop

Source/Collections/OperationForEach.h, Operation.h 1014-1041.  `for (auto x : xs) body` creates an enumerator on the
heap; the iterator object owns the pointer to it.

Simplifications: the heap only records which enumerators have not been deleted; the data members of an enumerator are
kept beside the pointer (nobody else has it).  `RangeBasedForLoopIterator` (24-75) is the same code as
`RangeBasedForLoopIteratorWithIndex` (93-147) without the member `index`, so there is one model for both; the body of a
loop that is not `indexed` ignores the index.
-/
set_option autoImplicit false
namespace Vlpp
namespace ForEach
variable {α β : Type}

/-- the enumerators that were created so far (`true`: not deleted) and the variables of the program -/
structure World (β : Type) where
  alive : List Bool
  user : β
deriving DecidableEq

/-- `delete iterator` -/
def World.delete (w : World β) (c : Nat) : Option (World β) :=
  if w.alive[c]? = some true then some ⟨w.alive.set c false, w.user⟩ else none

/-- Data members of `RangeBasedForLoopIteratorWithIndex`, OperationForEach.h 96-98: the pointer is null or the number of
an enumerator, here together with the state of that enumerator. -/
structure Iter (σ : Type) where
  iterator : Option (Nat × σ)
  index : Int

/-- OperationForEach.h 113-121 (42-49) `operator++`.  `none`: the call does not return. -/
def increment (A : Ator.{0, 0} α) (it : Iter A.σ) (w : World β) : Option (Outcome (Iter A.σ × World β) Unit) :=
  match it.iterator with
  | none => some .fault
  | some (c, s) =>
    if w.alive[c]? = some true then
      (A.next s).map fun r =>
        match r with
        | .ok true s' => .ok () (⟨some (c, s'), it.index + 1⟩, w)
        | .ok false _ =>
          match w.delete c with
          | some w' => .ok () (⟨none, it.index + 1⟩, w')
          | none => .fault
        | .err s' => .err (⟨some (c, s'), it.index⟩, w)
        | .fault => .fault
    else some .fault

/-- OperationForEach.h 101-106 (31-35), `begin` 166-170 (77-81): create the enumerator, then `operator++()`.  If that
raises an Error the iterator has not been constructed, so its destructor does not run. -/
def construct (L : LazyList.{0, 0} α) (w : World β) : Option (Outcome (World β) (Iter L.A.σ)) :=
  match L.create with
  | none => some (.err w)
  | some s =>
    (increment L.A ⟨some (w.alive.length, s), -1⟩ ⟨w.alive ++ [true], w.user⟩).map fun r =>
      match r with
      | .ok _ (it, w') => .ok it w'
      | .err (_, w') => .err w'
      | .fault => .fault

/-- OperationForEach.h 108-111 (37-40): the destructor. -/
def destroy {σ : Type} (it : Iter σ) (w : World β) : Option (World β) :=
  match it.iterator with
  | none => some w
  | some (c, _) => w.delete c

/-- OperationForEach.h 133-136 (61-64): `iterator != ending` -/
def notEnd {σ : Type} (it : Iter σ) : Bool := it.iterator.isSome

/-- OperationForEach.h 123-126 (51-54): `*iterator` -/
def deref (A : Ator.{0, 0} α) (it : Iter A.σ) (w : World β) : Option (α × Int) :=
  match it.iterator with
  | none => none
  | some (c, s) => if w.alive[c]? = some true then (A.current s).map fun x => (x, it.index) else none

/-- leave the scope of the iterator -/
def leave {σ γ : Type} (it : Iter σ) (w : World β) (r : World β → Outcome (World β) γ) :
    Option (Outcome (World β) γ) :=
  match destroy it w with
  | some w' => some (r w')
  | none => some .fault

/-- The loop `for (; begin != end; ++begin) { x = *begin; body }` with the destruction of `begin` at the end
([stmt.ranged] of the C++ standard).  `body x i` returns true to go on and false for `break`. -/
def loop (A : Ator.{0, 0} α) (body : α → Int → World β → Option (Outcome (World β) Bool)) (it : Iter A.σ)
    (w : World β) : Option (Outcome (World β) Unit) :=
  if notEnd it then
    match deref A it w with
    | none => some .fault
    | some (x, i) =>
      match body x i w with
      | none => none
      | some (.ok true w) =>
        match increment A it w with
        | none => none
        | some (.ok _ (it, w)) => loop A body it w
        | some (.err (it, w)) => leave it w .err
        | some .fault => some .fault
      | some (.ok false w) => leave it w (.ok ())
      | some (.err w) => leave it w .err
      | some .fault => some .fault
  else leave it w (.ok ())
partial_fixpoint

/-- `for (auto [x, i] : indexed(xs)) body` -/
def forEach (L : LazyList.{0, 0} α) (body : α → Int → World β → Option (Outcome (World β) Bool)) (w : World β) :
    Option (Outcome (World β) Unit) :=
  match construct L w with
  | none => none
  | some (.ok it w) => loop L.A body it w
  | some (.err w) => some (.err w)
  | some .fault => some .fault

end ForEach
end Vlpp
