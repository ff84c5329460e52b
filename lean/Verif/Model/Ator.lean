import Verif.Model.DictC
import Verif.Model.GroupC

/-!
# Model of `IEnumerator<T>` and of the enumerators of containers

An enumerator class is given by the type of its data members and its virtual functions
(Source/Collections/Interfaces.h 33-66).  A `while` loop in `Next` may run forever on a strange inner enumerator,
so `Next` returns an `Option`: `none` means that the call does not return.

Simplification (all enumerators): the container that is enumerated does not change while an enumerator on it exists,
so it is part of the class and not of the state.
-/
set_option autoImplicit false
namespace Vlpp

/-- `IEnumerator<T>`, Interfaces.h 33-66. -/
structure Ator.{u, v} (α : Type u) : Type (max u (v + 1)) where
  /-- the data members -/
  σ : Type v
  /-- `Clone()`: the data members of the new enumerator; `none`: an Error is raised -/
  clone : σ → Option σ
  /-- `Current()`; `none`: an Error is raised or there is no value -/
  current : σ → Option α
  /-- `Index()` -/
  index : σ → Int
  /-- `Next()` -/
  next : σ → Option (Outcome σ Bool)
  /-- `Reset()` -/
  reset : σ → Outcome σ Unit
  /-- `Evaluated()`, by default false; it does not depend on the position in any class -/
  evaluated : Bool := false

namespace Ator
universe u
variable {α : Type u} {κ ν : Type}

/-- read a member function of a container without changing it; `none`: an Error is raised or undefined behaviour -/
def valueOf {σ β : Type _} : Outcome σ β → Option β
  | .ok v _ => some v
  | _ => none

/-- List.h 220-263 `ArrayBase::Enumerator` (arrays, lists and sorted lists); the same code as
`ContainerEnumerator`, OperationEnumerable.h 124-167. -/
def list {α : Type} (xs : List α) : Ator α where
  σ := Int
  clone := fun i => some i
  current := fun i => valueOf (SeqList.get i xs)
  index := fun i => i
  next := fun i => some (.ok (decide (i + 1 ≥ 0 ∧ i + 1 < xs.length)) (i + 1))
  reset := fun _ => .ok () (-1)
  evaluated := true

/-- The state of `ArrayBase::Enumerator` after construction (List.h 227-231). -/
def listStart : Int := -1

/-- OperationEnumerable.h 22-52 `EmptyEnumerator`. -/
def empty.{v} : Ator.{u, v} α where
  σ := PUnit
  clone := fun s => some s
  current := fun _ => none
  index := fun _ => -1
  next := fun s => some (.ok false s)
  reset := fun s => .ok () s
  evaluated := true

/-- OperationEnumerable.h 59-117 `RangeEnumerator<vint>`.  Simplification: no overflow. -/
def range (start count : Int) : Ator Int where
  σ := Int
  clone := fun c => some c
  current := fun c => some c
  index := fun c => c - start
  next := fun c =>
    if start - 1 ≤ c ∧ c < start + count - 1 then some (.ok true (c + 1)) else some (.ok false c)
  reset := fun _ => .ok () (start - 1)
  evaluated := true

/-- The state of `RangeEnumerator(start, count)` after construction, OperationEnumerable.h 73-78. -/
def rangeStart (start : Int) : Int := start - 1

/-- OperationSequence.h 338-408 `FromIteratorEnumerable::Enumerator` over the range `[begin, end)` of pointers or iterators whose
elements are `xs`.  A pointer is represented by its distance from `begin`; dereferencing outside the range is
undefined. -/
def iter {α : Type} (xs : List α) : Ator α where
  σ := Int
  clone := fun c => some c
  current := fun c => SortedSeq.read xs c
  index := fun c => c
  next := fun c => some (.ok (decide (0 ≤ c + 1 ∧ c + 1 < xs.length)) (c + 1))
  reset := fun _ => .ok () (-1)
  evaluated := true

/-- Data members of `Dictionary::Enumerator` (Dictionary.h 32-34). -/
structure DictState (κ ν : Type) where
  index : Int
  current : Option (κ × ν)

/-- Dictionary.h 36-42 `UpdateCurrent`. -/
def dictUpdate (d : DictC κ ν) (s : DictState κ ν) : Outcome (DictState κ ν) Unit :=
  if s.index < d.count then
    match SeqList.get s.index d.keys, SeqList.get s.index d.values with
    | .ok k _, .ok v _ => .ok () ⟨s.index, some (k, v)⟩
    | .fault, _ => .fault
    | _, .fault => .fault
    | _, _ => .err s
  else .ok () s

/-- Dictionary.h 29-82 `Dictionary::Enumerator`. `Clone` (50-53) does not copy `current`. -/
def dict (d : DictC κ ν) : Ator (κ × ν) where
  σ := DictState κ ν
  clone := fun s => some ⟨s.index, none⟩
  current := fun s => s.current
  index := fun s => s.index
  next := fun s =>
    match dictUpdate d ⟨s.index + 1, s.current⟩ with
    | .ok _ s' => some (.ok (decide (s'.index ≥ 0 ∧ s'.index < d.count)) s')
    | .err s' => some (.err s')
    | .fault => some .fault
  reset := fun s => dictUpdate d ⟨-1, s.current⟩
  evaluated := true

/-- The state of `Dictionary::Enumerator` after construction, Dictionary.h 44-48. -/
def dictStart : DictState κ ν := ⟨-1, none⟩

/-- Data members of `Group::Enumerator` (Dictionary.h 284-287). -/
structure GroupState (κ ν : Type) where
  keyIndex : Int
  valueIndex : Int
  current : Option (κ × ν)

/-- Dictionary.h 289-299 `UpdateCurrent`. -/
def groupUpdate (g : GroupC κ ν) (s : GroupState κ ν) : Outcome (GroupState κ ν) Unit :=
  if s.keyIndex < g.count then
    match GroupC.getByIndex s.keyIndex g with
    | .ok values _ =>
      if s.valueIndex < values.length then
        match SeqList.get s.keyIndex g.keys, SeqList.get s.valueIndex values with
        | .ok k _, .ok v _ => .ok () ⟨s.keyIndex, s.valueIndex, some (k, v)⟩
        | .fault, _ => .fault
        | _, .fault => .fault
        | _, _ => .err s
      else .ok () s
    | .err _ => .err s
    | .fault => .fault
  else .ok () s

/-- Dictionary.h 323-327, the loop of `Index`: number of values of the first `n` keys.  Where `GetByIndex` fails the
model counts nothing. -/
def groupBefore (g : GroupC κ ν) : Nat → Int
  | 0 => 0
  | n + 1 => groupBefore g n + match GroupC.getByIndex (n : Int) g with
    | .ok values _ => (values.length : Int)
    | _ => 0

/-- Dictionary.h 341-356, the loop of `Next`. -/
def groupNext (g : GroupC κ ν) (s : GroupState κ ν) : Outcome (GroupState κ ν) Bool :=
  if s.keyIndex < g.count then
    match GroupC.getByIndex s.keyIndex g with
    | .ok values _ =>
      if s.valueIndex + 1 < values.length then
        match groupUpdate g ⟨s.keyIndex, s.valueIndex + 1, s.current⟩ with
        | .ok _ s' => .ok true s'
        | .err s' => .err s'
        | .fault => .fault
      else groupNext g ⟨s.keyIndex + 1, -1, s.current⟩
    | .err _ => .err s
    | .fault => .fault
  else .ok false s
termination_by (g.count - s.keyIndex).toNat
decreasing_by omega

/-- Dictionary.h 281-370 `Group::Enumerator`. `Clone` (308-311) does not copy `current`. -/
def group (g : GroupC κ ν) : Ator (κ × ν) where
  σ := GroupState κ ν
  clone := fun s => some ⟨s.keyIndex, s.valueIndex, none⟩
  current := fun s => s.current
  index := fun s =>
    if 0 ≤ s.keyIndex ∧ s.keyIndex < g.count then groupBefore g s.keyIndex.toNat + s.valueIndex else -1
  next := fun s => some (groupNext g (if s.keyIndex = -1 then ⟨0, s.valueIndex, s.current⟩ else s))
  reset := fun s => groupUpdate g ⟨-1, -1, s.current⟩
  evaluated := true

/-- The state of `Group::Enumerator` after construction, Dictionary.h 301-306. -/
def groupStart : GroupState κ ν := ⟨-1, -1, none⟩

end Ator
end Vlpp
