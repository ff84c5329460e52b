import Verif.Model.ListC
import Verif.Model.SortedListC
import Verif.Model.ArrayC
import Verif.Model.Str
import Verif.Model.Ator

/-!
# Model of sizes and positions as 64-bit numbers

The other models take `vint` for the integers.  Here the same functions compute with `vint` of 64 bits (Basic.h 96-101, `VCZH_64`): a
signed operation whose result does not fit is undefined behaviour, and `malloc` only returns memory for at most `room`
elements.  Source/Collections/List.h 109-178, 311-450, 505-530, 585-623, 697-727, Strings/String.h 462-485,
Collections/OperationEnumerable.h 58-117, Collections/OperationSequence.h 55-59.
-/
set_option autoImplicit false
namespace Vlpp.Mach
open Vlpp.Strings
variable {α κ : Type}

/-- the result of an operation on `vint` -/
def fit (x : Int) : MemRes Int := if -9223372036854775808 ≤ x ∧ x ≤ 9223372036854775807 then some x else none

/-- List.h 109-114 `AllocateBuffer`.  If `malloc` fails, or if the number of bytes wraps so that the memory is too small, nothing
notices it, and using the memory is undefined (simplification: at once). -/
def malloc (room size : Int) : MemRes (Block α) := if size ≤ room then some (Mem.allocateBuffer size) else none

/-- List.h 154: `newCount < capacity ? capacity : (newCount * 5 / 4 + 1)` -/
def grow (newCount capacity : Int) : MemRes Int :=
  if newCount < capacity then some capacity else do
    let t ← fit (newCount * 5)
    fit (t / 4 + 1)

/-- List.h 123-146 `ReleaseUnnecessaryBuffer`. -/
def releaseUnnecessaryBuffer (room : Int) (mv : Option α → Option α) (items : Block α) (capacity oldCount newCount : Int) :
    MemRes (Block α × Int) :=
  if items.size = 0 then some (items, capacity) else do
    let items ← (show MemRes _ from
      if newCount < oldCount then do
        let n ← fit (oldCount - newCount)
        Mem.callDtors items newCount n.toNat
      else some items)
    if newCount ≤ capacity / 2 ∧ newCount ≤ 8 then
      let t ← fit (capacity * 5)
      let newCapacity := t / 8
      if newCount < newCapacity then
        let newBuffer ← malloc room newCapacity
        let (newBuffer, items) ← Mem.callMoveCtorsTo mv newBuffer items 0 0 newCount.toNat
        let items ← Mem.callDtors items 0 newCount.toNat
        Mem.deallocateBuffer items
        return (newBuffer, newCapacity)
      else return (items, capacity)
    else return (items, capacity)

/-- List.h 148-178 `InsertUninitializedItems`. -/
def insertUninitializedItems (room : Int) (mv : Option α → Option α) (items : Block α) (capacity count index insertCount : Int) :
    MemRes (Block α × Int × Int) := do
  let newCount ← fit (count + insertCount)
  if newCount > capacity then
    let newCapacity ← grow newCount capacity
    let newBuffer ← malloc room newCapacity
    let (newBuffer, items) ← Mem.callMoveCtorsTo mv newBuffer items 0 0 index.toNat
    let d ← fit (index + insertCount)
    let n ← fit (count - index)
    let (newBuffer, items) ← Mem.callMoveCtorsTo mv newBuffer items d index n.toNat
    let items ← Mem.callDtors items 0 count.toNat
    Mem.deallocateBuffer items
    return (newBuffer, newCapacity, newCount)
  else if index < count then
    let n ← fit (count - index)
    if insertCount ≥ n then
      let d ← fit (index + insertCount)
      let items ← Mem.callMoveCtorsIn mv items d index n.toNat
      let items ← Mem.callDtors items index n.toNat
      return (items, capacity, newCount)
    else
      let s ← fit (count - insertCount)
      let items ← Mem.callMoveCtorsIn mv items count s insertCount.toNat
      let d ← fit (index + insertCount)
      let m ← fit (n - insertCount)
      let items ← Mem.callMoveAssignmentsOverlapped mv items d index m
      let items ← Mem.callDtors items index insertCount.toNat
      return (items, capacity, newCount)
  else some (items, capacity, newCount)

/-- List.h 605-623 `List::Insert`. -/
def insert (room : Int) (mv : Option α → Option α) (index : Int) (item : α) : Cpp (ListC α) Int := do
  let s ← Cpp.get
  Cpp.check (index ≥ 0 ∧ index ≤ s.count)
  let (b, cap, cnt) ← ListC.mem (insertUninitializedItems room mv s.buffer s.capacity s.count index 1)
  let b ← ListC.mem (Mem.construct b index (some item))
  Cpp.set ⟨b, cnt, cap⟩
  return index

/-- List.h 588-599 `List::Add`. -/
def add (room : Int) (mv : Option α → Option α) (item : α) : Cpp (ListC α) Int := do
  let s ← Cpp.get
  insert room mv s.count item

/-- List.h 507-515 `ListBase::RemoveAt`. -/
def removeAt (room : Int) (mv : Option α → Option α) (index : Int) : Cpp (ListC α) Bool := do
  let s ← Cpp.get
  let previousCount := s.count
  Cpp.check (index ≥ 0 ∧ index < s.count)
  let from_ ← ListC.mem (fit (index + 1))
  let t ← ListC.mem (fit (s.count - index))
  let n ← ListC.mem (fit (t - 1))
  let b ← ListC.mem (Mem.callMoveAssignmentsOverlapped mv s.buffer index from_ n)
  let count ← ListC.mem (fit (s.count - 1))
  let (b, cap) ← ListC.mem (releaseUnnecessaryBuffer room mv b s.capacity previousCount count)
  Cpp.set ⟨b, count, cap⟩
  return true

/-- List.h 521-530 `ListBase::RemoveRange`; `index + _count` is computed before it is checked. -/
def removeRange (room : Int) (mv : Option α → Option α) (index count : Int) : Cpp (ListC α) Bool := do
  let s ← Cpp.get
  let previousCount := s.count
  Cpp.check (index ≥ 0 ∧ index ≤ s.count)
  let last ← ListC.mem (fit (index + count))
  Cpp.check (last ≥ 0 ∧ last ≤ s.count)
  let t ← ListC.mem (fit (s.count - index))
  let n ← ListC.mem (fit (t - count))
  let b ← ListC.mem (Mem.callMoveAssignmentsOverlapped mv s.buffer index last n)
  let newCount ← ListC.mem (fit (s.count - count))
  let (b, cap) ← ListC.mem (releaseUnnecessaryBuffer room mv b s.capacity previousCount newCount)
  Cpp.set ⟨b, newCount, cap⟩
  return true

/-- List.h 628-640 `List::Remove`. -/
def remove (room : Int) (mv : Option α → Option α) (eq : α → κ → Bool) (item : κ) : Cpp (ListC α) Bool := do
  let index ← ListC.indexOf eq item
  let s ← Cpp.get
  if index ≥ 0 ∧ index < s.count then
    let _ ← removeAt room mv index
    return true
  else
    return false

/-- One call on a `List<T>` (List.h 505-674). -/
def step (room : Int) (mv : Option α → Option α) (eq : α → κ → Bool) (s : ListC α) :
    Spec.SeqOp α κ → Option (ListC α × Spec.SeqRet α)
  | .add v => ListC.observe .index (add room mv v s)
  | .insert i v => ListC.observe .index (insert room mv i v s)
  | .remove k => ListC.observe .flag (remove room mv eq k s)
  | .removeAt i => ListC.observe .flag (removeAt room mv i s)
  | .removeRange i n => ListC.observe .flag (removeRange room mv i n s)
  | op => ListC.step mv eq s op

/-- A history of calls on one list. -/
def run (room : Int) (mv : Option α → Option α) (eq : α → κ → Bool) (s : ListC α) :
    List (Spec.SeqOp α κ) → Option (ListC α × List (Spec.SeqRet α))
  | [] => some (s, [])
  | op :: ops => do
    let (s, r) ← step room mv eq s op
    let (s, rs) ← run room mv eq s ops
    return (s, r :: rs)

/-- List.h 705-727: the loop of `SortedList::IndexOfInternal`. -/
def searchLoop (read : Int → Option α) (cmp : α → κ → Option Ordering) (item : κ) (fuel : Nat)
    (start stop index : Int) : Outcome Unit (Int × Int) :=
  match fuel with
  | 0 => .fault
  | fuel + 1 =>
    if start ≤ stop then
      match (do let d ← fit (stop - start); fit (start + d / 2) : MemRes Int) with
      | none => .fault
      | some i =>
        match read i with
        | none => .fault
        | some x =>
          match cmp x item with
          | none => .err ()
          | some .lt =>
            match fit (i + 1) with
            | none => .fault
            | some start => searchLoop read cmp item fuel start stop i
          | some .gt =>
            match fit (i - 1) with
            | none => .fault
            | some stop => searchLoop read cmp item fuel start stop i
          | some .eq => .ok (i, i) ()
    else .ok (-1, index) ()

/-- List.h 109-114: `malloc(sizeof(T) * size)`; the product is an unsigned number of 64 bits, and the memory has room for this
many elements.  `limit` is the largest number of bytes that `malloc` returns (`none`: it returns `nullptr`). -/
def mallocBytes (limit sizeofT size : Int) : Option Int :=
  let bytes := (sizeofT * size) % 18446744073709551616
  if bytes ≤ limit then some (bytes / sizeofT) else none

/-- List.h 319-325 `Array(vint size)` for a trivially constructible `T`, whose elements are not touched: (elements the buffer has
room for, `count`). -/
def newArray (limit sizeofT size : Int) : Outcome Unit (Int × Int) :=
  if size ≥ 0 then
    if size ≤ 0 then .ok (0, size) ()
    else
      match mallocBytes limit sizeofT size with
      | some n => .ok (n, size) ()
      | none => .ok (0, size) ()
  else .err ()

/-- String.h 462-467 `Sub`. -/
def sub [Zero α] (s : Str α) (index count : Int) : Cpp (Strings.Heap α) (Str α) := do
  Cpp.check (index ≥ 0 ∧ index ≤ s.length)
  match fit (index + count) with
  | none => Cpp.faulting
  | some last =>
    Cpp.check (last ≥ 0 ∧ last ≤ s.length)
    Strings.subUnsafe s index count

/-- String.h 480-485 `Remove`. -/
def removeStr [Zero α] (s : Str α) (index count : Int) : Cpp (Strings.Heap α) (Str α) := do
  Cpp.check (index ≥ 0 ∧ index < s.length)
  match fit (index + count) with
  | none => Cpp.faulting
  | some last =>
    Cpp.check (last ≥ 0 ∧ last ≤ s.length)
    Strings.replaceUnsafe s {} index count

/-- OperationEnumerable.h 73-78: `RangeEnumerator(start, count)`, the state is `current`. -/
def rangeStart (start : Int) : MemRes Int := fit (start - 1)

/-- OperationEnumerable.h 95-106 `RangeEnumerator::Next`: `start-1<=current && current<start+count-1` -/
def rangeNext (start count current : Int) : MemRes (Bool × Int) := do
  let a ← fit (start - 1)
  if a ≤ current then
    let b ← fit (start + count)
    let b ← fit (b - 1)
    if current < b then
      let c ← fit (current + 1)
      return (true, c)
    else return (false, current)
  else return (false, current)

/-- `while (enumerator->Next()) add(enumerator->Current())` over a range (OperationEnumerable.h 95-106); at most `fuel` calls, the list ends
when `Next` returns false. -/
def rangeLoop (start count : Int) : Nat → Int → MemRes (List Int)
  | 0, _ => none
  | fuel + 1, current => do
    let (b, c) ← rangeNext start count current
    if b then
      let xs ← rangeLoop start count fuel c
      return c :: xs
    else return []

/-- `Range(start, count)` and a loop over all elements (OperationEnumerable.h 58-117). -/
def range (start count : Int) (fuel : Nat) : MemRes (List Int) := do
  let c ← rangeStart start
  rangeLoop start count fuel c

/-- OperationSequence.h 55-59: the test of `TakeEnumerator::Next`, `enumerator->Index()>=count-1`. -/
def takeStops (index count : Int) : MemRes Bool := do
  let c ← fit (count - 1)
  return decide (index ≥ c)

end Vlpp.Mach
