import Verif.Model.ListC

/-!
# What `List<T>` costs (Source/Collections/List.h 22-208, 459-674)

The member functions of `Model/ListC.lean` once more, with a counter for every element that is moved (by a move
constructor or a move assignment) and for every buffer that is allocated.  For types without their own constructors,
where `memcpy` and `memmove` are used (List.h 66, 93), an element is moved when its bytes are copied.
Not counted: destructor calls, comparisons, and the construction of the new element itself.
-/
set_option autoImplicit false
namespace Vlpp

/-- The counters; they exist only in the model. -/
structure Tally where
  moves : Nat
  allocs : Nat
  deriving DecidableEq, Repr

namespace ListCost
variable {α κ β : Type}

/-- One element moved (List.h 62, 80, 87: `T(std::move(source[i]))`, `items[i] = std::move(source[i])`). -/
def takeOut (mv : Option α → Option α) (b : Block α) (i : Int) (t : Tally) : MemRes ((Option α × Block α) × Tally) := do
  let r ← Mem.takeOut mv b i
  return (r, ⟨t.moves + 1, t.allocs⟩)

/-- List.h 55-69 `CallMoveCtors` between two blocks. -/
def callMoveCtorsTo (mv : Option α → Option α) (dst src : Block α) (d s : Int) (t : Tally) :
    Nat → MemRes ((Block α × Block α) × Tally)
  | 0 => some ((dst, src), t)
  | n + 1 => do
    let ((dst, src), t) ← callMoveCtorsTo mv dst src d s t n
    let ((v, src), t) ← takeOut mv src (s + n) t
    let dst ← Mem.construct dst (d + n) v
    return ((dst, src), t)

/-- List.h 55-69 `CallMoveCtors` inside one block; see `Mem.callMoveCtorsIn`. -/
def callMoveCtorsIn (mv : Option α → Option α) (b : Block α) (d s : Int) (n : Nat) (t : Tally) :
    MemRes (Block α × Tally) :=
  if n = 0 ∨ d + n ≤ s ∨ s + n ≤ d then go n else none
where
  go : Nat → MemRes (Block α × Tally)
    | 0 => some (b, t)
    | n + 1 => do
      let (b, t) ← go n
      let ((v, b), t) ← takeOut mv b (s + n) t
      let b ← Mem.construct b (d + n) v
      return (b, t)

/-- List.h 76-82: forward loop of `CallMoveAssignmentsOverlapped`. -/
def moveAssignFwd (mv : Option α → Option α) (b : Block α) (d s : Int) (t : Tally) : Nat → MemRes (Block α × Tally)
  | 0 => some (b, t)
  | n + 1 => do
    let (b, t) ← moveAssignFwd mv b d s t n
    let ((v, b), t) ← takeOut mv b (s + n) t
    let b ← Mem.assign b (d + n) v
    return (b, t)

/-- List.h 83-89: backward loop of `CallMoveAssignmentsOverlapped`. -/
def moveAssignBwd (mv : Option α → Option α) (b : Block α) (d s : Int) (t : Tally) : Nat → MemRes (Block α × Tally)
  | 0 => some (b, t)
  | n + 1 => do
    let ((v, b), t) ← takeOut mv b (s + n) t
    let b ← Mem.assign b (d + n) v
    moveAssignBwd mv b d s t n

/-- List.h 71-95 `CallMoveAssignmentsOverlapped`.  (`memmove` onto the same place, which the code runs for trivial
types when nothing is to be moved, is not counted.) -/
def callMoveAssignmentsOverlapped (mv : Option α → Option α) (b : Block α) (d s : Int) (count : Int) (t : Tally) :
    MemRes (Block α × Tally) :=
  if d < s then moveAssignFwd mv b d s t count.toNat
  else if s < d then moveAssignBwd mv b d s t count.toNat
  else some (b, t)

/-- List.h 109-114 `AllocateBuffer`: `malloc` is called for a positive size. -/
def allocateBuffer (size : Int) (t : Tally) : Block α × Tally :=
  (Mem.allocateBuffer size, if size ≤ 0 then t else ⟨t.moves, t.allocs + 1⟩)

/-- List.h 123-146 `ReleaseUnnecessaryBuffer`. -/
def releaseUnnecessaryBuffer (mv : Option α → Option α) (items : Block α) (capacity oldCount newCount : Int)
    (t : Tally) : MemRes ((Block α × Int) × Tally) :=
  if items.size = 0 then some ((items, capacity), t) else do
    let items ← (show MemRes _ from
      if newCount < oldCount then Mem.callDtors items newCount (oldCount - newCount).toNat else some items)
    if newCount ≤ capacity / 2 ∧ newCount ≤ 8 then
      let newCapacity := capacity * 5 / 8
      if newCount < newCapacity then
        let (newBuffer, t) := allocateBuffer newCapacity t
        let ((newBuffer, items), t) ← callMoveCtorsTo mv newBuffer items 0 0 t newCount.toNat
        let items ← Mem.callDtors items 0 newCount.toNat
        Mem.deallocateBuffer items
        return ((newBuffer, newCapacity), t)
      else return ((items, capacity), t)
    else return ((items, capacity), t)

/-- List.h 148-178 `InsertUninitializedItems`. -/
def insertUninitializedItems (mv : Option α → Option α) (items : Block α) (capacity count index insertCount : Int)
    (t : Tally) : MemRes ((Block α × Int × Int) × Tally) :=
  let newCount := count + insertCount
  if newCount > capacity then do
    let newCapacity := if newCount < capacity then capacity else newCount * 5 / 4 + 1
    let (newBuffer, t) := allocateBuffer newCapacity t
    let ((newBuffer, items), t) ← callMoveCtorsTo mv newBuffer items 0 0 t index.toNat
    let ((newBuffer, items), t) ←
      callMoveCtorsTo mv newBuffer items (index + insertCount) index t (count - index).toNat
    let items ← Mem.callDtors items 0 count.toNat
    Mem.deallocateBuffer items
    return ((newBuffer, newCapacity, newCount), t)
  else if index < count then
    if insertCount ≥ count - index then do
      let (items, t) ← callMoveCtorsIn mv items (index + insertCount) index (count - index).toNat t
      let items ← Mem.callDtors items index (count - index).toNat
      return ((items, capacity, newCount), t)
    else do
      let (items, t) ← callMoveCtorsIn mv items count (count - insertCount) insertCount.toNat t
      let (items, t) ←
        callMoveAssignmentsOverlapped mv items (index + insertCount) index (count - index - insertCount) t
      let items ← Mem.callDtors items index insertCount.toNat
      return ((items, capacity, newCount), t)
  else some ((items, capacity, newCount), t)

/-- Run a counting memory helper. -/
def mem (r : Tally → MemRes (β × Tally)) : Cpp (ListC α × Tally) β := fun s =>
  match r s.2 with
  | some (v, t) => .ok v (s.1, t)
  | none => .fault

/-- Run code of `Model/ListC.lean` that neither moves an element nor allocates. -/
def plain (m : Cpp (ListC α) β) : Cpp (ListC α × Tally) β := fun s =>
  match m s.1 with
  | .ok v l => .ok v (l, s.2)
  | .err l => .err (l, s.2)
  | .fault => .fault

/-- List.h 605-611 and 617-623 `List::Insert`. -/
def insert (mv : Option α → Option α) (index : Int) (item : α) : Cpp (ListC α × Tally) Int := do
  let s ← plain Cpp.get
  Cpp.check (index ≥ 0 ∧ index ≤ s.count)
  let (b, cap, cnt) ← mem (insertUninitializedItems mv s.buffer s.capacity s.count index 1)
  let b ← plain (ListC.mem (Mem.construct b index (some item)))
  plain (Cpp.set ⟨b, cnt, cap⟩)
  return index

/-- List.h 588-599 `List::Add`. -/
def add (mv : Option α → Option α) (item : α) : Cpp (ListC α × Tally) Int := do
  let s ← plain Cpp.get
  insert mv s.count item

/-- List.h 507-515 `ListBase::RemoveAt`. -/
def removeAt (mv : Option α → Option α) (index : Int) : Cpp (ListC α × Tally) Bool := do
  let s ← plain Cpp.get
  let previousCount := s.count
  Cpp.check (index ≥ 0 ∧ index < s.count)
  let b ← mem (callMoveAssignmentsOverlapped mv s.buffer index (index + 1) (s.count - index - 1))
  let (b, cap) ← mem (releaseUnnecessaryBuffer mv b s.capacity previousCount (s.count - 1))
  plain (Cpp.set ⟨b, s.count - 1, cap⟩)
  return true

/-- List.h 521-530 `ListBase::RemoveRange`. -/
def removeRange (mv : Option α → Option α) (index count : Int) : Cpp (ListC α × Tally) Bool := do
  let s ← plain Cpp.get
  let previousCount := s.count
  Cpp.check (index ≥ 0 ∧ index ≤ s.count)
  Cpp.check (index + count ≥ 0 ∧ index + count ≤ s.count)
  let b ← mem (callMoveAssignmentsOverlapped mv s.buffer index (index + count) (s.count - index - count))
  let (b, cap) ← mem (releaseUnnecessaryBuffer mv b s.capacity previousCount (s.count - count))
  plain (Cpp.set ⟨b, s.count - count, cap⟩)
  return true

/-- List.h 628-640 `List::Remove`. -/
def remove (mv : Option α → Option α) (eq : α → κ → Bool) (item : κ) : Cpp (ListC α × Tally) Bool := do
  let index ← plain (ListC.indexOf eq item)
  let s ← plain Cpp.get
  if index ≥ 0 ∧ index < s.count then
    let _ ← removeAt mv index
    return true
  else
    return false

/-- Turn the outcome of a member function into (new state, what the caller sees). -/
def observe (ret : β → Spec.SeqRet α) : Outcome (ListC α × Tally) β → Option ((ListC α × Tally) × Spec.SeqRet α)
  | .ok v s => some (s, ret v)
  | .err s => some (s, .error)
  | .fault => none

/-- One call on a `List<T>`; `Set`, `Clear`, `Get`, `IndexOf`, `Contains` (List.h 534-543, 565-583, 646-662) move no
element of the list and allocate nothing. -/
def step (mv : Option α → Option α) (eq : α → κ → Bool) (s : ListC α × Tally) :
    Spec.SeqOp α κ → Option ((ListC α × Tally) × Spec.SeqRet α)
  | .add v => observe .index (add mv v s)
  | .insert i v => observe .index (insert mv i v s)
  | .set i v => observe .flag (plain (ListC.setAt i v) s)
  | .remove k => observe .flag (remove mv eq k s)
  | .removeAt i => observe .flag (removeAt mv i s)
  | .removeRange i n => observe .flag (removeRange mv i n s)
  | .clear => observe .flag (plain ListC.clear s)
  | .get i => observe .value (plain (ListC.get i) s)
  | .count => some (s, .index s.1.count)
  | .indexOf k => observe .index (plain (ListC.indexOf eq k) s)
  | .contains k => observe .flag (plain (ListC.contains eq k) s)

/-- A history of calls on one list. -/
def run (mv : Option α → Option α) (eq : α → κ → Bool) (s : ListC α × Tally) :
    List (Spec.SeqOp α κ) → Option ((ListC α × Tally) × List (Spec.SeqRet α))
  | [] => some (s, [])
  | op :: ops => do
    let (s, r) ← step mv eq s op
    let (s, rs) ← run mv eq s ops
    return (s, r :: rs)

end ListCost
end Vlpp
