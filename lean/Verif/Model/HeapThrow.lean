import Verif.Model.HeapArray
import Verif.Spec.Throws

/-!
# Model of lists, sorted lists and arrays whose elements throw (Source/Collections/List.h 22-178, 309-835)

The functions of `Model/HeapList.lean` and `Model/HeapArray.lean` that copy or construct elements of the caller, with the
addition that this may throw.  Simplification: moving elements and destroying them does not throw.  The overloads for
`T&&` move the argument, so they are those of the other models.
-/
set_option autoImplicit false
namespace Vlpp

/-- An element throws; nothing between it and the caller handles the exception. -/
def Cpp.raise {σ β : Type} : Cpp σ β := fun s => .err s

namespace ListH
variable {α κ : Type}
open Spec (CopyFate)

section
variable (mv : Option α → Option α)

/-- List.h 729-743 protected `SortedList::Insert`, also the last lines of 605-611 `List::Insert`.
`InsertUninitializedItems` (148-178) has changed the members when the constructor of the element is called. -/
def insertRawT (index : Int) (item : α) (f : CopyFate α) : Cpp (Heap α × ListH) Int := do
  let s ← members
  let (p, cap, cnt) ← onHeap (Heap.insertUninitializedItems mv s.buffer s.capacity s.count index 1)
  setMembers ⟨p, cnt, cap⟩
  match f with
  | .throws 0 _ => Cpp.raise
  | _ => do
    onHeap (Heap.construct p index (some item))
    return index

/-- List.h 605-611 `List::Insert(vint, const T&)`. -/
def insertT (index : Int) (item : α) (f : CopyFate α) : Cpp (Heap α × ListH) Int := do
  let s ← members
  Cpp.check (index ≥ 0 ∧ index ≤ s.count)
  insertRawT mv index item f

/-- List.h 588-591 `List::Add(const T&)`. -/
def addT (item : α) (f : CopyFate α) : Cpp (Heap α × ListH) Int := do
  let s ← members
  insertT mv s.count item f

/-- List.h 745-774 `AddInternal` and 806-809 `SortedList::Add(const T&)`. -/
def sortedAddT (cmp : α → κ → Option Ordering) (key : α → κ) (item : α) (f : CopyFate α) : Cpp (Heap α × ListH) Int := do
  let s ← members
  if s.count = 0 then insertRawT mv 0 item f
  else
    let r ← reading (SortedListC.indexOfInternal cmp (key item))
    let outputIndex := r.2
    Cpp.check (outputIndex ≥ 0 ∧ outputIndex < s.count)
    let x ← reading (ListC.get outputIndex)
    if cmp x (key item) = some .lt then insertRawT mv (outputIndex + 1) item f
    else insertRawT mv outputIndex item f

end

/-- List.h 646-651 `List::Set(vint, const T&)` and 399-404 `Array::Set(vint, const T&)`: an assignment that throws has
left `t` in the element. -/
def setAtT (index : Int) (item : α) (f : CopyFate α) : Cpp (Heap α × ListH) Bool := do
  let s ← members
  Cpp.check (index ≥ 0 ∧ index < s.count)
  match f with
  | .throws 0 t => do
    onHeap (Heap.assign s.buffer index (some t))
    Cpp.raise
  | _ => do
    onHeap (Heap.assign s.buffer index (some item))
    return true

/-- One call on a `List<T>`. -/
def stepT (mv : Option α → Option α) (eq : α → κ → Bool) :
    Spec.SeqOp α κ × CopyFate α → Cpp (Heap α × ListH) (Spec.SeqRet α)
  | (.add v, f) => do return .index (← addT mv v f)
  | (.insert i v, f) => do return .index (← insertT mv i v f)
  | (.set i v, f) => do return .flag (← setAtT i v f)
  | (op, _) => step mv eq op

/-- One call on a `SortedList<T>`. -/
def sortedStepT (mv : Option α → Option α) (cmp : α → κ → Option Ordering) (key : α → κ) :
    Spec.SortedOp α κ × CopyFate α → Cpp (Heap α × ListH) (Spec.SeqRet α)
  | (.add v, f) => do return .index (← sortedAddT mv cmp key v f)
  | (op, _) => sortedStep mv cmp key op

end ListH

namespace ArrayH
variable {α κ : Type}
open Spec (CopyFate)
open ListH (onHeap members setMembers reading)

/-- `n` elements are to be constructed, which `ctors` does for a given number. If one throws, the elements before it stay. -/
def constructing (n : Nat) (ctors : Nat → Cpp (Heap α × ListH) Unit) : CopyFate α → Cpp (Heap α × ListH) Unit
  | .throws k _ => if k < n then do ctors k; Cpp.raise else ctors n
  | .completes => ctors n

/-- List.h 319-325 `Array(vint size)`, in storage without an object.  If it throws there is no object afterwards. -/
def newT (dflt : Option α) (size : Int) (f : CopyFate α) : Cpp (Heap α × ListH) Unit := do
  Cpp.check (size ≥ 0)
  let p ← onHeap (Heap.allocateBuffer size)
  constructing size.toNat (fun n => onHeap (Heap.callDefaultCtors dflt p 0 n)) f
  setMembers ⟨p, size, 0⟩

/-- List.h 331-337 `Array(const T*, vint)`, in storage without an object. -/
def newFromT (source : Int → Option α) (size : Int) (f : CopyFate α) : Cpp (Heap α × ListH) Unit := do
  Cpp.check (size ≥ 0)
  let p ← onHeap (Heap.allocateBuffer size)
  constructing size.toNat (fun n => onHeap (Heap.callCopyCtors p source n)) f
  setMembers ⟨p, size, 0⟩

/-- List.h 431-449 `Array::Resize`. -/
def resizeT (mv : Option α → Option α) (dflt : Option α) (size : Int) (f : CopyFate α) : Cpp (Heap α × ListH) Bool := do
  let s ← members
  Cpp.check (size ≥ 0)
  let newBuffer ← onHeap (Heap.allocateBuffer size)
  (show Cpp (Heap α × ListH) Unit from
    if size < s.count then onHeap (Heap.callMoveCtors mv newBuffer 0 s.buffer 0 size.toNat)
    else do
      onHeap (Heap.callMoveCtors mv newBuffer 0 s.buffer 0 s.count.toNat)
      constructing (size - s.count).toNat (fun n => onHeap (Heap.callDefaultCtors dflt newBuffer s.count n)) f)
  onHeap (Heap.callDtors s.buffer 0 s.count.toNat)
  onHeap (Heap.deallocateBuffer s.buffer)
  setMembers ⟨newBuffer, size, s.capacity⟩
  return true

/-- One call on an array, or the destruction of an array and the construction of another one in its place. -/
def stepT (mv : Option α → Option α) (eq : α → κ → Bool) (dflt : Option α) :
    Spec.ArrCall α κ × CopyFate α → Cpp (Heap α × ListH) (Spec.SeqRet α)
  | (.create n, f) => do destroy; newT dflt n f; return .flag true
  | (.createFrom src n, f) => do destroy; newFromT (fun i => src[i.toNat]?) n f; return .flag true
  | (.call (.set i v), f) => do return .flag (← ListH.setAtT i v f)
  | (.call (.resize n), f) => do return .flag (← resizeT mv dflt n f)
  | (op, _) => step mv eq dflt op

end ArrayH
end Vlpp
