import Verif.Model.HeapList
import Verif.Spec.Arr

/-!
# Model of many `Array<T>`s on a heap (Source/Collections/List.h 309-450)

Arrays have the members `buffer` and `count` of `ArrayBase<T>` (List.h 265-266). They are represented by `ListH` with a
`capacity` that stays 0 and that no function here reads.  `dflt` is what a default-constructed element contains, `mv` what
a moved-from element contains (see `Model/ArrayC.lean`).  The destructor (List.h 339-346), the move constructor (349-355)
and the move assignment (358-370) are those of `ListWorld` in `Model/HeapList.lean`: the statements of `ListBase`
(467-502) except for the ones about `capacity`, which move a 0 here.
-/
set_option autoImplicit false
namespace Vlpp

/-- List.h 39-53 `CallCopyCtors(p, source, n)`; `source` is memory of the caller. -/
def Heap.callCopyCtors {α : Type} (p : Ptr) (source : Int → Option α) : Nat → Cpp (Heap α) Unit
  | 0 => pure ()
  | n + 1 => do
    Heap.callCopyCtors p source n
    Heap.construct p n (source n)

namespace ArrayH
variable {α κ : Type}
open ListH (onHeap members setMembers reading)

/-- The destructor of the object that was in the storage (List.h 339-346) ended its life. -/
def destroy : Cpp (Heap α × ListH) Unit := do
  ListH.destructor
  setMembers ListH.empty

/-- List.h 319-325 `Array(vint size)`, in storage without an object.  If it throws there is no object afterwards. -/
def new (dflt : Option α) (size : Int) : Cpp (Heap α × ListH) Unit := do
  Cpp.check (size ≥ 0)
  let p ← onHeap (Heap.allocateBuffer size)
  onHeap (Heap.callDefaultCtors dflt p 0 size.toNat)
  setMembers ⟨p, size, 0⟩

/-- List.h 331-337 `Array(const T*, vint)`, in storage without an object. -/
def newFrom (source : Int → Option α) (size : Int) : Cpp (Heap α × ListH) Unit := do
  Cpp.check (size ≥ 0)
  let p ← onHeap (Heap.allocateBuffer size)
  onHeap (Heap.callCopyCtors p source size.toNat)
  setMembers ⟨p, size, 0⟩

/-- List.h 399-404 and 410-415 `Array::Set`. -/
def setAt (index : Int) (item : α) : Cpp (Heap α × ListH) Bool := do
  let s ← members
  Cpp.check (index ≥ 0 ∧ index < s.count)
  onHeap (Heap.assign s.buffer index (some item))
  return true

/-- List.h 431-449 `Array::Resize`. -/
def resize (mv : Option α → Option α) (dflt : Option α) (size : Int) : Cpp (Heap α × ListH) Bool := do
  let s ← members
  Cpp.check (size ≥ 0)
  let newBuffer ← onHeap (Heap.allocateBuffer size)
  (show Cpp (Heap α × ListH) Unit from
    if size < s.count then onHeap (Heap.callMoveCtors mv newBuffer 0 s.buffer 0 size.toNat)
    else do
      onHeap (Heap.callMoveCtors mv newBuffer 0 s.buffer 0 s.count.toNat)
      onHeap (Heap.callDefaultCtors dflt newBuffer s.count (size - s.count).toNat))
  onHeap (Heap.callDtors s.buffer 0 s.count.toNat)
  onHeap (Heap.deallocateBuffer s.buffer)
  setMembers ⟨newBuffer, size, s.capacity⟩
  return true

/-- One call on an array, or the destruction of an array and the construction of another one in its place.
`Get` is List.h 286-290, `Count` 278-281, `IndexOf` 383-393 (the same loop as `List::IndexOf`). -/
def step (mv : Option α → Option α) (eq : α → κ → Bool) (dflt : Option α) :
    Spec.ArrCall α κ → Cpp (Heap α × ListH) (Spec.SeqRet α)
  | .create n => do destroy; new dflt n; return .flag true
  | .createFrom src n => do destroy; newFrom (fun i => src[i.toNat]?) n; return .flag true
  | .call (.set i v) => do return .flag (← setAt i v)
  | .call (.get i) => do return .value (← reading (ListC.get i))
  | .call .count => do return .index (← members).count
  | .call (.resize n) => do return .flag (← resize mv dflt n)
  | .call (.indexOf k) => do return .index (← reading (ListC.indexOf eq k))

end ArrayH
end Vlpp
