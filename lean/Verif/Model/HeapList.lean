import Verif.Model.SortedListC
import Verif.Model.MoveWorld

/-!
# Model of the memory of lists with an explicit heap (Source/Collections/List.h 22-178, 459-835)

In `Model/Memory.lean` a list contains its buffer.  Here a buffer lives on a heap that all lists share, a list contains a
pointer to it, and `malloc`/`free` are visible: a buffer that no list points to is a leak, and using or releasing a buffer
that was released is undefined behaviour.  `Lemmas/HeapList.lean` proves that this model does what the other one does.
Simplification: addresses are not reused.  `mv` says what moved-from objects contain (see `Model/Memory.lean`).
-/
set_option autoImplicit false
namespace Vlpp

/-- The buffers that were allocated and not released; addresses from `next` on were never used. -/
structure Heap (α : Type) where
  next : Nat
  block : Nat → Option (Block α)

/-- `T*` to the beginning of a buffer; `none` is `nullptr`. -/
abbrev Ptr := Option Nat

namespace Heap
variable {α β : Type}

def empty : Heap α := ⟨0, fun _ => none⟩

def put (h : Heap α) (a : Nat) (b : Option (Block α)) : Heap α := ⟨h.next, fun n => if n = a then b else h.block n⟩

/-- Access to the buffer at `p`: undefined for `nullptr` and for a buffer that was released. -/
def access (p : Ptr) (f : Block α → MemRes (β × Block α)) : Cpp (Heap α) β := fun h =>
  match p with
  | none => .fault
  | some a =>
    match h.block a with
    | none => .fault
    | some b =>
      match f b with
      | none => .fault
      | some (v, b) => .ok v (h.put a (some b))

/-- `new (&p[i]) T(v)` -/
def construct (p : Ptr) (i : Int) (v : Option α) : Cpp (Heap α) Unit :=
  access p fun b => (Mem.construct b i v).map fun b => ((), b)

/-- `p[i].~T()` -/
def destroy (p : Ptr) (i : Int) : Cpp (Heap α) Unit :=
  access p fun b => (Mem.destroy b i).map fun b => ((), b)

/-- `p[i] = v` -/
def assign (p : Ptr) (i : Int) (v : Option α) : Cpp (Heap α) Unit :=
  access p fun b => (Mem.assign b i v).map fun b => ((), b)

/-- `std::move(p[i])` consumed by a constructor or assignment -/
def takeOut (mv : Option α → Option α) (p : Ptr) (i : Int) : Cpp (Heap α) (Option α) :=
  access p fun b => Mem.takeOut mv b i

/-- List.h 27-37 `CallDefaultCtors(&p[d], n)`; `dflt` as in `Mem.callDefaultCtors`. -/
def callDefaultCtors (dflt : Option α) (p : Ptr) (d : Int) : Nat → Cpp (Heap α) Unit
  | 0 => pure ()
  | n + 1 => do
    callDefaultCtors dflt p d n
    construct p (d + n) dflt

/-- List.h 55-69 `CallMoveCtors(&dst[d], &src[s], n)`.  `memcpy` (trivial types) must not overlap; the model demands that
for all types. -/
def callMoveCtors (mv : Option α → Option α) (dst : Ptr) (d : Int) (src : Ptr) (s : Int) (n : Nat) :
    Cpp (Heap α) Unit :=
  if n = 0 ∨ dst ≠ src ∨ d + n ≤ s ∨ s + n ≤ d then loop n else Cpp.faulting
where
  loop : Nat → Cpp (Heap α) Unit
    | 0 => pure ()
    | n + 1 => do
      loop n
      let v ← takeOut mv src (s + n)
      construct dst (d + n) v

/-- List.h 76-82: forward loop of `CallMoveAssignmentsOverlapped`. -/
def moveAssignFwd (mv : Option α → Option α) (p : Ptr) (d s : Int) : Nat → Cpp (Heap α) Unit
  | 0 => pure ()
  | n + 1 => do
    moveAssignFwd mv p d s n
    let v ← takeOut mv p (s + n)
    assign p (d + n) v

/-- List.h 83-89: backward loop of `CallMoveAssignmentsOverlapped`. -/
def moveAssignBwd (mv : Option α → Option α) (p : Ptr) (d s : Int) : Nat → Cpp (Heap α) Unit
  | 0 => pure ()
  | n + 1 => do
    let v ← takeOut mv p (s + n)
    assign p (d + n) v
    moveAssignBwd mv p d s n

/-- List.h 71-95 `CallMoveAssignmentsOverlapped(&p[d], &p[s], count)`. -/
def callMoveAssignmentsOverlapped (mv : Option α → Option α) (p : Ptr) (d s : Int) (count : Int) : Cpp (Heap α) Unit :=
  if d < s then moveAssignFwd mv p d s count.toNat
  else if s < d then moveAssignBwd mv p d s count.toNat
  else pure ()

/-- List.h 97-107 `CallDtors(&p[d], n)`. -/
def callDtors (p : Ptr) (d : Int) : Nat → Cpp (Heap α) Unit
  | 0 => pure ()
  | n + 1 => do
    callDtors p d n
    destroy p (d + n)

/-- List.h 109-114 `AllocateBuffer`.  Simplification: `malloc` succeeds. -/
def allocateBuffer (size : Int) : Cpp (Heap α) Ptr := fun h =>
  if size ≤ 0 then .ok none h
  else .ok (some h.next) ⟨h.next + 1, fun n => if n = h.next then some ⟨size, fun _ => .raw⟩ else h.block n⟩

/-- List.h 116-121 `DeallocateBuffer`.  Releasing a buffer twice is undefined; releasing a buffer that still contains
objects would leak them, which the model treats as a fault. -/
def deallocateBuffer (p : Ptr) : Cpp (Heap α) Unit := fun h =>
  match p with
  | none => .ok () h
  | some a =>
    match h.block a with
    | none => .fault
    | some b =>
      match Mem.deallocateBuffer b with
      | none => .fault
      | some _ => .ok () (h.put a none)

/-- List.h 123-146 `ReleaseUnnecessaryBuffer(items, capacity, oldCount, newCount)`; returns the new
`(items, capacity)`. -/
def releaseUnnecessaryBuffer (mv : Option α → Option α) (items : Ptr) (capacity oldCount newCount : Int) :
    Cpp (Heap α) (Ptr × Int) :=
  if items = none then pure (items, capacity) else do
    (show Cpp (Heap α) Unit from if newCount < oldCount then callDtors items newCount (oldCount - newCount).toNat else pure ())
    if newCount ≤ capacity / 2 ∧ newCount ≤ 8 then
      let newCapacity := capacity * 5 / 8
      if newCount < newCapacity then
        let newBuffer ← allocateBuffer newCapacity
        callMoveCtors mv newBuffer 0 items 0 newCount.toNat
        callDtors items 0 newCount.toNat
        deallocateBuffer items
        return (newBuffer, newCapacity)
      else return (items, capacity)
    else return (items, capacity)

/-- List.h 148-178 `InsertUninitializedItems(items, capacity, count, index, insertCount)`; returns the new
`(items, capacity, count)`. -/
def insertUninitializedItems (mv : Option α → Option α) (items : Ptr) (capacity count index insertCount : Int) :
    Cpp (Heap α) (Ptr × Int × Int) := do
  let newCount := count + insertCount
  if newCount > capacity then
    let newCapacity := if newCount < capacity then capacity else newCount * 5 / 4 + 1
    let newBuffer ← allocateBuffer newCapacity
    callMoveCtors mv newBuffer 0 items 0 index.toNat
    callMoveCtors mv newBuffer (index + insertCount) items index (count - index).toNat
    callDtors items 0 count.toNat
    deallocateBuffer items
    return (newBuffer, newCapacity, newCount)
  else if index < count then
    if insertCount ≥ count - index then
      callMoveCtors mv items (index + insertCount) items index (count - index).toNat
      callDtors items index (count - index).toNat
      return (items, capacity, newCount)
    else
      callMoveCtors mv items count items (count - insertCount) insertCount.toNat
      callMoveAssignmentsOverlapped mv items (index + insertCount) index (count - index - insertCount)
      callDtors items index insertCount.toNat
      return (items, capacity, newCount)
  else return (items, capacity, newCount)

end Heap

/-- The data members of `ListBase<T>` (List.h 265-266, 463). -/
structure ListH where
  buffer : Ptr
  count : Int
  capacity : Int
  deriving DecidableEq

namespace ListH
variable {α β κ : Type}

/-- Default constructor. -/
def empty : ListH := ⟨none, 0, 0⟩

/-- a function of `memory_management` called in a member function -/
def onHeap (m : Cpp (Heap α) β) : Cpp (Heap α × ListH) β := fun s =>
  match m s.1 with
  | .ok v h => .ok v (h, s.2)
  | .err h => .err (h, s.2)
  | .fault => .fault

/-- the members -/
def members : Cpp (Heap α × ListH) ListH := fun s => .ok s.2 s
def setMembers (l : ListH) : Cpp (Heap α × ListH) Unit := fun s => .ok () (s.1, l)

/-- the list with its buffer; undefined if the buffer was released -/
def view (s : Heap α × ListH) : Option (ListC α) :=
  match s.2.buffer with
  | none => some ⟨Block.null, s.2.count, s.2.capacity⟩
  | some a => (s.1.block a).map fun b => ⟨b, s.2.count, s.2.capacity⟩

/-- Member functions that only read: those of `ListC` and `SortedListC`, applied to the buffer. -/
def reading (m : Cpp (ListC α) β) : Cpp (Heap α × ListH) β := fun s =>
  match view s with
  | none => .fault
  | some l =>
    match m l with
    | .ok v _ => .ok v s
    | .err _ => .err s
    | .fault => .fault

section
variable (mv : Option α → Option α)

/-- List.h 729-743 protected `SortedList::Insert`. -/
def insertRaw (index : Int) (item : α) : Cpp (Heap α × ListH) Int := do
  let s ← members
  let (p, cap, cnt) ← onHeap (Heap.insertUninitializedItems mv s.buffer s.capacity s.count index 1)
  onHeap (Heap.construct p index (some item))
  setMembers ⟨p, cnt, cap⟩
  return index

/-- List.h 605-611 and 617-623 `List::Insert`; the argument does not live in this list's buffer. -/
def insert (index : Int) (item : α) : Cpp (Heap α × ListH) Int := do
  let s ← members
  Cpp.check (index ≥ 0 ∧ index ≤ s.count)
  insertRaw mv index item

/-- List.h 588-599 `List::Add`. -/
def add (item : α) : Cpp (Heap α × ListH) Int := do
  let s ← members
  insert mv s.count item

/-- List.h 646-651 and 657-662 `List::Set`. -/
def setAt (index : Int) (item : α) : Cpp (Heap α × ListH) Bool := do
  let s ← members
  Cpp.check (index ≥ 0 ∧ index < s.count)
  onHeap (Heap.assign s.buffer index (some item))
  return true

/-- List.h 507-515 `ListBase::RemoveAt`. -/
def removeAt (index : Int) : Cpp (Heap α × ListH) Bool := do
  let s ← members
  let previousCount := s.count
  Cpp.check (index ≥ 0 ∧ index < s.count)
  onHeap (Heap.callMoveAssignmentsOverlapped mv s.buffer index (index + 1) (s.count - index - 1))
  let (p, cap) ← onHeap (Heap.releaseUnnecessaryBuffer mv s.buffer s.capacity previousCount (s.count - 1))
  setMembers ⟨p, s.count - 1, cap⟩
  return true

/-- List.h 521-530 `ListBase::RemoveRange`. -/
def removeRange (index count : Int) : Cpp (Heap α × ListH) Bool := do
  let s ← members
  let previousCount := s.count
  Cpp.check (index ≥ 0 ∧ index ≤ s.count)
  Cpp.check (index + count ≥ 0 ∧ index + count ≤ s.count)
  onHeap (Heap.callMoveAssignmentsOverlapped mv s.buffer index (index + count) (s.count - index - count))
  let (p, cap) ← onHeap (Heap.releaseUnnecessaryBuffer mv s.buffer s.capacity previousCount (s.count - count))
  setMembers ⟨p, s.count - count, cap⟩
  return true

/-- List.h 628-640 `List::Remove`. -/
def remove (eq : α → κ → Bool) (item : κ) : Cpp (Heap α × ListH) Bool := do
  let index ← reading (ListC.indexOf eq item)
  let s ← members
  if index ≥ 0 ∧ index < s.count then
    let _ ← removeAt mv index
    return true
  else
    return false

/-- List.h 745-774 `AddInternal` and 806-817 `SortedList::Add`. -/
def sortedAdd (cmp : α → κ → Option Ordering) (key : α → κ) (item : α) : Cpp (Heap α × ListH) Int := do
  let s ← members
  if s.count = 0 then insertRaw mv 0 item
  else
    let r ← reading (SortedListC.indexOfInternal cmp (key item))
    let outputIndex := r.2
    Cpp.check (outputIndex ≥ 0 ∧ outputIndex < s.count)
    let x ← reading (ListC.get outputIndex)
    if cmp x (key item) = some .lt then insertRaw mv (outputIndex + 1) item
    else insertRaw mv outputIndex item

/-- List.h 822-834 `SortedList::Remove`. -/
def sortedRemove (cmp : α → κ → Option Ordering) (item : κ) : Cpp (Heap α × ListH) Bool := do
  let index ← reading (SortedListC.indexOf cmp item)
  let s ← members
  if index ≥ 0 ∧ index < s.count then
    let _ ← removeAt mv index
    return true
  else
    return false

end

/-- List.h 534-543 `ListBase::Clear`. -/
def clear : Cpp (Heap α × ListH) Bool := do
  let s ← members
  onHeap (Heap.callDtors s.buffer 0 s.count.toNat)
  onHeap (Heap.deallocateBuffer s.buffer)
  setMembers ⟨none, 0, 0⟩
  return true

/-- List.h 467-474 `~ListBase`.  The members keep their values. -/
def destructor : Cpp (Heap α × ListH) Unit := do
  let s ← members
  if s.buffer ≠ none then
    onHeap (Heap.callDtors s.buffer 0 s.count.toNat)
    onHeap (Heap.deallocateBuffer s.buffer)

/-- One call on a `List<T>`. `Count()` is List.h 278-281. -/
def step (mv : Option α → Option α) (eq : α → κ → Bool) : Spec.SeqOp α κ → Cpp (Heap α × ListH) (Spec.SeqRet α)
  | .add v => do return .index (← add mv v)
  | .insert i v => do return .index (← insert mv i v)
  | .set i v => do return .flag (← setAt i v)
  | .remove k => do return .flag (← remove mv eq k)
  | .removeAt i => do return .flag (← removeAt mv i)
  | .removeRange i n => do return .flag (← removeRange mv i n)
  | .clear => do return .flag (← clear)
  | .get i => do return .value (← reading (ListC.get i))
  | .count => do return .index (← members).count
  | .indexOf k => do return .index (← reading (ListC.indexOf eq k))
  | .contains k => do return .flag (← reading (ListC.contains eq k))

/-- One call on a `SortedList<T>`. -/
def sortedStep (mv : Option α → Option α) (cmp : α → κ → Option Ordering) (key : α → κ) :
    Spec.SortedOp α κ → Cpp (Heap α × ListH) (Spec.SeqRet α)
  | .add v => do return .index (← sortedAdd mv cmp key v)
  | .remove k => do return .flag (← sortedRemove mv cmp k)
  | .removeAt i => do return .flag (← removeAt mv i)
  | .removeRange i n => do return .flag (← removeRange mv i n)
  | .clear => do return .flag (← clear)
  | .get i => do return .value (← reading (ListC.get i))
  | .count => do return .index (← members).count
  | .indexOf k => do return .index (← reading (SortedListC.indexOf cmp k))
  | .contains k => do return .flag (← reading (SortedListC.contains cmp k))

end ListH

/-- Many lists, numbered by `Nat`, and the heap they share.  Storage in which no list lives is represented by the members
of an empty list. -/
structure ListWorld (α : Type) where
  heap : Heap α
  lists : Nat → ListH

namespace ListWorld
variable {α β κ : Type}

def empty : ListWorld α := ⟨Heap.empty, fun _ => ListH.empty⟩

def put (w : ListWorld α) (i : Nat) (l : ListH) : ListWorld α := { w with lists := fun n => if n = i then l else w.lists n }

/-- call a member function of list `i` -/
def on (i : Nat) (m : Cpp (Heap α × ListH) β) : Cpp (ListWorld α) β := fun w =>
  match m (w.heap, w.lists i) with
  | .ok v (h, l) => .ok v ({ w with heap := h }.put i l)
  | .err (h, l) => .err ({ w with heap := h }.put i l)
  | .fault => .fault

/-- List `i` is destroyed; afterwards there is no list in its storage. -/
def destroy (i : Nat) : Cpp (ListWorld α) Unit := do
  on i ListH.destructor
  on i (ListH.setMembers ListH.empty)

/-- List.h 477-485: a list is constructed in the storage `i` from list `j`. -/
def moveConstruct (i j : Nat) : Cpp (ListWorld α) Unit := do
  let source := fun (w : ListWorld α) => w.lists j
  let w ← Cpp.get
  Cpp.set (w.put i { w.lists i with buffer := (source w).buffer })
  let w ← Cpp.get
  Cpp.set (w.put i { w.lists i with count := (source w).count })
  let w ← Cpp.get
  Cpp.set (w.put i { w.lists i with capacity := (source w).capacity })
  let w ← Cpp.get
  Cpp.set (w.put j { source w with buffer := none })
  let w ← Cpp.get
  Cpp.set (w.put j { source w with count := 0 })
  let w ← Cpp.get
  Cpp.set (w.put j { source w with capacity := 0 })

/-- List.h 488-502 `operator=(ListBase&&)`, also for `i = j`: after the buffer of `i` is released, the assignments are those
of the move constructor. -/
def moveAssign (i j : Nat) : Cpp (ListWorld α) Unit := do
  on i ListH.destructor
  moveConstruct i j

/-- Lists whose member functions are `step`. -/
def movable {Op Ret : Type} (step : Op → Cpp (Heap α × ListH) Ret) : Movable (ListWorld α) Op Ret where
  call := fun i op => on i (step op)
  moveAssign := moveAssign
  moveConstruct := moveConstruct
  renew := destroy

end ListWorld
end Vlpp
