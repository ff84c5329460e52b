import Verif.Model.Outcome

/-!
# Model of `vl::collections::memory_management` (Source/Collections/List.h 22-208)

A buffer is a block of cells.  A cell is raw memory or holds an object; the object's value is an
`Option α`: `none` is the unspecified value of an object that has been moved from.  What a moved-from
object contains is a parameter `mv` (for trivially copyable types, where `memcpy`/`memmove` is used,
`mv = some`).
-/
set_option autoImplicit false
namespace Vlpp

/-- One slot of a buffer: raw memory, or a constructed object.  The value is `none` for a moved-from object. -/
inductive Cell (α : Type) where
  | raw
  | obj (v : Option α)
  deriving Repr, DecidableEq

/-- is this cell raw memory? -/
def Cell.isRaw {α : Type} : Cell α → Bool
  | .raw => true
  | .obj _ => false

/-- A buffer returned by `AllocateBuffer<T>(size)` (List.h 109-114); `size = 0` models `nullptr`. -/
structure Block (α : Type) where
  size : Int
  cell : Int → Cell α

namespace Block
variable {α : Type}

/-- `nullptr` -/
def null : Block α := ⟨0, fun _ => .raw⟩

/-- `i` is inside the block. -/
def In (b : Block α) (i : Int) : Prop := 0 ≤ i ∧ i < b.size
instance (b : Block α) (i : Int) : Decidable (b.In i) := by unfold In; infer_instance

/-- overwrite one cell -/
def upd (b : Block α) (i : Int) (c : Cell α) : Block α := ⟨b.size, fun j => if j = i then c else b.cell j⟩

end Block

/-- Result of a raw memory operation; `none` is undefined behaviour. (These helpers never throw.) -/
abbrev MemRes (β : Type) := Option β

namespace Mem
variable {α : Type}

/-- `new (&items[i]) T(v)`: only legal on raw memory inside the block. -/
def construct (b : Block α) (i : Int) (v : Option α) : MemRes (Block α) :=
  if b.In i ∧ (b.cell i).isRaw = true then some (b.upd i (.obj v)) else none

/-- `items[i].~T()`: only legal on a live object inside the block. -/
def destroy (b : Block α) (i : Int) : MemRes (Block α) :=
  if b.In i ∧ (b.cell i).isRaw = false then some (b.upd i .raw) else none

/-- value of a live object (reading through `const T&`) -/
def read (b : Block α) (i : Int) : MemRes (Option α) :=
  if b.In i then
    match b.cell i with
    | .raw => none
    | .obj v => some v
  else none

/-- `items[i] = v` on a live object -/
def assign (b : Block α) (i : Int) (v : Option α) : MemRes (Block α) :=
  if b.In i ∧ (b.cell i).isRaw = false then some (b.upd i (.obj v)) else none

/-- `std::move(items[i])` consumed by a constructor or assignment: yields the value, leaves `mv` of it behind. -/
def takeOut (mv : Option α → Option α) (b : Block α) (i : Int) : MemRes (Option α × Block α) :=
  if b.In i then
    match b.cell i with
    | .raw => none
    | .obj v => some (v, b.upd i (.obj (mv v)))
  else none

/-- List.h 27-37 `CallDefaultCtors`.  `dflt` is the value of `T()`.  For trivially constructible `T` the
code constructs nothing (the memory stays uninitialised): then `dflt = none`, an unspecified value. -/
def callDefaultCtors (dflt : Option α) (b : Block α) (d : Int) : Nat → MemRes (Block α)
  | 0 => some b
  | n + 1 => do
    let b ← callDefaultCtors dflt b d n
    construct b (d + n) dflt

/-- List.h 55-69 `CallMoveCtors(&dst[d], &src[s], n)` between two different blocks.
`for (i = 0; i < n; i++) new (&dst[d+i]) T(std::move(src[s+i]));` The recursion performs iterations `0..n-1` in order. -/
def callMoveCtorsTo (mv : Option α → Option α) (dst src : Block α) (d s : Int) : Nat → MemRes (Block α × Block α)
  | 0 => some (dst, src)
  | n + 1 => do
    let (dst, src) ← callMoveCtorsTo mv dst src d s n
    let (v, src) ← takeOut mv src (s + n)
    let dst ← construct dst (d + n) v
    return (dst, src)

/-- List.h 55-69 `CallMoveCtors(&b[d], &b[s], n)` inside one block. For trivial types this is a `memcpy`,
which must not overlap; the model demands non-overlap for all types. -/
def callMoveCtorsIn (mv : Option α → Option α) (b : Block α) (d s : Int) (n : Nat) : MemRes (Block α) :=
  if n = 0 ∨ d + n ≤ s ∨ s + n ≤ d then go n else none
where
  go : Nat → MemRes (Block α)
    | 0 => some b
    | n + 1 => do
      let b ← go n
      let (v, b) ← takeOut mv b (s + n)
      construct b (d + n) v

/-- List.h 76-82: forward loop of `CallMoveAssignmentsOverlapped` (`items < source`). -/
def moveAssignFwd (mv : Option α → Option α) (b : Block α) (d s : Int) : Nat → MemRes (Block α)
  | 0 => some b
  | n + 1 => do
    let b ← moveAssignFwd mv b d s n
    let (v, b) ← takeOut mv b (s + n)
    assign b (d + n) v

/-- List.h 83-89: backward loop of `CallMoveAssignmentsOverlapped` (`items > source`),
`for (i = n-1; i >= 0; i--)`. -/
def moveAssignBwd (mv : Option α → Option α) (b : Block α) (d s : Int) : Nat → MemRes (Block α)
  | 0 => some b
  | n + 1 => do
    let (v, b) ← takeOut mv b (s + n)
    let b ← assign b (d + n) v
    moveAssignBwd mv b d s n

/-- List.h 71-95 `CallMoveAssignmentsOverlapped(&b[d], &b[s], count)`.  `memmove` (trivial types) has the same
effect.  A negative count runs no iteration. -/
def callMoveAssignmentsOverlapped (mv : Option α → Option α) (b : Block α) (d s : Int) (count : Int) :
    MemRes (Block α) :=
  if d < s then moveAssignFwd mv b d s count.toNat
  else if s < d then moveAssignBwd mv b d s count.toNat
  else some b

/-- List.h 97-107 `CallDtors(&b[d], n)`. -/
def callDtors (b : Block α) (d : Int) : Nat → MemRes (Block α)
  | 0 => some b
  | n + 1 => do
    let b ← callDtors b d n
    destroy b (d + n)

/-- List.h 109-114 `AllocateBuffer`. -/
def allocateBuffer (size : Int) : Block α := if size ≤ 0 then Block.null else ⟨size, fun _ => .raw⟩

/-- List.h 116-121 `DeallocateBuffer`.  Releasing a block that still contains objects would leak them; the model
treats that as a fault, so that "no fault" includes "no leak". -/
def deallocateBuffer (b : Block α) : MemRes Unit :=
  if (List.range b.size.toNat).all (fun (i : Nat) => (b.cell i).isRaw) then some () else none

/-- List.h 123-146 `ReleaseUnnecessaryBuffer(items, capacity, oldCount, newCount)`; returns the new
`(items, capacity)`. -/
def releaseUnnecessaryBuffer (mv : Option α → Option α) (items : Block α) (capacity oldCount newCount : Int) :
    MemRes (Block α × Int) :=
  if items.size = 0 then some (items, capacity) else do
    let items ← (show MemRes _ from
      if newCount < oldCount then callDtors items newCount (oldCount - newCount).toNat else some items)
    if newCount ≤ capacity / 2 ∧ newCount ≤ 8 then
      let newCapacity := capacity * 5 / 8
      if newCount < newCapacity then
        let newBuffer := allocateBuffer newCapacity
        let (newBuffer, items) ← callMoveCtorsTo mv newBuffer items 0 0 newCount.toNat
        let items ← callDtors items 0 newCount.toNat
        deallocateBuffer items
        return (newBuffer, newCapacity)
      else return (items, capacity)
    else return (items, capacity)

/-- List.h 148-178 `InsertUninitializedItems(items, capacity, count, index, insertCount)`; returns the new
`(items, capacity, count)`. -/
def insertUninitializedItems (mv : Option α → Option α) (items : Block α) (capacity count index insertCount : Int) :
    MemRes (Block α × Int × Int) :=
  let newCount := count + insertCount
  if newCount > capacity then do
    let newCapacity := if newCount < capacity then capacity else newCount * 5 / 4 + 1
    let newBuffer := allocateBuffer newCapacity
    let (newBuffer, items) ← callMoveCtorsTo mv newBuffer items 0 0 index.toNat
    let (newBuffer, items) ← callMoveCtorsTo mv newBuffer items (index + insertCount) index (count - index).toNat
    let items ← callDtors items 0 count.toNat
    deallocateBuffer items
    return (newBuffer, newCapacity, newCount)
  else if index < count then
    if insertCount ≥ count - index then do
      let items ← callMoveCtorsIn mv items (index + insertCount) index (count - index).toNat
      let items ← callDtors items index (count - index).toNat
      return (items, capacity, newCount)
    else do
      let items ← callMoveCtorsIn mv items count (count - insertCount) insertCount.toNat
      let items ← callMoveAssignmentsOverlapped mv items (index + insertCount) index (count - index - insertCount)
      let items ← callDtors items index insertCount.toNat
      return (items, capacity, newCount)
  else some (items, capacity, newCount)

end Mem
end Vlpp
