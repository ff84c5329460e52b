import Verif.Model.HeapGroup
import Verif.Spec.GroupArgs

/-!
# Model of calls whose arguments refer to elements of containers

`const T&` arguments are references: either to an object of the caller, or to an element of a list, which is a cell of a
buffer on the heap.  A reference is followed each time the callee reads the argument; following it into a buffer that was
released, or to a cell without an object, is undefined behaviour.  Only the `const&` overloads are modelled (an argument
moved out of a container is another matter).
-/
set_option autoImplicit false
namespace Vlpp

/-- A `const T&`. -/
inductive ElemRef (α : Type) where
  | temp (v : α)
  /-- cell `i` of the buffer that was at `p` when the reference was made -/
  | elem (p : Ptr) (i : Int)

/-- Read the object that is referred to. -/
def ElemRef.read {α : Type} : ElemRef α → Cpp (Heap α) α
  | .temp v => pure v
  | .elem p i => Heap.access p fun b => (ListC.readVal b i).map fun v => (v, b)

namespace ListH
variable {α κ : Type} (mv : Option α → Option α)

/-- List.h 286-290 `Get`, 295-299 `operator[]`: a reference to element `index`. -/
def refAt (index : Int) : Cpp (Heap α × ListH) (ElemRef α) := do
  let s ← members
  Cpp.check (index ≥ 0 ∧ index < s.count)
  return .elem s.buffer index

/-- List.h 605-611 `List::Insert(vint, const T&)` after the check of `index`, and 729-735 `SortedList::Insert`: the argument
is read by `CallCopyCtors`, after room was made for it. -/
def insertRawRef (index : Int) (item : ElemRef α) : Cpp (Heap α × ListH) Int := do
  let s ← members
  let (p, cap, cnt) ← onHeap (Heap.insertUninitializedItems mv s.buffer s.capacity s.count index 1)
  let v ← onHeap item.read
  onHeap (Heap.construct p index (some v))
  setMembers ⟨p, cnt, cap⟩
  return index

/-- List.h 605-611 `List::Insert(vint, const T&)`. -/
def insertRef (index : Int) (item : ElemRef α) : Cpp (Heap α × ListH) Int := do
  let s ← members
  Cpp.check (index ≥ 0 ∧ index ≤ s.count)
  insertRawRef mv index item

/-- List.h 588-591 `List::Add(const T&)`. -/
def addRef (item : ElemRef α) : Cpp (Heap α × ListH) Int := do
  let s ← members
  insertRef mv s.count item

/-- List.h 628-640 `List::Remove`: the argument is read by `IndexOf`. -/
def removeRef (eq : α → α → Bool) (item : ElemRef α) : Cpp (Heap α × ListH) Bool := do
  let v ← onHeap item.read
  remove mv eq v

/-- List.h 745-774 `AddInternal` and 806-809 `SortedList::Add(const T&)`. -/
def sortedAddRef (cmp : α → κ → Option Ordering) (key : α → κ) (item : ElemRef α) : Cpp (Heap α × ListH) Int := do
  let s ← members
  if s.count = 0 then insertRawRef mv 0 item
  else
    let v ← onHeap item.read
    let r ← reading (SortedListC.indexOfInternal cmp (key v))
    let outputIndex := r.2
    Cpp.check (outputIndex ≥ 0 ∧ outputIndex < s.count)
    let x ← reading (ListC.get outputIndex)
    let v ← onHeap item.read
    if cmp x (key v) = some .lt then insertRawRef mv (outputIndex + 1) item
    else insertRawRef mv outputIndex item

end ListH

namespace GroupWorld
variable {κ ν β : Type}

open Spec (KeyArg ValueArg)

/-- The reference that is passed for a key (Dictionary.h 428-431 `Keys`, List.h 295-299). -/
def evalKey : KeyArg κ → Cpp (GroupWorld κ ν) (ElemRef κ)
  | .temp k => pure (.temp k)
  | .elem j n => onKeys (ListWorld.on j (ListH.refAt n))

/-- The reference that is passed for a value (Dictionary.h 459-462 `operator[]`, List.h 295-299). -/
def evalValue (cmp : κ → κ → Option Ordering) : ValueArg κ ν → Cpp (GroupWorld κ ν) (ElemRef ν)
  | .temp v => pure (.temp v)
  | .elem j k m => do
    let index ← keyIndex cmp j k
    let target ← valueAt j index
    onTarget target (ListH.refAt m)

/-- Read the key that is referred to. -/
def readKey (r : ElemRef κ) : Cpp (GroupWorld κ ν) κ := onKeys (ListWorld.on 0 (ListH.onHeap r.read))

section
variable (mk : Option κ → Option κ) (mv : Option ν → Option ν) (cmp : κ → κ → Option Ordering) (eq : ν → ν → Bool)

/-- Dictionary.h 375-395 `AddInternal`; the key is read by `IndexOf` and again by `keys.Add`, the value by `target->Add`. -/
def addRef (i : Nat) (rk : ElemRef κ) (rv : ElemRef ν) : Cpp (GroupWorld κ ν) Bool := do
  let k ← readKey rk
  let index ← keyIndex cmp i k
  if index = -1 then
    let target ← newTarget
    let index ← onKeys (ListWorld.on i (ListH.sortedAddRef mk cmp id rk))
    let _ ← onValues (ListWorld.on i (ListH.insert id index target))
    let _ ← onTarget target (ListH.addRef mv rv)
    return true
  else
    let target ← valueAt i index
    let _ ← onTarget target (ListH.addRef mv rv)
    return true

/-- Dictionary.h 476-487 `Contains(key, value)`. -/
def containsRef (i : Nat) (rk : ElemRef κ) (rv : ElemRef ν) : Cpp (GroupWorld κ ν) Bool := do
  let k ← readKey rk
  let index ← keyIndex cmp i k
  if index ≠ -1 then
    let target ← valueAt i index
    onTarget target (do
      let v ← ListH.onHeap rv.read
      ListH.reading (ListC.contains eq v))
  else
    return false

/-- Dictionary.h 575-594 `Remove(key, value)`. -/
def removeRef (i : Nat) (rk : ElemRef κ) (rv : ElemRef ν) : Cpp (GroupWorld κ ν) Bool := do
  let k ← readKey rk
  let index ← keyIndex cmp i k
  if index ≠ -1 then
    let target ← valueAt i index
    let _ ← onTarget target (ListH.removeRef mv eq rv)
    let n ← onTarget target (do return (← ListH.members).count)
    if n = 0 then
      let _ ← onKeys (ListWorld.on i (ListH.removeAt mk index))
      let _ ← onValues (ListWorld.on i (ListH.removeAt id index))
      deleteTarget target
      return true
    else
      return true
  else
    return false

/-- One call on a group.  `Remove(key)` (Dictionary.h 550-565), `Get` (443-446) and `Contains(key)` (467-470) read the key
once, before they change anything, in `IndexOf`. -/
def callRef (i : Nat) : Spec.GroupOp (KeyArg κ) (ValueArg κ ν) → Cpp (GroupWorld κ ν) (Spec.GroupRet ν)
  | .add k v => do
    let rk ← evalKey k
    let rv ← evalValue cmp v
    return .flag (← addRef mk mv cmp i rk rv)
  | .removeKey k => do
    let rk ← evalKey k
    let k ← readKey rk
    return .flag (← removeKey mk cmp i k)
  | .remove k v => do
    let rk ← evalKey k
    let rv ← evalValue cmp v
    return (fun _ => .done) (← removeRef mk mv cmp eq i rk rv)
  | .clear => do return .flag (← clear i)
  | .get k => do
    let rk ← evalKey k
    let k ← readKey rk
    return .values (← get cmp i k)
  | .containsKey k => do
    let rk ← evalKey k
    let k ← readKey rk
    return .flag (← containsKey cmp i k)
  | .contains k v => do
    let rk ← evalKey k
    let rv ← evalValue cmp v
    return .flag (← containsRef cmp eq i rk rv)

end
end GroupWorld
end Vlpp
