import Verif.Model.ListC
import Verif.Spec.Arr

/-!
# Model of `Array<T>` (Source/Collections/List.h 309-450)

`dflt` is what a default-constructed element contains: `some v` for class types; `none` (indeterminate) for
types where `is_trivially_constructible_v` makes `CallDefaultCtors` do nothing (List.h 27-37).
-/
set_option autoImplicit false
namespace Vlpp

/-- Data members of `Array<T>` (List.h 265-266). -/
structure ArrayC (α : Type) where
  buffer : Block α
  count : Int

namespace ArrayC
variable {α κ : Type}

/-- Default construction leaves `buffer = nullptr, count = 0`. -/
def null : ArrayC α := ⟨Block.null, 0⟩

def mem {β : Type} (r : MemRes β) : Cpp (ArrayC α) β := fun s =>
  match r with
  | some v => .ok v s
  | none => .fault

/-- List.h 319-325 `Array(vint size)`.  The state before is ignored (raw storage); an exception leaves no object. -/
def new (dflt : Option α) (size : Int) : Outcome Unit (ArrayC α) :=
  if size ≥ 0 then
    match Mem.callDefaultCtors dflt (Mem.allocateBuffer size) 0 size.toNat with
    | some b => .ok ⟨b, size⟩ ()
    | none => .fault
  else .err ()

/-- List.h 39-53 `CallCopyCtors(buffer, source, n)` from a caller supplied array `source`. -/
def copyFrom (b : Block α) (src : Int → Option α) : Nat → MemRes (Block α)
  | 0 => some b
  | n + 1 => do
    let b ← copyFrom b src n
    Mem.construct b n (src n)

/-- List.h 331-337 `Array(const T*, vint)`; `src` must have at least `size` elements. -/
def newFrom (src : Int → Option α) (size : Int) : Outcome Unit (ArrayC α) :=
  if size ≥ 0 then
    match copyFrom (Mem.allocateBuffer size) src size.toNat with
    | some b => .ok ⟨b, size⟩ ()
    | none => .fault
  else .err ()

/-- List.h 339-346 `~Array`. -/
def destructor : Cpp (ArrayC α) Unit := do
  let s ← Cpp.get
  if s.buffer.size ≠ 0 then
    let b ← mem (Mem.callDtors s.buffer 0 s.count.toNat)
    mem (Mem.deallocateBuffer b)

/-- List.h 286-290 `ArrayBase::Get`. -/
def get (index : Int) : Cpp (ArrayC α) α := do
  let s ← Cpp.get
  Cpp.check (index ≥ 0 ∧ index < s.count)
  mem (ListC.readVal s.buffer index)

/-- List.h 399-404 and 410-415 `Array::Set`. -/
def setAt (index : Int) (item : α) : Cpp (ArrayC α) Bool := do
  let s ← Cpp.get
  Cpp.check (index ≥ 0 ∧ index < s.count)
  let b ← mem (Mem.assign s.buffer index (some item))
  Cpp.set ⟨b, s.count⟩
  return true

/-- List.h 383-393 `Array::IndexOf` (same loop as `List::IndexOf`). -/
def indexOf (eq : α → κ → Bool) (item : κ) : Cpp (ArrayC α) Int := do
  let s ← Cpp.get
  mem (ListC.indexOfLoop eq s.buffer item 0 s.count.toNat)

/-- List.h 431-449 `Array::Resize`. -/
def resize (mv : Option α → Option α) (dflt : Option α) (size : Int) : Cpp (ArrayC α) Bool := do
  let s ← Cpp.get
  Cpp.check (size ≥ 0)
  let newBuffer := Mem.allocateBuffer size
  let (newBuffer, old) ← mem (show MemRes (Block α × Block α) from
    if size < s.count then Mem.callMoveCtorsTo mv newBuffer s.buffer 0 0 size.toNat
    else do
      let (newBuffer, old) ← Mem.callMoveCtorsTo mv newBuffer s.buffer 0 0 s.count.toNat
      let newBuffer ← Mem.callDefaultCtors dflt newBuffer s.count (size - s.count).toNat
      return (newBuffer, old))
  let old ← mem (Mem.callDtors old 0 s.count.toNat)
  mem (Mem.deallocateBuffer old)
  Cpp.set ⟨newBuffer, size⟩
  return true

/-- List.h 349-355 and 358-370: move construction and (to a different array) move assignment. -/
def moveAssign (dst src : ArrayC α) : Outcome (ArrayC α × ArrayC α) Unit :=
  match destructor dst with
  | .ok _ _ => .ok () (⟨src.buffer, src.count⟩, null)
  | .err _ => .err (dst, src)
  | .fault => .fault

def observe {β : Type} (ret : β → Spec.SeqRet α) : Outcome (ArrayC α) β → Option (ArrayC α × Spec.SeqRet α)
  | .ok v s => some (s, ret v)
  | .err s => some (s, .error)
  | .fault => none

/-- One call on an `Array<T>`. `none` is undefined behaviour. -/
def step (mv : Option α → Option α) (eq : α → κ → Bool) (dflt : Option α) (s : ArrayC α) :
    Spec.ArrOp α κ → Option (ArrayC α × Spec.SeqRet α)
  | .set i v => observe .flag (setAt i v s)
  | .get i => observe .value (get i s)
  | .count => some (s, .index s.count)
  | .resize n => observe .flag (resize mv dflt n s)
  | .indexOf k => observe .index (indexOf eq k s)

def run (mv : Option α → Option α) (eq : α → κ → Bool) (dflt : Option α) (s : ArrayC α) :
    List (Spec.ArrOp α κ) → Option (ArrayC α × List (Spec.SeqRet α))
  | [] => some (s, [])
  | op :: ops => do
    let (s, r) ← step mv eq dflt s op
    let (s, rs) ← run mv eq dflt s ops
    return (s, r :: rs)

end ArrayC
end Vlpp
