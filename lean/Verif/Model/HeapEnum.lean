import Verif.Model.HeapRef
import Verif.Model.HeapDict
import Verif.Spec.Cursor

/-!
# Model of enumerators of containers on the heap

An enumerator has a pointer to its container; the pair that an enumerator of a dictionary holds consists of references to cells of buffers
on the heap.  Simplification: a container that is destroyed is followed by another one in the same storage, which is the one that the
pointers to it point to from then on.  The number of calls of `Next` does not reach the maximum of `vint`.
-/
set_option autoImplicit false
namespace Vlpp

/-- A class of enumerators with the members `E` (Interfaces.h 33-66); the containers are in the memory `σ`. -/
structure EnumClass (σ E α : Type) where
  create : Nat → E
  clone : E → E
  next : Cpp (σ × E) Bool
  /-- `Current`, and reading what the result refers to -/
  current : Cpp (σ × E) α
  index : Cpp (σ × E) Int
  reset : Cpp (σ × E) Unit

namespace EnumClass
variable {σ E β : Type}

/-- call a function of the container -/
def onObjects (m : Cpp σ β) : Cpp (σ × E) β := fun s =>
  match m s.1 with
  | .ok v w => .ok v (w, s.2)
  | .err w => .err (w, s.2)
  | .fault => .fault

def members : Cpp (σ × E) E := fun s => .ok s.2 s
def setMembers (e : E) : Cpp (σ × E) Unit := fun s => .ok () (s.1, e)

end EnumClass

/-- Containers and enumerators. -/
structure EnumWorld (σ E : Type) where
  objects : σ
  enums : Nat → E

namespace EnumWorld
variable {σ E α β Op Ret : Type}

/-- call a member function of enumerator `e` -/
def on (e : Nat) (m : Cpp (σ × E) β) : Cpp (EnumWorld σ E) β := fun w =>
  match m (w.objects, w.enums e) with
  | .ok v s => .ok v ⟨s.1, fun n => if n = e then s.2 else w.enums n⟩
  | .err s => .err ⟨s.1, fun n => if n = e then s.2 else w.enums n⟩
  | .fault => .fault

/-- One step of a program; `none` is undefined behaviour. -/
def step (M : Movable σ Op Ret) (K : EnumClass σ E α) (moved error : Ret) (w : EnumWorld σ E) :
    Spec.CursorOp Op → Option (EnumWorld σ E × Spec.CursorRet Ret α)
  | .object op => (M.step moved error w.objects op).map fun p => (⟨p.1, w.enums⟩, .object p.2)
  | .create e i => some (⟨w.objects, fun n => if n = e then K.create i else w.enums n⟩, .done)
  | .clone e f => some (⟨w.objects, fun n => if n = e then K.clone (w.enums f) else w.enums n⟩, .done)
  | .next e => Movable.observe .error ((do return .flag (← on e K.next) : Cpp (EnumWorld σ E) (Spec.CursorRet Ret α)) w)
  | .current e => Movable.observe .error ((do return .item (← on e K.current) : Cpp (EnumWorld σ E) (Spec.CursorRet Ret α)) w)
  | .index e => Movable.observe .error ((do return .index (← on e K.index) : Cpp (EnumWorld σ E) (Spec.CursorRet Ret α)) w)
  | .reset e => Movable.observe .error ((do let _ ← on e K.reset; return .done : Cpp (EnumWorld σ E) (Spec.CursorRet Ret α)) w)

def run (M : Movable σ Op Ret) (K : EnumClass σ E α) (moved error : Ret) (w : EnumWorld σ E) :
    List (Spec.CursorOp Op) → Option (EnumWorld σ E × List (Spec.CursorRet Ret α))
  | [] => some (w, [])
  | op :: ops => do
    let (w, r) ← step M K moved error w op
    let (w, rs) ← run M K moved error w ops
    return (w, r :: rs)

end EnumWorld

open EnumClass

/-- List.h 222-224: the members of `ArrayBase<T>::Enumerator` -/
structure ListEnum where
  container : Nat
  index : Int

namespace ListEnum
variable {α : Type}

/-- List.h 278-281 `Count` of list `i` -/
def count (i : Nat) : Cpp (ListWorld α × ListEnum) Int := onObjects (ListWorld.on i (do return (← ListH.members).count))

/-- List.h 248-252 `Next` -/
def next : Cpp (ListWorld α × ListEnum) Bool := do
  let s ← members
  setMembers { s with index := s.index + 1 }
  let s ← members
  if s.index ≥ 0 then
    let n ← count s.container
    return decide (s.index < n)
  else
    return false

/-- List.h 238-241 `Current`; the reference to the element is read -/
def current : Cpp (ListWorld α × ListEnum) α := do
  let s ← members
  let r ← onObjects (ListWorld.on s.container (ListH.refAt s.index))
  onObjects (ListWorld.on s.container (ListH.onHeap r.read))

/-- List.h 254-257 `Reset` -/
def reset : Cpp (ListWorld α × ListEnum) Unit := do
  let s ← members
  setMembers { s with index := -1 }

/-- List.h 220-263, 271-274 -/
def cls : EnumClass (ListWorld α) ListEnum α where
  create i := ⟨i, -1⟩
  clone s := ⟨s.container, s.index⟩
  next := next
  current := current
  index := do return (← members).index
  reset := reset

end ListEnum

/-- Dictionary.h 32-34: the members of `Dictionary<KT, VT>::Enumerator` -/
structure DictEnum (κ ν : Type) where
  container : Nat
  index : Int
  current : Option (ElemRef κ × ElemRef ν)

namespace DictEnum
variable {κ ν : Type}

/-- Dictionary.h 161-164 `Count` of dictionary `i` -/
def count (i : Nat) : Cpp (DictWorld κ ν × DictEnum κ ν) Int :=
  onObjects (DictWorld.onKeys (ListWorld.on i (do return (← ListH.members).count)))

/-- Dictionary.h 36-42 `UpdateCurrent` -/
def updateCurrent : Cpp (DictWorld κ ν × DictEnum κ ν) Unit := do
  let s ← members
  let n ← count s.container
  if s.index < n then
    let k ← onObjects (DictWorld.onKeys (ListWorld.on s.container (ListH.refAt s.index)))
    let v ← onObjects (DictWorld.onValues (ListWorld.on s.container (ListH.refAt s.index)))
    setMembers { s with current := some (k, v) }
  else
    return ()

/-- Dictionary.h 65-70 `Next` -/
def next : Cpp (DictWorld κ ν × DictEnum κ ν) Bool := do
  let s ← members
  setMembers { s with index := s.index + 1 }
  updateCurrent
  let s ← members
  if s.index ≥ 0 then
    let n ← count s.container
    return decide (s.index < n)
  else
    return false

/-- Dictionary.h 55-58 `Current`: `Nullable::Value` checks that there is a pair; the references in it are read -/
def readCurrent : Cpp (DictWorld κ ν × DictEnum κ ν) (κ × ν) := do
  let s ← members
  match s.current with
  | none => fun s => .err s
  | some (k, v) => do
    let k ← onObjects (DictWorld.onKeys (ListWorld.on s.container (ListH.onHeap k.read)))
    let v ← onObjects (DictWorld.onValues (ListWorld.on s.container (ListH.onHeap v.read)))
    return (k, v)

/-- Dictionary.h 72-76 `Reset` -/
def reset : Cpp (DictWorld κ ν × DictEnum κ ν) Unit := do
  let s ← members
  setMembers { s with index := -1 }
  updateCurrent

/-- Dictionary.h 29-82, 140-143 -/
def cls : EnumClass (DictWorld κ ν) (DictEnum κ ν) (κ × ν) where
  create i := ⟨i, -1, none⟩
  clone s := ⟨s.container, s.index, none⟩
  next := next
  current := readCurrent
  index := do return (← members).index
  reset := reset

end DictEnum
end Vlpp
