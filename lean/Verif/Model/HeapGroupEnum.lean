import Verif.Model.HeapEnum
import Verif.Spec.GroupCursor

/-! # Model of enumerators of groups on the heap, as those of `Model/HeapEnum` -/
set_option autoImplicit false
namespace Vlpp
open EnumClass

/-- Dictionary.h 284-287: the members of `Group<KT, VT>::Enumerator` -/
structure GroupEnum (κ ν : Type) where
  container : Nat
  keyIndex : Int
  valueIndex : Int
  current : Option (ElemRef κ × ElemRef ν)

/-- Read the value that is referred to. -/
def GroupWorld.readValue {κ ν : Type} (r : ElemRef ν) : Cpp (GroupWorld κ ν) ν := fun w =>
  match r.read w.targets.heap with
  | .ok v h => .ok v { w with targets := { w.targets with heap := h } }
  | .err h => .err { w with targets := { w.targets with heap := h } }
  | .fault => .fault

namespace GroupEnum
variable {κ ν : Type}

/-- Dictionary.h 435-438 `Count` of group `i` -/
def count (i : Nat) : Cpp (GroupWorld κ ν × GroupEnum κ ν) Int :=
  onObjects (GroupWorld.onKeys (ListWorld.on i (do return (← ListH.members).count)))

/-- Dictionary.h 451-454 `GetByIndex` of group `i`: the address of a value list -/
def getByIndex (i : Nat) (index : Int) : Cpp (GroupWorld κ ν × GroupEnum κ ν) Nat := onObjects (GroupWorld.valueAt i index)

/-- `Count` of the value list at address `p` -/
def valueCount (p : Nat) : Cpp (GroupWorld κ ν × GroupEnum κ ν) Int :=
  onObjects (GroupWorld.onTarget p (do return (← ListH.members).count))

/-- Dictionary.h 289-299 `UpdateCurrent` -/
def updateCurrent : Cpp (GroupWorld κ ν × GroupEnum κ ν) Unit := do
  let s ← members
  let n ← count s.container
  if s.keyIndex < n then
    let values ← getByIndex s.container s.keyIndex
    let m ← valueCount values
    if s.valueIndex < m then
      let k ← onObjects (GroupWorld.onKeys (ListWorld.on s.container (ListH.refAt s.keyIndex)))
      let v ← onObjects (GroupWorld.onTarget values (ListH.refAt s.valueIndex))
      setMembers { s with current := some (k, v) }
    else
      return ()
  else
    return ()

/-- the loop of Dictionary.h 341-355; more than `fuel` rounds are undefined -/
def nextLoop : Nat → Cpp (GroupWorld κ ν × GroupEnum κ ν) Bool
  | 0 => fun _ => .fault
  | fuel + 1 => do
    let s ← members
    let n ← count s.container
    if s.keyIndex < n then
      setMembers { s with valueIndex := s.valueIndex + 1 }
      let s ← members
      let values ← getByIndex s.container s.keyIndex
      let m ← valueCount values
      if s.valueIndex < m then
        updateCurrent
        return true
      else
        setMembers { s with keyIndex := s.keyIndex + 1, valueIndex := -1 }
        nextLoop fuel
    else
      return false

/-- Dictionary.h 335-357 `Next`; the loop has at most one round for each key and one more -/
def next : Cpp (GroupWorld κ ν × GroupEnum κ ν) Bool := do
  let s ← members
  let n ← count s.container
  if s.keyIndex = -1 then
    setMembers { s with keyIndex := 0 }
    nextLoop (n.toNat + 1)
  else
    nextLoop (n.toNat + 1)

/-- Dictionary.h 313-316 `Current`: `Nullable::Value` checks that there is a pair; the references in it are read -/
def readCurrent : Cpp (GroupWorld κ ν × GroupEnum κ ν) (κ × ν) := do
  let s ← members
  match s.current with
  | none => fun s => .err s
  | some (k, v) => do
    let k ← onObjects (GroupWorld.readKey k)
    let v ← onObjects (GroupWorld.readValue v)
    return (k, v)

/-- the loop of Dictionary.h 323-326, `n` more rounds -/
def indexLoop (container : Nat) : (n : Nat) → (i index : Int) → Cpp (GroupWorld κ ν × GroupEnum κ ν) Int
  | 0, _, index => pure index
  | n + 1, i, index => do
    let values ← getByIndex container i
    let m ← valueCount values
    indexLoop container n (i + 1) (index + m)

/-- Dictionary.h 318-333 `Index` -/
def index : Cpp (GroupWorld κ ν × GroupEnum κ ν) Int := do
  let s ← members
  let n ← count s.container
  if 0 ≤ s.keyIndex ∧ s.keyIndex < n then
    let index ← indexLoop s.container s.keyIndex.toNat 0 0
    return index + s.valueIndex
  else
    return -1

/-- Dictionary.h 359-364 `Reset` -/
def reset : Cpp (GroupWorld κ ν × GroupEnum κ ν) Unit := do
  let s ← members
  setMembers { s with keyIndex := -1, valueIndex := -1 }
  updateCurrent

/-- Dictionary.h 281-370, 421-424; 301-306 the constructor, 308-311 `Clone` -/
def cls : EnumClass (GroupWorld κ ν) (GroupEnum κ ν) (κ × ν) where
  create i := ⟨i, -1, -1, none⟩
  clone s := ⟨s.container, s.keyIndex, s.valueIndex, none⟩
  next := next
  current := readCurrent
  index := index
  reset := reset

end GroupEnum
end Vlpp
