import Verif.Model.HeapThrow
import Verif.Model.HeapDict
import Verif.Model.HeapGroup
import Verif.Spec.DictThrows

/-!
# Model of dictionaries and groups whose keys and values throw (Source/Collections/Dictionary.h 20-608)

The functions of `Model/HeapDict.lean` and `Model/HeapGroup.lean` that copy keys or values of the caller, with the addition
that this may throw.  Simplification: moving, comparing and destroying keys and values does not throw; `new` does not throw.
-/
set_option autoImplicit false
namespace Vlpp

namespace Spec.EntryFate
variable {κ ν : Type}

/-- copying the key `k` -/
def key (k : κ) : EntryFate ν → CopyFate κ
  | keyThrows => .throws 0 k
  | _ => .completes

/-- copying or assigning the value -/
def value : EntryFate ν → CopyFate ν
  | valueThrows t => .throws 0 t
  | _ => .completes

end Spec.EntryFate

namespace DictWorld
variable {κ ν : Type}
open Spec (EntryFate)

section
variable (mk : Option κ → Option κ) (mv : Option ν → Option ν) (cmp : κ → κ → Option Ordering)

/-- Dictionary.h 87-105 `SetInternal`. -/
def setT (i : Nat) (k : κ) (v : ν) (f : EntryFate ν) : Cpp (DictWorld κ ν) Bool := do
  let index ← keyIndex cmp i k
  if index = -1 then
    let index ← onKeys (ListWorld.on i (ListH.sortedAddT mk cmp id k (f.key k)))
    let _ ← onValues (ListWorld.on i (ListH.insertT mv index v f.value))
    return true
  else
    let _ ← onValues (ListWorld.on i (ListH.setAtT index v f.value))
    return true

/-- Dictionary.h 107-119 `AddInternal`. -/
def addT (i : Nat) (k : κ) (v : ν) (f : EntryFate ν) : Cpp (DictWorld κ ν) Bool := do
  let c ← onKeys (ListWorld.on i (ListH.reading (SortedListC.contains cmp k)))
  Cpp.check (c = false)
  let index ← onKeys (ListWorld.on i (ListH.sortedAddT mk cmp id k (f.key k)))
  let _ ← onValues (ListWorld.on i (ListH.insertT mv index v f.value))
  return true

/-- One call on a dictionary. -/
def callT (i : Nat) : Spec.MapOp κ ν × EntryFate ν → Cpp (DictWorld κ ν) (Spec.MapRet ν)
  | (.add k v, f) => do return .flag (← addT mk mv cmp i k v f)
  | (.set k v, f) => do return .flag (← setT mk mv cmp i k v f)
  | (op, _) => call mk mv cmp i op

end

/-- Programs over dictionaries. -/
def movableT (mk : Option κ → Option κ) (mv : Option ν → Option ν) (cmp : κ → κ → Option Ordering) :
    Movable (DictWorld κ ν) (Spec.MapOp κ ν × EntryFate ν) (Spec.MapRet ν) where
  call := callT mk mv cmp
  moveAssign := moveAssign
  moveConstruct := moveConstruct
  renew := renew

end DictWorld

namespace GroupWorld
variable {κ ν : Type}
open Spec (EntryFate)

section
variable (mk : Option κ → Option κ) (mv : Option ν → Option ν) (cmp : κ → κ → Option Ordering) (eq : ν → ν → Bool)

/-- Dictionary.h 375-395 `AddInternal`. -/
def addT (i : Nat) (k : κ) (v : ν) (f : EntryFate ν) : Cpp (GroupWorld κ ν) Bool := do
  let index ← keyIndex cmp i k
  if index = -1 then
    let target ← newTarget
    let index ← onKeys (ListWorld.on i (ListH.sortedAddT mk cmp id k (f.key k)))
    let _ ← onValues (ListWorld.on i (ListH.insert id index target))
    let _ ← onTarget target (ListH.addT mv v f.value)
    return true
  else
    let target ← valueAt i index
    let _ ← onTarget target (ListH.addT mv v f.value)
    return true

/-- One call on a group. -/
def callT (i : Nat) : Spec.GroupOp κ ν × EntryFate ν → Cpp (GroupWorld κ ν) (Spec.GroupRet ν)
  | (.add k v, f) => do return .flag (← addT mk mv cmp i k v f)
  | (op, _) => call mk mv cmp eq i op

end

/-- Programs over groups. -/
def movableT (mk : Option κ → Option κ) (mv : Option ν → Option ν) (cmp : κ → κ → Option Ordering) (eq : ν → ν → Bool) :
    Movable (GroupWorld κ ν) (Spec.GroupOp κ ν × EntryFate ν) (Spec.GroupRet ν) where
  call := callT mk mv cmp eq
  moveAssign := moveAssign
  moveConstruct := moveConstruct
  renew := renew

end GroupWorld
end Vlpp
