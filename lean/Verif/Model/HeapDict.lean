import Verif.Model.HeapList
import Verif.Model.DictC

/-!
# Model of many `Dictionary<KT, VT>`s on a heap (Source/Collections/Dictionary.h 20-266)

Dictionary `i` consists of list `i` of `keys` and list `i` of `values`; the buffers of all keys are on one heap, those of all
values on another (simplification: the blocks of a C++ heap are told apart by the type of their elements).
`mk` and `mv` say what moved-from keys and values contain.  Simplification: a key object and its `KeyType` value are
identified.  `cmp a b` is `a <=> b`.  Arguments do not live in the dictionary (see `Model/DictMem.lean` for those).
-/
set_option autoImplicit false
namespace Vlpp

/-- Dictionary.h 84-85 for each dictionary. -/
structure DictWorld (κ ν : Type) where
  keys : ListWorld κ
  values : ListWorld ν

namespace DictWorld
variable {κ ν β : Type}

def empty : DictWorld κ ν := ⟨ListWorld.empty, ListWorld.empty⟩

/-- call a function of `keys` -/
def onKeys (m : Cpp (ListWorld κ) β) : Cpp (DictWorld κ ν) β := fun w =>
  match m w.keys with
  | .ok v ks => .ok v ⟨ks, w.values⟩
  | .err ks => .err ⟨ks, w.values⟩
  | .fault => .fault

/-- call a function of `values` -/
def onValues (m : Cpp (ListWorld ν) β) : Cpp (DictWorld κ ν) β := fun w =>
  match m w.values with
  | .ok v vs => .ok v ⟨w.keys, vs⟩
  | .err vs => .err ⟨w.keys, vs⟩
  | .fault => .fault

section
variable (mk : Option κ → Option κ) (mv : Option ν → Option ν) (cmp : κ → κ → Option Ordering)

/-- `keys.IndexOf(key)` of dictionary `i` -/
def keyIndex (i : Nat) (k : κ) : Cpp (DictWorld κ ν) Int :=
  onKeys (ListWorld.on i (ListH.reading (SortedListC.indexOf cmp k)))

/-- Dictionary.h 87-105 `SetInternal`. -/
def set (i : Nat) (k : κ) (v : ν) : Cpp (DictWorld κ ν) Bool := do
  let index ← keyIndex cmp i k
  if index = -1 then
    let index ← onKeys (ListWorld.on i (ListH.sortedAdd mk cmp id k))
    let _ ← onValues (ListWorld.on i (ListH.insert mv index v))
    return true
  else
    let _ ← onValues (ListWorld.on i (ListH.setAt index v))
    return true

/-- Dictionary.h 107-119 `AddInternal`. -/
def add (i : Nat) (k : κ) (v : ν) : Cpp (DictWorld κ ν) Bool := do
  let c ← onKeys (ListWorld.on i (ListH.reading (SortedListC.contains cmp k)))
  Cpp.check (c = false)
  let index ← onKeys (ListWorld.on i (ListH.sortedAdd mk cmp id k))
  let _ ← onValues (ListWorld.on i (ListH.insert mv index v))
  return true

/-- Dictionary.h 169-180 `Get`, `operator[]`. -/
def get (i : Nat) (k : κ) : Cpp (DictWorld κ ν) ν := do
  let index ← keyIndex cmp i k
  onValues (ListWorld.on i (ListH.reading (ListC.get index)))

/-- Dictionary.h 243-256 `Remove`. -/
def remove (i : Nat) (k : κ) : Cpp (DictWorld κ ν) Bool := do
  let index ← keyIndex cmp i k
  if index ≠ -1 then
    let _ ← onKeys (ListWorld.on i (ListH.removeAt mk index))
    let _ ← onValues (ListWorld.on i (ListH.removeAt mv index))
    return true
  else
    return false

/-- Dictionary.h 260-265 `Clear`. -/
def clear (i : Nat) : Cpp (DictWorld κ ν) Bool := do
  let _ ← onKeys (ListWorld.on i ListH.clear)
  let _ ← onValues (ListWorld.on i ListH.clear)
  return true

/-- `Keys().Contains(k)` (Dictionary.h 147-150, List.h 789-792). -/
def contains (i : Nat) (k : κ) : Cpp (DictWorld κ ν) Bool :=
  onKeys (ListWorld.on i (ListH.reading (SortedListC.contains cmp k)))

/-- One call on a dictionary. -/
def call (i : Nat) : Spec.MapOp κ ν → Cpp (DictWorld κ ν) (Spec.MapRet ν)
  | .add k v => do return .flag (← add mk mv cmp i k v)
  | .set k v => do return .flag (← set mk mv cmp i k v)
  | .get k => do return .value (← get cmp i k)
  | .remove k => do return .flag (← remove mk mv cmp i k)
  | .clear => do return .flag (← clear i)
  | .contains k => do return .flag (← contains cmp i k)

end

/-- Dictionary.h 123 `~Dictionary`: the members are destroyed, the last one first (List.h 467-474).  Then a new dictionary is
constructed (Dictionary.h 122). -/
def renew (i : Nat) : Cpp (DictWorld κ ν) Unit := do
  onValues (ListWorld.destroy i)
  onKeys (ListWorld.destroy i)

/-- Dictionary.h 126-130 `Dictionary(Dictionary&&)`. -/
def moveConstruct (i j : Nat) : Cpp (DictWorld κ ν) Unit := do
  onKeys (ListWorld.moveConstruct i j)
  onValues (ListWorld.moveConstruct i j)

/-- Dictionary.h 133-138 `operator=(Dictionary&&)`. -/
def moveAssign (i j : Nat) : Cpp (DictWorld κ ν) Unit := do
  onKeys (ListWorld.moveAssign i j)
  onValues (ListWorld.moveAssign i j)

def movable (mk : Option κ → Option κ) (mv : Option ν → Option ν) (cmp : κ → κ → Option Ordering) :
    Movable (DictWorld κ ν) (Spec.MapOp κ ν) (Spec.MapRet ν) where
  call := call mk mv cmp
  moveAssign := moveAssign
  moveConstruct := moveConstruct
  renew := renew

end DictWorld
end Vlpp
