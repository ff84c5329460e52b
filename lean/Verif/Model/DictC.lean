import Verif.Model.SeqList
import Verif.Model.SortedListC
import Verif.Spec.Map

/-!
# Model of `Dictionary<KT, VT>` (Source/Collections/Dictionary.h 20-266)

The members `keys : SortedList<KT>` and `values : List<VT>` are represented by the sequences they store
(`Model/SortedListC.lean` `SortedSeq`, `Model/SeqList.lean`), which C01, C02 and C06 justify.
Simplification: a key object and its `KeyType` value are identified.  `cmp a b` is `a <=> b`.
-/
set_option autoImplicit false
namespace Vlpp

/-- Dictionary.h 84-85. -/
structure DictC (κ ν : Type) where
  keys : List κ
  values : List ν

namespace DictC
variable {κ ν : Type}

/-- Default constructor, Dictionary.h 122. -/
def empty : DictC κ ν := ⟨[], []⟩

/-- call a member function of `keys` -/
def onKeys {β : Type} (m : Cpp (List κ) β) : Cpp (DictC κ ν) β := fun s =>
  match m s.keys with
  | .ok v ks => .ok v ⟨ks, s.values⟩
  | .err ks => .err ⟨ks, s.values⟩
  | .fault => .fault

/-- call a member function of `values` -/
def onValues {β : Type} (m : Cpp (List ν) β) : Cpp (DictC κ ν) β := fun s =>
  match m s.values with
  | .ok v vs => .ok v ⟨s.keys, vs⟩
  | .err vs => .err ⟨s.keys, vs⟩
  | .fault => .fault

/-- Dictionary.h 87-105 `SetInternal`. -/
def set (cmp : κ → κ → Option Ordering) (k : κ) (v : ν) : Cpp (DictC κ ν) Bool := do
  let index ← onKeys (SortedSeq.indexOf cmp k)
  if index = -1 then
    let index ← onKeys (SortedSeq.add cmp id k)
    let _ ← onValues (SeqList.insert index v)
    return true
  else
    let _ ← onValues (SeqList.setAt index v)
    return true

/-- Dictionary.h 107-119 `AddInternal`. -/
def add (cmp : κ → κ → Option Ordering) (k : κ) (v : ν) : Cpp (DictC κ ν) Bool := do
  let c ← onKeys (SortedSeq.contains cmp k)
  Cpp.check (c = false)
  let index ← onKeys (SortedSeq.add cmp id k)
  let _ ← onValues (SeqList.insert index v)
  return true

/-- Dictionary.h 169-180 `Get`, `operator[]`. -/
def get (cmp : κ → κ → Option Ordering) (k : κ) : Cpp (DictC κ ν) ν := do
  let index ← onKeys (SortedSeq.indexOf cmp k)
  onValues (SeqList.get index)

/-- Dictionary.h 243-256 `Remove`. -/
def remove (cmp : κ → κ → Option Ordering) (k : κ) : Cpp (DictC κ ν) Bool := do
  let index ← onKeys (SortedSeq.indexOf cmp k)
  if index ≠ -1 then
    let _ ← onKeys (SortedSeq.removeAt index)
    let _ ← onValues (SeqList.removeAt index)
    return true
  else
    return false

/-- Dictionary.h 260-265 `Clear`. -/
def clear : Cpp (DictC κ ν) Bool := do
  let _ ← onKeys SeqList.clear
  let _ ← onValues SeqList.clear
  return true

/-- `Keys().Contains(k)` (Dictionary.h 147-150, List.h 789-792). -/
def contains (cmp : κ → κ → Option Ordering) (k : κ) : Cpp (DictC κ ν) Bool :=
  onKeys (SortedSeq.contains cmp k)

/-- Dictionary.h 161-164 `Count`. -/
def count (s : DictC κ ν) : Int := s.keys.length

def observe {β : Type} (ret : β → Spec.MapRet ν) : Outcome (DictC κ ν) β → Option (DictC κ ν × Spec.MapRet ν)
  | .ok v s => some (s, ret v)
  | .err s => some (s, .error)
  | .fault => none

/-- One call on a dictionary; `none` is undefined behaviour. -/
def step (cmp : κ → κ → Option Ordering) (s : DictC κ ν) : Spec.MapOp κ ν → Option (DictC κ ν × Spec.MapRet ν)
  | .add k v => observe .flag (add cmp k v s)
  | .set k v => observe .flag (set cmp k v s)
  | .get k => observe .value (get cmp k s)
  | .remove k => observe .flag (remove cmp k s)
  | .clear => observe .flag (clear s)
  | .contains k => observe .flag (contains cmp k s)

def run (cmp : κ → κ → Option Ordering) (s : DictC κ ν) :
    List (Spec.MapOp κ ν) → Option (DictC κ ν × List (Spec.MapRet ν))
  | [] => some (s, [])
  | op :: ops => do
    let (s, r) ← step cmp s op
    let (s, rs) ← run cmp s ops
    return (s, r :: rs)

end DictC
end Vlpp
