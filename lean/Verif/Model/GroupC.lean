import Verif.Model.SeqList
import Verif.Model.SortedListC
import Verif.Spec.MultiMap

/-!
# Model of `Group<KT, VT>` (Source/Collections/Dictionary.h 272-608)

`keys : SortedList<KT>` and `values : List<ValueContainer*>` are represented by the sequences they store; the value
lists live on a heap: `heap[p]? = some (some vs)` is a live `List<VT>` at address `p`, `some none` a deleted one.
Simplification: a key object and its `KeyType` value are identified; addresses are never reused.
-/
set_option autoImplicit false
namespace Vlpp

/-- Dictionary.h 372-373, and the heap the pointers refer to. -/
structure GroupC (κ ν : Type) where
  keys : List κ
  values : List Nat
  heap : List (Option (List ν))

namespace GroupC
variable {κ ν : Type}

/-- Default constructor, Dictionary.h 398. -/
def empty : GroupC κ ν := ⟨[], [], []⟩

/-- call a member function of `keys` -/
def onKeys {β : Type} (m : Cpp (List κ) β) : Cpp (GroupC κ ν) β := fun s =>
  match m s.keys with
  | .ok v ks => .ok v { s with keys := ks }
  | .err ks => .err { s with keys := ks }
  | .fault => .fault

/-- call a member function of `values` -/
def onValues {β : Type} (m : Cpp (List Nat) β) : Cpp (GroupC κ ν) β := fun s =>
  match m s.values with
  | .ok v vs => .ok v { s with values := vs }
  | .err vs => .err { s with values := vs }
  | .fault => .fault

/-- call a member function of the value list at address `p`; dereferencing a pointer to nothing or to a deleted
list is undefined -/
def onTarget {β : Type} (p : Nat) (m : Cpp (List ν) β) : Cpp (GroupC κ ν) β := fun s =>
  match s.heap[p]? with
  | some (some vs) =>
    match m vs with
    | .ok v vs => .ok v { s with heap := s.heap.set p (some vs) }
    | .err vs => .err { s with heap := s.heap.set p (some vs) }
    | .fault => .fault
  | _ => .fault

/-- `new ValueContainer` -/
def newTarget : Cpp (GroupC κ ν) Nat := fun s => .ok s.heap.length { s with heap := s.heap ++ [some []] }

/-- `delete target`; deleting twice is undefined -/
def deleteTarget (p : Nat) : Cpp (GroupC κ ν) Unit := fun s =>
  match s.heap[p]? with
  | some (some _) => .ok () { s with heap := s.heap.set p none }
  | _ => .fault

/-- Dictionary.h 375-395 `AddInternal`. -/
def add (cmp : κ → κ → Option Ordering) (k : κ) (v : ν) : Cpp (GroupC κ ν) Bool := do
  let index ← onKeys (SortedSeq.indexOf cmp k)
  if index = -1 then
    let target ← newTarget
    let index ← onKeys (SortedSeq.add cmp id k)
    let _ ← onValues (SeqList.insert index target)
    let _ ← onTarget target (SeqList.add v)
    return true
  else
    let target ← onValues (SeqList.get index)
    let _ ← onTarget target (SeqList.add v)
    return true

/-- Dictionary.h 443-446 and 459-462: `Get`, `operator[]`. The returned reference is read at once. -/
def get (cmp : κ → κ → Option Ordering) (k : κ) : Cpp (GroupC κ ν) (List ν) := do
  let index ← onKeys (SortedSeq.indexOf cmp k)
  let target ← onValues (SeqList.get index)
  onTarget target Cpp.get

/-- Dictionary.h 451-454 `GetByIndex`. -/
def getByIndex (index : Int) : Cpp (GroupC κ ν) (List ν) := do
  let target ← onValues (SeqList.get index)
  onTarget target Cpp.get

/-- Dictionary.h 467-470 `Contains(key)`. -/
def containsKey (cmp : κ → κ → Option Ordering) (k : κ) : Cpp (GroupC κ ν) Bool :=
  onKeys (SortedSeq.contains cmp k)

/-- Dictionary.h 476-487 `Contains(key, value)`. -/
def contains (cmp : κ → κ → Option Ordering) (eq : ν → ν → Bool) (k : κ) (v : ν) : Cpp (GroupC κ ν) Bool := do
  let index ← onKeys (SortedSeq.indexOf cmp k)
  if index ≠ -1 then
    let target ← onValues (SeqList.get index)
    onTarget target (SeqList.contains eq v)
  else
    return false

/-- Dictionary.h 550-565 `Remove(key)`. -/
def removeKey (cmp : κ → κ → Option Ordering) (k : κ) : Cpp (GroupC κ ν) Bool := do
  let index ← onKeys (SortedSeq.indexOf cmp k)
  if index ≠ -1 then
    let _ ← onKeys (SortedSeq.removeAt index)
    let target ← onValues (SeqList.get index)
    let _ ← onValues (SeqList.removeAt index)
    deleteTarget target
    return true
  else
    return false

/-- Dictionary.h 575-594 `Remove(key, value)`. -/
def remove (cmp : κ → κ → Option Ordering) (eq : ν → ν → Bool) (k : κ) (v : ν) : Cpp (GroupC κ ν) Bool := do
  let index ← onKeys (SortedSeq.indexOf cmp k)
  if index ≠ -1 then
    let target ← onValues (SeqList.get index)
    let _ ← onTarget target (SeqList.remove eq v)
    let n ← onTarget target SeqList.count
    if n = 0 then
      let _ ← onKeys (SortedSeq.removeAt index)
      let _ ← onValues (SeqList.removeAt index)
      deleteTarget target
      return true
    else
      return true
  else
    return false

/-- the loop of Dictionary.h 600-603; it does not change `values`, so it is written as a recursion over them -/
def deleteAll : List Nat → Cpp (GroupC κ ν) Unit
  | [] => pure ()
  | p :: ps => do
    deleteTarget p
    deleteAll ps

/-- Dictionary.h 598-607 `Clear`; also the destructor, 400-403. -/
def clear : Cpp (GroupC κ ν) Bool := do
  let s ← Cpp.get
  deleteAll s.values
  let _ ← onKeys SeqList.clear
  let _ ← onValues SeqList.clear
  return true

/-- Dictionary.h 435-438 `Count`. -/
def count (s : GroupC κ ν) : Int := s.keys.length

def observe {β : Type} (ret : β → Spec.GroupRet ν) :
    Outcome (GroupC κ ν) β → Option (GroupC κ ν × Spec.GroupRet ν)
  | .ok v s => some (s, ret v)
  | .err s => some (s, .error)
  | .fault => none

/-- One call on a group; `none` is undefined behaviour.  The result of `Remove(key, value)` is hidden here. -/
def step (cmp : κ → κ → Option Ordering) (eq : ν → ν → Bool) (s : GroupC κ ν) :
    Spec.GroupOp κ ν → Option (GroupC κ ν × Spec.GroupRet ν)
  | .add k v => observe .flag (add cmp k v s)
  | .removeKey k => observe .flag (removeKey cmp k s)
  | .remove k v => observe (fun _ => .done) (remove cmp eq k v s)
  | .clear => observe .flag (clear s)
  | .get k => observe .values (get cmp k s)
  | .containsKey k => observe .flag (containsKey cmp k s)
  | .contains k v => observe .flag (contains cmp eq k v s)

def run (cmp : κ → κ → Option Ordering) (eq : ν → ν → Bool) (s : GroupC κ ν) :
    List (Spec.GroupOp κ ν) → Option (GroupC κ ν × List (Spec.GroupRet ν))
  | [] => some (s, [])
  | op :: ops => do
    let (s, r) ← step cmp eq s op
    let (s, rs) ← run cmp eq s ops
    return (s, r :: rs)

end GroupC
end Vlpp

namespace Vlpp
variable {κ α β : Type}

/-- `group.GetByIndex(i)` read without changing the group; `none` is an error or undefined behaviour -/
def GroupC.listAt (s : GroupC κ α) (i : Nat) : Option (List α) :=
  match GroupC.getByIndex (i : Int) s with
  | .ok vs _ => some vs
  | _ => none

/-- Dictionary.h 669-732 `GroupInnerJoin`, the loop.  The result is the sequence of callback invocations.
Simplification: the callbacks do not change the groups and do not throw. `none` is an error or undefined behaviour. -/
def joinLoop (cmp : κ → κ → Option Ordering) (first : GroupC κ α) (second : GroupC κ β) (i j : Nat) :
    Option (List (Spec.JoinEvent κ α β)) :=
  if _h1 : i < first.keys.length then do
    let k1 ← first.keys[i]?
    let as ← first.listAt i
    if _h2 : j < second.keys.length then do
      let k2 ← second.keys[j]?
      let bs ← second.listAt j
      if cmp k1 k2 = some .lt then
        return .discardFirst k1 as :: (← joinLoop cmp first second (i + 1) j)
      else if cmp k1 k2 = some .gt then
        return .discardSecond k2 bs :: (← joinLoop cmp first second i (j + 1))
      else
        return .accept k1 as bs :: (← joinLoop cmp first second (i + 1) (j + 1))
    else
      return .discardFirst k1 as :: (← joinLoop cmp first second (i + 1) j)
  else
    if _h2 : j < second.keys.length then do
      let k2 ← second.keys[j]?
      let bs ← second.listAt j
      return .discardSecond k2 bs :: (← joinLoop cmp first second i (j + 1))
    else
      return []
termination_by (first.keys.length - i) + (second.keys.length - j)

/-- Dictionary.h 669-732 `GroupInnerJoin`. -/
def groupInnerJoin (cmp : κ → κ → Option Ordering) (first : GroupC κ α) (second : GroupC κ β) :
    Option (List (Spec.JoinEvent κ α β)) := joinLoop cmp first second 0 0

end Vlpp
