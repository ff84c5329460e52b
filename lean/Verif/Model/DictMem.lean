import Verif.Model.DictC
import Verif.Spec.Moves

/-!
# Model of `Dictionary<KT, VT>` in memory (Source/Collections/Dictionary.h 20-266)

`Model/DictC.lean` represents the two members by the sequences they store.  Here they are the lists of
`Model/ListC.lean` with their buffers, so that the lifetime of keys and values, the moves between dictionaries, the
destructor and references into a dictionary can be stated.  `mk` and `mv` say what moved-from keys and values contain.
Simplification: a key object and its `KeyType` value are identified.  `cmp a b` is `a <=> b`.
-/
set_option autoImplicit false
namespace Vlpp

/-- Dictionary.h 84-85. -/
structure DictM (κ ν : Type) where
  keys : ListC κ
  values : ListC ν

namespace DictM
variable {κ ν : Type}

/-- Default constructor, Dictionary.h 122. -/
def empty : DictM κ ν := ⟨ListC.empty, ListC.empty⟩

/-- call a member function of `keys` -/
def onKeys {β : Type} (m : Cpp (ListC κ) β) : Cpp (DictM κ ν) β := fun s =>
  match m s.keys with
  | .ok v ks => .ok v ⟨ks, s.values⟩
  | .err ks => .err ⟨ks, s.values⟩
  | .fault => .fault

/-- call a member function of `values` -/
def onValues {β : Type} (m : Cpp (ListC ν) β) : Cpp (DictM κ ν) β := fun s =>
  match m s.values with
  | .ok v vs => .ok v ⟨s.keys, vs⟩
  | .err vs => .err ⟨s.keys, vs⟩
  | .fault => .fault

/-- How `AddInternal` and `SetInternal` get the value they store: a value that lives outside of the dictionary, or a
reference to an element of its own `values` (`d[k]`, `d.Get(k)`, `d.Values()[i]` return such references). -/
inductive Arg (ν : Type) where
  | value (v : ν)
  | own (i : Int)

/-- `values.Insert(index, value)` -/
def insertArg (mv : Option ν → Option ν) (index : Int) : Arg ν → Cpp (ListC ν) Int
  | .value v => ListC.insert mv index v
  | .own i => ListC.insertOwn mv index i

/-- List.h 669-673 and assignment: `values[index] = value`.  An element is read before it is assigned to. -/
def assignArg (index : Int) : Arg ν → Cpp (ListC ν) Bool
  | .value v => ListC.setAt index v
  | .own i => do
    let v ← ListC.get i
    ListC.setAt index v

section
variable (mk : Option κ → Option κ) (mv : Option ν → Option ν) (cmp : κ → κ → Option Ordering)

/-- Dictionary.h 87-105 `SetInternal`. -/
def set (k : κ) (v : Arg ν) : Cpp (DictM κ ν) Bool := do
  let index ← onKeys (SortedListC.indexOf cmp k)
  if index = -1 then
    let index ← onKeys (SortedListC.add mk cmp id k)
    let _ ← onValues (insertArg mv index v)
    return true
  else
    let _ ← onValues (assignArg index v)
    return true

/-- Dictionary.h 107-119 `AddInternal`. -/
def add (k : κ) (v : Arg ν) : Cpp (DictM κ ν) Bool := do
  let c ← onKeys (SortedListC.contains cmp k)
  Cpp.check (c = false)
  let index ← onKeys (SortedListC.add mk cmp id k)
  let _ ← onValues (insertArg mv index v)
  return true

/-- Dictionary.h 169-180 `Get`, `operator[]`. -/
def get (k : κ) : Cpp (DictM κ ν) ν := do
  let index ← onKeys (SortedListC.indexOf cmp k)
  onValues (ListC.get index)

/-- `d.Set(k, d[k2])`: the reference returned by `operator[]` (Dictionary.h 177-180) is the argument. -/
def setFrom (k k2 : κ) : Cpp (DictM κ ν) Bool := do
  let i ← onKeys (SortedListC.indexOf cmp k2)
  let _ ← onValues (ListC.get i)
  set mk mv cmp k (.own i)

/-- `d.Add(k, d[k2])` -/
def addFrom (k k2 : κ) : Cpp (DictM κ ν) Bool := do
  let i ← onKeys (SortedListC.indexOf cmp k2)
  let _ ← onValues (ListC.get i)
  add mk mv cmp k (.own i)

/-- Dictionary.h 243-256 `Remove`. -/
def remove (k : κ) : Cpp (DictM κ ν) Bool := do
  let index ← onKeys (SortedListC.indexOf cmp k)
  if index ≠ -1 then
    let _ ← onKeys (ListC.removeAt mk index)
    let _ ← onValues (ListC.removeAt mv index)
    return true
  else
    return false

/-- Dictionary.h 260-265 `Clear`. -/
def clear : Cpp (DictM κ ν) Bool := do
  let _ ← onKeys ListC.clear
  let _ ← onValues ListC.clear
  return true

/-- `Keys().Contains(k)` (Dictionary.h 147-150, List.h 789-792). -/
def contains (k : κ) : Cpp (DictM κ ν) Bool :=
  onKeys (SortedListC.contains cmp k)

/-- Dictionary.h 123 `~Dictionary`: the members are destroyed, the last one first (List.h 467-474). -/
def destructor : Cpp (DictM κ ν) Unit := do
  onValues ListC.destructor
  onKeys ListC.destructor

/-- Dictionary.h 126-130 `Dictionary(Dictionary&&)`; (new, source). -/
def moveConstruct (src : DictM κ ν) : DictM κ ν × DictM κ ν :=
  let (k, k') := ListC.moveConstruct src.keys
  let (v, v') := ListC.moveConstruct src.values
  (⟨k, v⟩, ⟨k', v'⟩)

/-- Dictionary.h 133-138 `operator=(Dictionary&&)` between two different dictionaries; (destination, source). -/
def moveAssign (dst src : DictM κ ν) : Option (DictM κ ν × DictM κ ν) :=
  match ListC.moveAssign dst.keys src.keys with
  | .ok _ (k, k') =>
    match ListC.moveAssign dst.values src.values with
    | .ok _ (v, v') => some (⟨k, v⟩, ⟨k', v'⟩)
    | _ => none
  | _ => none

/-- Dictionary.h 133-138 `d = std::move(d)` -/
def moveAssignSelf : Cpp (DictM κ ν) Unit := do
  onKeys ListC.moveAssignSelf
  onValues ListC.moveAssignSelf

def observe {β : Type} (ret : β → Spec.MapRet ν) : Outcome (DictM κ ν) β → Option (DictM κ ν × Spec.MapRet ν)
  | .ok v s => some (s, ret v)
  | .err s => some (s, .error)
  | .fault => none

/-- One call on a dictionary with arguments that live outside of it; `none` is undefined behaviour. -/
def step (s : DictM κ ν) : Spec.MapOp κ ν → Option (DictM κ ν × Spec.MapRet ν)
  | .add k v => observe .flag (add mk mv cmp k (.value v) s)
  | .set k v => observe .flag (set mk mv cmp k (.value v) s)
  | .get k => observe .value (get cmp k s)
  | .remove k => observe .flag (remove mk mv cmp k s)
  | .clear => observe .flag (clear s)
  | .contains k => observe .flag (contains cmp k s)

/-- One step of a program over many dictionaries, numbered by `Nat`; see `Spec.MoveOp`. -/
def worldStep (w : Nat → DictM κ ν) : Spec.MoveOp (Spec.MapOp κ ν) → Option ((Nat → DictM κ ν) × Spec.MapRet ν)
  | .call i op => do
    let (s, r) ← step mk mv cmp (w i) op
    return (fun n => if n = i then s else w n, r)
  | .moveAssign i j =>
    if i = j then
      match moveAssignSelf (w i) with
      | .ok _ s => some (fun n => if n = i then s else w n, .flag true)
      | _ => none
    else do
      let (d, s) ← moveAssign (w i) (w j)
      return (fun n => if n = i then d else if n = j then s else w n, .flag true)
  | .moveConstruct i j =>
    if i = j then some (w, .error)
    else
      match destructor (w i) with
      | .ok _ _ =>
        let (d, s) := moveConstruct (w j)
        some (fun n => if n = i then d else if n = j then s else w n, .flag true)
      | _ => none
  | .renew i =>
    match destructor (w i) with
    | .ok _ _ => some (fun n => if n = i then empty else w n, .flag true)
    | _ => none

/-- A program over many dictionaries. -/
def worldRun (w : Nat → DictM κ ν) :
    List (Spec.MoveOp (Spec.MapOp κ ν)) → Option ((Nat → DictM κ ν) × List (Spec.MapRet ν))
  | [] => some (w, [])
  | op :: ops => do
    let (w, r) ← worldStep mk mv cmp w op
    let (w, rs) ← worldRun w ops
    return (w, r :: rs)

end
end DictM
end Vlpp
