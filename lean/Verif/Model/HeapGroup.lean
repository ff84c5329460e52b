import Verif.Model.HeapList
import Verif.Model.GroupC

/-!
# Model of many `Group<KT, VT>`s on a heap (Source/Collections/Dictionary.h 272-608)

Group `i` consists of list `i` of `keys` and list `i` of `values`.  The elements of the latter are addresses of value lists,
which are the lists of `targets`: `new ValueContainer` gives a list that was not in use before.  The buffers of the three kinds
of lists are on three heaps (simplification: the blocks of a C++ heap are told apart by the type of their elements), as are
the value lists themselves; addresses are never reused.  `mk` and `mv` say what moved-from keys and values contain; a
moved-from pointer keeps its value.  Simplification: a key object and its `KeyType` value are identified; memory never
runs out.  `cmp a b` is `a <=> b`.  Arguments do not live in the group.
-/
set_option autoImplicit false
namespace Vlpp

/-- The caller reads the elements `0` to `n - 1` of a list with `Get` (List.h 286-290). -/
def ListC.readFirst {α : Type} : Nat → Cpp (ListC α) (List α)
  | 0 => pure []
  | n + 1 => do
    let xs ← ListC.readFirst n
    let x ← ListC.get n
    return xs ++ [x]

/-- The caller reads a list with `Count` and `Get` (List.h 278-290). -/
def ListC.readAll {α : Type} : Cpp (ListC α) (List α) := do
  let s ← Cpp.get
  ListC.readFirst s.count.toNat

/-- Dictionary.h 372-373 for each group, and the value lists; `live p`: there is a value list at address `p`. -/
structure GroupWorld (κ ν : Type) where
  keys : ListWorld κ
  values : ListWorld Nat
  targets : ListWorld ν
  next : Nat
  live : Nat → Bool

namespace GroupWorld
variable {κ ν β : Type}

def empty : GroupWorld κ ν := ⟨ListWorld.empty, ListWorld.empty, ListWorld.empty, 0, fun _ => false⟩

/-- call a function of `keys` -/
def onKeys (m : Cpp (ListWorld κ) β) : Cpp (GroupWorld κ ν) β := fun w =>
  match m w.keys with
  | .ok v ks => .ok v { w with keys := ks }
  | .err ks => .err { w with keys := ks }
  | .fault => .fault

/-- call a function of `values` -/
def onValues (m : Cpp (ListWorld Nat) β) : Cpp (GroupWorld κ ν) β := fun w =>
  match m w.values with
  | .ok v vs => .ok v { w with values := vs }
  | .err vs => .err { w with values := vs }
  | .fault => .fault

/-- call a member function of the value list at address `p`; undefined if there is none -/
def onTarget (p : Nat) (m : Cpp (Heap ν × ListH) β) : Cpp (GroupWorld κ ν) β := fun w =>
  if w.live p then
    match ListWorld.on p m w.targets with
    | .ok v ts => .ok v { w with targets := ts }
    | .err ts => .err { w with targets := ts }
    | .fault => .fault
  else .fault

/-- `new ValueContainer` (the default constructor, List.h 558, 466, and the member initialisers 265-266, 463) -/
def newTarget : Cpp (GroupWorld κ ν) Nat := fun w =>
  .ok w.next { w with targets := w.targets.put w.next ListH.empty, next := w.next + 1,
                      live := fun q => if q = w.next then true else w.live q }

/-- `delete target`: the destructor of the list (List.h 467-474), then its memory is given back.  Undefined if there is no
list at that address. -/
def deleteTarget (p : Nat) : Cpp (GroupWorld κ ν) Unit := fun w =>
  if w.live p then
    match ListWorld.destroy p w.targets with
    | .ok _ ts => .ok () { w with targets := ts, live := fun q => if q = p then false else w.live q }
    | .err ts => .err { w with targets := ts }
    | .fault => .fault
  else .fault

/-- `values[index]` of group `i` -/
def valueAt (i : Nat) (index : Int) : Cpp (GroupWorld κ ν) Nat :=
  onValues (ListWorld.on i (ListH.reading (ListC.get index)))

section
variable (mk : Option κ → Option κ) (mv : Option ν → Option ν) (cmp : κ → κ → Option Ordering) (eq : ν → ν → Bool)

/-- `keys.IndexOf(key)` of group `i` -/
def keyIndex (i : Nat) (k : κ) : Cpp (GroupWorld κ ν) Int :=
  onKeys (ListWorld.on i (ListH.reading (SortedListC.indexOf cmp k)))

/-- Dictionary.h 375-395 `AddInternal`. -/
def add (i : Nat) (k : κ) (v : ν) : Cpp (GroupWorld κ ν) Bool := do
  let index ← keyIndex cmp i k
  if index = -1 then
    let target ← newTarget
    let index ← onKeys (ListWorld.on i (ListH.sortedAdd mk cmp id k))
    let _ ← onValues (ListWorld.on i (ListH.insert id index target))
    let _ ← onTarget target (ListH.add mv v)
    return true
  else
    let target ← valueAt i index
    let _ ← onTarget target (ListH.add mv v)
    return true

/-- Dictionary.h 443-446 and 459-462: `Get`, `operator[]`.  The list that is returned by reference is read at once. -/
def get (i : Nat) (k : κ) : Cpp (GroupWorld κ ν) (List ν) := do
  let index ← keyIndex cmp i k
  let target ← valueAt i index
  onTarget target (ListH.reading ListC.readAll)

/-- Dictionary.h 467-470 `Contains(key)`. -/
def containsKey (i : Nat) (k : κ) : Cpp (GroupWorld κ ν) Bool :=
  onKeys (ListWorld.on i (ListH.reading (SortedListC.contains cmp k)))

/-- Dictionary.h 476-487 `Contains(key, value)`. -/
def contains (i : Nat) (k : κ) (v : ν) : Cpp (GroupWorld κ ν) Bool := do
  let index ← keyIndex cmp i k
  if index ≠ -1 then
    let target ← valueAt i index
    onTarget target (ListH.reading (ListC.contains eq v))
  else
    return false

/-- Dictionary.h 550-565 `Remove(key)`. -/
def removeKey (i : Nat) (k : κ) : Cpp (GroupWorld κ ν) Bool := do
  let index ← keyIndex cmp i k
  if index ≠ -1 then
    let _ ← onKeys (ListWorld.on i (ListH.removeAt mk index))
    let target ← valueAt i index
    let _ ← onValues (ListWorld.on i (ListH.removeAt id index))
    deleteTarget target
    return true
  else
    return false

/-- Dictionary.h 575-594 `Remove(key, value)`. -/
def remove (i : Nat) (k : κ) (v : ν) : Cpp (GroupWorld κ ν) Bool := do
  let index ← keyIndex cmp i k
  if index ≠ -1 then
    let target ← valueAt i index
    let _ ← onTarget target (ListH.remove mv eq v)
    let n ← onTarget target (do return (← ListH.members).count)
    if n = 0 then
      let _ ← onKeys (ListWorld.on i (ListH.removeAt mk index))
      let _ ← onValues (ListWorld.on i (ListH.removeAt id index))
      deleteTarget target
      return true
    else
      return true
  else
    return false

/-- the loop of Dictionary.h 600-603 from index `n` on, with `fuel` elements to go -/
def deleteLoop (i n : Nat) : Nat → Cpp (GroupWorld κ ν) Unit
  | 0 => pure ()
  | fuel + 1 => do
    let target ← valueAt i n
    deleteTarget target
    deleteLoop i (n + 1) fuel

/-- Dictionary.h 598-607 `Clear`. -/
def clear (i : Nat) : Cpp (GroupWorld κ ν) Bool := do
  let n ← onValues (ListWorld.on i (do return (← ListH.members).count))
  deleteLoop i 0 n.toNat
  let _ ← onKeys (ListWorld.on i ListH.clear)
  let _ ← onValues (ListWorld.on i ListH.clear)
  return true

/-- One call on a group.  The result of `Remove(key, value)` is hidden (see property C12). -/
def call (i : Nat) : Spec.GroupOp κ ν → Cpp (GroupWorld κ ν) (Spec.GroupRet ν)
  | .add k v => do return .flag (← add mk mv cmp i k v)
  | .removeKey k => do return .flag (← removeKey mk cmp i k)
  | .remove k v => do return (fun _ => .done) (← remove mk mv cmp eq i k v)
  | .clear => do return .flag (← clear i)
  | .get k => do return .values (← get cmp i k)
  | .containsKey k => do return .flag (← containsKey cmp i k)
  | .contains k v => do return .flag (← contains cmp eq i k v)

end

/-- Dictionary.h 400-403 `~Group`: `Clear`, then the members are destroyed, the last one first (List.h 467-474).  Then a new
group is constructed (Dictionary.h 398). -/
def renew (i : Nat) : Cpp (GroupWorld κ ν) Unit := do
  let _ ← clear i
  onValues (ListWorld.destroy i)
  onKeys (ListWorld.destroy i)

/-- Dictionary.h 406-410 `Group(Group&&)`. -/
def moveConstruct (i j : Nat) : Cpp (GroupWorld κ ν) Unit := do
  onKeys (ListWorld.moveConstruct i j)
  onValues (ListWorld.moveConstruct i j)

/-- Dictionary.h 413-419 `operator=(Group&&)`. -/
def moveAssign (i j : Nat) : Cpp (GroupWorld κ ν) Unit := do
  let _ ← clear i
  onKeys (ListWorld.moveAssign i j)
  onValues (ListWorld.moveAssign i j)

def movable (mk : Option κ → Option κ) (mv : Option ν → Option ν) (cmp : κ → κ → Option Ordering) (eq : ν → ν → Bool) :
    Movable (GroupWorld κ ν) (Spec.GroupOp κ ν) (Spec.GroupRet ν) where
  call := call mk mv cmp eq
  moveAssign := moveAssign
  moveConstruct := moveConstruct
  renew := renew

end GroupWorld
end Vlpp
