import Verif.Model.SortEff
import Verif.Model.DictC
import Verif.Model.GroupC

/-!
# Model of `SortedList`, `Dictionary` and `Group` with comparisons that do something

Source/Collections/List.h 699-834, Dictionary.h 87-119, 169-180, 243-256, 375-395, 443-487, 550-594.  `f w x k` is
`x <=> k` between an element and a key when the program is in state `w`: it may change the state, throw, answer
"unordered", and it may be inconsistent.  `g w x k` is `x == k` between values (`none`: it throws).  The containers are
the sequences they store (Model/SortedListC.lean, Model/SeqList.lean, Model/DictC.lean, Model/GroupC.lean).
Simplification: copying keys and values has no effects (C91 has exceptions of copies).
-/
set_option autoImplicit false
namespace Vlpp.CmpEff
open QSortE (Answer)
variable {W α κ ν σ β : Type}

/-- List.h 705-726: the loop of `IndexOfInternal`; the result is (returned value, final value of `index`). -/
def searchLoop (f : W → α → κ → Answer × W) (xs : List α) (item : κ) (start stop index : Int) (w : W) : Outcome W (Int × Int) :=
  if start ≤ stop then
    let i := start + (stop - start) / 2
    match SortedSeq.read xs i with
    | none => .fault
    | some x =>
      match f w x item with
      | (.threw, w) => .err w
      | (.unordered, w) => .err w
      | (.ord .lt, w) => searchLoop f xs item (i + 1) stop i w
      | (.ord .gt, w) => searchLoop f xs item start (i - 1) i w
      | (.ord .eq, w) => .ok (i, i) w
  else .ok (-1, index) w
termination_by (stop + 1 - start).toNat
decreasing_by all_goals omega

/-- List.h 699-704 `IndexOfInternal`. -/
def indexOfInternal (f : W → α → κ → Answer × W) (item : κ) (xs : List α) : Cpp W (Int × Int) :=
  searchLoop f xs item 0 ((xs.length : Int) - 1) (-1)

/-- List.h 797-801 `SortedList::IndexOf`. -/
def indexOf (f : W → α → κ → Answer × W) (item : κ) (xs : List α) : Cpp W Int := do
  let r ← indexOfInternal f item xs
  return r.1

/-- List.h 768-772: `if (buffer[outputIndex] < item) outputIndex++;` (an unordered answer is not checked here) -/
def before (f : W → α → κ → Answer × W) (x : α) (item : κ) (outputIndex : Int) : Cpp W Int := fun w =>
  match f w x item with
  | (.threw, w) => .err w
  | (.ord .lt, w) => .ok (outputIndex + 1) w
  | (_, w) => .ok outputIndex w

/-- List.h 745-773: the part of `SortedList::AddInternal` that finds the place; `buffer[outputIndex] < item` is one more
comparison. -/
def placeOf (f : W → α → κ → Answer × W) (item : κ) (xs : List α) : Cpp W Int :=
  if xs.length = 0 then pure 0
  else do
    let r ← indexOfInternal f item xs
    let outputIndex := r.2
    Cpp.check (outputIndex ≥ 0 ∧ outputIndex < xs.length)
    match SortedSeq.read xs outputIndex with
    | none => Cpp.faulting
    | some x => before f x item outputIndex

/-- List.h 573-583 `List::IndexOf` from position `i` on. -/
def findLoop (g : W → α → κ → Option Bool × W) (item : κ) (i : Int) : List α → Cpp W Int
  | [] => pure (-1)
  | x :: xs => fun w =>
    match g w x item with
    | (none, w) => .err w
    | (some true, w) => .ok i w
    | (some false, w) => findLoop g item (i + 1) xs w

/-- run code that only reads the container -/
def reading (m : σ → Cpp W β) : Cpp (W × σ) β := fun s =>
  match m s.2 s.1 with
  | .ok v w => .ok v (w, s.2)
  | .err w => .err (w, s.2)
  | .fault => .fault

/-- run code that only works on the container -/
def writing (m : Cpp σ β) : Cpp (W × σ) β := fun s =>
  match m s.2 with
  | .ok v c => .ok v (s.1, c)
  | .err c => .err (s.1, c)
  | .fault => .fault

/-! ## `SortedList` -/
namespace Sorted

/-- List.h 797-801 `IndexOf`. -/
def indexOf (f : W → α → κ → Answer × W) (k : κ) : Cpp (W × List α) Int := reading (CmpEff.indexOf f k)

/-- List.h 789-792 `Contains`. -/
def contains (f : W → α → κ → Answer × W) (k : κ) : Cpp (W × List α) Bool := do
  let i ← indexOf f k
  return i ≠ -1

/-- List.h 745-774, 806-817 `Add`. -/
def add (f : W → α → κ → Answer × W) (key : α → κ) (item : α) : Cpp (W × List α) Int := do
  let i ← reading (placeOf f (key item))
  writing (SortedSeq.insertRaw i item)

/-- List.h 822-834 `Remove`. -/
def remove (f : W → α → κ → Answer × W) (k : κ) : Cpp (W × List α) Bool := do
  let index ← indexOf f k
  let s ← Cpp.get
  if index ≥ 0 ∧ index < s.2.length then
    let _ ← writing (SortedSeq.removeAt index)
    return true
  else
    return false

end Sorted

/-! ## `List` -/
namespace Plain

/-- List.h 573-583 `IndexOf`. -/
def indexOf (g : W → α → κ → Option Bool × W) (k : κ) : Cpp (W × List α) Int := reading (findLoop g k 0)

/-- List.h 565-568 `Contains`. -/
def contains (g : W → α → κ → Option Bool × W) (k : κ) : Cpp (W × List α) Bool := do
  let i ← indexOf g k
  return i ≠ -1

/-- List.h 628-640 `Remove`. -/
def remove (g : W → α → κ → Option Bool × W) (k : κ) : Cpp (W × List α) Bool := do
  let index ← indexOf g k
  let s ← Cpp.get
  if index ≥ 0 ∧ index < s.2.length then
    let _ ← writing (SeqList.removeAt index)
    return true
  else
    return false

end Plain

/-! ## `Dictionary` -/
namespace Dict

/-- Dictionary.h 87-105 `SetInternal`. -/
def set (f : W → κ → κ → Answer × W) (k : κ) (v : ν) : Cpp (W × DictC κ ν) Bool := do
  let index ← reading (fun d => CmpEff.indexOf f k d.keys)
  if index = -1 then
    let index ← reading (fun d => placeOf f k d.keys)
    let index ← writing (DictC.onKeys (SortedSeq.insertRaw index k))
    let _ ← writing (DictC.onValues (SeqList.insert index v))
    return true
  else
    let _ ← writing (DictC.onValues (SeqList.setAt index v))
    return true

/-- Dictionary.h 107-119 `AddInternal`. -/
def add (f : W → κ → κ → Answer × W) (k : κ) (v : ν) : Cpp (W × DictC κ ν) Bool := do
  let index ← reading (fun d => CmpEff.indexOf f k d.keys)
  Cpp.check (index = -1)
  let index ← reading (fun d => placeOf f k d.keys)
  let index ← writing (DictC.onKeys (SortedSeq.insertRaw index k))
  let _ ← writing (DictC.onValues (SeqList.insert index v))
  return true

/-- Dictionary.h 169-180 `Get`, `operator[]`. -/
def get (f : W → κ → κ → Answer × W) (k : κ) : Cpp (W × DictC κ ν) ν := do
  let index ← reading (fun d => CmpEff.indexOf f k d.keys)
  writing (DictC.onValues (SeqList.get index))

/-- Dictionary.h 147-150, List.h 789-792: `Keys().Contains(k)`. -/
def contains (f : W → κ → κ → Answer × W) (k : κ) : Cpp (W × DictC κ ν) Bool := do
  let index ← reading (fun d => CmpEff.indexOf f k d.keys)
  return index ≠ -1

/-- Dictionary.h 243-256 `Remove`. -/
def remove (f : W → κ → κ → Answer × W) (k : κ) : Cpp (W × DictC κ ν) Bool := do
  let index ← reading (fun d => CmpEff.indexOf f k d.keys)
  if index ≠ -1 then
    let _ ← writing (DictC.onKeys (SortedSeq.removeAt index))
    let _ ← writing (DictC.onValues (SeqList.removeAt index))
    return true
  else
    return false

end Dict

/-! ## `Group` -/
namespace Group

/-- Dictionary.h 375-395 `AddInternal`.  The list of values is made before the key is added, and nothing deletes it if
adding the key throws. -/
def add (f : W → κ → κ → Answer × W) (k : κ) (v : ν) : Cpp (W × GroupC κ ν) Bool := do
  let index ← reading (fun d => CmpEff.indexOf f k d.keys)
  if index = -1 then
    let target ← writing GroupC.newTarget
    let index ← reading (fun d => placeOf f k d.keys)
    let index ← writing (GroupC.onKeys (SortedSeq.insertRaw index k))
    let _ ← writing (GroupC.onValues (SeqList.insert index target))
    let _ ← writing (GroupC.onTarget target (SeqList.add v))
    return true
  else
    let target ← writing (GroupC.onValues (SeqList.get index))
    let _ ← writing (GroupC.onTarget target (SeqList.add v))
    return true

/-- Dictionary.h 443-446, 459-462 `Get`, `operator[]`. -/
def get (f : W → κ → κ → Answer × W) (k : κ) : Cpp (W × GroupC κ ν) (List ν) := do
  let index ← reading (fun d => CmpEff.indexOf f k d.keys)
  let target ← writing (GroupC.onValues (SeqList.get index))
  writing (GroupC.onTarget target Cpp.get)

/-- Dictionary.h 467-470 `Contains(key)`. -/
def containsKey (f : W → κ → κ → Answer × W) (k : κ) : Cpp (W × GroupC κ ν) Bool := do
  let index ← reading (fun d => CmpEff.indexOf f k d.keys)
  return index ≠ -1

/-- Dictionary.h 476-487 `Contains(key, value)`. -/
def contains (f : W → κ → κ → Answer × W) (g : W → ν → ν → Option Bool × W) (k : κ) (v : ν) : Cpp (W × GroupC κ ν) Bool := do
  let index ← reading (fun d => CmpEff.indexOf f k d.keys)
  if index ≠ -1 then
    let target ← writing (GroupC.onValues (SeqList.get index))
    let vs ← writing (GroupC.onTarget target Cpp.get)
    let i ← reading (fun _ => findLoop g v 0 vs)
    return i ≠ -1
  else
    return false

/-- Dictionary.h 550-565 `Remove(key)`. -/
def removeKey (f : W → κ → κ → Answer × W) (k : κ) : Cpp (W × GroupC κ ν) Bool := do
  let index ← reading (fun d => CmpEff.indexOf f k d.keys)
  if index ≠ -1 then
    let _ ← writing (GroupC.onKeys (SortedSeq.removeAt index))
    let target ← writing (GroupC.onValues (SeqList.get index))
    let _ ← writing (GroupC.onValues (SeqList.removeAt index))
    writing (GroupC.deleteTarget target)
    return true
  else
    return false

/-- List.h 628-640 `Remove(item)` after the search, on the list at `target`. -/
def removeFound (target : Nat) (i : Int) (count : Nat) : Cpp (W × GroupC κ ν) Bool :=
  if i ≥ 0 ∧ i < count then writing (GroupC.onTarget target (SeqList.removeAt i)) else pure false

/-- Dictionary.h 575-594 `Remove(key, value)`; `target->Remove(value)` is List.h 628-640. -/
def remove (f : W → κ → κ → Answer × W) (g : W → ν → ν → Option Bool × W) (k : κ) (v : ν) : Cpp (W × GroupC κ ν) Bool := do
  let index ← reading (fun d => CmpEff.indexOf f k d.keys)
  if index ≠ -1 then
    let target ← writing (GroupC.onValues (SeqList.get index))
    let vs ← writing (GroupC.onTarget target Cpp.get)
    let i ← reading (fun _ => findLoop g v 0 vs)
    let _ ← removeFound target i vs.length
    let n ← writing (GroupC.onTarget target SeqList.count)
    if n = 0 then
      let _ ← writing (GroupC.onKeys (SortedSeq.removeAt index))
      let _ ← writing (GroupC.onValues (SeqList.removeAt index))
      writing (GroupC.deleteTarget target)
      return true
    else
      return true
  else
    return false

/-- Dictionary.h 598-607 `Clear`, 400-403 `~Group`. -/
def clear : Cpp (W × GroupC κ ν) Bool := writing GroupC.clear

end Group

/-! ## Programs -/

/-- what the caller sees: an Error and an exception of a comparison are both `error` -/
def observe {σ β ρ : Type} (ret : β → ρ) (error : ρ) : Outcome σ β → Option (σ × ρ)
  | .ok v s => some (s, ret v)
  | .err s => some (s, error)
  | .fault => none

/-- One call on a dictionary (Dictionary.h 147-265); `none` is undefined behaviour. -/
def Dict.step (f : W → κ → κ → Answer × W) (s : W × DictC κ ν) : Spec.MapOp κ ν → Option ((W × DictC κ ν) × Spec.MapRet ν)
  | .add k v => observe .flag .error (Dict.add f k v s)
  | .set k v => observe .flag .error (Dict.set f k v s)
  | .get k => observe .value .error (Dict.get f k s)
  | .remove k => observe .flag .error (Dict.remove f k s)
  | .clear => observe .flag .error (writing DictC.clear s)
  | .contains k => observe .flag .error (Dict.contains f k s)

/-- Calls on one dictionary; the program catches everything (Dictionary.h 147-265). -/
def Dict.run (f : W → κ → κ → Answer × W) (s : W × DictC κ ν) : List (Spec.MapOp κ ν) → Option ((W × DictC κ ν) × List (Spec.MapRet ν))
  | [] => some (s, [])
  | op :: ops => do
    let (s, r) ← Dict.step f s op
    let (s, rs) ← Dict.run f s ops
    return (s, r :: rs)

/-- One call on a group (Dictionary.h 443-607); `none` is undefined behaviour.  The result of `Remove(key, value)` is hidden (C12). -/
def Group.step (f : W → κ → κ → Answer × W) (g : W → ν → ν → Option Bool × W) (s : W × GroupC κ ν) :
    Spec.GroupOp κ ν → Option ((W × GroupC κ ν) × Spec.GroupRet ν)
  | .add k v => observe .flag .error (Group.add f k v s)
  | .removeKey k => observe .flag .error (Group.removeKey f k s)
  | .remove k v => observe (fun _ => .done) .error (Group.remove f g k v s)
  | .clear => observe .flag .error (Group.clear s)
  | .get k => observe .values .error (Group.get f k s)
  | .containsKey k => observe .flag .error (Group.containsKey f k s)
  | .contains k v => observe .flag .error (Group.contains f g k v s)

/-- Calls on one group; the program catches everything (Dictionary.h 443-607). -/
def Group.run (f : W → κ → κ → Answer × W) (g : W → ν → ν → Option Bool × W) (s : W × GroupC κ ν) :
    List (Spec.GroupOp κ ν) → Option ((W × GroupC κ ν) × List (Spec.GroupRet ν))
  | [] => some (s, [])
  | op :: ops => do
    let (s, r) ← Group.step f g s op
    let (s, rs) ← Group.run f g s ops
    return (s, r :: rs)

end Vlpp.CmpEff
