import Verif.Model.ListC
import Verif.Spec.Sorted

/-!
# Model of `SortedList<T>` (Source/Collections/List.h 683-835)

`cmp x k` is `x <=> k` between an element and a key (`none`: `std::partial_ordering::unordered`);
`key v` is `KeyType<T>::GetKeyValue(v)`.

The search loop is written once over a function `read` that fetches an element; `SortedListC` instantiates it with
the buffer of the list and `SortedSeq` with a mathematical list.  `SortedSeq` is the interface through which
`Dictionary` and `Group` are modelled; `Lemmas/SortedListC.lean` proves that the buffer version does the same.
-/
set_option autoImplicit false
namespace Vlpp

/-- List.h 699-727 `SortedList::IndexOfInternal`, the `while (start <= end)` loop.  The result is
(returned value, final value of the output argument `index`). An unordered comparison raises an Error. -/
def searchLoop {α κ : Type} (read : Int → Option α) (cmp : α → κ → Option Ordering) (item : κ)
    (start stop index : Int) : Outcome Unit (Int × Int) :=
  if start ≤ stop then
    let i := start + (stop - start) / 2
    match read i with
    | none => .fault
    | some x =>
      match cmp x item with
      | none => .err ()
      | some .lt => searchLoop read cmp item (i + 1) stop i
      | some .gt => searchLoop read cmp item start (i - 1) i
      | some .eq => .ok (i, i) ()
  else .ok (-1, index) ()
termination_by (stop + 1 - start).toNat
decreasing_by all_goals omega

namespace SortedListC
variable {α κ : Type}

/-- Run the search on a state without changing it. -/
def liftSearch {σ β : Type} (o : Outcome Unit β) : Cpp σ β := fun s =>
  match o with
  | .ok v _ => .ok v s
  | .err _ => .err s
  | .fault => .fault

/-- List.h 699-727 `IndexOfInternal`: starts with `start = 0, end = count - 1, index = -1`. -/
def indexOfInternal (cmp : α → κ → Option Ordering) (item : κ) : Cpp (ListC α) (Int × Int) := do
  let s ← Cpp.get
  liftSearch (searchLoop (ListC.readVal s.buffer) cmp item 0 (s.count - 1) (-1))

/-- List.h 797-801 `SortedList::IndexOf`. -/
def indexOf (cmp : α → κ → Option Ordering) (item : κ) : Cpp (ListC α) Int := do
  let r ← indexOfInternal cmp item
  return r.1

/-- List.h 789-792 `SortedList::Contains`. -/
def contains (cmp : α → κ → Option Ordering) (item : κ) : Cpp (ListC α) Bool := do
  let i ← indexOf cmp item
  return i ≠ -1

/-- List.h 729-743 protected `SortedList::Insert` (no argument check). -/
def insertRaw (mv : Option α → Option α) (index : Int) (item : α) : Cpp (ListC α) Int := do
  let s ← Cpp.get
  let (b, cap, cnt) ← ListC.mem (Mem.insertUninitializedItems mv s.buffer s.capacity s.count index 1)
  let b ← ListC.mem (Mem.construct b index (some item))
  Cpp.set ⟨b, cnt, cap⟩
  return index

/-- List.h 745-774 `AddInternal` and 806-817 `Add`.  `buffer[outputIndex] < item` is the rewritten
`(buffer[outputIndex] <=> key) < 0`. -/
def add (mv : Option α → Option α) (cmp : α → κ → Option Ordering) (key : α → κ) (item : α) :
    Cpp (ListC α) Int := do
  let s ← Cpp.get
  if s.count = 0 then insertRaw mv 0 item
  else
    let r ← indexOfInternal cmp (key item)
    let outputIndex := r.2
    Cpp.check (outputIndex ≥ 0 ∧ outputIndex < s.count)
    let x ← ListC.mem (ListC.readVal s.buffer outputIndex)
    if cmp x (key item) = some .lt then insertRaw mv (outputIndex + 1) item
    else insertRaw mv outputIndex item

/-- List.h 822-834 `SortedList::Remove`. -/
def remove (mv : Option α → Option α) (cmp : α → κ → Option Ordering) (item : κ) : Cpp (ListC α) Bool := do
  let index ← indexOf cmp item
  let s ← Cpp.get
  if index ≥ 0 ∧ index < s.count then
    let _ ← ListC.removeAt mv index
    return true
  else
    return false

/-- List.h 781-784: the copy constructor `SortedList(const SortedList&)` casts constness away and calls the move
constructor.  Returns (new object, source afterwards). -/
def copyConstruct (src : ListC α) : ListC α × ListC α := ListC.moveConstruct src

/-- One call on a `SortedList<T>`; `none` is undefined behaviour. -/
def step (mv : Option α → Option α) (cmp : α → κ → Option Ordering) (key : α → κ) (s : ListC α) :
    Spec.SortedOp α κ → Option (ListC α × Spec.SeqRet α)
  | .add v => ListC.observe .index (add mv cmp key v s)
  | .remove k => ListC.observe .flag (remove mv cmp k s)
  | .removeAt i => ListC.observe .flag (ListC.removeAt mv i s)
  | .removeRange i n => ListC.observe .flag (ListC.removeRange mv i n s)
  | .clear => ListC.observe .flag (ListC.clear s)
  | .get i => ListC.observe .value (ListC.get i s)
  | .count => some (s, .index s.count)
  | .indexOf k => ListC.observe .index (indexOf cmp k s)
  | .contains k => ListC.observe .flag (contains cmp k s)

/-- A history of calls on one sorted list. -/
def run (mv : Option α → Option α) (cmp : α → κ → Option Ordering) (key : α → κ) (s : ListC α) :
    List (Spec.SortedOp α κ) → Option (ListC α × List (Spec.SeqRet α))
  | [] => some (s, [])
  | op :: ops => do
    let (s, r) ← step mv cmp key s op
    let (s, rs) ← run mv cmp key s ops
    return (s, r :: rs)

end SortedListC

/-! The same member functions on the mathematical sequence stored in the list. -/
namespace SortedSeq
variable {α κ : Type}
open SortedListC

/-- element at an index; no element outside the sequence -/
def read (xs : List α) (i : Int) : Option α := if 0 ≤ i then xs[i.toNat]? else none

/-- List.h 699-727 -/
def indexOfInternal (cmp : α → κ → Option Ordering) (item : κ) : Cpp (List α) (Int × Int) := do
  let xs ← Cpp.get
  liftSearch (searchLoop (read xs) cmp item 0 ((xs.length : Int) - 1) (-1))

/-- List.h 797-801 -/
def indexOf (cmp : α → κ → Option Ordering) (item : κ) : Cpp (List α) Int := do
  let r ← indexOfInternal cmp item
  return r.1

/-- List.h 789-792 -/
def contains (cmp : α → κ → Option Ordering) (item : κ) : Cpp (List α) Bool := do
  let i ← indexOf cmp item
  return i ≠ -1

/-- List.h 729-743; an index outside `[0, count]` is undefined. -/
def insertRaw (index : Int) (item : α) : Cpp (List α) Int := do
  let xs ← Cpp.get
  if 0 ≤ index ∧ index ≤ xs.length then
    Cpp.set (xs.take index.toNat ++ item :: xs.drop index.toNat)
    return index
  else Cpp.faulting

/-- List.h 745-774, 806-817 -/
def add (cmp : α → κ → Option Ordering) (key : α → κ) (item : α) : Cpp (List α) Int := do
  let xs ← Cpp.get
  if xs.length = 0 then insertRaw 0 item
  else
    let r ← indexOfInternal cmp (key item)
    let outputIndex := r.2
    Cpp.check (outputIndex ≥ 0 ∧ outputIndex < xs.length)
    match read xs outputIndex with
    | none => Cpp.faulting
    | some x =>
      if cmp x (key item) = some .lt then insertRaw (outputIndex + 1) item
      else insertRaw outputIndex item

/-- List.h 507-515 on the sequence. -/
def removeAt (index : Int) : Cpp (List α) Bool := do
  let xs ← Cpp.get
  Cpp.check (index ≥ 0 ∧ index < xs.length)
  Cpp.set (xs.take index.toNat ++ xs.drop (index.toNat + 1))
  return true

/-- List.h 822-834 -/
def remove (cmp : α → κ → Option Ordering) (item : κ) : Cpp (List α) Bool := do
  let index ← indexOf cmp item
  let xs ← Cpp.get
  if index ≥ 0 ∧ index < xs.length then
    let _ ← removeAt index
    return true
  else
    return false

end SortedSeq
end Vlpp
