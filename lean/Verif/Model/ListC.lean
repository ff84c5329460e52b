import Verif.Model.Memory
import Verif.Spec.Seq

/-!
# Model of `ArrayBase<T>`, `ListBase<T>` and `List<T>` (Source/Collections/List.h 217-300, 459-674)

`eq : α → κ → Bool` is `operator==` between an element and a key (`KeyType<T>::Type`).
`mv` says what a moved-from object contains (see `Model/Memory.lean`).
-/
set_option autoImplicit false
namespace Vlpp

/-- The data members of `ListBase<T>`: `buffer`, `count` (List.h 265-266, 463) and `capacity` (List.h 463). -/
structure ListC (α : Type) where
  buffer : Block α
  count : Int
  capacity : Int

namespace ListC
variable {α κ : Type}

/-- Default constructor (member initialisers List.h 265-266, 463). -/
def empty : ListC α := ⟨Block.null, 0, 0⟩

/-- Run a memory helper; undefined behaviour becomes `fault`. -/
def mem {β : Type} (r : MemRes β) : Cpp (ListC α) β := fun s =>
  match r with
  | some v => .ok v s
  | none => .fault

/-- Read the value of an element. Reading raw or foreign memory, or the unspecified value of a moved-from
object, is a fault. -/
def readVal (b : Block α) (i : Int) : MemRes α :=
  match Mem.read b i with
  | some (some v) => some v
  | _ => none

/-- List.h 286-290 `ArrayBase::Get` and 295-299 `operator[]`. -/
def get (index : Int) : Cpp (ListC α) α := do
  let s ← Cpp.get
  Cpp.check (index ≥ 0 ∧ index < s.count)
  mem (readVal s.buffer index)

/-- List.h 573-583 `List::IndexOf`: `for (i = 0; i < count; i++) if (buffer[i] == item) return i; return -1;`
`fuel` is the number of remaining iterations. -/
def indexOfLoop (eq : α → κ → Bool) (b : Block α) (item : κ) (i : Int) : Nat → MemRes Int
  | 0 => some (-1)
  | fuel + 1 => do
    let v ← readVal b i
    if eq v item then return i else indexOfLoop eq b item (i + 1) fuel

/-- List.h 573-583 `List::IndexOf`. -/
def indexOf (eq : α → κ → Bool) (item : κ) : Cpp (ListC α) Int := do
  let s ← Cpp.get
  mem (indexOfLoop eq s.buffer item 0 s.count.toNat)

/-- List.h 565-568 `List::Contains`. -/
def contains (eq : α → κ → Bool) (item : κ) : Cpp (ListC α) Bool := do
  let i ← indexOf eq item
  return i ≠ -1

/-- List.h 605-611 and 617-623 `List::Insert` (copying or moving the argument: both construct the argument's
value).  The argument is a value that does not live in this list's buffer; see `insertOwn` for the other case. -/
def insert (mv : Option α → Option α) (index : Int) (item : α) : Cpp (ListC α) Int := do
  let s ← Cpp.get
  Cpp.check (index ≥ 0 ∧ index ≤ s.count)
  let (b, cap, cnt) ← mem (Mem.insertUninitializedItems mv s.buffer s.capacity s.count index 1)
  let b ← mem (Mem.construct b index (some item))
  Cpp.set ⟨b, cnt, cap⟩
  return index

/-- List.h 588-599 `List::Add`. -/
def add (mv : Option α → Option α) (item : α) : Cpp (ListC α) Int := do
  let s ← Cpp.get
  insert mv s.count item

/-- List.h 646-651 and 657-662 `List::Set`. -/
def setAt (index : Int) (item : α) : Cpp (ListC α) Bool := do
  let s ← Cpp.get
  Cpp.check (index ≥ 0 ∧ index < s.count)
  let b ← mem (Mem.assign s.buffer index (some item))
  Cpp.set ⟨b, s.count, s.capacity⟩
  return true

/-- List.h 507-515 `ListBase::RemoveAt`. -/
def removeAt (mv : Option α → Option α) (index : Int) : Cpp (ListC α) Bool := do
  let s ← Cpp.get
  let previousCount := s.count
  Cpp.check (index ≥ 0 ∧ index < s.count)
  let b ← mem (Mem.callMoveAssignmentsOverlapped mv s.buffer index (index + 1) (s.count - index - 1))
  let (b, cap) ← mem (Mem.releaseUnnecessaryBuffer mv b s.capacity previousCount (s.count - 1))
  Cpp.set ⟨b, s.count - 1, cap⟩
  return true

/-- List.h 521-530 `ListBase::RemoveRange`. -/
def removeRange (mv : Option α → Option α) (index count : Int) : Cpp (ListC α) Bool := do
  let s ← Cpp.get
  let previousCount := s.count
  Cpp.check (index ≥ 0 ∧ index ≤ s.count)
  Cpp.check (index + count ≥ 0 ∧ index + count ≤ s.count)
  let b ← mem (Mem.callMoveAssignmentsOverlapped mv s.buffer index (index + count) (s.count - index - count))
  let (b, cap) ← mem (Mem.releaseUnnecessaryBuffer mv b s.capacity previousCount (s.count - count))
  Cpp.set ⟨b, s.count - count, cap⟩
  return true

/-- List.h 628-640 `List::Remove`. -/
def remove (mv : Option α → Option α) (eq : α → κ → Bool) (item : κ) : Cpp (ListC α) Bool := do
  let index ← indexOf eq item
  let s ← Cpp.get
  if index ≥ 0 ∧ index < s.count then
    let _ ← removeAt mv index
    return true
  else
    return false

/-- List.h 534-543 `ListBase::Clear`. -/
def clear : Cpp (ListC α) Bool := do
  let s ← Cpp.get
  let b ← mem (Mem.callDtors s.buffer 0 s.count.toNat)
  mem (Mem.deallocateBuffer b)
  Cpp.set ⟨Block.null, 0, 0⟩
  return true

/-- List.h 467-474 `~ListBase`. -/
def destructor : Cpp (ListC α) Unit := do
  let s ← Cpp.get
  if s.buffer.size ≠ 0 then
    let b ← mem (Mem.callDtors s.buffer 0 s.count.toNat)
    mem (Mem.deallocateBuffer b)

/-- List.h 605-611 `List::Insert(vint, const T& item)` where `item` refers to element `own` of the same
list (`xs.Insert(index, xs[own])`). `item` is a reference into the buffer the list had *before* the call; it is
read by `CallCopyCtors` only after `InsertUninitializedItems`:
* if the buffer was reallocated, the reference points into the released buffer: fault;
* otherwise it names cell `own` of the same buffer, whatever that cell contains now. -/
def insertOwn (mv : Option α → Option α) (index own : Int) : Cpp (ListC α) Int := do
  let s ← Cpp.get
  Cpp.check (own ≥ 0 ∧ own < s.count)
  Cpp.check (index ≥ 0 ∧ index ≤ s.count)
  let reallocated := decide (s.count + 1 > s.capacity)
  let (b, cap, cnt) ← mem (Mem.insertUninitializedItems mv s.buffer s.capacity s.count index 1)
  if reallocated then Cpp.faulting
  else
    let v ← mem (readVal b own)
    let b ← mem (Mem.construct b index (some v))
    Cpp.set ⟨b, cnt, cap⟩
    return index

/-- List.h 477-485 `ListBase(ListBase&&)`: the new list takes over the members, the source becomes empty.
Returns `(new, source)`. -/
def moveConstruct (src : ListC α) : ListC α × ListC α := (⟨src.buffer, src.count, src.capacity⟩, empty)

/-- List.h 488-502 `operator=(ListBase&&)` between two different lists, `(destination, source)`. -/
def moveAssign (dst src : ListC α) : Outcome (ListC α × ListC α) Unit :=
  match destructor dst with
  | .ok _ _ => .ok () (⟨src.buffer, src.count, src.capacity⟩, empty)
  | .err _ => .err (dst, src)
  | .fault => .fault

/-- List.h 488-502 `xs = std::move(xs)`: the own buffer is released, its pointer copied onto itself and then
overwritten by `nullptr`. -/
def moveAssignSelf : Cpp (ListC α) Unit := do
  destructor
  Cpp.set empty

/-- Turn the outcome of a member function into (new state, what the caller sees); `none` is undefined
behaviour. -/
def observe {β : Type} (ret : β → Spec.SeqRet α) : Outcome (ListC α) β → Option (ListC α × Spec.SeqRet α)
  | .ok v s => some (s, ret v)
  | .err s => some (s, .error)
  | .fault => none

/-- One call on a `List<T>`; the member functions are those cited above. `Count()` is List.h 278-281. -/
def step (mv : Option α → Option α) (eq : α → κ → Bool) (s : ListC α) :
    Spec.SeqOp α κ → Option (ListC α × Spec.SeqRet α)
  | .add v => observe .index (add mv v s)
  | .insert i v => observe .index (insert mv i v s)
  | .set i v => observe .flag (setAt i v s)
  | .remove k => observe .flag (remove mv eq k s)
  | .removeAt i => observe .flag (removeAt mv i s)
  | .removeRange i n => observe .flag (removeRange mv i n s)
  | .clear => observe .flag (clear s)
  | .get i => observe .value (get i s)
  | .count => some (s, .index s.count)
  | .indexOf k => observe .index (indexOf eq k s)
  | .contains k => observe .flag (contains eq k s)

/-- A history of calls on one list. -/
def run (mv : Option α → Option α) (eq : α → κ → Bool) (s : ListC α) :
    List (Spec.SeqOp α κ) → Option (ListC α × List (Spec.SeqRet α))
  | [] => some (s, [])
  | op :: ops => do
    let (s, r) ← step mv eq s op
    let (s, rs) ← run mv eq s ops
    return (s, r :: rs)

/-- What a program can do with a family of `List<T>` variables, numbered by `Nat`. -/
inductive WorldOp (α κ : Type) where
  /-- call a member function of list `i` -/
  | call (i : Nat) (op : Spec.SeqOp α κ)
  /-- `lists[i] = std::move(lists[j])` -/
  | moveAssign (i j : Nat)
  /-- list `i` is destroyed and constructed again by the move constructor from list `j` -/
  | moveConstruct (i j : Nat)
  /-- list `i` is destroyed and constructed again empty -/
  | renew (i : Nat)

/-- One step of a program over many lists.  `none` is undefined behaviour (which, by the definition of
`Mem.deallocateBuffer`, includes leaking a live element). -/
def worldStep (mv : Option α → Option α) (eq : α → κ → Bool) (w : Nat → ListC α) :
    WorldOp α κ → Option ((Nat → ListC α) × Spec.SeqRet α)
  | .call i op => do
    let (s, r) ← step mv eq (w i) op
    return (fun n => if n = i then s else w n, r)
  | .moveAssign i j =>
    if i = j then
      match moveAssignSelf (w i) with
      | .ok _ s => some (fun n => if n = i then s else w n, .flag true)
      | _ => none
    else
      match ListC.moveAssign (w i) (w j) with
      | .ok _ (d, s) => some (fun n => if n = i then d else if n = j then s else w n, .flag true)
      | _ => none
  | .moveConstruct i j =>
    if i = j then some (w, .error)
    else
      match destructor (w i) with
      | .ok _ _ =>
        let (d, s) := ListC.moveConstruct (w j)
        some (fun n => if n = i then d else if n = j then s else w n, .flag true)
      | _ => none
  | .renew i =>
    match destructor (w i) with
    | .ok _ _ => some (fun n => if n = i then empty else w n, .flag true)
    | _ => none

/-- A program over many lists. -/
def worldRun (mv : Option α → Option α) (eq : α → κ → Bool) (w : Nat → ListC α) :
    List (WorldOp α κ) → Option ((Nat → ListC α) × List (Spec.SeqRet α))
  | [] => some (w, [])
  | op :: ops => do
    let (w, r) ← worldStep mv eq w op
    let (w, rs) ← worldRun mv eq w ops
    return (w, r :: rs)

end ListC
end Vlpp
