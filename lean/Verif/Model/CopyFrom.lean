import Verif.Model.ArrayC
import Verif.Model.GroupC
import Verif.Model.LazyList

/-!
# Model of `CopyFrom`

Source/Collections/OperationCopyFrom.h 20-175, Interfaces.h 186-227 (`RandomAccess`), List.h 965-987 and
Dictionary.h 737-768 (which containers can be read by index or resized).

Simplification: source and target do not share storage, so the source is a constant.
The result is `none` if the call does not return.
-/
set_option autoImplicit false
namespace Vlpp

/-- What `CopyFrom` sees of a source: `CanRead` containers by index, all others through an enumerator. -/
inductive CopySource (α : Type) where
  /-- `RandomAccess<Ss>::GetCount`, `GetValue`, Interfaces.h 198-206 -/
  | random (count : Int) (getValue : Int → Outcome Unit α)
  | enumerable (L : LazyList.{0, 0} α)

/-- What `CopyFrom` does with a target: `CanResize` containers get their size first, all others are appended to. -/
inductive CopyTarget (σ α : Type) where
  /-- `RandomAccess<Ds>::GetCount`, `SetCount`, `SetValue`, Interfaces.h 198-216 -/
  | resizable (getCount : σ → Int) (setCount : Int → Cpp σ Bool) (setValue : Int → α → Cpp σ Bool)
  /-- `Clear` and `RandomAccess<Ds>::AppendValue`, Interfaces.h 218-222 -/
  | growing (clear : Cpp σ Bool) (appendValue : α → Cpp σ Bool)

namespace CopyFrom
variable {σ α κ ν : Type}

/-- read the source; the target is not changed -/
def ofSource {β : Type} : Outcome Unit β → Cpp σ β
  | .ok v _ => fun s => .ok v s
  | .err _ => fun s => .err s
  | .fault => fun _ => .fault

/-- OperationCopyFrom.h 38-41, 55-58: `for (i = ..) body(i, GetValue(ss, i))`, `n` more rounds. -/
def forLoop (getValue : Int → Outcome Unit α) (body : Int → α → Cpp σ Bool) : Nat → Int → Cpp σ Unit
  | 0, _ => pure ()
  | n + 1, i => do
    let v ← ofSource (getValue i)
    let _ ← body i v
    forLoop getValue body n (i + 1)

/-- OperationCopyFrom.h 81-84, 98-101: `while (enumerator->Next()) body(index++, enumerator->Current())`. -/
def enumLoop (A : Ator.{0, 0} α) (body : Int → α → Cpp σ Bool) (index : Int) (e : A.σ) (s : σ) :
    Option (Outcome σ Unit) :=
  match A.next e with
  | none => none
  | some (.ok true e') =>
    match A.current e' with
    | none => some .fault
    | some x =>
      match body index x s with
      | .ok _ s' => enumLoop A body (index + 1) e' s'
      | .err s' => some (.err s')
      | .fault => some .fault
  | some (.ok false _) => some (.ok () s)
  | some (.err _) => some (.err s)
  | some .fault => some .fault
partial_fixpoint

/-- `enumerator = ss.CreateEnumerator(); while (...)` -/
def enumerate (L : LazyList.{0, 0} α) (body : Int → α → Cpp σ Bool) (index : Int) (s : σ) : Option (Outcome σ Unit) :=
  match L.create with
  | none => some (.err s)
  | some e => enumLoop L.A body index e s

/-- OperationCopyFrom.h 29-43, 45-60, 62-86, 88-103: the four algorithms. -/
def copyFrom : CopyTarget σ α → CopySource α → Bool → σ → Option (Outcome σ Unit)
  | .resizable getCount setCount setValue, .random count getValue, append => fun s =>
    let index := if append then getCount s else 0
    match setCount (index + count) s with
    | .ok _ s => some (forLoop getValue (fun i v => setValue (index + i) v) count.toNat 0 s)
    | .err s => some (.err s)
    | .fault => some .fault
  | .growing clear appendValue, .random count getValue, append => fun s =>
    match (if append then .ok true s else clear s) with
    | .ok _ s => some (forLoop getValue (fun _ v => appendValue v) count.toNat 0 s)
    | .err s => some (.err s)
    | .fault => some .fault
  | .resizable getCount setCount setValue, .enumerable L, append => fun s =>
    match L.count with
    | none => none
    | some (.err _) => some (.err s)
    | some .fault => some .fault
    | some (.ok copyCount _) =>
      let index := if append then getCount s else 0
      match setCount (index + copyCount) s with
      | .ok _ s => enumerate L setValue index s
      | .err s => some (.err s)
      | .fault => some .fault
  | .growing clear appendValue, .enumerable L, append => fun s =>
    match (if append then .ok true s else clear s) with
    | .ok _ s => enumerate L (fun _ v => appendValue v) 0 s
    | .err s => some (.err s)
    | .fault => some .fault

/-! ## The containers -/

/-- the value of a member function that does not change the container -/
def observe {β : Type} : Outcome σ β → Outcome Unit β
  | .ok v _ => .ok v ()
  | .err _ => .err ()
  | .fault => .fault

/-- `List<T>` (and `SortedList<T>`: same buffer) as a source: `Count`, `Get`, List.h 278-290, 974-986 -/
def fromList (l : ListC α) : CopySource α := .random l.count (fun i => observe (ListC.get i l))

/-- `Array<T>` as a source: `Count`, `Get`, List.h 967-972 -/
def fromArray (a : ArrayC α) : CopySource α := .random a.count (fun i => observe (ArrayC.get i a))

/-- OperationCopyFrom.h 105-135, 156-175: `Slice<T>`, `items` is the array; reading outside of it is undefined. -/
def fromSlice (items : List α) (count : Int) : CopySource α :=
  .random count (fun i => if 0 ≤ i then (match items[i.toNat]? with | some v => .ok v () | none => .fault) else .fault)

/-- `Dictionary<KT, VT>` as a source, Dictionary.h 749-757 -/
def fromDict (d : DictC κ ν) : CopySource (κ × ν) :=
  .random d.count (fun i =>
    match SeqList.get i d.keys, SeqList.get i d.values with
    | .ok k _, .ok v _ => .ok (k, v) ()
    | .err _, _ => .err ()
    | .ok _ _, .err _ => .err ()
    | _, _ => .fault)

/-- `List<T>` as a target -/
def toList (mv : Option α → Option α) : CopyTarget (ListC α) α :=
  .growing ListC.clear (fun v => do let _ ← ListC.add mv v; return true)

/-- `SortedList<T>` as a target; `cmp` is `<=>` of the element type -/
def toSortedList (mv : Option α → Option α) (cmp : α → α → Option Ordering) : CopyTarget (ListC α) α :=
  .growing ListC.clear (fun v => do let _ ← SortedListC.add mv cmp id v; return true)

/-- `Array<T>` as a target -/
def toArray (mv : Option α → Option α) (dflt : Option α) : CopyTarget (ArrayC α) α :=
  .resizable ArrayC.count (ArrayC.resize mv dflt) ArrayC.setAt

/-- `Dictionary<KT, VT>` as a target, Dictionary.h 759-767 -/
def toDict (cmp : κ → κ → Option Ordering) : CopyTarget (DictC κ ν) (κ × ν) :=
  .growing DictC.clear (fun (k, v) => DictC.set cmp k v)

/-- `Group<KT, VT>` as a target: `Add(pair)`, Dictionary.h 496 -/
def toGroup (cmp : κ → κ → Option Ordering) : CopyTarget (GroupC κ ν) (κ × ν) :=
  .growing GroupC.clear (fun (k, v) => GroupC.add cmp k v)

end CopyFrom
end Vlpp
