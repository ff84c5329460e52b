import Verif.Model.HeapArray
import Verif.Model.HeapGroupEnum
import Verif.Spec.Copied

/-!
# Model of `CopyFrom` with source and target in one memory

Source/Collections/OperationCopyFrom.h 20-104, Interfaces.h 186-227.  In `Model/CopyFrom` the source is a constant; here it is a
container of the same memory, which may be the target itself, and elements are passed by reference.
-/
set_option autoImplicit false
namespace Vlpp
open EnumClass (onObjects)

namespace Movable
variable {σ Op Ret : Type}

/-- One step of a program with copies; `none`: undefined behaviour, or a call that does not return (semantics of programs, not
code of the library). -/
def stepC (M : Movable σ Op Ret) (copy : Nat → Nat → Bool → σ → Option (Outcome σ Unit)) (moved error : Ret) (w : σ) :
    Spec.CopyOp Op → Option (σ × Ret)
  | .op o => M.step moved error w o
  | .copy d s append =>
    match copy d s append w with
    | some (.ok _ w) => some (w, moved)
    | some (.err w) => some (w, error)
    | some .fault => none
    | none => none

def runC (M : Movable σ Op Ret) (copy : Nat → Nat → Bool → σ → Option (Outcome σ Unit)) (moved error : Ret) (w : σ) :
    List (Spec.CopyOp Op) → Option (σ × List Ret)
  | [] => some (w, [])
  | op :: ops => do
    let (w, r) ← M.stepC copy moved error w op
    let (w, rs) ← M.runC copy moved error w ops
    return (w, r :: rs)

end Movable

namespace ListWorld
variable {α : Type}

/-- `Count` of container `i` (List.h 278-281) -/
def countOf (i : Nat) : Cpp (ListWorld α) Int := on i (do return (← ListH.members).count)

/-- `Clear` of the target, unless elements are appended (OperationCopyFrom.h 50-53, 93-96) -/
def clearUnless (append : Bool) (d : Nat) : Cpp (ListWorld α) Unit :=
  if append then pure () else do
    let _ ← on d ListH.clear
    return ()

/-- OperationCopyFrom.h 55-58: `for(..) AppendValue(ds, GetValue(ss, i))`, `n` more rounds; `add` is `Add(const T&)` of the target -/
def appendLoop (add : ElemRef α → Cpp (Heap α × ListH) Int) (d s : Nat) : Nat → Int → Cpp (ListWorld α) Unit
  | 0, _ => pure ()
  | n + 1, i => do
    let r ← on s (ListH.refAt i)
    let _ ← on d (add r)
    appendLoop add d s n (i + 1)

/-- OperationCopyFrom.h 45-60: from a list, a sorted list or an array to a list or a sorted list -/
def copyFrom (add : ElemRef α → Cpp (Heap α × ListH) Int) (d s : Nat) (append : Bool) : Cpp (ListWorld α) Unit := do
  clearUnless append d
  let copyCount ← countOf s
  appendLoop add d s copyCount.toNat 0

/-- List.h 238-241 `Current` of the enumerator: the reference -/
def currentRef (e : ListEnum) : Cpp (ListWorld α) (ElemRef α) := on e.container (ListH.refAt e.index)

/-- OperationCopyFrom.h 98-101: `while(enumerator->Next()) AppendValue(ds, enumerator->Current())`; `none`: the loop does not end -/
def enumLoop (add : ElemRef α → Cpp (Heap α × ListH) Int) (d : Nat) (e : ListEnum) (w : ListWorld α) :
    Option (Outcome (ListWorld α) Unit) :=
  match ListEnum.next (w, e) with
  | .ok true (w, e) =>
    match currentRef e w with
    | .ok r w =>
      match on d (add r) w with
      | .ok _ w => enumLoop add d e w
      | .err w => some (.err w)
      | .fault => some .fault
    | .err w => some (.err w)
    | .fault => some .fault
  | .ok false (w, _) => some (.ok () w)
  | .err (w, _) => some (.err w)
  | .fault => some .fault
partial_fixpoint

/-- OperationCopyFrom.h 88-103: from a lazy list over list `s` (Operation.h 230-240, 260-263; List.h 233-236, 271-274) -/
def copyFromLazy (add : ElemRef α → Cpp (Heap α × ListH) Int) (d s : Nat) (append : Bool) (w : ListWorld α) :
    Option (Outcome (ListWorld α) Unit) :=
  match clearUnless append d w with
  | .ok _ w => enumLoop add d (ListEnum.cls (α := α).clone (ListEnum.cls (α := α).create s)) w
  | .err w => some (.err w)
  | .fault => some .fault

/-- `CopyFrom` of a list, or of a lazy list over it -/
def copyOf (add : ElemRef α → Cpp (Heap α × ListH) Int) (viaLazy : Bool) (d s : Nat) (append : Bool) (w : ListWorld α) :
    Option (Outcome (ListWorld α) Unit) :=
  if viaLazy then copyFromLazy add d s append w else some (copyFrom add d s append w)

end ListWorld

namespace ArrayH
variable {α : Type}
open ListH (onHeap members setMembers)

/-- List.h 399-404 `Array::Set(vint, const T&)`: the argument is read by the assignment -/
def setRef (index : Int) (item : ElemRef α) : Cpp (Heap α × ListH) Bool := do
  let s ← members
  Cpp.check (index ≥ 0 ∧ index < s.count)
  let v ← onHeap item.read
  onHeap (Heap.assign s.buffer index (some v))
  return true

/-- OperationCopyFrom.h 38-41, `n` more rounds -/
def setLoop (d s : Nat) (index : Int) : Nat → Int → Cpp (ListWorld α) Unit
  | 0, _ => pure ()
  | n + 1, i => do
    let r ← ListWorld.on s (ListH.refAt i)
    let _ ← ListWorld.on d (setRef (index + i) r)
    setLoop d s index n (i + 1)

/-- OperationCopyFrom.h 29-43: from an array to an array -/
def copyFrom (mv : Option α → Option α) (dflt : Option α) (d s : Nat) (append : Bool) : Cpp (ListWorld α) Unit := do
  let copyCount ← ListWorld.countOf s
  let n ← ListWorld.countOf d
  let index := if append then n else 0
  let _ ← ListWorld.on d (resize mv dflt (index + copyCount))
  setLoop d s index copyCount.toNat 0

end ArrayH

namespace DictWorld
variable {κ ν : Type}

/-- Dictionary.h 754-757 `GetValue`: a pair of copies -/
def pairAt (s : Nat) (i : Int) : Cpp (DictWorld κ ν) (κ × ν) := do
  let k ← onKeys (ListWorld.on s (ListH.reading (ListC.get i)))
  let v ← onValues (ListWorld.on s (ListH.reading (ListC.get i)))
  return (k, v)

variable (mk : Option κ → Option κ) (mv : Option ν → Option ν) (cmp : κ → κ → Option Ordering)

/-- OperationCopyFrom.h 55-58, `n` more rounds; Dictionary.h 759-762 `AppendValue` -/
def setLoop (d s : Nat) : Nat → Int → Cpp (DictWorld κ ν) Unit
  | 0, _ => pure ()
  | n + 1, i => do
    let (k, v) ← pairAt s i
    let _ ← set mk mv cmp d k v
    setLoop d s n (i + 1)

/-- OperationCopyFrom.h 45-60: from a dictionary to a dictionary; Dictionary.h 749-752 `GetCount`, 161-164 `Count` -/
def copyFrom (d s : Nat) (append : Bool) : Cpp (DictWorld κ ν) Unit := do
  (show Cpp (DictWorld κ ν) Unit from if append then pure () else do
    let _ ← clear d
    return ())
  let copyCount ← onKeys (ListWorld.countOf s)
  setLoop mk mv cmp d s copyCount.toNat 0

end DictWorld

namespace GroupWorld
variable {κ ν : Type} (mk : Option κ → Option κ) (mv : Option ν → Option ν) (cmp : κ → κ → Option Ordering)

/-- OperationCopyFrom.h 98-101; `Add(pair)` converts the pair of references to a pair of copies (Dictionary.h 496-505, Pair.h 76-92);
`none`: the loop does not end -/
def enumLoop (d : Nat) (e : GroupEnum κ ν) (w : GroupWorld κ ν) : Option (Outcome (GroupWorld κ ν) Unit) :=
  match GroupEnum.next (w, e) with
  | .ok true (w, e) =>
    match GroupEnum.readCurrent (w, e) with
    | .ok p (w, e) =>
      match add mk mv cmp d p.1 p.2 w with
      | .ok _ w => enumLoop d e w
      | .err w => some (.err w)
      | .fault => some .fault
    | .err (w, _) => some (.err w)
    | .fault => some .fault
  | .ok false (w, _) => some (.ok () w)
  | .err (w, _) => some (.err w)
  | .fault => some .fault
partial_fixpoint

/-- OperationCopyFrom.h 88-103: from a group to a group -/
def copyFrom (d s : Nat) (append : Bool) (w : GroupWorld κ ν) : Option (Outcome (GroupWorld κ ν) Unit) :=
  match (if append then .ok true w else clear d w) with
  | .ok _ w => enumLoop mk mv cmp d (GroupEnum.cls.create s) w
  | .err w => some (.err w)
  | .fault => some .fault

end GroupWorld
end Vlpp
