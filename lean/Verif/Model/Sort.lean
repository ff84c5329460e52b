import Verif.Model.Outcome

/-!
# Model of `SortLambda`

Source/Collections/Operation.h 86-184.  The buffer is a list of elements; `items` is the distance `base` of the pointer
from the beginning of the buffer.  Reading or writing outside the buffer is undefined behaviour (`fault`).
`cmp a b` is `orderer(a, b)`, `none` if unordered.  Copying elements does not throw (simplification).
Loops and recursion return `Option`: `none` means that the call does not return.
-/
set_option autoImplicit false
namespace Vlpp
namespace QSort
variable {α : Type}

/-- `items[k]`; `none` outside the buffer -/
def read (buf : List α) (k : Int) : Option α := if 0 ≤ k then buf[k.toNat]? else none

/-- `T temp = items[i]; items[i] = items[j]; items[j] = temp;` -/
def swap (buf : List α) (i j : Int) : Option (List α) :=
  match read buf i, read buf j with
  | some a, some b => some ((buf.set i.toNat b).set j.toNat a)
  | _, _ => none

/-- Operation.h 96-125: the partition loop; the result is (pivot, left, right). -/
def partLoop (cmp : α → α → Option Ordering) (base length pivot left right : Int) (flag : Bool) (buf : List α) :
    Option (Outcome (List α) (Int × Int × Int)) :=
  if left + right + 1 ≠ length then
    let candidate := if flag then left else length - right - 1
    match read buf (base + pivot), read buf (base + candidate) with
    | some p, some c =>
      match cmp p c with
      | none => some (.err buf)
      | some ordering =>
        if (flag = false ∧ ordering ≠ .gt) ∨ (flag = true ∧ ordering ≠ .lt) then
          if flag then partLoop cmp base length pivot (left + 1) right flag buf
          else partLoop cmp base length pivot left (right + 1) flag buf
        else
          match swap buf (base + pivot) (base + candidate) with
          | none => some .fault
          | some buf' =>
            if flag then partLoop cmp base length candidate left (right + 1) (!flag) buf'
            else partLoop cmp base length candidate (left + 1) right (!flag) buf'
    | _, _ => some .fault
  else some (.ok (pivot, left, right) buf)
partial_fixpoint

/-- Operation.h 129-150: move the elements equal to the pivot to the end of the left part; the result is the new
`left`. -/
def leftLoop (cmp : α → α → Option Ordering) (base pivot reading writing : Int) (buf : List α) :
    Option (Outcome (List α) Int) :=
  if reading ≥ 0 then
    match read buf (base + pivot), read buf (base + reading) with
    | some p, some c =>
      match cmp p c with
      | none => some (.err buf)
      | some .eq =>
        if reading ≠ writing then
          match swap buf (base + reading) (base + writing) with
          | none => some .fault
          | some buf' => leftLoop cmp base pivot (reading - 1) (writing - 1) buf'
        else leftLoop cmp base pivot (reading - 1) (writing - 1) buf
      | some _ => leftLoop cmp base pivot (reading - 1) writing buf
    | _, _ => some .fault
  else some (.ok (writing + 1) buf)
partial_fixpoint

/-- Operation.h 153-170: move the elements equal to the pivot to the beginning of the right part; the result is the new
`right`.  There is no check for unordered elements here. -/
def rightLoop (cmp : α → α → Option Ordering) (base length pivot reading writing : Int) (buf : List α) :
    Option (Outcome (List α) Int) :=
  if reading < length then
    match read buf (base + pivot), read buf (base + reading) with
    | some p, some c =>
      if cmp p c = some .eq then
        if reading ≠ writing then
          match swap buf (base + reading) (base + writing) with
          | none => some .fault
          | some buf' => rightLoop cmp base length pivot (reading + 1) (writing + 1) buf'
        else rightLoop cmp base length pivot (reading + 1) (writing + 1) buf
      else rightLoop cmp base length pivot (reading + 1) writing buf
    | _, _ => some .fault
  else some (.ok (length - writing) buf)
partial_fixpoint

/-- Operation.h 89-170: one round of the outer loop up to the recursive call; the result is (left, right). -/
def partition (cmp : α → α → Option Ordering) (base length : Int) (buf : List α) :
    Option (Outcome (List α) (Int × Int)) :=
  (partLoop cmp base length 0 0 0 false buf).bind fun r =>
    match r with
    | .err buf => some (.err buf)
    | .fault => some .fault
    | .ok (pivot, left, right) buf =>
      (leftLoop cmp base pivot (left - 1) (left - 1) buf).bind fun r =>
        match r with
        | .err buf => some (.err buf)
        | .fault => some .fault
        | .ok left buf =>
          (rightLoop cmp base length pivot (length - right) (length - right) buf).map fun r =>
            match r with
            | .err buf => .err buf
            | .fault => .fault
            | .ok right buf => .ok (left, right) buf

/-- Operation.h 87-183: `SortLambda(items, length, orderer)` where `items` is at `base`; `Sort`, 194-207, only calls it.
The result is not in the code: the largest number of nested recursive calls (`depth` is that of the rounds before). -/
def sort (cmp : α → α → Option Ordering) (base length : Int) (depth : Nat) (buf : List α) :
    Option (Outcome (List α) Nat) :=
  if length = 0 then some (.ok depth buf)
  else
    (partition cmp base length buf) >>= fun r =>
      match r with
      | .err buf => some (.err buf)
      | .fault => some .fault
      | .ok (left, right) buf =>
        if left < right then
          (sort cmp base left 0 buf) >>= fun r =>
            match r with
            | .err buf => some (.err buf)
            | .fault => some .fault
            | .ok d buf => sort cmp (base + length - right) right (max depth (d + 1)) buf
        else
          (sort cmp (base + length - right) right 0 buf) >>= fun r =>
            match r with
            | .err buf => some (.err buf)
            | .fault => some .fault
            | .ok d buf => sort cmp base left (max depth (d + 1)) buf
partial_fixpoint

end QSort
end Vlpp
