import Verif.Model.Sort

/-!
# Model of `SortLambda` with comparers and elements that have effects and throw

Source/Collections/Operation.h 86-184, as in `Model/Sort`, but `orderer` and the copies of elements read and change a
state `σ` of the program and may throw a C++ exception.  The buffer itself is not part of `σ`: the comparer gets its
arguments by constant reference and does not change the elements (simplification).  Destructors of `temp` do not throw.
-/
set_option autoImplicit false
namespace Vlpp
namespace QSortE
variable {α σ β : Type}

/-- what one call of `orderer` does: it answers, it answers `std::partial_ordering::unordered`, or it throws -/
inductive Answer
  | ord (o : Ordering)
  | unordered
  | threw
deriving DecidableEq

/-- The user's code: `orderer(a, b)`, and the copy constructor / copy assignment of an element with value `a` (`false`
if it throws; an assignment that throws leaves its target as it was). -/
structure Env (α σ : Type) where
  cmp : σ → α → α → Answer × σ
  copy : σ → α → Bool × σ

/-- the calls of the user's code (not in the code; recorded to speak about them) -/
inductive Ev (α : Type)
  | cmp (a b : α) (r : Answer)
  | copy (a : α) (done : Bool)
deriving DecidableEq

/-- the buffer, the state of the program, and the calls so far, the latest first -/
structure St (α σ : Type) where
  buf : List α
  s : σ
  trace : List (Ev α)

/-- how a part of the code ends: normally, by `CHECK_ERROR`, by an exception of the user's code, or undefined -/
inductive Res (α σ β : Type)
  | ok (b : β) (st : St α σ)
  | error (st : St α σ)
  | thrown (st : St α σ)
  | fault

/-- `orderer(a, b)` -/
def compare (E : Env α σ) (a b : α) (st : St α σ) : Answer × St α σ :=
  let r := E.cmp st.s a b
  (r.1, { st with s := r.2, trace := .cmp a b r.1 :: st.trace })

/-- Copying an element with value `a`; `false` if the copy throws. -/
def copy (E : Env α σ) (a : α) (st : St α σ) : Bool × St α σ :=
  let r := E.copy st.s a
  (r.1, { st with s := r.2, trace := .copy a r.1 :: st.trace })

/-- Operation.h 117-119, 141-143, 161-163: `T temp = items[i]; items[i] = items[j]; items[j] = temp;` -/
def swap (E : Env α σ) (i j : Int) (st : St α σ) : Res α σ Unit :=
  match QSort.read st.buf i, QSort.read st.buf j with
  | some a, some b =>
    match copy E a st with
    | (false, st) => .thrown st
    | (true, st) =>
      match copy E b st with
      | (false, st) => .thrown st
      | (true, st) =>
        let st := { st with buf := st.buf.set i.toNat b }
        match copy E a st with
        | (false, st) => .thrown st
        | (true, st) => .ok () { st with buf := st.buf.set j.toNat a }
  | _, _ => .fault

/-- Operation.h 96-125: the partition loop; the result is (pivot, left, right). -/
def partLoop (E : Env α σ) (base length pivot left right : Int) (flag : Bool) (st : St α σ) :
    Option (Res α σ (Int × Int × Int)) :=
  if left + right + 1 ≠ length then
    let candidate := if flag then left else length - right - 1
    match QSort.read st.buf (base + pivot), QSort.read st.buf (base + candidate) with
    | some p, some c =>
      match compare E p c st with
      | (.threw, st) => some (.thrown st)
      | (.unordered, st) => some (.error st)
      | (.ord ordering, st) =>
        if (flag = false ∧ ordering ≠ .gt) ∨ (flag = true ∧ ordering ≠ .lt) then
          if flag then partLoop E base length pivot (left + 1) right flag st
          else partLoop E base length pivot left (right + 1) flag st
        else
          match swap E (base + pivot) (base + candidate) st with
          | .error st => some (.error st)
          | .thrown st => some (.thrown st)
          | .fault => some .fault
          | .ok _ st =>
            if flag then partLoop E base length candidate left (right + 1) (!flag) st
            else partLoop E base length candidate (left + 1) right (!flag) st
    | _, _ => some .fault
  else some (.ok (pivot, left, right) st)
partial_fixpoint

/-- Operation.h 129-150: move the elements equal to the pivot to the end of the left part; the result is the new
`left`. -/
def leftLoop (E : Env α σ) (base pivot reading writing : Int) (st : St α σ) : Option (Res α σ Int) :=
  if reading ≥ 0 then
    match QSort.read st.buf (base + pivot), QSort.read st.buf (base + reading) with
    | some p, some c =>
      match compare E p c st with
      | (.threw, st) => some (.thrown st)
      | (.unordered, st) => some (.error st)
      | (.ord .eq, st) =>
        if reading ≠ writing then
          match swap E (base + reading) (base + writing) st with
          | .error st => some (.error st)
          | .thrown st => some (.thrown st)
          | .fault => some .fault
          | .ok _ st => leftLoop E base pivot (reading - 1) (writing - 1) st
        else leftLoop E base pivot (reading - 1) (writing - 1) st
      | (.ord _, st) => leftLoop E base pivot (reading - 1) writing st
    | _, _ => some .fault
  else some (.ok (writing + 1) st)
partial_fixpoint

/-- Operation.h 153-170: move the elements equal to the pivot to the beginning of the right part; the result is the new
`right`.  An unordered answer is not checked here and counts as "not equal". -/
def rightLoop (E : Env α σ) (base length pivot reading writing : Int) (st : St α σ) : Option (Res α σ Int) :=
  if reading < length then
    match QSort.read st.buf (base + pivot), QSort.read st.buf (base + reading) with
    | some p, some c =>
      match compare E p c st with
      | (.threw, st) => some (.thrown st)
      | (.ord .eq, st) =>
        if reading ≠ writing then
          match swap E (base + reading) (base + writing) st with
          | .error st => some (.error st)
          | .thrown st => some (.thrown st)
          | .fault => some .fault
          | .ok _ st => rightLoop E base length pivot (reading + 1) (writing + 1) st
        else rightLoop E base length pivot (reading + 1) (writing + 1) st
      | (_, st) => rightLoop E base length pivot (reading + 1) writing st
    | _, _ => some .fault
  else some (.ok (length - writing) st)
partial_fixpoint

/-- Operation.h 89-170: one round of the outer loop up to the recursive call; the result is (left, right). -/
def partition (E : Env α σ) (base length : Int) (st : St α σ) : Option (Res α σ (Int × Int)) :=
  (partLoop E base length 0 0 0 false st).bind fun r =>
    match r with
    | .error st => some (.error st)
    | .thrown st => some (.thrown st)
    | .fault => some .fault
    | .ok (pivot, left, right) st =>
      (leftLoop E base pivot (left - 1) (left - 1) st).bind fun r =>
        match r with
        | .error st => some (.error st)
        | .thrown st => some (.thrown st)
        | .fault => some .fault
        | .ok left st =>
          (rightLoop E base length pivot (length - right) (length - right) st).map fun r =>
            match r with
            | .error st => .error st
            | .thrown st => .thrown st
            | .fault => .fault
            | .ok right st => .ok (left, right) st

/-- Operation.h 87-183: `SortLambda(items, length, orderer)` where `items` is at `base`; `Sort`, 194-207, only calls it.
The result is not in the code: the largest number of nested recursive calls (`depth` is that of the rounds before). -/
def sort (E : Env α σ) (base length : Int) (depth : Nat) (st : St α σ) : Option (Res α σ Nat) :=
  if length = 0 then some (.ok depth st)
  else
    (partition E base length st) >>= fun r =>
      match r with
      | .error st => some (.error st)
      | .thrown st => some (.thrown st)
      | .fault => some .fault
      | .ok (left, right) st =>
        if left < right then
          (sort E base left 0 st) >>= fun r =>
            match r with
            | .error st => some (.error st)
            | .thrown st => some (.thrown st)
            | .fault => some .fault
            | .ok d st => sort E (base + length - right) right (max depth (d + 1)) st
        else
          (sort E (base + length - right) right 0 st) >>= fun r =>
            match r with
            | .error st => some (.error st)
            | .thrown st => some (.thrown st)
            | .fault => some .fault
            | .ok d st => sort E base left (max depth (d + 1)) st
partial_fixpoint

end QSortE
end Vlpp
