import Verif.Spec.Seq

/-!
# Specification: what a growing array costs

How many elements have to be moved by a history of operations on a sequence, how often a new buffer is needed and
how large the buffer is.  Everything is stated over the mathematical sequence of `Spec/Seq.lean`.
-/
set_option autoImplicit false
namespace Vlpp.Spec.Cost
variable {α κ : Type}

/-- The number of elements behind the position at which the sequence changes; they move by one place (or by the
length of the removed range). -/
def behind (eq : α → κ → Bool) (xs : List α) : SeqOp α κ → Nat
  | .insert i _ => if 0 ≤ i ∧ i ≤ xs.length then xs.length - i.toNat else 0
  | .removeAt i => if 0 ≤ i ∧ i < xs.length then xs.length - (i.toNat + 1) else 0
  | .removeRange i n => if 0 ≤ i ∧ 0 < n ∧ i + n ≤ xs.length then xs.length - (i + n).toNat else 0
  | .remove k =>
    match xs.findIdx? (fun x => eq x k) with
    | some i => xs.length - (i + 1)
    | none => 0
  | _ => 0

/-- The constant a call is charged with, on top of the elements behind the position. -/
def charge : SeqOp α κ → Nat
  | .add _ => 5
  | .insert _ _ => 5
  | .remove _ => 10
  | .removeAt _ => 10
  | .removeRange _ _ => 10
  | _ => 0

/-- What a whole history is charged with. -/
def work (eq : α → κ → Bool) (xs : List α) : List (SeqOp α κ) → Nat
  | [] => 0
  | op :: ops => behind eq xs op + charge op + work eq (seqStep eq xs op).1 ops

/-- The largest number of elements during a history. -/
def peak (eq : α → κ → Bool) (xs : List α) : List (SeqOp α κ) → Nat
  | [] => xs.length
  | op :: ops => max xs.length (peak eq (seqStep eq xs op).1 ops)

/-- The smallest number of elements during a history. -/
def trough (eq : α → κ → Bool) (xs : List α) : List (SeqOp α κ) → Nat
  | [] => xs.length
  | op :: ops => min xs.length (trough eq (seqStep eq xs op).1 ops)

/-- Does the operation leave all elements in the sequence? -/
def Keeps : SeqOp α κ → Prop
  | .remove _ => False
  | .removeAt _ => False
  | .removeRange _ _ => False
  | .clear => False
  | _ => True

/-- Is the operation something else than `Clear`? -/
def NotClear : SeqOp α κ → Prop
  | .clear => False
  | _ => True

/-- The size of the buffer (in elements), the elements moved and the buffers allocated so far. -/
structure Meter where
  cap : Nat
  moves : Nat
  allocs : Nat
  deriving DecidableEq, Repr

/-- One element arrives in a sequence of `len`, `back` of them behind it: a full buffer is replaced by one a quarter
larger than needed, and every element moves into it. -/
def grow (m : Meter) (len back : Nat) : Meter :=
  if len < m.cap then { m with moves := m.moves + back }
  else ⟨(len + 1) * 5 / 4 + 1, m.moves + len, m.allocs + 1⟩

/-- Elements leave, `back` elements close the gap and `left` remain: with at most eight of them the buffer is replaced
by one of five eighths of its size. -/
def shrink (m : Meter) (left back : Nat) : Meter :=
  if left ≤ m.cap / 2 ∧ left ≤ 8 ∧ left < m.cap * 5 / 8 then
    ⟨m.cap * 5 / 8, m.moves + back + left, m.allocs + 1⟩
  else { m with moves := m.moves + back }

/-- The cost of one operation. -/
def meterStep (eq : α → κ → Bool) (xs : List α) (m : Meter) (op : SeqOp α κ) : Meter :=
  match op with
  | .add _ => grow m xs.length 0
  | .insert i _ => if 0 ≤ i ∧ i ≤ xs.length then grow m xs.length (behind eq xs op) else m
  | .removeAt i => if 0 ≤ i ∧ i < xs.length then shrink m (xs.length - 1) (behind eq xs op) else m
  | .removeRange i n =>
    if 0 ≤ i ∧ 0 ≤ n ∧ i + n ≤ xs.length then shrink m (xs.length - n.toNat) (behind eq xs op) else m
  | .remove k => if (xs.findIdx? (fun x => eq x k)).isSome then shrink m (xs.length - 1) (behind eq xs op) else m
  | .clear => { m with cap := 0 }
  | _ => m

/-- The cost of a history. -/
def meterRun (eq : α → κ → Bool) (xs : List α) (m : Meter) : List (SeqOp α κ) → Meter
  | [] => m
  | op :: ops => meterRun eq (seqStep eq xs op).1 (meterStep eq xs m op) ops

end Vlpp.Spec.Cost
