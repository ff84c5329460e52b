/-!
# Specification: a mutable sequence

What a user expects from `List<T>`: a mathematical list with these operations.  Nothing here mentions
buffers or capacities.
-/
set_option autoImplicit false
namespace Vlpp.Spec

/-- Operations of a mutable sequence of `α` searched by keys `κ`. -/
inductive SeqOp (α κ : Type) where
  | add (v : α)
  | insert (i : Int) (v : α)
  | set (i : Int) (v : α)
  | remove (k : κ)
  | removeAt (i : Int)
  | removeRange (i n : Int)
  | clear
  | get (i : Int)
  | count
  | indexOf (k : κ)
  | contains (k : κ)

/-- What a caller sees of an operation. -/
inductive SeqRet (α : Type) where
  | index (i : Int)
  | flag (b : Bool)
  | value (v : α)
  | error
  deriving DecidableEq, Repr

/-- Position of the first element equal to the key, or -1. -/
def firstIndex {α κ : Type} (eq : α → κ → Bool) (xs : List α) (k : κ) : Int :=
  match xs.findIdx? (fun x => eq x k) with
  | some i => i
  | none => -1

/-- Effect of one operation on the mathematical sequence. -/
def seqStep {α κ : Type} (eq : α → κ → Bool) (xs : List α) : SeqOp α κ → List α × SeqRet α
  | .add v => (xs ++ [v], .index xs.length)
  | .insert i v =>
    if 0 ≤ i ∧ i ≤ xs.length then (xs.take i.toNat ++ v :: xs.drop i.toNat, .index i) else (xs, .error)
  | .set i v => if 0 ≤ i ∧ i < xs.length then (xs.set i.toNat v, .flag true) else (xs, .error)
  | .removeAt i =>
    if 0 ≤ i ∧ i < xs.length then (xs.take i.toNat ++ xs.drop (i.toNat + 1), .flag true) else (xs, .error)
  | .removeRange i n =>
    if 0 ≤ i ∧ 0 ≤ n ∧ i + n ≤ xs.length then (xs.take i.toNat ++ xs.drop (i + n).toNat, .flag true)
    else (xs, .error)
  | .remove k =>
    match xs.findIdx? (fun x => eq x k) with
    | some i => (xs.take i ++ xs.drop (i + 1), .flag true)
    | none => (xs, .flag false)
  | .clear => ([], .flag true)
  | .get i => if 0 ≤ i then
      match xs[i.toNat]? with
      | some v => (xs, .value v)
      | none => (xs, .error)
    else (xs, .error)
  | .count => (xs, .index xs.length)
  | .indexOf k => (xs, .index (firstIndex eq xs k))
  | .contains k => (xs, .flag (xs.any (fun x => eq x k)))

/-- A whole history: the final sequence and everything the caller saw. -/
def seqRun {α κ : Type} (eq : α → κ → Bool) (xs : List α) : List (SeqOp α κ) → List α × List (SeqRet α)
  | [] => (xs, [])
  | op :: ops =>
    let (xs', r) := seqStep eq xs op
    let (xs'', rs) := seqRun eq xs' ops
    (xs'', r :: rs)

end Vlpp.Spec
