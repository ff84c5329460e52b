import Verif.Spec.Seq

/-!
# Specification: a fixed-size array that can be resized

An element is `none` when it was never given a value (the default constructor of a trivial type does nothing);
reading such an element has no defined result.
-/
set_option autoImplicit false
namespace Vlpp.Spec

inductive ArrOp (α κ : Type) where
  | set (i : Int) (v : α)
  | get (i : Int)
  | count
  | resize (n : Int)
  | indexOf (k : κ)

/-- First position whose element equals the key.  `none`: an unset element had to be looked at. -/
def arrIndexOf {α κ : Type} (eq : α → κ → Bool) (k : κ) : Nat → List (Option α) → Option Int
  | _, [] => some (-1)
  | _, none :: _ => none
  | i, some v :: rest => if eq v k then some i else arrIndexOf eq k (i + 1) rest

/-- `d` is what a default-constructed element contains. The result is `none` when an unset element is read. -/
def arrStep {α κ : Type} (eq : α → κ → Bool) (d : Option α) (xs : List (Option α)) :
    ArrOp α κ → Option (List (Option α) × SeqRet α)
  | .set i v => if 0 ≤ i ∧ i < xs.length then some (xs.set i.toNat (some v), .flag true) else some (xs, .error)
  | .get i =>
    if 0 ≤ i then
      match xs[i.toNat]? with
      | some (some v) => some (xs, .value v)
      | some none => none
      | none => some (xs, .error)
    else some (xs, .error)
  | .count => some (xs, .index xs.length)
  | .resize n =>
    if 0 ≤ n then some (xs.take n.toNat ++ List.replicate (n.toNat - xs.length) d, .flag true) else some (xs, .error)
  | .indexOf k => (arrIndexOf eq k 0 xs).map (fun i => (xs, .index i))

def arrRun {α κ : Type} (eq : α → κ → Bool) (d : Option α) (xs : List (Option α)) :
    List (ArrOp α κ) → Option (List (Option α) × List (SeqRet α))
  | [] => some (xs, [])
  | op :: ops => do
    let (xs, r) ← arrStep eq d xs op
    let (xs, rs) ← arrRun eq d xs ops
    return (xs, r :: rs)

/-- A call on an array, or the construction of another array in its place. -/
inductive ArrCall (α κ : Type) where
  | call (op : ArrOp α κ)
  /-- `n` elements -/
  | create (n : Int)
  /-- the first `n` elements of `src` -/
  | createFrom (src : List α) (n : Int)

/-- When the construction is refused, there is no array; this is not told apart from an empty one.  Constructing from a source
with less than `n` elements has no defined result. -/
def arrCall {α κ : Type} (eq : α → κ → Bool) (d : Option α) (xs : List (Option α)) :
    ArrCall α κ → Option (List (Option α) × SeqRet α)
  | .call op => arrStep eq d xs op
  | .create n => if 0 ≤ n then some (List.replicate n.toNat d, .flag true) else some ([], .error)
  | .createFrom src n =>
    if 0 ≤ n then if n ≤ src.length then some ((src.take n.toNat).map some, .flag true) else none else some ([], .error)

end Vlpp.Spec
