import Verif.Spec.Seq

/-!
# Specification: numbers of 64 bits

When an operation on a sequence asks for a number that does not fit, or for more memory than there is.
-/
set_option autoImplicit false
namespace Vlpp.Spec

/-- `x` is a signed number of 64 bits. -/
def Int64 (x : Int) : Prop := -(2 ^ 63) ≤ x ∧ x < 2 ^ 63

/-- The numbers an operation gets are signed numbers of 64 bits. -/
def SeqOp.Int64 {α κ : Type} : SeqOp α κ → Prop
  | .insert i _ | .set i _ | .removeAt i | .get i => Spec.Int64 i
  | .removeRange i n => Spec.Int64 i ∧ Spec.Int64 n
  | _ => True

/-- The operation adds an element to a sequence of `len` elements. -/
def SeqOp.Adds {α κ : Type} (len : Int) : SeqOp α κ → Prop
  | .add _ => True
  | .insert i _ => 0 ≤ i ∧ i ≤ len
  | _ => False

/-- The end of the range to remove is not a signed number of 64 bits. -/
def SeqOp.EndOverflows {α κ : Type} (len : Int) : SeqOp α κ → Prop
  | .removeRange i n => 0 ≤ i ∧ i ≤ len ∧ 2 ^ 63 ≤ i + n
  | _ => False

/-- `start, start + 1, …` (`n` numbers) -/
def upFrom (start : Int) (n : Nat) : List Int := (List.range n).map (fun (i : Nat) => start + i)

end Vlpp.Spec
