import Verif.Spec.MultiMap

/-! # Calls on multimaps whose arguments are elements of multimaps -/
set_option autoImplicit false
namespace Vlpp.Spec
variable {κ ν : Type}

/-- What a caller writes for a key: an object of their own, or `g.Keys()[n]` for group `j`. -/
inductive KeyArg (κ : Type) where
  | temp (k : κ)
  | elem (j : Nat) (n : Int)

/-- What a caller writes for a value: an object of their own, or `g[k][m]` for group `j`. -/
inductive ValueArg (κ ν : Type) where
  | temp (v : ν)
  | elem (j : Nat) (k : κ) (m : Int)

/-- the key that is meant by an argument -/
def KeyArg.value (ks : Nat → List κ) : KeyArg κ → Option κ
  | .temp k => some k
  | .elem j n => if 0 ≤ n then (ks j)[n.toNat]? else none

/-- the value that is meant by an argument -/
def ValueArg.value (ms : Nat → κ → List ν) : ValueArg κ ν → Option ν
  | .temp v => some v
  | .elem j k m => if 0 ≤ m then (ms j k)[m.toNat]? else none

/-- the call that is meant -/
def callValue (ks : Nat → List κ) (ms : Nat → κ → List ν) : GroupOp (KeyArg κ) (ValueArg κ ν) → Option (GroupOp κ ν)
  | .add k v => do return .add (← k.value ks) (← v.value ms)
  | .removeKey k => do return .removeKey (← k.value ks)
  | .remove k v => do return .remove (← k.value ks) (← v.value ms)
  | .clear => some .clear
  | .get k => do return .get (← k.value ks)
  | .containsKey k => do return .containsKey (← k.value ks)
  | .contains k v => do return .contains (← k.value ks) (← v.value ms)

end Vlpp.Spec
