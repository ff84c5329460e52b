import Verif.Model.EnmOwn

/-!
# Specification: every enumerator has one owner
-/
set_option autoImplicit false
namespace Vlpp.Spec.Enms
open EnmOwn

/-- an enumerator and all those it owns -/
def parts : Enm → List Nat
  | .leaf n _ => [n]
  | .un n _ e => n :: parts e
  | .bin n _ a b => n :: (parts a ++ parts b)

/-- variable `v` refers to `e` -/
def Refers (w : World) (v : Nat) (e : Enm) : Prop := w.vars[v]? = some (some e)

/-- the enumerator exists -/
def Alive (w : World) (i : Nat) : Prop := w.alive[i]? = some true

/-- Every enumerator that a variable refers to exists, with all those it owns, which are different objects; two variables refer to the same enumerator
or share nothing. -/
structure Owned (w : World) : Prop where
  alive : ∀ v e, Refers w v e → (parts e).Nodup ∧ ∀ i ∈ parts e, Alive w i
  apart : ∀ v u e f, Refers w v e → Refers w u f → e = f ∨ ∀ i ∈ parts e, i ∉ parts f

/-- An enumerator that exists but that nothing refers to. -/
def Lost (w : World) (i : Nat) : Prop := Alive w i ∧ ∀ v e, Refers w v e → i ∉ parts e

/-- all variables of the statement exist -/
def Mentions (n : Nat) : Op → Prop
  | .source v _ | .renew v => v < n
  | .copy v u | .move v u | .plain v _ u | .func v _ u _ | .reverse v u _ | .evaluate v u _ _ => v < n ∧ u < n
  | .both v _ u x | .set v _ u x _ | .union v u x => v < n ∧ u < n ∧ x < n
  | .consume u _ | .loop u _ | .all u _ => u < n
  | .compare u x _ => u < n ∧ x < n

/-- No part copies elements when it is cloned: no `Intersect`, `Except`, `Reverse`. -/
def Simple : Enm → Prop
  | .leaf _ k => k ≠ .reverse
  | .un _ k e => k ≠ .intersect ∧ k ≠ .except ∧ Simple e
  | .bin _ _ a b => Simple a ∧ Simple b

/-- Statements that make no `Intersect`, `Except`, `Reverse`, that do not use range-based loops, and for which functions are copied without throwing. -/
def Careful : Op → Prop
  | .source _ k => k ≠ .reverse
  | .plain _ k _ => k ≠ .intersect ∧ k ≠ .except
  | .func _ k _ nothrow => k ≠ .intersect ∧ k ≠ .except ∧ nothrow = true
  | .reverse _ _ _ | .set _ _ _ _ _ | .loop _ _ | .all _ _ => False
  | _ => True

/-- some part calls user code in `Next` -/
def Calls : Enm → Prop
  | .leaf _ _ => False
  | .un _ k e => (k ≠ .take ∧ k ≠ .skip ∧ k ≠ .rep) ∨ Calls e
  | .bin _ k a b => k = .pairwise ∨ Calls a ∨ Calls b

/-- reading it calls a function or compares elements -/
def Lazy : Enm → Prop
  | .leaf _ _ => False
  | .un _ k e => (k ≠ .take ∧ k ≠ .skip ∧ k ≠ .rep) ∨ Lazy e
  | .bin _ _ a b => Lazy a ∨ Lazy b

/-- a program begins: `n` variables, no enumerators -/
def Begins (w : World) (n : Nat) : Prop := w.alive = [] ∧ w.vars = List.replicate n none

/-- the variables go out of scope -/
def leave (n : Nat) : List Op := (List.range n).map .renew

end Vlpp.Spec.Enms
