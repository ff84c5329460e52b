import Verif.Model.GlobalStorage

/-! # Life cycles of resources -/
set_option autoImplicit false
namespace Vlpp
namespace Spec
open Storage (Event)

/-- where a resource is in its life -/
inductive Phase where
  | absent
  | starting
  | ready
  deriving DecidableEq, Repr

/-- The phase of `i` after what has been observed; `none`: it was initialised or finalised at a wrong moment. -/
def phase (i : Nat) : List Event → Option Phase := go .absent
where
  go (s : Phase) : List Event → Option Phase
    | [] => some s
    | .start j :: t => if j = i then (if s = .absent then go .starting t else none) else go s t
    | .ready j :: t => if j = i then (if s = .starting then go .ready t else none) else go s t
    | .fin j :: t => if j = i then (if s = .absent then none else go .absent t) else go s t
    | .use _ :: t => go s t

/-- The initialiser never runs twice without the finaliser in between, and the finaliser runs once after the initialiser. -/
def LifeCycles (trace : List Event) : Prop := ∀ i, phase i trace ≠ none

/-- A resource is in use only when its initialiser has completed. -/
def UsedWhenReady (trace : List Event) : Prop := ∀ (before after : List Event) (i : Nat),
  trace = before ++ .use i :: after → phase i before = some .ready

end Spec
end Vlpp
