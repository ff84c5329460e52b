import Verif.Model.GlobalStorage

/-! # The end of a program: what is finalised when -/
set_option autoImplicit false
namespace Vlpp
namespace Spec
open Storage (Event)

/-- Resources are given up in the reverse order of their first use, each that is there exactly once; `uses` are those that
the finaliser of a resource uses. -/
def atExit (firstUse : List Nat) (there : Nat → Bool) (uses : Nat → List Nat) : List Event :=
  firstUse.reverse.flatMap fun i => if there i then .fin i :: (uses i).map .use else []

/-- each finaliser that is still to run uses only resources that were there before its own, and still are -/
def UsesOlder (firstUse : List Nat) (there : Nat → Bool) (uses : Nat → List Nat) : Prop :=
  ∀ (older newer : List Nat) (i : Nat), firstUse = older ++ i :: newer → there i = true →
    ∀ j ∈ uses i, j ∈ older ∧ there j = true

end Spec
end Vlpp
