import Verif.Model.GroupC

/-!
# Model of `GroupInnerJoin` with callbacks that do something

Source/Collections/Dictionary.h 669-732.  The callbacks are arbitrary code that returns or throws, and may change everything, also the two
groups; the numbers of keys are those at the beginning (679-680).

Simplification: a callback reads the lists of values, which it gets by reference, when it is called.
-/
set_option autoImplicit false
namespace Vlpp
namespace JoinEff
variable {κ α β W : Type}

/-- the groups and everything else -/
structure State (κ α β W : Type) where
  first : GroupC κ α
  second : GroupC κ β
  world : W

/-- call a member function of the first group -/
def onFirst {γ : Type} (m : Cpp (GroupC κ α) γ) : Cpp (State κ α β W) γ := fun s =>
  match m s.first with
  | .ok v g => .ok v { s with first := g }
  | .err g => .err { s with first := g }
  | .fault => .fault

/-- call a member function of the second group -/
def onSecond {γ : Type} (m : Cpp (GroupC κ β) γ) : Cpp (State κ α β W) γ := fun s =>
  match m s.second with
  | .ok v g => .ok v { s with second := g }
  | .err g => .err { s with second := g }
  | .fault => .fault

/-- Dictionary.h 681-731; `call` are the three callbacks.  693 and 698 are `<` and `>` of keys. -/
def loop (cmp : κ → κ → Option Ordering) (call : Spec.JoinEvent κ α β → Cpp (State κ α β W) Unit) (firstCount secondCount : Nat)
    (i j : Nat) : Cpp (State κ α β W) Unit :=
  if _h1 : i < firstCount then do
    let firstKey ← onFirst (GroupC.onKeys (SeqList.get i))
    let firstValues ← onFirst (GroupC.getByIndex i)
    if _h2 : j < secondCount then do
      let secondKey ← onSecond (GroupC.onKeys (SeqList.get j))
      let secondValues ← onSecond (GroupC.getByIndex j)
      if cmp firstKey secondKey = some .lt then do
        call (.discardFirst firstKey firstValues)
        loop cmp call firstCount secondCount (i + 1) j
      else if cmp firstKey secondKey = some .gt then do
        call (.discardSecond secondKey secondValues)
        loop cmp call firstCount secondCount i (j + 1)
      else do
        call (.accept firstKey firstValues secondValues)
        loop cmp call firstCount secondCount (i + 1) (j + 1)
    else do
      call (.discardFirst firstKey firstValues)
      loop cmp call firstCount secondCount (i + 1) j
  else
    if _h2 : j < secondCount then do
      let secondKey ← onSecond (GroupC.onKeys (SeqList.get j))
      let secondValues ← onSecond (GroupC.getByIndex j)
      call (.discardSecond secondKey secondValues)
      loop cmp call firstCount secondCount i (j + 1)
    else pure ()
termination_by (firstCount - i) + (secondCount - j)

/-- Dictionary.h 669-732 `GroupInnerJoin` -/
def join (cmp : κ → κ → Option Ordering) (call : Spec.JoinEvent κ α β → Cpp (State κ α β W) Unit) : Cpp (State κ α β W) Unit := fun s =>
  loop cmp call s.first.keys.length s.second.keys.length 0 0 s

end JoinEff
end Vlpp
