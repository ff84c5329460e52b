import Verif.Model.PushOnly

/-!
# Objects that are only created, and maps of bytes
-/
set_option autoImplicit false
namespace Vlpp
namespace Spec
open PushOnly (Ptr Op Ret MapOp)

/-- the pointers that each allocator has returned from `Create`, `none` when the allocator is destroyed -/
abbrev Created := List (Option (List Ptr))

/-- an allocator that exists has returned this pointer -/
def Created.Has (c : Created) (p : Ptr) : Prop := ∃ (a : Nat) (ps : List Ptr), c[a]? = some (some ps) ∧ p ∈ ps

/-- what every operation does -/
inductive CreatedStep : Created → Op → Ret → Created → Prop where
  | newAllocator {c : Created} {n : Int} : CreatedStep c (.newAllocator n) .unit (c ++ [some []])
  | create {c : Created} {a : Nat} {ps : List Ptr} {p : Ptr} : c[a]? = some (some ps) → ¬ c.Has p →
    CreatedStep c (.create a) (.pointer (some p)) (c.set a (some (ps ++ [p])))
  | get {c : Created} {a i : Nat} {ps : List Ptr} : c[a]? = some (some ps) →
    CreatedStep c (.get a i) (.pointer ps[i]?) c
  | destroy {c : Created} {a : Nat} : CreatedStep c (.destroy a) .unit (c.set a none)

/-- a history -/
inductive CreatedRun : Created → List Op → List Ret → Created → Prop where
  | nil {c : Created} : CreatedRun c [] [] c
  | cons {c c' c'' : Created} {op : Op} {ops : List Op} {r : Ret} {rs : List Ret} :
    CreatedStep c op r c' → CreatedRun c' ops rs c'' → CreatedRun c (op :: ops) (r :: rs) c''

/-- block sizes are positive, allocators exist, indices are not negative -/
def LegalOp (c : Created) : Op → Prop
  | .newAllocator n => 0 < n
  | .create a | .destroy a => ∃ ps, c[a]? = some (some ps)
  | .get a i => (∃ ps, c[a]? = some (some ps)) ∧ 0 ≤ i

/-- legal in every situation that can arise -/
def LegalOps (c : Created) : List Op → Prop
  | [] => True
  | op :: ops => LegalOp c op ∧ ∀ r c', CreatedStep c op r c' → LegalOps c' ops

/-- what is stored in maps -/
abbrev Maps := List (Nat → Option Nat)

/-- the results of a history of maps: `some` for every `get` -/
def mapResults (s : Maps) : List MapOp → List (Option (Option Nat))
  | [] => []
  | .newMap :: ops => none :: mapResults (s ++ [fun (_ : Nat) => (none : Option Nat)]) ops
  | .set m byte value :: ops => none :: mapResults (s.modify m fun (f : Nat → Option Nat) (b : Nat) => if b = byte then value else f b) ops
  | .get m byte :: ops => some (s[m]?.bind fun (f : Nat → Option Nat) => f byte) :: mapResults s ops

/-- maps exist, and bytes are bytes -/
def LegalMapOps (maps : Nat) : List MapOp → Prop
  | [] => True
  | .newMap :: ops => LegalMapOps (maps + 1) ops
  | .set m byte _ :: ops => m < maps ∧ byte < 256 ∧ LegalMapOps maps ops
  | .get m byte :: ops => m < maps ∧ byte < 256 ∧ LegalMapOps maps ops

end Spec
end Vlpp
