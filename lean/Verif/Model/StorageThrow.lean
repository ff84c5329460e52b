import Verif.Model.GlobalStorage

/-!
# Model of finalisers of global storages that throw

Source/GlobalStorage.cpp 27-35, 63-70 and the destructors of storages, GlobalStorage.h 81-84.

Simplifications: finalisers work on a world `W` and do not access global storages (`Model/GlobalStorage` has those that do);
the finalisers that have been called are written down in `trace`, which is not in the code.
-/
set_option autoImplicit false
namespace Vlpp
namespace StorageThrow
variable {W : Type}

/-- `initialized` of the storages, the finalisers that have been called, and everything else -/
structure State (W : Type) where
  initialized : Nat → Bool
  trace : List Nat
  world : W

/-- `FinalizeResource` of each storage: whether it throws, and what it leaves -/
abbrev Finalisers (W : Type) := Nat → W → Bool × W

/-- GlobalStorage.cpp 63-70 `EnsureFinalized` -/
def ensureFinalized (fin : Finalisers W) (i : Nat) : Cpp (State W) Unit := fun s =>
  if s.initialized i = true then
    let r := fin i s.world
    let s' : State W := ⟨Storage.assign s.initialized i false, s.trace ++ [i], r.2⟩
    if r.1 then .err s' else .ok () s'
  else .ok () s

/-- GlobalStorage.cpp 27-35 `FinalizeGlobalStorage`; the list has the storages in the order of their registration -/
def finalizeAll (fin : Finalisers W) : List Nat → Cpp (State W) Unit
  | [] => pure ()
  | i :: t => do
    ensureFinalized fin i
    finalizeAll fin t

/-- A program that calls `FinalizeGlobalStorage` (GlobalStorage.cpp 27-35), catches the exception and calls it again, at most `n` times. -/
def retry (fin : Finalisers W) (registered : List Nat) : Nat → Cpp (State W) Unit
  | 0 => fun s => .err s
  | n + 1 => fun s =>
    match finalizeAll fin registered s with
    | .ok _ s => .ok () s
    | .err s => retry fin registered n s
    | .fault => .fault

/-- GlobalStorage.h 81-84: the destructors of the static variables run at the end of the program, the latest constructed first.  An
exception cannot leave a destructor: the program is terminated, which is `err` here. -/
def destroyAll (fin : Finalisers W) (registered : List Nat) : Cpp (State W) Unit := finalizeAll fin registered.reverse

end StorageThrow
end Vlpp
