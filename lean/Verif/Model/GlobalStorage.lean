import Verif.Model.Outcome

/-!
# Model of global storages

Source/GlobalStorage.h and Source/GlobalStorage.cpp as a machine that does one thing at a time, so that "at every moment" can be said.
Storages are numbers; initialisers and finalisers access other storages (`GetNAME()`), initialisers may throw.

Not modelled: threads.  `Model/StorageThrow` has finalisers that throw, `Model/StorageExit` has the destructors of the storages at the end of the program.
-/
set_option autoImplicit false
namespace Vlpp
namespace Storage

/-- The part of the storages that their authors write: GlobalStorage.h 86-98. -/
structure Program where
  /-- the storages that `InitializeResource` accesses -/
  init : Nat → List Nat
  /-- `InitializeResource` throws at its end -/
  throws : Nat → Bool
  /-- the storages that `FinalizeResource` accesses -/
  fin : Nat → List Nat

/-- what can be observed -/
inductive Event where
  /-- `InitializeResource` begins -/
  | start (i : Nat)
  /-- `InitializeResource` returns -/
  | ready (i : Nat)
  /-- `FinalizeResource` begins -/
  | fin (i : Nat)
  /-- `GetNAME` returns the storage -/
  | use (i : Nat)
  deriving DecidableEq, Repr

/-- what remains to be done -/
inductive Instr where
  /-- call `GetNAME` -/
  | access (i : Nat)
  /-- `InitializeResource` has done everything except for returning or throwing -/
  | initEnd (i : Nat)
  /-- `GetNAME` returns -/
  | use (i : Nat)
  /-- call `FinalizeGlobalStorage` -/
  | finalize
  /-- the loop in `FinalizeGlobalStorage` with `current` being the descriptor `k` -/
  | walk (k : Nat)
  /-- the program catches exceptions here -/
  | top
  deriving DecidableEq, Repr

/-- The variables: the list of descriptors in the order of registration, and `initialized` of the storages. -/
structure Machine where
  registered : List Nat
  initialized : Nat → Bool
  todo : List Instr
  trace : List Event

/-- an exception: everything is left up to the place where the program catches it -/
def unwind : List Instr → List Instr
  | [] => []
  | .top :: t => t
  | _ :: t => unwind t

/-- `x = v` -/
def assign (f : Nat → Bool) (i : Nat) (v : Bool) : Nat → Bool := fun j => if j = i then v else f j

/-- One step. -/
def step (p : Program) (m : Machine) : Machine :=
  match m.todo with
  | [] => m
  /- GlobalStorage.h 100-105: the constructor of the static variable (76-80) runs when this is the first access: it registers the storage
  (GlobalStorage.cpp 21-25).  Then GlobalStorage.cpp 54-61 `EnsureInitialized`. -/
  | .access i :: t =>
    let registered := if i ∈ m.registered then m.registered else m.registered ++ [i]
    if m.initialized i = false then
      { registered, initialized := assign m.initialized i true,
        todo := (p.init i).map .access ++ .initEnd i :: .use i :: t, trace := m.trace ++ [.start i] }
    else { m with registered, todo := .use i :: t }
  | .initEnd i :: t =>
    if p.throws i then { m with todo := unwind t }
    else { m with todo := t, trace := m.trace ++ [.ready i] }
  | .use i :: t => { m with todo := t, trace := m.trace ++ [.use i] }
  /- GlobalStorage.cpp 27-35 -/
  | .finalize :: t => { m with todo := .walk 0 :: t }
  | .walk k :: t =>
    match m.registered[k]? with
    | none => { m with todo := t }
    | some i =>
      /- GlobalStorage.cpp 63-70 `EnsureFinalized` -/
      if m.initialized i = true then
        { m with initialized := assign m.initialized i false,
                 todo := (p.fin i).map .access ++ .walk (k + 1) :: t, trace := m.trace ++ [.fin i] }
      else { m with todo := .walk (k + 1) :: t }
  | .top :: t => { m with todo := t }

/-- `n` steps -/
def steps (p : Program) : Nat → Machine → Machine
  | 0, m => m
  | n + 1, m => steps p n (step p m)

/-- what a program does -/
inductive Op where
  | access (i : Nat)
  | finalize
  deriving DecidableEq, Repr

/-- the operations one after the other; exceptions leave one operation -/
def script : List Op → List Instr
  | [] => []
  | .access i :: ops => .access i :: .top :: script ops
  | .finalize :: ops => .finalize :: .top :: script ops

/-- the beginning of a program -/
def initial (ops : List Op) : Machine := ⟨[], fun _ => false, script ops, []⟩

end Storage
end Vlpp
