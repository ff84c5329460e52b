import Verif.Model.GlobalStorage

/-!
# Model of the end of a program that has global storages

Source/GlobalStorage.h 81-84 and 100-105: the storages are static variables of `GetNAME`.  When `main` has returned their
destructors run, the one that was constructed last first (C++, [basic.start.term]).  `Model/GlobalStorage` once more, and
after it the destructors.  Using a static variable whose destructor has ended is undefined.

Not modelled: threads, finalisers that throw, static variables other than storages and those constructed before `main`, and
`exit` called by initialisers or finalisers.
-/
set_option autoImplicit false
namespace Vlpp
namespace Storage

/-- a program that runs or is ending -/
structure Exit where
  m : Machine
  /-- the storages whose destructors have ended, the latest first -/
  dead : List Nat
  /-- the storage whose destructor is running -/
  dying : Option Nat
  /-- what the destructors of global variables that were constructed before `main` still do: they run after those of the
  storages, which are constructed in `main` -/
  last : List Op

/-- the state, or one that there is no way to continue from -/
inductive Now where
  | run (x : Exit)
  /-- undefined behaviour -/
  | fault
  /-- `std::terminate`: an exception leaves a destructor -/
  | terminated

/-- The storage whose members the next step reads: `EnsureInitialized` (GlobalStorage.cpp 56), and the loop of
`FinalizeGlobalStorage` (GlobalStorage.cpp 32-33, `globalStorage` and `next`). -/
def touched (m : Machine) : Option Nat :=
  match m.todo with
  | .access i :: _ => some i
  | .walk k :: _ => m.registered[k]?
  | _ => none

/-- whether an initialiser throws in the next step -/
def throwing (p : Program) (m : Machine) : Bool :=
  match m.todo with
  | .initEnd i :: _ => p.throws i
  | _ => false

/-- the static variable that is destroyed next: the one that was constructed last (GlobalStorage.h 102; the constructor,
76-80, registers it) -/
def nextDead (x : Exit) : Option Nat := (x.m.registered.filter fun i => decide (i ∉ x.dead)).getLast?

/-- GlobalStorage.h 81-84: the destructor of `i` begins; GlobalStorage.cpp 63-70 `EnsureFinalized`. -/
def destroy (p : Program) (i : Nat) (m : Machine) : Machine :=
  if m.initialized i = true then
    { m with initialized := assign m.initialized i false, todo := (p.fin i).map .access, trace := m.trace ++ [.fin i] }
  else m

/-- what a call begins with -/
def request : Op → Instr
  | .access i => .access i
  | .finalize => .finalize

/-- One step.  In `main` exceptions are caught (`top`), in destructors they are not. -/
def stepX (p : Program) : Now → Now
  | .run x =>
    match x.m.todo, x.dying with
    | [], some i => .run { x with dead := i :: x.dead, dying := none }
    | [], none =>
      match nextDead x with
      | some i => .run { x with m := destroy p i x.m, dying := some i }
      | none =>
        match x.last with
        | [] => .run x
        | op :: last => .run { x with m := { x.m with todo := [request op] }, last }
    | _ :: _, _ =>
      if ∃ i ∈ touched x.m, i ∈ x.dead then .fault
      else if throwing p x.m = true ∧ .top ∉ x.m.todo then .terminated
      else .run { x with m := step p x.m }
  | s => s

/-- `n` steps -/
def stepsX (p : Program) : Nat → Now → Now
  | 0, s => s
  | n + 1, s => stepsX p n (stepX p s)

/-- the beginning of a program that does `ops` in `main` and `last` in the destructors of global variables -/
def begin (ops last : List Op) : Now := .run ⟨initial ops, [], none, last⟩

end Storage
end Vlpp
