import Verif.Spec.PtrDtor

/-!
# Model of `Ptr<T>` where the destructors of the objects use pointers

Source/Primitives/Pointer.h 32-50 (the counter is allocated separately), 69-110, 135-167, 201-204, 231-270, 308-311.

Unlike in `Model/Pointer`, deleting an object runs code (`Spec.Dtor.Program`) that may use all pointers, also the one that
is being assigned: `Dec()` sets that pointer to null only after the destructor has returned (Pointer.h 103-107).

Simplifications: a counter has the number of its object; addresses are not reused; there are no casts; the members of an
object are null when it is made.  A local variable of type `Ptr` of a destructor is a further member of the class, declared
last: it is destroyed when the body of the destructor ends, before the other members.  After a member has been destroyed
with its object, it is null in the model (nobody can see it).  The fields of the `Ptr`s of an assignment are read and written
in one step with the counter operation next to it.
-/
set_option autoImplicit false
namespace Vlpp
namespace PtrDtor
open Spec.Dtor (Place Ref Cmd Program Obj Mem Src Task Ev)

structure State where
  mem : Mem
  /-- `none`: the counter was deleted -/
  counters : List (Option Int)
  todo : List Task
  log : List Ev
  deriving DecidableEq, Repr

/-- Pointer.h 89-95 `Inc`; `none` is undefined behaviour: the counter was deleted -/
def inc (cs : List (Option Int)) : Option Nat → Option (List (Option Int))
  | none => some cs
  | some x =>
    match cs[x]? with
    | some (some n) => some (cs.set x (some (n + 1)))
    | _ => none

/-- What an assignment does after `Dec()` (`p` is there): 234 `SetEmptyNoIncDec`, 246-250 copying, 263-267 moving (the source
is set to null after its fields were copied); a new object comes from a temporary pointer, 263-267. -/
def finish (m : Mem) (cs : List (Option Int)) (p : Place) : Src → Option (Mem × List (Option Int))
  | .null => some (m.write p none, cs)
  | .obj o => some (m.write p (some o), cs)
  | .copy q =>
    match m.read q with
    | none => none
    | some v => (inc cs v).map fun cs => (m.write p v, cs)
  | .move q =>
    match m.read q with
    | none => none
    | some v => some ((m.write p v).write q none, cs)

/-- Pointer.h 201-204, 231-270: destroying or assigning the pointer at `p`.  The first part is `Dec()`, 97-110: if the
counter becomes 0, it is deleted (47), then the destructor of the object runs, its members are destroyed and its memory is
released (48).  Until then the pointer at `p` is as it was; 107 `SetEmptyNoIncDec` and the rest of the assignment are done
after that. -/
def assign (s : State) (p : Place) (src : Src) (rest : List Task) : Option State :=
  match s.mem.read p with
  | none => none
  | some none => (finish s.mem s.counters p src).map fun (m, cs) => { s with mem := m, counters := cs, todo := rest }
  | some (some x) =>
    match s.counters[x]? with
    | some (some n) =>
      if n - 1 = 0 then
        match s.mem.objs[x]? with
        | none => none
        | some b =>
          some { s with counters := s.counters.set x none, log := s.log ++ [.dtor x],
                        todo := .body (some x) b.cls [] :: .members x b.members.length :: .settle p src :: rest }
      else
        (finish s.mem (s.counters.set x (some (n - 1))) p src).map fun (m, cs) =>
          { s with mem := m, counters := cs, todo := rest }
    | _ => none

/-- Statements: Pointer.h 135-145 with 37-40 (a new object and its counter) and 258-270, 241-253, 258-270, 231-236, 308-311. -/
def perform (P : Program) (s : State) (this : Option Nat) (cls : Nat) (obs : List (Option Nat)) (rest : List Task) :
    Cmd → Option State
  | .make r k =>
    match s.mem.place this r with
    | none => none
    | some p =>
      assign { s with mem := { s.mem with objs := s.mem.objs ++ [⟨k, List.replicate (P.size k) none, true⟩] },
                      counters := s.counters ++ [some 1] } p
        (.obj s.mem.objs.length) (.body this cls (obs ++ [none]) :: rest)
  | .copy r m =>
    match s.mem.place this r, s.mem.place this m with
    | some p, some q =>
      if p = q then some { s with todo := .body this cls (obs ++ [none]) :: rest }
      else assign s p (.copy q) (.body this cls (obs ++ [none]) :: rest)
    | _, _ => none
  | .move r m =>
    match s.mem.place this r, s.mem.place this m with
    | some p, some q =>
      if p = q then some { s with todo := .body this cls (obs ++ [none]) :: rest }
      else assign s p (.move q) (.body this cls (obs ++ [none]) :: rest)
    | _, _ => none
  | .null r =>
    match s.mem.place this r with
    | none => none
    | some p => assign s p .null (.body this cls (obs ++ [none]) :: rest)
  | .test r =>
    match s.mem.place this r with
    | none => none
    | some p =>
      match s.mem.read p with
      | none => none
      | some v => some { s with todo := .body this cls (obs ++ [v]) :: rest, log := s.log ++ [.saw v] }

/-- One step; `none` is undefined behaviour.  107 and the rest of the assignment for `settle`; the members of an object that
is destroyed, 201-204, and `delete`, 48. -/
def step (P : Program) (s : State) : Option State :=
  match s.todo with
  | [] => some s
  | .body this cls obs :: rest =>
    match P.code cls obs with
    | none => some { s with todo := rest }
    | some c => perform P s this cls obs rest c
  | .settle p src :: rest =>
    match s.mem.read p with
    | none => none
    | some _ => (finish s.mem s.counters p src).map fun (m, cs) => { s with mem := m, counters := cs, todo := rest }
  | .members x (k + 1) :: rest => assign s (.mem x k) .null (.members x k :: rest)
  | .members x 0 :: rest =>
    match s.mem.objs[x]? with
    | none => none
    | some b =>
      if b.there then
        some { s with mem := { s.mem with objs := s.mem.objs.set x { b with there := false } }, todo := rest,
                      log := s.log ++ [.free x] }
      else none

/-- the first `n` steps of `step` (no code of its own) -/
def run (P : Program) : Nat → State → Option State
  | 0, s => some s
  | n + 1, s => (step P s).bind (run P n)

/-- A program with `n` variables begins: Pointer.h 128-131 (they are null). -/
def start (n : Nat) : State := ⟨⟨List.replicate n none, []⟩, [], [.body none 0 []], []⟩

end PtrDtor
end Vlpp
