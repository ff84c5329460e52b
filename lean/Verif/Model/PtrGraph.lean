import Verif.Spec.PtrGraph

/-!
# Model of `Ptr<T>` to objects with members of type `Ptr`, shared by several threads

Source/Primitives/Pointer.h 32-50 (the counter is allocated separately), 69-124, 135-167, 201-204, 231-270, 308-311 and
Source/Basic.h 133-136 (`INCRC`/`DECRC` are single atomic operations, sequentially consistent).

Objects are constructed with their members and are not changed afterwards; every thread that can reach an object may read
its members.  A variable belongs to one thread.  A step of a thread reads one variable or member, changes one counter, or
deletes one thing; changes of the thread's own variables are merged into the step before or after.  Deleting an object
destroys its members one after the other, the last declared one first (the compiler-generated destructor), and the steps
of other threads may come in between.  Any thread may make the next step at any time.

Simplifications: a variable that does not exist and a null pointer are the same (the constructors of `Ptr` are the
assignments to a null pointer); casts, `Detach` and raw pointers are not used; user-written destructors do nothing else;
the memory of an object counts as gone when its destructor begins.
-/
set_option autoImplicit false
namespace Vlpp
namespace PtrGraph
open Spec.Graph (Op takeAll)

/-- What a thread in the middle of an operation has still to do. -/
inductive Task where
  /-- `Dec()` of a pointer to object `o`, Pointer.h 97-110 -/
  | dec (o : Nat)
  /-- in `DeleteReference` before `delete counter`, Pointer.h 47 -/
  | delCounter (o : Nat)
  /-- in `DeleteReference` before `delete (T*)reference`, Pointer.h 48 -/
  | delObject (o : Nat)
  /-- the fields are copied to `v`, before `Inc()`: Pointer.h 150-155, 246-250 -/
  | inc (o v : Nat)
  /-- before the fields of `w` are copied to `v`: Pointer.h 246-250 -/
  | fetch (w v : Nat)
  /-- before the fields of member `j` of object `p` are copied to `v`: Pointer.h 246-250 -/
  | fetchMember (p j v : Nat)
  /-- before the fields of `w` are moved to `v`: Pointer.h 263-267 -/
  | take (w v : Nat)
  deriving DecidableEq, Repr

/-- An object with its counter, which is deleted before the object (`none`).  A deleted object keeps its contents in the
model, but they cannot be read. -/
structure Obj where
  counter : Option Int
  alive : Bool
  tag : Nat
  members : List (Option Nat)
  deriving DecidableEq, Repr

/-- A thread with its pointers: the objects they refer to. -/
structure Thread where
  vars : List (Option Nat)
  prog : List Op
  todo : List Task := []
  obs : List (Option Nat) := []
  deriving DecidableEq, Repr

/-- All objects ever made (by address) and all threads. -/
structure State where
  objs : List Obj
  threads : List Thread
  deriving DecidableEq, Repr

/-- the state with another thread `t` -/
def State.setThread (s : State) (t : Nat) (th : Thread) : State := { s with threads := s.threads.set t th }
/-- the state with a new object, Pointer.h 135-145 -/
def State.addObj (s : State) (b : Obj) : State := { s with objs := s.objs ++ [b] }
/-- the state with another object `o` -/
def State.setObj (s : State) (o : Nat) (b : Obj) : State := { s with objs := s.objs.set o b }

/-- the object a variable points to, `reference` of Pointer.h 77 -/
def Thread.get (th : Thread) (v : Nat) : Option Nat := (th.vars[v]?).join

/-- `if (counter)` in `Dec()`, Pointer.h 99: a null pointer has nothing to release. -/
def decOf : Option Nat → List Task
  | none => []
  | some o => [.dec o]

/-- One task; `none` is undefined behaviour (use of a deleted counter or object).  `th` is the thread without the task. -/
def perform (s : State) (t : Nat) (th : Thread) : Task → Option State
  /- Pointer.h 97-110, Basic.h 136 -/
  | .dec o =>
    match s.objs[o]? with
    | none => none
    | some b =>
      match b.counter with
      | none => none
      | some n =>
        some ((s.setObj o { b with counter := some (n - 1) }).setThread t
          { th with todo := if n - 1 = 0 then .delCounter o :: th.todo else th.todo })
  /- Pointer.h 47 -/
  | .delCounter o =>
    match s.objs[o]? with
    | none => none
    | some b =>
      match b.counter with
      | none => none
      | some _ => some ((s.setObj o { b with counter := none }).setThread t { th with todo := .delObject o :: th.todo })
  /- Pointer.h 48 and the destructors of the members, Pointer.h 201-204 -/
  | .delObject o =>
    match s.objs[o]? with
    | none => none
    | some b =>
      if b.alive then
        some ((s.setObj o { b with alive := false }).setThread t
          { th with todo := b.members.reverse.flatMap decOf ++ th.todo })
      else none
  /- Pointer.h 89-95, Basic.h 135 -/
  | .inc o v =>
    match s.objs[o]? with
    | none => none
    | some b =>
      match b.counter with
      | none => none
      | some n =>
        some ((s.setObj o { b with counter := some (n + 1) }).setThread t { th with vars := th.vars.set v (some o) })
  /- Pointer.h 246-250 -/
  | .fetch w v =>
    match th.get w with
    | none => some (s.setThread t th)
    | some o => some (s.setThread t { th with todo := .inc o v :: th.todo })
  | .fetchMember p j v =>
    match s.objs[p]? with
    | none => none
    | some b =>
      if b.alive then
        match (b.members[j]?).join with
        | none => some (s.setThread t th)
        | some o => some (s.setThread t { th with todo := .inc o v :: th.todo })
      else none
  /- Pointer.h 263-267 -/
  | .take w v => some (s.setThread t { th with vars := (th.vars.set v (th.get w)).set w none })

/-- The first step of an operation; `none` is undefined behaviour.  `th` is the thread without the operation. -/
def begin (s : State) (t : Nat) (th : Thread) : Op → Option State
  /- Pointer.h 135-145 and 37-40 with `new T`; the members are initialised by 160-167 -/
  | .make v tag ms =>
    if v < th.vars.length ∧ th.get v = none then
      some ((s.addObj ⟨some 1, true, tag, (takeAll th.vars ms).1⟩).setThread t
        { th with vars := (takeAll th.vars ms).2.set v (some s.objs.length) })
    else some (s.setThread t th)
  /- Pointer.h 241-253, 149-156 -/
  | .assign v w =>
    if v < th.vars.length ∧ v ≠ w then
      some (s.setThread t { th with vars := th.vars.set v none, todo := decOf (th.get v) ++ [.fetch w v] })
    else some (s.setThread t th)
  /- Pointer.h 241-253 where the argument is a member of the object of `w`; not done if `w` is null -/
  | .member v w j =>
    match th.get w with
    | none => some (s.setThread t th)
    | some p =>
      if v < th.vars.length then
        some (s.setThread t { th with vars := th.vars.set v none, todo := decOf (th.get v) ++ [.fetchMember p j v] })
      else some (s.setThread t th)
  /- Pointer.h 258-270, 160-167 -/
  | .move v w =>
    if v < th.vars.length ∧ v ≠ w then
      some (s.setThread t { th with vars := th.vars.set v none, todo := decOf (th.get v) ++ [.take w v] })
    else some (s.setThread t th)
  /- Pointer.h 201-204, 231-236 -/
  | .clear v => some (s.setThread t { th with vars := th.vars.set v none, todo := decOf (th.get v) })
  /- Pointer.h 308-311 `operator->` -/
  | .read w =>
    match th.get w with
    | none => some (s.setThread t { th with obs := th.obs ++ [none] })
    | some o =>
      match s.objs[o]? with
      | none => none
      | some b => if b.alive then some (s.setThread t { th with obs := th.obs ++ [some b.tag] }) else none
  /- Pointer.h 258-270 where the two variables belong to different threads, which have to be synchronised for that: the
  thread waits until the other one is between two operations and its variable is null -/
  | .give v u x =>
    match s.threads[u]? with
    | none => some (s.setThread t th)
    | some th' =>
      if u = t ∨ ¬ x < th'.vars.length ∨ th.get v = none then some (s.setThread t th)
      else if th'.todo = [] ∧ th'.get x = none then
        some ((s.setThread t { th with vars := th.vars.set v none }).setThread u
          { th' with vars := th'.vars.set x (th.get v) })
      else some s

/-- The next step of thread `t`. -/
def step (s : State) (t : Nat) : Option State :=
  match s.threads[t]? with
  | none => some s
  | some th =>
    match th.todo with
    | k :: todo => perform s t { th with todo := todo } k
    | [] =>
      match th.prog with
      | [] => some s
      | op :: prog => begin s t { th with prog := prog } op

/-- A schedule: which thread makes the next step. -/
def run (s : State) : List Nat → Option State
  | [] => some s
  | t :: ts =>
    match step s t with
    | none => none
    | some s' => run s' ts

/-- Threads with null pointers, and no objects yet. -/
def start (ths : List (Nat × List Op)) : State :=
  ⟨[], ths.map fun p => { vars := List.replicate p.1 none, prog := p.2 }⟩

end PtrGraph
end Vlpp
