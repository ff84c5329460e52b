/-!
# Model of the reference counter used by several threads

Source/Primitives/Pointer.h 89-110 and Source/Basic.h 133-136: `INCRC`/`DECRC` are single atomic operations
(`std::atomic::fetch_add`/`fetch_sub`, sequentially consistent).  One object, shared by pointers that belong to
threads.  Any thread may make the next step at any time.
-/
set_option autoImplicit false
namespace Vlpp
namespace PtrThreads

/-- What a thread does with its own pointers to the object; all of them are skipped if it has none. -/
inductive Act where
  /-- copy constructor of one of its pointers -/
  | copy
  /-- destructor of one of its pointers -/
  | destroy
  /-- access to the object through a pointer -/
  | use
  /-- one of its pointers is moved to another thread -/
  | give (to : Nat)
  deriving DecidableEq, Repr

/-- Where a thread is: between two operations, or in `DeleteReference` (Pointer.h 45-49) before the first or the second
statement. -/
inductive Phase where
  | idle
  | deleteCounter
  | deleteObject
  deriving DecidableEq, Repr

structure Thread where
  held : Nat
  phase : Phase := .idle
  prog : List Act
  deriving DecidableEq, Repr

structure State where
  /-- `none`: deleted -/
  counter : Option Int
  object : Bool := true
  threads : List Thread
  /-- threads that deleted the object -/
  log : List Nat := []
  deriving DecidableEq, Repr

def State.setThread (s : State) (t : Nat) (th : Thread) : State := { s with threads := s.threads.set t th }

/-- The next atomic step of thread `t`; `none` is undefined behaviour (use of a deleted counter or object). -/
def step (s : State) (t : Nat) : Option State :=
  match s.threads[t]? with
  | none => some s
  | some th =>
    match th.phase with
    | .deleteCounter =>
      match s.counter with
      | none => none
      | some _ => some { s.setThread t { th with phase := .deleteObject } with counter := none }
    | .deleteObject =>
      if s.object then some { s.setThread t { th with phase := .idle } with object := false, log := s.log ++ [t] } else none
    | .idle =>
      match th.prog with
      | [] => some s
      | a :: prog =>
        if th.held = 0 then some (s.setThread t { th with prog := prog })
        else
          match a with
          | .copy =>
            match s.counter with
            | none => none
            | some n => some { s.setThread t { th with held := th.held + 1, prog := prog } with counter := some (n + 1) }
          | .destroy =>
            match s.counter with
            | none => none
            | some n =>
              some { s.setThread t { th with held := th.held - 1, prog := prog,
                                             phase := if n - 1 = 0 then .deleteCounter else .idle } with
                     counter := some (n - 1) }
          | .use => if s.object then some (s.setThread t { th with prog := prog }) else none
          | .give u =>
            if u = t then some (s.setThread t { th with prog := prog })
            else
              match s.threads[u]? with
              | none => some (s.setThread t { th with prog := prog })
              | some th' =>
                some ((s.setThread t { th with held := th.held - 1, prog := prog }).setThread u { th' with held := th'.held + 1 })

/-- a schedule: which thread makes the next step -/
def run (s : State) : List Nat → Option State
  | [] => some s
  | t :: ts => (step s t).bind fun s' => run s' ts

end PtrThreads
end Vlpp
