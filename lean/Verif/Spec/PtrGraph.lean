/-!
# Specification: immutable objects shared by threads

What a programmer expects of shared pointers to objects that are not changed after their construction: a pointer is as
good as a copy of everything it refers to.  Here a variable *is* the whole tree of objects, there are no addresses and no
counters, and every operation happens at once.
-/
set_option autoImplicit false
namespace Vlpp.Spec.Graph

/-- What a thread does with its variables. -/
inductive Op where
  /-- `v` gets a new object with a number and with the values of `ms` as members, which are moved away; `v` is null before -/
  | make (v tag : Nat) (ms : List Nat)
  /-- `v = w` -/
  | assign (v w : Nat)
  /-- `v = w->member` -/
  | member (v w j : Nat)
  /-- `v = std::move(w)` -/
  | move (v w : Nat)
  /-- `v = nullptr` -/
  | clear (v : Nat)
  /-- the thread looks at the number of the object of `w` -/
  | read (w : Nat)
  /-- `v` is moved to variable `x` of thread `u`, which has to be null and between two operations -/
  | give (v u x : Nat)
  deriving DecidableEq, Repr

/-- An object with all that it refers to. -/
inductive Tree where
  | node (tag : Nat) (members : List (Option Tree))

/-- the number of an object -/
def Tree.tag : Tree → Nat
  | .node n _ => n

/-- the members of an object -/
def Tree.members : Tree → List (Option Tree)
  | .node _ ms => ms

/-- A thread: its variables, what it has still to do and what it has seen. -/
structure Thread where
  vars : List (Option Tree)
  prog : List Op
  obs : List (Option Nat)

/-- the value of a variable; one that does not exist is null -/
def Thread.get (th : Thread) (v : Nat) : Option Tree := (th.vars[v]?).join

/-- The values of variables that are moved away one after the other, and what is left. -/
def takeAll {α : Type} (vars : List (Option α)) : List Nat → List (Option α) × List (Option α)
  | [] => ([], vars)
  | m :: ms => ((vars[m]?).join :: (takeAll (vars.set m none) ms).1, (takeAll (vars.set m none) ms).2)

/-- One operation of thread `t`, which is `th` without that operation. -/
def perform (ths : List Thread) (t : Nat) (th : Thread) : Op → List Thread
  | .make v tag ms =>
    if v < th.vars.length ∧ th.get v = none then
      ths.set t { th with vars := (takeAll th.vars ms).2.set v (some (.node tag (takeAll th.vars ms).1)) }
    else ths.set t th
  | .assign v w => if v ≠ w then ths.set t { th with vars := th.vars.set v (th.get w) } else ths.set t th
  | .member v w j =>
    match th.get w with
    | none => ths.set t th
    | some x => ths.set t { th with vars := th.vars.set v (x.members[j]?).join }
  | .move v w =>
    if v < th.vars.length ∧ v ≠ w then ths.set t { th with vars := (th.vars.set v (th.get w)).set w none }
    else ths.set t th
  | .clear v => ths.set t { th with vars := th.vars.set v none }
  | .read w => ths.set t { th with obs := th.obs ++ [(th.get w).map Tree.tag] }
  | .give v u x =>
    match ths[u]? with
    | none => ths.set t th
    | some th' =>
      if u = t ∨ ¬ x < th'.vars.length ∨ th.get v = none then ths.set t th
      else if th'.get x = none then
        (ths.set t { th with vars := th.vars.set v none }).set u { th' with vars := th'.vars.set x (th.get v) }
      else ths

/-- The next operation of thread `t`. -/
def step (ths : List Thread) (t : Nat) : List Thread :=
  match ths[t]? with
  | none => ths
  | some th =>
    match th.prog with
    | [] => ths
    | op :: prog => perform ths t { th with prog := prog } op

/-- The threads of the list perform their next operations. -/
def run (ths : List Thread) : List Nat → List Thread
  | [] => ths
  | t :: ts => run (step ths t) ts

/-- Threads with null variables. -/
def start (ths : List (Nat × List Op)) : List Thread :=
  ths.map fun p => ⟨List.replicate p.1 none, p.2, []⟩

/-- No `p = p->member`: the source of an assignment does not lie in the object that its target refers to. -/
def Op.Good : Op → Prop
  | .member v w _ => v ≠ w
  | _ => True

end Vlpp.Spec.Graph
