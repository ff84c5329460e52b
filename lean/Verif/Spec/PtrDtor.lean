/-!
# Programs whose destructors use shared pointers, and how they should run

A program has variables that are shared pointers, classes whose objects have members that are shared pointers, and for
every class a destructor.  Destructors and the main function are arbitrary code: what they do next may depend on
everything they have seen so far.

The machine below says how such programs should run.  A pointer that is assigned lets go of its object first: it is null
from then on, until it gets its new value.  If that was the last pointer to the object, the destructor of the object runs,
then its members let go of their objects, the last member first, and then the memory of the object is gone.  There are no
reference counters here: whether a pointer is the last one is seen from all pointers that exist.
-/
set_option autoImplicit false
namespace Vlpp
namespace Spec.Dtor

/-- Where a pointer is: a variable, or member `j` of object `o`. -/
inductive Place where
  | var (i : Nat)
  | mem (o j : Nat)
  deriving DecidableEq, Repr

/-- How code names a pointer: a variable, `this->member`, or `r->member`. -/
inductive Ref where
  | var (i : Nat)
  | own (j : Nat)
  | via (r : Ref) (j : Nat)
  deriving DecidableEq, Repr

/-- Statements: `r = Ptr(new C)`, `r = m`, `r = std::move(m)`, `r = nullptr`, and looking at the address in `r`. -/
inductive Cmd where
  | make (r : Ref) (cls : Nat)
  | copy (r m : Ref)
  | move (r m : Ref)
  | null (r : Ref)
  | test (r : Ref)
  deriving DecidableEq, Repr

def Cmd.refs : Cmd → List Ref
  | .make r _ => [r]
  | .copy r m => [r, m]
  | .move r m => [r, m]
  | .null r => [r]
  | .test r => [r]

/-- The number of members of every class, and its destructor: what it does next after the statements for which it got the
answers in the list (statements that do not look at anything are answered `none`); `none` if it ends.  The main function
is `code 0`. -/
structure Program where
  size : Nat → Nat
  code : Nat → List (Option Nat) → Option Cmd

/-- An object; `there`: its memory is not gone. -/
structure Obj where
  cls : Nat
  members : List (Option Nat)
  there : Bool
  deriving DecidableEq, Repr

/-- All variables, and all objects ever made. -/
structure Mem where
  vars : List (Option Nat)
  objs : List Obj
  deriving DecidableEq, Repr

/-- the pointer at a place, if there is one -/
def Mem.read (m : Mem) : Place → Option (Option Nat)
  | .var i => m.vars[i]?
  | .mem o j =>
    match m.objs[o]? with
    | none => none
    | some b => if b.there then b.members[j]? else none

def Mem.write (m : Mem) (p : Place) (v : Option Nat) : Mem :=
  match p with
  | .var i => { m with vars := m.vars.set i v }
  | .mem o j =>
    match m.objs[o]? with
    | none => m
    | some b => { m with objs := m.objs.set o { b with members := b.members.set j v } }

/-- The place a name stands for, in the destructor of `this`; `none`: a member of nothing. -/
def Mem.place (m : Mem) (this : Option Nat) : Ref → Option Place
  | .var i => some (.var i)
  | .own j => this.map fun o => .mem o j
  | .via r j =>
    match m.place this r with
    | none => none
    | some p =>
      match m.read p with
      | some (some o) => some (.mem o j)
      | _ => none

/-- The places of all pointers that are looked at or assigned through a name. -/
def Mem.touched (m : Mem) (this : Option Nat) : Ref → List Place
  | .var i => [.var i]
  | .own j => (m.place this (.own j)).toList
  | .via r j => m.touched this r ++ (m.place this (.via r j)).toList

/-- What a pointer is assigned: nothing, a new object, a copy of another pointer, or what is moved from another pointer. -/
inductive Src where
  | null
  | obj (o : Nat)
  | copy (q : Place)
  | move (q : Place)
  deriving DecidableEq, Repr

/-- What is still to be done. -/
inductive Task where
  /-- run the code of class `cls`, which has got the answers `obs` -/
  | body (this : Option Nat) (cls : Nat) (obs : List (Option Nat))
  /-- complete the assignment to `p` -/
  | settle (p : Place) (src : Src)
  /-- the first `k` members of `x` let go, then the memory of `x` is gone -/
  | members (x k : Nat)
  deriving DecidableEq, Repr

inductive Ev where
  /-- the destructor of `o` begins -/
  | dtor (o : Nat)
  /-- the memory of `o` is gone -/
  | free (o : Nat)
  /-- code looks at a pointer and finds `v` -/
  | saw (v : Option Nat)
  deriving DecidableEq, Repr

structure State where
  mem : Mem
  todo : List Task
  log : List Ev
  deriving DecidableEq, Repr

/-- The places of the pointers that are being assigned while the destructor of what they held is running. -/
def busy (todo : List Task) : List Place :=
  todo.filterMap fun
    | .settle p _ => some p
    | _ => none

def Place.isIn (x : Nat) : Place → Bool
  | .var _ => false
  | .mem o _ => o == x

def isTo (o : Nat) (v : Option Nat) : Bool := decide (v = some o)

/-- a new object that is about to be assigned is held by a temporary pointer -/
def Task.temp : Task → Option Nat
  | .settle _ (.obj o) => some o
  | _ => none

/-- How many pointers hold object `o`. -/
def holders (m : Mem) (todo : List Task) (o : Nat) : Nat :=
  m.vars.countP (isTo o) + (m.objs.map fun b => b.members.countP (isTo o)).sum + todo.countP fun t => isTo o t.temp

/-- `p`, which is null, gets its new value; `none` if what it is copied from is gone -/
def finish (m : Mem) (p : Place) : Src → Option Mem
  | .null => some m
  | .obj o => some (m.write p (some o))
  | .copy q => (m.read q).map fun v => m.write p v
  | .move q => (m.read q).map fun v => (m.write q none).write p v

/-- The destructor of `x` begins; an object must not be destroyed while one of its members is being assigned. -/
def destroy (s : State) (x : Nat) : Option State :=
  if (busy s.todo).any (Place.isIn x) then none
  else
    match s.mem.objs[x]? with
    | none => none
    | some b =>
      some { s with todo := .body (some x) b.cls [] :: .members x b.members.length :: s.todo, log := s.log ++ [.dtor x] }

/-- `p` lets go of its object and gets its new value, after the destructor if that was the last pointer. -/
def assign (s : State) (p : Place) (src : Src) (rest : List Task) : Option State :=
  match s.mem.read p with
  | none => none
  | some none => (finish s.mem p src).map fun m => { s with mem := m, todo := rest }
  | some (some x) =>
    if holders (s.mem.write p none) (.settle p src :: rest) x = 0 then
      destroy { s with mem := s.mem.write p none, todo := .settle p src :: rest } x
    else (finish (s.mem.write p none) p src).map fun m => { s with mem := m, todo := rest }

/-- One statement; `none` is undefined: a member of nothing, or of an object that is gone.  Assigning a pointer to itself
does nothing. -/
def perform (P : Program) (s : State) (this : Option Nat) (cls : Nat) (obs : List (Option Nat)) (rest : List Task) :
    Cmd → Option State
  | .make r k =>
    match s.mem.place this r with
    | none => none
    | some p =>
      assign { s with mem := { s.mem with objs := s.mem.objs ++ [⟨k, List.replicate (P.size k) none, true⟩] } } p
        (.obj s.mem.objs.length) (.body this cls (obs ++ [none]) :: rest)
  | .copy r m =>
    match s.mem.place this r, s.mem.place this m with
    | some p, some q =>
      if p = q then some { s with todo := .body this cls (obs ++ [none]) :: rest }
      else assign s p (.copy q) (.body this cls (obs ++ [none]) :: rest)
    | _, _ => none
  | .move r m =>
    match s.mem.place this r, s.mem.place this m with
    | some p, some q =>
      if p = q then some { s with todo := .body this cls (obs ++ [none]) :: rest }
      else assign s p (.move q) (.body this cls (obs ++ [none]) :: rest)
    | _, _ => none
  | .null r =>
    match s.mem.place this r with
    | none => none
    | some p => assign s p .null (.body this cls (obs ++ [none]) :: rest)
  | .test r =>
    match s.mem.place this r with
    | none => none
    | some p =>
      match s.mem.read p with
      | none => none
      | some v => some { s with todo := .body this cls (obs ++ [v]) :: rest, log := s.log ++ [.saw v] }

def step (P : Program) (s : State) : Option State :=
  match s.todo with
  | [] => some s
  | .body this cls obs :: rest =>
    match P.code cls obs with
    | none => some { s with todo := rest }
    | some c => perform P s this cls obs rest c
  | .settle p src :: rest => assign s p src rest
  | .members x (k + 1) :: rest => assign s (.mem x k) .null (.members x k :: rest)
  | .members x 0 :: rest =>
    match s.mem.objs[x]? with
    | none => none
    | some b =>
      if b.there then
        some { mem := { s.mem with objs := s.mem.objs.set x { b with there := false } }, todo := rest,
               log := s.log ++ [.free x] }
      else none

/-- the first `n` steps -/
def run (P : Program) : Nat → State → Option State
  | 0, s => some s
  | n + 1, s => (step P s).bind (run P n)

/-- A program with `n` variables begins. -/
def start (n : Nat) : State := ⟨⟨List.replicate n none, []⟩, [.body none 0 []], []⟩

/-- The next statement uses no pointer that is being assigned. -/
def Polite (P : Program) (s : State) : Prop :=
  ∀ this cls obs rest c, s.todo = .body this cls obs :: rest → P.code cls obs = some c →
    ∀ r ∈ c.refs, ∀ q ∈ s.mem.touched this r, q ∉ busy rest

/-- So are all statements of the next `n` steps. -/
def PoliteRun (P : Program) : Nat → State → Prop
  | 0, _ => True
  | n + 1, s => Polite P s ∧ ∀ s', step P s = some s' → PoliteRun P n s'

/-- All destructors use their own members only. -/
def OwnOnly (P : Program) : Prop :=
  ∀ cls obs c, cls ≠ 0 → P.code cls obs = some c →
    (∀ r ∈ c.refs, ∃ j, r = .own j)

/-- No objects are made of the main function. -/
def NoMain (P : Program) : Prop := ∀ cls obs r k, P.code cls obs = some (.make r k) → k ≠ 0

end Spec.Dtor
end Vlpp
