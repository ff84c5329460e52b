import Verif.Model.SortedListC

/-!
# Model of `Event<void(TArgs...)>`

Source/Primitives/Event.h.  Handlers are objects with an address; the handlers of an event are a `SortedList` in the order of
their addresses (Source/Primitives/Pointer.h 492-501: the key of a `Ptr` is its address), modelled by the same functions as in C06 and C07.
A handler lives as long as the program or an event has a pointer to it; the address of a handler that is gone can be used again.
`none` is undefined behaviour, an Error, or an operation on something that does not exist.
-/
set_option autoImplicit false
namespace Vlpp
namespace Events

/-- Event.h 28-44 `EventHandlerImpl` -/
structure Handler where
  address : Nat
  /-- which instance of the template the class belongs to -/
  type : Nat
  attached : Bool
  /-- the program has a pointer to it -/
  held : Bool
  deriving DecidableEq, Repr

/-- Event.h 46, the type of the event and its handlers -/
structure EventObj where
  type : Nat
  handlers : List Nat
  deriving DecidableEq, Repr

/-- Handlers and events have numbers that are not used again. -/
structure World where
  handlers : List Handler := []
  events : List (Option EventObj) := []
  deriving DecidableEq, Repr

/-- the address of a handler -/
def World.address (w : World) (h : Nat) : Nat := (w.handlers[h]?.map (·.address)).getD 0

/-- `handlers[i] <=> pointer` -/
def World.cmp (w : World) (h : Nat) (p : Nat) : Option Ordering := some (compare (w.address h) p)

/-- Operations of a program. -/
inductive Op where
  | newEvent (type : Nat)
  | destroyEvent (e : Nat)
  /-- the new handler is allocated at an address -/
  | add (e address : Nat)
  | remove (e h : Nat)
  | isAttached (h : Nat)
  /-- the program gives up its pointer -/
  | drop (h : Nat)
  | raise (e : Nat)
  deriving DecidableEq, Repr

/-- what the program sees -/
inductive Ret where
  | unit
  | handler (h : Nat)
  | flag (b : Bool)
  | calls (hs : List Nat)
  deriving DecidableEq, Repr

/-- Event.h 54-59 `Add`; 64-78 call it -/
def add (w : World) (e address : Nat) : Option (Nat × World) :=
  match w.events[e]?.join with
  | none => none
  | some ev =>
    let h := w.handlers.length
    let w : World := { w with handlers := w.handlers ++ [(⟨address, ev.type, true, true⟩ : Handler)] }
    match SortedSeq.add w.cmp w.address h ev.handlers with
    | .ok _ hs => some (h, { w with events := w.events.set e (some { ev with handlers := hs }) })
    | _ => none

/-- Event.h 83-92 `Remove` -/
def remove (w : World) (e h : Nat) : Option (Bool × World) :=
  match w.events[e]?.join, w.handlers[h]? with
  | some ev, some impl =>
    if impl.held = false then none
    else if impl.type ≠ ev.type then some (false, w)
    else
      match SortedSeq.indexOf w.cmp impl.address ev.handlers with
      | .ok index _ =>
        if index = -1 then some (false, w)
        else
          let w := { w with handlers := w.handlers.set h { impl with attached := false } }
          match SortedSeq.removeAt index ev.handlers with
          | .ok _ hs => some (true, { w with events := w.events.set e (some { ev with handlers := hs }) })
          | _ => none
      | _ => none
  | _, _ => none

/-- Event.h 97-103 `operator()`, from the handler `i` on.  `act h` is what the callback of `h` does to handlers and events.
The result are the handlers that were called. -/
def raiseLoop (act : Nat → World → Option World) (w : World) (e : Nat) (i : Nat) : Option (List Nat × World) :=
  match w.events[e]?.join with
  | none => none
  | some ev =>
    match ev.handlers[i]? with
    | none => some ([], w)
    | some h => do
      let w ← act h w
      let (hs, w) ← raiseLoop act w e (i + 1)
      some (h :: hs, w)
partial_fixpoint

/-- One operation; callbacks do not change handlers and events (see `raiseLoop` for those that do). -/
def step (w : World) : Op → Option (Ret × World)
  | .newEvent t => some (.unit, { w with events := w.events ++ [some ⟨t, []⟩] })
  /- the destructor of the `SortedList`; the members of the handlers are not changed -/
  | .destroyEvent e => w.events[e]?.join.map fun _ => (.unit, { w with events := w.events.set e none })
  | .add e a => (add w e a).map fun (h, w) => (.handler h, w)
  | .remove e h => (remove w e h).map fun (b, w) => (.flag b, w)
  /- Event.h 40-43 -/
  | .isAttached h =>
    match w.handlers[h]? with
    | some impl => if impl.held then some (.flag impl.attached, w) else none
    | none => none
  | .drop h =>
    match w.handlers[h]? with
    | some impl => if impl.held then some (.unit, { w with handlers := w.handlers.set h { impl with held := false } }) else none
    | none => none
  | .raise e => (raiseLoop (fun _ w => some w) w e 0).map fun (hs, w) => (.calls hs, w)

/-- The handler exists: the program or an event has a pointer to it. -/
def World.Alive (w : World) (h : Nat) : Prop :=
  (∃ impl, w.handlers[h]? = some impl ∧ impl.held = true) ∨ ∃ (e : Nat) (ev : EventObj), w.events[e]? = some (some ev) ∧ h ∈ ev.handlers

/-- What the program and the allocator are obliged to: events and handlers exist, and new handlers are not where others are. -/
def Legal (w : World) : Op → Prop
  | .newEvent _ => True
  | .destroyEvent e => ∃ ev, w.events[e]? = some (some ev)
  | .add e a => (∃ ev, w.events[e]? = some (some ev)) ∧ ∀ h, w.Alive h → w.address h ≠ a
  | .remove e h => (∃ ev, w.events[e]? = some (some ev)) ∧ ∃ impl, w.handlers[h]? = some impl ∧ impl.held = true
  | .isAttached h => ∃ impl, w.handlers[h]? = some impl ∧ impl.held = true
  | .drop h => ∃ impl, w.handlers[h]? = some impl ∧ impl.held = true
  | .raise e => ∃ ev, w.events[e]? = some (some ev)

/-- a history -/
def run (w : World) : List Op → Option (List Ret × World)
  | [] => some ([], w)
  | op :: ops => do
    let (r, w) ← step w op
    let (rs, w) ← run w ops
    some (r :: rs, w)

/-- every operation is legal when it comes -/
def LegalRun (w : World) : List Op → Prop
  | [] => True
  | op :: ops => Legal w op ∧ ∀ r w', step w op = some (r, w') → LegalRun w' ops

/-! ## Arguments -/

/-- how a parameter of the callbacks is declared: `T`, `const T&` -/
inductive Param where
  | value
  | constRef
  deriving DecidableEq, Repr

/-- how the caller passes an argument -/
inductive Passed where
  | lvalue
  | temporary
  deriving DecidableEq, Repr

/-- One argument: declared, passed, and the value that the caller's object has now. -/
structure Arg (V : Type) where
  param : Param
  passed : Passed
  now : V
  deriving DecidableEq, Repr

variable {V : Type}

/-- Event.h 101 `function(std::forward<TArgs2&&>(args)...)` and Function.h 220-223: initialisation of the parameter of
`Func::operator()`.  Result: the value of the parameter, and the argument afterwards. -/
def Arg.receive (moved : V → V) (a : Arg V) : V × Arg V :=
  match a.param, a.passed with
  | .constRef, _ => (a.now, a)
  | .value, .lvalue => (a.now, a)
  | .value, .temporary => (a.now, { a with now := moved a.now })

/-- Function.h 222, 43-46, 65-68, 90-93, 115-118: the parameter is forwarded to the invoker and to the function, by moving. -/
def invoke (params : List V) : List V := params

/-- Event.h 97-103: all handlers are called with the same `args`; the values that each of them receives. -/
def raiseArgs (moved : V → V) (args : List (Arg V)) : (handlers : Nat) → List (List V)
  | 0 => []
  | n + 1 => invoke (args.map fun a => (a.receive moved).1) :: raiseArgs moved (args.map fun a => (a.receive moved).2) n

end Events
end Vlpp
