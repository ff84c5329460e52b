import Verif.Model.Event

/-!
# Model of `Event<void(TArgs...)>` whose callbacks use events

Source/Primitives/Event.h.  `Model/Event` has the functions `Add`, `Remove`, `IsAttached` (`Events.step`); here callbacks are programs that call
them, that raise events themselves, that throw and catch, and that read and write variables of the program.
Events are not destroyed here (see C49 for those).

A program that does not end has no result for any `fuel`; `fuel` has no other meaning (`Events.exec_mono`).
-/
set_option autoImplicit false
namespace Vlpp
namespace Events

/-- what a program does with events -/
inductive Cmd where
  | newEvent (type : Nat)
  | add (e : Nat)
  | remove (e h : Nat)
  | isAttached (h : Nat)
  /-- the program gives up its pointer -/
  | drop (h : Nat)
  deriving DecidableEq, Repr

/-- The operation, at the address that the allocator chooses.  `Model/Event` has the address as an argument; the allocator may look at
all handlers that ever were, so that it may choose every sequence of addresses. -/
def Cmd.op (alloc : World → Nat) (w : World) : Cmd → Op
  | .newEvent t => .newEvent t
  | .add e => .add e (alloc w)
  | .remove e h => .remove e h
  | .isAttached h => .isAttached h
  | .drop h => .drop h

/-- The rest of a callback, or of the program; `C` are the variables of the program. -/
inductive Prog (C : Type) where
  | done
  | throw
  /-- reads and writes variables -/
  | vars (f : C → C) (k : C → Prog C)
  | cmd (c : Cmd) (k : Ret → Prog C)
  /-- raises an event; goes on with `k` when all callbacks have returned, with `caught` when one of them has thrown
  (which is `throw` where the program does not catch) -/
  | raise (e : Nat) (k : Prog C) (caught : Prog C)

/-- What happened, in this order.  Every raise has a number. -/
inductive Entry where
  | did (op : Op) (r : Ret)
  | raise (r e : Nat)
  /-- the raise `r` is over: all callbacks have returned, or one of them has thrown -/
  | ended (r : Nat) (threw : Bool)
  /-- the handler `h` is called by the raise `r` of the event `e` -/
  | call (r e h : Nat)
  /-- an exception has left the callback of the handler `h` that the raise `r` has called -/
  | failed (r h : Nat)
  deriving DecidableEq, Repr

/-- events, variables of the program, handlers whose callbacks are running, number of raises, and what happened -/
structure Run (C : Type) where
  w : World
  vars : C
  running : List Nat := []
  raises : Nat := 0
  log : List Entry := []

/-- how a program ends -/
inductive End (C : Type) where
  | ok (s : Run C)
  | threw (s : Run C)
  /-- the operation is not possible: the event or the handler does not exist, or an Error or undefined behaviour in `Add` or `Remove` -/
  | illegal (op : Op) (s : Run C)
  /-- there is no such event to raise -/
  | noEvent (e : Nat) (s : Run C)
  /-- the handler `h` is deleted, with the functor that it has, while the functor is running (Event.h 32, 101; see C68) -/
  | deleted (h : Nat) (s : Run C)

/-- the state at the end -/
def End.state {C : Type} : End C → Run C
  | .ok s | .threw s | .illegal _ s | .noEvent _ s | .deleted _ s => s

/-- The handler exists: the program or an event has a pointer to it (`World.Alive`). -/
def World.alive (w : World) (h : Nat) : Bool :=
  (match w.handlers[h]? with | some impl => impl.held | none => false) ||
  w.events.any fun ev => match ev with | some ev => ev.handlers.contains h | none => false

/-- what is to be done: a program, or the loop of `operator()` from the handler `i` on -/
inductive Task (C : Type) where
  | prog (p : Prog C)
  | loop (r e i : Nat)

/-- Programs, and Event.h 97-103 `operator()`.  `body h` is the callback of the handler `h`.
Line 101 calls through the functor that belongs to the handler, so that the handler has to exist until the callback returns. -/
def exec {C : Type} (alloc : World → Nat) (body : Nat → Prog C) : (fuel : Nat) → Task C → Run C → Option (End C)
  | 0, _, _ => none
  | _ + 1, .prog .done, s => some (.ok s)
  | _ + 1, .prog .throw, s => some (.threw s)
  | n + 1, .prog (.vars f k), s => exec alloc body n (.prog (k s.vars)) { s with vars := f s.vars }
  | n + 1, .prog (.cmd c k), s =>
    match step s.w (c.op alloc s.w) with
    | none => some (.illegal (c.op alloc s.w) s)
    | some (r, w) =>
      let s' := { s with w := w, log := s.log ++ [.did (c.op alloc s.w) r] }
      match s.running.find? (fun h => !w.alive h) with
      | some h => some (.deleted h s')
      | none => exec alloc body n (.prog (k r)) s'
  | n + 1, .prog (.raise e k caught), s =>
    match exec alloc body n (.loop s.raises e 0) { s with raises := s.raises + 1, log := s.log ++ [.raise s.raises e] } with
    | some (.ok s') => exec alloc body n (.prog k) { s' with log := s'.log ++ [.ended s.raises false] }
    | some (.threw s') => exec alloc body n (.prog caught) { s' with log := s'.log ++ [.ended s.raises true] }
    | x => x
  | n + 1, .loop r e i, s =>
    match s.w.events[e]?.join with
    | none => some (.noEvent e s)
    | some ev =>
      match ev.handlers[i]? with
      | none => some (.ok s)
      | some h =>
        match exec alloc body n (.prog (body h)) { s with running := h :: s.running, log := s.log ++ [.call r e h] } with
        | some (.ok s') => exec alloc body n (.loop r e (i + 1)) { s' with running := s.running }
        | some (.threw s') => some (.threw { s' with running := s.running, log := s'.log ++ [.failed r h] })
        | x => x

end Events
end Vlpp
