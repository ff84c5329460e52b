import Verif.Model.Pointer

/-!
# Model of `Func<R(TArgs...)>`

Source/Primitives/Function.h.  A `Func` is one `Ptr` to an invoker (line 129), so the model is built on that of `Ptr`:
object number `o` of the pointer model is the invoker number `o`, and a variable of type `Func` is a variable of type
`Ptr`.  `none` is undefined behaviour.

Simplifications: one type `V` stands for all argument lists and results; the functions that are called do not use the
variables of type `Func` (except in `callWhile`); the temporary `Ptr` of lines 167, 177, 195 and 213, which is moved from
at once, is omitted.
-/
set_option autoImplicit false
namespace Vlpp
namespace Functors

/-- What the functions do that a `Func` may refer to, by their numbers: they read and write the globals `G`; a functor also
has a state of its own. -/
structure Code (V S G : Type) where
  function : Nat → V → G → V × G
  method : Nat → Nat → V → G → V × G
  functor : Nat → S → V → G → V × S × G
  /-- implicit conversions of arguments and result to another signature -/
  argument : Nat → V → V
  result : Nat → V → V

/-- The invokers of Function.h 31-119. -/
inductive Invoker (S : Type) where
  /-- 32-47 `StaticInvoker`: a function pointer, possibly null -/
  | static (f : Option Nat)
  /-- 52-69 `MemberInvoker`: an object, possibly null, and a method -/
  | member (sender : Option Nat) (m : Nat)
  /-- 74-94, 99-119 `ObjectInvoker<C, R, TArgs...>`: a functor and its state -/
  | object (f : Nat) (s : S)
  /-- the same with `C` a pointer to a function of another signature -/
  | pointer (conv : Nat) (f : Option Nat)
  /-- the same with `C` a `Func` of another signature, which is the only member of the object -/
  | wrap (conv : Nat)
  deriving DecidableEq, Repr

structure World (S G : Type) where
  ptrs : Pointer.World := {}
  invokers : List (Invoker S) := []
  globals : G

variable {V S G : Type}

/-- Function.h 167, 177, 195, 213: a new invoker, and a new `Func` that refers to it -/
def construct (w : World S G) (members : Nat) (inv : Invoker S) : Option (World S G) :=
  (Pointer.step w.ptrs (.newObject members)).map fun p => { w with ptrs := p, invokers := w.invokers ++ [inv] }

/-- an operation of the `Ptr` inside -/
def pointerOp (w : World S G) (op : Pointer.Op) : Option (World S G) :=
  (Pointer.step w.ptrs op).map fun p => { w with ptrs := p }

/-- Function.h 220-223 `operator()` of a `Func` whose invoker is `s`, with 43-46, 65-68, 90-93 and 115-118 `Invoke`.
`fuel` bounds the number of `Func` inside of each other. -/
def invoke (code : Code V S G) : Nat → World S G → Pointer.Slot → V → Option (V × World S G)
  | 0, _, _, _ => none
  | fuel + 1, w, s, a =>
    match s.ref with
    | none => none
    | some (o, _) =>
      if (w.ptrs.objs[o]?.join).isSome then
        match w.invokers[o]? with
        | none => none
        | some (.static f) => f.map fun f => ((code.function f a w.globals).1, { w with globals := (code.function f a w.globals).2 })
        | some (.member sender m) =>
          sender.map fun sender => ((code.method sender m a w.globals).1, { w with globals := (code.method sender m a w.globals).2 })
        | some (.object f st) =>
          let r := code.functor f st a w.globals
          some (r.1, { w with invokers := w.invokers.set o (.object f r.2.1), globals := r.2.2 })
        | some (.pointer c f) =>
          f.map fun f =>
            let r := code.function f (code.argument c a) w.globals
            (code.result c r.1, { w with globals := r.2 })
        | some (.wrap c) =>
          match w.ptrs.read (.field o 0) with
          | none => none
          | some s' => (invoke code fuel w s' (code.argument c a)).map fun r => (code.result c r.1, r.2)
      else none

/-- What a program does.  Constructors make a new variable. -/
inductive Op (V S : Type) where
  | null
  | ofFunction (f : Option Nat)
  | ofMethod (sender : Option Nat) (m : Nat)
  | ofPointer (conv : Nat) (f : Option Nat)
  | ofFunctor (f : Nat) (s : S)
  /-- from a `Func` of another signature, an lvalue -/
  | ofFunc (conv i : Nat)
  /-- the same, an rvalue -/
  | ofFuncMove (conv i : Nat)
  | copy (i : Nat)
  | move (i : Nat)
  | destroy (i : Nat)
  | assign (i j : Nat)
  /-- `i = std::move(j)` -/
  | assignRvalue (i j : Nat)
  | test (i : Nat)
  | equal (i j : Nat)
  | call (i : Nat) (a : V)

/-- what the program sees -/
inductive Answer (V : Type) where
  | done
  | bool (b : Bool)
  | value (v : V)

def quiet (w : Option (World S G)) : Option (Answer V × World S G) := w.map fun w => (.done, w)

def step (code : Code V S G) (w : World S G) : Op V S → Option (Answer V × World S G)
  /- Function.h 153 -/
  | .null => quiet (pointerOp w .newEmpty)
  /- 165-168 -/
  | .ofFunction f => quiet (construct w 0 (.static f))
  /- 174-178 -/
  | .ofMethod sender m => quiet (construct w 0 (.member sender m))
  /- 202-215; the function `IsEmptyFunc` is that of 143-147 -/
  | .ofPointer conv f => quiet (construct w 0 (.pointer conv f))
  /- 183-197; the function `IsEmptyFunc` is that of 143-147 -/
  | .ofFunctor f s => quiet (construct w 0 (.object f s))
  /- 183-197 with `IsEmptyFunc` of 131-141, 80-83 and 157 -/
  | .ofFunc conv i =>
    match w.ptrs.read (.root i) with
    | none => none
    | some s =>
      if s.ref.isSome then
        quiet ((construct w 1 (.wrap conv)).bind fun w' => pointerOp w' (.assignCopy (.field w.ptrs.objs.length 0) (.root i)))
      else quiet (pointerOp w .newEmpty)
  /- 183-197 with `IsEmptyFunc` of 131-141, 85-88 and 161 -/
  | .ofFuncMove conv i =>
    match w.ptrs.read (.root i) with
    | none => none
    | some s =>
      if s.ref.isSome then
        quiet ((construct w 1 (.wrap conv)).bind fun w' => pointerOp w' (.assignMove (.field w.ptrs.objs.length 0) (.root i)))
      else quiet (pointerOp w .newEmpty)
  /- 157 -/
  | .copy i => quiet (pointerOp w (.copyCtor (.root i)))
  /- 161 -/
  | .move i => quiet (pointerOp w (.moveCtor (.root i)))
  | .destroy i => quiet (pointerOp w (.destroy i))
  /- 225-229 -/
  | .assign i j => quiet (pointerOp w (.assignCopy (.root i) (.root j)))
  /- 231-235: `function` is const, therefore `std::move(function.invoker)` is a `const Ptr&&`, which is copied -/
  | .assignRvalue i j => quiet (pointerOp w (.assignCopy (.root i) (.root j)))
  /- 249-252, Pointer.h 294-297 -/
  | .test i => (w.ptrs.read (.root i)).map fun s => (.bool s.ref.isSome, w)
  /- 237-240, Pointer.h 287-290 -/
  | .equal i j =>
    (w.ptrs.read (.root i)).bind fun s => (w.ptrs.read (.root j)).map fun t => (.bool (decide (s.ref = t.ref)), w)
  /- 220-223 -/
  | .call i a =>
    (w.ptrs.read (.root i)).bind fun s =>
      (invoke code w.invokers.length w s a).map fun r => (.value r.1, r.2)

/-- a history and what the program sees -/
def run (code : Code V S G) (w : World S G) : List (Op V S) → Option (List (Answer V) × World S G)
  | [] => some ([], w)
  | op :: ops => (step code w op).bind fun r => (run code r.2 ops).map fun rs => (r.1 :: rs.1, rs.2)

/-- Function.h 220-223 and 90-93 when the functor of variable `i`, while it is running, does `inside` with the variables and
then uses what it has captured: the functor must still be alive then. -/
def callWhile (code : Code V S G) (w : World S G) (i : Nat) (inside : List (Op V S)) : Option (World S G) :=
  match w.ptrs.read (.root i) with
  | none => none
  | some s =>
    match s.ref with
    | none => none
    | some (o, _) =>
      match run code w inside with
      | none => none
      | some (_, w') => if (w'.ptrs.objs[o]?.join).isSome then some w' else none

end Functors
end Vlpp
