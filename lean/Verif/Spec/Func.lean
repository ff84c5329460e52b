import Verif.Model.Func

/-! # What functors should do

A functor is a value: null, or what it was made from.  There are no pointers, counters or invokers here. -/
set_option autoImplicit false
namespace Vlpp
namespace Spec
namespace Fn
open Functors (Op Answer Code)

/-- What a functor calls. -/
inductive Value where
  | function (f : Option Nat)
  | method (sender : Option Nat) (m : Nat)
  /-- a functor object with a state, which all copies share -/
  | functor (f : Nat)
  | pointer (conv : Nat) (f : Option Nat)
  /-- another functor, the `made`-th that was made, with converted arguments and result -/
  | converted (conv : Nat) (made : Nat) (inner : Value)

structure State (S G : Type) where
  /-- `none`: the variable is gone; `some none`: the null functor; otherwise what it calls, and when it was made -/
  vars : List (Option (Option (Nat × Value))) := []
  made : Nat := 0
  states : Nat → Option S := fun _ => none
  globals : G

variable {V S G : Type}

/-- Calling a value that was made as number `k`. -/
def call (code : Code V S G) (k : Nat) : Value → V → (Nat → Option S) → G → Option (V × (Nat → Option S) × G)
  | .function f, a, st, g => f.map fun f => ((code.function f a g).1, st, (code.function f a g).2)
  | .method sender m, a, st, g => sender.map fun o => ((code.method o m a g).1, st, (code.method o m a g).2)
  | .functor f, a, st, g => (st k).map fun s =>
      let r := code.functor f s a g
      (r.1, fun i => if i = k then some r.2.1 else st i, r.2.2)
  | .pointer c f, a, st, g => f.map fun f =>
      let r := code.function f (code.argument c a) g
      (code.result c r.1, st, r.2)
  | .converted c k' v, a, st, g => (call code k' v (code.argument c a) st g).map fun r => (code.result c r.1, r.2)

def State.get (s : State S G) (i : Nat) : Option (Option (Nat × Value)) := s.vars[i]?.join

def State.push (s : State S G) (v : Option (Nat × Value)) : State S G := { s with vars := s.vars ++ [some v] }

def State.put (s : State S G) (i : Nat) (v : Option (Option (Nat × Value))) : State S G := { s with vars := s.vars.set i v }

/-- a new functor -/
def State.make (s : State S G) (v : Value) (st : Option S) : State S G :=
  { s.push (some (s.made, v)) with made := s.made + 1, states := fun i => if i = s.made then st else s.states i }

def step (code : Code V S G) (s : State S G) : Op V S → Option (Answer V × State S G)
  | .null => some (.done, s.push none)
  | .ofFunction f => some (.done, s.make (.function f) none)
  | .ofMethod o m => some (.done, s.make (.method o m) none)
  | .ofPointer c f => some (.done, s.make (.pointer c f) none)
  | .ofFunctor f st => some (.done, s.make (.functor f) (some st))
  | .ofFunc c i => (s.get i).map fun v => match v with
    | none => (.done, s.push none)
    | some (k, v) => (.done, s.make (.converted c k v) none)
  | .ofFuncMove c i => (s.get i).map fun v => match v with
    | none => (.done, s.push none)
    | some (k, v) => (.done, (s.put i (some none)).make (.converted c k v) none)
  | .copy i => (s.get i).map fun v => (.done, s.push v)
  | .move i => (s.get i).map fun v => (.done, (s.put i (some none)).push v)
  | .destroy i => (s.get i).map fun _ => (.done, s.put i none)
  | .assign i j => (s.get i).bind fun _ => (s.get j).map fun v => (.done, s.put i (some v))
  | .assignRvalue i j => (s.get i).bind fun _ => (s.get j).map fun v => (.done, s.put i (some v))
  | .test i => (s.get i).map fun v => (.bool v.isSome, s)
  | .equal i j => (s.get i).bind fun v => (s.get j).map fun u => (.bool (decide (v.map (·.1) = u.map (·.1))), s)
  | .call i a => (s.get i).bind fun v => v.bind fun v =>
      (call code v.1 v.2 a s.states s.globals).map fun r => (.value r.1, { s with states := r.2.1, globals := r.2.2 })

def run (code : Code V S G) (s : State S G) : List (Op V S) → Option (List (Answer V) × State S G)
  | [] => some ([], s)
  | op :: ops => (step code s op).bind fun r => (run code r.2 ops).map fun rs => (r.1 :: rs.1, rs.2)

/-- functor number `o` is `v`, which was made as number `k`, or is inside of it -/
def Holds (k : Nat) : Value → Nat → Prop
  | .converted _ k' v, o => o = k ∨ Holds k' v o
  | _, o => o = k

/-- some variable holds functor number `o` -/
def Held (s : State S G) (o : Nat) : Prop := ∃ i k v, s.get i = some (some (k, v)) ∧ Holds k v o

end Fn
end Spec
end Vlpp
