import Verif.Model.Outcome
import Verif.Model.Variant

/-!
# Model of `Nullable<T>`

Source/Primitives/Nullable.h.  The storage is a cell with or without a living object.  Constructors and assignments of `T` may
throw (`Variant.Fate`).  Undefined behaviour (use or destruction of an object that is not alive) and objects that are
overwritten or abandoned without being destroyed are `fault`.
-/
set_option autoImplicit false
namespace Vlpp
namespace Nullable
open Variant (Fate)

/-- What the code needs to know about `T`. -/
structure Elem (V : Type) where
  copyAssignable : Bool
  moveAssignable : Bool
  /-- what is left of a value that was moved -/
  moved : V → V
  eq : V → V → Bool
  cmp : V → V → Ordering

/-- Nullable.h 22-28 -/
structure Nul (V : Type) where
  initialized : Bool := false
  object : Option V := none
  deriving DecidableEq, Repr

variable {V : Type}

/-- `none`: the variable is gone -/
abbrev World (V : Type) := List (Option (Nul V))

/-- the variable itself -/
def var (a : Nat) : Cpp (World V) (Nul V) := fun w =>
  match w[a]?.join with
  | some n => .ok n w
  | none => .fault

/-- write the members of a variable -/
def put (a : Nat) (n : Nul V) : Cpp (World V) Unit := fun w => .ok () (w.set a (some n))

/-- throw an exception -/
def raise {α : Type} : Cpp (World V) α := fun w => .err w

/-- use of `object` as a value -/
def object (a : Nat) : Cpp (World V) V := do
  let n ← var a
  match n.object with
  | some v => pure v
  | none => Cpp.faulting

/-- `new (&object)T(...)`, Nullable.h 43, 51, 61, 72, 109, 129, 155, 183 -/
def construct (a : Nat) (v : V) (ft : Fate V) : Cpp (World V) Unit := do
  let n ← var a
  match n.object with
  | some _ => Cpp.faulting
  | none =>
    match ft with
    | .completes => put a { n with object := some v }
    | .throws _ _ => raise

/-- `object = ...`, Nullable.h 103, 123, 149, 176 -/
def assign (a : Nat) (v : V) (ft : Fate V) : Cpp (World V) Unit := do
  let n ← var a
  match n.object with
  | none => Cpp.faulting
  | some _ =>
    match ft with
    | .completes => put a { n with object := some v }
    | .throws t _ => do
      put a { n with object := some t }
      raise

/-- what moving leaves in the object of `b`, which is of value `v`; done before the move itself, which uses `v` -/
def leave (moved : V → V) (b : Nat) (v : V) (ft : Fate V) : Cpp (World V) Unit := do
  let m ← var b
  match ft with
  | .completes => put b { m with object := some (moved v) }
  | .throws _ s => put b { m with object := some s }

/-- `initialized = ...` -/
def setInitialized (a : Nat) (i : Bool) : Cpp (World V) Unit := do
  let n ← var a
  put a { n with initialized := i }

/-- Nullable.h 85-92 `Reset`; the destructor 77-80 calls it -/
def reset (a : Nat) : Cpp (World V) Unit := do
  let n ← var a
  if n.initialized then
    match n.object with
    | some _ => put a { object := none, initialized := false }
    | none => Cpp.faulting
  else pure ()

/-- Operations of a program on variables of type `Nullable<T>`; constructors make a new variable. -/
inductive Op (V : Type) where
  | newEmpty
  | newCopy (v : V) (ft : Fate V)
  | newMove (v : V) (ft : Fate V)
  | copyCtor (b : Nat) (ft : Fate V)
  | moveCtor (b : Nat) (ft : Fate V)
  | destroy (a : Nat)
  | reset (a : Nat)
  /-- `a = v`, `v` being elsewhere -/
  | assignValue (a : Nat) (v : V) (ft : Fate V)
  | assignMoveValue (a : Nat) (v : V) (ft : Fate V)
  /-- `a = b.Value()` -/
  | assignFrom (a b : Nat) (ft : Fate V)
  | assignCopy (a b : Nat) (ft : Fate V)
  | assignMove (a b : Nat) (ft : Fate V)
  | value (a : Nat)
  | bool (a : Nat)
  | equal (a b : Nat)
  | compare (a b : Nat)

/-- what a program sees -/
inductive Result (V : Type) where
  | unit
  | error
  | value (v : V)
  | bool (b : Bool)
  | order (o : Ordering)
  deriving DecidableEq, Repr

/-- A constructor of the class: if it throws, there is no variable, and its destructor does not run. -/
def constructing (initialized : Bool) (body : Nat → Cpp (World V) Unit) : Cpp (World V) (Result V) := fun w =>
  match body w.length (w ++ [some { initialized := initialized }]) with
  | .ok _ w' => .ok .unit w'
  | .err w' =>
    match w'[w.length]?.join with
    | some ⟨_, none⟩ => .err (w'.set w.length none)
    | _ => .fault
  | .fault => .fault

/-- Nullable.h 97-132, the two assignments of values: `element` reads the argument when it is used -/
def assignElement (assignable : Bool) (a : Nat) (element : Cpp (World V) V) (ft : Fate V) : Cpp (World V) Unit := do
  let n ← var a
  if assignable && n.initialized then do
    let v ← element
    assign a v ft
  else do
    reset a
    let v ← element
    construct a v ft
    setInitialized a true

/-- One operation; the lines are cited at each case.  The moved-from argument of `T&&` functions is not tracked. -/
def step (E : Elem V) : Op V → Cpp (World V) (Result V)
  /- Nullable.h 34-36 -/
  | .newEmpty => constructing false fun _ => pure ()
  /- Nullable.h 40-44 -/
  | .newCopy v ft => constructing true fun a => construct a v ft
  /- Nullable.h 48-52 -/
  | .newMove v ft => constructing true fun a => construct a v ft
  /- Nullable.h 56-63 -/
  | .copyCtor b ft => do
    let m ← var b
    constructing m.initialized fun a =>
      if m.initialized then do
        let v ← object b
        construct a v ft
      else pure ()
  /- Nullable.h 67-75 -/
  | .moveCtor b ft => do
    let m ← var b
    constructing m.initialized fun a =>
      if m.initialized then do
        let v ← object b
        leave E.moved b v ft
        construct a v ft
        reset b
      else pure ()
  /- Nullable.h 77-80 and the end of the storage -/
  | .destroy a => do
    reset a
    let n ← var a
    match n.object with
    | some _ => Cpp.faulting
    | none => do
      let w ← Cpp.get
      Cpp.set (w.set a none)
      pure .unit
  /- Nullable.h 85-92 -/
  | .reset a => do
    reset a
    pure .unit
  /- Nullable.h 97-112 -/
  | .assignValue a v ft => do
    assignElement E.copyAssignable a (pure v) ft
    pure .unit
  /- Nullable.h 117-132 -/
  | .assignMoveValue a v ft => do
    assignElement E.moveAssignable a (pure v) ft
    pure .unit
  /- Nullable.h 223-227 and 97-112, the argument being a reference to the object in `b` -/
  | .assignFrom a b ft => do
    let m ← var b
    Cpp.check (m.initialized = true)
    assignElement E.copyAssignable a (object b) ft
    pure .unit
  /- Nullable.h 137-159 -/
  | .assignCopy a b ft => do
    let m ← var b
    let n ← var a
    if !m.initialized then do
      reset a
      pure .unit
    else if a ≠ b then
      if E.copyAssignable && n.initialized then do
        let v ← object b
        assign a v ft
        pure .unit
      else do
        reset a
        let v ← object b
        construct a v ft
        setInitialized a true
        pure .unit
    else pure .unit
  /- Nullable.h 164-188 -/
  | .assignMove a b ft => do
    let m ← var b
    let n ← var a
    if !m.initialized then do
      reset a
      pure .unit
    else if a ≠ b then
      if E.moveAssignable && n.initialized then do
        let v ← object b
        leave E.moved b v ft
        assign a v ft
        reset b
        pure .unit
      else do
        reset a
        let v ← object b
        leave E.moved b v ft
        construct a v ft
        reset b
        setInitialized a true
        pure .unit
    else pure .unit
  /- Nullable.h 223-227 -/
  | .value a => do
    let n ← var a
    Cpp.check (n.initialized = true)
    let v ← object a
    pure (.value v)
  /- Nullable.h 216-219 -/
  | .bool a => do
    let n ← var a
    pure (.bool n.initialized)
  /- Nullable.h 207-212 -/
  | .equal a b => do
    let n ← var a
    let m ← var b
    if n.initialized && m.initialized then do
      let x ← object a
      let y ← object b
      pure (.bool (E.eq x y))
    else pure (.bool (n.initialized == m.initialized))
  /- Nullable.h 197-205 -/
  | .compare a b => do
    let n ← var a
    let m ← var b
    if n.initialized && m.initialized then do
      let x ← object a
      let y ← object b
      pure (.order (E.cmp x y))
    else if n.initialized then pure (.order .gt)
    else if m.initialized then pure (.order .lt)
    else pure (.order .eq)

/-- the end of an operation, as a program sees it; `none`: undefined behaviour -/
def seen : Outcome (World V) (Result V) → Option (Result V × World V)
  | .ok r w => some (r, w)
  | .err w => some (.error, w)
  | .fault => none

/-- a history and what the program saw, going on after exceptions -/
def run (E : Elem V) (w : World V) : List (Op V) → Option (List (Result V) × World V)
  | [] => some ([], w)
  | op :: ops => do
    let (r, w) ← seen (step E op w)
    let (rs, w) ← run E w ops
    some (r :: rs, w)

end Nullable
end Vlpp
