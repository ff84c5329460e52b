import Verif.Model.Outcome

/-!
# Model of `Variant<TElements...>`

Source/Primitives/Variant.h.  Alternatives are numbered, their values are of one type `V`.  The buffer of a variant contains a
living object, known with its type (the number of an alternative), or nothing.  Constructors and assignments of elements may
throw.  Undefined behaviour (using or destroying an object that is not alive or has another type) and objects that are
overwritten or abandoned without being destroyed are `fault`.
-/
set_option autoImplicit false
namespace Vlpp
namespace Variant

/-- What the code asks about the type of an alternative: Variant.h 92, 106, 127 and 141.  Types that are move constructible but not
move assignable do not compile (line 144) and are not modelled. -/
structure Traits where
  copyConstructible : Bool
  moveConstructible : Bool
  copyAssignable : Bool
  deriving DecidableEq, Repr

/-- What the constructor or assignment of an element does: it completes, or it throws, leaving the given values in the target
(assignments only) and in the source (moves only). -/
inductive Fate (V : Type) where
  | completes
  | throws (target source : V)
  deriving DecidableEq, Repr

/-- Variant.h 277-278 -/
structure Var (V : Type) where
  index : Int
  cell : Option (Nat × V)
  deriving DecidableEq, Repr

/-- all variables of the program; `none`: the variable is gone -/
abbrev World (V : Type) := List (Option (Var V))

variable {V : Type}

/-- the variable itself -/
def var (a : Nat) : Cpp (World V) (Var V) := fun w =>
  match w[a]?.join with
  | some n => .ok n w
  | none => .fault

/-- write the members of a variable -/
def put (a : Nat) (n : Var V) : Cpp (World V) Unit := fun w => .ok () (w.set a (some n))

/-- throw an exception -/
def raise {α : Type} : Cpp (World V) α := fun w => .err w

/-- `*reinterpret_cast<const T*>(buffer)` with `T` the alternative `I` -/
def read (a I : Nat) : Cpp (World V) V := do
  let n ← var a
  match n.cell with
  | some (J, v) => if J = I then pure v else Cpp.faulting
  | none => Cpp.faulting

/-- the value of a living object changes -/
def write (a I : Nat) (v : V) : Cpp (World V) Unit := do
  let n ← var a
  match n.cell with
  | some (J, _) => if J = I then put a { n with cell := some (I, v) } else Cpp.faulting
  | none => Cpp.faulting

/-- `new (buffer)T(...)` with a new value `v` -/
def construct (a I : Nat) (v : V) (ft : Fate V) : Cpp (World V) Unit := do
  let n ← var a
  match n.cell with
  | some _ => Cpp.faulting
  | none =>
    match ft with
    | .completes => put a { n with cell := some (I, v) }
    | .throws _ _ => raise

/-- Variant.h 90-102 -/
def iCopyCtor (index : Int) (a b : Nat) (ft : Fate V) (I : Nat) (e : Traits) : Cpp (World V) (Option Unit) :=
  if e.copyConstructible then
    if (I : Int) ≠ index then pure none
    else do
      let v ← read b I
      construct a I v ft
      pure (some ())
  else pure none

/-- Variant.h 104-116 -/
def iMoveCtor (moved : V → V) (index : Int) (a b : Nat) (ft : Fate V) (I : Nat) (e : Traits) : Cpp (World V) (Option Unit) :=
  if e.moveConstructible then
    if (I : Int) ≠ index then pure none
    else do
      let v ← read b I
      match ft with
      | .completes => write b I (moved v)
      | .throws _ s => write b I s
      construct a I v ft
      pure (some ())
  else pure none

/-- Variant.h 118-123 -/
def iDtor (index : Int) (a : Nat) (I : Nat) (_ : Traits) : Cpp (World V) (Option Unit) :=
  if (I : Int) ≠ index then pure none
  else do
    let _ ← read a I
    let n ← var a
    put a { n with cell := none }
    pure (some ())

/-- Variant.h 125-137 -/
def iCopyAssign (index : Int) (a b : Nat) (ft : Fate V) (I : Nat) (e : Traits) : Cpp (World V) (Option Unit) :=
  if e.copyAssignable then
    if (I : Int) ≠ index then pure none
    else do
      let v ← read b I
      match ft with
      | .completes => write a I v
      | .throws t _ => do
        write a I t
        raise
      pure (some ())
  else pure none

/-- Variant.h 139-151; the test is that of the constructor -/
def iMoveAssign (moved : V → V) (index : Int) (a b : Nat) (ft : Fate V) (I : Nat) (e : Traits) : Cpp (World V) (Option Unit) :=
  if e.moveConstructible then
    if (I : Int) ≠ index then pure none
    else do
      let v ← read b I
      match ft with
      | .completes => do
        write a I v
        write b I (moved v)
      | .throws t s => do
        write a I t
        write b I s
        raise
      pure (some ())
  else pure none

/-- the fold expression `(... || ...)` over the alternatives from `I` on; `true` comes with a result for the sake of `Apply` -/
def foldOr {R : Type} (f : Nat → Traits → Cpp (World V) (Option R)) : Nat → List Traits → Cpp (World V) (Option R)
  | _, [] => pure none
  | I, e :: es => do
    let r ← f I e
    match r with
    | some r => pure (some r)
    | none => foldOr f (I + 1) es

/-- Variant.h 207-249: the fold and the check after it -/
def pack {R : Type} (es : List Traits) (f : Nat → Traits → Cpp (World V) (Option R)) : Cpp (World V) R := do
  let r ← foldOr f 0 es
  match r with
  | some r => pure r
  | none => raise

/-- Operations of a program on variables of one type `Variant<...>`; constructors make a new variable. -/
inductive Op (V : Type) where
  /-- from an element, by copying, moving or conversion; alternative 0 by default -/
  | new (i : Nat) (v : V) (ft : Fate V)
  | copyCtor (b : Nat) (ft : Fate V)
  | moveCtor (b : Nat) (ft : Fate V)
  | destroy (a : Nat)
  | assignCopy (a b : Nat) (ft : Fate V)
  | assignMove (a b : Nat) (ft : Fate V)
  /-- from an element that is elsewhere -/
  | assign (a i : Nat) (v : V) (ft : Fate V)
  /-- from a part of type `i` of the object in `b` -/
  | assignPart (a b i : Nat) (part : V → V) (ft : Fate V)
  | index (a : Nat)
  | get (a i : Nat)
  | tryGet (a i : Nat)
  /-- a callback that gives the object a new value -/
  | apply (a : Nat) (g : Nat → V → V)
  /-- a callback for some of the alternatives -/
  | tryApply (a : Nat) (p : Nat → Bool) (g : Nat → V → V)

/-- what a program sees -/
inductive Result (V : Type) where
  | unit
  | error
  | index (i : Int)
  | value (v : V)
  | pointer (v : Option V)
  /-- the callback was called -/
  | called (i : Nat) (v : V)
  | notCalled
  deriving DecidableEq, Repr

/-- A constructor of the class: if it throws, there is no variable, and no destructor runs. -/
def constructing (body : Nat → Cpp (World V) Unit) : Cpp (World V) (Result V) := fun w =>
  match body w.length (w ++ [some ⟨-1, none⟩]) with
  | .ok _ w' => .ok .unit w'
  | .err w' =>
    match w'[w.length]?.join with
    | some ⟨_, none⟩ => .err (w'.set w.length none)
    | _ => .fault
  | .fault => .fault

/-- `index = ...` -/
def setIndex (a : Nat) (i : Int) : Cpp (World V) Unit := do
  let n ← var a
  put a { n with index := i }

/-- Variant.h 337-340, 352, 370, 389, 407, 423: `ElementPack::Dtor(index, buffer)` -/
def dtor (es : List Traits) (a : Nat) : Cpp (World V) Unit := do
  let n ← var a
  pack es (iDtor n.index a)

/-- Variant.h 342-358 -/
def assignCopy (es : List Traits) (a b : Nat) (ft : Fate V) : Cpp (World V) Unit :=
  if a ≠ b then do
    let n ← var a
    let m ← var b
    if n.index = m.index then pack es (iCopyAssign n.index a b ft)
    else do
      dtor es a
      setIndex a m.index
      pack es (iCopyCtor m.index a b ft)
  else do
    let _ ← var a
    pure ()

/-- Variant.h 360-376 -/
def assignMove (moved : V → V) (es : List Traits) (a b : Nat) (ft : Fate V) : Cpp (World V) Unit :=
  if a ≠ b then do
    let n ← var a
    let m ← var b
    if n.index = m.index then pack es (iMoveAssign moved n.index a b ft)
    else do
      dtor es a
      setIndex a m.index
      pack es (iMoveCtor moved m.index a b ft)
  else do
    let _ ← var a
    pure ()

/-- Variant.h 378-439: the four ways of assigning an element (`element` reads the argument when it is used), and 153-188 -/
def assignElement (es : List Traits) (a i : Nat) (element : Cpp (World V) V) (ft : Fate V) : Cpp (World V) Unit := do
  let n ← var a
  if n.index = (i : Int) then do
    let v ← element
    match ft with
    | .completes => write a i v
    | .throws t _ => do
      write a i t
      raise
  else do
    dtor es a
    setIndex a i
    let v ← element
    construct a i v ft

/-- Variant.h 74-88; the result is that of the callback -/
def iApply (index : Int) (a : Nat) (callback : Nat → V → Cpp (World V) (Result V)) (I : Nat) (_ : Traits) :
    Cpp (World V) (Option (Result V)) :=
  if (I : Int) ≠ index then pure none
  else do
    let v ← read a I
    let r ← callback I v
    pure (some r)

/-- One operation; lines at each case. -/
def step (moved : V → V) (es : List Traits) : Op V → Cpp (World V) (Result V)
  /- Variant.h 281-286, 300-335 and 153-172 -/
  | .new i v ft => constructing fun a => do
    setIndex a i
    construct a i v ft
  /- Variant.h 288-292 -/
  | .copyCtor b ft => constructing fun a => do
    let m ← var b
    setIndex a m.index
    pack es (iCopyCtor m.index a b ft)
  /- Variant.h 294-298 -/
  | .moveCtor b ft => constructing fun a => do
    let m ← var b
    setIndex a m.index
    pack es (iMoveCtor moved m.index a b ft)
  /- Variant.h 337-340 and the end of the storage -/
  | .destroy a => do
    dtor es a
    let n ← var a
    match n.cell with
    | some _ => Cpp.faulting
    | none => do
      let w ← Cpp.get
      Cpp.set (w.set a none)
      pure .unit
  | .assignCopy a b ft => do
    assignCopy es a b ft
    pure .unit
  | .assignMove a b ft => do
    assignMove moved es a b ft
    pure .unit
  | .assign a i v ft => do
    assignElement es a i (pure v) ft
    pure .unit
  | .assignPart a b i part ft => do
    let m ← var b
    match m.cell with
    | none => Cpp.faulting
    | some (j, _) => do
      assignElement es a i (do let y ← read b j; pure (part y)) ft
      pure .unit
  /- Variant.h 441-444 -/
  | .index a => do
    let n ← var a
    pure (.index n.index)
  /- Variant.h 446-471 -/
  | .get a i => do
    let n ← var a
    Cpp.check (n.index = (i : Int))
    let v ← read a i
    pure (.value v)
  /- Variant.h 473-486; the pointer is used by the caller -/
  | .tryGet a i => do
    let n ← var a
    if n.index = (i : Int) then do
      let v ← read a i
      pure (.pointer (some v))
    else pure (.pointer none)
  /- Variant.h 488-498 -/
  | .apply a g => do
    let n ← var a
    pack es (iApply n.index a fun I x => do
      write a I (g I x)
      pure (.called I x))
  /- Variant.h 500-520: alternatives that the callback does not accept go to the lambda of lines 506 and 517 -/
  | .tryApply a p g => do
    let n ← var a
    pack es (iApply n.index a fun I x =>
      if p I then do
        write a I (g I x)
        pure (.called I x)
      else pure .notCalled)

/-- the end of an operation, as a program sees it; `none`: undefined behaviour -/
def seen : Outcome (World V) (Result V) → Option (Result V × World V)
  | .ok r w => some (r, w)
  | .err w => some (.error, w)
  | .fault => none

/-- a history, going on after exceptions -/
def run (moved : V → V) (es : List Traits) (w : World V) : List (Op V) → Option (List (Result V) × World V)
  | [] => some ([], w)
  | op :: ops => do
    let (r, w) ← seen (step moved es op w)
    let (rs, w) ← run moved es w ops
    some (r :: rs, w)

end Variant
end Vlpp
