import Verif.Model.Pointer

/-!
# Model of `ComPtr<T>`

Source/Primitives/Pointer.h 321-483.  The heap contains the counters that `ComPtr` allocates, and COM objects.  A COM object
has its own reference count and, as in the model of `Ptr`, is otherwise the list of its members of type `ComPtr`; `AddRef`
and `Release`, which are not part of the repository, are modelled by what COM prescribes.  `none` is undefined behaviour:
use of a counter or object that is deleted, or a call on a null pointer.
-/
set_option autoImplicit false
namespace Vlpp
namespace Com
open Pointer (Loc)

/-- Pointer.h 325-326: counter and reference are addresses in the heap. -/
structure Slot where
  counter : Option Nat := none
  ref : Option Nat := none
  deriving DecidableEq, Repr

inductive Cell where
  /-- an `atomic_vint` made by `ComPtr` -/
  | counter (n : Int)
  /-- a COM object with its reference count -/
  | object (count : Int) (members : List Slot)
  deriving DecidableEq, Repr

/-- A variable: a `ComPtr`, or a plain pointer for which the program has to call `Release`. -/
inductive Var where
  | com (s : Slot)
  | raw (o : Nat)
  deriving DecidableEq, Repr

structure World where
  /-- `none`: deleted -/
  heap : List (Option Cell) := []
  /-- `none`: the variable is gone -/
  vars : List (Option Var) := []
  deriving DecidableEq, Repr

/-- the `ComPtr` at a location, if the memory is there -/
def World.read (w : World) : Loc → Option Slot
  | .root i =>
    match w.vars[i]?.join with
    | some (.com s) => some s
    | _ => none
  | .field o j =>
    match w.heap[o]?.join with
    | some (.object _ ms) => ms[j]?
    | _ => none

/-- the plain pointer in a variable -/
def World.raw (w : World) (i : Nat) : Option Nat :=
  match w.vars[i]?.join with
  | some (.raw o) => some o
  | _ => none

/-- Assignment of the fields of the `ComPtr` at a location whose memory is there. -/
def World.write (w : World) (l : Loc) (s : Slot) : World :=
  match l with
  | .root i => { w with vars := w.vars.set i (some (.com s)) }
  | .field o j =>
    match w.heap[o]?.join with
    | some (.object n ms) => { w with heap := w.heap.set o (some (.object n (ms.set j s))) }
    | _ => w

/-- the same, with the memory checked -/
def World.store (w : World) (l : Loc) (s : Slot) : Option World :=
  if (w.read l).isSome then some (w.write l s) else none

/-- what is still to be done while something is released -/
inductive Task where
  /-- `Dec()` of a `ComPtr` -/
  | dec (s : Slot)
  /-- `o->Release()` -/
  | release (o : Nat)
  deriving DecidableEq, Repr

theorem alive_set_lt {h : List (Option Cell)} {c : Nat} {x : Cell} (e : h[c]?.join = some x) :
    (h.set c none).countP (·.isSome) < h.countP (·.isSome) := by
  induction h generalizing c with
  | nil => simp at e
  | cons a cs ih =>
    cases c with
    | zero => simp at e; subst e; simp
    | succ c => simp only [List.getElem?_cons_succ] at e; have := ih e; simp only [List.set_cons_succ, List.countP_cons]; omega

theorem alive_set_le {h : List (Option Cell)} {c : Nat} {x y : Cell} (e : h[c]?.join = some x) :
    (h.set c (some y)).countP (·.isSome) = h.countP (·.isSome) := by
  induction h generalizing c with
  | nil => simp at e
  | cons a cs ih =>
    cases c with
    | zero => simp at e; subst e; simp
    | succ c => simp only [List.getElem?_cons_succ] at e; have := ih e; simp only [List.set_cons_succ, List.countP_cons]; omega

/-- Pointer.h 398-401 `~ComPtr`, i.e. 342-353 `Dec()`, and `Release` of COM objects, one after another: the last `ComPtr` of a
counter deletes the counter and calls `Release`; the last `Release` deletes the object, whose members are destroyed, the last
declared one first.  Simplifications as in the model of `Ptr`: the memory of an object counts as gone when its destructor
begins, and its members are kept in the list. -/
def run (w : World) : List Task → Option World
  | [] => some w
  | .dec s :: k =>
    match s.counter with
    | none => run w k
    | some c =>
      match _h : w.heap[c]?.join with
      | some (.counter n) =>
        if n - 1 = 0 then
          match s.ref with
          | none => none
          | some o => run { w with heap := w.heap.set c none } (.release o :: k)
        else run { w with heap := w.heap.set c (some (.counter (n - 1))) } k
      | _ => none
  | .release o :: k =>
    match _h : w.heap[o]?.join with
    | some (.object n ms) =>
      if n - 1 = 0 then run { w with heap := w.heap.set o none } (ms.reverse.map .dec ++ k)
      else run { w with heap := w.heap.set o (some (.object (n - 1) ms)) } k
    | _ => none
  termination_by k => (w.heap.countP (·.isSome), k.length)
  decreasing_by
    · exact Prod.Lex.right _ (by simp)
    · exact Prod.Lex.left _ _ (alive_set_lt _h)
    · rw [Prod.lex_def]; right; exact ⟨alive_set_le _h, by simp⟩
    · exact Prod.Lex.left _ _ (alive_set_lt _h)
    · rw [Prod.lex_def]; right; exact ⟨alive_set_le _h, by simp⟩

/-- Pointer.h 334-340 -/
def inc (w : World) (s : Slot) : Option World :=
  match s.counter with
  | none => some w
  | some c =>
    match w.heap[c]?.join with
    | some (.counter n) => some { w with heap := w.heap.set c (some (.counter (n + 1))) }
    | _ => none

/-- Pointer.h 342-353 on the pointer at `l` -/
def dec (w : World) (l : Loc) : Option World :=
  match w.read l with
  | none => none
  | some s =>
    match s.counter with
    | none => some w
    | some c =>
      match w.heap[c]?.join with
      | some (.counter n) =>
        if n - 1 = 0 then
          match run w [.dec s] with
          | none => none
          | some w' => w'.store l {}
        else some { w with heap := w.heap.set c (some (.counter (n - 1))) }
      | _ => none

/-- What a program does.  Constructors make a new variable. -/
inductive Op where
  /-- a new COM object; the program has the only reference -/
  | create (members : Nat)
  /-- `AddRef` for a further plain pointer -/
  | addRef (i : Nat)
  /-- `Release` -/
  | release (i : Nat)
  | newEmpty
  /-- `ComPtr(T*)`: the `ComPtr` takes over the reference of variable `i` -/
  | ofRaw (i : Nat)
  | copyCtor (m : Loc)
  | moveCtor (m : Loc)
  | destroy (i : Nat)
  | assignNull (l : Loc)
  /-- `l` takes over the reference of variable `i` -/
  | assignRaw (l : Loc) (i : Nat)
  | assignCopy (l m : Loc)
  | assignMove (l m : Loc)
  deriving DecidableEq, Repr

def step (w : World) : Op → Option World
  | .create k => some { heap := w.heap ++ [some (.object 1 (List.replicate k {}))], vars := w.vars ++ [some (.raw w.heap.length)] }
  | .addRef i =>
    match w.raw i with
    | none => none
    | some o =>
      match w.heap[o]?.join with
      | some (.object n ms) => some { heap := w.heap.set o (some (.object (n + 1) ms)), vars := w.vars ++ [some (.raw o)] }
      | _ => none
  | .release i =>
    match w.raw i with
    | none => none
    | some o => (run w [.release o]).map fun w => { w with vars := w.vars.set i none }
  /- Pointer.h 368-369, 378-381 -/
  | .newEmpty => some { w with vars := w.vars ++ [some (.com {})] }
  /- Pointer.h 371-377 -/
  | .ofRaw i =>
    match w.raw i with
    | none => none
    | some o => some { heap := w.heap ++ [some (.counter 1)], vars := w.vars.set i none ++ [some (.com ⟨some w.heap.length, some o⟩)] }
  /- Pointer.h 384-389 -/
  | .copyCtor m =>
    match w.read m with
    | none => none
    | some s => inc { w with vars := w.vars ++ [some (.com s)] } s
  /- Pointer.h 391-396 -/
  | .moveCtor m =>
    match w.read m with
    | none => none
    | some s => ({ w with vars := w.vars ++ [some (.com s)] } : World).store m {}
  /- Pointer.h 398-401 -/
  | .destroy i =>
    match dec w (.root i) with
    | none => none
    | some w => if (w.read (.root i)).isSome then some { w with vars := w.vars.set i none } else none
  /- Pointer.h 403-408; also 412, 419-422 -/
  | .assignNull l =>
    match dec w l with
    | none => none
    | some w => w.store l {}
  /- Pointer.h 410-417 -/
  | .assignRaw l i =>
    match w.raw i with
    | none => none
    | some o =>
      match dec w l with
      | none => none
      | some w =>
        { heap := w.heap ++ [some (.counter 1)], vars := w.vars.set i none : World }.store l ⟨some w.heap.length, some o⟩
  /- Pointer.h 425-435 -/
  | .assignCopy l m =>
    if l = m then (if (w.read l).isSome then some w else none)
    else
      match dec w l with
      | none => none
      | some w =>
        match w.read m with
        | none => none
        | some s =>
          match w.store l s with
          | none => none
          | some w => inc w s
  /- Pointer.h 437-447 -/
  | .assignMove l m =>
    if l = m then (if (w.read l).isSome then some w else none)
    else
      match dec w l with
      | none => none
      | some w =>
        match w.read m with
        | none => none
        | some s =>
          match w.store l s with
          | none => none
          | some w => w.store m {}

/-- a history -/
def history (w : World) : List Op → Option World
  | [] => some w
  | op :: ops => (step w op).bind fun w' => history w' ops

end Com
end Vlpp
