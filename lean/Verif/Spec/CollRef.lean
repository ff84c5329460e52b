/-!
# Specification of collection references

A program with variables of type `Ptr<ICollectionReference>`, collections, and references that are associated to
collections.  `OnDisposed` is code of the program: what it does is a part of the sequence of operations, between `destroy`
and `ret`.  A reference is just a number here; when its object is deleted is said in terms of who refers to it.
-/
set_option autoImplicit false
namespace Vlpp.CollRef

/-- a collection: destroyed, living, or being destroyed (its `OnDisposed` is running) -/
inductive Phase where
  | gone
  | alive (ref : Option Nat)
  | dying (ref : Option Nat)
  deriving DecidableEq, Repr

/-- operations of the program; `T` are the classes of references, `U` the types that are asked for -/
inductive Op (T U : Type) where
  /-- a new variable, `nullptr` -/
  | newVar
  /-- `v = Ptr(new X)` with `X` of class `t` -/
  | newRef (v : Nat) (t : T)
  /-- `v = nullptr` -/
  | drop (v : Nat)
  /-- `v = u` -/
  | copyVar (v u : Nat)
  /-- a new collection -/
  | newColl
  /-- a new collection, made from another one by a copy or move constructor -/
  | copyColl (d : Nat)
  /-- `c = d` or `c = move(d)` -/
  | assignColl (c d : Nat)
  /-- `v = c.GetCollectionReference()` -/
  | get (v c : Nat)
  /-- `v = c.TryGetCollectionReference<u>()` -/
  | tryGet (v c : Nat) (u : U)
  /-- `c.SetCollectionReference(v)` -/
  | set (c v : Nat)
  /-- begin to destroy `c`; if a reference is associated, its `OnDisposed` begins -/
  | destroy (c : Nat)
  /-- the innermost `OnDisposed` returns -/
  | ret

inductive Answer where
  | done
  | error
  deriving DecidableEq, Repr

end Vlpp.CollRef

namespace Vlpp.Spec.CollRef
open Vlpp.CollRef (Phase Op Answer)

structure World (T : Type) where
  vars : List (Option Nat)
  colls : List Phase
  /-- the classes of all references that were made -/
  classes : List T
  /-- the collections whose `OnDisposed` is running, the innermost first -/
  stack : List Nat
  /-- the calls of `OnDisposed` so far: the reference and the collection -/
  disposals : List (Nat × Nat)
  /-- what `SetCollectionReference` has associated so far: the reference and the collection -/
  links : List (Nat × Nat)

variable {T U : Type}

def empty : World T := ⟨[], [], [], [], [], []⟩

/-- what is associated to a collection that is not destroyed -/
def ref (w : World T) (c : Nat) : Option (Option Nat) :=
  match w.colls[c]? with
  | some (.alive q) => some q
  | some (.dying q) => some q
  | _ => none

def put (w : World T) (v : Nat) (p : Option Nat) : World T := { w with vars := w.vars.set v p }

/-- a variable or a collection refers to `r` -/
def Referred (w : World T) (r : Nat) : Prop := some r ∈ w.vars ∨ ∃ c, ref w c = some (some r)

/-- `none`: the operation is an error of the program -/
def step (casts : T → U → Bool) (w : World T) : Op T U → Option (World T × Answer)
  | .newVar => some ({ w with vars := w.vars ++ [none] }, .done)
  | .newRef v t => if v < w.vars.length then some ({ put w v (some w.classes.length) with classes := w.classes ++ [t] }, .done) else none
  | .drop v => if v < w.vars.length then some (put w v none, .done) else none
  | .copyVar v u => if v < w.vars.length then w.vars[u]?.map fun p => (put w v p, .done) else none
  | .newColl => some ({ w with colls := w.colls ++ [.alive none] }, .done)
  | .copyColl d =>
    match w.colls[d]? with
    | some (.alive _) => some ({ w with colls := w.colls ++ [.alive none] }, .done)
    | _ => none
  | .assignColl c d =>
    match w.colls[c]?, w.colls[d]? with
    | some (.alive _), some (.alive _) => some (w, .done)
    | _, _ => none
  | .get v c => if v < w.vars.length then (ref w c).map fun q => (put w v q, .done) else none
  | .tryGet v c u =>
    if v < w.vars.length then
      match ref w c with
      | none => none
      | some none => some (put w v none, .done)
      | some (some r) => w.classes[r]?.map fun t => if casts t u then (put w v (some r), .done) else (w, .error)
    else none
  | .set c v =>
    match w.vars[v]?, w.colls[c]? with
    | some p, some (.alive none) => some ({ w with colls := w.colls.set c (.alive p), links := w.links ++ p.toList.map (·, c) }, .done)
    | some _, some (.alive (some _)) => some (w, .error)
    | some _, some (.dying (some _)) => some (w, .error)
    | _, _ => none
  | .destroy c =>
    match w.colls[c]? with
    | some (.alive none) => some ({ w with colls := w.colls.set c .gone }, .done)
    | some (.alive (some r)) =>
      some ({ w with colls := w.colls.set c (.dying (some r)), stack := c :: w.stack, disposals := w.disposals ++ [(r, c)] }, .done)
    | _ => none
  | .ret =>
    match w.stack with
    | [] => none
    | c :: stack => some ({ w with colls := w.colls.set c .gone, stack := stack }, .done)

def run (casts : T → U → Bool) (w : World T) : List (Op T U) → Option (World T × List Answer)
  | [] => some (w, [])
  | op :: ops =>
    match step casts w op with
    | none => none
    | some (w, a) => (run casts w ops).map fun r => (r.1, a :: r.2)

end Vlpp.Spec.CollRef
