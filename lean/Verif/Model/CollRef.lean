import Verif.Spec.CollRef

/-!
# Model of `EnumerableBase` and its collection reference

Source/Collections/Interfaces.h 19-25, 125-185 and Source/Primitives/Pointer.h 66-275 for the reference counter: every `Ptr`,
also a temporary one, an argument and a local variable, increases and decreases the counter, and the object is deleted when
the counter becomes 0.  Simplifications: the destructors of references do nothing; `OnDisposed` does not throw (it is called
by a destructor); `OnDisposed` is any sequence of operations (Spec/CollRef.lean).
-/
set_option autoImplicit false
namespace Vlpp.CollRef
variable {T U : Type}

/-- An object that implements `ICollectionReference`: its class, and its counter unless it is deleted. -/
structure World (T : Type) where
  vars : List (Option Nat)
  colls : List Phase
  refs : List (T × Option Nat)
  stack : List Nat
  disposals : List (Nat × Nat)
  links : List (Nat × Nat)
  deletions : List Nat

def empty : World T := ⟨[], [], [], [], [], [], []⟩

/-- Pointer.h 89-95 `Inc`; the counter of a deleted object is undefined. -/
def inc (p : Option Nat) (w : World T) : Option (World T) :=
  match p with
  | none => some w
  | some r =>
    match w.refs[r]? with
    | some (t, some n) => some { w with refs := w.refs.set r (t, some (n + 1)) }
    | _ => none

/-- Pointer.h 97-112 `Dec`, 201-204 `~Ptr`. -/
def dec (p : Option Nat) (w : World T) : Option (World T) :=
  match p with
  | none => some w
  | some r =>
    match w.refs[r]? with
    | some (t, some n) =>
      if n - 1 = 0 then some { w with refs := w.refs.set r (t, none), deletions := w.deletions ++ [r] }
      else some { w with refs := w.refs.set r (t, some (n - 1)) }
    | _ => none

/-- Pointer.h 231-236, 258-271: `v = nullptr`, `v = move(temp)`; the temporary has `p`. -/
def moveTo (v : Nat) (p : Option Nat) (w : World T) : Option (World T) :=
  match w.vars[v]? with
  | none => none
  | some old => (dec old w).map fun w => { w with vars := w.vars.set v p }

/-- Interfaces.h 157, 169-172: `colref` of a collection whose `EnumerableBase` is not destroyed yet. -/
def colref (w : World T) (c : Nat) : Option (Option Nat) :=
  match w.colls[c]? with
  | some (.alive q) => some q
  | some (.dying q) => some q
  | _ => none

/-- Interfaces.h 141-149 `TryGetCollectionReference<U>`, then `v = ` its result. -/
def tryGet (casts : T → U → Bool) (w : World T) (v c : Nat) (u : U) : Option (World T × Answer) :=
  match colref w c with
  | none => none
  | some none => (moveTo v none w).map fun w => (w, .done)
  | some (some r) => do
    let w ← inc (some r) w
    match w.refs[r]? with
    | some (t, some _) =>
      if casts t u then
        let w ← inc (some r) w
        let w ← dec (some r) w
        let w ← moveTo v (some r) w
        return (w, .done)
      else
        let w ← dec (some r) w
        return (w, .error)
    | _ => none

/-- Interfaces.h 174-179 `SetCollectionReference`; the argument is a copy. -/
def set (w : World T) (c v : Nat) : Option (World T × Answer) :=
  match w.vars[v]? with
  | none => none
  | some p =>
    match inc p w with
    | none => none
    | some w =>
      match w.colls[c]? with
      | some (.alive none) => do
        let w ← inc p { w with colls := w.colls.set c (.alive p), links := w.links ++ p.toList.map (·, c) }
        let w ← dec p w
        return (w, .done)
      | some (.alive (some _)) => (dec p w).map fun w => (w, .error)
      | some (.dying (some _)) => (dec p w).map fun w => (w, .error)
      | _ => none

/-- Interfaces.h 160-163 `~EnumerableBase` until `OnDisposed` is called, which needs the object; without a reference there is
nothing to do. -/
def destroy (w : World T) (c : Nat) : Option (World T × Answer) :=
  match w.colls[c]? with
  | some (.alive none) => some ({ w with colls := w.colls.set c .gone }, .done)
  | some (.alive (some r)) =>
    match w.refs[r]? with
    | some (_, some _) =>
      some ({ w with colls := w.colls.set c (.dying (some r)), stack := c :: w.stack, disposals := w.disposals ++ [(r, c)] }, .done)
    | _ => none
  | _ => none

/-- Interfaces.h 160-163 after `OnDisposed`: `colref` is destroyed. -/
def ret (w : World T) : Option (World T × Answer) :=
  match w.stack with
  | [] => none
  | c :: stack =>
    match w.colls[c]? with
    | some (.dying q) => (dec q { w with colls := w.colls.set c .gone, stack := stack }).map fun w => (w, .done)
    | _ => none

/-- One operation; `none` is undefined behaviour.  Copying, moving (List.h 349-355, 477-486, Dictionary.h 126-130,
Operation.h 267-279) and assigning collections (List.h 358-370, 488-502) neither read nor write `colref`; `Interface` is not copyable (Basic.h 294-297), so no collection has an implicit copy
constructor.  `copyVar`: Pointer.h 241-253. -/
def step (casts : T → U → Bool) (w : World T) : Op T U → Option (World T × Answer)
  | .newVar => some ({ w with vars := w.vars ++ [none] }, .done)
  | .newRef v t => do
    let r := w.refs.length
    let w ← inc (some r) { w with refs := w.refs ++ [(t, some 0)] }
    let w ← moveTo v (some r) w
    return (w, .done)
  | .drop v => (moveTo v none w).map fun w => (w, .done)
  | .copyVar v u =>
    if v = u then
      if v < w.vars.length then some (w, .done) else none
    else
      match w.vars[v]?, w.vars[u]? with
      | some old, some p => do
        let w ← dec old w
        let w ← inc p { w with vars := w.vars.set v p }
        return (w, .done)
      | _, _ => none
  | .newColl => some ({ w with colls := w.colls ++ [.alive none] }, .done)
  | .copyColl d =>
    match w.colls[d]? with
    | some (.alive _) => some ({ w with colls := w.colls ++ [.alive none] }, .done)
    | _ => none
  | .assignColl c d =>
    match w.colls[c]?, w.colls[d]? with
    | some (.alive _), some (.alive _) => some (w, .done)
    | _, _ => none
  | .get v c =>
    match colref w c with
    | none => none
    | some q => do
      let w ← inc q w
      let w ← moveTo v q w
      return (w, .done)
  | .tryGet v c u => if v < w.vars.length then tryGet casts w v c u else none
  | .set c v => set w c v
  | .destroy c => destroy w c
  | .ret => ret w

/-- Operations one after the other (Interfaces.h 125-185). -/
def run (casts : T → U → Bool) (w : World T) : List (Op T U) → Option (World T × List Answer)
  | [] => some (w, [])
  | op :: ops =>
    match step casts w op with
    | none => none
    | some (w, a) => (run casts w ops).map fun r => (r.1, a :: r.2)

end Vlpp.CollRef
