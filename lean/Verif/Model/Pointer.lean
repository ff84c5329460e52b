/-!
# Model of `Ptr<T>`

Source/Primitives/Pointer.h, for the strategy `ReferenceCounterOperator` of lines 32-50 (counter allocated separately).
The heap contains counters and objects, an object being the list of its members of type `Ptr`.  `none` is undefined
behaviour: use of a released counter or of memory of a deleted object.
-/
set_option autoImplicit false
namespace Vlpp
namespace Pointer

/-- Pointer.h 69-79: the fields of a `Ptr`.  `counter` is the number of a counter, `orig` (originalReference) of an object;
`ref` (reference) is the address within the object after casts, as object and subobject.  `originalDestructor` is always
`DeleteReference` of the original type. -/
structure Slot where
  counter : Option Nat := none
  ref : Option (Nat × Nat) := none
  orig : Option Nat := none
  deriving DecidableEq, Repr

/-- Where a `Ptr` is: a variable or a member of an object. -/
inductive Loc where
  | root (i : Nat)
  | field (o j : Nat)
  deriving DecidableEq, Repr

structure World where
  /-- `none`: the counter was deleted -/
  counters : List (Option Int) := []
  /-- `none`: the object was deleted -/
  objs : List (Option (List Slot)) := []
  /-- `none`: the variable is gone -/
  roots : List (Option Slot) := []
  deriving DecidableEq, Repr

/-- the `Ptr` at a location, if the memory is there -/
def World.read (w : World) : Loc → Option Slot
  | .root i => w.roots[i]?.join
  | .field o j => w.objs[o]?.join.bind (·[j]?)

/-- Assignment of the fields of the `Ptr` at a location whose memory is there. -/
def World.write (w : World) (l : Loc) (s : Slot) : World :=
  match l with
  | .root i => { w with roots := w.roots.set i (some s) }
  | .field o j =>
    match w.objs[o]?.join with
    | some fs => { w with objs := w.objs.set o (some (fs.set j s)) }
    | none => w

/-- the same, with the memory checked -/
def World.store (w : World) (l : Loc) (s : Slot) : Option World :=
  if (w.read l).isSome then some (w.write l s) else none

theorem alive_set_lt {cs : List (Option Int)} {c : Nat} {n : Int} (h : cs[c]?.join = some n) :
    (cs.set c none).countP (·.isSome) < cs.countP (·.isSome) := by
  induction cs generalizing c with
  | nil => simp at h
  | cons a cs ih =>
    cases c with
    | zero => simp at h; subst h; simp
    | succ c => simp only [List.getElem?_cons_succ] at h; have := ih h; simp only [List.set_cons_succ, List.countP_cons]; omega

theorem alive_set_le {cs : List (Option Int)} {c : Nat} {n m : Int} (h : cs[c]?.join = some n) :
    (cs.set c (some m)).countP (·.isSome) = cs.countP (·.isSome) := by
  induction cs generalizing c with
  | nil => simp at h
  | cons a cs ih =>
    cases c with
    | zero => simp at h; subst h; simp
    | succ c => simp only [List.getElem?_cons_succ] at h; have := ih h; simp only [List.set_cons_succ, List.countP_cons]; omega

/-- Pointer.h 201-204 `~Ptr`, i.e. 97-110 `Dec()` and 45-49 `DeleteReference`, for a list of pointers one after another:
when the last reference is gone, counter and object are deleted; deleting an object destroys its members, the last
declared one first.  Simplifications: user-written destructors do nothing else; the memory of an object counts as gone
when its destructor begins, and its members (which the destructor still uses) are kept in the list; therefore the
writes of `SetEmptyNoIncDec` to members that are being destroyed are omitted. -/
def release (w : World) : List Slot → Option World
  | [] => some w
  | s :: k =>
    match s.counter with
    | none => release w k
    | some c =>
      match _h : w.counters[c]?.join with
      | none => none
      | some n =>
        if n - 1 = 0 then
          match s.orig with
          | none => release { w with counters := w.counters.set c none } k
          | some o =>
            match w.objs[o]?.join with
            | none => none
            | some fs => release { w with counters := w.counters.set c none, objs := w.objs.set o none } (fs.reverse ++ k)
        else release { w with counters := w.counters.set c (some (n - 1)) } k
  termination_by k => (w.counters.countP (·.isSome), k.length)
  decreasing_by
    · exact Prod.Lex.right _ (by simp)
    · exact Prod.Lex.left _ _ (alive_set_lt _h)
    · exact Prod.Lex.left _ _ (alive_set_lt _h)
    · rw [Prod.lex_def]; right; exact ⟨alive_set_le _h, by simp⟩

/-- Pointer.h 89-95 -/
def inc (w : World) (s : Slot) : Option World :=
  match s.counter with
  | none => some w
  | some c =>
    match w.counters[c]?.join with
    | none => none
    | some n => some { w with counters := w.counters.set c (some (n + 1)) }

/-- Pointer.h 97-110 on the pointer at `l` -/
def dec (w : World) (l : Loc) (deleteIfZero : Bool := true) : Option World :=
  match w.read l with
  | none => none
  | some s =>
    match s.counter with
    | none => some w
    | some c =>
      match w.counters[c]?.join with
      | none => none
      | some n =>
        if n - 1 = 0 then
          match if deleteIfZero then release w [s] else some { w with counters := w.counters.set c (some (n - 1)) } with
          | none => none
          | some w' => w'.store l {}
        else some { w with counters := w.counters.set c (some (n - 1)) }

/-- What a program does with pointers.  Constructors make a new variable. -/
inductive Op where
  | newEmpty
  | newObject (members : Nat)
  | copyCtor (m : Loc)
  | moveCtor (m : Loc)
  /-- `castTo`: subobject that `dynamic_cast` finds, if any -/
  | castCtor (m : Loc) (castTo : Option Nat)
  | destroy (i : Nat)
  | assignNull (l : Loc)
  | assignCopy (l m : Loc)
  | assignMove (l m : Loc)
  deriving DecidableEq, Repr

def step (w : World) : Op → Option World
  /- Pointer.h 128-131 -/
  | .newEmpty => some { w with roots := w.roots ++ [some {}] }
  /- Pointer.h 135-145 with a new object whose members are empty -/
  | .newObject k =>
    let o := w.objs.length
    let c := w.counters.length
    let s : Slot := ⟨some c, some (o, 0), some o⟩
    let w := { w with counters := w.counters ++ [some 0], objs := w.objs ++ [some (List.replicate k {})],
                      roots := w.roots ++ [some s] }
    inc w s
  /- Pointer.h 149-156; also 172-183 (a pointer whose reference is null has no counter) -/
  | .copyCtor m =>
    match w.read m with
    | none => none
    | some s => inc { w with roots := w.roots ++ [some s] } s
  /- Pointer.h 160-167; also 188-199 -/
  | .moveCtor m =>
    match w.read m with
    | none => none
    | some s => { w with roots := w.roots ++ [some s] }.store m {}
  /- Pointer.h 221-226, 117-124 -/
  | .castCtor m castTo =>
    match w.read m with
    | none => none
    | some s =>
      let converted := s.ref.bind fun (o, _) => castTo.map fun t => (o, t)
      let s' : Slot := ⟨if converted.isSome then s.counter else none, converted, s.orig⟩
      inc { w with roots := w.roots ++ [some s'] } s'
  /- Pointer.h 201-204 -/
  | .destroy i =>
    match dec w (.root i) with
    | none => none
    | some w => if (w.read (.root i)).isSome then some { w with roots := w.roots.set i none } else none
  /- Pointer.h 231-236 -/
  | .assignNull l =>
    match dec w l with
    | none => none
    | some w => w.store l {}
  /- Pointer.h 241-253 -/
  | .assignCopy l m =>
    if l = m then (if (w.read l).isSome then some w else none)
    else
      match dec w l with
      | none => none
      | some w =>
        match w.read m with
        | none => none
        | some s =>
          match w.store l s with
          | none => none
          | some w => inc w s
  /- Pointer.h 258-270 -/
  | .assignMove l m =>
    if l = m then (if (w.read l).isSome then some w else none)
    else
      match dec w l with
      | none => none
      | some w =>
        match w.read m with
        | none => none
        | some s =>
          match w.store l s with
          | none => none
          | some w => w.store m {}

/-- Pointer.h 211-216: the returned reference is that before. -/
def detach (w : World) (l : Loc) : Option (Option (Nat × Nat) × World) :=
  match w.read l with
  | none => none
  | some s => (dec w l false).map fun w => (s.ref, w)

end Pointer
end Vlpp
