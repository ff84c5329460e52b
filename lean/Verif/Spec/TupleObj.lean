/-!
# Specification: tuples and pairs as objects

What a program may expect of `Tuple<T1, ..., Tn>` where each `Ti` is a type of values or a type of references.  An element
that is a value is an object of its own.  An element that is a reference is the object the program gave for it.
Making a tuple from another one, or assigning another one to it, treats all elements at the same time: values are what the
elements of the other tuple were, references denote the objects that are the elements of the other tuple.  Moving from a
tuple may change the values in it, and nothing else.
-/
set_option autoImplicit false
namespace Vlpp.Spec.Tup

/-- Expressions for objects: a variable, or `t.get<i>()`. -/
inductive Expr where
  | var (x : Nat)
  | get (t i : Nat)
  deriving DecidableEq

/-- Arguments of the constructor: `e`, `std::move(e)` or a temporary object. -/
inductive Arg (α : Type) where
  | lvalue (e : Expr)
  | moved (e : Expr)
  | temp (v : α)

/-- `T`, `T&` or `const T&`. -/
inductive Kind where
  | value
  | ref (isConst : Bool)
  deriving DecidableEq

/-- Statements of a program. -/
inductive Op (α : Type) where
  /-- `T x(v);` -/
  | var (x : Nat) (v : α)
  /-- the variable `x` goes out of scope -/
  | endVar (x : Nat)
  /-- `e = v;` -/
  | assign (e : Expr) (v : α)
  /-- the value of `e` -/
  | read (e : Expr)
  /-- `&e1 == &e2` -/
  | same (e1 e2 : Expr)
  /-- `Tuple<ks...> t(args...);` -/
  | make (t : Nat) (ks : List Kind) (args : List (Arg α))
  /-- `Tuple<ks...> t(s);` or `Tuple<ks...> t(std::move(s));` -/
  | makeFrom (t : Nat) (ks : List Kind) (s : Nat) (move : Bool)
  /-- `t = s;` or `t = std::move(s);` -/
  | assignFrom (t s : Nat) (move : Bool)
  /-- the tuple `t` goes out of scope -/
  | drop (t : Nat)

/-- What a statement returns; a value is `none` if it is unspecified. -/
inductive Ret (α : Type) where
  | done
  | value (v : Option α)
  | flag (b : Bool)
  deriving DecidableEq

/-- Objects: variables, elements that are values, temporary objects of the current statement. -/
inductive Loc where
  | var (x : Nat)
  | elem (t i : Nat)
  | temp (k : Nat)
  deriving DecidableEq

/-- An element: a value, or a reference to an object (`none` if this object does not exist any more). -/
inductive Slot where
  | value
  | ref (isConst : Bool) (l : Option Loc)
  deriving DecidableEq

def Slot.kind : Slot → Kind
  | .value => .value
  | .ref c _ => .ref c

/-- The objects that exist with their values. -/
abbrev Values (α : Type) := Loc → Option (Option α)

structure State (α : Type) where
  val : Values α
  slots : Nat → Option (List Slot)

variable {α : Type}

def start : State α := ⟨fun _ => none, fun _ => none⟩

def put (val : Values α) (l : Loc) (v : Option (Option α)) : Values α := fun l' => if l' = l then v else val l'

/-- The object that is element `i` of `t`. -/
def slotLoc (t i : Nat) : Slot → Option Loc
  | .value => some (.elem t i)
  | .ref _ l => l

/-- The object that is element `i` of a tuple `t` with these elements. -/
def elemLoc (t : Nat) (sl : List Slot) (i : Nat) : Option Loc := sl[i]?.bind (slotLoc t i)

def locate (st : State α) : Expr → Option Loc
  | .var x => if (st.val (.var x)).isSome then some (.var x) else none
  | .get t i => (st.slots t).bind fun sl => elemLoc t sl i

/-- References to an object that does not exist any more. -/
def Slot.without (gone : Loc → Bool) : Slot → Slot
  | .value => .value
  | .ref c l => .ref c (l.filter fun l => !gone l)

/-- Objects that cease to exist. -/
def forget (gone : Loc → Bool) (st : State α) : State α :=
  ⟨fun l => if gone l then none else st.val l, fun t => (st.slots t).map (·.map (Slot.without gone))⟩

/-- Evaluation of the arguments from number `k` on: an object for each, and whether it may be moved from. -/
def evalArgs (st : State α) : Nat → List (Arg α) → Option (List (Loc × Bool) × State α)
  | _, [] => some ([], st)
  | k, a :: as =>
    match a with
    | .lvalue e => do
      let l ← locate st e
      let (ls, st') ← evalArgs st (k + 1) as
      some ((l, false) :: ls, st')
    | .moved e => do
      let l ← locate st e
      let (ls, st') ← evalArgs st (k + 1) as
      some ((l, true) :: ls, st')
    | .temp v => do
      let (ls, st') ← evalArgs ⟨put st.val (.temp k) (some (some v)), st.slots⟩ (k + 1) as
      some ((.temp k, true) :: ls, st')

/-- The elements of `t` get their values one after the other, starting with element `i`; `mv` says what is left of an object
that was moved from. -/
def initOneByOne (mv : Option α → Option α) (t : Nat) :
    Nat → List (Kind × Option Loc × Bool) → Values α → Option (Values α)
  | _, [], val => some val
  | i, (.ref _, _) :: rest, val => initOneByOne mv t (i + 1) rest val
  | i, (.value, l, move) :: rest, val => do
    let l ← l
    let v ← val l
    initOneByOne mv t (i + 1) rest
      (put (if move then put val l (some (mv v)) else val) (.elem t i) (some v))

/-- The elements of `t` get the values of those of `s` at the same time. -/
def transfer (mv : Option α → Option α) (t : Nat) (ks : List Kind) (s : Nat) (srcs : List Slot) (move : Bool)
    (val : Values α) : Values α
  | .elem t' i =>
    if t' = t ∧ ks[i]? = some .value then (elemLoc s srcs i).bind val
    else if move = true ∧ t' = s ∧ ks[i]? = some .value ∧ srcs[i]? = some .value then (val (.elem s i)).map mv
    else val (.elem t' i)
  | l => val l

/-- All objects whose values are needed exist. -/
def Readable (ks : List Kind) (s : Nat) (srcs : List Slot) (val : Values α) : Prop :=
  ∀ i < ks.length, ks[i]? = some .value → ((elemLoc s srcs i).bind val).isSome = true

instance (ks : List Kind) (s : Nat) (srcs : List Slot) (val : Values α) : Decidable (Readable ks s srcs val) := by
  unfold Readable; infer_instance

/-- The elements of a tuple made from `s`. -/
def slotsFrom (ks : List Kind) (s : Nat) (srcs : List Slot) : List Slot :=
  ks.mapIdx fun i k =>
    match k with
    | .value => .value
    | .ref c => .ref c (elemLoc s srcs i)

def setSlots (slots : Nat → Option (List Slot)) (t : Nat) (sl : Option (List Slot)) : Nat → Option (List Slot) :=
  fun t' => if t' = t then sl else slots t'

def isTemp : Loc → Bool
  | .temp _ => true
  | _ => false

def isElemOf (t : Nat) : Loc → Bool
  | .elem t' _ => t' == t
  | _ => false

/-- The elements of a tuple made from arguments. -/
def slotsOf : List (Kind × Loc) → List Slot
  | [] => []
  | (.value, _) :: rest => .value :: slotsOf rest
  | (.ref c, l) :: rest => .ref c (some l) :: slotsOf rest

/-- One statement; `none`: the program is wrong (it uses an object that does not exist, or two objects have one name, or it
does not compile). -/
def step (mv : Option α → Option α) (st : State α) : Op α → Option (State α × Ret α)
  | .var x v => if (st.val (.var x)).isSome then none else some (⟨put st.val (.var x) (some (some v)), st.slots⟩, .done)
  | .endVar x => if (st.val (.var x)).isSome then some (forget (· == .var x) st, .done) else none
  | .assign e v => do
    let l ← locate st e
    some (⟨put st.val l (some (some v)), st.slots⟩, .done)
  | .read e => do
    let l ← locate st e
    let v ← st.val l
    some (st, .value v)
  | .same e1 e2 => do
    let l1 ← locate st e1
    let l2 ← locate st e2
    some (st, .flag (l1 = l2))
  | .make t ks args =>
    if st.slots t = none ∧ ks.length = args.length then do
      let (ls, st1) ← evalArgs st 0 args
      let val ← initOneByOne mv t 0 (ks.zip (ls.map fun p => (some p.1, p.2))) st1.val
      some (forget isTemp ⟨val, setSlots st1.slots t (some (slotsOf (ks.zip (ls.map (·.1)))))⟩, .done)
    else none
  | .makeFrom t ks s move => do
    let srcs ← st.slots s
    if st.slots t = none ∧ ks.length = srcs.length ∧ Readable ks s srcs st.val then
      some (⟨transfer mv t ks s srcs move st.val, setSlots st.slots t (some (slotsFrom ks s srcs))⟩, .done)
    else none
  | .assignFrom t s move => do
    let srcs ← st.slots s
    let sl ← st.slots t
    if sl.length = srcs.length ∧ Readable (sl.map Slot.kind) s srcs st.val then
      some (⟨transfer mv t (sl.map Slot.kind) s srcs move st.val,
        setSlots st.slots t (some (slotsFrom (sl.map Slot.kind) s srcs))⟩, .done)
    else none
  | .drop t => do
    let _ ← st.slots t
    let st' := forget (isElemOf t) st
    some (⟨st'.val, setSlots st'.slots t none⟩, .done)

/-- A program and what its statements return. -/
def run (mv : Option α → Option α) (st : State α) : List (Op α) → Option (State α × List (Ret α))
  | [] => some (st, [])
  | op :: ops => do
    let (st', r) ← step mv st op
    let (st'', rs) ← run mv st' ops
    some (st'', r :: rs)

/-- The value of an element that gets its value later is the element `i` of `t` or of `s`, which has got another value by then. -/
def Overtaken (ks : List Kind) (s : Nat) (srcs : List Slot) (l : Nat → Option Loc) : Prop :=
  ∃ i j, i < j ∧ ks[i]? = some .value ∧ ks[j]? = some .value ∧ elemLoc s srcs j = l i ∧ (l i).isSome = true

/-- A value is made by moving from an object a non-const reference denotes. -/
def MovesReferenced (ks : List Kind) (srcs : List Slot) : Prop :=
  ∃ (i : Nat) (l : Option Loc), ks[i]? = some .value ∧ srcs[i]? = some (.ref false l)

/-- The elements of `s` that are values. -/
def ownLoc (s : Nat) (srcs : List Slot) (i : Nat) : Option Loc :=
  if srcs[i]? = some .value then some (.elem s i) else none

/-- Statements that copy or move between tuples whose elements do not interfere with each other. -/
def Plain (st : State α) : Op α → Prop
  | .makeFrom _ ks s move => ∀ srcs, st.slots s = some srcs →
      (move = true → ¬ MovesReferenced ks srcs ∧ ¬ Overtaken ks s srcs (ownLoc s srcs))
  | .assignFrom t s move => ∀ srcs sl, st.slots s = some srcs → st.slots t = some sl →
      ¬ Overtaken (sl.map Slot.kind) s srcs (fun i => some (.elem t i)) ∧
      (move = true → ¬ MovesReferenced (sl.map Slot.kind) srcs ∧ ¬ Overtaken (sl.map Slot.kind) s srcs (ownLoc s srcs))
  | _ => True

/-- All statements of the program are of this kind. -/
def AllPlain (mv : Option α → Option α) (st : State α) : List (Op α) → Prop
  | [] => True
  | op :: ops => Plain st op ∧ ∀ st' r, step mv st op = some (st', r) → AllPlain mv st' ops

end Vlpp.Spec.Tup
