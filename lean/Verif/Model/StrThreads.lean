/-!
# Model of strings used by several threads

Source/Strings/String.h 26-31 (the fields of `ObjectString`), 84-140, 144-192, 288-343, 364-367, 392-396, 462-502 and
Source/Basic.h 133-136 (`INCRC`/`DECRC` are single atomic operations, sequentially consistent).

String variables are numbered.  A variable belongs to one thread, or is a `const` string that every thread may read.  The
characters of managed strings are in blocks with a reference counter.  A step of a thread reads the fields of one string,
changes one counter, deletes one thing, reads one character, or changes variables of that thread only (changes of the
thread's own variables and of memory that no other thread can know are merged into the step before or after).  Any thread
may make the next step at any time.

Characters are numbers, `vint` values that are sizes are `Nat`, and arithmetic on them does not overflow.
-/
set_option autoImplicit false
namespace Vlpp
namespace StrThreads

/-- What a thread does.  `v` is a variable of the thread that does not exist before (`make` to `remove`) or exists
(`assign` to `destroy`); `w`, `a`, `b` are existing variables the thread may read.  An operation on other variables is
skipped. -/
inductive Op where
  /-- `ObjectString v(buffer)`, String.h 183-192; the memory behind `buffer` contains `cs`, then a zero -/
  | make (v : Nat) (cs : List Nat)
  /-- `v = ObjectString::Unmanaged(buffer)`, String.h 250-258 -/
  | unmanaged (v : Nat) (cs : List Nat)
  /-- `ObjectString v(w)`, String.h 149-157 -/
  | copy (v w : Nat)
  /-- `ObjectString v(std::move(w))`, String.h 161-174; `w` is a variable of the thread -/
  | move (v w : Nat)
  /-- `ObjectString v(w.Sub(index, count))`, String.h 462-467 -/
  | sub (v w : Nat) (index count : Int)
  /-- `ObjectString v(a + b)`, String.h 364-367 -/
  | concat (v a b : Nat)
  /-- `ObjectString v(a.Insert(index, b))`, String.h 498-502 -/
  | insert (v a : Nat) (index : Int) (b : Nat)
  /-- `ObjectString v(a.Remove(index, count))`, String.h 480-485 -/
  | remove (v a : Nat) (index count : Int)
  /-- `v = w`, String.h 307-320 -/
  | assign (v w : Nat)
  /-- `v = std::move(w)`, String.h 325-343; `w` is a variable of the thread -/
  | moveAssign (v w : Nat)
  /-- the destructor of `v`, String.h 176-179 -/
  | destroy (v : Nat)
  /-- `w[index]`, String.h 392-396 -/
  | at (w : Nat) (index : Int)
  /-- `w.Length()`, String.h 400-403 -/
  | length (w : Nat)
  /-- `a <=> b`, String.h 41-55 -/
  | compare (a b : Nat)
  /-- `w.Buffer()`, String.h 288-302, and reading the text from there, with the zero behind it -/
  | buffer (w : Nat)
  deriving DecidableEq, Repr

/-- What a thread can observe. -/
inductive Obs where
  | text (cs : List Nat)
  | number (n : Nat)
  | order (o : Ordering)
  | error
  deriving DecidableEq, Repr

/-- Where `buffer` points to: memory that is never deleted and contains `cs`, then a zero (unmanaged strings and the
default `&zero`, String.h 25-27; `counter` is null), or a block. -/
inductive Mem where
  | lit (cs : List Nat)
  | blk (b : Nat)
  deriving DecidableEq, Repr

/-- String.h 27-31 -/
structure Fields where
  mem : Mem
  start : Nat
  length : Nat
  real : Nat
  deriving DecidableEq, Repr

/-- String.h 27-31, the initial values -/
def Fields.empty : Fields := ⟨.lit [], 0, 0, 0⟩

/-- `new T[…]` with its characters and `new atomic_vint(1)`; they are deleted separately. -/
structure Block where
  chars : List Nat
  counter : Int := 1
  hasChars : Bool := true
  hasCounter : Bool := true
  deriving DecidableEq, Repr

/-- A variable: it does not exist, or its fields are not valid (between `Dec()` and the new values), or its fields. -/
inductive Slot where
  | dead
  | stale
  | live (f : Fields)
  deriving DecidableEq, Repr

/-- The address of a character. -/
abbrev Loc := Mem × Nat

/-- What happens after `Dec()`. -/
inductive Next where
  /-- nothing: the destructor, String.h 176-179 -/
  | stop
  /-- the fields of `w` are copied to `v`, then `Inc()`: String.h 312-317 -/
  | fetch (w v : Nat)
  /-- the fields of `w` are moved to `v`: String.h 330-340 -/
  | take (w v : Nat)
  /-- `w` gets the new buffer: String.h 296-299 -/
  | put (w : Nat) (cs : List Nat)
  deriving DecidableEq, Repr

/-- What copied characters are for. -/
inductive Use where
  /-- a new string `v`: String.h 122-132, 183-192 -/
  | make (v : Nat)
  /-- the new buffer of `w`: String.h 291-299 -/
  | rebuffer (w : Nat)
  /-- the thread looks at them -/
  | observe
  deriving DecidableEq, Repr

/-- Where a thread is. -/
inductive Phase where
  | idle
  /-- the fields are read and copied to `v`, before `Inc()` -/
  | copying (f : Fields) (v : Nat)
  /-- characters are copied one by one -/
  | gather (todo : List Loc) (acc : List Nat) (k : Use)
  /-- the loop of `operator<=>`, String.h 48-52, with the result if no difference is found -/
  | comparing (todo : List (Loc × Loc)) (o : Ordering)
  /-- in `Dec()` before `delete[] buffer`, String.h 98 -/
  | deleteBuffer (b : Nat) (k : Next)
  /-- in `Dec()` before `delete counter`, String.h 99 -/
  | deleteCounter (b : Nat) (k : Next)
  /-- after `Dec()` -/
  | next (k : Next)
  deriving DecidableEq, Repr

structure Thread where
  prog : List Op
  phase : Phase := .idle
  obs : List Obs := []
  deriving DecidableEq, Repr

structure State where
  blocks : List Block
  vars : List Slot
  threads : List Thread
  deriving DecidableEq, Repr

/-- Who owns a variable: a thread, or nobody if it is a shared constant. -/
abbrev Owner := Nat → Option Nat

def State.slot (s : State) (v : Nat) : Slot := (s.vars[v]?).getD .dead
def State.setVar (s : State) (v : Nat) (x : Slot) : State := { s with vars := s.vars.set v x }
def State.setThread (s : State) (t : Nat) (th : Thread) : State := { s with threads := s.threads.set t th }

/-- What thread `t` finds in variable `w`, `dead` if it may not use it. -/
def State.look (own : Owner) (t : Nat) (s : State) (w : Nat) : Slot :=
  if own w = some t ∨ own w = none then s.slot w else .dead

/-- A new block and the fields of a string that is all of it: String.h 122-127, 186-191, 292-299. -/
def State.alloc (s : State) (cs : List Nat) : State := { s with blocks := s.blocks ++ [{ chars := cs ++ [0] }] }
def State.allocFields (s : State) (cs : List Nat) : Fields := ⟨.blk s.blocks.length, 0, cs.length, cs.length⟩

/-- One character in memory; `none` is undefined behaviour. -/
def State.peek (s : State) : Loc → Option Nat
  | (.lit cs, p) => (cs ++ [0])[p]?
  | (.blk b, p) =>
    match s.blocks[b]? with
    | none => none
    | some k => if k.hasChars then k.chars[p]? else none

/-- `Inc()`, String.h 84-90 -/
def State.inc (s : State) (f : Fields) : Option State :=
  match f.mem with
  | .lit _ => some s
  | .blk b =>
    match s.blocks[b]? with
    | none => none
    | some k =>
      if k.hasCounter then some { s with blocks := s.blocks.set b { k with counter := k.counter + 1 } } else none

/-- `DECRC(counter)` in `Dec()`, String.h 92-102, with the block that has to be deleted. -/
def State.dec (s : State) (f : Fields) : Option (State × Option Nat) :=
  match f.mem with
  | .lit _ => some (s, none)
  | .blk b =>
    match s.blocks[b]? with
    | none => none
    | some k =>
      if k.hasCounter then
        some ({ s with blocks := s.blocks.set b { k with counter := k.counter - 1 } },
              if k.counter - 1 = 0 then some b else none)
      else none

/-- The phase after `Dec()` is done. -/
def Next.phase : Next → Phase
  | .stop => .idle
  | k => .next k

/-- `Dec()` on variable `v` up to the atomic operation; `then_` is what the variable is afterwards. -/
def decVar (s : State) (t : Nat) (th : Thread) (v : Nat) (then_ : Slot) (k : Next) : Option State :=
  match s.slot v with
  | .live f =>
    match s.dec f with
    | none => none
    | some (s', d) =>
      some ((s'.setVar v then_).setThread t { th with phase :=
        match d with
        | some b => .deleteBuffer b k
        | none => k.phase })
  | _ => none

/-- `buffer + start + i`, …, `buffer + start + j - 1` -/
def Fields.locs (f : Fields) (i j : Nat) : List Loc := (List.range' i (j - i)).map fun p => (f.mem, f.start + p)

/-- `ReplaceUnsafe(source, index, count)`, String.h 117-133; the result is the new variable `v`. -/
def replaceUnsafe (f g : Fields) (index count : Int) (v : Nat) : Phase :=
  if g.length = 0 ∧ count = 0 then .copying f v
  else if index = 0 ∧ count = f.length then .copying g v
  else .gather (f.locs 0 index.toNat ++ g.locs 0 g.length ++ f.locs (index + count).toNat f.length) [] (.make v)

/-- The operation ends with an `Error`. -/
def Thread.fail (th : Thread) : Thread := { th with obs := th.obs ++ [.error] }

/-- The addresses of the characters that `operator<=>` compares, String.h 43-52; no loop if both strings start at the same
address.  (Memory of unmanaged strings is compared by its contents instead of its address, with the same results.) -/
def comparePairs (f g : Fields) : List (Loc × Loc) :=
  if f.mem = g.mem ∧ f.start = g.start then []
  else (f.locs 0 (min f.length g.length)).zip (g.locs 0 (min f.length g.length))

/-- The first step of an operation; `none` is undefined behaviour.  `th` is the thread without the operation. -/
def begin (own : Owner) (s : State) (t : Nat) (th : Thread) : Op → Option State
  | .make v cs =>
    if own v = some t ∧ s.slot v = .dead then
      let cs := cs.takeWhile (· ≠ 0)
      some (((s.alloc cs).setVar v (.live (s.allocFields cs))).setThread t th)
    else some (s.setThread t th)
  | .unmanaged v cs =>
    if own v = some t ∧ s.slot v = .dead then
      let cs := cs.takeWhile (· ≠ 0)
      some ((s.setVar v (.live ⟨.lit cs, 0, cs.length, cs.length⟩)).setThread t th)
    else some (s.setThread t th)
  | .copy v w =>
    if own v = some t ∧ s.slot v = .dead then
      match s.look own t w with
      | .dead => some (s.setThread t th)
      | .stale => none
      | .live f => some (s.setThread t { th with phase := .copying f v })
    else some (s.setThread t th)
  | .move v w =>
    if own v = some t ∧ s.slot v = .dead ∧ own w = some t then
      match s.look own t w with
      | .dead => some (s.setThread t th)
      | .stale => none
      | .live f => some (((s.setVar v (.live f)).setVar w (.live .empty)).setThread t th)
    else some (s.setThread t th)
  | .sub v w index count =>
    if own v = some t ∧ s.slot v = .dead then
      match s.look own t w with
      | .dead => some (s.setThread t th)
      | .stale => none
      | .live f =>
        if ¬ (0 ≤ index ∧ index ≤ f.length) ∨ ¬ (0 ≤ index + count ∧ index + count ≤ f.length) then
          some (s.setThread t th.fail)
        else if count ≤ 0 then some ((s.setVar v (.live .empty)).setThread t th)
        else some (s.setThread t { th with phase := .copying ⟨f.mem, f.start + index.toNat, count.toNat, f.real⟩ v })
    else some (s.setThread t th)
  | .concat v a b =>
    if own v = some t ∧ s.slot v = .dead then
      match s.look own t a, s.look own t b with
      | .dead, _ | _, .dead => some (s.setThread t th)
      | .live f, .live g => some (s.setThread t { th with phase := replaceUnsafe f g f.length 0 v })
      | _, _ => none
    else some (s.setThread t th)
  | .insert v a index b =>
    if own v = some t ∧ s.slot v = .dead then
      match s.look own t a, s.look own t b with
      | .dead, _ | _, .dead => some (s.setThread t th)
      | .live f, .live g =>
        if ¬ (0 ≤ index ∧ index ≤ f.length) then some (s.setThread t th.fail)
        else some (s.setThread t { th with phase := replaceUnsafe f g index 0 v })
      | _, _ => none
    else some (s.setThread t th)
  | .remove v a index count =>
    if own v = some t ∧ s.slot v = .dead then
      match s.look own t a with
      | .dead => some (s.setThread t th)
      | .stale => none
      | .live f =>
        if ¬ (0 ≤ index ∧ index < f.length) ∨ ¬ (0 ≤ index + count ∧ index + count ≤ f.length) then
          some (s.setThread t th.fail)
        else some (s.setThread t { th with phase := replaceUnsafe f .empty index count v })
    else some (s.setThread t th)
  | .assign v w =>
    if own v = some t ∧ s.slot v ≠ .dead ∧ s.look own t w ≠ .dead ∧ v ≠ w then decVar s t th v .stale (.fetch w v)
    else some (s.setThread t th)
  | .moveAssign v w =>
    if own v = some t ∧ s.slot v ≠ .dead ∧ own w = some t ∧ s.look own t w ≠ .dead ∧ v ≠ w then
      decVar s t th v .stale (.take w v)
    else some (s.setThread t th)
  | .destroy v =>
    if own v = some t ∧ s.slot v ≠ .dead then decVar s t th v .dead .stop
    else some (s.setThread t th)
  | .at w index =>
    match s.look own t w with
    | .dead => some (s.setThread t th)
    | .stale => none
    | .live f =>
      if ¬ (0 ≤ index ∧ index < f.length) then some (s.setThread t th.fail)
      else some (s.setThread t { th with phase := .gather [(f.mem, f.start + index.toNat)] [] .observe })
  | .length w =>
    match s.look own t w with
    | .dead => some (s.setThread t th)
    | .stale => none
    | .live f => some (s.setThread t { th with obs := th.obs ++ [.number f.length] })
  | .compare a b =>
    match s.look own t a, s.look own t b with
    | .dead, _ | _, .dead => some (s.setThread t th)
    | .live f, .live g =>
      some (s.setThread t { th with phase := .comparing (comparePairs f g) (Ord.compare f.length g.length) })
    | _, _ => none
  | .buffer w =>
    match s.look own t w with
    | .dead => some (s.setThread t th)
    | .stale => none
    | .live f =>
      if f.start + f.length ≠ f.real then
        some (s.setThread t { th with phase := .gather (f.locs 0 f.length) [] (.rebuffer w) })
      else some (s.setThread t { th with phase := .gather (f.locs 0 (f.length + 1)) [] .observe })

/-- A step after `Dec()`. -/
def continue_ (s : State) (t : Nat) (th : Thread) : Next → Option State
  | .stop => some (s.setThread t { th with phase := .idle })
  | .fetch w v =>
    match s.slot w with
    | .live f => some (s.setThread t { th with phase := .copying f v })
    | _ => none
  | .take w v =>
    match s.slot w with
    | .live f => some (((s.setVar v (.live f)).setVar w (.live .empty)).setThread t { th with phase := .idle })
    | _ => none
  | .put w cs =>
    let f := s.allocFields cs
    some (((s.alloc cs).setVar w (.live f)).setThread t { th with phase := .gather (f.locs 0 (f.length + 1)) [] .observe })

/-- The next step of thread `t`; `none` is undefined behaviour (use of something deleted or of fields that are not valid). -/
def step (own : Owner) (s : State) (t : Nat) : Option State :=
  match s.threads[t]? with
  | none => some s
  | some th =>
    match th.phase with
    | .idle =>
      match th.prog with
      | [] => some s
      | op :: prog => begin own s t { th with prog := prog } op
    | .copying f v =>
      match s.inc f with
      | none => none
      | some s' => some ((s'.setVar v (.live f)).setThread t { th with phase := .idle })
    | .gather (l :: todo) acc k =>
      match s.peek l with
      | none => none
      | some c => some (s.setThread t { th with phase := .gather todo (acc ++ [c]) k })
    | .gather [] acc (.make v) =>
      some (((s.alloc acc).setVar v (.live (s.allocFields acc))).setThread t { th with phase := .idle })
    | .gather [] acc (.rebuffer w) => decVar s t th w .stale (.put w acc)
    | .gather [] acc .observe => some (s.setThread t { th with phase := .idle, obs := th.obs ++ [.text acc] })
    | .comparing [] o => some (s.setThread t { th with phase := .idle, obs := th.obs ++ [.order o] })
    | .comparing ((l, r) :: todo) o =>
      match s.peek l, s.peek r with
      | some x, some y =>
        if Ord.compare x y ≠ .eq then
          some (s.setThread t { th with phase := .idle, obs := th.obs ++ [.order (Ord.compare x y)] })
        else some (s.setThread t { th with phase := .comparing todo o })
      | _, _ => none
    | .deleteBuffer b k =>
      match s.blocks[b]? with
      | none => none
      | some x =>
        if x.hasChars then
          some ({ s with blocks := s.blocks.set b { x with hasChars := false } }.setThread t { th with phase := .deleteCounter b k })
        else none
    | .deleteCounter b k =>
      match s.blocks[b]? with
      | none => none
      | some x =>
        if x.hasCounter then
          some ({ s with blocks := s.blocks.set b { x with hasCounter := false } }.setThread t { th with phase := k.phase })
        else none
    | .next k => continue_ s t th k

/-- The threads of the list make their next steps. -/
def run (own : Owner) : State → List Nat → Option State
  | s, [] => some s
  | s, t :: ts =>
    match step own s t with
    | none => none
    | some s' => run own s' ts

end StrThreads
end Vlpp
