import Verif.Model.Outcome

/-!
# Model of `ObjectString<T>`

Source/Strings/String.h.  Character buffers made by `new T[]` and reference counters made by `new atomic_vint` live in two
heaps; a released one is `none`, and using or releasing it again is a fault.  String objects have the five data members
of the class.
-/
set_option autoImplicit false
namespace Vlpp
namespace Strings

variable {α : Type}

/-- What `buffer` points to (always to its first cell): the static member `zero` (String.h 25, 507-508), memory that does not
belong to strings, with its content, or a buffer on the heap. -/
inductive BufPtr (α : Type) where
  | zero
  | foreign (id : Nat) (cells : List α)
  | heap (id : Nat)
  deriving DecidableEq

/-- Data members, String.h 27-31. -/
structure Str (α : Type) where
  buffer : BufPtr α := .zero
  counter : Option Nat := none
  start : Int := 0
  length : Int := 0
  realLength : Int := 0

/-- All buffers and all counters ever made by strings, in the order of `new`; `none`: released. -/
structure Heap (α : Type) where
  bufs : List (Option (List α)) := []
  ctrs : List (Option Int) := []

/-- A `const T*`: what it points into and where; `none` is `nullptr`. -/
abbrev CPtr (α : Type) := Option (BufPtr α × Int)

section
variable [Zero α]

/-- The memory behind a pointer: every read through `buffer` in String.h goes through it. -/
def cells : BufPtr α → Cpp (Heap α) (List α)
  | .zero => pure [0]
  | .foreign _ cs => pure cs
  | .heap b => fun h =>
    match h.bufs[b]? with
    | some (some cs) => .ok cs h
    | _ => .fault

/-- Read `n` characters, as `memcpy` (String.h 128-130, 190, 232, 293) and the loops (50, 413) do. -/
def read (p : BufPtr α) (off n : Int) : Cpp (Heap α) (List α) := do
  let cs ← cells p
  if 0 ≤ off ∧ 0 ≤ n ∧ off + n ≤ cs.length then pure ((cs.drop off.toNat).take n.toNat) else Cpp.faulting

/-- `new atomic_vint(1)`, String.h 123, 186, 203, 234, 297 -/
def newCounter : Cpp (Heap α) Nat := fun h => .ok h.ctrs.length { h with ctrs := h.ctrs ++ [some 1] }

/-- `new T[size]`, String.h 127, 189, 231, 292: cells not yet written. -/
def newCells (size : Int) : Cpp (Heap α) (List (Option α)) :=
  if 0 ≤ size then pure (List.replicate size.toNat none) else Cpp.faulting

/-- Write to a new buffer: `memcpy` and the assignments of the zero, String.h 128-131, 190, 232-233, 293-294. -/
def put (d : List (Option α)) (off : Int) (xs : List α) : Cpp (Heap α) (List (Option α)) :=
  if 0 ≤ off ∧ off + xs.length ≤ d.length then
    pure (d.take off.toNat ++ xs.map some ++ d.drop (off.toNat + xs.length))
  else Cpp.faulting

/-- Place a new buffer on the heap; all its cells must have been written.  (The buffer gets its number when it is filled,
not at `new`; nothing else is allocated in between.) -/
def newBuffer (d : List (Option α)) : Cpp (Heap α) (BufPtr α) := fun h =>
  if d.all Option.isSome then .ok (.heap h.bufs.length) { h with bufs := h.bufs ++ [some (d.filterMap id)] } else .fault

/-- String.h 84-90 `Inc` -/
def inc : Option Nat → Cpp (Heap α) Unit
  | none => pure ()
  | some c => fun h =>
    match h.ctrs[c]? with
    | some (some v) => .ok () { h with ctrs := h.ctrs.set c (some (v + 1)) }
    | _ => .fault

/-- String.h 92-102 `Dec` -/
def dec (s : Str α) : Cpp (Heap α) Unit :=
  match s.counter with
  | none => pure ()
  | some c => fun h =>
    match h.ctrs[c]? with
    | some (some v) =>
      if v - 1 = 0 then
        match s.buffer with
        | .heap b =>
          match h.bufs[b]? with
          | some (some _) => .ok () { bufs := h.bufs.set b none, ctrs := h.ctrs.set c none }
          | _ => .fault
        | _ => .fault
      else .ok () { h with ctrs := h.ctrs.set c (some (v - 1)) }
    | _ => .fault

/-- String.h 149-157, the copy constructor -/
def copyCtor (s : Str α) : Cpp (Heap α) (Str α) := do
  inc s.counter
  pure s

/-- String.h 104-115 `SubUnsafe`.  (The result is moved to the caller, which leaves the local variable empty: its
destructor does nothing.) -/
def subUnsafe (s : Str α) (start length : Int) : Cpp (Heap α) (Str α) :=
  if length ≤ 0 then pure {}
  else do
    inc s.counter
    pure { s with start := s.start + start, length := length }

/-- String.h 117-133 `ReplaceUnsafe(const ObjectString<T>&, vint, vint)` -/
def replaceUnsafe (s source : Str α) (index count : Int) : Cpp (Heap α) (Str α) :=
  if source.length = 0 ∧ count = 0 then copyCtor s
  else if index = 0 ∧ count = s.length then copyCtor source
  else do
    let c ← newCounter
    let len := s.length - count + source.length
    let d ← newCells (len + 1)
    let x ← read s.buffer s.start index
    let d ← put d 0 x
    let y ← read source.buffer source.start source.length
    let d ← put d index y
    let z ← read s.buffer (s.start + index + count) (s.length - index - count)
    let d ← put d (index + source.length) z
    let d ← put d len [0]
    let b ← newBuffer d
    pure ⟨b, some c, 0, len, len⟩

variable [DecidableEq α]

/-- String.h 33-38 `CalculateLength` on the memory from the pointer on; `none`: runs out of the memory. -/
def calculateLength : List α → Option Nat
  | [] => none
  | c :: cs => if c ≠ 0 then (calculateLength cs).map (· + 1) else some 0

/-- `CalculateLength` (String.h 33-38) of a pointer that is not null. -/
def lengthAt (p : BufPtr α) (off : Int) : Cpp (Heap α) Int := do
  let cs ← cells p
  if 0 ≤ off then
    match calculateLength (cs.drop off.toNat) with
    | some n => pure (n : Int)
    | none => Cpp.faulting
  else Cpp.faulting

/-- String.h 183-192, the constructor from `const T*` -/
def fromPtr : CPtr α → Cpp (Heap α) (Str α)
  | none => do
    Cpp.check False
    pure {}
  | some (p, off) => do
    let c ← newCounter
    let n ← lengthAt p off
    let d ← newCells (n + 1)
    let x ← read p off (n + 1)
    let d ← put d 0 x
    let b ← newBuffer d
    pure ⟨b, some c, 0, n, n⟩

/-- String.h 250-258 `Unmanaged`.  The class stores the pointer in `buffer`; here `buffer` is the beginning of the memory
and `start` the position in it, `realLength` being shifted by the same distance.  The class uses `buffer` and `start`
only in the sum, and `realLength` only compared with `start + length`. -/
def unmanaged : CPtr α → Cpp (Heap α) (Str α)
  | none => do
    Cpp.check False
    pure {}
  | some (p, off) => do
    let n ← lengthAt p off
    pure ⟨p, none, off, n, off + n⟩

/-- String.h 135-140 `ReplaceUnsafe(const T*, vint, vint)` -/
def replaceUnsafePtr (s : Str α) (source : CPtr α) (index count : Int) : Cpp (Heap α) (Str α) := do
  let isEmpty ← (match source with
    | none => pure true
    | some (p, off) => do
      let x ← read p off 1
      pure (decide (x = [0])) : Cpp (Heap α) Bool)
  if isEmpty = true ∧ count = 0 then copyCtor s
  else if index = 0 ∧ count = s.length then fromPtr source
  else do
    let t ← unmanaged source
    replaceUnsafe s t index count

/-- String.h 198-208 `TakeOver`: `cs` is the content of a buffer made by `new T[]`, which belongs to the string from then
on. -/
def takeOver (cs : List α) (length : Int) : Cpp (Heap α) (Str α) := do
  Cpp.check (length ≥ 0)
  if length < cs.length then
    Cpp.check (cs[length.toNat]? = some 0)
    let c ← newCounter
    let b ← newBuffer (cs.map some)
    pure ⟨b, some c, 0, length, length⟩
  else Cpp.faulting

/-- String.h 213-219 `FromChar` -/
def fromChar (c : α) : Cpp (Heap α) (Str α) := fromPtr (some (.foreign 0 [c, 0], 0))

/-- String.h 225-241 `CopyFrom` -/
def copyFrom (p : BufPtr α × Int) (length : Int) : Cpp (Heap α) (Str α) := do
  Cpp.check (length ≥ 0)
  if length > 0 then do
    let d ← newCells (length + 1)
    let x ← read p.1 p.2 length
    let d ← put d 0 x
    let d ← put d length [0]
    let b ← newBuffer d
    let c ← newCounter
    pure ⟨b, some c, 0, length, length⟩
  else pure {}

/-- String.h 267-279 `UnsafeCastFrom`, characters being values of the same size -/
def unsafeCastFrom (s : Str α) : Cpp (Heap α) (Str α) :=
  if s.length = 0 then pure {} else copyCtor s

/-- String.h 288-302 `Buffer`: the object is changed (its members are `mutable`); the result is it and the pointer. -/
def buffer (s : Str α) : Cpp (Heap α) (Str α × (BufPtr α × Int)) :=
  if s.start + s.length ≠ s.realLength then do
    let d ← newCells (s.length + 1)
    let x ← read s.buffer s.start s.length
    let d ← put d 0 x
    let d ← put d s.length [0]
    dec s
    let b ← newBuffer d
    let c ← newCounter
    pure (⟨b, some c, 0, s.length, s.length⟩, (b, 0))
  else pure (s, (s.buffer, s.start))

/-- String.h 307-320 `operator=(const ObjectString<T>&)` for another object (the same object is left alone). -/
def assign (s string : Str α) : Cpp (Heap α) (Str α) := do
  dec s
  inc string.counter
  pure string

/-- String.h 325-343 `operator=(ObjectString<T>&&)` for another object: the new object and what is left of the source. -/
def moveAssign (s string : Str α) : Cpp (Heap α) (Str α × Str α) := do
  dec s
  pure (string, {})

/-- String.h 364-367 `operator+(const ObjectString<T>&)` -/
def concat (s string : Str α) : Cpp (Heap α) (Str α) := replaceUnsafe s string s.length 0

/-- String.h 372-375 `operator+(const T*)` -/
def concatPtr (s : Str α) (str : CPtr α) : Cpp (Heap α) (Str α) := replaceUnsafePtr s str s.length 0

/-- String.h 377-387 `operator+(const T*, const ObjectString<T>&)` -/
def ptrConcat (left : CPtr α) (right : Str α) : Cpp (Heap α) (Str α) :=
  if right.length = 0 then fromPtr left
  else do
    let t ← unmanaged left
    concat t right

/-- String.h 348-351, 356-359 `operator+=`: the sum is moved to the object. -/
def append (s string : Str α) : Cpp (Heap α) (Str α) := do
  let t ← concat s string
  let r ← moveAssign s t
  pure r.1

def appendPtr (s : Str α) (str : CPtr α) : Cpp (Heap α) (Str α) := do
  let t ← concatPtr s str
  let r ← moveAssign s t
  pure r.1

/-- String.h 392-396 `operator[]` -/
def at' (s : Str α) (index : Int) : Cpp (Heap α) (List α) := do
  Cpp.check (index ≥ 0 ∧ index < s.length)
  read s.buffer (s.start + index) 1

/-- String.h 411-415: the loop of `IndexOf`, `n` characters to go from position `i` -/
def indexOfLoop (s : Str α) (c : α) : Nat → Int → Cpp (Heap α) Int
  | 0, _ => pure (-1)
  | n + 1, i => do
    let x ← read s.buffer (s.start + i) 1
    if x = [c] then pure i else indexOfLoop s c n (i + 1)

/-- String.h 408-418 `IndexOf` -/
def indexOf (s : Str α) (c : α) : Cpp (Heap α) Int := indexOfLoop s c s.length.toNat 0

/-- String.h 429-433 `Left` -/
def left (s : Str α) (count : Int) : Cpp (Heap α) (Str α) := do
  Cpp.check (count ≥ 0 ∧ count ≤ s.length)
  subUnsafe s 0 count

/-- String.h 445-449 `Right` -/
def right (s : Str α) (count : Int) : Cpp (Heap α) (Str α) := do
  Cpp.check (count ≥ 0 ∧ count ≤ s.length)
  subUnsafe s (s.length - count) count

/-- String.h 462-467 `Sub` -/
def sub (s : Str α) (index count : Int) : Cpp (Heap α) (Str α) := do
  Cpp.check (index ≥ 0 ∧ index ≤ s.length)
  Cpp.check (index + count ≥ 0 ∧ index + count ≤ s.length)
  subUnsafe s index count

/-- String.h 480-485 `Remove` -/
def remove (s : Str α) (index count : Int) : Cpp (Heap α) (Str α) := do
  Cpp.check (index ≥ 0 ∧ index < s.length)
  Cpp.check (index + count ≥ 0 ∧ index + count ≤ s.length)
  replaceUnsafe s {} index count

/-- String.h 498-502 `Insert` -/
def insert (s : Str α) (index : Int) (string : Str α) : Cpp (Heap α) (Str α) := do
  Cpp.check (index ≥ 0 ∧ index ≤ s.length)
  replaceUnsafe s string index 0

/-- String.h 48-52: the loop of `operator<=>`; `none`: no difference found -/
def compareLoop (ord : α → α → Ordering) (a b : Str α) : Nat → Int → Cpp (Heap α) (Option Ordering)
  | 0, _ => pure none
  | n + 1, i => do
    let x ← read a.buffer (a.start + i) 1
    let y ← read b.buffer (b.start + i) 1
    match x, y with
    | [x], [y] => if ord x y ≠ .eq then pure (some (ord x y)) else compareLoop ord a b n (i + 1)
    | _, _ => Cpp.faulting

/-- String.h 41-55 `operator<=>`; `ord` is the comparison of characters. -/
def compare' (ord : α → α → Ordering) (a b : Str α) : Cpp (Heap α) Ordering := do
  let diff ← (if a.buffer = b.buffer ∧ a.start = b.start then pure none
    else compareLoop ord a b (if a.length < b.length then a.length else b.length).toNat 0 : Cpp (Heap α) (Option Ordering))
  match diff with
  | some o => pure o
  | none => pure (compare a.length b.length)

/-- String.h 57-60 `operator<=>(const T*)` -/
def compareWithPtr (ord : α → α → Ordering) (a : Str α) (str : CPtr α) : Cpp (Heap α) Ordering := do
  let t ← unmanaged str
  compare' ord a t

/-! ## Histories -/

/-- String objects by number, in the order of their construction; `none`: destroyed. -/
structure World (α : Type) where
  heap : Heap α := {}
  objs : List (Option (Str α)) := []

/-- A `const T*` argument: `nullptr`, memory that does not belong to strings, or the result of `Buffer()` of an object. -/
inductive PtrArg (α : Type) where
  | null
  | mem (id : Nat) (cells : List α)
  | bufferOf (j : Nat)

/-- What a program can do with strings.  The operations that return a string construct a new object. -/
inductive Op (α : Type) where
  | empty
  | copy (j : Nat)
  | move (j : Nat)
  | fromPtr (p : PtrArg α)
  | takeOver (cells : List α) (length : Int)
  | fromChar (c : α)
  | copyFrom (cells : List α) (length : Int)
  | unmanaged (id : Nat) (cells : List α)
  | cast (j : Nat)
  | assign (i j : Nat)
  | moveAssign (i j : Nat)
  | append (i j : Nat)
  | appendPtr (i : Nat) (p : PtrArg α)
  | concat (i j : Nat)
  | concatPtr (i : Nat) (p : PtrArg α)
  | ptrConcat (p : PtrArg α) (j : Nat)
  | left (i : Nat) (count : Int)
  | right (i : Nat) (count : Int)
  | sub (i : Nat) (index count : Int)
  | remove (i : Nat) (index count : Int)
  | insert (i : Nat) (index : Int) (j : Nat)
  | buffer (i : Nat)
  | destroy (i : Nat)

/-- Using something that is no object is undefined. -/
def obj (j : Nat) : Cpp (World α) (Str α) := fun w =>
  match w.objs[j]? with
  | some (some s) => .ok s w
  | _ => .fault

def onHeap {β : Type} (m : Cpp (Heap α) β) : Cpp (World α) β := fun w =>
  match m w.heap with
  | .ok b h => .ok b { w with heap := h }
  | .err h => .err { w with heap := h }
  | .fault => .fault

def push (s : Str α) : Cpp (World α) Unit := fun w => .ok () { w with objs := w.objs ++ [some s] }

def setObj (j : Nat) (s : Option (Str α)) : Cpp (World α) Unit := fun w => .ok () { w with objs := w.objs.set j s }

def ptr : PtrArg α → Cpp (World α) (CPtr α)
  | .null => pure none
  | .mem id cs => pure (some (.foreign id cs, 0))
  | .bufferOf j => do
    let s ← obj j
    let r ← onHeap (buffer s)
    setObj j (some r.1)
    pure (some r.2)

/-- One operation of a program. -/
def step : Op α → Cpp (World α) Unit
  | .empty => push {}
  | .copy j => do
    let s ← obj j
    let t ← onHeap (copyCtor s)
    push t
  | .move j => do
    let s ← obj j
    setObj j (some {})
    push s
  | .fromPtr p => do
    let p ← ptr p
    let t ← onHeap (fromPtr p)
    push t
  | .takeOver cs length => do
    let t ← onHeap (takeOver cs length)
    push t
  | .fromChar c => do
    let t ← onHeap (fromChar c)
    push t
  | .copyFrom cs length => do
    let t ← onHeap (copyFrom (.foreign 0 cs, 0) length)
    push t
  | .unmanaged id cs => do
    let t ← onHeap (unmanaged (some (.foreign id cs, 0)))
    push t
  | .cast j => do
    let s ← obj j
    let t ← onHeap (unsafeCastFrom s)
    push t
  | .assign i j => do
    let s ← obj i
    let t ← obj j
    if i = j then pure () else do
      let r ← onHeap (assign s t)
      setObj i (some r)
  | .moveAssign i j => do
    let s ← obj i
    let t ← obj j
    if i = j then pure () else do
      let r ← onHeap (moveAssign s t)
      setObj i (some r.1)
      setObj j (some r.2)
  | .append i j => do
    let s ← obj i
    let t ← obj j
    let r ← onHeap (append s t)
    setObj i (some r)
  | .appendPtr i p => do
    let p ← ptr p
    let s ← obj i
    let r ← onHeap (appendPtr s p)
    setObj i (some r)
  | .concat i j => do
    let s ← obj i
    let t ← obj j
    let r ← onHeap (concat s t)
    push r
  | .concatPtr i p => do
    let p ← ptr p
    let s ← obj i
    let r ← onHeap (concatPtr s p)
    push r
  | .ptrConcat p j => do
    let p ← ptr p
    let s ← obj j
    let r ← onHeap (ptrConcat p s)
    push r
  | .left i n => do
    let s ← obj i
    let r ← onHeap (left s n)
    push r
  | .right i n => do
    let s ← obj i
    let r ← onHeap (right s n)
    push r
  | .sub i index n => do
    let s ← obj i
    let r ← onHeap (sub s index n)
    push r
  | .remove i index n => do
    let s ← obj i
    let r ← onHeap (remove s index n)
    push r
  | .insert i index j => do
    let s ← obj i
    let t ← obj j
    let r ← onHeap (insert s index t)
    push r
  | .buffer i => do
    let _ ← ptr (.bufferOf i)
    pure ()
  | .destroy i => do
    let s ← obj i
    onHeap (dec s)
    setObj i none

/-- A program: after an Error it goes on with the objects it has; `none`: undefined behaviour. -/
def runOps : List (Op α) → World α → Option (World α)
  | [], w => some w
  | op :: ops, w =>
    match step op w with
    | .ok _ w' => runOps ops w'
    | .err w' => runOps ops w'
    | .fault => none

end
end Strings
end Vlpp
