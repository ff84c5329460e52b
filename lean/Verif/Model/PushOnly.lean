import Verif.Model.Outcome

/-!
# Model of `PushOnlyAllocator` and `ByteObjectMap`

Source/Collections/List.h 841-959.  An array made by `new T[n]` is a block; it has a number that is not used again.  A pointer is a block and a position in it.
The field `blocks` is a sequence (what `List` does is the subject of C01).  The result `none` is undefined behaviour or an exception.
-/
set_option autoImplicit false
namespace Vlpp
namespace PushOnly

/-- a pointer to an element of an array -/
abbrev Ptr := Nat × Nat

/-- List.h 845-847 -/
structure Alloc where
  blockSize : Int
  allocatedSize : Int
  blocks : List Nat
  deriving DecidableEq, Repr

/-- all arrays with their sizes, `none` if deleted; and all allocators -/
structure World where
  heap : List (Option Nat) := []
  allocs : List (Option Alloc) := []
  deriving DecidableEq, Repr

/-- `&block[column]` for an element of the array -/
def World.element (w : World) (block : Nat) (column : Int) : Option Ptr :=
  match w.heap[block]? with
  | some (some size) => if 0 ≤ column ∧ column < size then some (block, column.toNat) else none
  | _ => none

/-- List.h 866-875 `Get`; the inner `none` is the null pointer -/
def World.getIn (w : World) (al : Alloc) (index : Int) : Option (Option Ptr) :=
  if index ≥ al.allocatedSize then some none
  else if al.blockSize = 0 then none
  else
    let row := index.tdiv al.blockSize
    let column := index.tmod al.blockSize
    if row < 0 then none
    else
      match al.blocks[row.toNat]? with
      | none => none
      | some block => (w.element block column).map some

/-- List.h 877-885 `Create` -/
def World.create (w : World) (a : Nat) : Option (Option Ptr × World) :=
  match w.allocs[a]?.join with
  | none => none
  | some al =>
    if al.allocatedSize = al.blocks.length * al.blockSize then
      if al.blockSize < 0 then none
      else
        let w := { w with heap := w.heap ++ [some al.blockSize.toNat] }
        let al := { al with blocks := al.blocks ++ [w.heap.length - 1] }
        finish w al
    else finish w al
where
  /-- List.h 883-884 -/
  finish (w : World) (al : Alloc) : Option (Option Ptr × World) :=
    let index := al.allocatedSize
    let al := { al with allocatedSize := al.allocatedSize + 1 }
    let w := { w with allocs := w.allocs.set a (some al) }
    (w.getIn al index).map fun p => (p, w)

/-- `delete[]` -/
def deleteBlocks : List Nat → List (Option Nat) → Option (List (Option Nat))
  | [], heap => some heap
  | b :: bs, heap =>
    match heap[b]? with
    | some (some _) => deleteBlocks bs (heap.set b none)
    | _ => none

/-- what a program does -/
inductive Op where
  | newAllocator (blockSize : Int)
  | create (a : Nat)
  | get (a : Nat) (index : Int)
  | destroy (a : Nat)
  deriving DecidableEq, Repr

/-- what it sees -/
inductive Ret where
  | unit
  | pointer (p : Option Ptr)
  deriving DecidableEq, Repr

/-- One operation. -/
def step (w : World) : Op → Option (Ret × World)
  /- List.h 852-856 -/
  | .newAllocator blockSize => some (.unit, { w with allocs := w.allocs ++ [some ⟨blockSize, 0, []⟩] })
  | .create a => (w.create a).map fun (p, w) => (.pointer p, w)
  | .get a index =>
    match w.allocs[a]?.join with
    | none => none
    | some al => (w.getIn al index).map fun p => (.pointer p, w)
  /- List.h 858-864 -/
  | .destroy a =>
    match w.allocs[a]?.join with
    | none => none
    | some al => (deleteBlocks al.blocks w.heap).map fun heap => (.unit, ⟨heap, w.allocs.set a none⟩)

/-- a history -/
def run (w : World) : List Op → Option (List Ret × World)
  | [] => some ([], w)
  | op :: ops => do
    let (r, w) ← step w op
    let (rs, w) ← run w ops
    some (r :: rs, w)

/-! ## ByteObjectMap -/

/-- `TreeNode*` or `void*`: null, a node, or an object of the program -/
inductive Word where
  | null
  | node (p : Ptr)
  | object (v : Nat)
  deriving DecidableEq, Repr

/-- The maps use one allocator of nodes, the allocator 0.  `nodes` are the members of the nodes: List.h 890-893. -/
structure MapWorld where
  alloc : World
  nodes : Ptr → Nat → Word
  roots : List Word

/-- `TreeNode*&`: the member `root` of a map or an element of `nodes` -/
inductive Slot where
  | root (m : Nat)
  | entry (p : Ptr) (i : Nat)
  deriving DecidableEq, Repr

/-- reading a reference -/
def MapWorld.read (w : MapWorld) : Slot → Word
  | .root m => (w.roots[m]?).getD .null
  | .entry p i => w.nodes p i

/-- writing a reference -/
def MapWorld.write (w : MapWorld) (s : Slot) (x : Word) : MapWorld :=
  match s with
  | .root m => { w with roots := w.roots.set m x }
  | .entry p i => { w with nodes := fun q j => if q = p ∧ j = i then x else w.nodes q j }

/-- List.h 904, 916 -/
def fragment (index : Nat) (byte : Nat) : Nat := (byte >>> (2 * (index - 1))) % 4

/-- List.h 895-907 and 925-928 `Accessor<Index>::Get`; an object that is used as a node is undefined behaviour -/
def MapWorld.get (w : MapWorld) : (index : Nat) → Word → (byte : Nat) → Option Word
  | 0, root, _ => some root
  | index + 1, root, byte =>
    match root with
    | .null => some .null
    | .object _ => none
    | .node p =>
      let fragmentRoot := w.nodes p (fragment (index + 1) byte)
      if fragmentRoot ≠ .null then w.get index fragmentRoot byte else some .null

/-- List.h 913-914: the new node becomes the root, and is cleared -/
def MapWorld.insert (w : MapWorld) (root : Slot) (p : Ptr) (alloc : World) : MapWorld :=
  let w := { w with alloc }
  let w := w.write root (.node p)
  { w with nodes := fun q j => if q = p then .null else w.nodes q j }

/-- List.h 911-915 -/
def MapWorld.prepare (w : MapWorld) (root : Slot) : Option MapWorld :=
  if w.read root = .null then
    match w.alloc.create 0 with
    | some (some p, alloc) => some (w.insert root p alloc)
    | _ => none
  else some w

/-- List.h 909-919 and 930-933 `Accessor<Index>::Set` -/
def MapWorld.set : (index : Nat) → MapWorld → Slot → (byte : Nat) → Word → Option MapWorld
  | 0, w, root, _, value => some (w.write root value)
  | index + 1, w, root, byte, value =>
    match w.prepare root with
    | none => none
    | some w =>
      match w.read root with
      | .node p => MapWorld.set index w (.entry p (fragment (index + 1) byte)) byte value
      | _ => none

/-- operations on maps that share an allocator -/
inductive MapOp where
  | newMap
  /-- `none` is the null pointer -/
  | set (m : Nat) (byte : Nat) (value : Option Nat)
  | get (m : Nat) (byte : Nat)
  deriving DecidableEq, Repr

/-- a pointer of the program -/
def toWord : Option Nat → Word
  | none => .null
  | some v => .object v

/-- One operation; the result of `get` is the word that is cast to `T*`. -/
def mapStep (w : MapWorld) : MapOp → Option (Option Word × MapWorld)
  /- List.h 943, 947 -/
  | .newMap => some (none, { w with roots := w.roots ++ [.null] })
  /- List.h 955-958 -/
  | .set m byte value => if m < w.roots.length then (w.set 4 (.root m) byte (toWord value)).map fun w => (none, w) else none
  /- List.h 950-953 -/
  | .get m byte => if m < w.roots.length then (w.get 4 (w.read (.root m)) byte).map fun x => (some x, w) else none

/-- a history -/
def mapRun (w : MapWorld) : List MapOp → Option (List (Option Word) × MapWorld)
  | [] => some ([], w)
  | op :: ops => do
    let (r, w) ← mapStep w op
    let (rs, w) ← mapRun w ops
    some (r :: rs, w)

/-- a new allocator and no maps; the contents of nodes are anything -/
def mapStart (blockSize : Int) (garbage : Ptr → Nat → Word) : MapWorld := ⟨⟨[], [some ⟨blockSize, 0, []⟩]⟩, garbage, []⟩

end PushOnly
end Vlpp
