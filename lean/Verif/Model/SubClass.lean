import Verif.Model.PartialOrdering
import Verif.Model.DictC

/-!
# Model of `PartialOrderingProcessor::InitWithSubClass`

Source/Collections/PartialOrdering.h 384-479, for `items` of type `List` or `Array` (`IndexOf` is a linear search).
`eq` is `==` and `cmp` is `<=>` of the element type, `scmp` is `<=>` of `TSubClass`.
-/
set_option autoImplicit false
namespace Vlpp
namespace PO

/-- `Node::firstSubClassItem` (as a position in `subClassItemsBuffer`; `none` is `nullptr`) and
`Node::subClassItemCount`, PartialOrdering.h 34-46. -/
structure Slot where
  first : Option Int := none
  count : Int := 0
  deriving DecidableEq

/-- The processor with the members for sub classes: `subClassItemsBuffer` (PartialOrdering.h 88), and for every node
its `Slot`.  `none` in the buffer is an element that was never assigned. -/
structure SubProc where
  proc : Proc := {}
  buffer : List (Option Int) := []
  slots : List Slot := []

section
variable {τ σ : Type}

/-- PartialOrdering.h 394-399: `n` more rounds beginning with `i`, on `scItems`. -/
def scLoop (scmp : σ → σ → Option Ordering) (sub : DictC τ σ) : Nat → Int → Cpp (GroupC σ τ) Unit
  | 0, _ => pure ()
  | n + 1, i => do
    let key ← reading (SeqList.get i sub.keys)
    let value ← reading (SeqList.get i sub.values)
    let _ ← GroupC.add scmp value key
    scLoop scmp sub n (i + 1)

/-- PartialOrdering.h 401-408, over the remaining `items[i]`, on `singleItems`. -/
def singleLoop (cmp : τ → τ → Option Ordering) (sub : DictC τ σ) : List τ → Cpp (List τ) Unit
  | [] => pure ()
  | item :: rest => do
    let c ← reading (SortedSeq.contains cmp item sub.keys)
    if c = false then
      let _ ← SortedSeq.add cmp id item
      singleLoop cmp sub rest
    else singleLoop cmp sub rest

/-- PartialOrdering.h 410-425 `getSubClass`. -/
def getSubClass {ρ : Type} (cmp : τ → τ → Option Ordering) (scmp : σ → σ → Option Ordering) (sub : DictC τ σ)
    (scItems : GroupC σ τ) (single : List τ) (item : τ) : Cpp ρ Int := do
  let index ← reading (SortedSeq.indexOf cmp item sub.keys)
  if index ≠ -1 then
    let value ← reading (SeqList.get index sub.values)
    let index ← reading (SortedSeq.indexOf scmp value scItems.keys)
    Cpp.check (index ≠ -1)
    return index
  else
    let index ← reading (SortedSeq.indexOf cmp item single)
    Cpp.check (index ≠ -1)
    return scItems.count + index

/-- PartialOrdering.h 433-442: `n` more rounds beginning with `j`. -/
def subEdgeLoop (cls : τ → Cpp Proc Int) (keyIndex : Int) (values : List τ) : Nat → Int → Cpp Proc Unit
  | 0, _ => pure ()
  | n + 1, j => do
    let value ← reading (SeqList.get j values)
    let valueIndex ← cls value
    let c ← onIns (GroupC.contains vintCmp (· == ·) keyIndex valueIndex)
    if c = false then
      let _ ← onIns (GroupC.add vintCmp keyIndex valueIndex)
      subEdgeLoop cls keyIndex values n (j + 1)
    else subEdgeLoop cls keyIndex values n (j + 1)

/-- PartialOrdering.h 427-443: `n` more rounds beginning with `i`; `cls` is `getSubClass`. -/
def subKeyLoop (cls : τ → Cpp Proc Int) (dep : GroupC τ τ) : Nat → Int → Cpp Proc Unit
  | 0, _ => pure ()
  | n + 1, i => do
    let key ← reading (SeqList.get i dep.keys)
    let keyIndex ← cls key
    let values ← reading (GroupC.getByIndex i dep)
    subEdgeLoop cls keyIndex values values.length 0
    subKeyLoop cls dep n (i + 1)

/-- PartialOrdering.h 449-452: `n` more rounds beginning with `j`. -/
def outsInner (key : Int) (values : List Int) : Nat → Int → Cpp Proc Unit
  | 0, _ => pure ()
  | n + 1, j => do
    let value ← reading (SeqList.get j values)
    let _ ← onOuts (GroupC.add vintCmp value key)
    outsInner key values n (j + 1)

/-- PartialOrdering.h 445-453: `n` more rounds beginning with `i`. -/
def outsLoop : Nat → Int → Cpp Proc Unit
  | 0, _ => pure ()
  | n + 1, i => do
    let key ← onIns (GroupC.onKeys (SeqList.get i))
    let values ← onIns (GroupC.getByIndex i)
    outsInner key values values.length 0
    outsLoop n (i + 1)

/-- what the last loop changes: the buffer, the members of the nodes, the local variable `used` -/
structure Fill where
  buffer : List (Option Int)
  slots : List Slot
  used : Int

/-- `subClassItemsBuffer[used++] = v`, PartialOrdering.h 469, 475. -/
def Fill.store (v : Int) : Cpp Fill Unit := do
  let s ← Cpp.get
  Cpp.set { s with used := s.used + 1 }
  Cpp.check (0 ≤ s.used ∧ s.used < s.buffer.length)
  Cpp.set { s with buffer := s.buffer.set s.used.toNat (some v), used := s.used + 1 }

/-- PartialOrdering.h 467-470: `n` more rounds beginning with `j`. -/
def fillInner (eq : τ → τ → Bool) (items values : List τ) : Nat → Int → Cpp Fill Unit
  | 0, _ => pure ()
  | n + 1, j => do
    let value ← reading (SeqList.get j values)
    let index ← reading (SeqList.indexOf eq value items)
    Fill.store index
    fillInner eq items values n (j + 1)

/-- change the `Slot` of `nodes[i]` -/
def Fill.onSlot (i : Int) (f : Slot → Slot) : Cpp Fill Unit := do
  let s ← Cpp.get
  match at? s.slots i with
  | none => Cpp.check False
  | some slot => Cpp.set { s with slots := s.slots.set i.toNat (f slot) }

/-- PartialOrdering.h 460-478: `n` more rounds beginning with `i`. -/
def fillLoop (eq : τ → τ → Bool) (items : List τ) (scItems : GroupC σ τ) (single : List τ) : Nat → Int → Cpp Fill Unit
  | 0, _ => pure ()
  | n + 1, i => do
    let s ← Cpp.get
    Cpp.check (0 ≤ s.used ∧ s.used < s.buffer.length)
    Fill.onSlot i (fun slot => { slot with first := some s.used })
    if i < scItems.count then
      let values ← reading (GroupC.getByIndex i scItems)
      fillInner eq items values values.length 0
      Fill.onSlot i (fun slot => { slot with count := values.length })
      fillLoop eq items scItems single n (i + 1)
    else
      let item ← reading (SeqList.get (i - scItems.count) single)
      let index ← reading (SeqList.indexOf eq item items)
      Fill.store index
      Fill.onSlot i (fun slot => { slot with count := 1 })
      fillLoop eq items scItems single n (i + 1)

/-- call a member function of the part of the processor that other initialisations use as well -/
def onProc {β : Type} (m : Cpp Proc β) : Cpp SubProc β := fun q =>
  match m q.proc with
  | .ok v p => .ok v { q with proc := p }
  | .err p => .err { q with proc := p }
  | .fault => .fault

/-- PartialOrdering.h 456-478; `Resize` finds an empty array, so all elements are new, as are the nodes. -/
def fillAll (eq : τ → τ → Bool) (items : List τ) (scItems : GroupC σ τ) (single : List τ) : Cpp SubProc Unit := fun q =>
  match fillLoop eq items scItems single q.proc.nodes.length 0
    ⟨List.replicate items.length none, List.replicate q.proc.nodes.length {}, 0⟩ with
  | .ok _ s => .ok () { q with buffer := s.buffer, slots := s.slots }
  | .err s => .err { q with buffer := s.buffer, slots := s.slots }
  | .fault => .fault

/-- run a computation on a local variable that begins as `init` and ends as the result -/
def locally {α β ρ : Type} (init : α) (m : Cpp α β) : Cpp ρ α := fun s =>
  match m init with
  | .ok _ a => .ok a s
  | .err _ => .err s
  | .fault => .fault

/-- PartialOrdering.h 384-479 `InitWithSubClass`. -/
def initWithSubClass (cmp : τ → τ → Option Ordering) (eq : τ → τ → Bool) (scmp : σ → σ → Option Ordering)
    (items : List τ) (dep : GroupC τ τ) (sub : DictC τ σ) : Cpp SubProc Unit := do
  let q ← Cpp.get
  Cpp.check (q.proc.nodes.length = 0)
  let scItems ← locally GroupC.empty (scLoop scmp sub sub.keys.length 0)
  let single ← locally [] (singleLoop cmp sub items)
  onProc (subKeyLoop (getSubClass cmp scmp sub scItems single) dep dep.keys.length 0)
  let q ← Cpp.get
  onProc (outsLoop q.proc.ins.keys.length 0)
  onProc (initNodes (scItems.count + single.length))
  fillAll eq items scItems single
end

end PO
end Vlpp
