import Verif.Model.GroupC

/-!
# Model of `PartialOrderingProcessor`

Source/Collections/PartialOrdering.h and PartialOrdering.cpp.  An `Array<T>` is the list of its elements; an index
outside of it raises an Error (List.h 286-299, 422-426).  The pointers `Node::ins`, `Node::outs` refer to lists that do
not change any more, so a node contains these lists.  `Component::firstNode` is a position in `firstNodesBuffer`.
Functions that contain recursion return `Option`: `none` means that the call does not return.  Stack overflow is not
modelled.
-/
set_option autoImplicit false
namespace Vlpp
namespace PO

/-- `po::Node`, PartialOrdering.h 24-47 (the members for sub classes are in `Model/SubClass.lean`). -/
structure Node where
  visited : Bool := false
  component : Int := -1
  ins : List Int
  outs : List Int

/-- `po::Component`, PartialOrdering.h 57-67. -/
structure Component where
  firstNode : Int
  nodeCount : Int

/-- Data members, PartialOrdering.h 84-88, 102, 105 (without `emptyList`; `subClassItemsBuffer` is in `Model/SubClass.lean`).  `none` in a buffer is an element that was never assigned. -/
structure Proc where
  ins : GroupC Int Int := GroupC.empty
  outs : GroupC Int Int := GroupC.empty
  firstNodesBuffer : List (Option Int) := []
  nodes : List Node := []
  components : List Component := []

/-- `xs[i]` of an array; `none`: an Error is raised -/
def at? {α : Type} (xs : List α) (i : Int) : Option α := if 0 ≤ i then xs[i.toNat]? else none

/-- what `VisitUnvisitedNode` changes -/
structure VisitState where
  nodes : List Node
  reversedOrder : List (Option Int)
  used : Int

mutual
/-- PartialOrdering.cpp 42-54 `VisitUnvisitedNode`; `v` is the index of `node`. -/
def visit (v : Int) (s : VisitState) : Option (Outcome VisitState Unit) :=
  match at? s.nodes v with
  | none => some (.err s)
  | some node =>
    visitLoop node.outs.reverse { s with nodes := s.nodes.set v.toNat { node with visited := true } } >>= fun r =>
      match r with
      | .ok _ s =>
        if 0 ≤ s.used ∧ s.used < s.reversedOrder.length then
          some (.ok () { s with reversedOrder := s.reversedOrder.set s.used.toNat (some v), used := s.used + 1 })
        else some (.err { s with used := s.used + 1 })
      | .err s => some (.err s)
      | .fault => some .fault
partial_fixpoint
/-- PartialOrdering.cpp 45-52 and 78-85: visit the nodes `todo` that have not been visited, one after another. -/
def visitLoop (todo : List Int) (s : VisitState) : Option (Outcome VisitState Unit) :=
  match todo with
  | [] => some (.ok () s)
  | w :: rest =>
    match at? s.nodes w with
    | none => some (.err s)
    | some node =>
      if node.visited then visitLoop rest s
      else
        visit w s >>= fun r =>
          match r with
          | .ok _ s => visitLoop rest s
          | .err s => some (.err s)
          | .fault => some .fault
partial_fixpoint
end

/-- what `AssignUnassignedNode` changes -/
structure AssignState where
  nodes : List Node
  firstNodesBuffer : List (Option Int)
  used : Int

mutual
/-- PartialOrdering.cpp 56-68 `AssignUnassignedNode`; `v` is the index of `node`. -/
def assign (componentIndex : Int) (v : Int) (s : AssignState) : Option (Outcome AssignState Unit) :=
  match at? s.nodes v with
  | none => some (.err s)
  | some node =>
    let nodes := s.nodes.set v.toNat { node with component := componentIndex }
    if 0 ≤ s.used ∧ s.used < s.firstNodesBuffer.length then
      assignLoop componentIndex node.ins
        ⟨nodes, s.firstNodesBuffer.set s.used.toNat (some v), s.used + 1⟩
    else some (.err ⟨nodes, s.firstNodesBuffer, s.used + 1⟩)
partial_fixpoint
/-- PartialOrdering.cpp 60-67. -/
def assignLoop (componentIndex : Int) (todo : List Int) (s : AssignState) : Option (Outcome AssignState Unit) :=
  match todo with
  | [] => some (.ok () s)
  | w :: rest =>
    match at? s.nodes w with
    | none => some (.err s)
    | some node =>
      if node.component = -1 then
        assign componentIndex w s >>= fun r =>
          match r with
          | .ok _ s => assignLoop componentIndex rest s
          | .err s => some (.err s)
          | .fault => some .fault
      else assignLoop componentIndex rest s
partial_fixpoint
end

/-- PartialOrdering.cpp 92-105: the loop over `reversedOrder` from its end; `order` is what remains of it.
An element that was never assigned has an unspecified value: undefined. -/
def componentLoop : List (Option Int) → Int → AssignState → List Component →
    Option (Outcome (AssignState × List Component) Unit)
  | [], _, s, cs => some (.ok () (s, cs))
  | none :: _, _, _, _ => some .fault
  | some v :: order, lastUsed, s, cs =>
    match at? s.nodes v with
    | none => some (.err (s, cs))
    | some node =>
      if node.component = -1 then
        match assign cs.length v s with
        | none => none
        | some (.ok _ s) =>
          if 0 ≤ lastUsed ∧ lastUsed < s.firstNodesBuffer.length then
            componentLoop order s.used s (cs ++ [⟨lastUsed, s.used - lastUsed⟩])
          else some (.err (s, cs))
        | some (.err s) => some (.err (s, cs))
        | some .fault => some .fault
      else componentLoop order lastUsed s cs

/-- `n - 1, ..., 1, 0` -/
def downFrom : Nat → List Int
  | 0 => []
  | n + 1 => (n : Int) :: downFrom n

/-- PartialOrdering.cpp 70-107 `Sort`. -/
def sort (p : Proc) : Option (Outcome Proc Unit) :=
  if p.components.length ≠ 0 then some (.err p)
  else
    match visitLoop (downFrom p.nodes.length) ⟨p.nodes, List.replicate p.nodes.length none, 0⟩ with
    | none => none
    | some .fault => some .fault
    | some (.err s) => some (.err { p with nodes := s.nodes })
    | some (.ok _ s) =>
      -- `Resize` keeps what was in the buffer; it is empty here because nothing was sorted before
      let buffer := p.firstNodesBuffer.take s.nodes.length ++
        List.replicate (s.nodes.length - p.firstNodesBuffer.length) none
      match componentLoop s.reversedOrder.reverse 0 ⟨s.nodes, buffer, 0⟩ [] with
      | none => none
      | some .fault => some .fault
      | some (.err (s, cs)) =>
        some (.err { p with nodes := s.nodes, firstNodesBuffer := s.firstNodesBuffer, components := cs })
      | some (.ok _ (s, cs)) =>
        some (.ok () { p with nodes := s.nodes, firstNodesBuffer := s.firstNodesBuffer, components := cs })

/-! ## Initialisation -/

/-- comparison of `vint` -/
def vintCmp (a b : Int) : Option Ordering := some (compare a b)

/-- call a member function of `ins` -/
def onIns {β : Type} (m : Cpp (GroupC Int Int) β) : Cpp Proc β := fun p =>
  match m p.ins with
  | .ok v g => .ok v { p with ins := g }
  | .err g => .err { p with ins := g }
  | .fault => .fault

/-- call a member function of `outs` -/
def onOuts {β : Type} (m : Cpp (GroupC Int Int) β) : Cpp Proc β := fun p =>
  match m p.outs with
  | .ok v g => .ok v { p with outs := g }
  | .err g => .err { p with outs := g }
  | .fault => .fault

/-- read something that is not part of the processor -/
def reading {σ β ρ : Type} : Outcome σ β → Cpp ρ β
  | .ok v _ => fun p => .ok v p
  | .err _ => fun p => .err p
  | .fault => fun _ => .fault

/-- PartialOrdering.cpp 24-39: one round of the loop of `InitNodes`. -/
def initNode (i : Int) : Cpp Proc Unit := do
  let inIndex ← onIns (GroupC.onKeys (SortedSeq.indexOf vintCmp i))
  let outIndex ← onOuts (GroupC.onKeys (SortedSeq.indexOf vintCmp i))
  let ins ← (if inIndex ≠ -1 then onIns (GroupC.getByIndex inIndex) else pure [])
  let outs ← (if outIndex ≠ -1 then onOuts (GroupC.getByIndex outIndex) else pure [])
  let p ← Cpp.get
  match at? p.nodes i with
  | none => Cpp.check False
  | some node => Cpp.set { p with nodes := p.nodes.set i.toNat { node with ins := ins, outs := outs } }

/-- the loop of `InitNodes`: `n` more rounds beginning with `i` -/
def initNodesLoop : Nat → Int → Cpp Proc Unit
  | 0, _ => pure ()
  | n + 1, i => do
    initNode i
    initNodesLoop n (i + 1)

/-- PartialOrdering.cpp 18-40 `InitNodes`. -/
def initNodes (itemCount : Int) : Cpp Proc Unit := do
  let p ← Cpp.get
  let nodes := p.nodes.take itemCount.toNat ++
    List.replicate (itemCount.toNat - p.nodes.length) { ins := [], outs := [] }
  Cpp.set { p with nodes := nodes }
  initNodesLoop itemCount.toNat 0

section init
variable {τ : Type}

/-- PartialOrdering.h 191-198: `n` more rounds beginning with `j`. -/
def edgeLoop (eq : τ → τ → Bool) (items : List τ) (fromNode : Int) (edges : List τ) : Nat → Int → Cpp Proc Unit
  | 0, _ => pure ()
  | n + 1, j => do
    let value ← reading (SeqList.get j edges)
    let toNode ← reading (SeqList.indexOf eq value items)
    Cpp.check (toNode ≠ -1)
    let _ ← onIns (GroupC.add vintCmp fromNode toNode)
    let _ ← onOuts (GroupC.add vintCmp toNode fromNode)
    edgeLoop eq items fromNode edges n (j + 1)

/-- PartialOrdering.h 185-199: `n` more rounds beginning with `i`. -/
def keyLoop (eq : τ → τ → Bool) (items : List τ) (dep : GroupC τ τ) : Nat → Int → Cpp Proc Unit
  | 0, _ => pure ()
  | n + 1, i => do
    let key ← reading (SeqList.get i dep.keys)
    let fromNode ← reading (SeqList.indexOf eq key items)
    Cpp.check (fromNode ≠ -1)
    let edges ← reading (GroupC.getByIndex i dep)
    edgeLoop eq items fromNode edges edges.length 0
    keyLoop eq items dep n (i + 1)

/-- PartialOrdering.h 181-202 `InitWithGroup`, for `items` of type `List` or `Array` (`IndexOf` is a linear search);
`eq` is `==` of the element type. -/
def initWithGroup (eq : τ → τ → Bool) (items : List τ) (dep : GroupC τ τ) : Cpp Proc Unit := do
  let p ← Cpp.get
  Cpp.check (p.nodes.length = 0)
  keyLoop eq items dep dep.keys.length 0
  initNodes items.length

/-- PartialOrdering.h 279-285: the inner loop, over the remaining `items[j]`. -/
def funcInner (cmp : τ → τ → Option Ordering) (depFunc : τ → τ → Bool) (x : τ) : List τ → Cpp (GroupC τ τ) Unit
  | [] => pure ()
  | y :: ys => do
    if depFunc x y then
      let _ ← GroupC.add cmp x y
      funcInner cmp depFunc x ys
    else funcInner cmp depFunc x ys

/-- PartialOrdering.h 277-286: the outer loop, over the remaining `items[i]`. -/
def funcOuter (cmp : τ → τ → Option Ordering) (depFunc : τ → τ → Bool) (items : List τ) : List τ → Cpp (GroupC τ τ) Unit
  | [] => pure ()
  | x :: xs => do
    funcInner cmp depFunc x items
    funcOuter cmp depFunc items xs

/-- PartialOrdering.h 274-288 `InitWithFunc`. -/
def initWithFunc (cmp : τ → τ → Option Ordering) (eq : τ → τ → Bool) (items : List τ) (depFunc : τ → τ → Bool) :
    Cpp Proc Unit := fun p =>
  match funcOuter cmp depFunc items items GroupC.empty with
  | .ok _ dep => initWithGroup eq items dep p
  | .err _ => .err p
  | .fault => .fault
end init

end PO
end Vlpp
