import Verif.Model.PartialOrdering

/-!
# What `PartialOrderingProcessor::Sort` costs

Source/Collections/PartialOrdering.cpp 42-107.  The functions of `Model/PartialOrdering.lean` once more, with counters that
are not in the code: calls of `VisitUnvisitedNode` and `AssignUnassignedNode`, elements that the loops look at, and the
number of these calls that are active at the same time (what they need of the stack).  Each call and each round does a
bounded amount of other work.  `Resize` of the two arrays and `components.Add` are not counted (C103 has the latter).
-/
set_option autoImplicit false
namespace Vlpp
namespace PO

/-- the counters -/
structure Cost where
  /-- calls of the two recursive functions -/
  calls : Nat := 0
  /-- rounds of all loops -/
  rounds : Nat := 0
  /-- the largest number of active calls -/
  nested : Nat := 0

/-- a call at nesting depth `d` begins -/
def Cost.enter (c : Cost) (d : Nat) : Cost := { c with calls := c.calls + 1, nested := max c.nested d }

/-- a round of a loop -/
def Cost.round (c : Cost) : Cost := { c with rounds := c.rounds + 1 }

mutual
/-- PartialOrdering.cpp 42-54 `VisitUnvisitedNode`; `v` is the index of `node`, `d` the number of active calls. -/
def visitC (d : Nat) (v : Int) (s : VisitState) (c : Cost) : Option (Outcome (VisitState × Cost) Unit) :=
  match at? s.nodes v with
  | none => some (.err (s, c.enter d))
  | some node =>
    visitLoopC d node.outs.reverse { s with nodes := s.nodes.set v.toNat { node with visited := true } } (c.enter d) >>= fun r =>
      match r with
      | .ok _ (s, c) =>
        if 0 ≤ s.used ∧ s.used < s.reversedOrder.length then
          some (.ok () ({ s with reversedOrder := s.reversedOrder.set s.used.toNat (some v), used := s.used + 1 }, c))
        else some (.err ({ s with used := s.used + 1 }, c))
      | .err x => some (.err x)
      | .fault => some .fault
partial_fixpoint
/-- PartialOrdering.cpp 45-52 and 78-85: visit the nodes `todo` that have not been visited, one after another; `d` calls
are active. -/
def visitLoopC (d : Nat) (todo : List Int) (s : VisitState) (c : Cost) : Option (Outcome (VisitState × Cost) Unit) :=
  match todo with
  | [] => some (.ok () (s, c))
  | w :: rest =>
    match at? s.nodes w with
    | none => some (.err (s, c.round))
    | some node =>
      if node.visited then visitLoopC d rest s c.round
      else
        visitC (d + 1) w s c.round >>= fun r =>
          match r with
          | .ok _ (s, c) => visitLoopC d rest s c
          | .err x => some (.err x)
          | .fault => some .fault
partial_fixpoint
end

mutual
/-- PartialOrdering.cpp 56-68 `AssignUnassignedNode`; `v` is the index of `node`, `d` the number of active calls. -/
def assignC (d : Nat) (componentIndex : Int) (v : Int) (s : AssignState) (c : Cost) :
    Option (Outcome (AssignState × Cost) Unit) :=
  match at? s.nodes v with
  | none => some (.err (s, c.enter d))
  | some node =>
    let nodes := s.nodes.set v.toNat { node with component := componentIndex }
    if 0 ≤ s.used ∧ s.used < s.firstNodesBuffer.length then
      assignLoopC d componentIndex node.ins
        ⟨nodes, s.firstNodesBuffer.set s.used.toNat (some v), s.used + 1⟩ (c.enter d)
    else some (.err (⟨nodes, s.firstNodesBuffer, s.used + 1⟩, c.enter d))
partial_fixpoint
/-- PartialOrdering.cpp 60-67. -/
def assignLoopC (d : Nat) (componentIndex : Int) (todo : List Int) (s : AssignState) (c : Cost) :
    Option (Outcome (AssignState × Cost) Unit) :=
  match todo with
  | [] => some (.ok () (s, c))
  | w :: rest =>
    match at? s.nodes w with
    | none => some (.err (s, c.round))
    | some node =>
      if node.component = -1 then
        assignC (d + 1) componentIndex w s c.round >>= fun r =>
          match r with
          | .ok _ (s, c) => assignLoopC d componentIndex rest s c
          | .err x => some (.err x)
          | .fault => some .fault
      else assignLoopC d componentIndex rest s c.round
partial_fixpoint
end

/-- PartialOrdering.cpp 92-105: the loop over `reversedOrder` from its end; `order` is what remains of it. -/
def componentLoopC : List (Option Int) → Int → AssignState → List Component → Cost →
    Option (Outcome ((AssignState × List Component) × Cost) Unit)
  | [], _, s, cs, c => some (.ok () ((s, cs), c))
  | none :: _, _, _, _, _ => some .fault
  | some v :: order, lastUsed, s, cs, c =>
    match at? s.nodes v with
    | none => some (.err ((s, cs), c.round))
    | some node =>
      if node.component = -1 then
        match assignC 1 cs.length v s c.round with
        | none => none
        | some (.ok _ (s, c)) =>
          if 0 ≤ lastUsed ∧ lastUsed < s.firstNodesBuffer.length then
            componentLoopC order s.used s (cs ++ [⟨lastUsed, s.used - lastUsed⟩]) c
          else some (.err ((s, cs), c))
        | some (.err (s, c)) => some (.err ((s, cs), c))
        | some .fault => some .fault
      else componentLoopC order lastUsed s cs c.round

/-- PartialOrdering.cpp 70-107 `Sort`. -/
def sortC (p : Proc) : Option (Outcome (Proc × Cost) Unit) :=
  if p.components.length ≠ 0 then some (.err (p, {}))
  else
    match visitLoopC 0 (downFrom p.nodes.length) ⟨p.nodes, List.replicate p.nodes.length none, 0⟩ {} with
    | none => none
    | some .fault => some .fault
    | some (.err (s, c)) => some (.err ({ p with nodes := s.nodes }, c))
    | some (.ok _ (s, c)) =>
      let buffer := p.firstNodesBuffer.take s.nodes.length ++
        List.replicate (s.nodes.length - p.firstNodesBuffer.length) none
      match componentLoopC s.reversedOrder.reverse 0 ⟨s.nodes, buffer, 0⟩ [] c with
      | none => none
      | some .fault => some .fault
      | some (.err ((s, cs), c)) =>
        some (.err ({ p with nodes := s.nodes, firstNodesBuffer := s.firstNodesBuffer, components := cs }, c))
      | some (.ok _ ((s, cs), c)) =>
        some (.ok () ({ p with nodes := s.nodes, firstNodesBuffer := s.firstNodesBuffer, components := cs }, c))

end PO
end Vlpp
