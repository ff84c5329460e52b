import Verif.Spec.Cursor
import Verif.Spec.MultiMap

/-!
# Specification: enumerators of multimaps that change

A position is the number of a key, in ascending order, and the number of one of its values.
-/
set_option autoImplicit false
namespace Vlpp.Spec
variable {κ ν : Type}

/-- There is a value at this position. -/
def IsPosition (vss : List (List ν)) (p : Int × Int) : Prop :=
  0 ≤ p.1 ∧ 0 ≤ p.2 ∧ ∃ vs, vss[p.1.toNat]? = some vs ∧ p.2 < vs.length

/-- the order in which a group is enumerated -/
def Before (p q : Int × Int) : Prop := p.1 < q.1 ∨ (p.1 = q.1 ∧ p.2 < q.2)

structure GroupCursor where
  container : Nat
  position : Int × Int
  shown : Shown

def GroupOp.Modifies : GroupOp κ ν → Bool
  | .get _ => false
  | .containsKey _ => false
  | .contains _ _ => false
  | _ => true

/-- The operation changes group `n`, or may do so. -/
def MoveOp.ChangesGroup (n : Nat) : MoveOp (GroupOp κ ν) → Bool
  | .call i op => n = i && op.Modifies
  | .moveAssign i j => n = i || n = j
  | .moveConstruct i j => n = i || n = j
  | .renew i => n = i

/-- Enumerators of groups: `Next` goes to the first value after the position of the enumerator that the group has now; it may be read
until the group is changed.  `Index` is the number of values before the position. -/
def groupCursors (ord : κ → κ → Ordering) : Cursors (κ → List ν) GroupCursor (GroupOp κ ν) (κ × ν) where
  create i := ⟨i, (-1, -1), .nothing⟩
  clone c := ⟨c.container, c.position, .nothing⟩
  Next ms c c' b := ∃ ks vss, GroupLists ord (ms c.container) ks vss ∧ c'.container = c.container ∧
    if b then
      IsPosition vss c'.position ∧ Before c.position c'.position ∧
      (∀ p, IsPosition vss p → Before c.position p → ¬ Before p c'.position) ∧ c'.shown = .entry
    else
      (∀ p, IsPosition vss p → ¬ Before c.position p) ∧
      c'.position = (if c.position.1 < ks.length then ((ks.length : Int), -1) else c.position) ∧ c'.shown = c.shown.outdated
  Readable _ c := c.shown ≠ .unknown
  Current ms c o :=
    match c.shown with
    | .nothing => o = none
    | .entry => 0 ≤ c.position.1 ∧ 0 ≤ c.position.2 ∧ ∃ ks vss k vs v, GroupLists ord (ms c.container) ks vss ∧
        ks[c.position.1.toNat]? = some k ∧ vss[c.position.1.toNat]? = some vs ∧ vs[c.position.2.toNat]? = some v ∧ o = some (k, v)
    | .unknown => False
  Index ms c n := ∃ ks vss, GroupLists ord (ms c.container) ks vss ∧
    n = if 0 ≤ c.position.1 ∧ c.position.1 < ks.length then (((vss.take c.position.1.toNat).flatten.length : Nat) : Int) + c.position.2
      else -1
  Reset _ c c' b := c' = ⟨c.container, (-1, -1), c.shown.outdated⟩ ∧ b = false
  changed op c := if op.ChangesGroup c.container then { c with shown := c.shown.outdated } else c

end Vlpp.Spec
