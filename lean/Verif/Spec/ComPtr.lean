import Verif.Model.ComPtr
import Verif.Spec.Pointer

/-! # What `ComPtr` should do -/
set_option autoImplicit false
namespace Vlpp
namespace Spec
open Pointer (Loc)
namespace Com
open Vlpp.Com

def comOf : Option Var → Option Slot
  | some (.com s) => some s
  | _ => none

def membersOf : Option Cell → Option (List Slot)
  | some (.object _ ms) => some ms
  | _ => none

/-- all `ComPtr`s that exist: variables, and members of objects that are not deleted -/
def pointers (w : World) : List Slot := w.vars.filterMap comOf ++ (w.heap.filterMap membersOf).flatten

/-- how many `ComPtr`s share counter `c` -/
def sharing (w : World) (c : Nat) : Nat := (pointers w).countP (fun s => decide (s.counter = some c))

/-- how many plain pointers have to be released -/
def plain (w : World) (o : Nat) : Nat := w.vars.countP (fun v => decide (v = some (.raw o)))

/-- how many counters there are for object `o` -/
def groups (w : World) (o : Nat) : Nat :=
  (List.range w.heap.length).countP fun c => (pointers w).any fun s => decide (s.counter = some c ∧ s.ref = some o)

/-- Every counter is the number of `ComPtr`s that share it.  The reference count of every object is the number of plain pointers
that are still to be released and of counters for the object.  Neither is zero.  `ComPtr`s that share a counter refer to the
same object, and nothing refers to anything that is deleted. -/
structure Good (w : World) : Prop where
  counter : ∀ c n, w.heap[c]? = some (some (.counter n)) → n = (sharing w c : Int) ∧ 0 < n
  object : ∀ o n ms, w.heap[o]? = some (some (.object n ms)) → n = ((plain w o + groups w o : Nat) : Int) ∧ 0 < n
  pointer : ∀ s ∈ pointers w, (s.counter = none ∧ s.ref = none) ∨
    ∃ c o n m ms, s.counter = some c ∧ s.ref = some o ∧ w.heap[c]? = some (some (.counter n)) ∧ w.heap[o]? = some (some (.object m ms))
  same : ∀ s ∈ pointers w, ∀ t ∈ pointers w, s.counter = t.counter → s.ref = t.ref
  raw : ∀ i o, w.raw i = some o → ∃ m ms, w.heap[o]? = some (some (.object m ms))

/-- counter or object `x` is not deleted -/
def Present (w : World) (x : Nat) : Prop := ∃ y, w.heap[x]? = some (some y)

/-- Counter or object `x` stays if what is at `p` lets go: it is in a set in which every counter has a `ComPtr` apart from that
at `p`, a variable or a member of an object of the set, and every object has a plain pointer apart from `p` or a counter of
the set. -/
def Survives (w : World) (p : Loc) (x : Nat) : Prop :=
  ∃ S : Nat → Prop, S x ∧ ∀ y, S y →
    (∃ l s, l ≠ p ∧ w.read l = some s ∧ s.counter = some y ∧ HomeIn S l) ∨
    (∃ i, Loc.root i ≠ p ∧ w.raw i = some y) ∨
    (∃ c s, S c ∧ s ∈ pointers w ∧ s.counter = some c ∧ s.ref = some y)

/-- the memory of `l` stays if what is at `p` lets go -/
def Keeps (w : World) (p l : Loc) : Prop := HomeIn (Survives w p) l

/-- What a program may do.  Beyond the existence of the pointers: an assignment must not delete the object that contains
its left or its right hand side. -/
def Legal (w : World) : Op → Prop
  | .create _ => True
  | .newEmpty => True
  | .addRef i => ∃ o, w.raw i = some o
  | .release i => ∃ o, w.raw i = some o
  | .ofRaw i => ∃ o, w.raw i = some o
  | .copyCtor m => ∃ s, w.read m = some s
  | .moveCtor m => ∃ s, w.read m = some s
  | .destroy i => ∃ s, w.read (.root i) = some s
  | .assignNull l => (∃ s, w.read l = some s) ∧ Keeps w l l
  | .assignRaw l i => (∃ s, w.read l = some s) ∧ (∃ o, w.raw i = some o) ∧ Keeps w l l
  | .assignCopy l m => (∃ s, w.read l = some s) ∧ (∃ s, w.read m = some s) ∧ (l = m ∨ Keeps w l l ∧ Keeps w l m)
  | .assignMove l m => (∃ s, w.read l = some s) ∧ (∃ s, w.read m = some s) ∧ (l = m ∨ Keeps w l l ∧ Keeps w l m)

/-- every operation is legal when its turn comes -/
def LegalHistory (w : World) : List Op → Prop
  | [] => True
  | op :: ops => Legal w op ∧ ∀ w', step w op = some w' → LegalHistory w' ops

end Com
end Spec
end Vlpp
