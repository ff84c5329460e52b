import Verif.Model.Pointer

/-! # What shared pointers should do -/
set_option autoImplicit false
namespace Vlpp
namespace Spec
open Pointer

/-- All pointers that exist: variables, and members of objects that are not deleted. -/
def slots (w : World) : List Slot := w.roots.filterMap id ++ (w.objs.filterMap id).flatten

/-- how many pointers share object `o` -/
def pointersTo (w : World) (o : Nat) : Nat := (slots w).countP (fun s => decide (s.counter = some o))

def Alive (w : World) (o : Nat) : Prop := ∃ fs, w.objs[o]? = some (some fs)

/-- Objects are alive exactly while there is a pointer, and the counter is the number of pointers; what a pointer
refers to is the object it shares. -/
structure Good (w : World) : Prop where
  counters : w.counters.length = w.objs.length
  alive : ∀ o, Alive w o ↔ 0 < pointersTo w o
  counter : ∀ o, Alive w o → w.counters[o]? = some (some (pointersTo w o : Int))
  dead : ∀ o, ¬ Alive w o → w.counters[o]?.join = none
  slot : ∀ s ∈ slots w, (∀ c, s.counter = some c → s.orig = some c ∧ ∃ t, s.ref = some (c, t)) ∧
    (s.counter = none → s.ref = none)

/-- the object a location is in is one of `S`, or it is a variable -/
def HomeIn (S : Nat → Prop) : Loc → Prop
  | .root _ => True
  | .field o _ => S o

/-- Object `x` stays if the pointer at `p` lets go: it is in a set of objects all of which have an owner apart from `p`,
a variable or a member of an object of the set. -/
def Survives (w : World) (p : Loc) (x : Nat) : Prop :=
  ∃ S : Nat → Prop, S x ∧ ∀ y, S y → ∃ l s, l ≠ p ∧ w.read l = some s ∧ s.counter = some y ∧ HomeIn S l

/-- the memory of `l` stays if the pointer at `p` lets go -/
def Keeps (w : World) (p l : Loc) : Prop := HomeIn (Survives w p) l

/-- What a program may do.  Beyond the existence of the pointers: an assignment must not delete the object that contains
its left or its right hand side. -/
def Legal (w : World) : Op → Prop
  | .newEmpty => True
  | .newObject _ => True
  | .copyCtor m => ∃ s, w.read m = some s
  | .moveCtor m => ∃ s, w.read m = some s
  | .castCtor m _ => ∃ s, w.read m = some s
  | .destroy i => ∃ s, w.read (.root i) = some s
  | .assignNull l => (∃ s, w.read l = some s) ∧ Keeps w l l
  | .assignCopy l m => (∃ s, w.read l = some s) ∧ (∃ s, w.read m = some s) ∧ (l = m ∨ Keeps w l l ∧ Keeps w l m)
  | .assignMove l m => (∃ s, w.read l = some s) ∧ (∃ s, w.read m = some s) ∧ (l = m ∨ Keeps w l l ∧ Keeps w l m)

end Spec
end Vlpp
