import Verif.Model.Str

/-!
# What strings are: sequences of characters

A program holds string objects; all there is to know about an object is its sequence of characters (`none`: destroyed).
-/
set_option autoImplicit false
namespace Vlpp
namespace Spec
namespace Str
open Strings

variable {α : Type} [Zero α] [DecidableEq α]

abbrev St (α : Type) := List (Option (List α))

/-- characters of an object -/
def get (st : St α) (j : Nat) : List α := (st[j]?.join).getD []

/-- the object exists -/
def Alive (st : St α) (j : Nat) : Prop := ∃ xs, st[j]? = some (some xs)

/-- the characters before the zero -/
def upToZero (cs : List α) : List α := cs.takeWhile (fun c => decide (c ≠ 0))

/-- the text a `const T*` stands for; `none`: null pointer -/
def text (st : St α) : PtrArg α → Option (List α)
  | .null => none
  | .mem _ cs => some (upToZero cs)
  | .bufferOf j => some (upToZero (get st j))

def LegalPtr (st : St α) : PtrArg α → Prop
  | .null => True
  | .mem _ cs => 0 ∈ cs
  | .bufferOf j => Alive st j

/-- The caller's obligations: objects that exist, memory that is zero-terminated or as long as announced. -/
def Legal (st : St α) : Op α → Prop
  | .empty => True
  | .copy j => Alive st j
  | .move j => Alive st j
  | .fromPtr p => LegalPtr st p
  | .takeOver cs n => n < cs.length
  | .fromChar _ => True
  | .copyFrom cs n => n ≤ cs.length
  | .unmanaged _ cs => 0 ∈ cs
  | .cast j => Alive st j
  | .assign i j => Alive st i ∧ Alive st j
  | .moveAssign i j => Alive st i ∧ Alive st j
  | .append i j => Alive st i ∧ Alive st j
  | .appendPtr i p => Alive st i ∧ LegalPtr st p
  | .concat i j => Alive st i ∧ Alive st j
  | .concatPtr i p => Alive st i ∧ LegalPtr st p
  | .ptrConcat p j => LegalPtr st p ∧ Alive st j
  | .left i _ => Alive st i
  | .right i _ => Alive st i
  | .sub i _ _ => Alive st i
  | .remove i _ _ => Alive st i
  | .insert i _ j => Alive st i ∧ Alive st j
  | .buffer i => Alive st i
  | .destroy i => Alive st i

/-- a new object -/
def new (st : St α) (xs : List α) : St α := st ++ [some xs]

/-- What an operation does to the sequences; `none`: an Error is raised.  `sub` and `remove` accept negative counts as
long as `index + count` is a position: that is what the class does, see `C36_partial` and `C36_violated`. -/
def step (st : St α) : Op α → Option (St α)
  | .empty => some (new st [])
  | .copy j => some (new st (get st j))
  | .move j => some (new (st.set j (some [])) (get st j))
  | .fromPtr p => (text st p).map (new st)
  | .takeOver cs n => if 0 ≤ n ∧ cs[n.toNat]? = some 0 then some (new st (cs.take n.toNat)) else none
  | .fromChar c => some (new st (if c = 0 then [] else [c]))
  | .copyFrom cs n => if 0 ≤ n then some (new st (cs.take n.toNat)) else none
  | .unmanaged _ cs => some (new st (upToZero cs))
  | .cast j => some (new st (get st j))
  | .assign i j => some (st.set i (some (get st j)))
  | .moveAssign i j => some (if i = j then st else (st.set i (some (get st j))).set j (some []))
  | .append i j => some (st.set i (some (get st i ++ get st j)))
  | .appendPtr i p => some (st.set i (some (get st i ++ (text st p).getD [])))
  | .concat i j => some (new st (get st i ++ get st j))
  | .concatPtr i p => some (new st (get st i ++ (text st p).getD []))
  | .ptrConcat p j => (text st p).map (fun x => new st (x ++ get st j))
  | .left i n => if 0 ≤ n ∧ n ≤ (get st i).length then some (new st ((get st i).take n.toNat)) else none
  | .right i n =>
    if 0 ≤ n ∧ n ≤ (get st i).length then some (new st ((get st i).drop ((get st i).length - n.toNat))) else none
  | .sub i index n =>
    if (0 ≤ index ∧ index ≤ (get st i).length) ∧ 0 ≤ index + n ∧ index + n ≤ (get st i).length then
      some (new st (((get st i).drop index.toNat).take n.toNat))
    else none
  | .remove i index n =>
    if (0 ≤ index ∧ index < (get st i).length) ∧ 0 ≤ index + n ∧ index + n ≤ (get st i).length then
      some (new st ((get st i).take index.toNat ++ (get st i).drop (index + n).toNat))
    else none
  | .insert i index j =>
    if 0 ≤ index ∧ index ≤ (get st i).length then
      some (new st ((get st i).take index.toNat ++ get st j ++ (get st i).drop index.toNat))
    else none
  | .buffer _ => some st
  | .destroy i => some (st.set i none)

/-- What the documentation says: `Sub` and `Remove` raise an Error unless position and size are in range, so also if the
size is negative. -/
def documented (st : St α) : Op α → Option (St α)
  | .sub i index n =>
    if 0 ≤ index ∧ 0 ≤ n ∧ index + n ≤ (get st i).length then
      some (new st (((get st i).drop index.toNat).take n.toNat))
    else none
  | .remove i index n =>
    if 0 ≤ index ∧ index < (get st i).length ∧ 0 ≤ n ∧ index + n ≤ (get st i).length then
      some (new st ((get st i).take index.toNat ++ (get st i).drop (index.toNat + n.toNat)))
    else none
  | op => step st op

/-- no negative size -/
def SizeOk : Op α → Prop
  | .sub _ _ n => 0 ≤ n
  | .remove _ _ n => 0 ≤ n
  | _ => True

/-- Object `k` shows the characters `xs`: by `Length()`, and by `operator[]` at every position. -/
def ShowsAt (w : World α) (k : Nat) (xs : List α) : Prop :=
  ∃ s, w.objs[k]? = some (some s) ∧ s.length = xs.length ∧
    ∀ i : Int, at' s i w.heap =
      if 0 ≤ i ∧ i < xs.length then .ok ((xs.drop i.toNat).take 1) w.heap else .err w.heap

/-- All objects show what the list says. -/
def Shows (w : World α) (st : St α) : Prop :=
  w.objs.length = st.length ∧
    (∀ k xs, st[k]? = some (some xs) → ShowsAt w k xs) ∧ ∀ k : Nat, st[k]? = some none → w.objs[k]? = some none

/-- A history: after an Error the program goes on with the objects it has. -/
def LegalRun (st : St α) : List (Op α) → Prop
  | [] => True
  | op :: ops => Legal st op ∧ LegalRun ((step st op).getD st) ops

/-- the sequences after a history -/
def run (st : St α) : List (Op α) → St α
  | [] => st
  | op :: ops => run ((step st op).getD st) ops

/-- the existing objects an operation is meant to change -/
def targets : Op α → List Nat
  | .move j => [j]
  | .assign i _ => [i]
  | .moveAssign i j => [i, j]
  | .append i _ => [i]
  | .appendPtr i _ => [i]
  | .destroy i => [i]
  | _ => []

end Str
end Spec
end Vlpp
