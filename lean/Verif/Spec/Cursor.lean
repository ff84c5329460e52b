import Verif.Spec.Moves
import Verif.Spec.Map
import Verif.Spec.Seq

/-!
# Specification: enumerators of containers that change

Programs over a family of containers and a family of enumerators, both numbered by `Nat`.  The containers are changed in any way between
the calls on the enumerators.
-/
set_option autoImplicit false
namespace Vlpp.Spec
variable {A C Op Ret α κ ν : Type}

inductive CursorOp (Op : Type) where
  /-- something happens to the containers -/
  | object (op : MoveOp Op)
  /-- enumerator `e` is replaced by `containers[i].CreateEnumerator()` -/
  | create (e i : Nat)
  /-- enumerator `e` is replaced by `enumerators[f]->Clone()` -/
  | clone (e f : Nat)
  | next (e : Nat)
  /-- call `Current()` and read what it returns -/
  | current (e : Nat)
  | index (e : Nat)
  | reset (e : Nat)

inductive CursorRet (Ret α : Type) where
  | object (r : Ret)
  | done
  | flag (b : Bool)
  | index (n : Int)
  | item (v : α)
  | error
  deriving DecidableEq, Repr

/-- What enumerators are (`C`), for containers that are values of type `A` and items of type `α`. -/
structure Cursors (A C Op α : Type) where
  create : Nat → C
  clone : C → C
  /-- `Next` makes the enumerator this one and returns this -/
  Next : (Nat → A) → C → C → Bool → Prop
  /-- the program may call `Current` -/
  Readable : (Nat → A) → C → Prop
  /-- what `Current` may return; `none`: it raises an error -/
  Current : (Nat → A) → C → Option α → Prop
  Index : (Nat → A) → C → Int → Prop
  /-- `Reset` makes the enumerator this one; `false`: it raises an error -/
  Reset : (Nat → A) → C → C → Bool → Prop
  /-- the enumerator after the containers were changed -/
  changed : MoveOp Op → C → C

/-- replace one enumerator -/
def replace (cs : Nat → C) (e : Nat) (c : C) : Nat → C := fun n => if n = e then c else cs n

/-- One step of a program. -/
inductive CursorStep (K : Cursors A C Op α) (Step : A → Op → A → Ret → Prop) (empty : A) (moved refused : Ret)
    (xs : Nat → A) (cs : Nat → C) : CursorOp Op → (Nat → A) → (Nat → C) → CursorRet Ret α → Prop where
  | object (op : MoveOp Op) (xs' : Nat → A) (r : Ret) : MoveStep Step empty moved refused xs op xs' r →
      CursorStep K Step empty moved refused xs cs (.object op) xs' (fun e => K.changed op (cs e)) (.object r)
  | create (e i : Nat) : CursorStep K Step empty moved refused xs cs (.create e i) xs (replace cs e (K.create i)) .done
  | clone (e f : Nat) : CursorStep K Step empty moved refused xs cs (.clone e f) xs (replace cs e (K.clone (cs f))) .done
  | next (e : Nat) (c : C) (b : Bool) : K.Next xs (cs e) c b →
      CursorStep K Step empty moved refused xs cs (.next e) xs (replace cs e c) (.flag b)
  | current (e : Nat) (v : α) : K.Current xs (cs e) (some v) →
      CursorStep K Step empty moved refused xs cs (.current e) xs cs (.item v)
  | noCurrent (e : Nat) : K.Current xs (cs e) none → CursorStep K Step empty moved refused xs cs (.current e) xs cs .error
  | index (e : Nat) (n : Int) : K.Index xs (cs e) n → CursorStep K Step empty moved refused xs cs (.index e) xs cs (.index n)
  | reset (e : Nat) (c : C) : K.Reset xs (cs e) c true →
      CursorStep K Step empty moved refused xs cs (.reset e) xs (replace cs e c) .done
  | resetFails (e : Nat) (c : C) : K.Reset xs (cs e) c false →
      CursorStep K Step empty moved refused xs cs (.reset e) xs (replace cs e c) .error

inductive CursorRun (K : Cursors A C Op α) (Step : A → Op → A → Ret → Prop) (empty : A) (moved refused : Ret) :
    (Nat → A) → (Nat → C) → List (CursorOp Op) → (Nat → A) → (Nat → C) → List (CursorRet Ret α) → Prop where
  | nil (xs : Nat → A) (cs : Nat → C) : CursorRun K Step empty moved refused xs cs [] xs cs []
  | cons {xs xs' xs'' : Nat → A} {cs cs' cs'' : Nat → C} {op : CursorOp Op} {ops : List (CursorOp Op)} {r : CursorRet Ret α}
      {rs : List (CursorRet Ret α)} : CursorStep K Step empty moved refused xs cs op xs' cs' r →
      CursorRun K Step empty moved refused xs' cs' ops xs'' cs'' rs →
      CursorRun K Step empty moved refused xs cs (op :: ops) xs'' cs'' (r :: rs)

/-- The program calls `Current` only where it may, and the functions of the containers only where they are defined. -/
def Careful (K : Cursors A C Op α) (Step : A → Op → A → Ret → Prop) (Valid : A → Op → Prop) (empty : A) (moved refused : Ret)
    (xs : Nat → A) (cs : Nat → C) : List (CursorOp Op) → Prop
  | [] => True
  | op :: ops => (∀ e, op = .current e → K.Readable xs (cs e)) ∧ (∀ i o, op = .object (.call i o) → Valid (xs i) o) ∧
      ∀ xs' cs' r, CursorStep K Step empty moved refused xs cs op xs' cs' r → Careful K Step Valid empty moved refused xs' cs' ops

/-- An enumerator of a list: a position in the list, whatever the list contains. -/
structure Cursor where
  container : Nat
  index : Int

/-- Enumerators of lists: `Current` is the element that is at the position now, or an error. -/
def listCursors : Cursors (List α) Cursor Op α where
  create i := ⟨i, -1⟩
  clone c := c
  Next xs c c' b := c' = ⟨c.container, c.index + 1⟩ ∧ (b = true ↔ 0 ≤ c.index + 1 ∧ c.index + 1 < (xs c.container).length)
  Readable _ _ := True
  Current xs c o := (0 ≤ c.index → o = (xs c.container)[c.index.toNat]?) ∧ (c.index < 0 → o = none)
  Index _ c n := n = c.index
  Reset _ c c' b := c' = ⟨c.container, -1⟩ ∧ b = true
  changed _ c := c

/-- Enumerators of arrays, in which elements may have no value (`none`) yet, which must not be read. -/
def arrayCursors : Cursors (List (Option α)) Cursor Op α where
  create i := ⟨i, -1⟩
  clone c := c
  Next xs c c' b := c' = ⟨c.container, c.index + 1⟩ ∧ (b = true ↔ 0 ≤ c.index + 1 ∧ c.index + 1 < (xs c.container).length)
  Readable xs c := 0 ≤ c.index → (xs c.container)[c.index.toNat]? ≠ some none
  Current xs c o := (0 ≤ c.index → (xs c.container)[c.index.toNat]? = o.map some) ∧ (c.index < 0 → o = none)
  Index _ c n := n = c.index
  Reset _ c c' b := c' = ⟨c.container, -1⟩ ∧ b = true
  changed _ c := c

/-- What is known about the pair that an enumerator of a dictionary holds. -/
inductive Shown where
  /-- there is none -/
  | nothing
  /-- it is the entry at the position of the enumerator -/
  | entry
  /-- it may refer to memory that was released -/
  | unknown
  deriving DecidableEq

/-- The pair may have been left behind. -/
def Shown.outdated : Shown → Shown
  | .nothing => .nothing
  | _ => .unknown

structure PairCursor where
  container : Nat
  index : Int
  shown : Shown

def MapOp.Modifies : MapOp κ ν → Bool
  | .get _ => false
  | .contains _ => false
  | _ => true

/-- The operation changes container `n`, or may do so. -/
def MoveOp.Changes (n : Nat) : MoveOp (MapOp κ ν) → Bool
  | .call i op => n = i && op.Modifies
  | .moveAssign i j => n = i || n = j
  | .moveConstruct i j => n = i || n = j
  | .renew i => n = i

/-- Enumerators of dictionaries: `Next` goes to the entry that is at the next position now, in ascending order of keys; this entry may be
read until the dictionary is changed. -/
def mapCursors (ord : κ → κ → Ordering) : Cursors (κ → Option ν) PairCursor (MapOp κ ν) (κ × ν) where
  create i := ⟨i, -1, .nothing⟩
  clone c := ⟨c.container, c.index, .nothing⟩
  Next ms c c' b := ∃ ks vs, Lists ord (ms c.container) ks vs ∧ (b = true ↔ 0 ≤ c.index + 1 ∧ c.index + 1 < ks.length) ∧
    c' = ⟨c.container, c.index + 1, if b then .entry else c.shown.outdated⟩
  Readable _ c := c.shown ≠ .unknown
  Current ms c o :=
    match c.shown with
    | .nothing => o = none
    | .entry => 0 ≤ c.index ∧ ∃ ks vs k v, Lists ord (ms c.container) ks vs ∧ ks[c.index.toNat]? = some k ∧
        vs[c.index.toNat]? = some v ∧ o = some (k, v)
    | .unknown => False
  Index _ c n := n = c.index
  Reset _ c c' b := c' = ⟨c.container, -1, c.shown.outdated⟩ ∧ b = false
  changed op c := if op.Changes c.container then { c with shown := c.shown.outdated } else c

end Vlpp.Spec
