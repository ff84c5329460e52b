import Verif.Model.Outcome

/-!
# `List<T>` seen as the sequence it stores

`Props/ListProps.lean` proves that every member function of `List<T>` acts on the stored sequence as
`Spec.seqStep` says.  Containers built from `List<T>` (Dictionary, Group, ...) are modelled on top of these
sequence-level functions; `Lemmas/SeqList.lean` proves that they are exactly `Spec.seqStep`.
-/
set_option autoImplicit false
namespace Vlpp
namespace SeqList
variable {α κ : Type}

/-- List.h 286-290 `Get` / `operator[]` (295-299, 669-673) -/
def get (i : Int) : Cpp (List α) α := do
  let xs ← Cpp.get
  Cpp.check (i ≥ 0 ∧ i < xs.length)
  match xs[i.toNat]? with
  | some v => return v
  | none => Cpp.faulting

/-- List.h 278-281 `Count` -/
def count : Cpp (List α) Int := do
  let xs ← Cpp.get
  return xs.length

/-- List.h 605-623 `Insert` -/
def insert (i : Int) (v : α) : Cpp (List α) Int := do
  let xs ← Cpp.get
  Cpp.check (i ≥ 0 ∧ i ≤ xs.length)
  Cpp.set (xs.take i.toNat ++ v :: xs.drop i.toNat)
  return i

/-- List.h 588-599 `Add` -/
def add (v : α) : Cpp (List α) Int := do
  let xs ← Cpp.get
  insert xs.length v

/-- List.h 646-662 `Set`, or assignment through `operator[]` (669-673) -/
def setAt (i : Int) (v : α) : Cpp (List α) Bool := do
  let xs ← Cpp.get
  Cpp.check (i ≥ 0 ∧ i < xs.length)
  Cpp.set (xs.set i.toNat v)
  return true

/-- List.h 507-515 `RemoveAt` -/
def removeAt (i : Int) : Cpp (List α) Bool := do
  let xs ← Cpp.get
  Cpp.check (i ≥ 0 ∧ i < xs.length)
  Cpp.set (xs.take i.toNat ++ xs.drop (i.toNat + 1))
  return true

/-- List.h 573-583 `IndexOf` -/
def indexOf (eq : α → κ → Bool) (k : κ) : Cpp (List α) Int := do
  let xs ← Cpp.get
  match xs.findIdx? (fun x => eq x k) with
  | some i => return i
  | none => return -1

/-- List.h 565-568 `Contains` -/
def contains (eq : α → κ → Bool) (k : κ) : Cpp (List α) Bool := do
  let i ← indexOf eq k
  return i ≠ -1

/-- List.h 628-640 `Remove` -/
def remove (eq : α → κ → Bool) (k : κ) : Cpp (List α) Bool := do
  let i ← indexOf eq k
  let xs ← Cpp.get
  if i ≥ 0 ∧ i < xs.length then
    let _ ← removeAt i
    return true
  else
    return false

/-- List.h 534-543 `Clear` -/
def clear : Cpp (List α) Bool := do
  Cpp.set []
  return true

end SeqList
end Vlpp
