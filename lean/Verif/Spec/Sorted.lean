import Verif.Spec.Seq

/-!
# Specification: a sorted multiset stored as a sequence

`ord` is a comparison of keys, `key` gives the key of an element.
-/
set_option autoImplicit false
namespace Vlpp.Spec
variable {α κ : Type}

/-- Elements appear in ascending (non-descending) key order. -/
def Ascending (ord : κ → κ → Ordering) (key : α → κ) (xs : List α) : Prop :=
  xs.Pairwise (fun a b => ord (key a) (key b) ≠ .gt)

/-- Operations of a sorted list. -/
inductive SortedOp (α κ : Type) where
  | add (v : α)
  | remove (k : κ)
  | removeAt (i : Int)
  | removeRange (i n : Int)
  | clear
  | get (i : Int)
  | count
  | indexOf (k : κ)
  | contains (k : κ)

/-- What each operation may do to the stored sequence `xs` (next: `xs'`) and what the caller may see.
Where equal elements are involved the position is not determined. -/
inductive SortedStep (ord : κ → κ → Ordering) (key : α → κ) :
    List α → SortedOp α κ → List α → SeqRet α → Prop where
  /-- the new element is put at the returned position, the others keep their order, the result is ascending -/
  | add {xs v} (i : Nat) : i ≤ xs.length → Ascending ord key (xs.take i ++ v :: xs.drop i) →
      SortedStep ord key xs (.add v) (xs.take i ++ v :: xs.drop i) (.index i)
  /-- exactly one element with an equal key is removed -/
  | removeHit {xs k} (i : Nat) (h : i < xs.length) : ord (key xs[i]) k = .eq →
      SortedStep ord key xs (.remove k) (xs.take i ++ xs.drop (i + 1)) (.flag true)
  | removeMiss {xs k} : (∀ x ∈ xs, ord (key x) k ≠ .eq) → SortedStep ord key xs (.remove k) xs (.flag false)
  | removeAt {xs i} (h : 0 ≤ i ∧ i < (xs.length : Int)) :
      SortedStep ord key xs (.removeAt i) (xs.take i.toNat ++ xs.drop (i.toNat + 1)) (.flag true)
  | removeAtErr {xs i} (h : ¬ (0 ≤ i ∧ i < (xs.length : Int))) : SortedStep ord key xs (.removeAt i) xs .error
  | removeRange {xs i n} (h : 0 ≤ i ∧ 0 ≤ n ∧ i + n ≤ (xs.length : Int)) :
      SortedStep ord key xs (.removeRange i n) (xs.take i.toNat ++ xs.drop (i + n).toNat) (.flag true)
  | removeRangeErr {xs i n} (h : ¬ (0 ≤ i ∧ 0 ≤ n ∧ i + n ≤ (xs.length : Int))) :
      SortedStep ord key xs (.removeRange i n) xs .error
  | clear {xs} : SortedStep ord key xs .clear [] (.flag true)
  | get {xs} (i : Nat) (h : i < xs.length) : SortedStep ord key xs (.get i) xs (.value xs[i])
  | getErr {xs i} (h : ¬ (0 ≤ i ∧ i < (xs.length : Int))) : SortedStep ord key xs (.get i) xs .error
  | count {xs} : SortedStep ord key xs .count xs (.index xs.length)
  | indexOfHit {xs k} (i : Nat) (h : i < xs.length) : ord (key xs[i]) k = .eq →
      SortedStep ord key xs (.indexOf k) xs (.index i)
  | indexOfMiss {xs k} : (∀ x ∈ xs, ord (key x) k ≠ .eq) → SortedStep ord key xs (.indexOf k) xs (.index (-1))
  | containsYes {xs k} : (∃ x ∈ xs, ord (key x) k = .eq) → SortedStep ord key xs (.contains k) xs (.flag true)
  | containsNo {xs k} : (∀ x ∈ xs, ord (key x) k ≠ .eq) → SortedStep ord key xs (.contains k) xs (.flag false)

/-- A history of operations. -/
inductive SortedRun (ord : κ → κ → Ordering) (key : α → κ) :
    List α → List (SortedOp α κ) → List α → List (SeqRet α) → Prop where
  | nil {xs} : SortedRun ord key xs [] xs []
  | cons {xs op xs' r ops xs'' rs} : SortedStep ord key xs op xs' r → SortedRun ord key xs' ops xs'' rs →
      SortedRun ord key xs (op :: ops) xs'' (r :: rs)

end Vlpp.Spec
