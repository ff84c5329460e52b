import Verif.Spec.Seq

/-!
# Specification: objects grouped into sub classes
-/
set_option autoImplicit false
namespace Vlpp.Spec
variable {τ σ : Type}

/-- `sm x` is the sub class of `x`, if there is one.  Two objects belong together if they are equal, or if they have
equal sub classes. -/
def SameClass (ord : τ → τ → Ordering) (sord : σ → σ → Ordering) (sm : τ → Option σ) (x y : τ) : Prop :=
  ord x y = .eq ∨ ∃ v w, sm x = some v ∧ sm y = some w ∧ sord v w = .eq

/-- `classes[a]` are positions in `items`; `R x y` says that the object `x` depends on the object `y`.  Class `a` depends
on class `b` if an object of the one depends on an object of the other. -/
def ClassDepAt (eq : τ → τ → Bool) (items : List τ) (classes : List (List Int)) (R : τ → τ → Prop) (a b : Int) : Prop :=
  ∃ (x y : τ) (i j : Nat) (A B : List Int), R x y ∧ a = i ∧ b = j ∧ classes[i]? = some A ∧ classes[j]? = some B ∧
    firstIndex eq items x ∈ A ∧ firstIndex eq items y ∈ B

/-- `classes` is the division of the positions `0 .. items.length - 1` by `SameClass`. -/
structure Divides (ord : τ → τ → Ordering) (sord : σ → σ → Ordering) (sm : τ → Option σ) (items : List τ)
    (classes : List (List Int)) : Prop where
  /-- every position is in exactly one class, once -/
  nodup : classes.flatten.Nodup
  positions : ∀ v : Int, v ∈ classes.flatten ↔ 0 ≤ v ∧ v < items.length
  nonempty : [] ∉ classes
  /-- two positions are in the same class exactly if the objects belong together -/
  same : ∀ (i j : Nat) (x y : τ), items[i]? = some x → items[j]? = some y →
    ((∃ C ∈ classes, (i : Int) ∈ C ∧ (j : Int) ∈ C) ↔ SameClass ord sord sm x y)

end Vlpp.Spec
