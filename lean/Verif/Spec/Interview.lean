import Verif.Model.Outcome

/-!
# Asking a function about all pairs

What a caller of `PartialOrderingProcessor::InitWithFunc` sees of the calls of their function.
-/
set_option autoImplicit false
namespace Vlpp.Spec
section
variable {S τ : Type}

/-- the pairs of the elements of `items`: row by row -/
def allPairs (items : List τ) : List (τ × τ) := items.flatMap fun x => items.map fun y => (x, y)

/-- `f` is called with these arguments, in this order and with nothing in between, and returns these answers -/
inductive Answered (f : τ → τ → Cpp S Bool) : List (τ × τ) → S → List Bool → S → Prop
  | done (s : S) : Answered f [] s [] s
  | next {x y : τ} {qs : List (τ × τ)} {s s1 s2 : S} {b : Bool} {bs : List Bool} (call : f x y s = .ok b s1)
      (rest : Answered f qs s1 bs s2) : Answered f ((x, y) :: qs) s (b :: bs) s2

/-- `f` answers some of the questions and throws when it is asked the next one -/
def CutShort (f : τ → τ → Cpp S Bool) (qs : List (τ × τ)) (s s' : S) : Prop :=
  ∃ before x y after bs s1, qs = before ++ (x, y) :: after ∧ Answered f before s bs s1 ∧ f x y s1 = .err s'

/-- the questions to which the answer was yes -/
def agreed (qs : List (τ × τ)) (bs : List Bool) : List (τ × τ) := ((qs.zip bs).filter (·.2)).map (·.1)
end
end Vlpp.Spec
