import Verif.Spec.CallOrder

/-! # Sequences of comparisons -/
set_option autoImplicit false
namespace Vlpp.Spec
open QSortE (Answer)
variable {W α κ : Type}

theorem compares_snoc {f : W → α → κ → Answer × W} {l : List (α × κ × Answer)} {w w1 w2 : W} {a : α} {b : κ} {r : Answer}
    (h : Compares f w l w1) (e : f w1 a b = (r, w2)) : Compares f w (l ++ [(a, b, r)]) w2 := by
  induction l generalizing w with
  | nil => simp only [Compares] at h; subst h; exact ⟨w2, e, rfl⟩
  | cons c l ih =>
    obtain ⟨a', b', r'⟩ := c
    obtain ⟨w3, e', h'⟩ := h
    exact ⟨w3, e', ih h'⟩

theorem compares_append {f : W → α → κ → Answer × W} {l l' : List (α × κ × Answer)} {w w1 w2 : W}
    (h : Compares f w l w1) (h' : Compares f w1 l' w2) : Compares f w (l ++ l') w2 := by
  induction l generalizing w with
  | nil => simp only [Compares] at h; subst h; exact h'
  | cons c l ih =>
    obtain ⟨a', b', r'⟩ := c
    obtain ⟨w3, e', h1⟩ := h
    exact ⟨w3, e', ih h1⟩

end Vlpp.Spec
