/-!
# Reachability in a directed graph
-/
set_option autoImplicit false
namespace Vlpp.Spec

/-- `Reaches E a b`: a path of zero or more edges leads from `a` to `b`. -/
inductive Reaches {α : Type} (E : α → α → Prop) : α → α → Prop
  | refl (a : α) : Reaches E a a
  | step {a b c : α} (h : E a b) (t : Reaches E b c) : Reaches E a c

namespace Reaches
variable {α : Type} {E : α → α → Prop}

theorem single {a b : α} (h : E a b) : Reaches E a b := .step h (.refl b)

theorem trans {a b c : α} (h : Reaches E a b) (t : Reaches E b c) : Reaches E a c := by
  induction h with
  | refl => exact t
  | step h _ ih => exact .step h (ih t)

theorem tail {a b c : α} (h : Reaches E a b) (t : E b c) : Reaches E a c := h.trans (.single t)

theorem mono {F : α → α → Prop} (hEF : ∀ a b, E a b → F a b) {a b : α} (h : Reaches E a b) : Reaches F a b := by
  induction h with
  | refl => exact .refl _
  | step h _ ih => exact .step (hEF _ _ h) ih

theorem swap {a b : α} (h : Reaches E a b) : Reaches (fun x y => E y x) b a := by
  induction h with
  | refl => exact .refl _
  | step h _ ih => exact ih.tail h

/-- a set that contains the beginning of each edge whose end it contains, contains the beginning of each path -/
theorem closed {A : α → Prop} (hA : ∀ a b, E a b → A b → A a) {a b : α} (h : Reaches E a b) (hb : A b) : A a := by
  induction h with
  | refl => exact hb
  | step h _ ih => exact hA _ _ h (ih hb)

end Reaches
end Vlpp.Spec
