import Verif.Model.CallList
import Verif.Spec.Resume
import Verif.Spec.Lazy

/-!
# The sequence that a program made of lazy list functions stands for, when one goes on after an exception

Only for programs whose functions are all called by `Next`: `Reverse`, `Intersect`, `Except`, `SelectMany` and `Evaluate` enumerate while the
lazy list is made (C86, C90).
-/
set_option autoImplicit false
namespace Vlpp.CallPipe
open Spec (Plan)
variable {W : Type}

/-- No function enumerates a lazy list while another one is made. -/
def Delayed : {α : Type} → CallPipe W α → Prop
  | _, .list _ => True
  | _, .empty => True
  | _, .select p _ => p.Delayed
  | _, .where' p _ => p.Delayed
  | _, .concat p q => p.Delayed ∧ q.Delayed
  | _, .pairwise p q => p.Delayed ∧ q.Delayed
  | _, .take p _ => p.Delayed
  | _, .skip p _ => p.Delayed
  | _, .repeat' p _ => p.Delayed
  | _, .distinct p ord => p.Delayed ∧ Std.TransCmp ord
  | _, .reverse _ => False
  | _, .intersect _ _ _ => False
  | _, .except _ _ _ => False
  | _, .selectMany _ _ _ => False
  | _, .evaluate _ _ => False

/-- The sequence; nothing is said about programs that are not `Delayed`. -/
def plan : {α : Type} → CallPipe W α → Plan W α
  | _, .list xs => .ofList xs
  | _, .empty => .done
  | _, .select p f => p.plan.map f
  | _, .where' p f => p.plan.filter f
  | _, .concat p q => p.plan.append q.plan
  | _, .pairwise p q => p.plan.zip q.plan
  | _, .take p n => p.plan.take n.toNat
  | _, .skip p n => p.plan.drop n.toNat
  | _, .repeat' p n => p.plan.replicate n.toNat
  | _, .distinct p ord => p.plan.firsts (Spec.eqBy ord) []
  | _, .reverse _ => .done
  | _, .intersect _ _ _ => .done
  | _, .except _ _ _ => .done
  | _, .selectMany _ _ _ => .done
  | _, .evaluate _ _ => .done

/-- `Index()` counts the elements that were delivered, whatever was thrown in between. -/
def Counts : {α : Type} → CallPipe W α → Prop
  | _, .list _ => True
  | _, .empty => True
  | _, .select p f => p.Counts ∧ ∀ x w w', f x w ≠ .err w'
  | _, .where' _ _ => True
  | _, .take p _ => p.Counts
  | _, .repeat' _ _ => True
  | _, .distinct _ _ => True
  | _, .concat _ _ => False
  | _, .pairwise _ _ => False
  | _, .skip _ _ => False
  | _, .reverse _ => False
  | _, .intersect _ _ _ => False
  | _, .except _ _ _ => False
  | _, .selectMany _ _ _ => False
  | _, .evaluate _ _ => False

/-- The conditions under which one may go on: `Take` needs an `Index()` that counts, nothing throws while `Skip` skips, and the first
sequence of `Pairwise` is only data. -/
def Resumes : {α : Type} → CallPipe W α → Prop
  | _, .list _ => True
  | _, .empty => True
  | _, .select p _ => p.Resumes
  | _, .where' p _ => p.Resumes
  | _, .concat p q => p.Resumes ∧ q.Resumes
  | _, .pairwise p q => p.Resumes ∧ q.Resumes ∧ p.plan.Quiet
  | _, .take p _ => p.Resumes ∧ p.Counts
  | _, .skip p _ => p.Resumes ∧ p.plan.Sure
  | _, .repeat' p _ => p.Resumes
  | _, .distinct p ord => p.Resumes ∧ Std.TransCmp ord
  | _, .reverse _ => False
  | _, .intersect _ _ _ => False
  | _, .except _ _ _ => False
  | _, .selectMany _ _ _ => False
  | _, .evaluate _ _ => False

end Vlpp.CallPipe
