import Verif.Model.CallList
import Verif.Spec.Calls
import Verif.Spec.Lazy

/-!
# What a program made of lazy list functions does

The sequence that the program stands for, together with the calls that are necessary to compute it.  Making the program may itself call
functions (`Reverse`, `Intersect`, `Except`, `SelectMany`, `Evaluate`); everything else only happens when elements are wanted.
-/
set_option autoImplicit false
namespace Vlpp.CallPipe
open Spec (Gen)
variable {W : Type}

/-- The calls made when the program is run, and the resulting sequence. -/
def meaning : {α : Type} → CallPipe W α → Cpp W (Gen W α)
  | _, .list xs => Cpp.pure' (.ofList xs)
  | _, .empty => Cpp.pure' .done
  | _, .select p f => Cpp.bind' p.meaning fun g => Cpp.pure' (g.map f)
  | _, .where' p f => Cpp.bind' p.meaning fun g => Cpp.pure' (g.filter f)
  | _, .concat p q => Cpp.bind' p.meaning fun g => Cpp.bind' q.meaning fun h => Cpp.pure' (g.append h)
  | _, .pairwise p q => Cpp.bind' p.meaning fun g => Cpp.bind' q.meaning fun h => Cpp.pure' (g.zip h)
  | _, .take p n => Cpp.bind' p.meaning fun g => Cpp.pure' (g.take n.toNat)
  | _, .skip p n => Cpp.bind' p.meaning fun g => Cpp.pure' (g.drop n.toNat)
  | _, .repeat' p n => Cpp.bind' p.meaning fun g => Cpp.pure' (g.replicate n.toNat)
  | _, .distinct p ord => Cpp.bind' p.meaning fun g => Cpp.pure' (g.firsts (Spec.eqBy ord) [])
  | _, .reverse p => Cpp.bind' p.meaning fun g => Cpp.bind' g.collect fun xs => Cpp.pure' (.ofList xs.reverse)
  | _, .intersect p q ord => Cpp.bind' p.meaning fun g => Cpp.bind' q.meaning fun h => Cpp.bind' h.collect fun xs =>
      Cpp.pure' ((g.filter (Gen.pureTest fun x => xs.any (fun y => Spec.eqBy ord y x))).firsts (Spec.eqBy ord) [])
  | _, .except p q ord => Cpp.bind' p.meaning fun g => Cpp.bind' q.meaning fun h => Cpp.bind' h.collect fun xs =>
      Cpp.pure' ((g.filter (Gen.pureTest fun x => !xs.any (fun y => Spec.eqBy ord y x))).firsts (Spec.eqBy ord) [])
  | _, .selectMany p f q => Cpp.bind' p.meaning fun g =>
      Cpp.bind' (g.foldM (fun l x => Cpp.bind' (f x) fun i => Cpp.bind' (q i).meaning fun h => Cpp.pure' (l ++ [h])) [])
        fun l => Cpp.pure' (.concat l)
  | _, .evaluate p _ => Cpp.bind' p.meaning fun g => Cpp.bind' g.collect fun xs => Cpp.pure' (.ofList xs)

/-- `Index()` of a new enumerator is -1: there is no `Skip` that shifts it. -/
def Fresh : {α : Type} → CallPipe W α → Prop
  | _, .select p _ => p.Fresh
  | _, .pairwise p _ => p.Fresh
  | _, .take p _ => p.Fresh
  | _, .skip p n => p.Fresh ∧ n = 0
  | _, .evaluate p _ => p.Fresh
  | _, .list _ => True
  | _, .empty => True
  | _, .where' _ _ => True
  | _, .concat _ _ => True
  | _, .repeat' _ _ => True
  | _, .distinct _ _ => True
  | _, .reverse _ => True
  | _, .intersect _ _ _ => True
  | _, .except _ _ _ => True
  | _, .selectMany _ _ _ => True

/-- The conditions under which the program is right: `Take` of nothing is not applied after `Skip` (C18); `Skip` skips a number of elements;
comparisons are total preorders. -/
def Ok : {α : Type} → CallPipe W α → Prop
  | _, .list _ => True
  | _, .empty => True
  | _, .select p _ => p.Ok
  | _, .where' p _ => p.Ok
  | _, .concat p q => p.Ok ∧ q.Ok
  | _, .pairwise p q => p.Ok ∧ q.Ok
  | _, .take p n => p.Ok ∧ (1 ≤ n ∨ p.Fresh)
  | _, .skip p n => p.Ok ∧ 0 ≤ n
  | _, .repeat' p _ => p.Ok
  | _, .distinct p ord => p.Ok ∧ Std.TransCmp ord
  | _, .reverse p => p.Ok
  | _, .intersect p q ord => p.Ok ∧ q.Ok ∧ Std.TransCmp ord
  | _, .except p q ord => p.Ok ∧ q.Ok ∧ Std.TransCmp ord
  | _, .selectMany p _ q => p.Ok ∧ ∀ i, (q i).Ok
  | _, .evaluate p _ => p.Ok

end Vlpp.CallPipe
