import Verif.Model.Pipe
import Verif.Spec.Lazy
import Verif.Lemmas.AtorSources
import Verif.Lemmas.Sort

/-!
# What a program made of lazy list functions means: a list
-/
set_option autoImplicit false
namespace Vlpp

/-- the result of sorting a whole buffer (Props/SortProps.lean: a sorted permutation) -/
def QSort.result {α : Type} (ord : α → α → Ordering) (xs : List α) : List α :=
  match QSort.sort (fun a b => some (ord a b)) 0 xs.length 0 xs with
  | some (.ok _ ys) => ys
  | _ => xs

namespace Pipe

/-- the elements -/
def eval : {α : Type} → Pipe α → List α
  | _, .list xs => xs
  | _, .iter xs => xs
  | _, .range start count => (List.range count.toNat).map (fun (i : Nat) => start + i)
  | _, .empty => []
  | _, .dict d => d.keys.zip d.values
  | _, .group g m => g.keys.flatMap (fun k => (m k).map (fun v => (k, v)))
  | _, .select p f => p.eval.map f
  | _, .where' p f => p.eval.filter f
  | _, .concat p q => p.eval ++ q.eval
  | _, .pairwise p q => p.eval.zip q.eval
  | _, .take p n => p.eval.take n.toNat
  | _, .skip p n => p.eval.drop n.toNat
  | _, .repeat' p n => (List.replicate n.toNat p.eval).flatten
  | _, .distinct p ord => Spec.firsts (Spec.eqBy ord) p.eval
  | _, .reverse p => p.eval.reverse
  | _, .intersect p q ord =>
    Spec.firsts (Spec.eqBy ord) (p.eval.filter (fun x => q.eval.any (fun y => Spec.eqBy ord y x)))
  | _, .except p q ord =>
    Spec.firsts (Spec.eqBy ord) (p.eval.filter (fun x => !q.eval.any (fun y => Spec.eqBy ord y x)))
  | _, .union p q ord => Spec.firsts (Spec.eqBy ord) (p.eval ++ q.eval)
  | _, .selectMany p f => p.eval.flatMap (fun x => (f x).eval)
  | _, .evaluate p _ => p.eval
  | _, .orderBy p ord => QSort.result ord p.eval

/-- what `Evaluated()` returns: reading does not compute anything -/
def evaluated : {α : Type} → Pipe α → Bool
  | _, .list _ => true
  | _, .iter _ => true
  | _, .range _ _ => true
  | _, .empty => true
  | _, .dict _ => true
  | _, .group _ _ => true
  | _, .select _ _ => false
  | _, .where' _ _ => false
  | _, .concat p q => p.evaluated && q.evaluated
  | _, .pairwise p q => p.evaluated && q.evaluated
  | _, .take p _ => p.evaluated
  | _, .skip p _ => p.evaluated
  | _, .repeat' p _ => p.evaluated
  | _, .distinct _ _ => false
  | _, .reverse _ => true
  | _, .intersect _ _ _ => false
  | _, .except _ _ _ => false
  | _, .union _ _ _ => false
  | _, .selectMany p f => p.eval.all (fun x => (f x).evaluated)
  | _, .evaluate _ _ => true
  | _, .orderBy _ _ => true

/-- what `Index()` of a new enumerator returns -/
def start : {α : Type} → Pipe α → Int
  | _, .select p _ => p.start
  | _, .pairwise p _ => p.start
  | _, .take p _ => p.start
  | _, .skip p n => p.start - n
  | _, .evaluate p forceCopy => if !forceCopy && p.evaluated then p.start else -1
  | _, .list _ => -1
  | _, .iter _ => -1
  | _, .range _ _ => -1
  | _, .empty => -1
  | _, .dict _ => -1
  | _, .group _ _ => -1
  | _, .where' _ _ => -1
  | _, .concat _ _ => -1
  | _, .repeat' _ _ => -1
  | _, .distinct _ _ => -1
  | _, .reverse _ => -1
  | _, .intersect _ _ _ => -1
  | _, .except _ _ _ => -1
  | _, .union _ _ _ => -1
  | _, .selectMany _ _ => -1
  | _, .orderBy _ _ => -1

/-- No dictionary or group is enumerated directly: every enumerator supports `Reset` and `Clone` in every position. -/
def Full : {α : Type} → Pipe α → Prop
  | _, .list _ => True
  | _, .iter _ => True
  | _, .range _ _ => True
  | _, .empty => True
  | _, .dict _ => False
  | _, .group _ _ => False
  | _, .select p _ => p.Full
  | _, .where' p _ => p.Full
  | _, .concat p q => p.Full ∧ q.Full
  | _, .pairwise p q => p.Full ∧ q.Full
  | _, .take p _ => p.Full
  | _, .skip p _ => p.Full
  | _, .repeat' p _ => p.Full
  | _, .distinct p _ => p.Full
  | _, .reverse _ => True
  | _, .intersect p _ _ => p.Full
  | _, .except p _ _ => p.Full
  | _, .union p q _ => p.Full ∧ q.Full
  | _, .selectMany p f => p.Full ∧ ∀ x, (f x).Full
  | _, .evaluate p forceCopy => forceCopy = true ∨ p.evaluated = false ∨ p.Full
  | _, .orderBy _ _ => True

/-- The conditions under which the program is right:
`Take` of nothing is not applied to a sequence whose `Index()` starts below -1 (after `Skip`);
`Skip` skips a number of elements; `Repeat` is not applied to a dictionary or group directly;
comparisons are total preorders; dictionaries and groups are those reachable by their operations. -/
def Ok : {α : Type} → Pipe α → Prop
  | _, .list _ => True
  | _, .iter _ => True
  | _, .range _ _ => True
  | _, .empty => True
  | _, .dict d => d.keys.length = d.values.length
  | _, .group g m => ∀ (i : Nat) (h : i < g.keys.length), GroupC.getByIndex i g = .ok (m g.keys[i]) g
  | _, .select p _ => p.Ok
  | _, .where' p _ => p.Ok
  | _, .concat p q => p.Ok ∧ q.Ok
  | _, .pairwise p q => p.Ok ∧ q.Ok
  | _, .take p n => p.Ok ∧ (1 ≤ n ∨ n - 1 ≤ p.start)
  | _, .skip p n => p.Ok ∧ 0 ≤ n
  | _, .repeat' p _ => p.Ok ∧ p.Full
  | _, .distinct p ord => p.Ok ∧ Std.TransCmp ord
  | _, .reverse p => p.Ok
  | _, .intersect p q ord => p.Ok ∧ q.Ok ∧ Std.TransCmp ord
  | _, .except p q ord => p.Ok ∧ q.Ok ∧ Std.TransCmp ord
  | _, .union p q ord => p.Ok ∧ q.Ok ∧ Std.TransCmp ord
  | _, .selectMany p f => p.Ok ∧ ∀ x, (f x).Ok
  | _, .evaluate p _ => p.Ok
  | _, .orderBy p ord => p.Ok ∧ Std.TransCmp ord

end Pipe
end Vlpp
